import Verif.Spec.DirectionalFit
import Mathlib.Tactic.Linarith
import Mathlib.Tactic.FinCases
import Mathlib.Tactic.NormNum

/-!
# C143: the fit keeps the best of its restarts (directional.py)
-/

namespace Verif.DirectionalFit
open Verif.Spec

variable {S ρ G : Type} {N K : ℕ}

lemma toBot_eq {o : Option ℝ} {p : ℝ} : toBot o = ↑p ↔ o = some p := by
  cases o with
  | none => simp [toBot]
  | some b => simp [toBot, WithBot.coe_inj]

lemma improved_eq (lib : Library S ρ G N K) (s : S) : mStep lib s (eStep lib s).2 = improved lib s := rfl

lemma bound_eq (lib : Library S ρ G N K) (s : S) :
    lib.computeLowerBound (mStep lib s (eStep lib s).2) (eStep lib s).2 (eStep lib s).1 = boundOf lib s := rfl

lemma settled_iff (lib : Library S ρ G N K) (tol : ℝ) (before : Option ℝ) (s : S) (j : ℕ) :
    (∃ p : ℝ, toBot (boundAfter lib before s j) = ↑p ∧ |boundOf lib ((improved lib)^[j] s) - p| < tol)
      ↔ Settled lib tol before s j := by
  unfold Settled
  constructor
  · rintro ⟨p, h1, h2⟩
    exact ⟨p, _, toBot_eq.mp h1, rfl, h2⟩
  · rintro ⟨p, q, h1, h2, h3⟩
    refine ⟨p, toBot_eq.mpr h1, ?_⟩
    simp only [boundAfter, Option.some.injEq] at h2
    rwa [h2]

open Classical in
lemma loop_succ (lib : Library S ρ G N K) (tol : ℝ) (r k : ℕ) (s : S) (prev : WithBot ℝ) :
    emLoop lib tol (r + 1) k s prev
      = if ∃ p : ℝ, prev = ↑p ∧ |boundOf lib s - p| < tol then (improved lib s, ↑(boundOf lib s), k + 1, true)
        else emLoop lib tol r (k + 1) (improved lib s) ↑(boundOf lib s) := rfl

lemma loop_run (lib : Library S ρ G N K) (tol : ℝ) (before : Option ℝ) (s : S) : ∀ r k,
    (∀ j, j < k → ¬ Settled lib tol before s j) →
    ∃ steps c, emLoop lib tol r k ((improved lib)^[k] s) (toBot (boundAfter lib before s k))
        = ((improved lib)^[steps] s, toBot (boundAfter lib before s steps), steps, c)
      ∧ k ≤ steps ∧ steps ≤ k + r ∧ (0 < r → k < steps)
      ∧ (∀ j, j + 1 < steps → ¬ Settled lib tol before s j)
      ∧ (c = true ↔ ∃ j, steps = j + 1 ∧ Settled lib tol before s j)
      ∧ (steps < k + r → c = true) := by
  intro r
  induction r with
  | zero =>
    intro k hk
    refine ⟨k, false, rfl, le_rfl, le_rfl, by simp, fun j hj => hk j (by omega), ?_, by omega⟩
    constructor
    · intro h; cases h
    · rintro ⟨j, hj, h⟩
      exact absurd h (hk j (by omega))
  | succ r ih =>
    intro k hk
    rw [loop_succ]
    have e : improved lib ((improved lib)^[k] s) = (improved lib)^[k + 1] s := (Function.iterate_succ_apply' _ _ _).symm
    have e' : (↑(boundOf lib ((improved lib)^[k] s)) : WithBot ℝ) = toBot (boundAfter lib before s (k + 1)) := rfl
    rw [e, e']
    by_cases h : Settled lib tol before s k
    · rw [if_pos ((settled_iff lib tol before s k).mpr h)]
      refine ⟨k + 1, true, rfl, by omega, by omega, by omega, fun j hj => hk j (by omega), ?_, fun _ => rfl⟩
      exact ⟨fun _ => ⟨k, rfl, h⟩, fun _ => rfl⟩
    · rw [if_neg fun h' => h ((settled_iff lib tol before s k).mp h')]
      obtain ⟨steps, c, h1, h2, h3, h4, h5, h6, h7⟩ := ih (k + 1) (by
        intro j hj
        rcases Nat.lt_succ_iff_lt_or_eq.mp hj with hj | hj
        · exact hk j hj
        · rw [hj]; exact h)
      exact ⟨steps, c, h1, by omega, by omega, by omega, h5, h6, fun h => h7 (by omega)⟩

/-- The loop from the beginning is a proper run. -/
lemma loop_proper (lib : Library S ρ G N K) (tol : ℝ) (maxIter : ℕ) (hm : 0 < maxIter) (before : Option ℝ) (s : S) :
    ∃ (r : Run S) (c : Bool), emLoop lib tol maxIter 0 s (toBot before) = (r.last lib, ↑r.bound, r.steps, c)
      ∧ r.start = s ∧ r.Proper lib tol maxIter before ∧ (c = true ↔ r.HasConverged lib tol before) := by
  obtain ⟨steps, c, h1, -, h3, h4, h5, h6, h7⟩ := loop_run lib tol before s maxIter 0 (by omega)
  have hpos := h4 hm
  obtain ⟨j, rfl⟩ : ∃ j, steps = j + 1 := ⟨steps - 1, by omega⟩
  refine ⟨⟨s, j + 1, boundOf lib ((improved lib)^[j] s)⟩, c, h1, rfl, ⟨hpos, by simpa using h3, rfl, h5, ?_⟩, h6⟩
  intro h
  exact h6.mp (h7 (by simpa using h))

/-- What the variables of the loop say about the runs so far. -/
structure Summary (lib : Library S ρ G N K) (tol : ℝ) (maxIter : ℕ) (before : Option ℝ) (runs : List (Run S))
    (v : Search S ρ) : Prop where
  proper : ∀ r ∈ runs, r.Proper lib tol maxIter before
  converged : v.converged = true ↔ ∃ r ∈ runs, r.HasConverged lib tol before
  empty : runs = [] → v.maxLowerBound = ⊥
  best : runs ≠ [] → ∃ r ∈ runs, v.best = some (r.last lib, r.steps) ∧ v.maxLowerBound = ↑r.bound
    ∧ ∀ r' ∈ runs, r'.bound ≤ r.bound

lemma restart_summary (lib : Library S ρ G N K) (cfg : Config) (hm : 0 < cfg.maxIter) (doInit : Bool) (before : Option ℝ)
    (runs : List (Run S)) (v : Search S ρ) (hb : doInit = true → before = none)
    (hv : Summary lib cfg.tol cfg.maxIter before runs v) (known : WithBot ℝ) (hk : doInit = false → known = toBot before) :
    ∃ r : Run S, Summary lib cfg.tol cfg.maxIter before (runs ++ [r]) (restart lib cfg doInit known v)
      ∧ (restart lib cfg doInit known v).params = r.last lib
      ∧ (doInit = true → r.start = (lib.initializeParameters v.params v.rng).1
        ∧ (restart lib cfg doInit known v).rng = (lib.initializeParameters v.params v.rng).2)
      ∧ (doInit = false → r.start = v.params) := by
  obtain ⟨init, hinit⟩ : ∃ init, init = if doInit then lib.initializeParameters v.params v.rng else (v.params, v.rng) :=
    ⟨_, rfl⟩
  have hlb : (if doInit then (⊥ : WithBot ℝ) else known) = toBot before := by
    cases doInit with
    | true => rw [hb rfl]; rfl
    | false => simpa using hk rfl
  obtain ⟨r, c, h1, h2, h3, h4⟩ := loop_proper lib cfg.tol cfg.maxIter hm before init.1
  have hproper : ∀ r' ∈ runs ++ [r], r'.Proper lib cfg.tol cfg.maxIter before := by
    intro r' hr'
    rcases List.mem_append.mp hr' with h | h
    · exact hv.proper r' h
    · rw [List.mem_singleton.mp h]; exact h3
  have hconv : (v.converged || c) = true ↔ ∃ r' ∈ runs ++ [r], r'.HasConverged lib cfg.tol before := by
    rw [Bool.or_eq_true, hv.converged, h4]
    simp [or_and_right, exists_or]
  have hmem : r ∈ runs ++ [r] := by simp
  refine ⟨r, ?_, ?_, ?_, ?_⟩
  · unfold restart
    simp only [← hinit, hlb, h1]
    by_cases h : v.maxLowerBound < ↑r.bound ∨ v.maxLowerBound = ⊥
    · rw [if_pos h]
      refine ⟨hproper, hconv, fun h => by simp at h, fun _ => ⟨r, hmem, rfl, rfl, ?_⟩⟩
      intro r' hr'
      rcases List.mem_append.mp hr' with h' | h'
      · obtain ⟨r0, -, -, e, hle⟩ := hv.best (List.ne_nil_of_mem h')
        rw [e] at h
        rcases h with h | h
        · exact (hle r' h').trans (WithBot.coe_lt_coe.mp h).le
        · exact absurd h (WithBot.coe_ne_bot)
      · rw [List.mem_singleton.mp h']
    · rw [if_neg h]
      push Not at h
      have hne : runs ≠ [] := fun h' => h.2 (hv.empty h')
      refine ⟨hproper, hconv, fun h => by simp at h, fun _ => ?_⟩
      obtain ⟨r0, hr0, e0, e, hle⟩ := hv.best hne
      refine ⟨r0, by simp [hr0], e0, e, ?_⟩
      intro r' hr'
      rcases List.mem_append.mp hr' with h' | h'
      · exact hle r' h'
      · rw [List.mem_singleton.mp h']
        have := h.1
        rw [e] at this
        exact WithBot.coe_le_coe.mp this
  · unfold restart
    simp only [← hinit, hlb, h1]
    split_ifs <;> rfl
  · intro hd
    subst hd
    rw [if_pos rfl] at hinit
    refine ⟨by rw [h2, hinit], ?_⟩
    unfold restart
    simp only [if_true]
    split_ifs <;> rfl
  · intro hd
    subst hd
    rw [h2, hinit]
    simp

lemma restarts_summary (lib : Library S ρ G N K) (cfg : Config) (hm : 0 < cfg.maxIter) (known : WithBot ℝ) : ∀ n past v,
    Summary lib cfg.tol cfg.maxIter none past v →
    ∃ runs : List (Run S), runs.length = n ∧ Drawn lib v.params v.rng runs
      ∧ Summary lib cfg.tol cfg.maxIter none (past ++ runs) (restarts lib cfg true known n v) := by
  intro n
  induction n with
  | zero =>
    intro past v hv
    exact ⟨[], rfl, trivial, by simpa [restarts] using hv⟩
  | succ n ih =>
    intro past v hv
    obtain ⟨r, h1, h2, h3, -⟩ := restart_summary lib cfg hm true none past v (fun _ => rfl) hv known (by simp)
    obtain ⟨runs, g1, g2, g3⟩ := ih _ _ h1
    refine ⟨r :: runs, by simp [g1], ⟨(h3 rfl).1, ?_⟩, ?_⟩
    · rw [h2, (h3 rfl).2] at g2
      exact g2
    · simpa [restarts] using g3

lemma argmax_first (hK : 0 < K) (f : Fin K → ℝ) : IsFirstLargest f (argmaxRow hK f) := by
  classical
  have : Nonempty (Fin K) := ⟨⟨0, hK⟩⟩
  obtain ⟨m, hm⟩ := Finite.exists_max f
  unfold argmaxRow
  cases hfind : (List.finRange K).find? (fun k => decide (∀ j, f j ≤ f k)) with
  | none =>
    exfalso
    have := List.find?_eq_none.mp hfind m (List.mem_finRange m)
    simp [hm] at this
  | some k =>
    simp only [Option.getD_some]
    obtain ⟨h1, as, bs, h2, h3⟩ := List.find?_eq_some_iff_append.mp hfind
    have h1 := of_decide_eq_true h1
    refine ⟨h1, fun j hj => lt_of_le_of_ne (h1 j) fun hne => ?_⟩
    have hmem : j ∈ as := by
      have hj' := List.mem_finRange j
      rw [h2] at hj'
      rcases List.mem_append.mp hj' with h | h
      · exact h
      · exfalso
        have hs : (List.finRange K).Pairwise (· < ·) := (List.sortedLT_finRange K).pairwise
        rw [h2] at hs
        have := (List.pairwise_append.mp hs).2.1
        rcases List.mem_cons.mp h with h | h
        · exact absurd (h ▸ hj) (lt_irrefl _)
        · exact absurd ((List.pairwise_cons.mp this).1 j h) (not_lt.mpr hj.le)
    have := h3 j hmem
    simp only [Bool.not_eq_true', decide_eq_false_iff_not] at this
    exact this fun i => hne ▸ h1 i

/-- What a successful fit did. -/
lemma fit_unfold (lib : Library S ρ G N K) (cfg : Config) (obj obj' : Fitted S) (rng : ρ) (labels : Fin N → Fin K)
    (h : fitPredict lib (some cfg) obj rng = .ok (obj', labels)) :
    ∃ doInit, doInit = !(cfg.warmStart && obj.converged.isSome) ∧ ¬ (doInit = false ∧ obj.lowerBound = none)
      ∧ 0 < (if doInit then cfg.nInit else 1) ∧ 0 < cfg.maxIter
      ∧ ∃ (hK : 0 < K) (best : S) (nIter : ℕ) (bound : ℝ) (v : Search S ρ),
        v = restarts lib cfg doInit (toBot obj.lowerBound) (if doInit then cfg.nInit else 1) ⟨obj.params, rng, false, ⊥, none⟩
        ∧ v.best = some (best, nIter) ∧ v.maxLowerBound = ↑bound
        ∧ obj' = ⟨best, some v.converged, some bound, some nIter⟩
        ∧ labels = fun n => argmaxRow hK ((lib.estimateLogProbResp best).2 n) := by
  unfold fitPredict at h
  by_cases h2 : N < 2
  · rw [if_pos h2] at h; cases h
  rw [if_neg h2] at h
  simp only at h
  by_cases h3 : N < K
  · rw [if_pos h3] at h; cases h
  rw [if_neg h3] at h
  cases hc : lib.checkInitialParameters with
  | error e => simp only [hc] at h; cases h
  | ok u =>
    simp only [hc] at h
    obtain ⟨doInit, hd⟩ : ∃ doInit, doInit = !(cfg.warmStart && obj.converged.isSome) := ⟨_, rfl⟩
    rw [← hd] at h
    refine ⟨doInit, hd, ?_⟩
    by_cases h4 : doInit = false ∧ obj.lowerBound = none
    · rw [if_pos h4] at h; cases h
    rw [if_neg h4] at h
    by_cases h5 : (if doInit then cfg.nInit else 1) = 0 ∨ cfg.maxIter = 0
    · rw [if_pos h5] at h; cases h
    rw [if_neg h5] at h
    push Not at h5
    refine ⟨h4, Nat.pos_of_ne_zero h5.1, Nat.pos_of_ne_zero h5.2, ?_⟩
    generalize hv : restarts lib cfg doInit (toBot obj.lowerBound) (if doInit then cfg.nInit else 1)
      ⟨obj.params, rng, false, ⊥, none⟩ = v at h
    unfold finish at h
    cases hb : v.best with
    | none => simp only [hb] at h; cases h
    | some b =>
      obtain ⟨best, nIter⟩ := b
      cases hl : v.maxLowerBound with
      | bot => simp only [hb, hl] at h; cases h
      | coe bound =>
        rw [hb, hl] at h
        change (if hK : 0 < K then _ else _) = _ at h
        by_cases hK : 0 < K
        · rw [dif_pos hK] at h
          injection h with h
          injection h with h1 h2
          exact ⟨hK, best, nIter, bound, v, rfl, hb, hl, h1.symm, h2.symm⟩
        · rw [dif_neg hK] at h; cases h

lemma fresh_summary (lib : Library S ρ G N K) (tol : ℝ) (maxIter : ℕ) (before : Option ℝ) (s : S) (rng : ρ) :
    Summary lib tol maxIter before [] (⟨s, rng, false, ⊥, none⟩ : Search S ρ) :=
  ⟨by simp, by simp, fun _ => rfl, fun h => absurd rfl h⟩

/-- C143: a fit without warm start does `n_init` runs, each from newly drawn parameters.  It keeps the parameters at the
end of a run with the largest bound; `lower_bound_` and `n_iter_` are those of this run, and `converged_` says whether
some run converged.

Missing: `converged_` for the kept run (violated, `C143_converged`), and an object as constructed (violated,
`C143_unconfigured`). -/
theorem C143_best_partial (lib : Library S ρ G N K) (cfg : Config) (obj obj' : Fitted S) (rng : ρ) (labels : Fin N → Fin K)
    (hw : cfg.warmStart = false ∨ obj.converged = none)
    (h : fitPredict lib (some cfg) obj rng = .ok (obj', labels)) :
    ∃ runs : List (Run S), runs.length = cfg.nInit ∧ Drawn lib obj.params rng runs
      ∧ (∀ r ∈ runs, r.Proper lib cfg.tol cfg.maxIter none)
      ∧ (∃ r ∈ runs, obj'.params = r.last lib ∧ obj'.lowerBound = some r.bound ∧ obj'.nIter = some r.steps
        ∧ ∀ r' ∈ runs, r'.bound ≤ r.bound)
      ∧ (obj'.converged = some true ↔ ∃ r ∈ runs, r.HasConverged lib cfg.tol none) := by
  obtain ⟨doInit, hd, -, hn, hm, hK, best, nIter, bound, v, hv, hb, hl, ho, -⟩ := fit_unfold lib cfg obj obj' rng labels h
  have : doInit = true := by rcases hw with hw | hw <;> simp [hd, hw]
  subst this
  rw [if_pos rfl] at hv hn
  obtain ⟨runs, h1, h2, h3⟩ := restarts_summary lib cfg hm (toBot obj.lowerBound) cfg.nInit [] _
    (fresh_summary lib cfg.tol cfg.maxIter none obj.params rng)
  rw [← hv, List.nil_append] at h3
  have hne : runs ≠ [] := by rintro rfl; simp at h1; omega
  refine ⟨runs, h1, h2, h3.proper, ?_, ?_⟩
  · obtain ⟨r, g1, g2, g3, g4⟩ := h3.best hne
    rw [hb] at g2
    rw [hl] at g3
    injection g2 with g2
    injection g2 with g2 g2'
    exact ⟨r, g1, by rw [ho, g2], by rw [ho, WithBot.coe_inj.mp g3], by rw [ho, g2'], g4⟩
  · rw [ho]
    simp only [Option.some.injEq]
    exact h3.converged

/-- C143: a fit with warm start of a fitted object is one run, which continues at the present parameters with the
present bound; the result is its end. -/
theorem C143_warm (lib : Library S ρ G N K) (cfg : Config) (obj obj' : Fitted S) (rng : ρ) (labels : Fin N → Fin K)
    (hw : cfg.warmStart = true) (hc : obj.converged ≠ none) (h : fitPredict lib (some cfg) obj rng = .ok (obj', labels)) :
    ∃ (before : ℝ) (r : Run S), obj.lowerBound = some before ∧ r.start = obj.params
      ∧ r.Proper lib cfg.tol cfg.maxIter (some before)
      ∧ obj'.params = r.last lib ∧ obj'.lowerBound = some r.bound ∧ obj'.nIter = some r.steps
      ∧ (obj'.converged = some true ↔ r.HasConverged lib cfg.tol (some before)) := by
  obtain ⟨doInit, hd, hb0, hn, hm, hK, best, nIter, bound, v, hv, hb, hl, ho, -⟩ := fit_unfold lib cfg obj obj' rng labels h
  have : doInit = false := by
    rw [hd, hw]
    cases hcc : obj.converged with
    | none => exact absurd hcc hc
    | some b => rfl
  subst this
  have hbef : obj.lowerBound ≠ none := fun h => hb0 ⟨rfl, h⟩
  obtain ⟨before, hbefore⟩ := Option.ne_none_iff_exists'.mp hbef
  rw [hbefore] at hv
  have hv' : v = restart lib cfg false (toBot (some before)) ⟨obj.params, rng, false, ⊥, none⟩ := hv
  obtain ⟨r, h1, -, -, h4⟩ := restart_summary lib cfg hm false (some before) [] _ (by simp)
    (fresh_summary lib cfg.tol cfg.maxIter (some before) obj.params rng) (toBot (some before)) (fun _ => rfl)
  rw [← hv', List.nil_append] at h1
  refine ⟨before, r, hbefore, h4 rfl, h1.proper r (by simp), ?_⟩
  obtain ⟨r0, g1, g2, g3, g4⟩ := h1.best (by simp)
  rw [List.mem_singleton.mp g1] at g2 g3
  rw [hb] at g2
  rw [hl] at g3
  injection g2 with g2
  injection g2 with g2 g2'
  refine ⟨by rw [ho, g2], by rw [ho, WithBot.coe_inj.mp g3], by rw [ho, g2'], ?_⟩
  rw [ho]
  simp only [Option.some.injEq]
  rw [h1.converged]
  simp

/-- C143: every sample gets the first component with the largest responsibility under the kept parameters. -/
theorem C143_labels (lib : Library S ρ G N K) (cfg : Config) (obj obj' : Fitted S) (rng : ρ) (labels : Fin N → Fin K)
    (h : fitPredict lib (some cfg) obj rng = .ok (obj', labels)) (n : Fin N) :
    IsFirstLargest ((lib.estimateLogProbResp obj'.params).2 n) (labels n) := by
  obtain ⟨-, -, -, -, -, hK, best, nIter, bound, v, -, -, -, ho, hlab⟩ := fit_unfold lib cfg obj obj' rng labels h
  rw [hlab, ho]
  exact argmax_first hK _

/-- C143: the fit succeeds if there are at least two samples, at least one component, not more components than samples,
one restart and one iteration, and, for a warm start of a fitted object, a stored bound. -/
theorem C143_succeeds (lib : Library S ρ G N K) (cfg : Config) (obj : Fitted S) (rng : ρ) (hN : 2 ≤ N) (hK : 0 < K)
    (hNK : K ≤ N) (hc : lib.checkInitialParameters = .ok ()) (hn : 0 < cfg.nInit) (hm : 0 < cfg.maxIter)
    (hw : obj.converged ≠ none → obj.lowerBound ≠ none) : ∃ r, fitPredict lib (some cfg) obj rng = .ok r := by
  unfold fitPredict
  rw [if_neg (by omega)]
  simp only [hc]
  rw [if_neg (by omega)]
  obtain ⟨doInit, hd⟩ : ∃ doInit, doInit = !(cfg.warmStart && obj.converged.isSome) := ⟨_, rfl⟩
  rw [← hd]
  have h4 : ¬ (doInit = false ∧ obj.lowerBound = none) := by
    rintro ⟨h1, h2⟩
    refine hw ?_ h2
    rintro h3
    rw [hd, h3] at h1
    simp at h1
  rw [if_neg h4, if_neg (by cases doInit <;> simp <;> omega)]
  have key : ∀ v : Search S ρ, (∃ (best : S × ℕ) (bound : ℝ), v.best = some best ∧ v.maxLowerBound = ↑bound) →
      ∃ r, finish lib v = .ok r := by
    rintro v ⟨⟨best, nIter⟩, bound, h1, h2⟩
    unfold finish
    rw [h1, h2]
    exact ⟨_, dif_pos hK⟩
  apply key
  cases doInit with
  | true =>
    rw [if_pos rfl]
    obtain ⟨runs, h1, -, h3⟩ := restarts_summary lib cfg hm (toBot obj.lowerBound) cfg.nInit [] _
      (fresh_summary lib cfg.tol cfg.maxIter none obj.params rng)
    rw [List.nil_append] at h3
    obtain ⟨r, -, g2, g3, -⟩ := h3.best (by rintro rfl; simp at h1; omega)
    exact ⟨_, _, g2, g3⟩
  | false =>
    obtain ⟨r, h1, -⟩ := restart_summary lib cfg hm false obj.lowerBound [] _ (by simp)
      (fresh_summary lib cfg.tol cfg.maxIter obj.lowerBound obj.params rng) (toBot obj.lowerBound) (fun _ => rfl)
    obtain ⟨r, -, g2, g3, -⟩ := h1.best (by simp)
    exact ⟨_, _, g2, g3⟩

/-- C143, negative result: an object as constructed cannot be fitted, whatever the data.  The defect: the constructor
does not call the one of the base class, and the attributes with the settings are missing. -/
theorem C143_unconfigured (lib : Library S ρ G N K) (obj : Fitted S) (rng : ρ) :
    ∃ e, fitPredict lib none obj rng = .error e ∧ fit lib none obj rng = .error e
      ∧ (2 ≤ N → e = .attributeError) := by
  by_cases h : N < 2
  · exact ⟨.valueError, by simp [fitPredict, h], by simp [fit, fitPredict, h, bind, Except.bind], by omega⟩
  · exact ⟨.attributeError, by simp [fitPredict, h], by simp [fit, fitPredict, h, bind, Except.bind], by simp⟩

/-! ## Cases -/

/-- A library whose parameters are a value and its growth in every step; the bound is the value.  The first drawn
parameters do not grow, the later ones grow by ten. -/
noncomputable def growing : Library (ℝ × ℝ) ℕ Unit 2 1 where
  checkInitialParameters := .ok ()
  initializeParameters := fun _ rng => ((0, if rng = 0 then 0 else 10), rng + 1)
  estimateLogProbResp := fun _ => (fun _ => 0, fun _ _ => 0)
  estimateGaussianParameters := fun _ => ()
  estimateWeights := fun _ s => (s.1 + s.2, s.2)
  estimateMeans := fun _ s => s
  estimatePrecisions := fun _ s => s
  computeLowerBound := fun s _ _ => s.1

lemma growing_improved (s : ℝ × ℝ) : improved growing s = (s.1 + s.2, s.2) := rfl

lemma growing_bound (s : ℝ × ℝ) : boundOf growing s = s.1 + s.2 := rfl

/-- Two restarts with two iterations. -/
noncomputable def twoRuns : Config := ⟨2, 2, 0.001, false⟩

/-- A fresh object. -/
noncomputable def unfitted : Fitted (ℝ × ℝ) := ⟨(0, 0), none, none, none⟩

/-- C143, negative result: `converged_` does not say whether the kept parameters have converged; this is violated, with
two restarts, if the first run converges and the second one reaches a larger bound at its last iteration.  The defect:
`converged_` is never reset. -/
theorem C143_converged : ∃ obj' labels, fitPredict growing (some twoRuns) unfitted 0 = .ok (obj', labels)
    ∧ obj'.converged = some true ∧ obj'.params = (20, 10)
    ∧ ∀ r : Run (ℝ × ℝ), r.last growing = obj'.params → r.Proper growing twoRuns.tol twoRuns.maxIter none →
      ¬ r.HasConverged growing twoRuns.tol none := by
  obtain ⟨⟨obj', labels⟩, h⟩ := C143_succeeds growing twoRuns unfitted 0 (by norm_num) (by norm_num) (by norm_num) rfl
    (by norm_num [twoRuns]) (by norm_num [twoRuns]) (by simp [unfitted])
  refine ⟨obj', labels, h, ?_⟩
  obtain ⟨runs, h1, h2, h3, ⟨r, hr, e1, e2, e3, hmax⟩, hconv⟩ := C143_best_partial growing twoRuns unfitted obj' 0 labels
    (Or.inl rfl) h
  have hiter : ∀ (k : ℕ) (s : ℝ × ℝ), (improved growing)^[k] s = (s.1 + k * s.2, s.2) := by
    intro k
    induction k with
    | zero => intro s; simp
    | succ k ih => intro s; rw [Function.iterate_succ_apply', ih, growing_improved]; push_cast; ext <;> simp; ring
  match runs, h1 with
  | [r1, r2], _ =>
    simp only [Drawn] at h2
    have s1 : r1.start = (0, 0) := by rw [h2.1]; simp [growing]
    have s2 : r2.start = (0, 10) := by rw [h2.2.1]; simp [growing]
    have p1 := h3 r1 (by simp)
    have p2 := h3 r2 (by simp)
    have b1 : r1.bound = 0 := by
      have hb := p1.bound
      obtain ⟨j, hj⟩ : ∃ j, r1.steps = j + 1 := ⟨r1.steps - 1, by have := p1.pos; omega⟩
      rw [hj] at hb
      simp only [boundAfter, growing_bound, hiter, s1, Option.some.injEq] at hb
      linarith
    have c1 : r1.HasConverged growing twoRuns.tol none := by
      by_cases hlt : r1.steps < twoRuns.maxIter
      · exact p1.stop hlt
      · have h2' : r1.steps = 2 := le_antisymm p1.le (by simp [twoRuns] at hlt; omega)
        refine ⟨1, h2', 0, 0, ?_, ?_, by norm_num [twoRuns]⟩
        · simp [boundAfter, growing_bound, s1]
        · simp [boundAfter, growing_bound, growing_improved, s1]
    have n2 : ∀ r : Run (ℝ × ℝ), r.start.2 = 10 → ¬ r.HasConverged growing twoRuns.tol none := by
      rintro r hs ⟨j, -, p, q, hp, hq, hlt⟩
      cases j with
      | zero => simp [boundAfter] at hp
      | succ j =>
        simp only [boundAfter, growing_bound, hiter, Option.some.injEq, hs] at hp hq
        rw [← hp, ← hq] at hlt
        push_cast at hlt
        rw [show r.start.1 + (j + 1) * 10 + 10 - (r.start.1 + j * 10 + 10) = (10 : ℝ) by ring] at hlt
        norm_num [twoRuns] at hlt
    have st2 : r2.steps = 2 := by
      by_contra hne
      exact n2 r2 (by rw [s2]) (p2.stop (lt_of_le_of_ne p2.le hne))
    have b2 : r2.bound = 20 := by
      have hb := p2.bound
      rw [st2] at hb
      simp only [boundAfter, growing_bound, hiter, s2, Option.some.injEq] at hb
      push_cast at hb
      linarith
    have hr2 : r = r2 := by
      rcases List.mem_cons.mp hr with h | h
      · have := hmax r2 (by simp)
        rw [h, b1, b2] at this
        norm_num at this
      · simpa using h
    have hp : obj'.params = (20, 10) := by
      rw [e1, hr2]
      unfold Run.last
      rw [st2, s2, hiter]
      ext <;> norm_num
    refine ⟨hconv.mpr ⟨r1, by simp, c1⟩, hp, ?_⟩
    intro r' hr' _
    apply n2
    rw [hp] at hr'
    unfold Run.last at hr'
    rw [hiter] at hr'
    exact congrArg Prod.snd hr'

/-- Case: the fit above with its labels: both samples get the only component. -/
example : ∃ obj' labels, fitPredict growing (some twoRuns) unfitted 0 = .ok (obj', labels) ∧ ∀ n, labels n = 0
    ∧ IsFirstLargest ((growing.estimateLogProbResp obj'.params).2 n) (labels n) := by
  obtain ⟨obj', labels, h, -⟩ := C143_converged
  exact ⟨obj', labels, h, fun n => ⟨Subsingleton.elim _ _, C143_labels growing twoRuns unfitted obj' 0 labels h n⟩⟩

/-- Case: a warm start from the value 5 with growth 0 stops after one step. -/
example : ∃ obj' labels, fitPredict growing (some { twoRuns with warmStart := true })
      ⟨(5, 0), some false, some 5, some 7⟩ 0 = .ok (obj', labels) ∧ obj'.nIter = some 1 ∧ obj'.params = (5, 0) := by
  obtain ⟨⟨obj', labels⟩, h⟩ := C143_succeeds growing { twoRuns with warmStart := true }
    ⟨(5, 0), some false, some 5, some 7⟩ 0 (by norm_num) (by norm_num) (by norm_num) rfl
    (by norm_num [twoRuns]) (by norm_num [twoRuns]) (by simp)
  refine ⟨obj', labels, h, ?_⟩
  obtain ⟨before, r, h1, h2, h3, h4, h5, h6, -⟩ := C143_warm growing _ _ obj' 0 labels rfl (by simp) h
  have hs : Settled growing (0.001 : ℝ) (some before) r.start 0 := by
    simp only [Option.some.injEq] at h1
    refine ⟨before, 5, rfl, ?_, ?_⟩
    · simp [boundAfter, growing_bound, h2]
    · rw [← h1]; norm_num
  have hst : r.steps = 1 := by
    by_contra hne
    have := h3.pos
    exact h3.first 0 (by omega) hs
  refine ⟨by rw [h6, hst], ?_⟩
  rw [h4]
  unfold Run.last
  rw [hst, h2]
  simp [growing_improved]

end Verif.DirectionalFit
