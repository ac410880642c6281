import Verif.Model.Containers
import Verif.Lemmas.GraphHandler
import Mathlib.Logic.Relation
import Mathlib.Order.Bounds.Basic
import Mathlib.Data.Finset.Lattice.Fold

/-!
# C47: the hierarchy of multi-boundary containers
-/

namespace Verif

namespace Spec

/-- `a` is `b` or found by walking up from `b` with `get_parent`. -/
def AncestorOrSelf (m : MultiBoundary) (a b : ℕ) : Prop :=
  Relation.ReflTransGen (fun x y : ℕ => m.getParent x = .ok (y : ℤ)) b a

/-- A call that makes sense: the first obstacle is not attached to a previous one, and an obstacle is
attached (by its number) only if it has no parent yet, to an existing obstacle that is not below it. -/
def AllowedBoundaryCall (m : MultiBoundary) : MultiBoundary.Call → Prop
  | .append p => p = some (-1) → 0 < m.nObstacles
  | .extendGraph c p => ∃ ci pi : ℕ, c = ci ∧ p = pi ∧ m.getParent ci = .ok (-1)
      ∧ pi < m.nObstacles ∧ ¬ AncestorOrSelf m ci pi

/-- Every call of the history makes sense when it is made. -/
def AllowedBoundaryHistory (m : MultiBoundary) : List MultiBoundary.Call → Prop
  | [] => True
  | c :: cs => AllowedBoundaryCall m c ∧ AllowedBoundaryHistory (m.step c).1 cs

end Spec

namespace MultiBoundary

/-- Walking up from `i` ends at an obstacle without parent after `k` steps. -/
inductive Level (m : MultiBoundary) : ℕ → ℕ → Prop
  | root {i : ℕ} : m.parents[i]? = some (-1) → Level m i 0
  | child {i p k : ℕ} : m.parents[i]? = some (p : ℤ) → Level m p k → Level m i (k + 1)

lemma level_unique {m : MultiBoundary} {i k k' : ℕ} (h : Level m i k) (h' : Level m i k') : k = k' := by
  induction h generalizing k' with
  | root hr =>
    cases h' with
    | root _ => rfl
    | child hp _ => rw [hr] at hp; simp at hp
  | child hp _ ih =>
    cases h' with
    | root hr => rw [hr] at hp; simp at hp
    | child hp' hl =>
      rw [hp] at hp'
      simp only [Option.some.injEq, Nat.cast_inj] at hp'
      subst hp'
      rw [ih hl]

/-- The invariant of legal histories. -/
structure Forest (m : MultiBoundary) : Prop where
  len : m.children.length = m.parents.length
  parent : ∀ (i : ℕ) (p : ℤ), m.parents[i]? = some p →
    p = -1 ∨ ∃ q : ℕ, p = q ∧ q < m.parents.length
  child : ∀ (q : ℕ) (c : List ℤ), m.children[q]? = some c →
    c.Nodup ∧ ∀ x : ℤ, x ∈ c ↔ ∃ i : ℕ, x = i ∧ m.parents[i]? = some (q : ℤ)
  level : ∀ i : ℕ, i < m.parents.length → ∃ k, Level m i k

lemma getParent_iff {m : MultiBoundary} {i : ℕ} {p : ℤ} :
    m.getParent i = .ok p ↔ m.parents[i]? = some p := by
  unfold getParent pyGetInt
  rw [if_pos (by omega)]
  simp only [Int.toNat_natCast]
  exact GraphHandler.pyGet_iff

lemma getChildren_iff {m : MultiBoundary} {i : ℕ} {c : List ℤ} :
    m.getChildren i = .ok c ↔ m.children[i]? = some c := by
  unfold getChildren pyGetInt
  rw [if_pos (by omega)]
  simp only [Int.toNat_natCast]
  exact GraphHandler.pyGet_iff

lemma pyIdx_nat {n i : ℕ} (h : i < n) : pyIdx n i = some i := by
  unfold pyIdx
  rw [if_pos (by omega), if_pos (by omega)]
  simp

lemma forest_create : Forest create where
  len := rfl
  parent := by intro i p h; simp [create] at h
  child := by intro q c h; simp [create] at h
  level := by intro i h; simp [create] at h

lemma forest_snoc {m : MultiBoundary} (hm : Forest m) :
    Forest ⟨m.parents ++ [-1], m.children ++ [[]]⟩ := by
  have hmono : ∀ (i : ℕ) (p : ℤ), m.parents[i]? = some p → (m.parents ++ [-1])[i]? = some p := by
    intro i p h
    rw [List.getElem?_append_left (List.getElem?_eq_some_iff.mp h).1]; exact h
  have hback : ∀ (i : ℕ) (p : ℤ), (m.parents ++ [-1])[i]? = some p →
      m.parents[i]? = some p ∨ (i = m.parents.length ∧ p = -1) := by
    intro i p h
    by_cases hi : i < m.parents.length
    · rw [List.getElem?_append_left hi] at h; exact .inl h
    · right
      have hl := (List.getElem?_eq_some_iff.mp h).1
      simp only [List.length_append, List.length_singleton] at hl
      have : i = m.parents.length := by omega
      subst this
      rw [List.getElem?_append_right (by omega)] at h
      simp at h
      exact ⟨rfl, h.symm⟩
  have hlev : ∀ {i k : ℕ}, Level m i k → Level ⟨m.parents ++ [-1], m.children ++ [[]]⟩ i k := by
    intro i k h
    induction h with
    | root h => exact .root (hmono _ _ h)
    | child h _ ih => exact .child (hmono _ _ h) ih
  refine ⟨by simp [hm.len], ?_, ?_, ?_⟩
  · intro i p h
    rcases hback i p h with h | ⟨_, h⟩
    · rcases hm.parent i p h with h | ⟨q, h, hq⟩
      · exact .inl h
      · refine .inr ⟨q, h, ?_⟩
        simp only [List.length_append, List.length_singleton]; omega
    · exact .inl h
  · intro q c h
    by_cases hq : q < m.children.length
    · simp only at h
      rw [List.getElem?_append_left hq] at h
      obtain ⟨h1, h2⟩ := hm.child q c h
      refine ⟨h1, fun x => (h2 x).trans ?_⟩
      constructor
      · rintro ⟨i, e, h⟩; exact ⟨i, e, hmono _ _ h⟩
      · rintro ⟨i, e, h⟩
        rcases hback i _ h with h | ⟨_, h⟩
        · exact ⟨i, e, h⟩
        · omega
    · have hl := (List.getElem?_eq_some_iff.mp h).1
      simp only [List.length_append, List.length_singleton] at hl
      have : q = m.children.length := by omega
      subst this
      simp only at h
      rw [List.getElem?_append_right (by omega)] at h
      simp at h
      subst h
      refine ⟨List.nodup_nil, fun x => ?_⟩
      simp only [List.not_mem_nil, false_iff]
      rintro ⟨i, e, h⟩
      rcases hback i _ h with h | ⟨_, h⟩
      · rcases hm.parent i _ h with h | ⟨q, h, hq⟩
        · omega
        · rw [hm.len] at h; omega
      · omega
  · intro i hi
    simp only [List.length_append, List.length_singleton] at hi
    by_cases h : i < m.parents.length
    · obtain ⟨k, hk⟩ := hm.level i h
      exact ⟨k, hlev hk⟩
    · have : i = m.parents.length := by omega
      subst this
      refine ⟨0, .root ?_⟩
      simp

lemma extend_eq {m : MultiBoundary} (hlen : m.children.length = m.parents.length) {c p : ℕ}
    (hc : c < m.parents.length) (hp : p < m.parents.length) :
    m.extendGraph c p = (⟨m.parents.set c p, m.children.set p (m.children.getD p [] ++ [(c : ℤ)])⟩,
      .ok ()) := by
  unfold extendGraph setParent
  rw [pyIdx_nat hc]
  simp only
  unfold addChildren
  simp only
  rw [pyIdx_nat (by omega)]

lemma forest_extend {m : MultiBoundary} (hm : Forest m) {c p : ℕ} (hroot : m.parents[c]? = some (-1))
    (hp : p < m.parents.length) (hanc : ¬ Spec.AncestorOrSelf m c p) :
    Forest ⟨m.parents.set c p, m.children.set p (m.children.getD p [] ++ [(c : ℤ)])⟩ := by
  have hc := (List.getElem?_eq_some_iff.mp hroot).1
  set m' : MultiBoundary :=
    ⟨m.parents.set c p, m.children.set p (m.children.getD p [] ++ [(c : ℤ)])⟩ with hm'
  have hself : m'.parents[c]? = some (p : ℤ) := by
    rw [hm']; exact List.getElem?_set_self hc
  have hne : ∀ i : ℕ, i ≠ c → m'.parents[i]? = m.parents[i]? := by
    intro i hi
    rw [hm']; exact List.getElem?_set_ne (fun e => hi e.symm)
  have hlevel1 : ∀ {i k : ℕ}, Level m i k → ¬ Spec.AncestorOrSelf m c i → Level m' i k := by
    intro i k h
    induction h with
    | @root i h =>
      intro hn
      refine .root ?_
      rw [hne i (by rintro rfl; exact hn .refl)]
      exact h
    | @child i q k h hl ih =>
      intro hn
      refine .child (p := q) ?_ (ih ?_)
      · rw [hne i (by rintro rfl; exact hn .refl)]; exact h
      · intro ha
        exact hn (.head (getParent_iff.mpr h) ha)
  have hlevel2 : ∀ {i k : ℕ}, Level m i k → ∃ k, Level m' i k := by
    intro i k h
    induction h with
    | @root i h =>
      by_cases hi : i = c
      · subst hi
        obtain ⟨k, hk⟩ := hm.level p hp
        exact ⟨k + 1, .child hself (hlevel1 hk hanc)⟩
      · exact ⟨0, .root (by rw [hne i hi]; exact h)⟩
    | @child i q k h hl ih =>
      obtain ⟨k', hk'⟩ := ih
      refine ⟨k' + 1, .child (p := q) ?_ hk'⟩
      rw [hne i ?_]
      · exact h
      · rintro rfl
        rw [hroot] at h; simp at h
  refine ⟨by simp [hm', hm.len], ?_, ?_, ?_⟩
  · intro i q h
    by_cases hi : i = c
    · subst hi
      rw [hself] at h
      cases h
      exact .inr ⟨p, rfl, by simpa [hm'] using hp⟩
    · rw [hne i hi] at h
      simpa [hm'] using hm.parent i q h
  · intro q l h
    have hpl : p < m.children.length := by rw [hm.len]; exact hp
    have hcl : m.children[p]? = some (m.children.getD p []) := by
      rw [List.getElem?_eq_getElem hpl, List.getD_eq_getElem _ _ hpl]
    by_cases hq : q = p
    · subst hq
      have : l = m.children.getD q [] ++ [(c : ℤ)] := by
        rw [hm'] at h
        simp only at h
        rw [List.getElem?_set_self hpl] at h
        simpa using h.symm
      subst this
      obtain ⟨h1, h2⟩ := hm.child q _ hcl
      constructor
      · rw [List.nodup_append]
        refine ⟨h1, List.nodup_singleton _, ?_⟩
        intro x hx y hy
        rw [List.mem_singleton] at hy
        subst hy
        rintro rfl
        obtain ⟨i, e, hi⟩ := (h2 _).mp hx
        have : i = c := by omega
        subst this
        rw [hroot] at hi; simp at hi
      · intro x
        rw [List.mem_append, h2, List.mem_singleton]
        constructor
        · rintro (⟨i, e, hi⟩ | e)
          · refine ⟨i, e, ?_⟩
            rw [hne i ?_]
            · exact hi
            · rintro rfl
              rw [hroot] at hi; simp at hi
          · exact ⟨c, e, hself⟩
        · rintro ⟨i, e, hi⟩
          by_cases hic : i = c
          · subst hic; exact .inr e
          · rw [hne i hic] at hi; exact .inl ⟨i, e, hi⟩
    · have : m.children[q]? = some l := by
        rw [hm'] at h
        simp only at h
        rw [List.getElem?_set_ne (fun e => hq e.symm)] at h
        exact h
      obtain ⟨h1, h2⟩ := hm.child q l this
      refine ⟨h1, fun x => (h2 x).trans ?_⟩
      constructor
      · rintro ⟨i, e, hi⟩
        refine ⟨i, e, ?_⟩
        rw [hne i ?_]
        · exact hi
        · rintro rfl
          rw [hroot] at hi; simp at hi
      · rintro ⟨i, e, hi⟩
        by_cases hic : i = c
        · subst hic
          rw [hself] at hi
          simp only [Option.some.injEq, Nat.cast_inj] at hi
          exact absurd hi.symm hq
        · rw [hne i hic] at hi; exact ⟨i, e, hi⟩
  · intro i hi
    obtain ⟨k, hk⟩ := hm.level i (by simpa [hm'] using hi)
    exact hlevel2 hk

lemma forest_step {m : MultiBoundary} (hm : Forest m) {c : Call}
    (hc : Spec.AllowedBoundaryCall m c) : Forest (m.step c).1 ∧ (m.step c).2 = .ok () := by
  cases c with
  | append p =>
    change Forest (m.append p).1 ∧ (m.append p).2 = .ok ()
    unfold append
    simp only
    have h1 := forest_snoc hm
    by_cases hp : p = some (-1)
    · have hpos : 0 < m.parents.length := hc hp
      rw [if_pos hp]
      set m1 : MultiBoundary := ⟨m.parents ++ [-1], m.children ++ [[]]⟩ with hm1
      have hlen1 : m1.parents.length = m.parents.length + 1 := by simp [hm1]
      have e1 : ((m1.nObstacles : ℤ) - 1) = ((m.parents.length : ℕ) : ℤ) := by
        unfold nObstacles; rw [hlen1]; push_cast; ring
      have e2 : ((m1.nObstacles : ℤ) - 2) = ((m.parents.length - 1 : ℕ) : ℤ) := by
        unfold nObstacles; rw [hlen1]; push_cast [Nat.cast_sub hpos]; ring
      rw [e1, e2, extend_eq h1.len (by omega) (by omega)]
      refine ⟨forest_extend h1 (by simp [hm1]) (by omega) ?_, rfl⟩
      intro h
      have : ∀ {a b : ℕ}, Spec.AncestorOrSelf m1 a b → b < m.parents.length →
          a < m.parents.length := by
        intro a b h
        induction h using Relation.ReflTransGen.head_induction_on with
        | refl => exact id
        | @head x y hxy _ ih =>
          intro hx
          apply ih
          have h2 := getParent_iff.mp hxy
          simp only [hm1] at h2
          rw [List.getElem?_append_left hx] at h2
          rcases hm.parent x _ h2 with h | ⟨q, h, hq⟩
          · omega
          · omega
      have := this h (by omega)
      omega
    · rw [if_neg hp]; exact ⟨h1, rfl⟩
  | extendGraph c p =>
    obtain ⟨ci, pi, rfl, rfl, hr, hp, ha⟩ := hc
    have hr' := getParent_iff.mp hr
    change Forest (m.extendGraph ci pi).1 ∧ (m.extendGraph ci pi).2 = .ok ()
    rw [extend_eq hm.len (List.getElem?_eq_some_iff.mp hr').1 hp]
    exact ⟨forest_extend hm hr' hp ha, rfl⟩

lemma forest_run : ∀ (cs : List Call) {m : MultiBoundary}, Forest m →
    Spec.AllowedBoundaryHistory m cs → Forest (m.run cs)
  | [], _, hm, _ => hm
  | c :: cs, m, hm, h => by
    have := forest_run cs (forest_step hm h.1).1 h.2
    exact this

/-! The level numbers. -/

lemma levelPass_eq {m : MultiBoundary} (hm : Forest m) (level : ℤ) :
    ∀ (ps : List ℤ) (values next : List ℤ), values.length = m.parents.length →
      (∀ x ∈ ps, ∃ i : ℕ, x = i ∧ i < m.parents.length) →
      ∃ values' next', levelPass m level ps (values, next) = .ok (values', next')
        ∧ values'.length = m.parents.length
        ∧ (∀ i : ℕ, i < m.parents.length → (i : ℤ) ∈ ps → values'[i]? = some level)
        ∧ (∀ i : ℕ, (i : ℤ) ∉ ps → values'[i]? = values[i]?)
        ∧ ∀ x : ℤ, x ∈ next' ↔ x ∈ next ∨ ∃ q i : ℕ, (q : ℤ) ∈ ps ∧ x = i ∧ m.parents[i]? = some (q : ℤ)
  | [], values, next, hl, _ => by
    refine ⟨values, next, rfl, hl, ?_, fun _ _ => rfl, ?_⟩
    · intro i _ h; cases h
    · simp
  | p :: ps, values, next, hl, hps => by
    obtain ⟨q, rfl, hq⟩ := hps p List.mem_cons_self
    have hqc : q < m.children.length := by rw [hm.len]; exact hq
    have hch : m.getChildren q = .ok m.children[q] :=
      getChildren_iff.mpr (List.getElem?_eq_getElem hqc)
    obtain ⟨v', n', hrun, h1, h2, h3, h4⟩ := levelPass_eq hm level ps (values.set q level)
      (next ++ m.children[q]) (by simpa using hl) (fun x hx => hps x (List.mem_cons_of_mem _ hx))
    refine ⟨v', n', ?_, h1, ?_, ?_, ?_⟩
    · unfold levelPass
      rw [pyIdx_nat (by omega)]
      simp only [hch]
      exact hrun
    · intro i hi hmem
      by_cases hips : (i : ℤ) ∈ ps
      · exact h2 i hi hips
      · have : i = q := by
          rcases List.mem_cons.mp hmem with h | h
          · omega
          · exact absurd h hips
        subst this
        rw [h3 i hips, List.getElem?_set_self (by omega)]
    · intro i hi
      rw [List.mem_cons, not_or] at hi
      rw [h3 i hi.2, List.getElem?_set_ne (by intro e; apply hi.1; rw [e])]
    · intro x
      rw [h4, List.mem_append, (hm.child q _ (List.getElem?_eq_getElem hqc)).2]
      constructor
      · rintro ((h | ⟨i, e, hi⟩) | ⟨r, i, hr, e, hi⟩)
        · exact .inl h
        · exact .inr ⟨q, i, List.mem_cons_self, e, hi⟩
        · exact .inr ⟨r, i, List.mem_cons_of_mem _ hr, e, hi⟩
      · rintro (h | ⟨r, i, hr, e, hi⟩)
        · exact .inl (.inl h)
        · rcases List.mem_cons.mp hr with h | h
          · have : r = q := by omega
            subst this
            exact .inl (.inr ⟨i, e, hi⟩)
          · exact .inr ⟨r, i, h, e, hi⟩

lemma level_lt {m : MultiBoundary} {i k : ℕ} (h : Level m i k) : i < m.parents.length := by
  cases h with
  | root h => exact (List.getElem?_eq_some_iff.mp h).1
  | child h _ => exact (List.getElem?_eq_some_iff.mp h).1

lemma levelLoop_eq {m : MultiBoundary} (hm : Forest m) {K : ℕ}
    (hK : ∀ i k : ℕ, Level m i k → k < K) :
    ∀ (fuel k : ℕ) (frontier values : List ℤ), K ≤ k + fuel → values.length = m.parents.length →
      (∀ x : ℤ, x ∈ frontier ↔ ∃ i : ℕ, x = i ∧ Level m i k) →
      (∀ i l : ℕ, Level m i l → l < k → values[i]? = some (l : ℤ)) →
      ∃ L : List ℤ, levelLoop m fuel k frontier values = some (.ok L)
        ∧ L.length = m.parents.length ∧ ∀ i l : ℕ, Level m i l → L[i]? = some (l : ℤ) := by
  intro fuel
  induction fuel with
  | zero =>
    intro k frontier values hk hl hf hv
    have : frontier = [] := by
      apply List.eq_nil_iff_forall_not_mem.mpr
      intro x hx
      obtain ⟨i, _, h⟩ := (hf x).mp hx
      have := hK i k h
      omega
    subst this
    exact ⟨values, rfl, hl, fun i l h => hv i l h (by have := hK i l h; omega)⟩
  | succ fuel ih =>
    intro k frontier values hk hl hf hv
    match frontier, hf with
    | [], hf =>
      refine ⟨values, rfl, hl, fun i l h => hv i l h ?_⟩
      by_contra hlk
      -- somewhere above `i` there is an obstacle of level `k`
      have : ∀ {i l : ℕ}, Level m i l → k ≤ l → ∃ j, Level m j k := by
        intro i l h
        induction h with
        | root h =>
          intro hk
          have : k = 0 := by omega
          subst this
          exact ⟨_, .root h⟩
        | @child i p l hp hl ih =>
          intro hk
          by_cases hkl : k ≤ l
          · exact ih hkl
          · have : k = l + 1 := by omega
            subst this
            exact ⟨i, .child hp hl⟩
      obtain ⟨j, hj⟩ := this h (by omega)
      have := (hf j).mpr ⟨j, rfl, hj⟩
      cases this
    | p :: ps, hf =>
      obtain ⟨v', n', hrun, h1, h2, h3, h4⟩ := levelPass_eq hm k (p :: ps) values [] hl (by
        intro x hx
        obtain ⟨i, e, hi⟩ := (hf x).mp hx
        exact ⟨i, e, level_lt hi⟩)
      obtain ⟨L, hL, hlen, hall⟩ := ih (k + 1) n' v' (by omega) h1 (by
        intro x
        rw [h4]
        constructor
        · rintro (h | ⟨q, i, hq, e, hi⟩)
          · cases h
          · obtain ⟨q', e', hq'⟩ := (hf q).mp hq
            have : q' = q := by omega
            subst this
            exact ⟨i, e, .child hi hq'⟩
        · rintro ⟨i, e, hi⟩
          right
          cases hi with
          | @child _ q _ hp hq => exact ⟨q, i, (hf q).mpr ⟨q, rfl, hq⟩, e, hp⟩) (by
        intro i l hil hlk
        by_cases hk' : l = k
        · subst hk'
          exact h2 i (level_lt hil) ((hf i).mpr ⟨i, rfl, hil⟩)
        · rw [h3 i ?_]
          · exact hv i l hil (by omega)
          · intro hmem
            obtain ⟨i', e, hi'⟩ := (hf i).mp hmem
            have : i' = i := by omega
            subst this
            exact hk' (level_unique hil hi'))
      refine ⟨L, ?_, hlen, hall⟩
      unfold levelLoop
      rw [hrun]
      exact hL

lemma getRoots_iff {m : MultiBoundary} (hm : Forest m) (x : ℤ) :
    x ∈ m.getRoots ↔ ∃ i : ℕ, x = i ∧ Level m i 0 := by
  unfold getRoots
  rw [List.mem_map]
  constructor
  · rintro ⟨i, hi, rfl⟩
    rw [List.mem_filter, List.mem_range] at hi
    obtain ⟨hl, hi⟩ := hi
    simp only [decide_eq_true_eq] at hi
    rw [List.getD_eq_getElem _ _ hl] at hi
    refine ⟨i, rfl, .root ?_⟩
    rcases hm.parent i _ (List.getElem?_eq_getElem hl) with h | ⟨q, h, _⟩
    · rw [List.getElem?_eq_getElem hl, h]
    · omega
  · rintro ⟨i, rfl, h⟩
    cases h with
    | root h =>
      refine ⟨i, ?_, rfl⟩
      obtain ⟨hl, h⟩ := List.getElem?_eq_some_iff.mp h
      rw [List.mem_filter, List.mem_range]
      refine ⟨hl, ?_⟩
      simp only [decide_eq_true_eq]
      rw [List.getD_eq_getElem _ _ hl, h]; omega

end MultiBoundary

open MultiBoundary

/-- C47 (partial): after a history of calls that make sense, every obstacle is without parent or has
an existing obstacle as parent; `get_parent` and `get_children` agree, and no child is listed twice.

Missing for the full property: arbitrary histories, for which it is false
(`C47_first_attached`, `C47_reparented`). -/
theorem C47_consistent_partial (cs : List MultiBoundary.Call)
    (h : Spec.AllowedBoundaryHistory MultiBoundary.create cs) (i : ℕ)
    (hi : i < (MultiBoundary.create.run cs).nObstacles) :
    let m := MultiBoundary.create.run cs
    (m.getParent i = .ok (-1) ∨ ∃ q : ℕ, q < m.nObstacles ∧ m.getParent i = .ok (q : ℤ))
    ∧ ∃ c, m.getChildren i = .ok c ∧ c.Nodup
      ∧ ∀ x : ℤ, x ∈ c ↔ ∃ j : ℕ, x = j ∧ m.getParent j = .ok (i : ℤ) := by
  intro m
  have hm : Forest m := forest_run cs forest_create h
  constructor
  · have hp : m.parents[i]? = some (m.parents[i]'hi) := List.getElem?_eq_getElem hi
    rcases hm.parent i _ hp with e | ⟨q, e, hq⟩
    · rw [e] at hp; exact .inl (getParent_iff.mpr hp)
    · rw [e] at hp; exact .inr ⟨q, hq, getParent_iff.mpr hp⟩
  · have hi' : i < m.children.length := by rw [hm.len]; exact hi
    obtain ⟨h1, h2⟩ := hm.child i _ (List.getElem?_eq_getElem hi')
    refine ⟨_, getChildren_iff.mpr (List.getElem?_eq_getElem hi'), h1, ?_⟩
    simpa only [getParent_iff] using h2

/-- C47: every call of such a history succeeds. -/
theorem C47_calls_succeed (cs : List MultiBoundary.Call)
    (h : Spec.AllowedBoundaryHistory MultiBoundary.create cs) (c : MultiBoundary.Call)
    (hc : Spec.AllowedBoundaryCall (MultiBoundary.create.run cs) c) :
    ((MultiBoundary.create.run cs).step c).2 = .ok () :=
  (forest_step (forest_run cs forest_create h) hc).2

/-- C47 (partial): after such a history `get_level_numbers` terminates, giving level 0 to every
obstacle without parent and to every other obstacle one more than to its parent.

Missing: histories which attach to an obstacle of an empty container (`C47_first_attached`) or attach an obstacle
twice (`C47_reparented`), for which it is false. -/
theorem C47_levels_partial (cs : List MultiBoundary.Call)
    (h : Spec.AllowedBoundaryHistory MultiBoundary.create cs) :
    let m := MultiBoundary.create.run cs
    ∃ (N : ℕ) (L : List ℤ), (∀ fuel ≥ N, m.getLevelNumbers fuel = some (.ok L))
      ∧ L.length = m.nObstacles
      ∧ (∀ i : ℕ, m.getParent i = .ok (-1) → L[i]? = some 0)
      ∧ (∀ i q : ℕ, m.getParent i = .ok (q : ℤ) →
          ∃ l : ℤ, L[q]? = some l ∧ L[i]? = some (l + 1)) := by
  intro m
  have hm : Forest m := forest_run cs forest_create h
  -- a bound on the levels
  obtain ⟨K, hK⟩ : ∃ K, ∀ i k : ℕ, Level m i k → k < K := by
    classical
    choose! f hf using hm.level
    refine ⟨(Finset.range m.parents.length).sup f + 1, ?_⟩
    intro i k hik
    have hi := level_lt hik
    rw [level_unique hik (hf i hi)]
    exact Nat.lt_succ_of_le (Finset.le_sup (f := f) (Finset.mem_range.mpr hi))
  have hrun : ∀ fuel ≥ K, ∃ L : List ℤ, m.getLevelNumbers fuel = some (.ok L)
      ∧ L.length = m.parents.length ∧ ∀ i l : ℕ, Level m i l → L[i]? = some (l : ℤ) := by
    intro fuel hfuel
    exact levelLoop_eq hm hK fuel 0 m.getRoots _ (by omega) (by simp) (getRoots_iff hm)
      (by intro i l _ hl; omega)
  obtain ⟨L, _, hlen, hL⟩ := hrun K le_rfl
  refine ⟨K, L, ?_, hlen, ?_, ?_⟩
  · intro fuel hfuel
    obtain ⟨L', h1, hlen', hL'⟩ := hrun fuel hfuel
    rw [h1]
    have : L' = L := by
      apply List.ext_getElem?
      intro i
      by_cases hi : i < m.parents.length
      · obtain ⟨k, hk⟩ := hm.level i hi
        rw [hL i k hk, hL' i k hk]
      · rw [List.getElem?_eq_none (by omega), List.getElem?_eq_none (by omega)]
    rw [this]
  · intro i hi
    exact hL i 0 (.root (getParent_iff.mp hi))
  · intro i q hi
    have hi' := getParent_iff.mp hi
    have hq : q < m.parents.length := by
      rcases hm.parent i _ hi' with h | ⟨q', h, hq⟩
      · omega
      · omega
    obtain ⟨k, hk⟩ := hm.level q hq
    refine ⟨k, hL q k hk, ?_⟩
    have := hL i (k + 1) (.child hi' hk)
    rw [this]; push_cast; rfl

/-- C47 (partial): if the first obstacle is never attached to another one, it is what `get_root`
returns.

Missing: as for `C47_levels_partial`, and histories which attach the first obstacle to another one. -/
theorem C47_root_partial (cs : List MultiBoundary.Call)
    (h : Spec.AllowedBoundaryHistory MultiBoundary.create cs)
    (h0 : ∀ c p, .extendGraph c p ∈ cs → c ≠ 0)
    (hn : 0 < (MultiBoundary.create.run cs).nObstacles) :
    (MultiBoundary.create.run cs).getParent (0 : ℕ) = .ok (-1)
      ∧ (MultiBoundary.create.run cs).getRoot = .ok 0 := by
  have key : ∀ (cs : List MultiBoundary.Call) (m : MultiBoundary), Forest m →
      Spec.AllowedBoundaryHistory m cs → (∀ c p, .extendGraph c p ∈ cs → c ≠ 0) →
      (m.parents = [] ∨ m.parents[0]? = some (-1)) →
      ((m.run cs).parents = [] ∨ (m.run cs).parents[0]? = some (-1)) := by
    intro cs
    induction cs with
    | nil => intro m _ _ _ h; exact h
    | cons c cs ih =>
      intro m hm hall hne hinv
      refine ih _ (forest_step hm hall.1).1 hall.2
        (fun c p hmem => hne c p (List.mem_cons_of_mem _ hmem)) ?_
      right
      have hset : ∀ (m : MultiBoundary) (c p : ℕ), Forest m → c < m.parents.length →
          p < m.parents.length → c ≠ 0 → (m.extendGraph c p).1.parents[0]? = m.parents[0]? := by
        intro m c p hm hc hp h0
        rw [extend_eq hm.len hc hp]
        exact List.getElem?_set_ne h0
      cases c with
      | append p =>
        change (m.append p).1.parents[0]? = _
        have h1 := forest_snoc hm
        have hfirst : (m.parents ++ [(-1 : ℤ)])[0]? = some (-1) := by
          rcases hinv with e | e
          · rw [e]; rfl
          · rw [List.getElem?_append_left (List.getElem?_eq_some_iff.mp e).1]; exact e
        unfold append
        simp only
        by_cases hp : p = some (-1)
        · have hpos : 0 < m.parents.length := hall.1 hp
          rw [if_pos hp]
          have e1 : (((⟨m.parents ++ [-1], m.children ++ [[]]⟩ : MultiBoundary).nObstacles : ℤ) - 1)
              = ((m.parents.length : ℕ) : ℤ) := by
            unfold nObstacles; simp
          have e2 : (((⟨m.parents ++ [-1], m.children ++ [[]]⟩ : MultiBoundary).nObstacles : ℤ) - 2)
              = ((m.parents.length - 1 : ℕ) : ℤ) := by
            unfold nObstacles
            simp only [List.length_append, List.length_singleton]
            push_cast [Nat.cast_sub hpos]; ring
          rw [e1, e2, hset _ _ _ h1 (by simp) (by simp) (by omega)]
          exact hfirst
        · rw [if_neg hp]; exact hfirst
      | extendGraph c p =>
        obtain ⟨ci, pi, rfl, rfl, hr, hp, ha⟩ := hall.1
        have hr' := getParent_iff.mp hr
        have hci : ci ≠ 0 := by
          have := hne _ _ List.mem_cons_self
          omega
        change (m.extendGraph ci pi).1.parents[0]? = _
        rw [hset m ci pi hm (List.getElem?_eq_some_iff.mp hr').1 hp hci]
        rcases hinv with e | e
        · rw [e] at hr'; simp at hr'
        · exact e
  have hres := key cs MultiBoundary.create forest_create h h0 (.inl rfl)
  set m := MultiBoundary.create.run cs
  have hp : m.parents[0]? = some (-1) := by
    rcases hres with e | e
    · unfold nObstacles at hn; rw [e] at hn; simp at hn
    · exact e
  refine ⟨getParent_iff.mpr hp, ?_⟩
  unfold getRoot getRoots
  obtain ⟨n, hn'⟩ : ∃ n, m.parents.length = n + 1 := ⟨m.parents.length - 1, by
    unfold nObstacles at hn; omega⟩
  rw [hn', List.range_succ_eq_map, List.filter_cons, if_pos]
  · rfl
  · rw [List.getD_eq_getElem?_getD, hp]; decide

/-- C47: an appended obstacle is attached to the previous one if `parent=-1` is given, and to none
otherwise: any other value of `parent` is ignored. -/
theorem C47_append (cs : List MultiBoundary.Call)
    (h : Spec.AllowedBoundaryHistory MultiBoundary.create cs) (p : Option ℤ) :
    let m := MultiBoundary.create.run cs
    (p ≠ some (-1) → (m.step (.append p)).1.getParent m.nObstacles = .ok (-1))
    ∧ (p = some (-1) → 0 < m.nObstacles →
      (m.step (.append p)).1.getParent m.nObstacles = .ok (m.nObstacles - 1)) := by
  intro m
  have hm : Forest m := forest_run cs forest_create h
  have h1 := forest_snoc hm
  constructor
  · intro hp
    change (m.append p).1.getParent _ = _
    unfold append
    simp only
    rw [if_neg hp, getParent_iff]
    simp [nObstacles]
  · intro hp hpos
    change (m.append p).1.getParent _ = _
    unfold append
    simp only
    rw [if_pos hp, getParent_iff]
    have hpos' : 0 < m.parents.length := hpos
    have e1 : (((⟨m.parents ++ [-1], m.children ++ [[]]⟩ : MultiBoundary).nObstacles : ℤ) - 1)
        = ((m.parents.length : ℕ) : ℤ) := by
      unfold nObstacles; simp
    have e2 : (((⟨m.parents ++ [-1], m.children ++ [[]]⟩ : MultiBoundary).nObstacles : ℤ) - 2)
        = ((m.parents.length - 1 : ℕ) : ℤ) := by
      unfold nObstacles
      simp only [List.length_append, List.length_singleton]
      push_cast [Nat.cast_sub hpos']; ring
    rw [e1, e2, extend_eq h1.len (by simp) (by simp)]
    unfold nObstacles
    simp only
    rw [List.getElem?_set_self (by simp)]
    push_cast [Nat.cast_sub hpos']; rfl

/-- C47, negative result: `append(parent=-1)` on an empty container makes the obstacle its own child,
and `get_level_numbers` never terminates. -/
theorem C47_first_attached :
    let m := (MultiBoundary.create.step (.append (some (-1)))).1
    m.getParent (0 : ℕ) = .ok (-1) ∧ m.getChildren (0 : ℕ) = .ok [0]
      ∧ ∀ fuel, m.getLevelNumbers fuel = none := by
  intro m
  refine ⟨rfl, rfl, ?_⟩
  have hm : m = ⟨[-1], [[0]]⟩ := rfl
  have key : ∀ (fuel : ℕ) (k v : ℤ), levelLoop m fuel k [0] [v] = none := by
    intro fuel
    induction fuel with
    | zero => intro k v; rfl
    | succ fuel ih =>
      intro k v
      have : levelPass m k [0] ([v], []) = .ok ([k], [0]) := rfl
      unfold levelLoop
      rw [this]
      exact ih (k + 1) k
  intro fuel
  exact key fuel 0 (-1)

/-- C47, negative result: attaching an obstacle that already has a parent leaves it in the list of the
old parent. -/
theorem C47_reparented (cs : List MultiBoundary.Call)
    (h : Spec.AllowedBoundaryHistory MultiBoundary.create cs) (c q p : ℕ)
    (hq : (MultiBoundary.create.run cs).getParent c = .ok (q : ℤ)) (hpq : p ≠ q)
    (hp : p < (MultiBoundary.create.run cs).nObstacles) :
    let m := ((MultiBoundary.create.run cs).step (.extendGraph c p)).1
    m.getParent c = .ok (p : ℤ)
      ∧ (∃ l, m.getChildren p = .ok l ∧ (c : ℤ) ∈ l) ∧ ∃ l, m.getChildren q = .ok l ∧ (c : ℤ) ∈ l := by
  intro m'
  set m := MultiBoundary.create.run cs
  have hm : Forest m := forest_run cs forest_create h
  have hq' := getParent_iff.mp hq
  have hc := (List.getElem?_eq_some_iff.mp hq').1
  have hp' : p < m.children.length := by rw [hm.len]; exact hp
  have hm' : m' = ⟨m.parents.set c p, m.children.set p (m.children.getD p [] ++ [(c : ℤ)])⟩ := by
    change (m.extendGraph c p).1 = _
    rw [extend_eq hm.len hc hp]
  have hqn : q < m.children.length := by
    rw [hm.len]
    rcases hm.parent c _ hq' with h | ⟨q', h, hq⟩ <;> omega
  rw [hm']
  refine ⟨?_, ?_, ?_⟩
  · rw [getParent_iff]; exact List.getElem?_set_self hc
  · refine ⟨_, getChildren_iff.mpr (List.getElem?_set_self hp'), by simp⟩
  · have hl := List.getElem?_eq_getElem hqn
    refine ⟨m.children[q], ?_, ((hm.child q _ hl).2 c).mpr ⟨c, rfl, hq'⟩⟩
    rw [getChildren_iff]
    simp only
    rw [List.getElem?_set_ne hpq]
    exact hl

/-- C47 is not vacuous: a chain of three, a second tree, and the second tree attached to the first. -/
example : Spec.AllowedBoundaryHistory MultiBoundary.create
      [.append none, .append (some (-1)), .append (some (-1)), .append none, .append (some (-1)),
        .extendGraph 3 1]
    ∧ (MultiBoundary.create.run [.append none, .append (some (-1)), .append (some (-1)), .append none,
        .append (some (-1)), .extendGraph 3 1]).getLevelNumbers 10 = some (.ok [0, 1, 2, 2, 3]) := by
  refine ⟨⟨(fun h => by cases h), (fun _ => by decide), (fun _ => by decide), (fun h => by cases h),
    (fun _ => by decide), ⟨3, 1, rfl, rfl, rfl, by decide, ?_⟩, trivial⟩, rfl⟩
  intro h
  have h1 : ∀ y : ℕ, (⟨[-1, 0, 1, -1, 3], [[1], [2], [], [4], []]⟩ : MultiBoundary).getParent (1 : ℕ)
      = .ok (y : ℤ) → y = 0 := by
    intro y hy
    have := getParent_iff.mp hy
    simp at this
    omega
  have h0 : ∀ y : ℕ, (⟨[-1, 0, 1, -1, 3], [[1], [2], [], [4], []]⟩ : MultiBoundary).getParent (0 : ℕ)
      = .ok (y : ℤ) → False := by
    intro y hy
    have := getParent_iff.mp hy
    simp at this
  change Relation.ReflTransGen (fun x y : ℕ =>
    (⟨[-1, 0, 1, -1, 3], [[1], [2], [], [4], []]⟩ : MultiBoundary).getParent x = .ok (y : ℤ)) 1 3 at h
  rcases h.cases_head with e | ⟨y, hy, h⟩
  · omega
  · rw [h1 y hy] at h
    rcases h.cases_head with e | ⟨z, hz, _⟩
    · omega
    · exact h0 z hz

end Verif
