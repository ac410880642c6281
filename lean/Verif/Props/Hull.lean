import Verif.Model.Hull
import Verif.Lemmas.Monad

/-!
# C53, C77: weights and attractor of a hull with inner obstacles
-/

open scoped RealInnerProductSpace

namespace Verif
open Hull Hull.MultiHull

variable {d : ℕ}

lemma hull_raw_nonneg (l : List ℝ) : ∀ w ∈ l.map (fun g => max (g - 1) 0), 0 ≤ w := by
  intro w hw
  obtain ⟨g, _, rfl⟩ := List.mem_map.mp hw
  exact le_max_right _ _

lemma hull_raw_sum_pos (l : List ℝ) :
    0 < (l.map (fun g => max (g - 1) 0)).sum ↔ ∃ g ∈ l, 1 < g := by
  constructor
  · intro h
    by_contra hc
    push Not at hc
    have : (l.map (fun g => max (g - 1) 0)).sum = 0 := by
      apply List.sum_eq_zero
      intro x hx
      obtain ⟨g, hg, rfl⟩ := List.mem_map.mp hx
      exact max_eq_right (by linarith [hc g hg])
    linarith
  · rintro ⟨g, hg, h1⟩
    have := List.single_le_sum (hull_raw_nonneg l) _ (List.mem_map_of_mem hg)
    have h2 : 0 < max (g - 1) 0 := lt_of_lt_of_le (by linarith) (le_max_left _ _)
    linarith

/-- C53: there is one weight per element (the inner obstacles, then the outer one), in `[0, 1]`. -/
theorem C53_range (m : MultiHull d) (x : Vec d) :
    (m.evaluateWeights x).length = m.inner.length + 1
      ∧ ∀ w ∈ m.evaluateWeights x, 0 ≤ w ∧ w ≤ 1 := by
  unfold evaluateWeights
  simp only
  have hl : (m.gammaList x).length = m.inner.length + 1 := by simp [gammaList, allObstacles]
  have hn := hull_raw_nonneg (m.gammaList x)
  split_ifs with h
  · refine ⟨by simpa using hl, ?_⟩
    intro w hw
    obtain ⟨v, hv, rfl⟩ := List.mem_map.mp hw
    exact ⟨div_nonneg (hn v hv) h.le, (div_le_one h).mpr (List.single_le_sum hn v hv)⟩
  · refine ⟨by simpa using hl, ?_⟩
    intro w hw
    refine ⟨hn w hw, ?_⟩
    have := List.single_le_sum hn w hw
    linarith [not_lt.mp h]

/-- C53: the weights sum to one if the position is in the free space of at least one element, and to
zero otherwise. -/
theorem C53_sum (m : MultiHull d) (x : Vec d) :
    ((∃ o ∈ m.inner ++ [m.outer], 1 < o.gamma x) → (m.evaluateWeights x).sum = 1)
      ∧ ((∀ o ∈ m.inner ++ [m.outer], o.gamma x ≤ 1) → (m.evaluateWeights x).sum = 0) := by
  have key : 0 < ((m.gammaList x).map (fun g => max (g - 1) 0)).sum
      ↔ ∃ o ∈ m.inner ++ [m.outer], 1 < o.gamma x := by
    rw [hull_raw_sum_pos]
    unfold gammaList allObstacles
    constructor
    · rintro ⟨g, hg, h1⟩
      obtain ⟨o, ho, rfl⟩ := List.mem_map.mp hg
      exact ⟨o, ho, h1⟩
    · rintro ⟨o, ho, h1⟩
      exact ⟨_, List.mem_map_of_mem ho, h1⟩
  constructor
  · intro h
    have h0 := key.mpr h
    unfold evaluateWeights
    simp only
    rw [if_pos h0]
    simp only [div_eq_mul_inv]
    rw [List.sum_map_mul_right, List.map_id', mul_inv_cancel₀ h0.ne']
  · intro h
    have h0 : ¬ 0 < ((m.gammaList x).map (fun g => max (g - 1) 0)).sum := by
      rw [key]; push Not; exact h
    unfold evaluateWeights
    simp only
    rw [if_neg h0]
    exact le_antisymm (not_lt.mp h0) (List.sum_nonneg (hull_raw_nonneg _))

/-- C53: exactly the elements in whose free space the position lies have influence, and the deeper
in the free space the more. -/
theorem C53_influence (m : MultiHull d) (x : Vec d) (i : ℕ) (hi : i < (m.inner ++ [m.outer]).length) :
    ∃ w, (m.evaluateWeights x)[i]? = some w ∧ (w = 0 ↔ (m.inner ++ [m.outer])[i].gamma x ≤ 1)
      ∧ ∀ j (hj : j < (m.inner ++ [m.outer]).length), ∃ v, (m.evaluateWeights x)[j]? = some v
        ∧ ((m.inner ++ [m.outer])[i].gamma x ≤ (m.inner ++ [m.outer])[j].gamma x → w ≤ v) := by
  have hraw : ∀ j (hj : j < (m.inner ++ [m.outer]).length),
      ((m.gammaList x).map (fun g => max (g - 1) 0))[j]?
        = some (max ((m.inner ++ [m.outer])[j].gamma x - 1) 0) := by
    intro j hj
    simp only [gammaList, allObstacles, List.getElem?_map, List.getElem?_eq_getElem hj,
      Option.map_some]
  have hz : ∀ a : ℝ, max (a - 1) 0 = 0 ↔ a ≤ 1 := by
    intro a; rw [max_eq_right_iff]; exact sub_nonpos
  unfold evaluateWeights
  simp only
  by_cases h : ((m.gammaList x).map (fun g => max (g - 1) 0)).sum > 0
  · rw [if_pos h]
    refine ⟨_, by rw [List.getElem?_map, hraw i hi]; rfl, ?_, ?_⟩
    · rw [div_eq_zero_iff, or_iff_left h.ne', hz]
    · intro j hj
      refine ⟨_, by rw [List.getElem?_map, hraw j hj]; rfl, fun hij => ?_⟩
      exact div_le_div_of_nonneg_right (max_le_max (by linarith) le_rfl) h.le
  · rw [if_neg h]
    refine ⟨_, hraw i hi, hz _, ?_⟩
    intro j hj
    exact ⟨_, hraw j hj, fun hij => max_le_max (by linarith) le_rfl⟩

/-- C53: `is_inside` reports exactly the positions which are in the wall of every element. -/
theorem C53_is_inside (m : MultiHull d) (x : Vec d) :
    m.isInside x = true ↔ ∀ o ∈ m.inner ++ [m.outer], o.inside x = true := by
  have key : ∀ (l : List (Elem d)) (b : Bool),
      l.foldl (fun f o => if !o.inside x then true else f) b = true
        ↔ b = true ∨ ∃ o ∈ l, o.inside x = false := by
    intro l
    induction l with
    | nil => intro b; simp
    | cons o l ih =>
      intro b
      rw [List.foldl_cons, ih]
      cases h : o.inside x <;> simp [h]
  unfold isInside
  simp only
  rw [Bool.not_eq_true', Bool.eq_false_iff, ne_eq, key]
  push Not
  constructor
  · rintro ⟨h1, h2⟩ o ho
    rcases List.mem_append.mp ho with h | h
    · simpa using h2 o h
    · simp at h; subst h; simpa using h1
  · intro h
    exact ⟨by simpa using h m.outer (by simp), fun o ho => by simp [h o (by simp [ho])]⟩

/-- C53: if the elements report a position as inside exactly when their gamma is at most one, then
the weights vanish exactly in the wall. -/
theorem C53_wall (m : MultiHull d) (x : Vec d)
    (hel : ∀ o ∈ m.inner ++ [m.outer], o.inside x = true ↔ o.gamma x ≤ 1) :
    m.isInside x = true ↔ (m.evaluateWeights x).sum = 0 := by
  rw [C53_is_inside]
  constructor
  · intro h
    exact (C53_sum m x).2 fun o ho => (hel o ho).mp (h o ho)
  · intro h o ho
    rw [hel o ho]
    by_contra hc
    have := (C53_sum m x).1 ⟨o, ho, not_le.mp hc⟩
    rw [h] at this; norm_num at this

/-- C53: the weight of an entrance is in `[0, 1]`; it is zero exactly outside the overlap of inner
and outer obstacle and one in the overlap where the surface of the outer obstacle is not in the free
space of the inner one. -/
theorem C53_boundary_weight (x : Vec d) (inner outer : Elem d) (power : ℝ) (hp : 0 ≤ power)
    (hg : 0 ≤ outer.gamma x) :
    0 ≤ boundaryIntersectionWeight x inner outer power
      ∧ boundaryIntersectionWeight x inner outer power ≤ 1
      ∧ (boundaryIntersectionWeight x inner outer power = 0
          ↔ inner.gamma x ≤ 1 ∨ 1 ≤ outer.gamma x)
      ∧ (1 < inner.gamma x → outer.gamma x < 1 → inner.gamma (outer.surface x) ≤ 1 →
          boundaryIntersectionWeight x inner outer power = 1) := by
  unfold boundaryIntersectionWeight
  simp only
  by_cases h1 : inner.gamma x ≤ 1 ∨ outer.gamma x ≥ 1
  · rw [if_pos h1]
    refine ⟨le_rfl, zero_le_one, ⟨fun _ => h1, fun _ => rfl⟩, ?_⟩
    intro h2 h3
    rcases h1 with h1 | h1 <;> linarith
  · rw [if_neg h1]
    by_cases h2 : inner.gamma (outer.surface x) ≤ 1
    · rw [if_pos h2]
      refine ⟨zero_le_one, le_rfl, ⟨fun h => absurd h one_ne_zero, fun h => absurd h h1⟩, ?_⟩
      intros; rfl
    · rw [if_neg h2]
      have h3 : 0 < inner.gamma (outer.surface x) := by linarith [not_le.mp h2]
      have h4 : 0 < (1 / inner.gamma (outer.surface x)) ^ (outer.gamma x * power) :=
        Real.rpow_pos_of_pos (by positivity) _
      refine ⟨h4.le, ?_, ⟨fun h => absurd h h4.ne', fun h => absurd h h1⟩, ?_⟩
      · apply Real.rpow_le_one (by positivity) _ (by positivity)
        rw [div_le_one h3]; linarith [not_le.mp h2]
      · intro _ _ h; exact absurd h h2

/-- A flat wall: the free space is `x 0 > c` (`s = 1`) or `x 0 < c` (`s = -1`). -/
noncomputable def flatWall (s c : ℝ) : Elem 2 where
  gamma x := 1 + s * (x 0 - c)
  inside x := open Classical in decide (s * (x 0 - c) ≤ 0)
  surface x := !₂[c, x 1]
  normal _ := !₂[s, 0]
  reference _ := !₂[s, 0]

/-- C53 is not vacuous: a position in the free space of one of two elements. -/
example : let m : MultiHull 2 := ⟨[flatWall 1 0], flatWall 1 5, .trivial, none, none, false, 0⟩
    (∃ o ∈ m.inner ++ [m.outer], 1 < o.gamma !₂[2, 0])
      ∧ (∀ o ∈ m.inner ++ [m.outer], o.inside !₂[2, 0] = true ↔ o.gamma !₂[2, 0] ≤ 1)
      ∧ (∀ o ∈ m.inner ++ [m.outer], o.gamma !₂[-2, 0] ≤ 1) := by
  refine ⟨⟨flatWall 1 0, by simp, by simp [flatWall]⟩, ?_, ?_⟩
  · intro o ho; simp at ho; rcases ho with rfl | rfl <;> simp [flatWall] <;> norm_num
  · intro o ho; simp at ho; rcases ho with rfl | rfl <;> simp [flatWall]; norm_num

/-! ### The attractor -/

/-- The attractor in the frame of the obstacle. -/
noncomputable def localPosition (m : MultiHull d) (p : Vec d) (inGlobalFrame : Bool) : Vec d :=
  if inGlobalFrame then m.pose.toRelative p else p

/-- `p` is the attractor of the hull: every element in the free space of which the attractor was
found stores exactly `p`, and there is at least one. -/
structure HasAttractor (m : MultiHull d) (p : Vec d) : Prop where
  outside : m.isOutside = true → m.outsideAttractor = some p
  graph : m.inner ≠ [] → m.graph.isSome
  attrs : ∀ g, m.graph = some g → ∀ i < m.inner.length, ∃ a, g.attr i = some a
    ∧ (a.contains = true → a.localAttractor = some p)
  some_element : m.isOutside = true ∨ ∃ g i a, m.graph = some g ∧ i < m.inner.length
    ∧ g.attr i = some a ∧ a.contains = true

lemma findAttractor_of {g : HullGraph d} {p : Vec d} (l : List ℕ)
    (h : ∀ i ∈ l, ∃ a, g.attr i = some a ∧ (a.contains = true → a.localAttractor = some p))
    (hex : ∃ i ∈ l, ∃ a, g.attr i = some a ∧ a.contains = true) :
    findAttractor g l = .ok (some p) := by
  induction l with
  | nil => obtain ⟨i, hi, _⟩ := hex; simp at hi
  | cons i l ih =>
    obtain ⟨a, ha, hc⟩ := h i (by simp)
    unfold findAttractor
    rw [ha]
    simp only
    by_cases hcc : a.contains = true
    · rw [if_pos hcc, hc hcc]
    · rw [if_neg hcc]
      apply ih (fun j hj => h j (by simp [hj]))
      obtain ⟨j, hj, b, hb, hb'⟩ := hex
      rcases List.mem_cons.mp hj with rfl | hj
      · rw [ha] at hb; cases hb; exact absurd hb' hcc
      · exact ⟨j, hj, b, hb, hb'⟩

lemma HasAttractor.get {m : MultiHull d} {p : Vec d} (h : HasAttractor m p) :
    m.getAttractor = .ok (some p) := by
  unfold getAttractor
  by_cases h1 : m.isOutside = true
  · rw [if_pos h1, h.outside h1]
  · rw [if_neg h1]
    rcases h.some_element with h2 | ⟨g, i, a, hg, hi, ha, hc⟩
    · exact absurd h2 h1
    · rw [hg]
      exact findAttractor_of _ (fun j hj => h.attrs g hg j (by simpa using hj))
        ⟨i, by simpa using hi, a, ha, hc⟩

/-- What the loop of `set_attractor` does. -/
lemma setAttractor_loop (p : Vec d) (l : List (Elem d)) (k : ℕ) (g : HullGraph d) (f : Bool) :
    ∃ g', (l.zipIdx k).foldlM (setAttractorStep p) (some g, f)
        = .ok (some g', f || l.any (fun o => !o.inside p))
      ∧ g'.edges = g.edges
      ∧ (∀ j (hj : j < l.length), g'.attr (k + j)
          = some (if l[j].inside p then ⟨none, false⟩ else ⟨some p, true⟩))
      ∧ ∀ i, i < k → g'.attr i = g.attr i := by
  induction l generalizing k g f with
  | nil => exact ⟨g, by simp; rfl, rfl, by simp, fun _ _ => rfl⟩
  | cons o l ih =>
    rw [List.zipIdx_cons, List.foldlM_cons]
    obtain ⟨a, ha⟩ : ∃ a : NodeAttr d, a = if o.inside p then ⟨none, false⟩ else ⟨some p, true⟩ :=
      ⟨_, rfl⟩
    have hstep : setAttractorStep p (some g, f) (o, k)
        = .ok (some (setNode g k a), f || !o.inside p) := by
      unfold setAttractorStep
      simp only
      rw [ha]
      cases h : o.inside p <;> simp
    obtain ⟨g', h1, h2, h3, h4⟩ := ih (k + 1) (setNode g k a) (f || !o.inside p)
    refine ⟨g', ?_, h2, ?_, ?_⟩
    · rw [hstep]
      change List.foldlM (setAttractorStep p) (some (setNode g k a), f || !o.inside p)
        (l.zipIdx (k + 1)) = _
      rw [h1]; simp [Bool.or_assoc]
    · intro j hj
      cases j with
      | zero =>
        rw [add_zero, h4 k (by omega)]
        simp [setNode, ha]
      | succ j =>
        rw [show k + (j + 1) = k + 1 + j by omega, h3 j (by simpa using hj)]
        simp
    · intro i hi
      rw [h4 i (by omega)]
      simp [setNode, show i ≠ k by omega]

lemma argmin_spec {l : List ℝ} (hl : l ≠ []) :
    ∃ i, argmin l = .ok i ∧ ∃ h : i < l.length, (∀ x ∈ l, l[i] ≤ x)
      ∧ ∀ j (hj : j < i), l[i] < l[j] := by
  obtain ⟨m, hm⟩ : ∃ m, l.min? = some m := by
    cases h : l.min? with
    | none => rw [List.min?_eq_none_iff] at h; exact absurd h hl
    | some m => exact ⟨m, rfl⟩
  have h1 := List.min?_eq_some_iff.mp hm
  unfold argmin
  rw [hm]
  simp only
  have hlt : l.findIdx (fun x => decide (x = m)) < l.length := by
    rw [List.findIdx_lt_length]
    exact ⟨m, h1.1, by simp⟩
  have hget := List.findIdx_getElem (p := fun x => decide (x = m)) (xs := l) (w := hlt)
  refine ⟨_, rfl, hlt, ?_, ?_⟩
  · intro x hx
    rw [of_decide_eq_true hget]; exact h1.2 x hx
  · intro j hj
    have := List.not_of_lt_findIdx hj
    have h2 : l[j] ≠ m := by simpa using this
    rw [of_decide_eq_true hget]
    exact lt_of_le_of_ne (h1.2 _ (List.getElem_mem _)) h2.symm

/-- C77: setting the attractor succeeds exactly once the graph has been made (or if there are no
inner obstacles), and then it is the attractor (in the frame of the obstacle), wherever it lies. -/
theorem C77_set (m : MultiHull d) (p : Vec d) (gf : Bool) :
    (m.inner = [] ∨ m.graph.isSome →
      ∃ m', m.setAttractor p gf = .ok m' ∧ HasAttractor m' (localPosition m p gf)
        ∧ m'.inner = m.inner ∧ m'.outer = m.outer ∧ m'.pose = m.pose)
    ∧ (m.inner ≠ [] → m.graph = none → m.setAttractor p gf = .error .attributeError) := by
  constructor
  · intro h
    set x := localPosition m p gf with hx
    obtain ⟨gr, free, hfold, hgr, hattr, hfree⟩ : ∃ gr free,
        m.inner.zipIdx.foldlM (setAttractorStep x) (m.graph, !m.outer.inside x) = .ok (gr, free)
        ∧ (m.inner ≠ [] → gr.isSome)
        ∧ (∀ g, gr = some g → ∀ j (hj : j < m.inner.length), g.attr j
          = some (if m.inner[j].inside x then ⟨none, false⟩ else ⟨some x, true⟩))
        ∧ (free = (!m.outer.inside x || m.inner.any fun o => !o.inside x)) := by
      by_cases hin : m.inner = []
      · refine ⟨m.graph, !m.outer.inside x, by rw [hin]; rfl, fun h => absurd hin h, ?_, by simp [hin]⟩
        intro g _ j hj
        exact absurd hj (by simp [hin])
      · rcases h with h | h
        · exact absurd h hin
        · obtain ⟨g, hg⟩ := Option.isSome_iff_exists.mp h
          obtain ⟨g', h1, _, h3, _⟩ := setAttractor_loop x m.inner 0 g (!m.outer.inside x)
          refine ⟨some g', _, by rw [hg]; exact h1, fun _ => rfl, ?_, rfl⟩
          intro g hg j hj
          cases hg
          simpa using h3 j hj
    have hform : m.setAttractor p gf = (do
        let m1 : MultiHull d := { m with
          outsideAttractor := if !m.outer.inside x then some x else none
          isOutside := !m.outer.inside x
          graph := gr }
        if free then pure m1
        else do
          let ind ← argmin (m1.evaluateWeights x)
          if ind = m1.inner.length then
            pure { m1 with outsideAttractor := some x, isOutside := true }
          else
            match m1.graph with
            | none => throw .attributeError
            | some g => pure { m1 with graph := some (setNode g ind ⟨some x, true⟩) }) := by
      unfold setAttractor
      simp only
      change (do
        let (graph, inFreeSpace) ←
          m.inner.zipIdx.foldlM (setAttractorStep x) (m.graph, !m.outer.inside x)
        _) = _
      rw [hfold]; rfl
    rw [hform]
    simp only
    cases hf : free with
    | true =>
      refine ⟨_, rfl, ⟨?_, hgr, ?_, ?_⟩, rfl, rfl, rfl⟩
      · intro ho
        simp only at ho ⊢
        rw [if_pos ho]
      · intro g hg i hi
        refine ⟨_, hattr g hg i hi, ?_⟩
        intro hc
        by_cases hins : m.inner[i].inside x = true
        · rw [if_pos hins] at hc; cases hc
        · rw [if_neg hins]
      · rw [hf] at hfree
        by_cases ho : m.outer.inside x = true
        · right
          rw [ho] at hfree
          obtain ⟨o, ho, hoi⟩ : ∃ o ∈ m.inner, o.inside x = false := by simpa using hfree.symm
          obtain ⟨i, hi, rfl⟩ := List.getElem_of_mem ho
          obtain ⟨g, hg⟩ := Option.isSome_iff_exists.mp (hgr (List.ne_nil_of_mem ho))
          refine ⟨g, i, _, hg, hi, hattr g hg i hi, ?_⟩
          rw [if_neg (by simp [hoi])]
        · left; simpa using ho
    | false =>
      set m1 : MultiHull d := { m with
          outsideAttractor := if !m.outer.inside x then some x else none
          isOutside := !m.outer.inside x
          graph := gr } with hm1
      have hlen := (C53_range m1 x).1
      obtain ⟨ind, hind, hlt, _⟩ := argmin_spec (l := m1.evaluateWeights x)
        (by intro h0; rw [h0] at hlen; simp at hlen)
      rw [hlen] at hlt
      simp only [Bool.false_eq_true, if_false]
      rw [hind]
      by_cases hlast : ind = m.inner.length
      · refine ⟨{ m1 with outsideAttractor := some x, isOutside := true }, ?_,
          ⟨fun _ => rfl, hgr, ?_, Or.inl rfl⟩, rfl, rfl, rfl⟩
        · change (if ind = m.inner.length then _ else _) = _
          rw [if_pos hlast]; rfl
        · intro g hg i hi
          refine ⟨_, hattr g hg i hi, ?_⟩
          intro hc
          by_cases hins : m.inner[i].inside x = true
          · rw [if_pos hins] at hc; cases hc
          · rw [if_neg hins]
      · have hi0 : ind < m.inner.length := by
          have : ind < m.inner.length + 1 := hlt
          omega
        obtain ⟨g, hg⟩ := Option.isSome_iff_exists.mp
          (hgr (by intro h0; rw [h0] at hi0; simp at hi0))
        refine ⟨{ m1 with graph := some (setNode g ind ⟨some x, true⟩) }, ?_,
          ⟨?_, fun _ => rfl, ?_, ?_⟩, rfl, rfl, rfl⟩
        · change (if ind = m.inner.length then _ else _) = _
          rw [if_neg hlast]
          change (match gr with | none => _ | some g => _) = _
          rw [hg]; rfl
        · intro ho
          change (if (!m.outer.inside x) = true then some x else none) = some x
          rw [if_pos ho]
        · intro g' hg' i hi
          cases hg'
          by_cases hii : i = ind
          · exact ⟨⟨some x, true⟩, by simp [setNode, hii], fun _ => rfl⟩
          · refine ⟨_, by simp only [setNode, if_neg hii]; exact hattr g hg i hi, ?_⟩
            intro hc
            by_cases hins : m.inner[i].inside x = true
            · rw [if_pos hins] at hc; cases hc
            · rw [if_neg hins]
        · exact Or.inr ⟨_, ind, ⟨some x, true⟩, rfl, hi0, by simp [setNode], rfl⟩
  · intro h1 h2
    obtain ⟨o, l, hl⟩ := List.exists_cons_of_ne_nil h1
    unfold setAttractor
    simp only [h2, hl, List.zipIdx_cons, List.foldlM_cons]
    rfl

/-- C77: after every successful `set_attractor` the hull reports this attractor (in its own frame). -/
theorem C77_get (m m' : MultiHull d) (p : Vec d) (gf : Bool) (h : m.setAttractor p gf = .ok m') :
    m'.getAttractor = .ok (some (localPosition m p gf)) := by
  by_cases hc : m.inner = [] ∨ m.graph.isSome
  · obtain ⟨m1, h1, h2, _⟩ := (C77_set m p gf).1 hc
    rw [h] at h1; cases h1; exact h2.get
  · push Not at hc
    have := (C77_set m p gf).2 hc.1 (by simpa using hc.2)
    rw [h] at this; cases this

/-- The attributes that `evaluate` keeps: elements, attractor flags and stored local attractors. -/
structure Keeps (m m' : MultiHull d) : Prop where
  inner : m'.inner = m.inner
  outer : m'.outer = m.outer
  pose : m'.pose = m.pose
  isOutside : m'.isOutside = m.isOutside
  outside : ∀ p, m.outsideAttractor = some p → m'.outsideAttractor = some p
  graph : ∀ g, m.graph = some g → ∃ g', m'.graph = some g' ∧ ∀ i a, g.attr i = some a →
    ∃ a', g'.attr i = some a' ∧ a'.contains = a.contains
      ∧ ∀ p, a.localAttractor = some p → a'.localAttractor = some p
  graph_back : ∀ g', m'.graph = some g' → m.graph.isSome

lemma Keeps.refl (m : MultiHull d) : Keeps m m :=
  ⟨rfl, rfl, rfl, rfl, fun _ h => h, fun g h => ⟨g, h, fun _ a ha => ⟨a, ha, rfl, fun _ h => h⟩⟩,
    fun g h => by rw [h]; rfl⟩

lemma Keeps.trans {a b c : MultiHull d} (h1 : Keeps a b) (h2 : Keeps b c) : Keeps a c where
  inner := h2.inner.trans h1.inner
  outer := h2.outer.trans h1.outer
  pose := h2.pose.trans h1.pose
  isOutside := h2.isOutside.trans h1.isOutside
  outside p hp := h2.outside p (h1.outside p hp)
  graph g hg := by
    obtain ⟨g1, hg1, k1⟩ := h1.graph g hg
    obtain ⟨g2, hg2, k2⟩ := h2.graph g1 hg1
    refine ⟨g2, hg2, fun i x hx => ?_⟩
    obtain ⟨y, hy, e1, f1⟩ := k1 i x hx
    obtain ⟨z, hz, e2, f2⟩ := k2 i y hy
    exact ⟨z, hz, e2.trans e1, fun p hp => f2 p (f1 p hp)⟩
  graph_back g hg := by
    obtain ⟨g1, hg1⟩ := Option.isSome_iff_exists.mp (h2.graph_back g hg)
    exact h1.graph_back g1 hg1

lemma Keeps.attractor {m m' : MultiHull d} (h : Keeps m m') {p : Vec d} (ha : HasAttractor m p) :
    HasAttractor m' p where
  outside ho := h.outside p (ha.outside (h.isOutside ▸ ho))
  graph hi := by
    obtain ⟨g, hg⟩ := Option.isSome_iff_exists.mp (ha.graph (h.inner ▸ hi))
    obtain ⟨g', hg', _⟩ := h.graph g hg
    rw [hg']; rfl
  attrs g' hg' i hi := by
    obtain ⟨g, hg⟩ := Option.isSome_iff_exists.mp (h.graph_back g' hg')
    obtain ⟨g1, hg1, k⟩ := h.graph g hg
    rw [hg'] at hg1; cases hg1
    obtain ⟨a, ha1, ha2⟩ := ha.attrs g hg i (h.inner ▸ hi)
    obtain ⟨a', h1, h2, h3⟩ := k i a ha1
    exact ⟨a', h1, fun hc => h3 p (ha2 (h2 ▸ hc))⟩
  some_element := by
    rcases ha.some_element with h1 | ⟨g, i, a, hg, hi, hat, hc⟩
    · exact Or.inl (h.isOutside.trans h1)
    · obtain ⟨g', hg', k⟩ := h.graph g hg
      obtain ⟨a', h1, h2, h3⟩ := k i a hat
      exact Or.inr ⟨g', i, a', hg', h.inner.symm ▸ hi, h1, h2.trans hc⟩

lemma assignAlongPath_keeps (l : List Node) (m m' : MultiHull d)
    (h : m.assignAlongPath l = .ok m') : Keeps m m' := by
  induction l generalizing m with
  | nil => unfold assignAlongPath at h; cases h; exact .refl _
  | cons a l ih =>
    cases l with
    | nil => unfold assignAlongPath at h; cases h; exact .refl _
    | cons b rest =>
      unfold assignAlongPath at h
      cases hg : m.graph with
      | none => rw [hg] at h; cases h
      | some g =>
        rw [hg] at h
        simp only at h
        cases a with
        | inr k =>
          simp only at h
          cases ho : m.outsideAttractor with
          | some q => rw [ho] at h; cases h; exact .refl _
          | none =>
            rw [ho] at h
            obtain ⟨x, _, h2⟩ := bind_ok.mp h
            refine Keeps.trans ?_ (ih _ h2)
            refine ⟨rfl, rfl, rfl, rfl, fun p hp => ?_, fun g1 hg1 => ⟨g, rfl, fun _ a ha => ?_⟩,
              fun g1 hg1 => by rw [hg]; rfl⟩
            · rw [ho] at hp; cases hp
            · rw [hg] at hg1; cases hg1
              exact ⟨a, ha, rfl, fun _ h => h⟩
        | inl i =>
          simp only at h
          cases ha : g.attr i with
          | none => rw [ha] at h; cases h
          | some at' =>
            cases hi : m.inner[i]? with
            | none => rw [ha, hi] at h; cases h
            | some o =>
              rw [ha, hi] at h
              simp only at h
              cases hl : at'.localAttractor with
              | some q => rw [hl] at h; cases h; exact .refl _
              | none =>
                rw [hl] at h
                obtain ⟨x, _, h2⟩ := bind_ok.mp h
                refine Keeps.trans ?_ (ih _ h2)
                refine ⟨rfl, rfl, rfl, rfl, fun p hp => hp, fun g1 hg1 => ?_, fun g1 hg1 => by rw [hg]; rfl⟩
                rw [hg] at hg1; cases hg1
                refine ⟨_, rfl, fun j b hb => ?_⟩
                by_cases hj : j = i
                · subst hj
                  rw [ha] at hb; cases hb
                  exact ⟨⟨some (o.surface x), at'.contains⟩, by simp [setNode], rfl,
                    fun p hp => by rw [hl] at hp; cases hp⟩
                · exact ⟨b, by simp [setNode, hj, hb], rfl, fun _ h => h⟩

lemma updatePath_keeps (S : Search d) (m m' : MultiHull d) (i : ℕ)
    (h : updatePath S m i = .ok m') : Keeps m m' := by
  unfold updatePath at h
  cases hg : m.graph with
  | none => rw [hg] at h; cases h
  | some g =>
    rw [hg] at h
    simp only at h
    obtain ⟨inner, _, h⟩ := bind_ok.mp h
    obtain ⟨outer, _, h⟩ := bind_ok.mp h
    obtain ⟨ind, _, h⟩ := bind_ok.mp h
    cases hc : (inner ++ outer)[ind]? with
    | none => rw [hc] at h; cases h
    | some c =>
      rw [hc] at h
      simp only at h
      cases hp : S.path g (.inl i) c.2 with
      | none => rw [hp] at h; cases h
      | some p => rw [hp] at h; exact assignAlongPath_keeps p m m' h

lemma updatePathFromOutside_keeps (S : Search d) (m m' : MultiHull d) (x : Vec d)
    (h : updatePathFromOutside S m x = .ok m') : Keeps m m' := by
  unfold updatePathFromOutside at h
  cases hg : m.graph with
  | none =>
    rw [hg] at h
    simp only at h
    split_ifs at h
  | some g =>
    rw [hg] at h
    simp only at h
    obtain ⟨lists, _, h⟩ := bind_ok.mp h
    cases ha : argmin (lists.flatten.map fun c => c.1) with
    | error e => rw [ha] at h; cases h
    | ok ind =>
      rw [ha] at h
      simp only at h
      cases hc : lists.flatten[ind]? with
      | none => rw [hc] at h; cases h
      | some c =>
        rw [hc] at h
        simp only at h
        cases hp : S.path g c.2.1 c.2.2 with
        | none => rw [hp] at h; cases h
        | some p => rw [hp] at h; exact assignAlongPath_keeps p m m' h

lemma evaluateStep_keeps (D : Vec d → List (Vec d) → List ℝ → Vec d) (S : Search d) (x : Vec d)
    (s s' : MultiHull d × List (ℝ × Vec d)) (e : Elem d × ℕ)
    (h : evaluateStep D S x s e = .ok s') : Keeps s.1 s'.1 := by
  unfold evaluateStep at h
  simp only at h
  by_cases hw : (s.1.evaluateWeights x).getD e.2 0 = 0
  · rw [if_pos hw] at h; cases h; exact .refl _
  · rw [if_neg hw] at h
    obtain ⟨a, _, h⟩ := bind_ok.mp h
    obtain ⟨m1, h1, h⟩ := bind_ok.mp h
    obtain ⟨_, _, h⟩ := bind_ok.mp h
    obtain ⟨_, _, h⟩ := bind_ok.mp h
    cases h
    unfold ensureLocal at h1
    split_ifs at h1 with hn
    · exact updatePath_keeps S _ _ _ h1
    · cases h1; exact .refl _

lemma evaluateOuter_keeps (D : Vec d → List (Vec d) → List ℝ → Vec d) (S : Search d) (x : Vec d)
    (s s' : MultiHull d × List (ℝ × Vec d)) (h : evaluateOuter D S x s = .ok s') :
    Keeps s.1 s'.1 := by
  unfold evaluateOuter at h
  simp only at h
  by_cases hw : (s.1.evaluateWeights x).getD s.1.inner.length 0 = 0
  · rw [if_pos hw] at h; cases h; exact .refl _
  · rw [if_neg hw] at h
    obtain ⟨m1, h1, h⟩ := bind_ok.mp h
    obtain ⟨_, _, h⟩ := bind_ok.mp h
    cases h
    unfold ensureOutside at h1
    split_ifs at h1 with hn
    · exact updatePathFromOutside_keeps S _ _ _ h1
    · cases h1; exact .refl _

lemma evaluateLocal_keeps (D : Vec d → List (Vec d) → List ℝ → Vec d) (S : Search d)
    (m m' : MultiHull d) (x v : Vec d) (h : m.evaluateLocal D S x = .ok (m', v)) :
    Keeps m m' := by
  unfold MultiHull.evaluateLocal at h
  split_ifs at h with h0
  · cases h; exact .refl _
  · obtain ⟨s1, h1, h⟩ := bind_ok.mp h
    obtain ⟨s2, h2, h⟩ := bind_ok.mp h
    obtain ⟨_, _, h⟩ := bind_ok.mp h
    cases h
    refine Keeps.trans ?_ (evaluateOuter_keeps D S x s1 s2 h2)
    refine foldlM_inv (fun s : MultiHull d × List (ℝ × Vec d) => Keeps m s.1) ?_ (Keeps.refl m) h1
    intro e s s' _ hs hf
    exact hs.trans (evaluateStep_keeps D S x s s' e hf)

lemma evaluate_keeps (D : Vec d → List (Vec d) → List ℝ → Vec d) (S : Search d)
    (m m' : MultiHull d) (x v : Vec d) (gf : Bool) (h : m.evaluate D S x gf = .ok (m', v)) :
    Keeps m m' := by
  unfold MultiHull.evaluate at h
  split_ifs at h
  · obtain ⟨r, h1, h⟩ := bind_ok.mp h
    cases h
    exact evaluateLocal_keeps D S m r.1 _ r.2 h1
  · exact evaluateLocal_keeps D S m m' x v h

/-- The objects reached from `m` by any number of successful evaluations. -/
inductive Evaluated (D : Vec d → List (Vec d) → List ℝ → Vec d) (S : Search d) :
    MultiHull d → MultiHull d → Prop
  | refl (m) : Evaluated D S m m
  | step {m m1 m2} (x v gf) : Evaluated D S m m1 → m1.evaluate D S x gf = .ok (m2, v) →
      Evaluated D S m m2

/-- C77: no number of evaluations, at whatever positions, changes the attractor that was set. -/
theorem C77_history (D : Vec d → List (Vec d) → List ℝ → Vec d) (S : Search d)
    (m m1 m2 : MultiHull d) (p : Vec d) (gf : Bool) (h : m.setAttractor p gf = .ok m1)
    (he : Evaluated D S m1 m2) : m2.getAttractor = .ok (some (localPosition m p gf)) := by
  have hc : m.inner = [] ∨ m.graph.isSome := by
    by_contra hc
    push Not at hc
    have := (C77_set m p gf).2 hc.1 (by simpa using hc.2)
    rw [h] at this; cases this
  obtain ⟨m', h1, h2, _⟩ := (C77_set m p gf).1 hc
  rw [h] at h1; cases h1
  have hk : Keeps m1 m2 := by
    induction he with
    | refl => exact .refl _
    | step x v gf' _ hev ih => exact ih.trans (evaluate_keeps D S _ _ x v gf' hev)
  exact (hk.attractor h2).get

/-- C77: violated by the code: an attractor in the wall is given to the first inner obstacle, however
far it is, and not to the closest element (`argmin` of weights that are all zero). -/
theorem C77_wall_first (m m' : MultiHull d) (p : Vec d) (hne : m.inner ≠ [])
    (hwall : ∀ o ∈ m.inner ++ [m.outer], o.inside p = true ∧ o.gamma p ≤ 1)
    (h : m.setAttractor p = .ok m') :
    m'.isOutside = false ∧ ∃ g, m'.graph = some g ∧ g.attr 0 = some ⟨some p, true⟩
      ∧ ∀ i, 0 < i → i < m.inner.length → g.attr i = some ⟨none, false⟩ := by
  have hgr : m.graph.isSome := by
    by_contra hc
    have := (C77_set m p false).2 hne (by simpa using hc)
    rw [h] at this; cases this
  obtain ⟨g, hg⟩ := Option.isSome_iff_exists.mp hgr
  have hout := hwall m.outer (by simp)
  obtain ⟨g', h1, _, h3, _⟩ := setAttractor_loop p m.inner 0 g false
  have hany : (m.inner.any fun o => !o.inside p) = false := by
    rw [List.any_eq_false]
    intro o ho
    simp [(hwall o (by simp [ho])).1]
  rw [hany] at h1
  unfold setAttractor at h
  simp only [hg, Bool.false_eq_true, if_false, hout.1, Bool.not_true] at h
  obtain ⟨s, hs, h⟩ := bind_ok.mp h
  change m.inner.zipIdx.foldlM (setAttractorStep p) (some g, false) = _ at hs
  rw [h1] at hs
  cases hs
  simp only [Bool.or_self, Bool.false_eq_true, if_false] at h
  obtain ⟨ind, hind, h⟩ := bind_ok.mp h
  set m1 : MultiHull d := ⟨m.inner, m.outer, m.pose, some g', none, false, m.entrances⟩ with hm1
  have hz : ∀ w ∈ m1.evaluateWeights p, w = 0 := by
    have hs := (C53_sum m1 p).2 fun o ho => (hwall o ho).2
    intro w hw
    have h5 := (C53_range m1 p).2
    have := List.single_le_sum (fun w hw => (h5 w hw).1) w hw
    rw [hs] at this
    exact le_antisymm this (h5 w hw).1
  have hlen := (C53_range m1 p).1
  obtain ⟨i, hi, hlt, _, hfirst⟩ := argmin_spec (l := m1.evaluateWeights p)
    (by intro h0; rw [h0] at hlen; simp at hlen)
  have hi0 : i = 0 := by
    by_contra hc
    have h6 := hfirst 0 (Nat.pos_of_ne_zero hc)
    rw [hz _ (List.getElem_mem _), hz _ (List.getElem_mem _)] at h6
    exact lt_irrefl _ h6
  have hpos : 0 < m.inner.length := List.length_pos_iff.mpr hne
  have hii : ind = 0 := by
    have : argmin (m1.evaluateWeights p) = .ok ind := by convert hind using 3
    rw [hi] at this; cases this; exact hi0
  subst hii
  rw [if_neg (by omega)] at h
  cases h
  refine ⟨rfl, _, rfl, by simp [setNode], ?_⟩
  intro i h0 hi
  have h7 := h3 i hi
  rw [zero_add, if_pos (hwall _ (by simp)).1] at h7
  simp [setNode, h0.ne', h7]

/-- C77 is not vacuous: an attractor in the wall between two rooms (the second room is closer). -/
example : let m : MultiHull 2 := ⟨[flatWall (-1) 0, flatWall 1 10], flatWall 1 50, .trivial,
      some ⟨fun _ => none, []⟩, none, false, 0⟩
    m.inner ≠ [] ∧ m.graph.isSome
      ∧ (∀ o ∈ m.inner ++ [m.outer], o.inside !₂[9, 0] = true ∧ o.gamma !₂[9, 0] ≤ 1)
      ∧ (flatWall (-1) 0).gamma !₂[9, 0] < (flatWall 1 10).gamma !₂[9, 0] := by
  refine ⟨by simp, rfl, ?_, ?_⟩
  · intro o ho; simp at ho; rcases ho with rfl | rfl | rfl <;> simp [flatWall] <;> norm_num
  · simp [flatWall]; norm_num

/-- C77: setting the attractor of a container for the first time, or to a position that is not within
the tolerance of the current one, sets it for every obstacle in the container. -/
theorem C77_container (build : MultiHull d → MultiHull d)
    (hb : ∀ m, (build m).graph.isSome ∧ (build m).pose = m.pose) (c : HullContainer d) (p : Vec d)
    (hc : ∀ a, c.attractor = some a → ¬ allclose a p) :
    ∃ c', c.setAttractor build p = .ok c'
      ∧ List.Forall₂ (fun m m' : MultiHull d => m'.getAttractor = .ok (some (m.pose.toRelative p)))
        c.obstacles c'.obstacles := by
  have key : ∀ l : List (MultiHull d), ∃ l', l.mapM (fun m => (build m).setAttractor p true) = .ok l'
      ∧ List.Forall₂ (fun m m' : MultiHull d => m'.getAttractor = .ok (some (m.pose.toRelative p)))
        l l' := by
    intro l
    induction l with
    | nil => exact ⟨[], rfl, .nil⟩
    | cons m l ih =>
      obtain ⟨l', h1, h2⟩ := ih
      obtain ⟨m', h3, h4, _⟩ := (C77_set (build m) p true).1 (Or.inr (hb m).1)
      refine ⟨m' :: l', mapM_ok.mpr (.cons h3 (mapM_ok.mp h1)), .cons ?_ h2⟩
      rw [h4.get]; unfold localPosition; rw [if_pos rfl, (hb m).2]
  obtain ⟨l', h1, h2⟩ := key c.obstacles
  refine ⟨⟨l', some p⟩, ?_, h2⟩
  unfold HullContainer.setAttractor
  rw [if_pos hc, h1]; rfl

/-- C77: violated by the code: setting the attractor of a container again has no effect if it is
within the tolerance of the current one, also not for an obstacle that was appended in between. -/
theorem C77_container_stale (build : MultiHull d → MultiHull d) (c : HullContainer d) (p a : Vec d)
    (hc : c.attractor = some a) (ha : allclose a p) (m : MultiHull d) :
    (c.append m).setAttractor build p = .ok (c.append m) := by
  unfold HullContainer.setAttractor
  rw [if_neg]
  · rfl
  · intro h; exact h a hc ha

end Verif
