import Verif.Spec.MultiHull
import Verif.Props.Boundaries
import Verif.Props.Flows

/-!
# C99: hulls: weights, radius and attraction
-/

namespace Verif.MultiHull

open Verif.Spec MultiBoundary
open scoped RealInnerProductSpace

variable {d : ℕ}

/-! ## Weights -/

lemma sum_nonneg_map (gs : List ℝ) : 0 ≤ (gs.map (fun g => max (g - 1) 0)).sum := by
  apply List.sum_nonneg
  intro x hx
  obtain ⟨g, _, rfl⟩ := List.mem_map.mp hx
  exact le_max_right _ _

lemma sum_eq_zero_iff (gs : List ℝ) :
    (gs.map (fun g => max (g - 1) 0)).sum = 0 ↔ ∀ g ∈ gs, g ≤ 1 := by
  induction gs with
  | nil => simp
  | cons g gs ih =>
    rw [List.map_cons, List.sum_cons, List.forall_mem_cons, ← ih]
    have h1 := sum_nonneg_map gs
    have h2 : (0 : ℝ) ≤ max (g - 1) 0 := le_max_right _ _
    constructor
    · intro h
      refine ⟨?_, by linarith⟩
      have : max (g - 1) 0 ≤ 0 := by linarith
      have := (le_max_left (g - 1) 0).trans this
      linarith
    · rintro ⟨h3, h4⟩
      rw [h4, max_eq_right (by linarith)]; simp

lemma sum_div (l : List ℝ) (s : ℝ) : (l.map (fun w => w / s)).sum = l.sum / s := by
  induction l with
  | nil => simp
  | cons a l ih => rw [List.map_cons, List.sum_cons, ih, List.sum_cons, add_div]

/-- C99: the weights of the hulls: one for each, not negative, in the order of the depths, zero for hulls which do
not contain the position; they sum to one if some hull contains the position and are all zero otherwise. -/
theorem C99_weights (gs : List ℝ) :
    (getWeightGammaForHulls gs).length = gs.length
      ∧ (∀ (i : ℕ) (w : ℝ), (getWeightGammaForHulls gs)[i]? = some w → 0 ≤ w ∧ w ≤ 1)
      ∧ (∀ (i : ℕ) (g w : ℝ), gs[i]? = some g → (getWeightGammaForHulls gs)[i]? = some w → (0 < w ↔ 1 < g))
      ∧ (∀ (i j : ℕ) (g g' w w' : ℝ), gs[i]? = some g → gs[j]? = some g' →
        (getWeightGammaForHulls gs)[i]? = some w → (getWeightGammaForHulls gs)[j]? = some w' →
        w * max (g' - 1) 0 = w' * max (g - 1) 0 ∧ (g ≤ g' → w ≤ w'))
      ∧ ((∃ g ∈ gs, 1 < g) → (getWeightGammaForHulls gs).sum = 1)
      ∧ ((∀ g ∈ gs, g ≤ 1) → ∀ w ∈ getWeightGammaForHulls gs, w = 0) := by
  classical
  set s := (gs.map (fun g => max (g - 1) 0)).sum with hs
  have hs0 : 0 ≤ s := sum_nonneg_map gs
  by_cases h : s = 0
  · have hz := (sum_eq_zero_iff gs).mp h
    have e : getWeightGammaForHulls gs = gs.map (fun g => max (g - 1) 0) := by
      unfold getWeightGammaForHulls
      rw [if_neg (by rw [← hs]; simpa using h)]
    have key : ∀ (i : ℕ) (w : ℝ), (getWeightGammaForHulls gs)[i]? = some w →
        ∃ g, gs[i]? = some g ∧ w = 0 := by
      intro i w hw
      rw [e, List.getElem?_map, Option.map_eq_some_iff] at hw
      obtain ⟨g, hg, rfl⟩ := hw
      exact ⟨g, hg, max_eq_right (by have := hz g (List.mem_of_getElem? hg); linarith)⟩
    refine ⟨by rw [e]; simp, ?_, ?_, ?_, ?_, ?_⟩
    · intro i w hw
      obtain ⟨_, _, rfl⟩ := key i w hw
      exact ⟨le_refl _, zero_le_one⟩
    · intro i g w hg hw
      obtain ⟨_, _, rfl⟩ := key i w hw
      have := hz g (List.mem_of_getElem? hg)
      exact ⟨fun h => absurd h (lt_irrefl _), fun h => by linarith⟩
    · intro i j g g' w w' _ _ hw hw'
      obtain ⟨_, _, rfl⟩ := key i w hw
      obtain ⟨_, _, rfl⟩ := key j w' hw'
      simp
    · rintro ⟨g, hg, h1⟩
      have := hz g hg; linarith
    · intro _ w hw
      obtain ⟨i, hi⟩ := List.mem_iff_getElem?.mp hw
      exact (key i w hi).choose_spec.2
  · have hp : 0 < s := lt_of_le_of_ne hs0 (Ne.symm h)
    have e : getWeightGammaForHulls gs = (gs.map (fun g => max (g - 1) 0)).map (fun w => w / s) := by
      unfold getWeightGammaForHulls
      rw [if_pos (by rw [← hs]; simpa using h)]
    have key : ∀ (i : ℕ) (g w : ℝ), gs[i]? = some g → (getWeightGammaForHulls gs)[i]? = some w →
        w = max (g - 1) 0 / s := by
      intro i g w hg hw
      rw [e, List.getElem?_map, List.getElem?_map, hg] at hw
      simpa using hw.symm
    have hsum : (getWeightGammaForHulls gs).sum = 1 := by
      rw [e, sum_div, ← hs, div_self h]
    have hnn : ∀ w ∈ getWeightGammaForHulls gs, 0 ≤ w := by
      intro w hw
      rw [e] at hw
      obtain ⟨x, hx, rfl⟩ := List.mem_map.mp hw
      obtain ⟨g, _, rfl⟩ := List.mem_map.mp hx
      exact div_nonneg (le_max_right _ _) hs0
    refine ⟨by rw [e]; simp, ?_, ?_, ?_, fun _ => hsum, ?_⟩
    · intro i w hw
      have hm := List.mem_of_getElem? hw
      exact ⟨hnn w hm, by rw [← hsum]; exact List.single_le_sum hnn w hm⟩
    · intro i g w hg hw
      rw [key i g w hg hw]
      constructor
      · intro h1
        by_contra h2
        rw [max_eq_right (by linarith)] at h1
        simp at h1
      · intro h1
        exact div_pos (lt_of_lt_of_le (by linarith) (le_max_left _ _)) hp
    · intro i j g g' w w' hg hg' hw hw'
      rw [key i g w hg hw, key j g' w' hg' hw']
      refine ⟨by ring, fun h3 => ?_⟩
      exact div_le_div_of_nonneg_right (max_le_max (by linarith) (le_refl _)) hs0
    · intro h1
      exact absurd ((sum_eq_zero_iff gs).mpr h1) h

/-! ## The container -/

/-- The invariant of a container: as many obstacles, intersection points and nodes. -/
lemma built_graph (cs : List (MultiHull.Call d)) :
    (builtHulls cs).graph = MultiBoundary.create.run (cs.map graphCall)
      ∧ (builtHulls cs).obstacles.length = (builtHulls cs).graph.parents.length
      ∧ (builtHulls cs).intersections = List.replicate (builtHulls cs).obstacles.length none := by
  have key : ∀ (cs : List (MultiHull.Call d)) (c : Hulls d), c.obstacles.length = c.graph.parents.length →
      c.intersections = List.replicate c.obstacles.length none →
      (cs.foldl Hulls.step c).graph = c.graph.run (cs.map graphCall)
      ∧ (cs.foldl Hulls.step c).obstacles.length = (cs.foldl Hulls.step c).graph.parents.length
      ∧ (cs.foldl Hulls.step c).intersections = List.replicate (cs.foldl Hulls.step c).obstacles.length none := by
    intro cs
    induction cs with
    | nil => intro c h1 h2; exact ⟨rfl, h1, h2⟩
    | cons a cs ih =>
      intro c h1 h2
      have hext : ∀ (m : MultiBoundary) (i p : ℤ), (m.extendGraph i p).1.parents.length = m.parents.length := by
        intro m i p
        unfold extendGraph setParent
        cases pyIdx m.parents.length i with
        | none => rfl
        | some k =>
          simp only [addChildren]
          split
          · rename_i h; split at h <;> simp at h ⊢
          · rename_i h
            split at h
            · cases h
            · cases h; simp
      have hstep : (Hulls.step c a).graph = (c.graph.step (graphCall a)).1
          ∧ (Hulls.step c a).obstacles.length = (Hulls.step c a).graph.parents.length
          ∧ (Hulls.step c a).intersections = List.replicate (Hulls.step c a).obstacles.length none := by
        cases a with
        | append o p =>
          refine ⟨rfl, ?_, ?_⟩
          · change (c.obstacles ++ [o]).length = (c.graph.append p).1.parents.length
            unfold MultiBoundary.append
            by_cases hp : p = some (-1)
            · rw [if_pos hp, hext]; simp [h1]
            · rw [if_neg hp]; simp [h1]
          · change c.intersections ++ [none] = List.replicate (c.obstacles ++ [o]).length none
            rw [h2]; simp [List.replicate_succ']
        | extendGraph i p =>
          refine ⟨rfl, ?_, h2⟩
          change c.obstacles.length = (c.graph.extendGraph i p).1.parents.length
          rw [hext, h1]
      obtain ⟨a1, a2, a3⟩ := ih (Hulls.step c a) hstep.2.1 hstep.2.2
      rw [hstep.1] at a1
      exact ⟨a1, a2, a3⟩
  exact key cs Hulls.create rfl rfl

lemma built_forest (cs : List (MultiHull.Call d))
    (h : AllowedBoundaryHistory MultiBoundary.create (cs.map graphCall)) : Forest (builtHulls cs).graph := by
  rw [(built_graph cs).1]
  exact forest_run _ forest_create h

lemma updateLoop_spec {m : MultiBoundary} (hm : Forest m) {intersect : ℕ → ℤ → Except PyErr (Vec d)}
    (f : ℕ → ℕ → Vec d) (hf : ∀ i p : ℕ, m.getParent i = .ok (p : ℤ) → intersect i p = .ok (f i p)) :
    ∀ (is : List ℕ) (points : List (Option (Vec d))), (∀ i ∈ is, i < m.parents.length) →
      points.length = m.parents.length →
      ∃ out, updateLoop m intersect is points = .ok out ∧ out.length = m.parents.length
        ∧ (∀ i ∈ is, m.getParent i = .ok (-1) → out[i]? = some none)
        ∧ (∀ i ∈ is, ∀ p : ℕ, m.getParent i = .ok (p : ℤ) → out[i]? = some (some (f i p)))
        ∧ ∀ i, i ∉ is → out[i]? = points[i]? := by
  intro is
  induction is with
  | nil => intro points _ hl; exact ⟨points, rfl, hl, by simp, by simp, by simp⟩
  | cons a is ih =>
    intro points his hl
    have ha := his a List.mem_cons_self
    have hg := List.getElem?_eq_getElem ha
    have hga := getParent_iff.mpr hg
    have hu : updateLoop m intersect (a :: is) points = (if m.parents[a] < 0
        then updateLoop m intersect is (points.set a none)
        else (intersect a m.parents[a] >>= fun p => updateLoop m intersect is (points.set a (some p)))) := by
      conv_lhs => unfold updateLoop
      rw [hga]
      rfl
    have hcase : ∃ v : Option (Vec d),
        updateLoop m intersect (a :: is) points = updateLoop m intersect is (points.set a v)
        ∧ (m.getParent a = .ok (-1) → v = none)
        ∧ ∀ p : ℕ, m.getParent a = .ok (p : ℤ) → v = some (f a p) := by
      rcases hm.parent a _ hg with h | ⟨q, h, hq⟩
      · refine ⟨none, ?_, fun _ => rfl, ?_⟩
        · rw [hu, if_pos (by omega)]
        · intro p hp
          rw [hga, h] at hp
          injection hp with hp
          omega
      · refine ⟨some (f a q), ?_, ?_, ?_⟩
        · rw [hu, if_neg (by omega), h, hf a q (by rw [hga, h])]
          rfl
        · intro hp
          rw [hga, h] at hp
          injection hp with hp
          omega
        · intro p hp
          rw [hga, h] at hp
          injection hp with hp
          have : q = p := by exact_mod_cast hp
          rw [this]
    obtain ⟨v, e, e1, e2⟩ := hcase
    obtain ⟨out, b1, b2, b3, b4, b5⟩ := ih (points.set a v) (fun i hi => his i (List.mem_cons_of_mem _ hi))
      (by rw [List.length_set, hl])
    have hav : a ∉ is → out[a]? = some v := by
      intro hn
      rw [b5 a hn, List.getElem?_set_self (by omega)]
    refine ⟨out, by rw [e]; exact b1, b2, ?_, ?_, ?_⟩
    · intro i hi hp
      by_cases hin : i ∈ is
      · exact b3 i hin hp
      · have : i = a := by simpa [hin] using hi
        subst this
        rw [hav hin, e1 hp]
    · intro i hi p hp
      by_cases hin : i ∈ is
      · exact b4 i hin p hp
      · have : i = a := by simpa [hin] using hi
        subst this
        rw [hav hin, e2 p hp]
    · intro i hi
      rw [List.mem_cons, not_or] at hi
      rw [b5 i hi.2, List.getElem?_set_ne (Ne.symm hi.1)]

/-- C99: `update_intersection_graph` stores for every hull with a parent the intersection with the parent, and
nothing for roots; hulls and graph do not change. -/
theorem C99_update (cs : List (MultiHull.Call d))
    (h : AllowedBoundaryHistory MultiBoundary.create (cs.map graphCall))
    (intersect : ℕ → ℤ → Except PyErr (Vec d)) (f : ℕ → ℕ → Vec d)
    (hf : ∀ i p : ℕ, (builtHulls cs).graph.getParent i = .ok (p : ℤ) → intersect i p = .ok (f i p)) :
    ∃ c, (builtHulls cs).updateIntersectionGraph intersect = .ok c
      ∧ c.obstacles = (builtHulls cs).obstacles ∧ c.graph = (builtHulls cs).graph
      ∧ c.intersections.length = c.obstacles.length
      ∧ (∀ i : ℕ, c.graph.getParent i = .ok (-1) → c.intersections[i]? = some none)
      ∧ ∀ i p : ℕ, c.graph.getParent i = .ok (p : ℤ) → c.intersections[i]? = some (some (f i p)) := by
  obtain ⟨_, a2, a3⟩ := built_graph cs
  obtain ⟨out, b1, b2, b3, b4, _⟩ := updateLoop_spec (built_forest cs h) f hf
    (List.range (builtHulls cs).obstacles.length) (builtHulls cs).intersections
    (fun i hi => by rw [← a2]; exact List.mem_range.mp hi) (by rw [a3]; simp [a2])
  refine ⟨{ builtHulls cs with intersections := out }, ?_, rfl, rfl, by simp [b2, a2], ?_, ?_⟩
  · unfold Hulls.updateIntersectionGraph
    rw [b1]; rfl
  · intro i hi
    exact b3 i (List.mem_range.mpr (by rw [a2]; exact (List.getElem?_eq_some_iff.mp (getParent_iff.mp hi)).1)) hi
  · intro i p hi
    exact b4 i (List.mem_range.mpr (by rw [a2]; exact (List.getElem?_eq_some_iff.mp (getParent_iff.mp hi)).1)) p hi

/-! ## The radius -/

lemma pairWeight_opening {position center q : Vec d} {g wd wg x : ℝ} (h : pairWeight position center q g wd wg = some x) :
    position ≠ center ∧ q ≠ center ∧ x = opening position center q g wd wg := by
  classical
  unfold pairWeight at h
  by_cases h0 : ‖position - center‖ * ‖q - center‖ = 0
  · simp only at h
    rw [if_pos h0] at h; cases h
  · simp only at h
    rw [if_neg h0] at h
    split at h
    · cases h
    · injection h with h
      refine ⟨?_, ?_, ?_⟩
      · rintro rfl; simp at h0
      · rintro rfl; simp at h0
      · rw [← h]
        unfold opening
        rw [InnerProductGeometry.cos_angle]

lemma one_sub_cos_nonneg (x y : Vec d) : 0 ≤ 1 - Real.cos (InnerProductGeometry.angle x y) := by
  have := Real.cos_le_one (InnerProductGeometry.angle x y)
  linarith

lemma opening_range {position center q : Vec d} {g wd wg : ℝ} (hg : 1 < g) (hd : 0 ≤ wd) (hw : 0 < wg) :
    0 ≤ opening position center q g wd wg ∧ opening position center q g wd wg ≤ 1 := by
  unfold opening
  have h1 := mul_nonneg (one_sub_cos_nonneg (position - center) (q - center)) hd
  have h2 : 0 < (g - 1) * wg := mul_pos (by linarith) hw
  refine ⟨div_nonneg h1 (by linarith), ?_⟩
  rw [div_le_one (by linarith)]
  linarith

lemma pairWeight_some {position center q : Vec d} {g wd wg : ℝ} (hp : position ≠ center) (hq : q ≠ center)
    (hg : 1 < g) (hd : 0 ≤ wd) (hw : 0 < wg) :
    pairWeight position center q g wd wg = some (opening position center q g wd wg) := by
  classical
  have h0 : ‖position - center‖ * ‖q - center‖ ≠ 0 :=
    mul_ne_zero (norm_ne_zero_iff.mpr (sub_ne_zero.mpr hp)) (norm_ne_zero_iff.mpr (sub_ne_zero.mpr hq))
  unfold pairWeight
  simp only
  rw [if_neg h0, ← InnerProductGeometry.cos_angle, if_neg]
  · rfl
  · have h1 := mul_nonneg (one_sub_cos_nonneg (position - center) (q - center)) hd
    have h2 : 0 < (g - 1) * wg := mul_pos (by linarith) hw
    linarith

lemma pyMin_le (w : ℝ) (x : Option ℝ) : pyMin w x ≤ w := by
  cases x with
  | none => exact le_refl _
  | some y => exact min_le_left _ _

lemma hullLoop_spec (position center : Vec d) (it : ℕ) (b q : Vec d) (wd wg : ℝ) :
    ∀ (l : List (Obstacle d × ℕ)) (w : ℝ), ∃ w',
      hullLoop position center it (some b) (some q) wd wg l w = .ok w' ∧ w' ≤ w
        ∧ (∀ o k x, (o, k) ∈ l → k ≠ it → 1 < o.gamma b →
          pairWeight position center q (o.gamma b) wd wg = some x → w' ≤ x)
        ∧ (w' = w ∨ ∃ o k, (o, k) ∈ l ∧ k ≠ it ∧ 1 < o.gamma b
          ∧ pairWeight position center q (o.gamma b) wd wg = some w') := by
  classical
  intro l
  induction l with
  | nil => intro w; exact ⟨w, rfl, le_refl _, by simp, Or.inl rfl⟩
  | cons a l ih =>
    obtain ⟨o, k⟩ := a
    intro w
    by_cases hk : k = it
    · obtain ⟨w', a1, a2, a3, a4⟩ := ih w
      refine ⟨w', ?_, a2, ?_, ?_⟩
      · conv_lhs => unfold hullLoop
        rw [if_pos hk]; exact a1
      · intro o' k' x hm h1 h2 h3
        rcases List.mem_cons.mp hm with h | h
        · cases h; exact absurd hk h1
        · exact a3 o' k' x h h1 h2 h3
      · rcases a4 with h | ⟨o', k', h, r⟩
        · exact Or.inl h
        · exact Or.inr ⟨o', k', List.mem_cons_of_mem _ h, r⟩
    by_cases hg : o.gamma b ≤ 1
    · obtain ⟨w', a1, a2, a3, a4⟩ := ih w
      refine ⟨w', ?_, a2, ?_, ?_⟩
      · conv_lhs => unfold hullLoop
        rw [if_neg hk]
        simp only
        rw [if_pos hg]; exact a1
      · intro o' k' x hm h1 h2 h3
        rcases List.mem_cons.mp hm with h | h
        · cases h; exact absurd hg (not_le.mpr h2)
        · exact a3 o' k' x h h1 h2 h3
      · rcases a4 with h | ⟨o', k', h, r⟩
        · exact Or.inl h
        · exact Or.inr ⟨o', k', List.mem_cons_of_mem _ h, r⟩
    · obtain ⟨w', a1, a2, a3, a4⟩ := ih (pyMin w (pairWeight position center q (o.gamma b) wd wg))
      refine ⟨w', ?_, a2.trans (pyMin_le _ _), ?_, ?_⟩
      · conv_lhs => unfold hullLoop
        rw [if_neg hk]
        simp only
        rw [if_neg hg]; exact a1
      · intro o' k' x hm h1 h2 h3
        rcases List.mem_cons.mp hm with h | h
        · cases h
          rw [h3] at a2
          exact a2.trans (min_le_right _ _)
        · exact a3 o' k' x h h1 h2 h3
      · rcases a4 with h | ⟨o', k', h, r⟩
        · cases hx : pairWeight position center q (o.gamma b) wd wg with
          | none => left; rw [h, hx]; rfl
          | some x =>
            rw [hx] at h
            rcases min_choice w x with h' | h'
            · left; rw [h]; exact h'
            · right
              refine ⟨o, k, List.mem_cons_self, hk, not_le.mp hg, ?_⟩
              rw [hx, h]
              exact congrArg some h'.symm
        · exact Or.inr ⟨o', k', List.mem_cons_of_mem _ h, r⟩

lemma pointLoop_spec (position center : Vec d) (it : ℕ) (b : Vec d) (wd wg : ℝ) (l : List (Obstacle d × ℕ)) :
    ∀ (qs : List (Vec d)) (w : ℝ), ∃ w',
      pointLoop position center it (some b) wd wg l (qs.map some) w = .ok w' ∧ w' ≤ w
        ∧ (∀ q ∈ qs, ∀ o k x, (o, k) ∈ l → k ≠ it → 1 < o.gamma b →
          pairWeight position center q (o.gamma b) wd wg = some x → w' ≤ x)
        ∧ (w' = w ∨ ∃ q ∈ qs, ∃ o k, (o, k) ∈ l ∧ k ≠ it ∧ 1 < o.gamma b
          ∧ pairWeight position center q (o.gamma b) wd wg = some w') := by
  intro qs
  induction qs with
  | nil => intro w; exact ⟨w, rfl, le_refl _, by simp, Or.inl rfl⟩
  | cons q qs ih =>
    intro w
    obtain ⟨w1, a1, a2, a3, a4⟩ := hullLoop_spec position center it b q wd wg l w
    obtain ⟨w2, b1, b2, b3, b4⟩ := ih w1
    refine ⟨w2, ?_, b2.trans a2, ?_, ?_⟩
    · rw [List.map_cons]
      conv_lhs => unfold pointLoop
      rw [a1]; exact b1
    · intro q' hq' o k x hm h1 h2 h3
      rcases List.mem_cons.mp hq' with rfl | hq'
      · exact b2.trans (a3 o k x hm h1 h2 h3)
      · exact b3 q' hq' o k x hm h1 h2 h3
    · rcases b4 with h | ⟨q', hq', r⟩
      · rcases a4 with h' | ⟨o, k, r⟩
        · left; rw [h, h']
        · right; rw [h]; exact ⟨q, List.mem_cons_self, o, k, r⟩
      · exact Or.inr ⟨q', List.mem_cons_of_mem _ hq', r⟩

/-- The intersection points that `get_desired_radius` uses. -/
lemma radius_eq {c : Hulls d} (hm : Forest c.graph) (hl : c.obstacles.length = c.graph.parents.length)
    (hi : c.intersections.length = c.obstacles.length) (position : Vec d) (g : ℝ) {it : ℕ} {o : Obstacle d}
    (ho : c.obstacles[it]? = some o) (wd wg : ℝ) :
    ∃ ps : List (Option (Vec d)),
      (∀ p, p ∈ ps ↔ ((∃ k : ℕ, c.graph.getParent it = .ok (k : ℤ)) ∧ c.intersections[it]? = some p)
        ∨ ∃ k : ℕ, c.graph.getParent k = .ok (it : ℤ) ∧ c.intersections[k]? = some p)
      ∧ getDesiredRadius c position g it wd wg = (do
        let w ← pointLoop position o.center it (o.intersection o.center (position - o.center)) wd wg
          c.obstacles.zipIdx ps 1
        .ok (Real.pi * (2 : ℝ) ^ (-g) * w)) := by
  have hit : it < c.obstacles.length := (List.getElem?_eq_some_iff.mp ho).1
  have hitp : it < c.graph.parents.length := by rw [← hl]; exact hit
  have hiti : it < c.intersections.length := by rw [hi]; exact hit
  have hpar := List.getElem?_eq_getElem hitp
  have hown : pyGetInt c.intersections it = .ok c.intersections[it] := by
    unfold pyGetInt
    rw [if_pos (by omega)]
    simp only [Int.toNat_natCast]
    exact GraphHandler.pyGet_iff.mpr (List.getElem?_eq_getElem hiti)
  have hitc : it < c.graph.children.length := by rw [hm.len]; exact hitp
  have hch := List.getElem?_eq_getElem hitc
  obtain ⟨_, hmem⟩ := hm.child it _ hch
  set cs := c.graph.children[it] with hcs
  have hmap : cs.mapM (fun i => pyGetInt c.intersections i)
      = .ok (cs.map (fun i : ℤ => c.intersections.getD i.toNat none)) := by
    rw [mapM_ok, List.forall₂_map_right_iff, List.forall₂_same]
    intro x hx
    obtain ⟨i, rfl, hp⟩ := (hmem x).mp hx
    have hlt : i < c.intersections.length := by
      rw [hi, hl]; exact (List.getElem?_eq_some_iff.mp hp).1
    unfold pyGetInt
    rw [if_pos (by omega)]
    simp only [Int.toNat_natCast]
    rw [GraphHandler.pyGet_iff, List.getElem?_eq_getElem hlt, List.getD_eq_getElem?_getD,
      List.getElem?_eq_getElem hlt]
    rfl
  have hrest : ∀ own : List (Option (Vec d)), (do
        let children ← c.graph.getChildren it
        let others ← children.mapM (fun i => pyGetInt c.intersections i)
        let o ← GraphHandler.pyGet c.obstacles it
        let boundary := o.intersection o.center (position - o.center)
        let w ← pointLoop position o.center it boundary wd wg c.obstacles.zipIdx (own ++ others) 1
        .ok (Real.pi * (2 : ℝ) ^ (-g) * w)) = (do
        let w ← pointLoop position o.center it (o.intersection o.center (position - o.center)) wd wg
          c.obstacles.zipIdx (own ++ cs.map (fun i : ℤ => c.intersections.getD i.toNat none)) 1
        .ok (Real.pi * (2 : ℝ) ^ (-g) * w)) := by
    intro own
    rw [getChildren_iff.mpr hch]
    change (do
        let others ← cs.mapM (fun i => pyGetInt c.intersections i)
        let o ← GraphHandler.pyGet c.obstacles it
        let boundary := o.intersection o.center (position - o.center)
        let w ← pointLoop position o.center it boundary wd wg c.obstacles.zipIdx (own ++ others) 1
        Except.ok (Real.pi * (2 : ℝ) ^ (-g) * w)) = _
    rw [hmap]
    change (do
        let o ← GraphHandler.pyGet c.obstacles it
        let boundary := o.intersection o.center (position - o.center)
        let w ← pointLoop position o.center it boundary wd wg c.obstacles.zipIdx
          (own ++ cs.map (fun i : ℤ => c.intersections.getD i.toNat none)) 1
        Except.ok (Real.pi * (2 : ℝ) ^ (-g) * w)) = _
    rw [GraphHandler.pyGet_iff.mpr ho]
    rfl
  have hothers : ∀ p, p ∈ cs.map (fun i : ℤ => c.intersections.getD i.toNat none)
      ↔ ∃ k : ℕ, c.graph.getParent k = .ok (it : ℤ) ∧ c.intersections[k]? = some p := by
    intro p
    rw [List.mem_map]
    constructor
    · rintro ⟨x, hx, rfl⟩
      obtain ⟨i, rfl, hp⟩ := (hmem x).mp hx
      have hlt : i < c.intersections.length := by
        rw [hi, hl]; exact (List.getElem?_eq_some_iff.mp hp).1
      refine ⟨i, getParent_iff.mpr hp, ?_⟩
      rw [Int.toNat_natCast, List.getD_eq_getElem?_getD, List.getElem?_eq_getElem hlt]
      rfl
    · rintro ⟨k, hk, hp⟩
      refine ⟨k, (hmem k).mpr ⟨k, rfl, getParent_iff.mp hk⟩, ?_⟩
      rw [Int.toNat_natCast, List.getD_eq_getElem?_getD, hp]
      rfl
  by_cases h0 : (0 : ℤ) ≤ c.graph.parents[it]
  · refine ⟨c.intersections[it] :: cs.map (fun i : ℤ => c.intersections.getD i.toNat none), ?_, ?_⟩
    · intro p
      rw [List.mem_cons, hothers]
      have hk : ∃ k : ℕ, c.graph.getParent it = .ok (k : ℤ) :=
        ⟨c.graph.parents[it].toNat, by rw [getParent_iff, hpar, Int.toNat_of_nonneg h0]⟩
      constructor
      · rintro (h | h)
        · left; exact ⟨hk, by rw [h]; exact List.getElem?_eq_getElem hiti⟩
        · exact Or.inr h
      · rintro (⟨_, h⟩ | h)
        · left
          rw [List.getElem?_eq_getElem hiti] at h
          injection h with h
          exact h.symm
        · exact Or.inr h
    · unfold getDesiredRadius
      rw [getParent_iff.mpr hpar]
      refine Eq.trans ?_ (hrest [c.intersections[it]])
      have ho2 : ownPoints c it c.graph.parents[it] = .ok [c.intersections[it]] := by
        unfold ownPoints
        rw [if_pos h0, hown]
      change (ownPoints c it c.graph.parents[it] >>= _) = _
      rw [ho2]
      rfl
  · refine ⟨cs.map (fun i : ℤ => c.intersections.getD i.toNat none), ?_, ?_⟩
    · intro p
      rw [hothers]
      constructor
      · exact Or.inr
      · rintro (⟨⟨k, hk⟩, _⟩ | h)
        · rw [getParent_iff, hpar] at hk
          injection hk with hk
          omega
        · exact h
    · unfold getDesiredRadius
      rw [getParent_iff.mpr hpar]
      refine Eq.trans ?_ (hrest [])
      have ho2 : ownPoints c it c.graph.parents[it] = .ok [] := by
        unfold ownPoints
        rw [if_neg h0]
      change (ownPoints c it c.graph.parents[it] >>= _) = _
      rw [ho2]
      rfl

/-- C99: after `update_intersection_graph` the radius of every hull exists.  It is between zero and
`pi 2 ^ (-gamma)`, at most a right angle inside of the hull; it is `pi 2 ^ (-gamma)` times the smallest opening
towards a link point and another hull at the surface point ahead, or `pi 2 ^ (-gamma)` if there is none. -/
theorem C99_radius (cs : List (MultiHull.Call d))
    (h : AllowedBoundaryHistory MultiBoundary.create (cs.map graphCall))
    (intersect : ℕ → ℤ → Except PyErr (Vec d)) (f : ℕ → ℕ → Vec d)
    (hf : ∀ i p : ℕ, (builtHulls cs).graph.getParent i = .ok (p : ℤ) → intersect i p = .ok (f i p))
    (c : Hulls d) (hc : (builtHulls cs).updateIntersectionGraph intersect = .ok c)
    (position : Vec d) (g : ℝ) (it : ℕ) (o : Obstacle d) (ho : c.obstacles[it]? = some o) (b : Vec d)
    (hb : o.intersection o.center (position - o.center) = some b) (wd wg : ℝ) (hd : 0 ≤ wd) (hw : 0 < wg) :
    ∃ r, getDesiredRadius c position g it wd wg = .ok r ∧ 0 ≤ r ∧ r ≤ Real.pi * (2 : ℝ) ^ (-g)
      ∧ (1 ≤ g → r ≤ Real.pi / 2)
      ∧ (∀ q o', LinkPoint c it q → OtherHullAt c it b o' → position ≠ o.center → q ≠ o.center →
        r ≤ Real.pi * (2 : ℝ) ^ (-g) * opening position o.center q (o'.gamma b) wd wg)
      ∧ (r = Real.pi * (2 : ℝ) ^ (-g) ∨ ∃ q o', LinkPoint c it q ∧ OtherHullAt c it b o' ∧ position ≠ o.center
        ∧ q ≠ o.center ∧ r = Real.pi * (2 : ℝ) ^ (-g) * opening position o.center q (o'.gamma b) wd wg) := by
  obtain ⟨c', hc', a1, a2, a3, a4, a5⟩ := C99_update cs h intersect f hf
  rw [hc] at hc'
  injection hc' with hc'
  subst hc'
  have hm : Forest c.graph := by rw [a2]; exact built_forest cs h
  have hl : c.obstacles.length = c.graph.parents.length := by rw [a1, a2]; exact (built_graph cs).2.1
  obtain ⟨ps, hps, e⟩ := radius_eq hm hl a3 position g ho wd wg
  -- all points are set
  have hset : ∀ p ∈ ps, ∃ q, p = some q ∧ LinkPoint c it q := by
    intro p hp
    rcases (hps p).mp hp with ⟨⟨k, hk⟩, hp'⟩ | ⟨k, hk, hp'⟩
    · have := a5 it k hk
      rw [hp'] at this
      injection this with this
      subst this
      exact ⟨_, rfl, Or.inl ⟨k, hk, hp'⟩⟩
    · have := a5 k it hk
      rw [hp'] at this
      injection this with this
      subst this
      exact ⟨_, rfl, Or.inr ⟨k, hk, hp'⟩⟩
  have hlink : ∀ q, LinkPoint c it q → some q ∈ ps := by
    rintro q (⟨p, hp, hq⟩ | ⟨k, hk, hq⟩)
    · exact (hps _).mpr (Or.inl ⟨⟨p, hp⟩, hq⟩)
    · exact (hps _).mpr (Or.inr ⟨k, hk, hq⟩)
  obtain ⟨qs, rfl⟩ : ∃ qs : List (Vec d), ps = qs.map some := by
    refine ⟨ps.filterMap id, ?_⟩
    have : ∀ l : List (Option (Vec d)), (∀ p ∈ l, ∃ q, p = some q) → l = (l.filterMap id).map some := by
      intro l
      induction l with
      | nil => simp
      | cons p l ih =>
        intro hl
        obtain ⟨q, rfl⟩ := hl p List.mem_cons_self
        have h2 := ih (fun p hp => hl p (List.mem_cons_of_mem _ hp))
        rw [List.filterMap_cons_some (by rfl : id (some q) = some q), List.map_cons, ← h2]
    exact this ps (fun p hp => (hset p hp).imp fun _ h => h.1)
  obtain ⟨w, w1, w2, w3, w4⟩ := pointLoop_spec position o.center it b wd wg c.obstacles.zipIdx qs 1
  rw [hb, w1] at e
  have hR : 0 < Real.pi * (2 : ℝ) ^ (-g) := mul_pos Real.pi_pos (Real.rpow_pos_of_pos two_pos _)
  have hmemz : ∀ o' k, (o', k) ∈ c.obstacles.zipIdx ↔ c.obstacles[k]? = some o' := by
    intro o' k
    exact List.mk_mem_zipIdx_iff_getElem?
  have w4' : w = 1 ∨ ∃ q o', LinkPoint c it q ∧ OtherHullAt c it b o' ∧ position ≠ o.center
        ∧ q ≠ o.center ∧ w = opening position o.center q (o'.gamma b) wd wg := by
    rcases w4 with h1 | ⟨q, hq, o', k, hm', hk, hg, hx⟩
    · exact Or.inl h1
    · right
      obtain ⟨hp1, hq1, hx1⟩ := pairWeight_opening hx
      obtain ⟨q', hq', hlk⟩ := hset (some q) (List.mem_map_of_mem hq)
      injection hq' with hq'
      subst hq'
      exact ⟨q, o', hlk, ⟨k, hk, (hmemz o' k).mp hm', hg⟩, hp1, hq1, hx1⟩
  have hw0 : 0 ≤ w := by
    rcases w4' with h1 | ⟨q, o', _, ⟨_, _, _, hg⟩, _, _, hx⟩
    · rw [h1]; exact zero_le_one
    · rw [hx]; exact (opening_range hg hd hw).1
  refine ⟨Real.pi * (2 : ℝ) ^ (-g) * w, e, mul_nonneg hR.le hw0, ?_, ?_, ?_, ?_⟩
  · exact mul_le_of_le_one_right hR.le w2
  · intro hg
    refine (mul_le_of_le_one_right hR.le w2).trans ?_
    have : (2 : ℝ) ^ (-g) ≤ (2 : ℝ) ^ (-1 : ℝ) :=
      Real.rpow_le_rpow_of_exponent_le (by norm_num) (by linarith)
    rw [Real.rpow_neg_one] at this
    have := mul_le_mul_of_nonneg_left this Real.pi_pos.le
    rw [div_eq_mul_inv]
    exact this
  · rintro q o' hq ⟨k, hk, ho', hg⟩ hp hqc
    refine mul_le_mul_of_nonneg_left ?_ hR.le
    refine w3 q ?_ o' k _ ((hmemz o' k).mpr ho') hk hg (pairWeight_some hp hqc hg hd hw)
    obtain ⟨q', hq', e'⟩ := List.mem_map.mp (hlink q hq)
    injection e' with e'
    rw [← e']; exact hq'
  · rcases w4' with h1 | ⟨q, o', r1, r2, r3, r4, hx⟩
    · left; rw [h1, mul_one]
    · right; exact ⟨q, o', r1, r2, r3, r4, by rw [hx]⟩

/-- C99: towards a link point, with another hull behind the wall, the radius is zero: the wall is no obstacle. -/
theorem C99_exit (cs : List (MultiHull.Call d))
    (h : AllowedBoundaryHistory MultiBoundary.create (cs.map graphCall))
    (intersect : ℕ → ℤ → Except PyErr (Vec d)) (f : ℕ → ℕ → Vec d)
    (hf : ∀ i p : ℕ, (builtHulls cs).graph.getParent i = .ok (p : ℤ) → intersect i p = .ok (f i p))
    (c : Hulls d) (hc : (builtHulls cs).updateIntersectionGraph intersect = .ok c)
    (position : Vec d) (g : ℝ) (it : ℕ) (o : Obstacle d) (ho : c.obstacles[it]? = some o) (b : Vec d)
    (hb : o.intersection o.center (position - o.center) = some b) (wd wg : ℝ) (hd : 0 ≤ wd) (hw : 0 < wg)
    (q : Vec d) (hq : LinkPoint c it q) (hqc : q ≠ o.center) (s : ℝ) (hs : 0 < s)
    (hpos : position = o.center + s • (q - o.center)) (o' : Obstacle d) (ho' : OtherHullAt c it b o') :
    getDesiredRadius c position g it wd wg = .ok 0 := by
  obtain ⟨r, e, r0, _, _, r1, _⟩ := C99_radius cs h intersect f hf c hc position g it o ho b hb wd wg hd hw
  have hd1 : position - o.center = s • (q - o.center) := by rw [hpos]; simp
  have hqn : q - o.center ≠ 0 := sub_ne_zero.mpr hqc
  have hp : position ≠ o.center := by
    rw [← sub_ne_zero, hd1]
    exact smul_ne_zero hs.ne' hqn
  have := r1 q o' hq ho' hp hqc
  have ho0 : opening position o.center q (o'.gamma b) wd wg = 0 := by
    unfold opening
    rw [hd1, InnerProductGeometry.angle_smul_left_of_pos _ _ hs, InnerProductGeometry.angle_self hqn]
    simp
  rw [ho0, mul_zero] at this
  rw [e, le_antisymm this r0]

/-- C99: without a link point (a single hull), or without another hull behind the wall, the radius is that of a
closed wall. -/
theorem C99_closed (cs : List (MultiHull.Call d))
    (h : AllowedBoundaryHistory MultiBoundary.create (cs.map graphCall))
    (intersect : ℕ → ℤ → Except PyErr (Vec d)) (f : ℕ → ℕ → Vec d)
    (hf : ∀ i p : ℕ, (builtHulls cs).graph.getParent i = .ok (p : ℤ) → intersect i p = .ok (f i p))
    (c : Hulls d) (hc : (builtHulls cs).updateIntersectionGraph intersect = .ok c)
    (position : Vec d) (g : ℝ) (it : ℕ) (o : Obstacle d) (ho : c.obstacles[it]? = some o) (b : Vec d)
    (hb : o.intersection o.center (position - o.center) = some b) (wd wg : ℝ) (hd : 0 ≤ wd) (hw : 0 < wg)
    (hn : (∀ q, ¬ LinkPoint c it q) ∨ ∀ o', ¬ OtherHullAt c it b o') :
    getDesiredRadius c position g it wd wg = .ok (Real.pi * (2 : ℝ) ^ (-g)) := by
  obtain ⟨r, e, _, _, _, _, r1⟩ := C99_radius cs h intersect f hf c hc position g it o ho b hb wd wg hd hw
  rw [e]
  rcases r1 with h1 | ⟨q, o', hq, ho', _⟩
  · rw [h1]
  · rcases hn with hn | hn
    · exact absurd hq (hn q)
    · exact absurd ho' (hn o')

/-- C99, a defect: before `update_intersection_graph` is called the radius raises `TypeError` as soon as the hull has
a neighbour and another hull is behind the wall. -/
theorem C99_not_updated (cs : List (MultiHull.Call d))
    (h : AllowedBoundaryHistory MultiBoundary.create (cs.map graphCall)) (position : Vec d) (g : ℝ) (it : ℕ)
    (o : Obstacle d) (ho : (builtHulls cs).obstacles[it]? = some o) (b : Vec d)
    (hb : o.intersection o.center (position - o.center) = some b) (wd wg : ℝ)
    (hn : (∃ p : ℕ, (builtHulls cs).graph.getParent it = .ok (p : ℤ))
      ∨ ∃ k : ℕ, (builtHulls cs).graph.getParent k = .ok (it : ℤ))
    (o' : Obstacle d) (ho' : OtherHullAt (builtHulls cs) it b o') :
    getDesiredRadius (builtHulls cs) position g it wd wg = .error .typeError := by
  classical
  obtain ⟨_, a2, a3⟩ := built_graph cs
  obtain ⟨ps, hps, e⟩ := radius_eq (built_forest cs h) a2 (by rw [a3]; simp) position g ho wd wg
  have hget : ∀ k : ℕ, k < (builtHulls cs).obstacles.length → (builtHulls cs).intersections[k]? = some none := by
    intro k hk
    rw [a3, List.getElem?_replicate, if_pos hk]
  have hne : none ∈ ps := by
    rw [hps]
    rcases hn with ⟨p, hp⟩ | ⟨k, hk⟩
    · exact Or.inl ⟨⟨p, hp⟩, hget it (List.getElem?_eq_some_iff.mp ho).1⟩
    · refine Or.inr ⟨k, hk, hget k ?_⟩
      rw [a2]; exact (List.getElem?_eq_some_iff.mp (getParent_iff.mp hk)).1
  have hall : ∀ p ∈ ps, p = none := by
    intro p hp
    rcases (hps p).mp hp with ⟨_, h1⟩ | ⟨_, _, h1⟩
    all_goals
      rw [a3, List.getElem?_replicate] at h1
      split at h1
      · injection h1 with h1; exact h1.symm
      · cases h1
  obtain ⟨k', hk', ho'', hg⟩ := ho'
  have hloop : ∀ (l : List (Obstacle d × ℕ)) (w : ℝ), (o', k') ∈ l →
      hullLoop position o.center it (some b) none wd wg l w = .error .typeError := by
    intro l
    induction l with
    | nil => intro w hm; cases hm
    | cons a l ih =>
      obtain ⟨o1, k1⟩ := a
      intro w hm
      unfold hullLoop
      by_cases h1 : k1 = it
      · rw [if_pos h1]
        rcases List.mem_cons.mp hm with h2 | h2
        · cases h2; exact absurd h1 hk'
        · exact ih w h2
      · rw [if_neg h1]
        simp only
        by_cases h3 : o1.gamma b ≤ 1
        · rw [if_pos h3]
          rcases List.mem_cons.mp hm with h2 | h2
          · cases h2; exact absurd h3 (not_le.mpr hg)
          · exact ih w h2
        · rw [if_neg h3]
  rw [e, hb]
  cases ps with
  | nil => cases hne
  | cons p ps =>
    obtain rfl := hall p List.mem_cons_self
    unfold pointLoop
    rw [hloop _ _ (List.mk_mem_zipIdx_iff_getElem?.mpr ho'')]
    rfl

/-! ## Attraction -/

/-- C99: without a hull whose `gamma` is between the cut-offs the velocity is not changed. -/
theorem C99_attraction_none (c : Hulls d) (convergence : Vec d → ℕ → Except PyErr (Vec d))
    (position initial : Vec d) (high low : ℝ)
    (h : ∀ o ∈ c.obstacles, o.gamma position ≤ low ∨ high ≤ o.gamma position) :
    multihullAttraction c convergence position initial high low = .ok initial := by
  classical
  have : relevant c position high low = [] := by
    unfold relevant
    rw [List.filter_eq_nil_iff]
    rintro ⟨o, k⟩ hm
    have ho := List.mem_of_getElem? (List.mk_mem_zipIdx_iff_getElem?.mp hm)
    simp only [decide_eq_true_eq, not_and, not_lt]
    intro h1
    rcases h o ho with h2 | h2
    · exact h2
    · linarith
  unfold multihullAttraction
  rw [this]

/-- C99, violated by the code: inside of any hull `multihull_attraction` never returns a velocity. -/
theorem C99_attraction_fails (c : Hulls d) (convergence : Vec d → ℕ → Except PyErr (Vec d))
    (position initial : Vec d) (high low : ℝ) (o : Obstacle d) (ho : o ∈ c.obstacles)
    (h : low < o.gamma position ∧ o.gamma position < high) :
    (∀ v, multihullAttraction c convergence position initial high low ≠ .ok v)
      ∧ ((∀ p i, ∃ v, convergence p i = .ok v) →
        (∀ i o' g, c.obstacles[i]? = some o' → ∃ r, getDesiredRadius c position g i 1 1 = .ok r) →
        multihullAttraction c convergence position initial high low = .error .typeError) := by
  classical
  obtain ⟨k, hk⟩ := List.mem_iff_getElem?.mp ho
  have hmem : (o, k) ∈ relevant c position high low := by
    unfold relevant
    rw [List.mem_filter]
    exact ⟨List.mk_mem_zipIdx_iff_getElem?.mpr hk, by simp [h.1, h.2]⟩
  cases hr : relevant c position high low with
  | nil => rw [hr] at hmem; cases hmem
  | cons a l =>
    obtain ⟨o1, k1⟩ := a
    have hk1 : c.obstacles[k1]? = some o1 := by
      have : (o1, k1) ∈ relevant c position high low := by rw [hr]; exact List.mem_cons_self
      unfold relevant at this
      exact List.mk_mem_zipIdx_iff_getElem?.mp (List.mem_filter.mp this).1
    have e : multihullAttraction c convergence position initial high low = (do
        let _ ← convergence position k1
        let _ ← getDesiredRadius c position (o1.gamma position) k1 1 1
        .error .typeError) := by
      unfold multihullAttraction
      rw [hr]
    rw [e]
    constructor
    · intro v hv
      obtain ⟨_, _, hv⟩ := bind_ok.mp hv
      obtain ⟨_, _, hv⟩ := bind_ok.mp hv
      cases hv
    · intro hconv hrad
      obtain ⟨v, hv⟩ := hconv position k1
      obtain ⟨r, hr'⟩ := hrad k1 o1 (o1.gamma position) hk1
      rw [hv, hr']
      rfl

/-! ## Examples -/

/-- A hull: the unit disc around `m`. -/
noncomputable def discHull (m : Vec 2) : Obstacle 2 where
  gamma p := 2 - ‖p - m‖
  normal p := unit (p - m)
  reference p := unit (m - p)
  referencePoint := m
  center := m
  intersection _ v := some (m + unit v)
  tailEffect := true
  isBoundary := true

/-- Two discs which overlap, the second one is the child of the first one. -/
noncomputable def twoHulls : List (MultiHull.Call 2) :=
  [.append (discHull 0) none, .append (discHull !₂[3 / 2, 0]) (some (-1))]

/-- The result of `update_intersection_graph` for the two discs. -/
noncomputable def twoHullsUpdated : Hulls 2 :=
  { builtHulls twoHulls with intersections := [none, some !₂[3 / 4, 0]] }

lemma twoHulls_allowed : AllowedBoundaryHistory MultiBoundary.create (twoHulls.map graphCall) := by
  refine ⟨?_, ?_, trivial⟩
  · intro h; cases h
  · intro _; exact Nat.one_pos

lemma twoHulls_parent (i p : ℕ) (h : (builtHulls twoHulls).graph.getParent i = .ok (p : ℤ)) : i = 1 ∧ p = 0 := by
  rw [getParent_iff] at h
  have hp : (builtHulls twoHulls).graph.parents = [-1, 0] := by decide
  rw [hp] at h
  match i, h with
  | 0, h => simp at h
  | 1, h => simp at h; omega
  | k + 2, h => simp at h

lemma twoHulls_update : (builtHulls twoHulls).updateIntersectionGraph (fun _ _ => .ok !₂[3 / 4, 0])
    = .ok twoHullsUpdated := rfl

lemma other_hull_ahead : OtherHullAt twoHullsUpdated 0 !₂[1, 0] (discHull !₂[3 / 2, 0]) := by
  refine ⟨1, by decide, rfl, ?_⟩
  have : (!₂[1, 0] : Vec 2) - !₂[3 / 2, 0] = !₂[-(1 / 2), 0] := by
    ext i; fin_cases i <;> norm_num
  change 1 < 2 - ‖(!₂[1, 0] : Vec 2) - !₂[3 / 2, 0]‖
  rw [this, EuclideanSpace.norm_eq]
  simp
  norm_num

lemma unit_e0_scaled : unit (!₂[1 / 2, 0] - 0 : Vec 2) = !₂[1, 0] := by
  have h : ‖(!₂[1 / 2, 0] : Vec 2)‖ = 1 / 2 := by
    rw [EuclideanSpace.norm_eq]
    simp
  unfold unit
  rw [sub_zero, h]
  ext i; fin_cases i <;> simp

/-- `C99_exit` (and with it `C99_radius`, `C99_update`) applies: between the centre of the first disc and the second
disc. -/
example (g : ℝ) : getDesiredRadius twoHullsUpdated !₂[1 / 2, 0] g 0 1 1 = .ok 0 := by
  refine C99_exit twoHulls twoHulls_allowed (fun _ _ => .ok !₂[3 / 4, 0]) (fun _ _ => !₂[3 / 4, 0])
    (fun _ _ _ => rfl) twoHullsUpdated twoHulls_update _ g 0 (discHull 0) rfl !₂[1, 0] ?_ 1 1 zero_le_one one_pos
    !₂[3 / 4, 0] (Or.inr ⟨1, rfl, rfl⟩) ?_ (2 / 3) (by norm_num) ?_ _ other_hull_ahead
  · change some ((0 : Vec 2) + unit (!₂[1 / 2, 0] - 0)) = _
    rw [unit_e0_scaled, zero_add]
  · change (!₂[3 / 4, 0] : Vec 2) ≠ 0
    intro h
    have := congrArg (fun y : Vec 2 => y 0) h
    simp at this
  · change (!₂[1 / 2, 0] : Vec 2) = 0 + (2 / 3 : ℝ) • (!₂[3 / 4, 0] - 0)
    ext i; fin_cases i <;> norm_num

/-- `C99_not_updated` applies to the same discs. -/
example (g : ℝ) : getDesiredRadius (builtHulls twoHulls) !₂[1 / 2, 0] g 0 1 1 = .error .typeError := by
  refine C99_not_updated twoHulls twoHulls_allowed _ g 0 (discHull 0) rfl !₂[1, 0] ?_ 1 1 (Or.inr ⟨1, rfl⟩) _
    other_hull_ahead
  change some ((0 : Vec 2) + unit (!₂[1 / 2, 0] - 0)) = _
  rw [unit_e0_scaled, zero_add]

/-- `C99_closed` applies to a single disc. -/
example (g : ℝ) (position b : Vec 2)
    (hb : (discHull 0).intersection (discHull 0).center (position - (discHull 0).center) = some b) :
    getDesiredRadius (builtHulls [.append (discHull 0) none]) position g 0 1 1 = .ok (Real.pi * (2 : ℝ) ^ (-g)) := by
  refine C99_closed [.append (discHull 0) none] ⟨fun h => (by cases h), trivial⟩ (fun _ _ => .ok 0) (fun _ _ => 0)
    (fun _ _ _ => rfl) _ rfl position g 0 (discHull 0) rfl b hb 1 1 zero_le_one one_pos (Or.inr ?_)
  rintro o' ⟨k, hk, ho, _⟩
  have : k < 1 := (List.getElem?_eq_some_iff.mp ho).1
  omega

/-- `C99_attraction_fails` applies in the centre of a disc, with the cut-offs of the code. -/
example : (1 : ℝ) < (discHull 0).gamma 0 ∧ (discHull 0).gamma 0 < 10 ^ 6 := by
  change (1 : ℝ) < 2 - ‖(0 : Vec 2) - 0‖ ∧ 2 - ‖(0 : Vec 2) - 0‖ < 10 ^ 6
  simp
  norm_num

end Verif.MultiHull
