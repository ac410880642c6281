import Verif.Model.GmmObstacle
import Verif.Lemmas.Monad
import Verif.Props.HullPath

/-!
# C57, C87, C88: weights, guidance and mean normal of a `GmmObstacle`
-/

open scoped RealInnerProductSpace

namespace Verif.Gmm

variable {d : ℕ}

/-! ### C57 -/

/-- **C57** If the position is in at least one Gaussian (gamma at most one), these share the weight
equally and all others have none; whatever the occlusion factors are. -/
theorem C57_inside (gammas : List ℝ) (factors : Except PyErr (List ℝ)) (h : ∃ g ∈ gammas, g ≤ 1) :
    open Classical in
    gammaWeights gammas factors = .ok (gammas.map (fun g =>
      if g ≤ 1 then 1 / ((gammas.filter (fun g => g ≤ 1)).length : ℝ) else 0))
    ∧ (gammas.map (fun g =>
      if g ≤ 1 then 1 / ((gammas.filter (fun g => g ≤ 1)).length : ℝ) else 0)).sum = 1 := by
  classical
  have hany : gammas.any (fun g => decide (g - 1 ≤ 0)) = true := by
    obtain ⟨g, hg, h1⟩ := h
    rw [List.any_eq_true]
    exact ⟨g, hg, by simpa using h1⟩
  have hcount : gammas.countP (fun g => decide (g - 1 ≤ 0)) = (gammas.filter (fun g => g ≤ 1)).length := by
    rw [List.countP_eq_length_filter]
    simp
  constructor
  · unfold gammaWeights
    rw [if_pos hany, hcount]
    congr 1
    apply List.map_congr_left
    intro g _
    by_cases hg : g ≤ 1
    · rw [if_pos hg, if_pos (by linarith)]
    · rw [if_neg hg, if_neg (by linarith)]
  · have hsum : ∀ (l : List ℝ) (k : ℝ), (l.map (fun g => if g ≤ 1 then k else 0)).sum
        = (l.filter (fun g => g ≤ 1)).length * k := by
      intro l k
      induction l with
      | nil => simp
      | cons a l ih =>
        rw [List.map_cons, List.sum_cons, ih, List.filter_cons]
        by_cases ha : a ≤ 1
        · simp [ha]; ring
        · simp [ha]
    rw [hsum]
    obtain ⟨g, hg, h1⟩ := h
    have hpos : 0 < (gammas.filter (fun g => g ≤ 1)).length := by
      apply List.length_pos_of_mem (a := g)
      rw [List.mem_filter]
      exact ⟨hg, by simpa using h1⟩
    have : ((gammas.filter (fun g => g ≤ 1)).length : ℝ) ≠ 0 := by
      exact_mod_cast hpos.ne'
    exact mul_one_div_cancel this

/-- **C57** The occlusion factor of a Gaussian is in `[0, 1]`; it is one for the root and where the point
on the surface is outside the parent.  The reference point differs from the position and from the mean
of the parent. -/
theorem C57_factor (position reference : Vec d) (parent : Option (Vec d × ℝ))
    (hg : ∀ m g, parent = some (m, g) → 0 ≤ g) (hp : parent ≠ none → position ≠ reference)
    (hm : ∀ m g, parent = some (m, g) → m ≠ reference) :
    ∃ f, occlusionFactor position reference parent = .ok f ∧ 0 ≤ f ∧ f ≤ 1
      ∧ (parent = none → f = 1) ∧ (∀ m g, parent = some (m, g) → 1 ≤ g → f = 1) := by
  classical
  unfold occlusionFactor
  cases parent with
  | none => exact ⟨1, rfl, zero_le_one, le_rfl, fun _ => rfl, by simp⟩
  | some mg =>
    obtain ⟨mean, g⟩ := mg
    simp only
    have h0 := hg mean g rfl
    by_cases h1 : g ≥ 1
    · rw [if_pos h1]
      exact ⟨1, rfl, zero_le_one, le_rfl, fun _ => rfl, fun _ _ _ _ => rfl⟩
    rw [if_neg h1]
    have hne : ‖position - reference‖ * ‖mean - reference‖ ≠ 0 := by
      apply mul_ne_zero
      · rw [norm_ne_zero_iff, sub_ne_zero]; exact hp (by simp)
      · rw [norm_ne_zero_iff, sub_ne_zero]; exact hm mean g rfl
    rw [if_neg hne]
    have hno : ∀ f : ℝ, (some (mean, g) = none → f = 1)
        ∧ (∀ m g', some (mean, g) = some (m, g') → 1 ≤ g' → f = 1) := by
      intro f
      refine ⟨by simp, ?_⟩
      intro m g' he hle
      simp only [Option.some.injEq, Prod.mk.injEq] at he
      rw [← he.2] at hle
      exact absurd hle h1
    split
    · exact ⟨1, rfl, zero_le_one, le_rfl, hno 1⟩
    · split
      · exact ⟨0, rfl, le_rfl, zero_le_one, hno 0⟩
      · rename_i h2 h3
        refine ⟨_, rfl, Real.rpow_nonneg h0 _, ?_, hno _⟩
        apply Real.rpow_le_one h0 (le_of_lt (not_le.mp h1))
        apply div_nonneg zero_le_one
        linarith

/-- **C57** Outside of all Gaussians the weights are not negative and sum to one.  Every Gaussian is given
as its gamma, its reference point, and (unless it is the root) the mean of its parent with the gamma of
the parent at the projected point.  Missing: reference points at the position or at the mean of the parent
(`C57_concentric`). -/
theorem C57_outside_partial (position : Vec d) (l : List (ℝ × Vec d × Option (Vec d × ℝ)))
    (hout : ∀ g ∈ l, 1 < g.1) (hroot : ∃ g ∈ l, g.2.2 = none)
    (hg : ∀ g ∈ l, ∀ m s, g.2.2 = some (m, s) → 0 ≤ s ∧ position ≠ g.2.1 ∧ m ≠ g.2.1) :
    ∃ ws, gammaWeights (l.map (fun g => g.1)) (l.mapM (fun g => occlusionFactor position g.2.1 g.2.2))
        = .ok ws
      ∧ ws.length = l.length ∧ (∀ w ∈ ws, 0 ≤ w) ∧ ws.sum = 1 := by
  classical
  have hfac : ∀ (l : List (ℝ × Vec d × Option (Vec d × ℝ))),
      (∀ g ∈ l, 1 < g.1) →
      (∀ g ∈ l, ∀ m s, g.2.2 = some (m, s) → 0 ≤ s ∧ position ≠ g.2.1 ∧ m ≠ g.2.1) →
      ∃ fs, l.mapM (fun g => occlusionFactor position g.2.1 g.2.2) = .ok fs
        ∧ fs.length = l.length
        ∧ (∀ w ∈ List.zipWith (fun g f => 1 / (g - 1) * f) (l.map (fun g => g.1)) fs, 0 ≤ w)
        ∧ ((∃ g ∈ l, g.2.2 = none) →
          0 < (List.zipWith (fun g f => 1 / (g - 1) * f) (l.map (fun g => g.1)) fs).sum) := by
    intro l
    induction l with
    | nil => intro _ _; exact ⟨[], rfl, rfl, by simp, by simp⟩
    | cons a l ih =>
      intro ho hp
      obtain ⟨fs, h1, h2, h3, h4⟩ := ih (fun g hgl => ho g (List.mem_cons_of_mem _ hgl))
        (fun g hgl => hp g (List.mem_cons_of_mem _ hgl))
      have hpa := hp a List.mem_cons_self
      obtain ⟨f, e1, e2, e3, e4, -⟩ := C57_factor position a.2.1 a.2.2
        (fun m s hms => (hpa m s hms).1)
        (fun hne => by
          obtain ⟨ms, hms⟩ := Option.ne_none_iff_exists'.mp hne
          exact (hpa ms.1 ms.2 hms).2.1)
        (fun m s hms => (hpa m s hms).2.2)
      have hpos : 0 < 1 / (a.1 - 1) := by
        have := ho a List.mem_cons_self
        apply div_pos one_pos; linarith
      refine ⟨f :: fs, ?_, by simp [h2], ?_, ?_⟩
      · rw [List.mapM_cons, e1, h1]; rfl
      · intro w hw
        rw [List.map_cons, List.zipWith_cons_cons, List.mem_cons] at hw
        rcases hw with rfl | hw
        · exact mul_nonneg hpos.le e2
        · exact h3 w hw
      · rintro ⟨g, hgm, hgn⟩
        rw [List.map_cons, List.zipWith_cons_cons, List.sum_cons]
        have hs : 0 ≤ (List.zipWith (fun g f => 1 / (g - 1) * f) (l.map (fun g => g.1)) fs).sum :=
          List.sum_nonneg h3
        rcases List.mem_cons.mp hgm with rfl | hgl
        · rw [e4 hgn, mul_one]; linarith
        · have := h4 ⟨g, hgl, hgn⟩
          have := mul_nonneg hpos.le e2
          linarith
  obtain ⟨fs, h1, h2, h3, h4⟩ := hfac l hout hg
  have hsum := h4 hroot
  unfold gammaWeights
  rw [if_neg, h1]
  · simp only
    rw [if_pos hsum.ne']
    refine ⟨_, rfl, by simp [h2], ?_, ?_⟩
    · intro w hw
      obtain ⟨a, ha, rfl⟩ := List.mem_map.mp hw
      exact div_nonneg (h3 a ha) hsum.le
    · simp only [div_eq_mul_inv _ (List.sum _)]
      rw [List.sum_map_mul_right, List.map_id']
      exact mul_inv_cancel₀ hsum.ne'
  · rw [List.any_eq_true]
    rintro ⟨g, hgm, hg1⟩
    obtain ⟨a, ha, rfl⟩ := List.mem_map.mp hgm
    rw [decide_eq_true_eq] at hg1
    have := hout a ha
    linarith

/-- The hypotheses can be met: a root, and a child at distance one from its reference point. -/
example : let l : List (ℝ × Vec 1 × Option (Vec 1 × ℝ)) :=
      [(2, 0, none), (3, EuclideanSpace.single 0 1, some (0, 1 / 2))]
    (∀ g ∈ l, 1 < g.1) ∧ (∃ g ∈ l, g.2.2 = none)
    ∧ ∀ g ∈ l, ∀ m s, g.2.2 = some (m, s) →
      0 ≤ s ∧ (EuclideanSpace.single 0 3 : Vec 1) ≠ g.2.1 ∧ m ≠ g.2.1 := by
  refine ⟨by simp, ⟨_, List.mem_cons_self, rfl⟩, ?_⟩
  intro g hg m s hms
  simp only [List.mem_cons, List.not_mem_nil, or_false] at hg
  rcases hg with rfl | rfl
  · cases hms
  · simp only [Option.some.injEq, Prod.mk.injEq] at hms
    obtain ⟨rfl, rfl⟩ := hms
    refine ⟨by norm_num, ?_, ?_⟩
    · intro h
      have := congrArg (fun v : Vec 1 => v 0) h
      norm_num at this
    · intro h
      have := congrArg (fun v : Vec 1 => v 0) h
      norm_num at this

/-- **C57 (violated)** If a child and its parent have the same mean (its reference point is then this
mean) and the projected point is in the parent, the weights are `nan`, at every position outside of all
Gaussians. -/
theorem C57_concentric (position mean : Vec d) (gammas : List ℝ) (hout : ∀ g ∈ gammas, 1 < g)
    (l : List (Vec d × Option (Vec d × ℝ))) (s : ℝ) (hs : s < 1)
    (hl : l.head? = some (mean, some (mean, s))) :
    gammaWeights gammas (l.mapM (fun g => occlusionFactor position g.1 g.2)) = .error .nan := by
  classical
  cases l with
  | nil => cases hl
  | cons a l =>
    simp only [List.head?_cons, Option.some.injEq] at hl
    subst hl
    have hf : occlusionFactor position mean (some (mean, s)) = .error .nan := by
      unfold occlusionFactor
      simp only
      rw [if_neg (by linarith), if_pos (by simp)]
    unfold gammaWeights
    rw [if_neg, List.mapM_cons, hf]
    · rfl
    · rw [List.any_eq_true]
      rintro ⟨g, hgm, hg1⟩
      rw [decide_eq_true_eq] at hg1
      have := hout g hgm
      linarith

/-! ### C87 -/

/-- **C87 (violated)** A velocity towards the kernel point, or slower than one, is returned unchanged, so
there is no guidance around the root. -/
theorem C87_not_guided (kernel position velocity : Vec d)
    (h : ⟪position - kernel, velocity⟫ ≤ 0 ∨ ‖velocity‖ < 1) :
    rootRotationDirection kernel position velocity = velocity := by
  classical
  unfold rootRotationDirection
  by_cases h0 : ‖position - kernel‖ = 0
  · rw [if_pos h0]
  rw [if_neg h0]
  simp only
  rw [if_pos]
  have hpos : 0 < ‖position - kernel‖ := lt_of_le_of_ne (norm_nonneg _) (Ne.symm h0)
  rw [inner_smul_left]
  simp only [conj_trivial]
  rcases h with h | h
  · have : (‖position - kernel‖)⁻¹ * ⟪position - kernel, velocity⟫ ≤ 0 :=
      mul_nonpos_of_nonneg_of_nonpos (by positivity) h
    linarith
  · have h1 := real_inner_le_norm (position - kernel) velocity
    calc (‖position - kernel‖)⁻¹ * ⟪position - kernel, velocity⟫
        ≤ (‖position - kernel‖)⁻¹ * (‖position - kernel‖ * ‖velocity‖) := by
          apply mul_le_mul_of_nonneg_left h1; positivity
      _ = ‖velocity‖ := by rw [← mul_assoc, inv_mul_cancel₀ h0, one_mul]
      _ < 1 := h

/-- **C87 (violated)** A velocity straight away from the kernel point with speed one or more is stopped. -/
theorem C87_away_stopped (kernel position : Vec d) (h : position ≠ kernel) (speed : ℝ)
    (hs : 1 ≤ speed) :
    rootRotationDirection kernel position
      ((speed * (‖position - kernel‖)⁻¹) • (position - kernel)) = 0 := by
  classical
  unfold rootRotationDirection
  have h0 : ‖position - kernel‖ ≠ 0 := by rw [norm_ne_zero_iff, sub_ne_zero]; exact h
  rw [if_neg h0]
  simp only
  have hin : ⟪(‖position - kernel‖)⁻¹ • (position - kernel),
      (speed * (‖position - kernel‖)⁻¹) • (position - kernel)⟫ = speed := by
    rw [inner_smul_left, inner_smul_right, real_inner_self_eq_norm_sq]
    simp only [conj_trivial]
    field_simp
  rw [hin, if_neg (by linarith), smul_smul, sub_self]

/-- **C87** In the remaining case the result is tangent: orthogonal to the direction from the kernel. -/
theorem C87_tangent (kernel position velocity : Vec d) (h : position ≠ kernel)
    (hv : ‖position - kernel‖ ≤ ⟪position - kernel, velocity⟫) :
    ⟪position - kernel, rootRotationDirection kernel position velocity⟫ = 0 := by
  classical
  unfold rootRotationDirection
  have h0 : ‖position - kernel‖ ≠ 0 := by rw [norm_ne_zero_iff, sub_ne_zero]; exact h
  rw [if_neg h0]
  simp only
  rw [if_neg]
  · rw [inner_sub_right, inner_smul_right, inner_smul_left, inner_smul_right,
      real_inner_self_eq_norm_sq]
    simp only [conj_trivial]
    field_simp
    ring
  · rw [not_lt, inner_smul_left]
    simp only [conj_trivial]
    rw [le_inv_mul_iff₀ (lt_of_le_of_ne (norm_nonneg _) (Ne.symm h0)), mul_one]
    exact hv

/-! ### C88 -/

/-- **C88** If one Gaussian is relevant and its normal is less than a right angle away from its reference
direction and differs from it, the mean normal is this normal.

Missing: a normal equal to the reference direction, for which it fails (`C88_circles`), and several relevant
Gaussians. -/
theorem C88_single_partial (normal reference : Vec d) (hn : ‖normal‖ = 1) (hr : ‖reference‖ = 1)
    (hne : normal ≠ reference) (hpos : 0 < ⟪normal, reference⟫) (w : ℝ) (hw : w ≠ 0)
    (others : List (ℝ × Vec d × Vec d)) (ho : ∀ g ∈ others, g.1 = 0) :
    meanNormal (deltaNormal ((w, normal, reference) :: others)) reference = .ok normal := by
  classical
  have hdelta : deltaNormal ((w, normal, reference) :: others) = normal - reference := by
    unfold deltaNormal
    have hnil : others.filter (fun g => decide (g.1 ≠ 0)) = [] := by
      rw [List.filter_eq_nil_iff]
      intro g hg
      simp [ho g hg]
    rw [List.filter_cons, if_pos (by simpa using hw), hnil]
    simp
  rw [hdelta]
  unfold meanNormal
  have h0 : ‖normal - reference‖ ≠ 0 := by rw [norm_ne_zero_iff, sub_ne_zero]; exact hne
  have hp : 0 < ‖normal - reference‖ := lt_of_le_of_ne (norm_nonneg _) (Ne.symm h0)
  rw [if_neg h0]
  simp only
  have hsq : ‖normal - reference‖ ^ 2 = 2 - 2 * ⟪normal, reference⟫ := by
    rw [norm_sub_sq_real, hn, hr]; ring
  have hdot : (-1) * (⟪normal - reference, reference⟫ / ‖normal - reference‖)
      = ‖normal - reference‖ / 2 := by
    rw [inner_sub_left, real_inner_self_eq_norm_sq, hr]
    field_simp
    rw [hsq]
    ring
  rw [hdot]
  have hlt : ‖normal - reference‖ / 2 < Real.sqrt 2 / 2 := by
    apply div_lt_div_of_pos_right _ two_pos
    rw [Real.lt_sqrt hp.le, hsq]
    linarith
  rw [if_pos hlt, one_smul, add_sub_cancel, if_neg (by rw [hn]; norm_num), hn, inv_one, one_smul]

/-- **C88 (violated)** If the normals of all relevant Gaussians agree with their reference directions (as
for circles), the mean normal is `nan`. -/
theorem C88_circles (reference : Vec d) (l : List (ℝ × Vec d × Vec d))
    (h : ∀ g ∈ l, g.1 ≠ 0 → g.2.1 = g.2.2) :
    meanNormal (deltaNormal l) reference = .error .nan := by
  classical
  have hz : deltaNormal l = 0 := by
    unfold deltaNormal
    apply List.sum_eq_zero
    intro x hx
    obtain ⟨g, hg, rfl⟩ := List.mem_map.mp hx
    rw [List.mem_filter, decide_eq_true_eq] at hg
    rw [h g hg.1 hg.2, sub_self]
  unfold meanNormal
  rw [if_pos (by rw [hz, norm_zero])]

/-- **C88** The result is a unit vector whenever there is one. -/
theorem C88_unit (delta reference n : Vec d) (h : meanNormal delta reference = .ok n) : ‖n‖ = 1 := by
  classical
  unfold meanNormal at h
  by_cases h0 : ‖delta‖ = 0
  · rw [if_pos h0] at h; cases h
  rw [if_neg h0] at h
  simp only at h
  set s := (if (-1) * (⟪delta, reference⟫ / ‖delta‖) < Real.sqrt 2 / 2 then (1 : ℝ)
    else Real.sqrt 2 * ((-1) * (⟪delta, reference⟫ / ‖delta‖))) with hs
  by_cases h1 : ‖s • reference + delta‖ = 0
  · rw [if_pos h1] at h; cases h
  rw [if_neg h1] at h
  simp only [Except.ok.injEq] at h
  rw [← h, norm_smul, norm_inv, norm_norm, inv_mul_cancel₀ h1]

/-- The hypotheses of `C88_single_partial` can be met. -/
example : ∃ n r : Vec 2, ‖n‖ = 1 ∧ ‖r‖ = 1 ∧ n ≠ r ∧ 0 < ⟪n, r⟫ := by
  refine ⟨!₂[3 / 5, 4 / 5], !₂[1, 0], ?_, ?_, ?_, ?_⟩
  · rw [EuclideanSpace.norm_eq]; simp [Fin.sum_univ_two]; norm_num
  · rw [EuclideanSpace.norm_eq]; simp [Fin.sum_univ_two]
  · intro h
    have := congrArg (fun v : Vec 2 => v 1) h
    norm_num at this
  · simp [PiLp.inner_apply, Fin.sum_univ_two]

end Verif.Gmm
