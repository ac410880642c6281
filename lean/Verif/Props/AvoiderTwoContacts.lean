import Verif.Props.AvoiderDirection
import Verif.Props.AvoiderExamples

/-!
# C108 and C61 for two discs
-/

open scoped RealInnerProductSpace

namespace Verif
open Spec

/-- The unit disc with centre `c`. -/
noncomputable def discAt (c : Vec 2) (tail : Bool) : Obstacle 2 where
  gamma p := disc.gamma (p - c)
  normal p := disc.normal (p - c)
  reference p := disc.reference (p - c)
  referencePoint := c
  center := c
  intersection s v := (disc.intersection (s - c) v).map (fun p => p + c)
  tailEffect := tail
  isBoundary := false

/-- A static obstacle with this disc as its only component. -/
noncomputable def discTreeAt (c : Vec 2) (tail : Bool) : ObstacleTree 2 where
  components := [discAt c tail]
  rootIdx := 0
  parentIdx := fun _ => none
  position := c

/-- Constant velocity `v`, attractor `b`. -/
noncomputable def discsAvoider (v b : Vec 2) (ts : List (ObstacleTree 2)) : Avoider 2 where
  initial := { evaluate := fun _ => v, attractorPosition := some b }
  convergence := convergenceWithoutSingularity (fun _ => v) (fun _ => v)
  trees := ts

lemma discAt_sane (c : Vec 2) (tail : Bool) : SaneObstacle (discAt c tail) where
  gamma_nonneg := fun y => disc_sane.gamma_nonneg (y - c)
  normal_le := fun y => disc_sane.normal_le (y - c)
  reference_le := fun y => disc_sane.reference_le (y - c)

/-- The functions of the disc at a position in direction `e` from the centre. -/
lemma discAt_facts (c : Vec 2) (tail : Bool) {r : ℝ} (hr : 1 ≤ r) {e : Vec 2} (he : ‖e‖ = 1) :
    (discAt c tail).gamma (c + r • e) = r ∧ (discAt c tail).normal (c + r • e) = e
      ∧ (discAt c tail).reference (c + r • e) = -e
      ∧ (discAt c tail).intersection (open Classical in if 1 < (discAt c tail).gamma (c + r • e) then
          (discAt c tail).referencePoint else c + r • e) (-(discAt c tail).reference (c + r • e))
        = some (c + e)
      ∧ (discAt c tail).normal (c + e) = e := by
  classical
  have hr0 : 0 < r := by linarith
  have hx : ‖r • e‖ = r := by rw [norm_smul, he, mul_one, Real.norm_of_nonneg hr0.le]
  have hsub : c + r • e - c = r • e := by abel
  have hg : (discAt c tail).gamma (c + r • e) = r := by
    change ‖c + r • e - c‖ = r
    rw [hsub, hx]
  have hn : ∀ s : ℝ, 0 < s → (discAt c tail).normal (c + s • e) = e := by
    intro s hs
    change (1 / ‖c + s • e - c‖) • (c + s • e - c) = e
    have hsub : c + s • e - c = s • e := by abel
    rw [hsub, norm_smul, he, mul_one, Real.norm_of_nonneg hs.le, smul_smul,
      one_div_mul_cancel (ne_of_gt hs), one_smul]
  have href : (discAt c tail).reference (c + r • e) = -e := by
    change (-(1 / ‖c + r • e - c‖)) • (c + r • e - c) = -e
    rw [hsub, hx, smul_smul, neg_mul, one_div_mul_cancel (ne_of_gt hr0), neg_one_smul]
  have hne : e ≠ 0 := by rintro rfl; simp at he
  refine ⟨hg, hn r hr0, href, ?_, by have := hn 1 one_pos; rwa [one_smul] at this⟩
  rw [href, hg, neg_neg]
  by_cases h1 : 1 < r
  · rw [if_pos h1]
    change Option.map _ (if e = 0 ∨ _ < (0 : ℝ) then none else some _) = _
    simp [discAt, hne, he, add_comm]
  · have : r = 1 := by linarith
    rw [if_neg h1, this, one_smul]
    change Option.map _ (if e = 0 ∨ _ < (0 : ℝ) then none else some _) = _
    simp [hne, he, add_comm]

lemma discAt_normal (c : Vec 2) (tail : Bool) {r : ℝ} (hr : 1 ≤ r) {e : Vec 2} (he : ‖e‖ = 1)
    {n : Vec 2} (h : SurfaceNormal (discAt c tail) (c + r • e) n) : n = e := by
  obtain ⟨_, _, _, f4, f5⟩ := discAt_facts c tail hr he
  obtain ⟨s, h1, h2, _⟩ := h
  rw [f4] at h1
  cases h1
  rw [h2 rfl, f5]

/-- The diagonal direction. -/
noncomputable def diag : Vec 2 := !₂[√2 / 2, -(√2 / 2)]

lemma diag_norm : ‖diag‖ = 1 := by
  rw [EuclideanSpace.norm_eq, Fin.sum_univ_two]
  simp [diag]
  rw [div_pow, sq_abs, Real.sq_sqrt (by norm_num)]
  norm_num

lemma diag_pos : 0 < √2 / 2 := by positivity

lemma arccos_half_sqrt : Real.arccos (√2 / 2) = Real.pi / 4 := by
  rw [← Real.cos_pi_div_four, Real.arccos_cos (by positivity) (by linarith [Real.pi_pos])]

/-- The tangent at the lower disc. -/
lemma tangent_low (argsort : List ℤ → List ℕ) :
    projectedTangent (planeExt argsort) diag !₂[0, 1] (-!₂[0, 1]) (Real.pi * 0.5) = .ok !₂[1, 0] := by
  classical
  have hcos : Real.cos (Real.pi * 0.5) = 0 := by
    rw [show Real.pi * 0.5 = Real.pi / 2 by ring, Real.cos_pi_div_two]
  have hsin : Real.sin (Real.pi * 0.5) = 1 := by
    rw [show Real.pi * 0.5 = Real.pi / 2 by ring, Real.sin_pi_div_two]
  have hneg : (-1 : ℝ) • (!₂[0, 1] : Vec 2) = -!₂[0, 1] := neg_one_smul _ _
  have h1 : ⟪diag, (-1 : ℝ) • (!₂[0, 1] : Vec 2)⟫ = √2 / 2 := by
    simp [PiLp.inner_apply, Fin.sum_univ_two, diag]
  have ha : (planeExt argsort).angleOf (-!₂[0, 1]) (-!₂[0, 1]) = 0 := by
    ext i; fin_cases i; simp [planeExt]
  have hb : (planeExt argsort).angleOf (-!₂[0, 1]) diag = !₂[Real.pi / 4] := by
    ext i; fin_cases i
    simp [planeExt, PiLp.inner_apply, Fin.sum_univ_two, diag, arccos_half_sqrt]
    try rw [sign_pos diag_pos]; simp
  unfold projectedTangent
  simp only
  rw [if_pos (by rw [h1, hcos]; exact diag_pos), hneg, ha, hb, sub_zero]
  have hn : ‖(!₂[Real.pi / 4] : Vec 1)‖ ≠ 0 := by
    rw [norm_ne_zero_iff]
    intro h0
    have := congrArg (fun w : Vec 1 => w 0) h0
    simp at this
  rw [if_neg hn]
  have hcf : (planeExt argsort).circleFar 0 (!₂[Real.pi / 4]) (Real.pi * 0.5) = some !₂[Real.pi * 0.5] := by
    change (if Real.pi / 4 > 0 then _ else _) = _
    rw [if_pos (by positivity)]
  rw [hcf]
  simp only
  congr 1
  ext i; fin_cases i <;> simp [planeExt, hcos, hsin]

/-- The tangent at the left disc. -/
lemma tangent_left (argsort : List ℤ → List ℕ) :
    projectedTangent (planeExt argsort) diag !₂[1, 0] (-!₂[1, 0]) (Real.pi * 0.5) = .ok !₂[0, -1] := by
  classical
  have hcos : Real.cos (Real.pi * 0.5) = 0 := by
    rw [show Real.pi * 0.5 = Real.pi / 2 by ring, Real.cos_pi_div_two]
  have hsin : Real.sin (Real.pi * 0.5) = 1 := by
    rw [show Real.pi * 0.5 = Real.pi / 2 by ring, Real.sin_pi_div_two]
  have hneg : (-1 : ℝ) • (-!₂[1, 0] : Vec 2) = !₂[1, 0] := by rw [neg_one_smul, neg_neg]
  have h1 : ⟪diag, (-1 : ℝ) • (!₂[1, 0] : Vec 2)⟫ = -(√2 / 2) := by
    simp [PiLp.inner_apply, Fin.sum_univ_two, diag]
  have ha : (planeExt argsort).angleOf !₂[1, 0] !₂[1, 0] = 0 := by
    ext i; fin_cases i; simp [planeExt]
  have hb : (planeExt argsort).angleOf !₂[1, 0] diag = !₂[-(Real.pi / 4)] := by
    ext i; fin_cases i
    simp [planeExt, PiLp.inner_apply, Fin.sum_univ_two, diag, arccos_half_sqrt]
    try rw [sign_neg (by have := diag_pos; linarith)]; simp
  unfold projectedTangent
  simp only
  rw [if_neg (by rw [h1, hcos]; have := diag_pos; linarith), hneg, ha, hb, sub_zero]
  have hn : ‖(!₂[-(Real.pi / 4)] : Vec 1)‖ ≠ 0 := by
    rw [norm_ne_zero_iff]
    intro h0
    have := congrArg (fun w : Vec 1 => w 0) h0
    simp at this
  rw [if_neg hn]
  have hr : Real.pi - Real.pi * 0.5 = Real.pi * 0.5 := by ring
  have hcf : (planeExt argsort).circleFar 0 (!₂[-(Real.pi / 4)]) (Real.pi - Real.pi * 0.5)
      = some !₂[-(Real.pi * 0.5)] := by
    change (if -(Real.pi / 4) > 0 then _ else if -(Real.pi / 4) < 0 then _ else _) = _
    rw [if_neg (by have := Real.pi_pos; linarith), if_pos (by have := Real.pi_pos; linarith), hr]
  rw [hcf]
  simp only
  congr 1
  ext i; fin_cases i <;> simp [planeExt, hcos, hsin]

/-- A disc that touches the origin, with the normal `e`. -/
lemma touch_facts {e : Vec 2} (he : ‖e‖ = 1) (tail : Bool) :
    (discAt (-e) tail).gamma 0 = 1 ∧ (discAt (-e) tail).normal 0 = e
      ∧ (discAt (-e) tail).reference 0 = -e
      ∧ ∀ n, SurfaceNormal (discAt (-e) tail) 0 n → n = e := by
  have h0 : (0 : Vec 2) = -e + (1 : ℝ) • e := by rw [one_smul, neg_add_cancel]
  obtain ⟨f1, f2, f3, _⟩ := discAt_facts (-e) tail (le_refl (1 : ℝ)) he
  refine ⟨by rw [h0]; exact f1, by rw [h0]; exact f2, by rw [h0]; exact f3, ?_⟩
  intro n hn
  rw [h0] at hn
  exact discAt_normal (-e) tail (le_refl _) he hn

lemma touch_tangent {ext : Ext 2 1} {e v τ₀ : Vec 2} (he : ‖e‖ = 1) (hτ : ‖τ₀‖ = 1) {radius : ℝ}
    (hp : projectedTangent ext v e (-e) radius = .ok τ₀) :
    HasTangent ext radius (discAt (-e) true) 0 v
      ∧ ∀ τ, TangentOf ext radius (discAt (-e) true) 0 v τ → τ = τ₀ := by
  have h0 : (0 : Vec 2) = -e + (1 : ℝ) • e := by rw [one_smul, neg_add_cancel]
  obtain ⟨f1, f2, f3, f4⟩ := touch_facts he true
  obtain ⟨_, _, _, g4, g5⟩ := discAt_facts (-e) true (le_refl (1 : ℝ)) he
  constructor
  · refine ⟨rfl, -e + e, ?_, ?_⟩
    · rw [h0]; exact g4
    · intro _
      rw [g5, f3]
      exact ⟨τ₀, hp, by rintro rfl; simp at hτ⟩
  · rintro τ ⟨n, τ', h1, h2, _, rfl⟩
    have := f4 n h1
    subst this
    have h2 := h2 (Or.inl rfl)
    rw [f3, hp] at h2
    cases h2
    exact unit_of_norm_one hτ

lemma low_norm : ‖(!₂[0, 1] : Vec 2)‖ = 1 := by simp [EuclideanSpace.norm_eq, Fin.sum_univ_two]
lemma left_norm : ‖(!₂[0, -1] : Vec 2)‖ = 1 := by simp [EuclideanSpace.norm_eq, Fin.sum_univ_two]

lemma not_opposite_of_inner {u τ : Vec 2} (hu : ‖u‖ = 1) (h : 0 < ⟪u, τ⟫) : ¬ Opposite u τ := by
  rintro ⟨c, hc, rfl⟩
  rw [real_inner_smul_right, real_inner_self_eq_norm_sq, hu] at h
  linarith

/-- Two discs in contact with the origin, with normals `(0, 1)` and `(1, 0)`. -/
noncomputable def cornerAvoider : Avoider 2 :=
  discsAvoider diag !₂[-(1 / 2), -(1 / 2)] [discTreeAt (-!₂[0, 1]) true, discTreeAt (-!₂[1, 0]) true]

lemma corner_single : SingleOutside 0 cornerAvoider.trees := by
  intro t ht
  have : t = discTreeAt (-!₂[0, 1]) true ∨ t = discTreeAt (-!₂[1, 0]) true := by
    simpa [cornerAvoider, discsAvoider] using ht
  rcases this with rfl | rfl
  · exact ⟨rfl, _, rfl, (touch_facts low_norm true).1.ge⟩
  · exact ⟨rfl, _, rfl, (touch_facts e_norm true).1.ge⟩

lemma corner_tangents (argsort : List ℤ → List ℕ) :
    (∀ t ∈ cornerAvoider.trees, ∀ o, t.components = [o] →
      HasTangent (planeExt argsort) (Real.pi * 0.5) o 0 diag)
    ∧ GoodTangents (planeExt argsort) (Real.pi * 0.5) 0 diag cornerAvoider.trees := by
  have hlow := touch_tangent low_norm e_norm (tangent_low argsort)
  have hleft := touch_tangent e_norm left_norm (tangent_left argsort)
  have hu : unit diag = diag := unit_of_norm_one diag_norm
  have hp := diag_pos
  have hs : (1 : ℝ) ≤ √2 := by rw [show (1 : ℝ) = √1 by simp]; exact Real.sqrt_le_sqrt (by norm_num)
  have key : ∀ t ∈ cornerAvoider.trees, ∀ o, t.components = [o] →
      HasTangent (planeExt argsort) (Real.pi * 0.5) o 0 diag
      ∧ ∀ τ, TangentOf (planeExt argsort) (Real.pi * 0.5) o 0 diag τ → τ = !₂[1, 0] ∨ τ = !₂[0, -1] := by
    intro t ht o ho
    have : t = discTreeAt (-!₂[0, 1]) true ∨ t = discTreeAt (-!₂[1, 0]) true := by
      simpa [cornerAvoider, discsAvoider] using ht
    rcases this with rfl | rfl
    · cases ho
      exact ⟨hlow.1, fun τ hτ => Or.inl (hlow.2 τ hτ)⟩
    · cases ho
      exact ⟨hleft.1, fun τ hτ => Or.inr (hleft.2 τ hτ)⟩
  refine ⟨fun t ht o ho => (key t ht o ho).1, ?_⟩
  intro t ht o ho τ hτ
  rw [hu]
  rcases (key t ht o ho).2 τ hτ with rfl | rfl
  · refine ⟨not_opposite_of_inner diag_norm ?_, Or.inr ?_⟩
    · simp [PiLp.inner_apply, Fin.sum_univ_two, diag]
    · intro h
      have := h 1
      unfold isclose at this
      simp [diag] at this
      rw [abs_of_nonneg hp.le] at this
      norm_num at this
      linarith
  · refine ⟨not_opposite_of_inner diag_norm ?_, Or.inr ?_⟩
    · simp [PiLp.inner_apply, Fin.sum_univ_two, diag]
    · intro h
      have := h 0
      unfold isclose at this
      simp [diag] at this
      rw [abs_of_nonneg hp.le] at this
      norm_num at this
      linarith

/-- C108 (mean, defined) is not vacuous: two discs in contact, both with a tangent other than the
direction of the motion. -/
example : ∃ (ext : Ext 2 1) (a : Avoider 2) (x v w : Vec 2) (pr : Prepared 2), 0 ≤ a.power
    ∧ ArgsortSpec ext.argsort ∧ ‖v‖ = 1 ∧ a.convergenceRadius ≤ Real.pi * 0.5
    ∧ SingleOutside x a.trees ∧ a.trees.length = 2
    ∧ (∀ t ∈ a.trees, ∀ o, t.components = [o] → HasTangent ext a.convergenceRadius o x v)
    ∧ GoodTangents ext a.convergenceRadius x v a.trees
    ∧ prepareAvoidance ext a x v = .ok pr ∧ avoidanceDirection ext pr = .ok w := by
  obtain ⟨argsort, has⟩ := argsort_exists
  obtain ⟨h1, h2⟩ := corner_tangents argsort
  have hp : (0 : ℝ) ≤ cornerAvoider.power := by norm_num [cornerAvoider, discsAvoider]
  obtain ⟨pr, w, h3, h4⟩ := C108_defined (planeExt argsort) cornerAvoider 0 diag hp has diag_norm
    (le_refl _) corner_single h1 h2
  exact ⟨planeExt argsort, cornerAvoider, 0, diag, w, pr, hp, has, diag_norm, le_refl _, corner_single,
    rfl, h1, h2, h3, h4⟩

/-- The logarithms of the two tangents cancel. -/
lemma corner_logs : sphereLog diag !₂[1, 0] + sphereLog diag !₂[0, -1] = 0 := by
  have hsq : √2 * √2 = 2 := Real.mul_self_sqrt (by norm_num)
  have h1 : ⟪diag, (!₂[1, 0] : Vec 2)⟫ = √2 / 2 := by
    simp [PiLp.inner_apply, Fin.sum_univ_two, diag]
  have h2 : ⟪diag, (!₂[0, -1] : Vec 2)⟫ = √2 / 2 := by
    simp [PiLp.inner_apply, Fin.sum_univ_two, diag]
  have ha : InnerProductGeometry.angle diag !₂[1, 0] = InnerProductGeometry.angle diag !₂[0, -1] := by
    unfold InnerProductGeometry.angle
    rw [h1, h2, e_norm, left_norm]
  have hd : (!₂[0, -1] : Vec 2) - (√2 / 2) • diag = -(!₂[1, 0] - (√2 / 2) • diag) := by
    ext i; fin_cases i <;> simp [diag] <;> nlinarith
  unfold sphereLog
  rw [h1, h2, ha, hd]
  have : ∀ y : Vec 2, unit (-y) = -unit y := by
    intro y; unfold unit; rw [norm_neg, smul_neg]
  rw [this, smul_neg, add_neg_cancel]

/-- What is prepared at the corner. -/
lemma corner_run {argsort : List ℤ → List ℕ} (has : ArgsortSpec argsort) {pr : Prepared 2}
    (h : prepareAvoidance (planeExt argsort) cornerAvoider 0 diag = .ok pr) :
    avoidanceDirection (planeExt argsort) pr = .ok diag ∧ pr.cluster = [1, 1]
      ∧ pr.normals = [!₂[0, 1], !₂[1, 0]]
      ∧ pr.slow = [(1, √2 / 2), (1, -(√2 / 2))] := by
  classical
  have hp : (0 : ℝ) ≤ cornerAvoider.power := by norm_num [cornerAvoider, discsAvoider]
  have hu : unit diag = diag := unit_of_norm_one diag_norm
  have hlow := touch_tangent low_norm e_norm (tangent_low argsort)
  have hleft := touch_tangent e_norm left_norm (tangent_left argsort)
  have f1 := touch_facts low_norm true
  have f2 := touch_facts e_norm true
  have htree : cornerAvoider.trees = [discTreeAt (-!₂[0, 1]) true, discTreeAt (-!₂[1, 0]) true] := rfl
  have hsane : SaneTrees cornerAvoider.trees := by
    intro t ht o ho
    have : t = discTreeAt (-!₂[0, 1]) true ∨ t = discTreeAt (-!₂[1, 0]) true := by
      simpa [cornerAvoider, discsAvoider] using ht
    rcases this with rfl | rfl
    · have : o = discAt (-!₂[0, 1]) true := by simpa [discTreeAt] using ho
      subst this; exact discAt_sane _ _
    · have : o = discAt (-!₂[1, 0]) true := by simpa [discTreeAt] using ho
      subst this; exact discAt_sane _ _
  obtain ⟨Ds, hD, _, hn, hsl, hcl, _⟩ := prepared_facts hp hsane h
  have hzip : cornerAvoider.trees.zipIdx
      = [(discTreeAt (-!₂[0, 1]) true, 0), (discTreeAt (-!₂[1, 0]) true, 1)] := rfl
  rw [hzip] at hD
  obtain ⟨D1, Ds1, hD1, hD', rfl⟩ := List.forall₂_cons_left_iff.mp hD
  obtain ⟨D2, Ds2, hD2, hD'', rfl⟩ := List.forall₂_cons_left_iff.mp hD'
  cases hD''
  obtain ⟨w1, s1, n1, m1, q1⟩ := contact_data hp rfl rfl f1.1.le hD1
  obtain ⟨w2, s2, n2, m2, q2⟩ := contact_data hp rfl rfl f2.1.le hD2
  rw [f1.2.2.2 n1 q1] at m1
  rw [f2.2.2.2 n2 q2] at m2
  have hlim : (getLimitedWeightsToMaxSum [(1 : ℝ), 1]).1 = [1, 1] := by
    unfold getLimitedWeightsToMaxSum
    rw [if_neg (by norm_num), if_pos ⟨1, by simp, le_refl _⟩]
    simp [indicator]
  refine ⟨?_, ?_, ?_, ?_⟩
  · obtain ⟨ws, τs, l1, l2, hd, hm⟩ := C108_mean_partial (planeExt argsort) cornerAvoider 0 diag pr hp
      has (le_refl _) corner_single (corner_tangents argsort).2 h
    rw [htree] at l1 l2
    obtain ⟨a1, a2, rfl⟩ := List.length_eq_two.mp l1
    obtain ⟨τ1, τ2, rfl⟩ := List.length_eq_two.mp l2
    have c1 := hd 0 _ _ _ _ rfl rfl rfl rfl
    have c2 := hd 1 _ _ _ _ rfl rfl rfl rfl
    have o1 : a1 = 1 := by
      obtain ⟨w', e1, _, _, e2, _⟩ := C32_range_partial (planeExt argsort).angleOf
        ((discAt (-!₂[0, 1]) true).normal 0) ((discAt (-!₂[0, 1]) true).reference 0) diag
        ((discAt (-!₂[0, 1]) true).gamma 0) (Real.pi * 0.5) cornerAvoider.power (Real.pi * 0.5) hp
      rw [c1.2.1] at e1
      cases e1
      exact e2 f1.1.le
    have o2 : a2 = 1 := by
      obtain ⟨w', e1, _, _, e2, _⟩ := C32_range_partial (planeExt argsort).angleOf
        ((discAt (-!₂[1, 0]) true).normal 0) ((discAt (-!₂[1, 0]) true).reference 0) diag
        ((discAt (-!₂[1, 0]) true).gamma 0) (Real.pi * 0.5) cornerAvoider.power (Real.pi * 0.5) hp
      rw [c2.2.1] at e1
      cases e1
      exact e2 f2.1.le
    subst o1 o2
    have t1 := hlow.2 _ (c1.2.2.1 one_pos)
    have t2 := hleft.2 _ (c2.2.2.1 one_pos)
    subst t1 t2
    rw [hm, hu, hlim]
    simp only [List.zipWith_cons_cons, List.zipWith_nil_right, List.sum_cons, List.sum_nil, add_zero,
      one_smul]
    rw [corner_logs, star_exp_zero]
  · rw [hcl]
    unfold clusterWeights
    simp only [stateOf, List.map_cons, List.map_nil, w1, w2, List.sum_cons, List.sum_nil, add_zero, hlim]
    simp [normalised]
  · rw [hn]; simp [m1, m2]
  · rw [hsl]
    simp only [List.map_cons, List.map_nil, s1, s2, diag_norm]
    have g1 : ⟪((1 : ℝ) / 1) • diag, (discAt (-!₂[0, 1]) true).reference 0⟫ = √2 / 2 := by
      rw [f1.2.2.1]; simp [PiLp.inner_apply, Fin.sum_univ_two, diag]
    have g2 : ⟪((1 : ℝ) / 1) • diag, (discAt (-!₂[1, 0]) true).reference 0⟫ = -(√2 / 2) := by
      rw [f2.2.2.1]; simp [PiLp.inner_apply, Fin.sum_univ_two, diag]
    rw [g1, g2]

/-- The run at the corner. -/
lemma corner_evaluate (argsort : List ℤ → List ℕ) (has : ArgsortSpec argsort) : ∃ w : Vec 2,
    SaneTrees cornerAvoider.trees ∧ (∀ t ∈ cornerAvoider.trees, Static t) ∧ cornerAvoider.magnitude 0 = 1
      ∧ cornerAvoider.evaluate (planeExt argsort) 0 = .ok w
      ∧ ⟪w, (discAt (-!₂[0, 1]) true).normal 0⟫ < -(1 / 5)
      ∧ (∀ pr, PreparedFor (planeExt argsort) cornerAvoider 0 pr →
        prepareAvoidance (planeExt argsort) cornerAvoider 0 diag = .ok pr) := by
  classical
  have hp : (0 : ℝ) ≤ cornerAvoider.power := by norm_num [cornerAvoider, discsAvoider]
  have f1 := touch_facts low_norm true
  have f2 := touch_facts e_norm true
  have hu : unit diag = diag := unit_of_norm_one diag_norm
  have hpos := diag_pos
  have hsq : √2 * √2 = 2 := Real.mul_self_sqrt (by norm_num)
  have hs1 : (1.414 : ℝ) ≤ √2 := by
    rw [show (1.414 : ℝ) = √(1.414 ^ 2) by rw [Real.sqrt_sq (by norm_num)]]
    exact Real.sqrt_le_sqrt (by norm_num)
  have hs2 : √2 ≤ 1.415 := by
    rw [show (1.415 : ℝ) = √(1.415 ^ 2) by rw [Real.sqrt_sq (by norm_num)]]
    exact Real.sqrt_le_sqrt (by norm_num)
  have htree : ∀ t ∈ cornerAvoider.trees,
      t = discTreeAt (-!₂[0, 1]) true ∨ t = discTreeAt (-!₂[1, 0]) true := by
    intro t ht; simpa [cornerAvoider, discsAvoider] using ht
  have hsane : SaneTrees cornerAvoider.trees := by
    intro t ht o ho
    rcases htree t ht with rfl | rfl
    · have : o = discAt (-!₂[0, 1]) true := by simpa [discTreeAt] using ho
      subst this; exact discAt_sane _ _
    · have : o = discAt (-!₂[1, 0]) true := by simpa [discTreeAt] using ho
      subst this; exact discAt_sane _ _
  have hstatic : ∀ t ∈ cornerAvoider.trees, Static t := by
    intro t ht
    rcases htree t ht with rfl | rfl <;> exact ⟨rfl, rfl⟩
  set b : Vec 2 := !₂[-(1 / 2), -(1 / 2)] with hb
  have href : referenceDirection 0 cornerAvoider.initial none = b := by
    ext i; fin_cases i <;> simp [referenceDirection, cornerAvoider, discsAvoider, hb]
  have hbn : ‖b‖ = √2 / 2 := by
    rw [EuclideanSpace.norm_eq, Fin.sum_univ_two]
    simp [hb]
    rw [show ((2 : ℝ) ^ 2)⁻¹ + (2 ^ 2)⁻¹ = (√2 / 2) ^ 2 by rw [div_pow, Real.sq_sqrt (by norm_num)]; norm_num]
    exact Real.sqrt_sq hpos.le
  have hbd : ⟪b, diag⟫ = 0 := by simp [PiLp.inner_apply, Fin.sum_univ_two, diag, hb]
  have hopp : ¬ Opposite b diag := by
    rintro ⟨c, hc, h0⟩
    rw [h0, real_inner_smul_right, real_inner_self_eq_norm_sq, hbn] at hbd
    have : 0 < c * (√2 / 2) ^ 2 := by positivity
    linarith
  have hseq : ∃ s, evaluateDynamicsSequence 0 cornerAvoider.initial = .ok (some s) := by
    cases hs : evaluateDynamicsSequence 0 cornerAvoider.initial with
    | error er =>
      rcases ((C16_error_iff 0 cornerAvoider.initial none rfl er).mp hs).2.2.2 with h | h | h
      · rw [href, hbn] at h; norm_num at h; linarith
      · change ‖diag‖ ≤ _ at h
        rw [diag_norm] at h; norm_num at h
      · rw [href] at h; exact absurd h hopp
    | ok s =>
      cases s with
      | none =>
        rcases (C16_none_iff 0 cornerAvoider.initial none rfl).mp hs with h | h
        · rw [href] at h; rw [h, norm_zero] at hbn; linarith
        · change diag = 0 at h
          have := diag_norm; rw [h] at this; simp at this
      | some s => exact ⟨s, rfl⟩
  obtain ⟨s, hs⟩ := hseq
  have hdist : Distinguishable [referenceDirection 0 cornerAvoider.initial none,
      cornerAvoider.initial.evaluate 0] := by
    rw [href]
    refine List.isChain_pair.mpr (Or.inr ?_)
    intro hcl
    have := hcl 0
    change isclose (((1 / ‖b‖) • b) 0) (((1 / ‖diag‖) • diag) 0) at this
    rw [hbn, diag_norm] at this
    have hb0 : ((1 / (√2 / 2)) • b) 0 = -(1 / (√2 / 2) * (1 / 2)) := by
      simp [hb]
    have hd0 : (((1 : ℝ) / 1) • diag) 0 = √2 / 2 := by simp [diag]
    rw [hb0, hd0] at this
    unfold isclose at this
    have hA : 0 < 1 / (√2 / 2) * (1 / 2) := by positivity
    rw [abs_of_neg (by linarith), abs_of_pos hpos] at this
    norm_num at this
    linarith
  have hin : ∀ t ∈ cornerAvoider.trees, InContact b t := by
    intro t ht
    rcases htree t ht with rfl | rfl
    · refine ⟨discAt (-!₂[0, 1]) true, by simp [discTreeAt], ?_⟩
      change ‖b - -!₂[0, 1]‖ ≤ 1
      rw [EuclideanSpace.norm_eq, Fin.sum_univ_two]
      simp [hb]
      norm_num
    · refine ⟨discAt (-!₂[1, 0]) true, by simp [discTreeAt], ?_⟩
      change ‖b - -!₂[1, 0]‖ ≤ 1
      rw [EuclideanSpace.norm_eq, Fin.sum_univ_two]
      simp [hb]
      norm_num
  obtain ⟨conv, hc1, hc2⟩ := C62_attractor_inside (planeExt argsort) cornerAvoider 0 b rfl rfl hin has
    hdist s hs
  have hc2' : conv.getEndVector = .ok diag := by rw [hc2]; congr 1
  obtain ⟨pr, hpr⟩ := total_prepare (ext := planeExt argsort) hp (le_refl _) diag_norm corner_single
    (corner_tangents argsort).1
  obtain ⟨r1, r2, r3, r4⟩ := corner_run has hpr
  have hrel := C60_static 0 cornerAvoider.trees hstatic (by
    intro t ht
    rcases htree t ht with rfl | rfl <;> simp [discTreeAt])
  set κ : ℝ := (1 - √2 / 2) ^ (0.2 : ℝ) with hκ
  have hκ1 : 1 - √2 / 2 ≤ κ := by
    rw [hκ]
    conv_lhs => rw [← Real.rpow_one (1 - √2 / 2)]
    exact Real.rpow_le_rpow_of_exponent_ge (by linarith) (by linarith) (by norm_num)
  have hκ2 : κ ≤ 1 := Real.rpow_le_one (by linarith) (by linarith) (by norm_num)
  have hmag : cornerAvoider.magnitude 0 = 1 := diag_norm
  have hslow : slowDown 1 0 diag pr = .ok (κ • diag) := by
    unfold slowDown
    rw [r2, r3, r4]
    have hmax : ([1, 1] : List ℝ).max? = some 1 := by simp [List.max?]
    rw [hmax]
    simp only
    refine bind_ok.mpr ⟨1, ?_, bind_ok.mpr ⟨κ, ?_, ?_⟩⟩
    · unfold computeSafeScaling
      rw [if_neg (by rw [diag_norm]; norm_num)]
      have hdot : ⟪diag, (List.zipWith (fun (n : Vec 2) (w : ℝ) => w • n) [!₂[0, 1], !₂[1, 0]] [1, 1]).sum⟫ = 0 := by
        simp [PiLp.inner_apply, Fin.sum_univ_two, diag]
      simp only [hdot]
      split_ifs <;> first | rfl | (exfalso; norm_num at *)
    · unfold slowfactorFromConvergence
      have : ([(1, √2 / 2), (1, -(√2 / 2))] : List (ℝ × ℝ)).mapM (fun p =>
          if p.1 > 0 ∧ 0 < p.2 then npPow ((1 - p.2) / p.1) 0.2 else some 1) = some [κ, 1] := by
        simp only [List.mapM_cons, List.mapM_nil]
        rw [if_pos ⟨one_pos, hpos⟩, if_neg (by rintro ⟨_, h⟩; linarith)]
        unfold npPow
        rw [if_neg (by rintro ⟨h, _⟩; rw [div_one] at h; linarith), if_neg (by rintro ⟨_, h⟩; norm_num at h),
          div_one]
        rfl
      rw [this]
      simp [List.min?, hκ2]
    · rw [if_neg (by rw [diag_norm]; norm_num), diag_norm, min_eq_left hκ2]
      simp
  refine ⟨κ • diag, hsane, hstatic, hmag, ?_, ?_, ?_⟩
  · unfold Avoider.evaluate evaluateSequence
    refine bind_ok.mpr ⟨_, hs, ?_⟩
    simp only
    rw [if_neg (by simp [cornerAvoider, discsAvoider])]
    refine bind_ok.mpr ⟨0, hrel, bind_ok.mpr ⟨conv, hc1, bind_ok.mpr ⟨_, hc2',
      bind_ok.mpr ⟨pr, hpr, bind_ok.mpr ⟨diag, r1, ?_⟩⟩⟩⟩⟩
    rw [hmag]; exact hslow
  · rw [f1.2.1, real_inner_smul_left]
    have : ⟪diag, (!₂[0, 1] : Vec 2)⟫ = -(√2 / 2) := by
      simp [PiLp.inner_apply, Fin.sum_univ_two, diag]
    rw [this]
    nlinarith
  · rintro pr' ⟨s', conv', v', e1, e2, e3, e4⟩
    rw [hs] at e1; cases e1
    rw [hc1] at e2; cases e2
    rw [hc2'] at e3; cases e3
    exact e4

/-- C61, negative result (violated with two obstacles in contact): at the corner of two static discs
the tangent directions cancel in the mean, and the averaged normal does not detect the penetration:
the velocity points into one of the discs with more than a fifth of the magnitude of the initial
dynamics. -/
theorem C61_two_contacts : ∃ (ext : Ext 2 1) (a : Avoider 2) (x w : Vec 2) (t t' : ObstacleTree 2)
    (o o' : Obstacle 2), SaneTrees a.trees ∧ (∀ t ∈ a.trees, Static t) ∧ ArgsortSpec ext.argsort
      ∧ a.trees = [t, t'] ∧ t.components = [o] ∧ t'.components = [o'] ∧ o.gamma x = 1 ∧ o'.gamma x = 1
      ∧ a.magnitude x = 1 ∧ a.evaluate ext x = .ok w ∧ ⟪w, o.normal x⟫ < -(1 / 5) := by
  obtain ⟨argsort, has⟩ := argsort_exists
  obtain ⟨w, hsane, hstatic, hmag, h1, h2, _⟩ := corner_evaluate argsort has
  exact ⟨planeExt argsort, cornerAvoider, 0, w, _, _, _, _, hsane, hstatic, has, rfl, rfl, rfl,
    (touch_facts low_norm true).1, (touch_facts e_norm true).1, hmag, h1, h2⟩


/-- A disc behind, at the distance ten from the origin, without tail effect. -/
lemma far_facts {ext : Ext 2 1} {v : Vec 2} (hv : ‖v‖ = 1) (h : 0 ≤ ⟪(!₂[1, 0] : Vec 2), v⟫)
    {radius : ℝ} :
    (discAt (-((10 : ℝ) • !₂[1, 0])) false).gamma 0 = 10
      ∧ (discAt (-((10 : ℝ) • !₂[1, 0])) false).normal 0 = !₂[1, 0]
      ∧ (discAt (-((10 : ℝ) • !₂[1, 0])) false).reference 0 = -!₂[1, 0]
      ∧ HasTangent ext radius (discAt (-((10 : ℝ) • !₂[1, 0])) false) 0 v
      ∧ ∀ τ, TangentOf ext radius (discAt (-((10 : ℝ) • !₂[1, 0])) false) 0 v τ → τ = v := by
  set c : Vec 2 := -((10 : ℝ) • !₂[1, 0]) with hc
  have h0 : (0 : Vec 2) = c + (10 : ℝ) • !₂[1, 0] := by rw [hc, neg_add_cancel]
  obtain ⟨f1, f2, f3, f4, f5⟩ := discAt_facts c false (show (1 : ℝ) ≤ 10 by norm_num) e_norm
  rw [← h0] at f1 f2 f3 f4
  have hno : ¬ ((discAt c false).tailEffect = true ∨ ⟪(!₂[1, 0] : Vec 2), v⟫ < 0) := by
    rintro (h1 | h1)
    · cases h1
    · linarith
  refine ⟨f1, f2, f3, ⟨rfl, _, f4, ?_⟩, ?_⟩
  · rw [f5]; intro h1; exact absurd h1 hno
  · rintro τ ⟨n, τ', h1, _, h3, rfl⟩
    have hn : n = !₂[1, 0] := by
      obtain ⟨s, g1, g2, _⟩ := h1
      rw [f4] at g1
      cases g1
      rw [g2 rfl, f5]
    subst hn
    rw [h3 hno]
    exact unit_of_norm_one hv

lemma self_good {u : Vec 2} (hu : ‖u‖ = 1) : ¬ Opposite u u ∧ (u = u ∨ ¬ allclose u u) :=
  ⟨not_opposite_of_inner hu (by rw [real_inner_self_eq_norm_sq, hu]; norm_num), Or.inl rfl⟩

/-- A disc in contact, with a tangent other than the direction of the motion, and another disc behind. -/
lemma contact_run : ∃ (argsort : List ℤ → List ℕ) (a : Avoider 2) (w : Vec 2) (pr : Prepared 2)
    (t : ObstacleTree 2), 0 ≤ a.power ∧ ArgsortSpec (planeExt argsort).argsort
    ∧ a.convergenceRadius = Real.pi * 0.5
    ∧ SingleOutside 0 a.trees ∧ GoodTangents (planeExt argsort) a.convergenceRadius 0 diag a.trees
    ∧ (∀ t ∈ a.trees, ∀ o, t.components = [o] → ∀ τ,
      TangentOf (planeExt argsort) a.convergenceRadius o 0 diag τ → τ ≠ 0)
    ∧ prepareAvoidance (planeExt argsort) a 0 diag = .ok pr ∧ avoidanceDirection (planeExt argsort) pr = .ok w
    ∧ a.trees[0]? = some t ∧ t.components = [discAt (-!₂[0, 1]) true]
    ∧ (discAt (-!₂[0, 1]) true).gamma 0 = 1 ∧ a.trees.length = 2
    ∧ (∀ (j : ℕ) t' o', j ≠ 0 → a.trees[j]? = some t' → t'.components = [o'] → 1 < o'.gamma 0)
    ∧ w ≠ diag := by
  obtain ⟨argsort, has⟩ := argsort_exists
  set A := discTreeAt (-!₂[0, 1]) true with hA
  set C := discTreeAt (-((10 : ℝ) • !₂[1, 0])) false with hC
  set a := discsAvoider diag 0 [A, C] with ha
  have hdir : 0 ≤ ⟪(!₂[1, 0] : Vec 2), diag⟫ := by
    have := diag_pos
    simp [PiLp.inner_apply, Fin.sum_univ_two, diag]
    exact this.le
  have hlow := touch_tangent low_norm e_norm (tangent_low argsort)
  have fl := touch_facts low_norm true
  have ff := far_facts (ext := planeExt argsort) (radius := Real.pi * 0.5) diag_norm hdir
  have hcases : ∀ t ∈ a.trees, t = A ∨ t = C := by
    intro t ht; simpa [ha, discsAvoider] using ht
  have hp : (0 : ℝ) ≤ a.power := by norm_num [ha, discsAvoider]
  have hsingle : SingleOutside 0 a.trees := by
    intro t ht
    rcases hcases t ht with rfl | rfl
    · exact ⟨rfl, _, rfl, fl.1.ge⟩
    · exact ⟨rfl, _, rfl, by rw [ff.1]; norm_num⟩
  have hT : ∀ t ∈ a.trees, ∀ o, t.components = [o] →
      HasTangent (planeExt argsort) (Real.pi * 0.5) o 0 diag := by
    intro t ht o ho
    rcases hcases t ht with rfl | rfl
    · cases ho; exact hlow.1
    · cases ho; exact ff.2.2.2.1
  have hgood : GoodTangents (planeExt argsort) (Real.pi * 0.5) 0 diag a.trees := by
    intro t ht o ho τ hτ
    rcases hcases t ht with rfl | rfl
    · exact (corner_tangents argsort).2 A (by simp [cornerAvoider, discsAvoider, hA]) o ho τ hτ
    · cases ho
      rw [ff.2.2.2.2 τ hτ, unit_of_norm_one diag_norm]
      exact self_good diag_norm
  have hnz : ∀ t ∈ a.trees, ∀ o, t.components = [o] → ∀ τ,
      TangentOf (planeExt argsort) (Real.pi * 0.5) o 0 diag τ → τ ≠ 0 := by
    intro t ht o ho τ hτ
    rcases hcases t ht with rfl | rfl
    · cases ho
      rw [hlow.2 τ hτ]
      intro h; have := e_norm; rw [h] at this; simp at this
    · cases ho
      rw [ff.2.2.2.2 τ hτ]
      intro h; have := diag_norm; rw [h] at this; simp at this
  obtain ⟨pr, w, h3, h4⟩ := C108_defined (planeExt argsort) a 0 diag hp has diag_norm
    (le_refl _) hsingle hT hgood
  have honly : ∀ (j : ℕ) t' o', j ≠ 0 → a.trees[j]? = some t' → t'.components = [o'] →
      1 < o'.gamma (0 : Vec 2) := by
    intro j t' o' hj ht' ho'
    have htr : a.trees = [A, C] := rfl
    rw [htr] at ht'
    match j, hj with
    | 1, _ =>
      have : t' = C := by simpa using ht'.symm
      subst this
      cases ho'
      rw [ff.1]; norm_num
    | j + 2, _ => simp at ht'
  refine ⟨argsort, a, w, pr, A, hp, has, rfl, hsingle, hgood, hnz, h3, h4,
    rfl, rfl, fl.1, rfl, honly, ?_⟩
  have := C108_contact (planeExt argsort) a 0 diag w pr hp has (le_refl _) hsingle hgood hnz h3 h4 0 A _
    rfl rfl fl.1 honly
  rw [hlow.2 w this]
  intro h0
  have := congrArg (fun y : Vec 2 => y 1) h0
  simp [diag] at this

/-- C108 (contact) is not vacuous. -/
example : ∃ (ext : Ext 2 1) (a : Avoider 2) (x v w : Vec 2) (pr : Prepared 2) (t : ObstacleTree 2)
    (o : Obstacle 2), 0 ≤ a.power ∧ ArgsortSpec ext.argsort ∧ a.convergenceRadius ≤ Real.pi * 0.5
    ∧ SingleOutside x a.trees ∧ GoodTangents ext a.convergenceRadius x v a.trees
    ∧ (∀ t ∈ a.trees, ∀ o, t.components = [o] → ∀ τ, TangentOf ext a.convergenceRadius o x v τ → τ ≠ 0)
    ∧ prepareAvoidance ext a x v = .ok pr ∧ avoidanceDirection ext pr = .ok w
    ∧ a.trees[0]? = some t ∧ t.components = [o] ∧ o.gamma x = 1 ∧ a.trees.length = 2
    ∧ (∀ (j : ℕ) t' o', j ≠ 0 → a.trees[j]? = some t' → t'.components = [o'] → 1 < o'.gamma x)
    ∧ w ≠ v := by
  obtain ⟨argsort, a, w, pr, t, h1, h2, h3, h⟩ := contact_run
  exact ⟨planeExt argsort, a, 0, diag, w, pr, t, _, h1, h2, h3.le, h⟩

/-- C108 (unchanged) is not vacuous: moving straight away from a disc. -/
example : ∃ (ext : Ext 2 1) (a : Avoider 2) (x v w : Vec 2) (pr : Prepared 2), 0 ≤ a.power
    ∧ ArgsortSpec ext.argsort ∧ a.convergenceRadius ≤ Real.pi * 0.5 ∧ a.trees ≠ []
    ∧ SingleOutside x a.trees ∧ GoodTangents ext a.convergenceRadius x v a.trees
    ∧ prepareAvoidance ext a x v = .ok pr ∧ avoidanceDirection ext pr = .ok w
    ∧ (∀ t ∈ a.trees, ∀ o, t.components = [o] →
      getRotationWeight ext.angleOf (o.normal x) (o.reference x) v (o.gamma x) (power := a.power) = .ok 0) := by
  classical
  obtain ⟨argsort, has⟩ := argsort_exists
  set C := discTreeAt (-((10 : ℝ) • !₂[1, 0])) false with hC
  set a := discsAvoider !₂[1, 0] 0 [C] with ha
  have hdir : ⟪(!₂[1, 0] : Vec 2), !₂[1, 0]⟫ = 1 := by
    rw [real_inner_self_eq_norm_sq, e_norm, one_pow]
  have ff := far_facts (ext := planeExt argsort) (radius := Real.pi * 0.5) e_norm (by rw [hdir]; norm_num)
  have hcases : ∀ t ∈ a.trees, t = C := by
    intro t ht; simpa [ha, discsAvoider] using ht
  have hp : (0 : ℝ) ≤ a.power := by norm_num [ha, discsAvoider]
  have hsingle : SingleOutside 0 a.trees := by
    intro t ht
    rw [hcases t ht]
    exact ⟨rfl, _, rfl, by rw [ff.1]; norm_num⟩
  have hT : ∀ t ∈ a.trees, ∀ o, t.components = [o] →
      HasTangent (planeExt argsort) (Real.pi * 0.5) o 0 !₂[1, 0] := by
    intro t ht o ho
    rw [hcases t ht] at ho
    cases ho; exact ff.2.2.2.1
  have hgood : GoodTangents (planeExt argsort) (Real.pi * 0.5) 0 !₂[1, 0] a.trees := by
    intro t ht o ho τ hτ
    rw [hcases t ht] at ho
    cases ho
    rw [ff.2.2.2.2 τ hτ, unit_of_norm_one e_norm]
    exact self_good e_norm
  obtain ⟨pr, w, h3, h4⟩ := C108_defined (planeExt argsort) a 0 !₂[1, 0] hp has e_norm
    (le_refl _) hsingle hT hgood
  refine ⟨planeExt argsort, a, 0, !₂[1, 0], w, pr, hp, has, le_refl _, by simp [ha, discsAvoider],
    hsingle, hgood, h3, h4, ?_⟩
  intro t ht o ho
  rw [hcases t ht] at ho
  cases ho
  have hcos : Real.cos (Real.pi * 0.5) = 0 := by
    rw [show Real.pi * 0.5 = Real.pi / 2 by ring, Real.cos_pi_div_two]
  have hang : (planeExt argsort).angleOf !₂[1, 0] !₂[1, 0] = 0 := by
    ext i; fin_cases i; simp [planeExt]
  unfold getRotationWeight
  rw [ff.1, ff.2.1, ff.2.2.1, if_neg (by norm_num), hdir, hcos]
  simp only [gt_iff_lt, zero_lt_one, if_true, neg_one_smul, neg_neg, hang, sub_self, norm_zero]
  rw [if_neg (by rw [min_self]; have := Real.pi_pos; norm_num; linarith),
    if_pos (by norm_num [ha, discsAvoider])]

/-- C108 (turn) is not vacuous: both tangents of the corner deviate by a quarter of the half turn. -/
example : ∃ (ext : Ext 2 1) (a : Avoider 2) (x v w : Vec 2) (pr : Prepared 2), 0 ≤ a.power
    ∧ ArgsortSpec ext.argsort ∧ a.convergenceRadius ≤ Real.pi * 0.5
    ∧ SingleOutside x a.trees ∧ a.trees.length = 2
    ∧ GoodTangents ext a.convergenceRadius x v a.trees
    ∧ prepareAvoidance ext a x v = .ok pr ∧ avoidanceDirection ext pr = .ok w
    ∧ (∀ t ∈ a.trees, ∀ o, t.components = [o] → ∀ τ,
      TangentOf ext a.convergenceRadius o x v τ → InnerProductGeometry.angle v τ ≤ Real.pi / 4) := by
  obtain ⟨argsort, has⟩ := argsort_exists
  obtain ⟨h1, h2⟩ := corner_tangents argsort
  have hp : (0 : ℝ) ≤ cornerAvoider.power := by norm_num [cornerAvoider, discsAvoider]
  obtain ⟨pr, w, h3, h4⟩ := C108_defined (planeExt argsort) cornerAvoider 0 diag hp has diag_norm
    (le_refl _) corner_single h1 h2
  refine ⟨planeExt argsort, cornerAvoider, 0, diag, w, pr, hp, has, le_refl _, corner_single,
    rfl, h2, h3, h4, ?_⟩
  have hlow := touch_tangent low_norm e_norm (tangent_low argsort)
  have hleft := touch_tangent e_norm left_norm (tangent_left argsort)
  intro t ht o ho τ hτ
  have : t = discTreeAt (-!₂[0, 1]) true ∨ t = discTreeAt (-!₂[1, 0]) true := by
    simpa [cornerAvoider, discsAvoider] using ht
  unfold InnerProductGeometry.angle
  rcases this with rfl | rfl
  · cases ho
    rw [hlow.2 τ hτ, diag_norm, e_norm, mul_one, div_one,
      show ⟪diag, (!₂[1, 0] : Vec 2)⟫ = √2 / 2 by simp [PiLp.inner_apply, Fin.sum_univ_two, diag],
      arccos_half_sqrt]
  · cases ho
    rw [hleft.2 τ hτ, diag_norm, left_norm, mul_one, div_one,
      show ⟪diag, (!₂[0, -1] : Vec 2)⟫ = √2 / 2 by simp [PiLp.inner_apply, Fin.sum_univ_two, diag],
      arccos_half_sqrt]

end Verif
