import Verif.Model.Utils
import Verif.Model.Obstacle
import Mathlib.LinearAlgebra.Span.Basic
import Mathlib.Analysis.InnerProductSpace.Basic

/-!
# C58, C84: projection on a ray, spanning basis, descent to a common point
-/

open scoped RealInnerProductSpace

namespace Verif

open Utils

variable {d : ℕ}

/-! ### C58 -/

/-- **C58** The result is a point of the ray, and no point of the ray is closer. -/
theorem C58_ray (point start other : Vec d) :
    (∃ t : ℝ, 0 ≤ t ∧ projectPointOntoRay point start other = start + t • (other - start))
    ∧ ∀ t : ℝ, 0 ≤ t →
      ‖projectPointOntoRay point start other - point‖ ≤ ‖start + t • (other - start) - point‖ := by
  classical
  unfold projectPointOntoRay
  set r := other - start with hr
  by_cases h0 : ‖r‖ = 0
  · rw [if_pos h0]
    rw [norm_eq_zero] at h0
    rw [h0]
    exact ⟨⟨0, le_rfl, by simp⟩, fun t _ => by simp⟩
  rw [if_neg h0]
  have hpos : 0 < ‖r‖ := lt_of_le_of_ne (norm_nonneg _) (Ne.symm h0)
  set e : Vec d := (‖r‖)⁻¹ • r with he
  have hne : ‖e‖ = 1 := by rw [he, norm_smul, norm_inv, norm_norm, inv_mul_cancel₀ h0]
  have hre : r = ‖r‖ • e := by rw [he, smul_smul, mul_inv_cancel₀ h0, one_smul]
  set q := point - start with hq
  have hkey : ∀ s : ℝ, ‖start + s • e - point‖ ^ 2 = s ^ 2 - 2 * s * ⟪e, q⟫ + ‖q‖ ^ 2 := by
    intro s
    have : start + s • e - point = s • e - q := by rw [hq]; abel
    rw [this, norm_sub_sq_real, norm_smul, hne, inner_smul_left]
    simp
    ring
  by_cases hle : ⟪e, q⟫ ≤ 0
  · rw [if_pos hle]
    refine ⟨⟨0, le_rfl, by simp⟩, ?_⟩
    intro t ht
    have h1 := hkey 0
    have h2 := hkey (t * ‖r‖)
    rw [zero_smul, add_zero] at h1
    rw [mul_smul, ← hre] at h2
    apply le_of_sq_le_sq ?_ (norm_nonneg _)
    rw [h1, h2]
    have : 0 ≤ t * ‖r‖ := by positivity
    nlinarith
  · rw [if_neg hle]
    push Not at hle
    refine ⟨⟨⟪e, q⟫ / ‖r‖, by positivity, ?_⟩, ?_⟩
    · have : (⟪e, q⟫ / ‖r‖) • r = ⟪e, q⟫ • e := by
        rw [hre, smul_smul, norm_smul, hne, norm_norm, mul_one, div_mul_cancel₀ _ h0]
      rw [this, add_comm]
    · intro t ht
      have h1 := hkey ⟪e, q⟫
      have h2 := hkey (t * ‖r‖)
      rw [mul_smul, ← hre] at h2
      rw [add_comm (⟪e, q⟫ • e) start]
      apply le_of_sq_le_sq ?_ (norm_nonneg _)
      rw [h1, h2]
      nlinarith [sq_nonneg (t * ‖r‖ - ⟪e, q⟫)]

lemma headNorm_sq {v : Vec d} (h : 2 ≤ d) :
    headNorm v ^ 2 = v ⟨0, by omega⟩ ^ 2 + v ⟨1, by omega⟩ ^ 2 := by
  unfold headNorm
  rw [Real.sq_sqrt (Finset.sum_nonneg fun i _ => sq_nonneg _)]
  have : Finset.univ.filter (fun i : Fin d => i.val < 2)
      = {(⟨0, by omega⟩ : Fin d), (⟨1, by omega⟩ : Fin d)} := by
    ext i
    simp [Fin.ext_iff]
    omega
  rw [this, Finset.sum_pair (by simp [Fin.ext_iff])]

lemma sum_two {h : 2 ≤ d} (f : Fin d → ℝ) (hf : ∀ i : Fin d, 2 ≤ i.val → f i = 0) :
    ∑ i, f i = f ⟨0, by omega⟩ + f ⟨1, by omega⟩ := by
  rw [← Finset.sum_pair (f := f) (a := (⟨0, by omega⟩ : Fin d)) (b := ⟨1, by omega⟩)
    (by simp [Fin.ext_iff])]
  symm
  apply Finset.sum_subset (Finset.subset_univ _)
  intro i _ hi
  apply hf
  simp [Fin.ext_iff] at hi
  omega

lemma fallback_spec (h : 2 ≤ d) (v : Vec d) :
    ∃ p, fallback v = .ok p ∧ ‖p‖ = 1 ∧ ⟪v, p⟫ = 0 := by
  classical
  unfold fallback
  rw [dif_pos h]
  by_cases h0 : headNorm v = 0
  · rw [if_pos h0]
    refine ⟨_, rfl, by simp, ?_⟩
    have hsq := headNorm_sq (v := v) h
    rw [h0] at hsq
    have : v ⟨0, by omega⟩ = 0 := by nlinarith [sq_nonneg (v ⟨0, by omega⟩), sq_nonneg (v ⟨1, by omega⟩)]
    simp [EuclideanSpace.inner_single_right, this]
  · rw [if_neg h0]
    set u : Vec d := WithLp.toLp 2 (fun i : Fin d =>
      if i.val = 0 then v ⟨1, by omega⟩ else if i.val = 1 then v ⟨0, by omega⟩ * (-1) else 0) with hu
    have hsq := headNorm_sq (v := v) h
    have hu2 : ‖u‖ ^ 2 = headNorm v ^ 2 := by
      rw [EuclideanSpace.norm_sq_eq, sum_two (h := h) _ (by
        intro i hi
        simp [hu, show i.val ≠ 0 by omega, show i.val ≠ 1 by omega]), hsq]
      simp [hu]
      ring
    have hun : ‖u‖ = headNorm v := by
      have h1 : 0 ≤ headNorm v := Real.sqrt_nonneg _
      rw [← abs_of_nonneg h1, ← abs_of_nonneg (norm_nonneg u)]
      exact sq_eq_sq_iff_abs_eq_abs _ _ |>.mp hu2
    refine ⟨_, rfl, ?_, ?_⟩
    · have h1 : 0 ≤ headNorm v := Real.sqrt_nonneg _
      rw [norm_smul, norm_inv, hun, Real.norm_eq_abs, abs_of_nonneg h1]
      exact inv_mul_cancel₀ h0
    · rw [inner_smul_right]
      have : ⟪v, u⟫ = 0 := by
        rw [PiLp.inner_apply, sum_two (h := h) _ (by
          intro i hi
          simp [hu, show i.val ≠ 0 by omega, show i.val ≠ 1 by omega])]
        simp [hu]
        ring
      rw [this, mul_zero]

/-- **C58** For unit vectors (dimension two or more) the call succeeds; the result is an orthonormal
pair that starts with the first vector and whose span contains the second one. -/
theorem C58_basis (hd : 2 ≤ d) (v1 v2 : Vec d) (h1 : ‖v1‖ = 1) (h2 : ‖v2‖ = 1) :
    ∃ u, getOrthonormalSpanningBasis v1 v2 = .ok (v1, u) ∧ ‖u‖ = 1 ∧ ⟪v1, u⟫ = 0
      ∧ v2 ∈ Submodule.span ℝ {v1, u} := by
  classical
  unfold getOrthonormalSpanningBasis
  by_cases hdot : |⟪v1, v2⟫| < 1
  · rw [if_pos hdot]
    set q := v2 - ⟪v1, v2⟫ • v1 with hq
    have hq2 : ‖q‖ ^ 2 = 1 - ⟪v1, v2⟫ ^ 2 := by
      rw [hq, norm_sub_sq_real, norm_smul, h1, h2, inner_smul_right, real_inner_comm v1 v2]
      simp
      ring
    have hne : ‖q‖ ≠ 0 := by
      intro h0
      rw [h0] at hq2
      rw [abs_lt] at hdot
      nlinarith
    rw [if_neg hne]
    refine ⟨_, rfl, ?_, ?_, ?_⟩
    · rw [norm_smul, norm_inv, norm_norm, inv_mul_cancel₀ hne]
    · rw [inner_smul_right, hq, inner_sub_right, inner_smul_right, real_inner_self_eq_norm_sq, h1]
      simp
    · have : v2 = ⟪v1, v2⟫ • v1 + ‖q‖ • ((‖q‖)⁻¹ • q) := by
        rw [smul_smul, mul_inv_cancel₀ hne, one_smul, hq]; abel
      rw [Submodule.mem_span_pair]
      exact ⟨_, _, this.symm⟩
  · rw [if_neg hdot]
    obtain ⟨p, hp, hp1, hp2⟩ := fallback_spec hd v1
    rw [hp]
    refine ⟨p, rfl, hp1, hp2, ?_⟩
    have hle := abs_real_inner_le_norm v1 v2
    rw [h1, h2, mul_one] at hle
    have habs : |⟪v1, v2⟫| = 1 := le_antisymm hle (not_lt.mp hdot)
    have hsq : ⟪v1, v2⟫ ^ 2 = 1 := by rw [← sq_abs, habs]; norm_num
    have hz : ‖v2 - ⟪v1, v2⟫ • v1‖ ^ 2 = 0 := by
      rw [norm_sub_sq_real, norm_smul, h1, h2, inner_smul_right, real_inner_comm v1 v2]
      simp
      nlinarith
    have hz' : v2 - ⟪v1, v2⟫ • v1 = 0 := by
      rw [← norm_eq_zero]; exact pow_eq_zero_iff (by norm_num) |>.mp hz
    rw [Submodule.mem_span_pair]
    exact ⟨⟪v1, v2⟫, 0, by rw [zero_smul, add_zero]; exact (sub_eq_zero.mp hz').symm⟩

/-- **C58** In dimension one the vectors are parallel and the call raises `IndexError`. -/
theorem C58_line (v1 v2 : Vec 1) (h1 : ‖v1‖ = 1) (h2 : ‖v2‖ = 1) :
    getOrthonormalSpanningBasis v1 v2 = .error .indexError := by
  classical
  have hsq : ∀ v : Vec 1, ‖v‖ = 1 → |v 0| = 1 := by
    intro v hv
    have := EuclideanSpace.norm_eq v
    rw [hv] at this
    simpa [Real.sqrt_sq_eq_abs] using this.symm
  have hin : |⟪v1, v2⟫| = 1 := by
    rw [PiLp.inner_apply]
    simp [abs_mul, hsq v1 h1, hsq v2 h2]
  unfold getOrthonormalSpanningBasis
  rw [if_neg (by rw [hin]; norm_num)]
  unfold fallback
  rw [dif_neg (by norm_num)]

/-- The hypotheses can be met, also with opposite vectors along the third axis. -/
example : ‖(EuclideanSpace.single 2 1 : Vec 3)‖ = 1 ∧ ‖(EuclideanSpace.single 2 (-1) : Vec 3)‖ = 1 := by
  simp

/-! ### C84 -/

/-- The position after `k` steps of the iteration, without a stopping criterion. -/
noncomputable def descentPos (l : List (DescentObstacle d × ℝ × ℝ)) (stepFactor : ℝ) (start : Vec d) :
    ℕ → Vec d
  | 0 => start
  | k + 1 => descentPos l stepFactor start k
      + stepFactor • (l.map (fun o => ((o.1.gamma (descentPos l stepFactor start k) ^ o.2.2) * o.2.1)
        • o.1.normal (descentPos l stepFactor start k))).sum

lemma descentPos_succ (l : List (DescentObstacle d × ℝ × ℝ)) (f : ℝ) (start : Vec d) (k : ℕ) :
    descentPos l f start (k + 1) = descentPos l f (start + f • descentStep l start) k := by
  induction k with
  | zero => rfl
  | succ k ih =>
    rw [descentPos, ih]
    rfl

lemma descentLoop_spec (l : List (DescentObstacle d × ℝ × ℝ)) (f err : ℝ) :
    ∀ (it : ℕ) (p : Vec d), ∃ k ≤ it, descentLoop l f err it p = descentPos l f p k
      ∧ (k = it ∨ ‖descentStep l (descentPos l f p k)‖ < err)
      ∧ ∀ j < k, err ≤ ‖descentStep l (descentPos l f p j)‖ := by
  classical
  intro it
  induction it with
  | zero => intro p; exact ⟨0, le_rfl, rfl, .inl rfl, by simp⟩
  | succ it ih =>
    intro p
    unfold descentLoop
    by_cases h : ‖descentStep l p‖ < err
    · rw [if_pos h]
      exact ⟨0, by omega, rfl, .inr h, by simp⟩
    · rw [if_neg h]
      obtain ⟨k, hk, h1, h2, h3⟩ := ih (p + f • descentStep l p)
      refine ⟨k + 1, by omega, ?_, ?_, ?_⟩
      · rw [descentPos_succ]; exact h1
      · rw [descentPos_succ]
        rcases h2 with h2 | h2
        · left; omega
        · right; exact h2
      · intro j hj
        cases j with
        | zero => exact not_lt.mp h
        | succ j =>
          rw [descentPos_succ]
          exact h3 j (by omega)

/-- **C84** The call returns the first position of the iteration from the middle of the two centres at
which the step is shorter than the tolerance, and the last position if there is none. -/
theorem C84_ends (o0 o1 : DescentObstacle d × ℝ × ℝ) (l : List (DescentObstacle d × ℝ × ℝ)) (it : ℕ)
    (f err : ℝ) : ∃ k ≤ it,
    gammaNormalGradientDescent (o0 :: o1 :: l) it f err
      = .ok (descentPos (o0 :: o1 :: l) f ((1 / 2 : ℝ) • (o0.1.center + o1.1.center)) k)
    ∧ (k = it ∨ ‖((o0 :: o1 :: l).map (fun o => ((o.1.gamma
        (descentPos (o0 :: o1 :: l) f ((1 / 2 : ℝ) • (o0.1.center + o1.1.center)) k) ^ o.2.2) * o.2.1)
        • o.1.normal (descentPos (o0 :: o1 :: l) f
          ((1 / 2 : ℝ) • (o0.1.center + o1.1.center)) k))).sum‖ < err)
    ∧ ∀ j < k, err ≤ ‖((o0 :: o1 :: l).map (fun o => ((o.1.gamma
        (descentPos (o0 :: o1 :: l) f ((1 / 2 : ℝ) • (o0.1.center + o1.1.center)) j) ^ o.2.2) * o.2.1)
        • o.1.normal (descentPos (o0 :: o1 :: l) f
          ((1 / 2 : ℝ) • (o0.1.center + o1.1.center)) j))).sum‖ := by
  obtain ⟨k, hk, h1, h2, h3⟩ := descentLoop_spec (o0 :: o1 :: l) f err it
    ((1 / 2 : ℝ) • (o0.1.center + o1.1.center))
  refine ⟨k, hk, ?_, h2, h3⟩
  rw [← h1]
  unfold gammaNormalGradientDescent
  rw [show (0.5 : ℝ) = 1 / 2 by norm_num]

/-- **C84** With fewer than two obstacles the call raises `IndexError`. -/
theorem C84_too_few (o : DescentObstacle d × ℝ × ℝ) (it : ℕ) (f err : ℝ) :
    gammaNormalGradientDescent ([] : List (DescentObstacle d × ℝ × ℝ)) it f err = .error .indexError
    ∧ gammaNormalGradientDescent [o] it f err = .error .indexError := ⟨rfl, rfl⟩

/-- **C84** The order of the two obstacles does not matter. -/
theorem C84_order (o0 o1 : DescentObstacle d × ℝ × ℝ) (it : ℕ) (f err : ℝ) :
    gammaNormalGradientDescent [o0, o1] it f err = gammaNormalGradientDescent [o1, o0] it f err := by
  have hs : ∀ p, descentStep [o0, o1] p = descentStep [o1, o0] p := by
    intro p
    simp [descentStep, add_comm]
  have hl : ∀ (it : ℕ) (p : Vec d), descentLoop [o0, o1] f err it p = descentLoop [o1, o0] f err it p := by
    intro it
    induction it with
    | zero => intro p; rfl
    | succ it ih =>
      intro p
      unfold descentLoop
      rw [hs p, ih]
  change Except.ok (descentLoop [o0, o1] f err it _) = Except.ok (descentLoop [o1, o0] f err it _)
  rw [hl, add_comm]

/-- `o'` is the obstacle `o` moved by the rigid motion `x ↦ R x + t`. -/
structure Moved (R : Vec d ≃ₗᵢ[ℝ] Vec d) (t : Vec d) (o o' : DescentObstacle d) : Prop where
  center : o'.center = R o.center + t
  gamma : ∀ x, o'.gamma (R x + t) = o.gamma x
  normal : ∀ x, o'.normal (R x + t) = R (o.normal x)

/-- **C84** Moving all obstacles by a rigid motion moves the result by the same motion. -/
theorem C84_moves (R : Vec d ≃ₗᵢ[ℝ] Vec d) (t : Vec d) (l l' : List (DescentObstacle d × ℝ × ℝ))
    (h : List.Forall₂ (fun o o' => Moved R t o.1 o'.1 ∧ o.2 = o'.2) l l') (it : ℕ) (f err : ℝ)
    (p : Vec d) (hp : gammaNormalGradientDescent l it f err = .ok p) :
    gammaNormalGradientDescent l' it f err = .ok (R p + t) := by
  have hs : ∀ x, descentStep l' (R x + t) = R (descentStep l x) := by
    intro x
    unfold descentStep
    clear hp
    induction h with
    | nil => simp
    | cons hab _ ih =>
      obtain ⟨⟨-, h1, h2⟩, h3⟩ := hab
      simp only [List.map_cons, List.sum_cons, map_add]
      rw [ih, h1, h2, ← h3, map_smul]
  have hl : ∀ (it : ℕ) (x : Vec d), descentLoop l' f err it (R x + t)
      = R (descentLoop l f err it x) + t := by
    intro it
    induction it with
    | zero => intro x; rfl
    | succ it ih =>
      intro x
      classical
      unfold descentLoop
      rw [hs x, LinearIsometryEquiv.norm_map]
      split
      · rfl
      · have : R x + t + f • R (descentStep l x) = R (x + f • descentStep l x) + t := by
          rw [map_add, map_smul]; abel
        rw [this, ih]
  cases h with
  | nil => cases hp
  | cons h0 hr =>
    cases hr with
    | nil => cases hp
    | cons h1 hr =>
      unfold gammaNormalGradientDescent at hp ⊢
      simp only [Except.ok.injEq] at hp ⊢
      rw [← hp, ← hl]
      congr 1
      rw [h0.1.center, h1.1.center, map_smul, map_add, smul_add, smul_add, smul_add, smul_add]
      have : (0.5 : ℝ) • t + (0.5 : ℝ) • t = t := by
        rw [← add_smul]; norm_num
      rw [← this]
      simp only [smul_add]
      module

/-- An interval around `c` with radius `r` as obstacle on a line; the normal points away from the
centre, gamma is the relative distance. -/
noncomputable def interval (c r : ℝ) : DescentObstacle 1 where
  center := EuclideanSpace.single 0 c
  gamma x := |x 0 - c| / r
  normal x := EuclideanSpace.single 0 (SignType.sign (x 0 - c) : ℝ)

/-- **C84 (violated)** With the default factors and powers the iteration leaves the intersection: for two
overlapping intervals (radius 1 around 0, radius 1/10 around 1) the result is outside of both. -/
theorem C84_diverges : ∃ p, gammaNormalGradientDescent
      [(interval 0 1, 1, 2), (interval 1 (1 / 10), 1, 2)] 50 (1 / 10) (1 / 10) = .ok p
    ∧ 1 < (interval 0 1).gamma p ∧ 1 < (interval 1 (1 / 10)).gamma p
    ∧ (interval 0 1).gamma (EuclideanSpace.single 0 (95 / 100)) < 1
    ∧ (interval 1 (1 / 10)).gamma (EuclideanSpace.single 0 (95 / 100)) < 1 := by
  classical
  set l : List (DescentObstacle 1 × ℝ × ℝ) := [(interval 0 1, 1, 2), (interval 1 (1 / 10), 1, 2)]
    with hl
  have hstep : ∀ x : Vec 1, descentStep l x = EuclideanSpace.single 0
      ((|x 0| ^ 2) * (SignType.sign (x 0) : ℝ) + ((10 * |x 0 - 1|) ^ 2) * (SignType.sign (x 0 - 1) : ℝ)) := by
    intro x
    ext i
    fin_cases i
    simp [descentStep, hl, interval]
    left
    ring
  have hfar : ∀ (it : ℕ) (x : Vec 1), x 0 < -1 → (descentLoop l (1 / 10) (1 / 10) it x) 0 < -1 := by
    intro it
    induction it with
    | zero => intro x hx; exact hx
    | succ it ih =>
      intro x hx
      unfold descentLoop
      split
      · exact hx
      · apply ih
        rw [hstep x, sign_neg (by linarith : x 0 < 0), sign_neg (by linarith : x 0 - 1 < 0)]
        simp
        nlinarith [sq_nonneg (x 0), sq_nonneg (10 * |x 0 - 1|)]
  have hneg : (descentLoop l (1 / 10) (1 / 10) 50
      ((0.5 : ℝ) • ((interval 0 1).center + (interval 1 (1 / 10)).center))) 0 < -1 := by
    unfold descentLoop
    set x0 : Vec 1 := (0.5 : ℝ) • ((interval 0 1).center + (interval 1 (1 / 10)).center) with hx0
    have hx : x0 0 = 1 / 2 := by simp [hx0, interval]; norm_num
    have hs : descentStep l x0 = EuclideanSpace.single 0 (-99 / 4) := by
      rw [hstep, hx, sign_pos (by norm_num), sign_neg (by norm_num)]
      congr 1
      norm_num [abs_of_neg, abs_of_pos]
    rw [hs, if_neg (by simp; norm_num [abs_of_neg])]
    apply hfar
    simp [hx]
    norm_num
  refine ⟨_, rfl, ?_, ?_, ?_, ?_⟩
  · change 1 < |_ - (0 : ℝ)| / 1
    rw [div_one, lt_abs]
    right
    linarith
  · change 1 < |_ - (1 : ℝ)| / (1 / 10)
    rw [lt_div_iff₀ (by norm_num), lt_abs]
    right
    linarith
  · simp [interval]; norm_num [abs_of_pos]
  · simp [interval]; norm_num [abs_of_neg]

end Verif
