import Verif.Props.GmmGradientExamples
import Verif.Props.DirectionPullExamples
import Mathlib.Analysis.SpecialFunctions.Complex.Arg

/-!
# C129: the ellipses of a Gaussian obstacle: axes, projection from a point off the centre, analytic ellipses
-/

open scoped RealInnerProductSpace
open Verif.Spec

namespace Verif.Gmm

variable {d : ℕ}

lemma apply_comp (a b : Matrix (Fin d) (Fin d) ℝ) (v : Vec d) : apply a (apply b v) = apply (a * b) v := by
  unfold apply
  simp only [Matrix.mulVec_mulVec]

lemma apply_one (v : Vec d) : apply (1 : Matrix (Fin d) (Fin d) ℝ) v = v := by
  unfold apply
  rw [Matrix.one_mulVec]

lemma apply_diagonal (e : Fin d → ℝ) (v : Vec d) (i : Fin d) : apply (Matrix.diagonal e) v i = e i * v i := by
  unfold apply
  simp [Matrix.mulVec_diagonal]

/-- **C129** The axes deserve their name: for a covariance with positive eigenvalues the points at most
`variance_factor` standard deviations from the mean are exactly those at most a half from the origin of the
frame of the unit(-diameter) circle. -/
theorem C129_axes (eigh : Matrix (Fin d) (Fin d) ℝ → (Fin d → ℝ) × Matrix (Fin d) (Fin d) ℝ) (factor : ℝ)
    (hf : 0 < factor) (mean : Vec d) (cov chol : Matrix (Fin d) (Fin d) ℝ)
    (he : Diagonalises cov (eigh cov).1 (eigh cov).2) (hpos : ∀ i, 0 < (eigh cov).1 i) :
    ∃ g, axes eigh factor mean cov chol = some g
      ∧ ∀ x, WithinDeviations mean cov factor x ↔ ‖toUnit g x‖ ≤ 1 / 2 := by
  classical
  obtain ⟨ho, hm⟩ := he
  generalize hE : (eigh cov).1 = e at *
  generalize hV : (eigh cov).2 = v at *
  have ho' : v.transpose * v = 1 := mul_eq_one_comm.mp ho
  refine ⟨⟨mean, chol, v, fun i => 2 * Real.sqrt (e i) * factor⟩, ?_, fun x => ?_⟩
  · unfold axes
    simp only [hE, hV]
    rw [if_neg]
    rintro ⟨i, hi⟩
    exact absurd (hpos i) (not_lt.mpr hi.le)
  -- the coordinates along the axes
  set w : Vec d := apply v.transpose (x - mean) with hw
  have hx : x - mean = apply v w := by rw [hw, apply_comp, ho, apply_one]
  have hnorm : ‖toUnit (⟨mean, chol, v, fun i => 2 * Real.sqrt (e i) * factor⟩ : Gauss d) x‖ ^ 2
      = (1 / (4 * factor ^ 2)) * ∑ i, w i ^ 2 / e i := by
    rw [EuclideanSpace.norm_sq_eq, Finset.mul_sum]
    refine Finset.sum_congr rfl fun i _ => ?_
    rw [Real.norm_eq_abs, sq_abs]
    unfold toUnit
    simp only [← hw]
    rw [div_pow, mul_pow, mul_pow, Real.sq_sqrt (hpos i).le]
    have := (hpos i).ne'
    field_simp
    norm_num
  have hlin : ‖toUnit (⟨mean, chol, v, fun i => 2 * Real.sqrt (e i) * factor⟩ : Gauss d) x‖ ≤ 1 / 2
      ↔ ∑ i, w i ^ 2 / e i ≤ factor ^ 2 := by
    rw [← abs_of_nonneg (norm_nonneg (toUnit _ x)), ← abs_of_pos (show (0 : ℝ) < 1 / 2 by norm_num),
      ← sq_le_sq, hnorm, one_div_mul_eq_div, div_le_iff₀ (by positivity)]
    constructor <;> intro h <;> linarith
  rw [hlin]
  have hquad : ∀ y : Vec d, cov.mulVec y.ofLp = (x - mean).ofLp → ⟪x - mean, y⟫ = ∑ i, w i ^ 2 / e i := by
    intro y hy
    have hy' : apply cov y = x - mean := by
      unfold apply
      rw [hy]
    set u : Vec d := apply v.transpose y with hu
    have hyu : y = apply v u := by rw [hu, apply_comp, ho, apply_one]
    have hwu : w = apply (Matrix.diagonal e) u := by
      rw [hw, ← hy', hm, hu, apply_comp, apply_comp]
      congr 1
      rw [← Matrix.mul_assoc, ← Matrix.mul_assoc, ho', Matrix.one_mul]
    have hin : ⟪x - mean, y⟫ = ⟪w, u⟫ := by
      rw [hx, hyu, inner_apply_transpose, apply_comp, ho', apply_one]
    rw [hin, PiLp.inner_apply]
    refine Finset.sum_congr rfl fun i _ => ?_
    have hi : w i = e i * u i := by rw [hwu, apply_diagonal]
    rw [RCLike.inner_apply, conj_trivial, hi]
    have := (hpos i).ne'
    field_simp
  constructor
  · rintro ⟨y, hy, hle⟩
    rwa [hquad y hy] at hle
  · intro hle
    have hsol : cov.mulVec (apply v (WithLp.toLp 2 (fun i => w i / e i))).ofLp = (x - mean).ofLp := by
      have h1 : apply cov (apply v (WithLp.toLp 2 (fun i => w i / e i))) = x - mean := by
        rw [hm, apply_comp, Matrix.mul_assoc, ho', Matrix.mul_one, ← apply_comp, hx]
        congr 1
        ext i
        rw [apply_diagonal]
        simp only
        rw [mul_div_cancel₀ _ (hpos i).ne']
      rw [← h1]
      rfl
    exact ⟨_, hsol, by rw [hquad _ hsol]; exact hle⟩

lemma toUnit_sub (g : Gauss d) (x y : Vec d) (t : ℝ) :
    toUnit g (y + t • (x - y)) = toUnit g y + t • (toUnit g x - toUnit g y) := by
  unfold toUnit
  have e : y + t • (x - y) - g.mean = (y - g.mean) + t • ((x - g.mean) + (-1 : ℝ) • (y - g.mean)) := by module
  rw [e, apply_add, apply_smul, apply_add, apply_smul]
  ext i
  simp
  ring

/-- **C129** The projection from a point inside the ellipse that is not the centre: the result is on the
boundary of the ellipse, on the ray from this point through the position.  Missing: points outside the ellipse
or on its boundary, where the external intersection need not exist. -/
theorem C129_offcenter_partial (circle : Vec d → Vec d → ℝ → Option (Vec d)) (hc : LeavesCircle circle)
    (g : Gauss d) (ho : g.directions * g.directions.transpose = 1) (hl : ∀ i, g.lengths i ≠ 0)
    (x o : Vec d) (hin : ‖toUnit g o‖ < 1 / 2) (hne : x ≠ o) :
    ∃ q, projectOffcenter circle g x o = .ok q ∧ ‖toUnit g q‖ = 1 / 2
      ∧ ∃ t : ℝ, 0 < t ∧ q = o + t • (x - o) := by
  have hinj : toUnit g x - toUnit g o ≠ 0 := by
    intro h
    rw [sub_eq_zero] at h
    apply hne
    rw [← (C85_frames g ho hl x).1, h, (C85_frames g ho hl o).1]
  obtain ⟨t, ht, h1, h2⟩ := hc (toUnit g o) (toUnit g x - toUnit g o) 0.5 (by norm_num at hin ⊢; linarith) hinj
  refine ⟨o + t • (x - o), ?_, ?_, t, ht, rfl⟩
  · unfold projectOffcenter
    rw [h1]
    simp only
    rw [← toUnit_sub, (C85_frames g ho hl _).1]
  · rw [toUnit_sub, h2]
    norm_num

/-- **C129** In other dimensions than two there are no analytic ellipses. -/
theorem C129_dimension (hd : d ≠ 2) (gs : List (Gauss d)) :
    transformToAnalytic gs = .error .notImplemented := by
  unfold transformToAnalytic
  split
  · exact absurd rfl hd
  · rfl

lemma cos_sin_arg (a b : ℝ) (h : a ^ 2 + b ^ 2 = 1) :
    Real.cos (Complex.arg ⟨a, b⟩) = a ∧ Real.sin (Complex.arg ⟨a, b⟩) = b := by
  have hn : ‖(⟨a, b⟩ : ℂ)‖ = 1 := by
    rw [Complex.norm_def, Complex.normSq_mk, Real.sqrt_eq_one]
    nlinarith
  have hz : (⟨a, b⟩ : ℂ) ≠ 0 := by
    rw [← norm_ne_zero_iff, hn]
    exact one_ne_zero
  constructor
  · rw [Complex.cos_arg hz, hn, div_one]
  · rw [Complex.sin_arg, hn, div_one]

/-- **C129** What one analytic ellipse is: the centre and the lengths are those of the Gaussian, but the axes lie along the rows of the matrix of the directions, not along its columns. -/
theorem C129_rows (g : Gauss 2) (ho : g.directions * g.directions.transpose = 1) :
    ∃ e, toAnalytic g = .ok e ∧ e.center = g.mean ∧ e.axesLength = g.lengths
      ∧ ∀ x, InEllipse e.center e.orientation e.axesLength x
        ↔ ‖toUnit { g with directions := g.directions.transpose } x‖ ≤ 1 / 2 := by
  classical
  have h00 : g.directions 0 0 ^ 2 + g.directions 0 1 ^ 2 = 1 := by
    have := congrFun (congrFun ho 0) 0
    simp [Matrix.mul_apply, Fin.sum_univ_two] at this
    linarith
  have h11 : g.directions 1 0 ^ 2 + g.directions 1 1 ^ 2 = 1 := by
    have := congrFun (congrFun ho 1) 1
    simp [Matrix.mul_apply, Fin.sum_univ_two] at this
    linarith
  have h01 : g.directions 0 0 * g.directions 1 0 + g.directions 0 1 * g.directions 1 1 = 0 := by
    have := congrFun (congrFun ho 0) 1
    simpa [Matrix.mul_apply, Fin.sum_univ_two] using this
  have hrow : ‖(WithLp.toLp 2 (fun j => g.directions 0 j) : Vec 2)‖ = 1 := by
    rw [EuclideanSpace.norm_eq, Real.sqrt_eq_one]
    simp [Fin.sum_univ_two, h00]
  refine ⟨⟨g.mean, Complex.arg ⟨g.directions 0 0, g.directions 0 1⟩, g.lengths⟩, ?_, rfl, rfl, fun x => ?_⟩
  · unfold toAnalytic
    simp only [hrow]
    rw [if_neg one_ne_zero]
    simp
  obtain ⟨hcos, hsin⟩ := cos_sin_arg _ _ h00
  have hU : ‖toUnit { g with directions := g.directions.transpose } x‖ ≤ 1 / 2 ↔
      ((g.directions 0 0 * (x 0 - g.mean 0) + g.directions 0 1 * (x 1 - g.mean 1)) / g.lengths 0) ^ 2
      + ((g.directions 1 0 * (x 0 - g.mean 0) + g.directions 1 1 * (x 1 - g.mean 1)) / g.lengths 1) ^ 2
        ≤ (1 / 2) ^ 2 := by
    rw [← abs_of_nonneg (norm_nonneg (toUnit _ x)), ← abs_of_pos (show (0 : ℝ) < 1 / 2 by norm_num),
      ← sq_le_sq, EuclideanSpace.norm_sq_eq, Fin.sum_univ_two, abs_of_pos (show (0 : ℝ) < 1 / 2 by norm_num)]
    simp only [Real.norm_eq_abs, sq_abs]
    unfold toUnit apply
    simp [Matrix.mulVec, dotProduct, Fin.sum_univ_two]
  rw [hU]
  unfold InEllipse
  simp only [hcos, hsin]
  -- the second row is orthogonal to the first one
  have hsecond : ∀ a b : ℝ, (g.directions 1 0 * a + g.directions 1 1 * b) ^ 2
      = (-g.directions 0 1 * a + g.directions 0 0 * b) ^ 2 := by
    intro a b
    generalize g.directions 0 0 = p at *
    generalize g.directions 0 1 = q at *
    generalize g.directions 1 0 = r at *
    generalize g.directions 1 1 = s at *
    have e1 : r = -q * (p * s - q * r) := by linear_combination (-r) * h00 + p * h01
    have e2 : s = p * (p * s - q * r) := by linear_combination (-s) * h00 + q * h01
    have e3 : (p * s - q * r) ^ 2 = 1 := by
      linear_combination (r ^ 2 + s ^ 2) * h00 + h11 - (p * r + q * s) * h01
    calc (r * a + s * b) ^ 2 = ((p * s - q * r) * (-q * a + p * b)) ^ 2 := by
          congr 1
          linear_combination a * e1 + b * e2
      _ = (-q * a + p * b) ^ 2 := by rw [mul_pow, e3, one_mul]
  have hdiv : ∀ a l : ℝ, (a / (l / 2)) ^ 2 = 4 * (a / l) ^ 2 := by
    intro a l
    rw [div_div_eq_mul_div]
    ring
  rw [hdiv, hdiv, div_pow (g.directions 1 0 * _ + _), hsecond, ← div_pow]
  constructor <;> intro h <;> linarith

/-- **C129** In the plane there is one analytic ellipse for every Gaussian, in the same order, with its centre
and its axes, and nothing raises. -/
theorem C129_all (gs : List (Gauss 2)) (ho : ∀ g ∈ gs, g.directions * g.directions.transpose = 1) :
    ∃ es, transformToAnalytic gs = .ok es
      ∧ List.Forall₂ (fun g e => toAnalytic g = .ok e ∧ e.center = g.mean ∧ e.axesLength = g.lengths) gs es := by
  unfold transformToAnalytic
  induction gs with
  | nil => exact ⟨[], rfl, List.Forall₂.nil⟩
  | cons g gs ih =>
    obtain ⟨e, h1, h2, h3, -⟩ := C129_rows g (ho g List.mem_cons_self)
    obtain ⟨es, h4, h5⟩ := ih (fun g hg => ho g (List.mem_cons_of_mem _ hg))
    refine ⟨e :: es, ?_, List.Forall₂.cons ⟨h1, h2, h3⟩ h5⟩
    simp only at h4 ⊢
    rw [List.mapM_cons, h1, h4]
    rfl

/-- **C129** If the matrix of the directions is symmetric (for instance a reflection, or aligned axes), the
analytic ellipse of a covariance with positive eigenvalues is the region within `variance_factor` standard
deviations.  Missing: the other matrices of directions, where it fails (`C129_turned`). -/
theorem C129_analytic_partial (eigh : Matrix (Fin 2) (Fin 2) ℝ → (Fin 2 → ℝ) × Matrix (Fin 2) (Fin 2) ℝ)
    (factor : ℝ) (hf : 0 < factor) (mean : Vec 2) (cov chol : Matrix (Fin 2) (Fin 2) ℝ)
    (he : Diagonalises cov (eigh cov).1 (eigh cov).2) (hpos : ∀ i, 0 < (eigh cov).1 i)
    (hs : (eigh cov).2.transpose = (eigh cov).2) :
    ∃ g e, axes eigh factor mean cov chol = some g ∧ toAnalytic g = .ok e
      ∧ ∀ x, InEllipse e.center e.orientation e.axesLength x ↔ WithinDeviations mean cov factor x := by
  classical
  obtain ⟨g, hg, hx⟩ := C129_axes eigh factor hf mean cov chol he hpos
  have hdir : g.directions = (eigh cov).2 := by
    unfold axes at hg
    split_ifs at hg
    rw [Option.some.injEq] at hg
    rw [← hg]
  obtain ⟨e, h1, -, -, h2⟩ := C129_rows g (by rw [hdir]; exact he.1)
  refine ⟨g, e, hg, h1, fun x => ?_⟩
  rw [h2, hx, hdir, hs, ← hdir]

/-- A covariance with the eigenvalues one and four along the directions `(0.6, 0.8)` and `(-0.8, 0.6)`. -/
noncomputable def tiltedCov : Matrix (Fin 2) (Fin 2) ℝ := !![73 / 25, -36 / 25; -36 / 25, 52 / 25]

/-- Its eigenvectors as columns, as a rotation. -/
noncomputable def tiltedAxes : Matrix (Fin 2) (Fin 2) ℝ := !![3 / 5, -4 / 5; 4 / 5, 3 / 5]

lemma diagonal_one_four : Matrix.diagonal (![1, 4] : Fin 2 → ℝ) = !![1, 0; 0, 4] := by
  ext i j
  fin_cases i <;> fin_cases j <;> simp

lemma tilted_diagonalises : Diagonalises tiltedCov ![1, 4] tiltedAxes := by
  unfold Diagonalises tiltedCov tiltedAxes
  constructor
  · ext i j
    fin_cases i <;> fin_cases j <;> simp [Matrix.mul_apply, Fin.sum_univ_two] <;> norm_num
  · rw [diagonal_one_four]
    ext i j
    fin_cases i <;> fin_cases j <;> simp [Matrix.mul_apply, Fin.sum_univ_two] <;> norm_num

/-- **C129** The analytic ellipse fails to be the ellipse of the Gaussian: if the eigenvectors come as a
rotation, the axes are turned in the opposite sense, and a point clearly within the deviations is outside. -/
theorem C129_turned :
    ∃ (cov : Matrix (Fin 2) (Fin 2) ℝ) (eigh : Matrix (Fin 2) (Fin 2) ℝ → (Fin 2 → ℝ) × Matrix (Fin 2) (Fin 2) ℝ),
      Diagonalises cov (eigh cov).1 (eigh cov).2 ∧ (∀ i, 0 < (eigh cov).1 i)
      ∧ ∀ (factor : ℝ) (_ : 0 < factor) (mean : Vec 2) (chol : Matrix (Fin 2) (Fin 2) ℝ),
        ∃ g e x, axes eigh factor mean cov chol = some g ∧ toAnalytic g = .ok e
          ∧ WithinDeviations mean cov (19 / 20 * factor) x
          ∧ ¬ InEllipse e.center e.orientation e.axesLength x := by
  classical
  refine ⟨tiltedCov, fun _ => (![1, 4], tiltedAxes), tilted_diagonalises, ?_, ?_⟩
  · intro i
    fin_cases i <;> simp
  intro factor hf mean chol
  have hpos : ∀ i, 0 < ((fun _ => (![1, 4], tiltedAxes)) tiltedCov : (Fin 2 → ℝ) × Matrix (Fin 2) (Fin 2) ℝ).1 i := by
    intro i
    fin_cases i <;> simp
  obtain ⟨g, hg, -⟩ := C129_axes (fun _ => (![1, 4], tiltedAxes)) factor hf mean tiltedCov chol
    tilted_diagonalises hpos
  have hgd : g = ⟨mean, chol, tiltedAxes, fun i => 2 * Real.sqrt ((![1, 4] : Fin 2 → ℝ) i) * factor⟩ := by
    unfold axes at hg
    split_ifs at hg
    rw [Option.some.injEq] at hg
    exact hg.symm
  obtain ⟨e, h1, -, -, h2⟩ := C129_rows g (by rw [hgd]; exact tilted_diagonalises.1)
  refine ⟨g, e, mean + (19 / 10 * factor) • (!₂[-4 / 5, 3 / 5] : Vec 2), hg, h1, ?_, ?_⟩
  · refine ⟨(19 / 40 * factor) • (!₂[-4 / 5, 3 / 5] : Vec 2), ?_, ?_⟩
    · unfold tiltedCov
      funext i
      fin_cases i <;> simp [Matrix.mulVec, dotProduct, Fin.sum_univ_two] <;> ring
    · rw [add_sub_cancel_left, inner_smul_left, inner_smul_right, real_inner_self_eq_norm_sq,
        EuclideanSpace.norm_sq_eq]
      simp [Fin.sum_univ_two]
      ring_nf
      rfl
  · rw [h2, hgd, not_le]
    have h4 : Real.sqrt 4 = 2 := by
      rw [show (4 : ℝ) = 2 ^ 2 by norm_num, Real.sqrt_sq (by norm_num)]
    have hsq : (1 / 2 : ℝ) ^ 2 < ‖toUnit (⟨mean, chol, tiltedAxes.transpose,
        fun i => 2 * Real.sqrt ((![1, 4] : Fin 2 → ℝ) i) * factor⟩ : Gauss 2)
        (mean + (19 / 10 * factor) • (!₂[-4 / 5, 3 / 5] : Vec 2))‖ ^ 2 := by
      rw [EuclideanSpace.norm_sq_eq, Fin.sum_univ_two]
      simp only [Real.norm_eq_abs, sq_abs]
      unfold toUnit
      simp only [add_sub_cancel_left, Matrix.transpose_transpose]
      have c0 : apply tiltedAxes ((19 / 10 * factor) • (!₂[-4 / 5, 3 / 5] : Vec 2)) 0
          = 19 / 10 * factor * (-24 / 25) := by
        unfold apply tiltedAxes
        simp [Matrix.mulVec, dotProduct, Fin.sum_univ_two]
        ring
      have c1 : apply tiltedAxes ((19 / 10 * factor) • (!₂[-4 / 5, 3 / 5] : Vec 2)) 1
          = 19 / 10 * factor * (-7 / 25) := by
        unfold apply tiltedAxes
        simp [Matrix.mulVec, dotProduct, Fin.sum_univ_two]
        ring
      rw [c0, c1]
      simp only [Matrix.cons_val_zero, Matrix.cons_val_one, Real.sqrt_one, h4]
      have hne := hf.ne'
      field_simp
      norm_num
    exact lt_of_pow_lt_pow_left₀ 2 (norm_nonneg _) hsq

/-- The hypotheses of `C129_analytic_partial` can be met by a tilted covariance: the same one, with one
eigenvector turned around. -/
example : ∃ g e, axes (fun _ => (![1, 4], !![3 / 5, 4 / 5; 4 / 5, -3 / 5])) 2 0 tiltedCov 1 = some g
    ∧ toAnalytic g = .ok e
    ∧ ∀ x, InEllipse e.center e.orientation e.axesLength x ↔ WithinDeviations 0 tiltedCov 2 x := by
  refine C129_analytic_partial _ 2 (by norm_num) 0 tiltedCov 1 ?_ ?_ ?_
  · unfold Diagonalises tiltedCov
    constructor
    · ext i j
      fin_cases i <;> fin_cases j <;> simp [Matrix.mul_apply, Fin.sum_univ_two] <;> norm_num
    · simp only [diagonal_one_four]
      ext i j
      fin_cases i <;> fin_cases j <;> simp [Matrix.mul_apply, Fin.sum_univ_two] <;> norm_num
  · intro i
    fin_cases i <;> simp
  · ext i j
    fin_cases i <;> fin_cases j <;> simp

/-- A circle of radius one around the origin: the projection from `(1/2, 0)`, with the exact intersection. -/
example : ∃ q, projectOffcenter (Pull.roundExt 2 two_pos).circle (⟨0, 1, 1, fun _ => 2⟩ : Gauss 2)
      (EuclideanSpace.single 1 3) (EuclideanSpace.single 0 (1 / 2)) = .ok q
    ∧ ‖toUnit (⟨0, 1, 1, fun _ => 2⟩ : Gauss 2) q‖ = 1 / 2
    ∧ ∃ t : ℝ, 0 < t ∧ q = EuclideanSpace.single 0 (1 / 2)
      + t • (EuclideanSpace.single 1 3 - EuclideanSpace.single 0 (1 / 2)) := by
  refine C129_offcenter_partial _ (Pull.round_leaves two_pos) _ (by simp) (fun _ => two_ne_zero) _ _ ?_ ?_
  · have : toUnit (⟨0, 1, 1, fun _ => 2⟩ : Gauss 2) (EuclideanSpace.single 0 (1 / 2))
        = EuclideanSpace.single 0 (1 / 4 : ℝ) := by
      unfold toUnit
      rw [Matrix.transpose_one, apply_one]
      ext i
      fin_cases i <;> simp
      norm_num
    rw [this, EuclideanSpace.norm_single]
    norm_num
  · intro h
    have := congrArg (fun v : Vec 2 => v 1) h
    simp at this

end Verif.Gmm
