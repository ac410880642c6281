import Verif.Model.GmmRegions
import Verif.Spec.GmmRegions
import Verif.Props.GmmEllipses
import Verif.Lemmas.Monad

/-!
# C132: end points and regions of a learned graph of Gaussians
-/

open scoped RealInnerProductSpace

namespace Verif.Gmm

open Spec

lemma orthogonal_rows {w : Matrix (Fin 2) (Fin 2) ℝ} (ho : w * w.transpose = 1) :
    w 0 0 ^ 2 + w 0 1 ^ 2 = 1 ∧ w 1 0 ^ 2 + w 1 1 ^ 2 = 1 ∧ w 0 0 * w 1 0 + w 0 1 * w 1 1 = 0 := by
  refine ⟨?_, ?_, ?_⟩
  · have := congrFun (congrFun ho 0) 0
    simp [Matrix.mul_apply, Fin.sum_univ_two] at this
    linarith
  · have := congrFun (congrFun ho 1) 1
    simp [Matrix.mul_apply, Fin.sum_univ_two] at this
    linarith
  · have := congrFun (congrFun ho 0) 1
    simpa [Matrix.mul_apply, Fin.sum_univ_two] using this

lemma rowAngle_ok {w : Matrix (Fin 2) (Fin 2) ℝ} (h : w 0 0 ^ 2 + w 0 1 ^ 2 = 1) :
    ∃ θ, rowAngle w = .ok θ ∧ Real.cos θ = w 0 0 ∧ Real.sin θ = w 0 1 := by
  have hrow : ‖(WithLp.toLp 2 (fun j => w 0 j) : Vec 2)‖ = 1 := by
    rw [EuclideanSpace.norm_eq, Real.sqrt_eq_one]
    simp [Fin.sum_univ_two, h]
  refine ⟨Complex.arg ⟨w 0 0, w 0 1⟩, ?_, cos_sin_arg _ _ h⟩
  unfold rowAngle
  simp only [hrow]
  rw [if_neg one_ne_zero]
  simp

lemma rootLengths_ok {e : Fin 2 → ℝ} (h : ∀ i, 0 < e i) :
    rootLengths e = .ok (fun i => Real.sqrt 2 * Real.sqrt (e i)) := by
  unfold rootLengths
  rw [if_neg]
  rintro ⟨i, hi⟩
  exact absurd (h i) (not_lt.mpr hi)

lemma vec2_ne {v : Vec 2} (h : v ≠ 0) : 0 < v 0 ^ 2 + v 1 ^ 2 := by
  have := norm_pos_iff.mpr h
  rw [EuclideanSpace.norm_eq, Fin.sum_univ_two, Real.sqrt_pos] at this
  simpa using this

/-- What `endOffset` returns: the direction over the root of the form of the ellipse. -/
lemma endOffset_ok (θ : ℝ) (v : Fin 2 → ℝ) (hv : ∀ i, 0 < v i) (c : Vec 2) (hc : c ≠ 0) :
    0 < ((Real.cos θ * c 0 + Real.sin θ * c 1) / v 0) ^ 2 + ((-Real.sin θ * c 0 + Real.cos θ * c 1) / v 1) ^ 2
    ∧ endOffset θ v c = .ok ((1 / Real.sqrt (((Real.cos θ * c 0 + Real.sin θ * c 1) / v 0) ^ 2
      + ((-Real.sin θ * c 0 + Real.cos θ * c 1) / v 1) ^ 2)) • c) := by
  have h0 := hv 0
  have h1 := hv 1
  have hcs := Real.cos_sq_add_sin_sq θ
  have hpos : 0 < ((Real.cos θ * c 0 + Real.sin θ * c 1) / v 0) ^ 2
      + ((-Real.sin θ * c 0 + Real.cos θ * c 1) / v 1) ^ 2 := by
    rcases (add_nonneg (sq_nonneg ((Real.cos θ * c 0 + Real.sin θ * c 1) / v 0))
      (sq_nonneg ((-Real.sin θ * c 0 + Real.cos θ * c 1) / v 1))).lt_or_eq with h | h
    · exact h
    · exfalso
      have e1 : (Real.cos θ * c 0 + Real.sin θ * c 1) / v 0 = 0 := by nlinarith [sq_nonneg ((Real.cos θ * c 0 + Real.sin θ * c 1) / v 0), sq_nonneg ((-Real.sin θ * c 0 + Real.cos θ * c 1) / v 1)]
      have e2 : (-Real.sin θ * c 0 + Real.cos θ * c 1) / v 1 = 0 := by nlinarith [sq_nonneg ((Real.cos θ * c 0 + Real.sin θ * c 1) / v 0), sq_nonneg ((-Real.sin θ * c 0 + Real.cos θ * c 1) / v 1)]
      rw [div_eq_zero_iff, or_iff_left h0.ne'] at e1
      rw [div_eq_zero_iff, or_iff_left h1.ne'] at e2
      have := vec2_ne hc
      have e3 : c 0 ^ 2 + c 1 ^ 2 = (Real.cos θ * c 0 + Real.sin θ * c 1) ^ 2 + (-Real.sin θ * c 0 + Real.cos θ * c 1) ^ 2 := by
        linear_combination (-(c 0 ^ 2) - c 1 ^ 2) * hcs
      rw [e1, e2] at e3
      linarith [e3]
  refine ⟨hpos, ?_⟩
  unfold endOffset
  have hfac : ∑ i, (apply (!![Real.cos (-θ), Real.sin (-θ); -Real.sin (-θ), Real.cos (-θ)] : Matrix (Fin 2) (Fin 2) ℝ).transpose c) i ^ 2 / v i ^ 2
      = ((Real.cos θ * c 0 + Real.sin θ * c 1) / v 0) ^ 2 + ((-Real.sin θ * c 0 + Real.cos θ * c 1) / v 1) ^ 2 := by
    rw [Fin.sum_univ_two]
    unfold apply
    simp [Matrix.mulVec, dotProduct, Fin.sum_univ_two, div_pow]
  simp only [hfac]
  rw [if_neg hpos.ne']
  congr 1
  generalize 1 / Real.sqrt _ = t
  ext i
  fin_cases i
  · unfold apply
    simp [Matrix.mulVec, dotProduct, Fin.sum_univ_two]
    linear_combination (t * c 0) * hcs
  · unfold apply
    simp [Matrix.mulVec, dotProduct, Fin.sum_univ_two]
    linear_combination (t * c 1) * hcs

/-- The end point, with the angle and the lengths of the region. -/
lemma endPoint_ok (eigh : Eigh 2) (mean : Vec 2) (cov : Matrix (Fin 2) (Fin 2) ℝ) (c : Vec 2) (hc : c ≠ 0)
    (ho : (eigh cov).2 * (eigh cov).2.transpose = 1) (hpos : ∀ i, 0 < (eigh cov).1 i) :
    ∃ θ v t, rowAngle (eigh cov).2 = .ok θ ∧ Real.cos θ = (eigh cov).2 0 0 ∧ Real.sin θ = (eigh cov).2 0 1
      ∧ rootLengths (eigh cov).1 = .ok v ∧ (∀ i, 0 < v i) ∧ (∀ i, v i ^ 2 = 2 * (eigh cov).1 i) ∧ 0 < t
      ∧ t ^ 2 * (((Real.cos θ * c 0 + Real.sin θ * c 1) / v 0) ^ 2
          + ((-Real.sin θ * c 0 + Real.cos θ * c 1) / v 1) ^ 2) = 1
      ∧ endPoint eigh mean cov c = .ok (mean + t • c) := by
  obtain ⟨h1, -, -⟩ := orthogonal_rows ho
  obtain ⟨θ, hθ, hcos, hsin⟩ := rowAngle_ok h1
  have hv := rootLengths_ok hpos
  have hvp : ∀ i, 0 < (fun i => Real.sqrt 2 * Real.sqrt ((eigh cov).1 i)) i := fun i =>
    mul_pos (Real.sqrt_pos.mpr two_pos) (Real.sqrt_pos.mpr (hpos i))
  obtain ⟨hp, he⟩ := endOffset_ok θ _ hvp c hc
  refine ⟨θ, _, _, hθ, hcos, hsin, hv, hvp, fun i => ?_, one_div_pos.mpr (Real.sqrt_pos.mpr hp), ?_, ?_⟩
  · simp only [mul_pow]
    rw [Real.sq_sqrt two_pos.le, Real.sq_sqrt (hpos i).le]
  · rw [div_pow, Real.sq_sqrt hp.le, one_pow, one_div, inv_mul_cancel₀ hp.ne']
  · show (do
      let angle ← rowAngle (eigh cov).2
      let v ← rootLengths (eigh cov).1
      let offset ← endOffset angle v c
      .ok (mean + offset)) = _
    rw [hθ, hv]
    show (endOffset θ _ c >>= fun offset => .ok (mean + offset)) = _
    rw [he]
    rfl

/-- **C132** In the plane, for covariances with positive eigenvalues, the end point of a Gaussian lies on the ray from
the mean in the learned direction of motion, and on the boundary of the region which `create_learned_boundary` makes for
this Gaussian with the default factor; with a positive factor it lies in the region exactly if the factor is at least
two. -/
theorem C132_end_point (eigh : Eigh 2) (mean : Vec 2) (cov : Matrix (Fin 2) (Fin 2) ℝ) (c : Vec 2) (hc : c ≠ 0)
    (ho : (eigh cov).2 * (eigh cov).2.transpose = 1) (hpos : ∀ i, 0 < (eigh cov).1 i) :
    ∃ t : ℝ, 0 < t ∧ endPoint eigh mean cov c = .ok (mean + t • c)
      ∧ (∃ e, learnedRegion eigh 2 mean cov = .ok e ∧ OnEllipse e.center e.orientation e.axesLength (mean + t • c))
      ∧ ∀ oversize : ℝ, 0 < oversize → ∃ e, learnedRegion eigh oversize mean cov = .ok e ∧ e.center = mean
        ∧ (InEllipse e.center e.orientation e.axesLength (mean + t • c) ↔ 2 ≤ oversize)
        ∧ (OnEllipse e.center e.orientation e.axesLength (mean + t • c) ↔ oversize = 2) := by
  obtain ⟨θ, v, t, h1, -, -, h2, hv, -, ht, h3, h4⟩ := endPoint_ok eigh mean cov c hc ho hpos
  have hreg : ∀ s, learnedRegion eigh s mean cov = .ok ⟨mean, θ, fun i => v i * s⟩ := by
    intro s
    unfold learnedRegion
    rw [h1, h2]
    rfl
  have v0 := (hv 0).ne'
  have v1 := (hv 1).ne'
  have hform : ∀ s : ℝ, 0 < s →
      ((Real.cos θ * ((mean + t • c) 0 - mean 0) + Real.sin θ * ((mean + t • c) 1 - mean 1)) / (v 0 * s / 2)) ^ 2
      + ((-Real.sin θ * ((mean + t • c) 0 - mean 0) + Real.cos θ * ((mean + t • c) 1 - mean 1)) / (v 1 * s / 2)) ^ 2
      = (2 / s) ^ 2 := by
    intro s hs
    have e0 : (mean + t • c) 0 - mean 0 = t * c 0 := by simp
    have e1 : (mean + t • c) 1 - mean 1 = t * c 1 := by simp
    rw [e0, e1]
    have : ((Real.cos θ * (t * c 0) + Real.sin θ * (t * c 1)) / (v 0 * s / 2)) ^ 2
        + ((-Real.sin θ * (t * c 0) + Real.cos θ * (t * c 1)) / (v 1 * s / 2)) ^ 2
        = (2 / s) ^ 2 * (t ^ 2 * (((Real.cos θ * c 0 + Real.sin θ * c 1) / v 0) ^ 2
          + ((-Real.sin θ * c 0 + Real.cos θ * c 1) / v 1) ^ 2)) := by
      have := hs.ne'
      field_simp
    rw [this, h3, mul_one]
  refine ⟨t, ht, h4, ⟨_, hreg 2, ?_⟩, fun s hs => ⟨_, hreg s, rfl, ?_, ?_⟩⟩
  · unfold OnEllipse
    rw [hform 2 two_pos]
    norm_num
  · unfold InEllipse
    rw [hform s hs, sq_le_one_iff₀ (by positivity), div_le_one hs]
  · unfold OnEllipse
    rw [hform s hs]
    have : 0 ≤ 2 / s := by positivity
    rw [pow_eq_one_iff_of_nonneg this (by norm_num), div_eq_one_iff_eq hs.ne']
    exact eq_comm

/-- **C132** If the matrix of the eigenvectors is symmetric (a reflection, or aligned axes), the end point is `√2`
standard deviations of the Gaussian away from the mean.  Missing: the other matrices of eigenvectors, where it fails
(`C132_turned`). -/
theorem C132_deviations_partial (eigh : Eigh 2) (mean : Vec 2) (cov : Matrix (Fin 2) (Fin 2) ℝ) (c : Vec 2) (hc : c ≠ 0)
    (he : Diagonalises cov (eigh cov).1 (eigh cov).2) (hpos : ∀ i, 0 < (eigh cov).1 i)
    (hs : (eigh cov).2.transpose = (eigh cov).2) :
    ∃ q, endPoint eigh mean cov c = .ok q ∧ AtDeviations mean cov (Real.sqrt 2) q := by
  obtain ⟨ho, hm⟩ := he
  obtain ⟨θ, v, t, -, hcos, hsin, -, hv, hv2, ht, h3, h4⟩ := endPoint_ok eigh mean cov c hc ho hpos
  refine ⟨_, h4, ?_⟩
  generalize (eigh cov).1 = e at *
  generalize (eigh cov).2 = w at *
  obtain ⟨g1, g2, g3⟩ := orthogonal_rows ho
  have hsym : w 1 0 = w 0 1 := congrFun (congrFun hs 0) 1
  have p0 := (hpos 0).ne'
  have p1 := (hpos 1).ne'
  rw [hcos, hsin] at h3
  have q0 := hv2 0
  have q1 := hv2 1
  rw [div_pow, div_pow, q0, q1] at h3
  have hsecond : (w 1 0 * c 0 + w 1 1 * c 1) ^ 2 = (-w 0 1 * c 0 + w 0 0 * c 1) ^ 2 := by
    generalize w 0 0 = p at *
    generalize w 0 1 = q at *
    generalize w 1 0 = r at *
    generalize w 1 1 = s at *
    have e1 : r = -q * (p * s - q * r) := by linear_combination (-r) * g1 + p * g3
    have e2 : s = p * (p * s - q * r) := by linear_combination (-s) * g1 + q * g3
    have e3 : (p * s - q * r) ^ 2 = 1 := by
      linear_combination (r ^ 2 + s ^ 2) * g1 + g2 - (p * r + q * s) * g3
    calc (r * c 0 + s * c 1) ^ 2 = ((p * s - q * r) * (-q * c 0 + p * c 1)) ^ 2 := by
          congr 1
          linear_combination c 0 * e1 + c 1 * e2
      _ = (-q * c 0 + p * c 1) ^ 2 := by rw [mul_pow, e3, one_mul]
  have ho' : w.transpose * w = 1 := mul_eq_one_comm.mp ho
  set y : Vec 2 := apply (w * Matrix.diagonal (fun i => 1 / e i) * w.transpose) (t • c) with hy
  refine ⟨y, ?_, ?_⟩
  · have hmul : cov * (w * Matrix.diagonal (fun i => 1 / e i) * w.transpose) = 1 := by
      have hD : Matrix.diagonal e * Matrix.diagonal (fun i => 1 / e i) = 1 := by
        rw [Matrix.diagonal_mul_diagonal, ← Matrix.diagonal_one]
        congr 1
        funext i
        rw [mul_one_div_cancel (hpos i).ne']
      calc cov * (w * Matrix.diagonal (fun i => 1 / e i) * w.transpose)
          = w * (Matrix.diagonal e * (w.transpose * w) * Matrix.diagonal (fun i => 1 / e i)) * w.transpose := by
            rw [hm]; simp only [Matrix.mul_assoc]
        _ = 1 := by rw [ho', Matrix.mul_one, hD, Matrix.mul_one, ho]
    have : apply cov y = t • c := by rw [hy, apply_comp, hmul, apply_one]
    rw [add_sub_cancel_left, ← this]
    rfl
  · rw [add_sub_cancel_left, Real.sq_sqrt two_pos.le]
    have hq : ⟪t • c, y⟫ = t ^ 2 * ((w 0 0 * c 0 + w 1 0 * c 1) ^ 2 / e 0 + (w 0 1 * c 0 + w 1 1 * c 1) ^ 2 / e 1) := by
      rw [hy]
      unfold apply
      simp [Matrix.mulVec, dotProduct, Fin.sum_univ_two, Matrix.mul_apply, PiLp.inner_apply]
      ring
    rw [hq, hsym, ← hsym, hsecond, hsym]
    rw [← mul_right_inj' (two_ne_zero' ℝ)] at h3
    field_simp at h3 ⊢
    linarith

/-- **C132**, negative result: in general the end point is not `√2` standard deviations away, because the code takes the
first row of the matrix of the eigenvectors for the first eigenvector; for a covariance with the deviations one and two
the end point in the direction of the long axis is not even three quarters of a standard deviation away. -/
theorem C132_turned (mean : Vec 2) : ∃ (cov : Matrix (Fin 2) (Fin 2) ℝ) (eigh : Eigh 2) (c q : Vec 2),
    Diagonalises cov (eigh cov).1 (eigh cov).2 ∧ (∀ i, 0 < (eigh cov).1 i) ∧ ‖c‖ = 1
      ∧ endPoint eigh mean cov c = .ok q ∧ WithinDeviations mean cov (3 / 4) q
      ∧ ¬ AtDeviations mean cov (Real.sqrt 2) q := by
  have hpos : ∀ i, 0 < (![1, 4] : Fin 2 → ℝ) i := by
    intro i
    fin_cases i <;> simp
  have hc : (!₂[-4 / 5, 3 / 5] : Vec 2) ≠ 0 := by
    intro h
    have := congrArg (fun v : Vec 2 => v 0) h
    simp at this
  obtain ⟨θ, v, t, -, hcos, hsin, -, hv, hv2, ht, h3, h4⟩ := endPoint_ok (fun _ => (![1, 4], tiltedAxes)) mean tiltedCov
    (!₂[-4 / 5, 3 / 5] : Vec 2) hc tilted_diagonalises.1 hpos
  have q0 := hv2 0
  have q1 := hv2 1
  rw [hcos, hsin, div_pow, div_pow, q0, q1] at h3
  have ht2 : t ^ 2 * (2353 / 5000) = 1 := by
    simp [tiltedAxes] at h3
    norm_num at h3
    linarith
  have hinner : ∀ s : ℝ, ⟪t • (!₂[-4 / 5, 3 / 5] : Vec 2), s • (!₂[-4 / 5, 3 / 5] : Vec 2)⟫ = t * s := by
    intro s
    rw [inner_smul_left, inner_smul_right, real_inner_self_eq_norm_sq, EuclideanSpace.norm_sq_eq]
    have : ‖(-4 / 5 : ℝ)‖ ^ 2 + ‖(3 / 5 : ℝ)‖ ^ 2 = 1 := by
      rw [Real.norm_eq_abs, Real.norm_eq_abs, sq_abs, sq_abs]; norm_num
    simp only [Fin.sum_univ_two, PiLp.toLp_apply, Matrix.cons_val_zero, Matrix.cons_val_one, this]
    simp
  have hinv : tiltedCov.mulVec ((t / 4) • (!₂[-4 / 5, 3 / 5] : Vec 2)).ofLp = (t • (!₂[-4 / 5, 3 / 5] : Vec 2)).ofLp := by
    unfold tiltedCov
    funext i
    fin_cases i <;> simp [Matrix.mulVec, dotProduct, Fin.sum_univ_two] <;> ring
  refine ⟨tiltedCov, fun _ => (![1, 4], tiltedAxes), !₂[-4 / 5, 3 / 5], _, tilted_diagonalises, hpos, ?_, h4, ?_, ?_⟩
  · rw [EuclideanSpace.norm_eq, Real.sqrt_eq_one]
    simp [Fin.sum_univ_two]
    norm_num
  · refine ⟨(t / 4) • (!₂[-4 / 5, 3 / 5] : Vec 2), ?_, ?_⟩
    · rw [add_sub_cancel_left]; exact hinv
    · rw [add_sub_cancel_left, hinner]
      nlinarith
  · rintro ⟨y, hy, hy2⟩
    rw [add_sub_cancel_left] at hy hy2
    rw [Real.sq_sqrt two_pos.le] at hy2
    -- the inverse image is unique
    have e0 := congrFun hy 0
    have e1 := congrFun hy 1
    unfold tiltedCov at e0 e1
    simp [Matrix.mulVec, dotProduct, Fin.sum_univ_two] at e0 e1
    have y0 : y 0 = t / 4 * (-4 / 5) := by linarith
    have y1 : y 1 = t / 4 * (3 / 5) := by linarith
    simp [PiLp.inner_apply, Fin.sum_univ_two, y0, y1] at hy2
    nlinarith

/-- **C132** In other dimensions than two there are neither end points nor regions. -/
theorem C132_dimension {d : ℕ} (hd : d ≠ 2) (eigh : Eigh d) (mean c : Vec d) (cov : Matrix (Fin d) (Fin d) ℝ)
    (oversize : ℝ) (gs : List (Vec d × Matrix (Fin d) (Fin d) ℝ)) :
    endPoint eigh mean cov c = .error .notImplemented ∧ learnedRegions eigh oversize gs = .error .notImplemented := by
  constructor
  · unfold endPoint
    split
    · exact absurd rfl hd
    · rfl
  · unfold learnedRegions
    split
    · exact absurd rfl hd
    · rfl

/-- **C132** There is one region for every Gaussian, in the same order, around its mean. -/
theorem C132_regions (eigh : Eigh 2) (oversize : ℝ) (gs : List (Vec 2 × Matrix (Fin 2) (Fin 2) ℝ))
    (h : ∀ g ∈ gs, (eigh g.2).2 * (eigh g.2).2.transpose = 1 ∧ ∀ i, 0 < (eigh g.2).1 i) :
    ∃ es, learnedRegions eigh oversize gs = .ok es
      ∧ List.Forall₂ (fun g e => learnedRegion eigh oversize g.1 g.2 = .ok e ∧ e.center = g.1
        ∧ InEllipse e.center e.orientation e.axesLength g.1) gs es := by
  unfold learnedRegions
  simp only
  induction gs with
  | nil => exact ⟨[], rfl, List.Forall₂.nil⟩
  | cons g gs ih =>
    obtain ⟨es, h4, h5⟩ := ih (fun g hg => h g (List.mem_cons_of_mem _ hg))
    obtain ⟨ho, hp⟩ := h g List.mem_cons_self
    obtain ⟨θ, hθ, -, -⟩ := rowAngle_ok (orthogonal_rows ho).1
    have hr : learnedRegion eigh oversize g.1 g.2
        = .ok ⟨g.1, θ, fun i => Real.sqrt 2 * Real.sqrt ((eigh g.2).1 i) * oversize⟩ := by
      unfold learnedRegion
      rw [hθ, rootLengths_ok hp]
      rfl
    refine ⟨_ :: es, ?_, List.Forall₂.cons ⟨hr, rfl, ?_⟩ h5⟩
    · rw [List.mapM_cons, hr, h4]
      rfl
    · unfold InEllipse
      simp

/-- What the regions are used for: `gamma` is at least one exactly in the region, and the surface point lies on the
boundary, on the ray from the edge point. -/
structure FaithfulRegions (ext : RegionExt) : Prop where
  gamma : ∀ e x, 1 ≤ ext.gamma e x ↔ InEllipse e.center e.orientation e.axesLength x
  surface : ∀ e p dir q, ext.surface e p dir = some q →
    OnEllipse e.center e.orientation e.axesLength q ∧ ∃ s : ℝ, 0 ≤ s ∧ q = p + s • dir

lemma pyGetInt_nat {β : Type} (l : List β) (i : ℕ) (b : β) (h : l[i]? = some b) : pyGetInt l (i : ℤ) = .ok b := by
  unfold pyGetInt GraphHandler.pyGet
  simp [h]

lemma localAttractor_out (ext : RegionExt) (l : Learned) (it : ℕ) (p : ℤ)
    (region parentRegion : AnalyticEllipse 2) (edge : Vec 2) (h1 : pyGetInt l.regions it = .ok region)
    (h2 : pyGetInt l.graph.parents it = .ok p) (h3 : pyGetInt l.regions p = .ok parentRegion)
    (h4 : pyGetInt l.ends it = .ok edge) (hout : ¬ 1 ≤ ext.gamma region l.attractor) :
    localAttractor ext l it = (match ext.surface region edge (parentRegion.center - region.center) with
      | none => Except.error PyErr.breakpoint
      | some q => Except.ok q) := by
  have hdir : (-1 : ℝ) • (region.center - parentRegion.center) = parentRegion.center - region.center := by
    rw [neg_one_smul, neg_sub]
  unfold localAttractor
  rw [h1]
  show (if _ then _ else _) = _
  rw [if_neg hout]
  unfold MultiBoundary.getParent
  rw [h2]
  show (pyGetInt l.regions p >>= _) = _
  rw [h3, h4, ← hdir]
  rfl

/-- **C132** The local attractor of a region which contains the attractor is the attractor; for another region with a
parent it is a point of its boundary, on the ray from its end point in the direction from its centre to the centre of
the parent; if there is no such point, the debugger is called. -/
theorem C132_local_attractor (ext : RegionExt) (hext : FaithfulRegions ext) (l : Learned) (it parent : ℕ)
    (region parentRegion : AnalyticEllipse 2) (edge : Vec 2) (h1 : l.regions[it]? = some region)
    (h2 : l.graph.parents[it]? = some (parent : ℤ)) (h3 : l.regions[parent]? = some parentRegion)
    (h4 : l.ends[it]? = some edge) :
    (InEllipse region.center region.orientation region.axesLength l.attractor →
      localAttractor ext l it = .ok l.attractor)
    ∧ (¬ InEllipse region.center region.orientation region.axesLength l.attractor →
      (∃ q, localAttractor ext l it = .ok q ∧ OnEllipse region.center region.orientation region.axesLength q
        ∧ ∃ s : ℝ, 0 ≤ s ∧ q = edge + s • (parentRegion.center - region.center))
      ∨ (localAttractor ext l it = .error .breakpoint
        ∧ ext.surface region edge (parentRegion.center - region.center) = none)) := by
  constructor
  · intro h
    unfold localAttractor
    rw [pyGetInt_nat _ _ _ h1]
    show (if _ then _ else _) = _
    rw [if_pos ((hext.gamma _ _).mpr h)]
  · intro h
    rw [localAttractor_out ext l it parent region parentRegion edge (pyGetInt_nat _ _ _ h1) (pyGetInt_nat _ _ _ h2)
      (pyGetInt_nat _ _ _ h3) (pyGetInt_nat _ _ _ h4) (fun hg => h ((hext.gamma _ _).mp hg))]
    cases hs : ext.surface region edge (parentRegion.center - region.center) with
    | none => exact Or.inr ⟨rfl, rfl⟩
    | some q =>
      obtain ⟨k1, k2⟩ := hext.surface _ _ _ _ hs
      exact Or.inl ⟨q, rfl, k1, k2⟩

/-- **C132**, negative result: for the root (parent `-1`) whose region does not contain the attractor, the code takes
the last region for the parent: the local attractor does not depend on the attractor at all, but lies in the direction
of this region. -/
theorem C132_root_outside (ext : RegionExt) (hext : FaithfulRegions ext) (l : Learned) (it : ℕ)
    (region last : AnalyticEllipse 2) (edge : Vec 2) (h1 : l.regions[it]? = some region)
    (h2 : l.graph.parents[it]? = some (-1)) (h3 : l.regions.getLast? = some last) (h4 : l.ends[it]? = some edge)
    (hout : ¬ InEllipse region.center region.orientation region.axesLength l.attractor)
    (q : Vec 2) (hs : ext.surface region edge (last.center - region.center) = some q) :
    localAttractor ext l it = .ok q ∧ ∃ s : ℝ, 0 ≤ s ∧ q = edge + s • (last.center - region.center) := by
  refine ⟨?_, (hext.surface _ _ _ _ hs).2⟩
  have hlast : pyGetInt l.regions (-1) = .ok last := by
    rw [List.getLast?_eq_getElem?] at h3
    have hl := (List.getElem?_eq_some_iff.mp h3).1
    unfold pyGetInt GraphHandler.pyGet
    rw [if_neg (by norm_num), if_pos (by omega)]
    have : (-1 + (l.regions.length : ℤ)).toNat = l.regions.length - 1 := by omega
    rw [this, h3]
  rw [localAttractor_out ext l it (-1) region last edge (pyGetInt_nat _ _ _ h1) (pyGetInt_nat _ _ _ h2)
    hlast (pyGetInt_nat _ _ _ h4) (fun hg => hout ((hext.gamma _ _).mp hg)), hs]

lemma setDynamicsLoop_ok (ext : RegionExt) (l : Learned) (a : ℕ → Vec 2) :
    ∀ (n it : ℕ) (dynamics : List (Vec 2)), it ≤ dynamics.length →
      (∀ k, it ≤ k → k < it + n → localAttractor ext l k = .ok (a k)) →
      ∃ r, setDynamicsLoop ext l n it dynamics = .ok r ∧ r.length = max (it + n) dynamics.length
        ∧ (∀ k, it ≤ k → k < it + n → r[k]? = some (a k))
        ∧ ∀ k, (k < it ∨ it + n ≤ k) → r[k]? = dynamics[k]? := by
  intro n
  induction n with
  | zero =>
    intro it dynamics hit _
    refine ⟨dynamics, rfl, by omega, fun k h1 h2 => by omega, fun k _ => rfl⟩
  | succ n ih =>
    intro it dynamics hit h
    have hlen : (assignDynamics dynamics it (a it)).length = max (it + 1) dynamics.length := by
      unfold assignDynamics
      split_ifs with hc
      · rw [List.length_set]; omega
      · rw [List.length_append, List.length_singleton]; omega
    have hget : ∀ k, (assignDynamics dynamics it (a it))[k]? = if k = it then some (a it) else dynamics[k]? := by
      intro k
      unfold assignDynamics
      split_ifs with hc hk hk
      · rw [hk, List.getElem?_set_self hc]
      · rw [List.getElem?_set_ne (by omega)]
      · have : it = dynamics.length := by omega
        rw [hk, this, List.getElem?_concat_length]
      · by_cases hk' : k < it
        · rw [List.getElem?_append_left (by omega)]
        · rw [List.getElem?_eq_none (by rw [List.length_append, List.length_singleton]; omega),
            List.getElem?_eq_none (by omega)]
    obtain ⟨r, e1, e2, e3, e4⟩ := ih (it + 1) (assignDynamics dynamics it (a it)) (by omega)
      (fun k hk hk' => h k (by omega) (by omega))
    refine ⟨r, ?_, by rw [e2, hlen]; omega, fun k h1 h2 => ?_, fun k hk => ?_⟩
    · rw [setDynamicsLoop, h it le_rfl (by omega)]
      exact e1
    · by_cases hk : k = it
      · rw [e4 k (Or.inl (by omega)), hget, if_pos hk, hk]
      · exact e3 k (by omega) (by omega)
    · rw [e4 k (by omega), hget, if_neg (by omega)]

/-- **C132** `set_convergence_directions` gives every region the linear system of its local attractor, whatever was set
before; a second call changes nothing. -/
theorem C132_dynamics (ext : RegionExt) (l : Learned) (a : ℕ → Vec 2)
    (h : ∀ k < l.regions.length, localAttractor ext l k = .ok (a k)) (before : List (Vec 2)) :
    ∃ r, setDynamics ext l before = .ok r ∧ r.length = max l.regions.length before.length
      ∧ (∀ k < l.regions.length, r[k]? = some (a k)) ∧ setDynamics ext l r = .ok r := by
  obtain ⟨r, e1, e2, e3, e4⟩ := setDynamicsLoop_ok ext l a l.regions.length 0 before (Nat.zero_le _)
    (fun k _ hk => h k (by omega))
  obtain ⟨r', f1, f2, f3, f4⟩ := setDynamicsLoop_ok ext l a l.regions.length 0 r (Nat.zero_le _)
    (fun k _ hk => h k (by omega))
  rw [Nat.zero_add] at e2 f2
  refine ⟨r, e1, e2, fun k hk => e3 k (Nat.zero_le _) (by omega), ?_⟩
  unfold setDynamics
  rw [f1]
  congr 1
  apply List.ext_getElem?
  intro k
  by_cases hk : k < l.regions.length
  · rw [f3 k (Nat.zero_le _) (by omega), e3 k (Nat.zero_le _) (by omega)]
  · exact f4 k (Or.inr (by omega))

/-- **C132** As soon as one region has no local attractor, `set_convergence_directions` fails in the same way as its
evaluation. -/
theorem C132_dynamics_error (ext : RegionExt) (l : Learned) (a : ℕ → Vec 2) (k : ℕ) (hk : k < l.regions.length)
    (h : ∀ j < k, localAttractor ext l j = .ok (a j)) (e : PyErr) (he : localAttractor ext l k = .error e)
    (before : List (Vec 2)) : setDynamics ext l before = .error e := by
  have key : ∀ (n it : ℕ) (dyn : List (Vec 2)), it ≤ k → k < it + n → setDynamicsLoop ext l n it dyn = .error e := by
    intro n
    induction n with
    | zero => intro it dyn h1 h2; omega
    | succ n ih =>
      intro it dyn h1 h2
      rw [setDynamicsLoop]
      by_cases hk : it = k
      · rw [hk, he]
      · rw [h it (by omega)]
        exact ih (it + 1) _ (by omega) (by omega)
  exact key _ 0 before (Nat.zero_le _) (by omega)

/-! ## The hypotheses can be met -/

/-- The tilted covariance, with the eigenvectors as a reflection: the hypotheses of `C132_deviations_partial` and of
`C132_end_point`. -/
example (c : Vec 2) (hc : c ≠ 0) : ∃ q, endPoint (fun _ => (![1, 4], !![3 / 5, 4 / 5; 4 / 5, -3 / 5])) 0 tiltedCov c = .ok q
    ∧ AtDeviations 0 tiltedCov (Real.sqrt 2) q := by
  refine C132_deviations_partial _ 0 tiltedCov c hc ?_ ?_ ?_
  · unfold Diagonalises tiltedCov
    constructor
    · ext i j
      fin_cases i <;> fin_cases j <;> simp [Matrix.mul_apply, Fin.sum_univ_two] <;> norm_num
    · simp only [diagonal_one_four]
      ext i j
      fin_cases i <;> fin_cases j <;> simp [Matrix.mul_apply, Fin.sum_univ_two] <;> norm_num
  · intro i
    fin_cases i <;> simp
  · ext i j
    fin_cases i <;> fin_cases j <;> simp

/-- Faithful external functions. -/
noncomputable def exactRegions : RegionExt where
  gamma e x := open Classical in if InEllipse e.center e.orientation e.axesLength x then 1 else 0
  surface e p dir := open Classical in
    if h : ∃ q, OnEllipse e.center e.orientation e.axesLength q ∧ ∃ s : ℝ, 0 ≤ s ∧ q = p + s • dir then some h.choose
    else none

lemma exactRegions_faithful : FaithfulRegions exactRegions where
  gamma e x := by
    unfold exactRegions
    by_cases h : InEllipse e.center e.orientation e.axesLength x
    · simp [h]
    · simp only [h, if_false, iff_false, not_le]; norm_num
  surface e p dir q h := by
    unfold exactRegions at h
    simp only at h
    split_ifs at h with hq
    rw [Option.some.injEq] at h
    rw [← h]
    exact hq.choose_spec

/-- Two discs of radius one, three apart; the attractor is the centre of the first one, the root. -/
noncomputable def twoRegions : Learned where
  regions := [⟨0, 0, fun _ => 2⟩, ⟨!₂[3, 0], 0, fun _ => 2⟩]
  ends := [0, !₂[2, 0]]
  graph := ⟨[-1, 0], [[1], []]⟩
  attractor := 0

/-- `C132_local_attractor` and `C132_dynamics` apply: the root converges to the attractor, the second region to a
point of its boundary. -/
example : ∃ q r, localAttractor exactRegions twoRegions 1 = .ok q ∧ OnEllipse !₂[3, 0] 0 (fun _ => 2) q
    ∧ setDynamics exactRegions twoRegions [] = .ok r ∧ r[0]? = some 0 ∧ r[1]? = some q := by
  have hroot : localAttractor exactRegions twoRegions 0 = .ok 0 := by
    unfold localAttractor
    rw [show pyGetInt twoRegions.regions ((0 : ℕ) : ℤ) = .ok ⟨0, 0, fun _ => 2⟩ from pyGetInt_nat _ _ _ rfl]
    show (if _ then _ else _) = _
    rw [if_pos ((exactRegions_faithful.gamma _ _).mpr ?_)]
    · rfl
    · unfold InEllipse twoRegions
      simp
  have hout : ¬ InEllipse (!₂[3, 0] : Vec 2) 0 (fun _ => 2) (0 : Vec 2) := by
    unfold InEllipse
    simp
  obtain ⟨q, h1, h2⟩ : ∃ q, localAttractor exactRegions twoRegions 1 = .ok q ∧ OnEllipse !₂[3, 0] 0 (fun _ => 2) q := by
    rcases (C132_local_attractor exactRegions exactRegions_faithful twoRegions 1 0 ⟨!₂[3, 0], 0, fun _ => 2⟩
      ⟨0, 0, fun _ => 2⟩ !₂[2, 0] rfl rfl rfl rfl).2 hout with ⟨q, h1, h2, -⟩ | ⟨-, h⟩
    · exact ⟨q, h1, h2⟩
    · exfalso
      unfold exactRegions at h
      simp only [dite_eq_right_iff] at h
      refine absurd (h ⟨!₂[2, 0], ?_, 0, le_rfl, by simp⟩) (by simp)
      unfold OnEllipse
      simp
      norm_num
  obtain ⟨r, k1, -, k2, -⟩ := C132_dynamics exactRegions twoRegions (fun k => if k = 0 then 0 else q) (by
    intro k hk
    have : k < 2 := hk
    interval_cases k
    · exact hroot
    · exact h1) []
  exact ⟨q, r, h1, h2, k1, k2 0 (by decide), k2 1 (by decide)⟩

end Verif.Gmm
