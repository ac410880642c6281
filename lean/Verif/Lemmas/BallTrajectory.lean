import Verif.Lemmas.BallAvoider
import Verif.Lemmas.Barrier

/-! # Helper lemmas: the distance from a ball along a trajectory -/

open scoped RealInnerProductSpace
open Set

namespace Verif
open Spec

section
variable {V : Type*} [NormedAddCommGroup V] [InnerProductSpace ℝ V]

lemma dist_deriv {x : ℝ → V} {vel c : V} {S : Set ℝ} {t : ℝ} (h : HasDerivWithinAt x vel S t) (hc : x t - c ≠ 0) :
    HasDerivWithinAt (fun s => ‖x s - c‖) ⟪unit (x t - c), vel⟫ S t := by
  have h1 := (h.sub_const c).norm_sq
  have h2 := h1.sqrt (by simpa using hc)
  have e : (fun s => √(‖x s - c‖ ^ 2)) = fun s => ‖x s - c‖ := by
    funext s; exact Real.sqrt_sq (norm_nonneg _)
  rw [e, Real.sqrt_sq (norm_nonneg _)] at h2
  convert h2 using 1
  unfold unit
  rw [real_inner_smul_left]
  have : ‖x t - c‖ ≠ 0 := by simpa using hc
  field_simp

lemma axis_deriv {x : ℝ → V} {vel c u : V} {S : Set ℝ} {t : ℝ} (h : HasDerivWithinAt x vel S t) (hc : x t - c ≠ 0) :
    HasDerivWithinAt (fun s => ⟪unit (x s - c), u⟫)
      ((⟪u, vel⟫ - ⟪unit (x t - c), vel⟫ * ⟪unit (x t - c), u⟫) / ‖x t - c‖) S t := by
  have h1 := dist_deriv h hc
  have hz : ‖x t - c‖ ≠ 0 := by simpa using hc
  have h2 := h1.inv hz
  have h3 := (h.sub_const c).inner ℝ (hasDerivWithinAt_const t S u)
  have h4 := h2.mul h3
  have e : (fun s => ⟪unit (x s - c), u⟫) = (fun s => ‖x s - c‖)⁻¹ * fun s => ⟪x s - c, u⟫ := by
    funext s
    unfold unit
    rw [real_inner_smul_left, one_div]
    rfl
  rw [e]
  refine h4.congr_deriv ?_
  unfold unit
  simp only [real_inner_smul_left, inner_zero_right, zero_add, Pi.inv_apply]
  rw [real_inner_comm vel u]
  field_simp
  ring

lemma inner_axis {z u : V} (hz : 0 < ‖z‖) : ⟪z, u⟫ = ‖z‖ * ⟪unit z, u⟫ := by
  unfold unit
  rw [real_inner_smul_left]
  field_simp

end

variable {d k : ℕ} [Fact (2 ≤ d)]

lemma ballPower_mono {power φ ψ : ℝ} (hp : 0 ≤ power) (hφ : 0 < φ) (h : φ ≤ ψ) :
    ballPower power ψ ≤ ballPower power φ := by
  unfold ballPower
  have hpi := Real.pi_pos
  have hψ := hφ.trans_le h
  refine Real.rpow_le_rpow (by positivity) ?_ hp
  exact div_le_div_of_nonneg_left (by positivity) hφ h

lemma BallDirection.tolerance {power : ℝ} {n v D : Vec d} (hn : ‖n‖ = 1) {δ : ℝ}
    (h : |⟪n, v⟫| ≤ δ ∧ ‖D - v‖ ≤ Real.pi / 2 * δ) :
    -((1 + Real.pi / 2) * δ) ≤ ⟪n, D⟫ := by
  have e : ⟪n, D⟫ = ⟪n, v⟫ + ⟪n, D - v⟫ := by rw [← inner_add_right]; simp
  have h1 := (abs_le.mp h.1).1
  have h2 := (abs_le.mp (abs_real_inner_le_norm n (D - v))).1
  rw [hn, one_mul] at h2
  rw [e]
  nlinarith [h.2]

/-- How fast the avoider can approach a ball. -/
lemma ball_rate {power : ℝ} (hp : 0 ≤ power) {n v D : Vec d} {y φ : ℝ} (hn : ‖n‖ = 1) (hv : ‖v‖ = 1) (hy : 0 ≤ y)
    (hφ : 0 < φ) (hang : φ ≤ InnerProductGeometry.angle (-n) v) (h : BallDirection power n v D y) :
    -(Real.pi / 2 * ballPower power φ * y) ≤ ⟪n, D⟫
    ∨ (|⟪n, v⟫| ≤ closeness d ∧ -((1 + Real.pi / 2) * closeness d) ≤ ⟪n, D⟫) := by
  have hpi := Real.pi_pos
  have hP : 0 ≤ ballPower power φ := by unfold ballPower; positivity
  rcases h.cases with ⟨w, w0, w1, hs, hw⟩ | ht
  · left
    rcases le_or_gt 0 ⟪n, v⟫ with hq | hq
    · have := hs.away hq
      have : 0 ≤ Real.pi / 2 * ballPower power φ * y := by positivity
      linarith [hs.away hq]
    · have h1 := (hs.towards hq.le).2
      have h2 := (hw hq).trans (mul_le_mul_of_nonneg_right (ballPower_mono hp hφ hang) hy)
      have h3 : -1 ≤ ⟪n, v⟫ := by
        have := (abs_le.mp (abs_real_inner_le_norm n v)).1
        rw [hn, hv] at this; linarith
      have h4 : (1 - w) * (Real.pi / 2 * -1) ≤ (1 - w) * (Real.pi / 2 * ⟪n, v⟫) :=
        mul_le_mul_of_nonneg_left (mul_le_mul_of_nonneg_left h3 (by positivity)) (by linarith)
      nlinarith
  · exact Or.inr ⟨ht.1, BallDirection.tolerance (power := power) hn ht⟩

/-- How the avoider passes a ball: the position turns around the ball, and approaches it only slowly. -/
lemma ball_pass {power : ℝ} (hp : 0 ≤ power) (hd : closeness d ≤ 1 / 10) {n v D : Vec d} {y φ : ℝ} (hn : ‖n‖ = 1)
    (hv : ‖v‖ = 1) (hy : 0 ≤ y) (hφ : 0 < φ) (hang : φ ≤ InnerProductGeometry.angle (-n) v)
    (h : BallDirection power n v D y) :
    (1 - ⟪n, v⟫ ^ 2 ≤ ⟪v, D⟫ - ⟪n, D⟫ * ⟪n, v⟫ ∧ (0 ≤ ⟪n, v⟫ → 0 ≤ ⟪n, D⟫)
      ∧ (⟪n, v⟫ ≤ 0 → Real.pi / 2 * ballPower power φ * y * ⟪n, v⟫ ≤ ⟪n, D⟫))
    ∨ (1 / 2 ≤ ⟪v, D⟫ - ⟪n, D⟫ * ⟪n, v⟫ ∧ |⟪n, v⟫| ≤ closeness d
      ∧ -((1 + Real.pi / 2) * closeness d) ≤ ⟪n, D⟫) := by
  have hpi := Real.pi_pos
  have hpi2 := Real.pi_lt_d2
  have hP : 0 ≤ ballPower power φ := by unfold ballPower; positivity
  rcases h.cases with ⟨w, w0, w1, hs, hw⟩ | ht
  · left
    refine ⟨hs.turns, hs.away, ?_⟩
    intro hq
    rcases hq.eq_or_lt with hq0 | hq
    · rw [hq0, mul_zero]; exact hs.away hq0.ge
    · have h1 := (hs.towards hq.le).2
      have h2 := (hw hq).trans (mul_le_mul_of_nonneg_right (ballPower_mono hp hφ hang) hy)
      have h3 := mul_le_mul_of_nonpos_right h2 (show Real.pi / 2 * ⟪n, v⟫ ≤ 0 by nlinarith)
      nlinarith
  · right
    refine ⟨?_, ht.1, BallDirection.tolerance (power := power) hn ht⟩
    have h1 : ⟪v, D⟫ = 1 - ‖D - v‖ ^ 2 / 2 := by
      have := norm_sub_sq_real D v
      rw [hv, h.unit, real_inner_comm] at this
      linarith
    have h2 : |⟪n, D⟫| ≤ 1 := by
      have := abs_real_inner_le_norm n D
      rwa [hn, h.unit, mul_one] at this
    have h3 : ⟪n, D⟫ * ⟪n, v⟫ ≤ 1 / 10 := by
      calc ⟪n, D⟫ * ⟪n, v⟫ ≤ |⟪n, D⟫ * ⟪n, v⟫| := le_abs_self _
        _ = |⟪n, D⟫| * |⟪n, v⟫| := abs_mul _ _
        _ ≤ 1 * (1 / 10) := mul_le_mul h2 (ht.1.trans hd) (abs_nonneg _) zero_le_one
        _ = 1 / 10 := by norm_num
    have h4 : ‖D - v‖ ≤ 2 / 10 := by
      refine ht.2.trans ?_
      nlinarith
    have h5 : ‖D - v‖ ^ 2 ≤ (2 / 10) ^ 2 := pow_le_pow_left₀ (norm_nonneg _) h4 2
    rw [h1]
    linarith

set_option maxHeartbeats 1000000 in
/-- A straight motion never comes closer to a ball than a part of the initial clearance. -/
lemma straight_clearance {power κ r T : ℝ} (hp : 0 ≤ power) (hd : closeness d ≤ 1 / 10) (hκ : 0 < κ) (hr : 0 < r)
    {c u : Vec d} (hu : ‖u‖ = 1) {x : ℝ → Vec d} (h0 : r < ‖x 0 - c‖) (hne : u ≠ -unit (x 0 - c))
    (hx : ∀ t ∈ Icc 0 T, ∃ vel, HasDerivWithinAt x vel (Icc 0 T) t ∧ (r < ‖x t - c‖ → u ≠ -unit (x t - c) →
      vel = 0 ∨ ∃ (D : Vec d) (l : ℝ), 0 ≤ l ∧ vel = l • D ∧ BallDirection power (unit (x t - c)) u D (κ * (‖x t - c‖ - r))))
    (a : ℝ) (ha : a = Real.pi / 2 * κ * r * ballPower power (InnerProductGeometry.angle (-unit (x 0 - c)) u))
    (B : ℝ) (hB : B = min (‖x 0 - c‖ - r) r * ((1 + ⟪unit (x 0 - c), u⟫) / 2) ^ a
      - 8 * Real.pi * (1 + Real.pi / 2) * r * closeness d ^ 2) (hBpos : 0 < B) :
    ∀ t ∈ Icc 0 T, B ≤ ‖x t - c‖ - r := by
  classical
  choose! vel hvel hvd using hx
  have hpi := Real.pi_pos
  have hη : 0 < closeness d := closeness_pos
  set η := closeness d with hηd
  set q : ℝ → ℝ := fun s => ⟪unit (x s - c), u⟫ with hq
  set P := ballPower power (InnerProductGeometry.angle (-unit (x 0 - c)) u) with hP
  have hz : ∀ {s}, r < ‖x s - c‖ → x s - c ≠ 0 := by
    intro s hs h; rw [h, norm_zero] at hs; linarith
  have hnn : ∀ {s}, r < ‖x s - c‖ → ‖unit (x s - c)‖ = 1 := fun hs => unit_norm (hz hs)
  have hqle : ∀ {s}, r < ‖x s - c‖ → q s ≤ 1 := by
    intro s hs
    have := real_inner_le_norm (unit (x s - c)) u
    rwa [hnn hs, hu, mul_one] at this
  have hqge : ∀ {s}, r < ‖x s - c‖ → -1 ≤ q s := by
    intro s hs
    have := (abs_le.mp (abs_real_inner_le_norm (unit (x s - c)) u)).1
    rwa [hnn hs, hu, mul_one] at this
  have hqiff : ∀ {s}, r < ‖x s - c‖ → (u ≠ -unit (x s - c) ↔ -1 < q s) := by
    intro s hs
    have hneg : ‖-unit (x s - c)‖ = 1 := by rw [norm_neg]; exact hnn hs
    constructor
    · intro h
      refine lt_of_le_of_ne (hqge hs) ?_
      intro he
      apply h
      refine ((inner_eq_one_iff_of_norm_eq_one (𝕜 := ℝ) hneg hu).mp ?_).symm
      rw [inner_neg_left]
      change -(q s) = 1
      rw [← he]; norm_num
    · intro h he
      have : q s = -1 := by
        change ⟪unit (x s - c), u⟫ = -1
        rw [he, inner_neg_right, real_inner_self_eq_norm_sq, hnn hs]; norm_num
      linarith
  have hq0 : -1 < q 0 := (hqiff h0).mp hne
  have hang0 : 0 < InnerProductGeometry.angle (-unit (x 0 - c)) u := by
    rcases (InnerProductGeometry.angle_nonneg (-unit (x 0 - c)) u).eq_or_lt with h | h
    · exfalso
      have h1 := InnerProductGeometry.cos_angle (-unit (x 0 - c)) u
      rw [← h, Real.cos_zero, norm_neg, hnn h0, hu, inner_neg_left] at h1
      change 1 = -(q 0) / _ at h1
      norm_num at h1
      linarith
    · exact h
  have hPpos : 0 < P := by rw [hP]; unfold ballPower; positivity
  have hapos : 0 < a := by rw [ha]; positivity
  set qd : ℝ → ℝ := fun s => (⟪u, vel s⟫ - ⟪unit (x s - c), vel s⟫ * q s) / ‖x s - c‖ with hqd
  have hcont : ContinuousOn x (Icc 0 T) := fun t ht => (hvel t ht).continuousWithinAt
  -- as long as the motion stays outside and is not head-on
  have inner : ∀ t ∈ Icc 0 T, (∀ s ∈ Icc 0 t, r < ‖x s - c‖ ∧ u ≠ -unit (x s - c)) →
      q 0 ≤ q t ∧ B ≤ ‖x t - c‖ - r := by
    intro t ht hout
    have hqder : ∀ s ∈ Icc 0 t, HasDerivWithinAt q (qd s) (Icc 0 T) s := fun s hs =>
      axis_deriv (hvel s ⟨hs.1, hs.2.trans ht.2⟩) (hz (hout s hs).1)
    have hfder : ∀ s ∈ Icc 0 t, HasDerivWithinAt (fun s => ‖x s - c‖ - r) ⟪unit (x s - c), vel s⟫ (Icc 0 T) s :=
      fun s hs => (dist_deriv (hvel s ⟨hs.1, hs.2.trans ht.2⟩) (hz (hout s hs).1)).sub_const r
    have hturn : ∀ s ∈ Icc 0 t, 0 ≤ qd s := by
      intro s hs
      obtain ⟨ho, hun⟩ := hout s hs
      have hρ : 0 < ‖x s - c‖ := hr.trans ho
      rcases hvd s ⟨hs.1, hs.2.trans ht.2⟩ ho hun with h | ⟨D, l, l0, e, hD⟩
      · simp only [hqd, h, inner_zero_right]; simp
      · have hang : 0 < InnerProductGeometry.angle (-unit (x s - c)) u := by
          rcases (InnerProductGeometry.angle_nonneg (-unit (x s - c)) u).eq_or_lt with h | h
          · exfalso
            have h1 := InnerProductGeometry.cos_angle (-unit (x s - c)) u
            rw [← h, Real.cos_zero, norm_neg, hnn ho, hu, inner_neg_left] at h1
            change 1 = -(q s) / _ at h1
            norm_num at h1
            have := (hqiff ho).mp hun
            linarith
          · exact h
        have hb := ball_pass hp hd (hnn ho) hu (mul_nonneg hκ.le (by linarith)) hang le_rfl hD
        have hq2 : q s ^ 2 ≤ 1 := by nlinarith [hqle ho, hqge ho]
        have hN : 0 ≤ ⟪u, D⟫ - ⟪unit (x s - c), D⟫ * q s := by
          rcases hb with ⟨h1, _⟩ | ⟨h1, _⟩
          · change 1 - q s ^ 2 ≤ _ at h1; exact le_trans (by linarith) h1
          · exact le_trans (by norm_num) h1
        simp only [hqd, e, real_inner_smul_right]
        refine div_nonneg ?_ hρ.le
        have := mul_nonneg l0 hN
        linarith
    have hqmono : ∀ s ∈ Icc 0 t, ∀ s' ∈ Icc s t, q s ≤ q s' := by
      intro s hs s' hs'
      exact grows hs'.1 hs.1 (hs'.2.trans ht.2)
        (fun w hw => hqder w ⟨hs.1.trans hw.1, hw.2.trans hs'.2⟩)
        (fun w hw => hturn w ⟨hs.1.trans hw.1, hw.2.trans hs'.2⟩)
    refine ⟨hqmono 0 ⟨le_rfl, ht.1⟩ t ⟨ht.1, le_rfl⟩, ?_⟩
    set y1 := min (‖x 0 - c‖ - r) r with hy1
    have hy1pos : 0 < y1 := lt_min (by linarith) hr
    have hG0 : 0 < (1 + q 0) / 2 := by linarith
    have hG1 : ((1 + q 0) / 2) ^ a ≤ 1 := Real.rpow_le_one hG0.le (by linarith [hqle h0]) hapos.le
    have htol : 0 ≤ 8 * Real.pi * (1 + Real.pi / 2) * r * η ^ 2 := by positivity
    by_cases hcl : y1 ≤ ‖x t - c‖ - r
    · have : B ≤ y1 := by
        rw [hB]
        have := mul_le_mul_of_nonneg_left hG1 hy1pos.le
        change y1 * ((1 + q 0) / 2) ^ a - _ ≤ y1
        linarith
      linarith
    obtain ⟨s, hs, hys, hbelow⟩ := last_time (y := fun s => ‖x s - c‖ - r)
      (((hcont.sub continuousOn_const).norm).sub continuousOn_const) ht (min_le_left _ r) (not_le.mp hcl).le
    have hst : ∀ w ∈ Icc s t, w ∈ Icc 0 t := fun w hw => ⟨hs.1.trans hw.1, hw.2⟩
    have hρ2 : ∀ w ∈ Icc s t, ‖x w - c‖ ≤ 2 * r := by
      intro w hw
      have := hbelow w hw
      have h2 : y1 ≤ r := min_le_right _ _
      linarith
    set A := 8 * r * η * ((1 + Real.pi / 2) * η) with hA
    have hA0 : 0 ≤ A := by positivity
    have hqs : ∀ w ∈ Icc s t, q 0 ≤ q w := fun w hw =>
      hqmono 0 ⟨le_rfl, ht.1⟩ w ⟨(hst w hw).1, (hst w hw).2⟩
    have hmain := grows (a := s) (b := t) (T := T)
      (f := fun w => (‖x w - c‖ - r) * ((1 + q w) / 2) ^ a + A * Real.arctan (q w / η))
      (f' := fun w => ⟪unit (x w - c), vel w⟫ * ((1 + q w) / 2) ^ a
        + (‖x w - c‖ - r) * (qd w / 2 * a * ((1 + q w) / 2) ^ (a - 1))
        + A * (1 / (1 + (q w / η) ^ 2) * (qd w / η))) hs.2 hs.1 ht.2
      (by
        intro w hw
        have hw' := hst w hw
        have hg : 0 < (1 + q w) / 2 := by linarith [hqs w hw]
        have d1 := (((hqder w hw').const_add 1).div_const 2).rpow_const (p := a) (Or.inl hg.ne')
        have d2 := ((hqder w hw').div_const η).arctan
        exact (((hfder w hw').mul d1)).add (d2.const_mul A))
      (by
        intro w hw
        have hw' := hst w hw
        obtain ⟨ho, hun⟩ := hout w hw'
        have hρ : 0 < ‖x w - c‖ := hr.trans ho
        have hg : 0 < (1 + q w) / 2 := by linarith [hqs w hw]
        have hg1 : ((1 + q w) / 2) ^ a ≤ 1 := Real.rpow_le_one hg.le (by linarith [hqle ho]) hapos.le
        have hgp : 0 < ((1 + q w) / 2) ^ a := Real.rpow_pos_of_pos hg a
        have hgp1 : ((1 + q w) / 2) ^ (a - 1) = ((1 + q w) / 2) ^ a / ((1 + q w) / 2) := by
          rw [Real.rpow_sub hg, Real.rpow_one]
        have hf0 : 0 < ‖x w - c‖ - r := by linarith
        have hqd0 := hturn w hw'
        have hat : 0 ≤ A * (1 / (1 + (q w / η) ^ 2) * (qd w / η)) := by positivity
        have hmid : 0 ≤ (‖x w - c‖ - r) * (qd w / 2 * a * ((1 + q w) / 2) ^ (a - 1)) := by positivity
        rcases hvd w ⟨hw'.1, hw'.2.trans ht.2⟩ ho hun with h | ⟨D, l, l0, e, hD⟩
        · rw [h, inner_zero_right, zero_mul]; linarith
        · have hang : InnerProductGeometry.angle (-unit (x 0 - c)) u
              ≤ InnerProductGeometry.angle (-unit (x w - c)) u := by
            unfold InnerProductGeometry.angle
            refine Real.arccos_le_arccos ?_
            rw [norm_neg, norm_neg, hnn ho, hnn h0, hu, inner_neg_left, inner_neg_left]
            have := hqs w hw
            simp only [mul_one, div_one]
            exact neg_le_neg this
          have hqle' := hqle ho
          rcases ball_pass hp hd (hnn ho) hu (mul_nonneg hκ.le hf0.le) hang0 hang hD with
            ⟨h1, h2, h3⟩ | ⟨h1, h2, h3⟩
          · rcases le_total 0 (q w) with hqw | hqw
            · have : 0 ≤ ⟪unit (x w - c), vel w⟫ := by
                rw [e, real_inner_smul_right]; exact mul_nonneg l0 (h2 hqw)
              have := mul_nonneg this hgp.le
              linarith
            · have h4 := h3 hqw
              change Real.pi / 2 * P * (κ * (‖x w - c‖ - r)) * q w ≤ _ at h4
              change 1 - q w ^ 2 ≤ ⟪u, D⟫ - ⟪unit (x w - c), D⟫ * q w at h1
              have hqdw : l * (1 - q w ^ 2) / (2 * r) ≤ qd w := by
                have e1 : qd w = l * (⟪u, D⟫ - ⟪unit (x w - c), D⟫ * q w) / ‖x w - c‖ := by
                  simp only [hqd, e, real_inner_smul_right]; ring
                rw [e1]
                have hq2 : 0 ≤ 1 - q w ^ 2 := by nlinarith [hqge ho]
                calc l * (1 - q w ^ 2) / (2 * r) ≤ l * (1 - q w ^ 2) / ‖x w - c‖ :=
                      div_le_div_of_nonneg_left (mul_nonneg l0 hq2) hρ (hρ2 w hw)
                  _ ≤ _ := div_le_div_of_nonneg_right (mul_le_mul_of_nonneg_left h1 l0) hρ.le
              rw [e, real_inner_smul_right, hgp1]
              have key : 0 ≤ l * ⟪unit (x w - c), D⟫
                  + (‖x w - c‖ - r) * (qd w / 2 * a * (1 / ((1 + q w) / 2))) := by
                have h5 := mul_le_mul_of_nonneg_left h4 l0
                have h6 : l * (1 - q w) / (2 * r) ≤ qd w / (1 + q w) := by
                  rw [le_div_iff₀ (by linarith)]
                  refine le_trans (le_of_eq ?_) hqdw
                  ring
                have h7 : qd w / 2 * a * (1 / ((1 + q w) / 2)) = a * (qd w / (1 + q w)) := by
                  have : 1 + q w ≠ 0 := by linarith
                  field_simp
                rw [h7]
                have h8 : a * (l * (1 - q w) / (2 * r)) ≤ a * (qd w / (1 + q w)) :=
                  mul_le_mul_of_nonneg_left h6 hapos.le
                have h9 : a * (l * (1 - q w) / (2 * r)) = Real.pi / 2 * κ * P * l * (1 - q w) / 2 := by
                  rw [ha]; field_simp
                rw [h9] at h8
                have h10 := mul_le_mul_of_nonneg_left h8 hf0.le
                have h11 : 0 ≤ Real.pi / 2 * P * κ * l * (‖x w - c‖ - r) := by positivity
                nlinarith
              have h12 := mul_nonneg key hgp.le
              have h13 : (l * ⟪unit (x w - c), D⟫
                  + (‖x w - c‖ - r) * (qd w / 2 * a * (1 / ((1 + q w) / 2)))) * ((1 + q w) / 2) ^ a
                  = l * ⟪unit (x w - c), D⟫ * ((1 + q w) / 2) ^ a
                    + (‖x w - c‖ - r) * (qd w / 2 * a * (((1 + q w) / 2) ^ a / ((1 + q w) / 2))) := by ring
              rw [h13] at h12
              linarith
          · have e1 : qd w = l * (⟪u, D⟫ - ⟪unit (x w - c), D⟫ * q w) / ‖x w - c‖ := by
              simp only [hqd, e, real_inner_smul_right]; ring
            have hqdw : l / (4 * r) ≤ qd w := by
              rw [e1, div_le_div_iff₀ (by positivity) hρ]
              have i1 := mul_le_mul_of_nonneg_left h1 l0
              have i2 := hρ2 w hw
              change l * (1 / 2) ≤ l * (⟪u, D⟫ - ⟪unit (x w - c), D⟫ * q w) at i1
              nlinarith
            have hden : 1 / 2 ≤ 1 / (1 + (q w / η) ^ 2) := by
              refine one_div_le_one_div_of_le (by positivity) ?_
              have : (q w / η) ^ 2 ≤ 1 := by
                rw [div_pow, div_le_one (by positivity)]
                exact sq_le_sq' (abs_le.mp h2).1 (abs_le.mp h2).2
              linarith
            have i3 : (1 + Real.pi / 2) * η * l ≤ A * (1 / (1 + (q w / η) ^ 2) * (qd w / η)) := by
              calc (1 + Real.pi / 2) * η * l = A * (1 / 2 * (l / (4 * r) / η)) := by
                    rw [hA]; field_simp; ring
                _ ≤ A * (1 / (1 + (q w / η) ^ 2) * (qd w / η)) := by
                    refine mul_le_mul_of_nonneg_left ?_ hA0
                    refine mul_le_mul hden ?_ (by positivity) (by positivity)
                    exact div_le_div_of_nonneg_right hqdw hη.le
            have i4 : -((1 + Real.pi / 2) * η * l) ≤ ⟪unit (x w - c), vel w⟫ * ((1 + q w) / 2) ^ a := by
              rw [e, real_inner_smul_right]
              have j1 := mul_le_mul_of_nonneg_left h3 l0
              have j2 : 0 ≤ (1 + Real.pi / 2) * η * l := by positivity
              have j3 : -((1 + Real.pi / 2) * η * l) ≤ l * ⟪unit (x w - c), D⟫ := by linarith
              nlinarith
            linarith)
    simp only [hys] at hmain
    have k1 : y1 * ((1 + q 0) / 2) ^ a ≤ y1 * ((1 + q s) / 2) ^ a := by
      refine mul_le_mul_of_nonneg_left ?_ hy1pos.le
      exact Real.rpow_le_rpow hG0.le (by linarith [hqs s ⟨le_rfl, hs.2⟩]) hapos.le
    have k2 : (‖x t - c‖ - r) * ((1 + q t) / 2) ^ a ≤ ‖x t - c‖ - r := by
      have ho := (hout t ⟨ht.1, le_rfl⟩).1
      have hg : 0 < (1 + q t) / 2 := by linarith [hqs t ⟨hs.2, le_rfl⟩]
      have := mul_le_mul_of_nonneg_left
        (Real.rpow_le_one hg.le (by linarith [hqle ho]) hapos.le) (show 0 ≤ ‖x t - c‖ - r by linarith)
      linarith
    have k3 : A * Real.arctan (q t / η) ≤ A * (Real.pi / 2) :=
      mul_le_mul_of_nonneg_left (Real.arctan_lt_pi_div_two _).le hA0
    have k4 : A * -(Real.pi / 2) ≤ A * Real.arctan (q s / η) :=
      mul_le_mul_of_nonneg_left (Real.neg_pi_div_two_lt_arctan _).le hA0
    have k5 : A * Real.pi = 8 * Real.pi * (1 + Real.pi / 2) * r * η ^ 2 := by rw [hA]; ring
    have k6 : B = y1 * ((1 + q 0) / 2) ^ a - A * Real.pi := by rw [hB, k5]
    rw [k6]
    linarith
  -- the motion stays outside and never becomes head-on
  have hpos := keeps_above (T := T) (y := fun s => min (‖x s - c‖ - r) (⟪x s - c, u⟫ + ‖x s - c‖))
    (B := fun _ => min B (r * (1 + q 0))) ?_ continuousOn_const ?_ ?_ ?_
  · intro t ht
    refine (inner t ht ?_).2
    intro s hs
    have h1 := hpos s ⟨hs.1, hs.2.trans ht.2⟩
    have h2 : 0 < min B (r * (1 + q 0)) := lt_min hBpos (mul_pos hr (by linarith))
    have h3 := lt_of_lt_of_le h2 h1
    obtain ⟨h4, h5⟩ := lt_min_iff.mp h3
    have ho : r < ‖x s - c‖ := by linarith
    refine ⟨ho, (hqiff ho).mpr ?_⟩
    have : ⟪x s - c, u⟫ = ‖x s - c‖ * q s := by
      exact inner_axis (hr.trans ho)
    rw [this] at h5
    have hρ := hr.trans ho
    by_contra hc
    nlinarith
  · have hc1 : ContinuousOn (fun s => x s - c) (Icc 0 T) := hcont.sub continuousOn_const
    exact (hc1.norm.sub continuousOn_const).inf ((hc1.inner continuousOn_const).add hc1.norm)
  · intro t ht
    exact lt_min hBpos (mul_pos hr (by linarith))
  · refine lt_min (by linarith) ?_
    have : ⟪x 0 - c, u⟫ = ‖x 0 - c‖ * q 0 := by
      exact inner_axis (hr.trans h0)
    rw [this]
    have := hr.trans h0
    nlinarith
  · intro t ht hall
    have hout : ∀ s ∈ Icc 0 t, r < ‖x s - c‖ ∧ u ≠ -unit (x s - c) := by
      intro s hs
      obtain ⟨h4, h5⟩ := lt_min_iff.mp (hall s hs)
      have ho : r < ‖x s - c‖ := by linarith
      refine ⟨ho, (hqiff ho).mpr ?_⟩
      have : ⟪x s - c, u⟫ = ‖x s - c‖ * q s := by
        exact inner_axis (hr.trans ho)
      rw [this] at h5
      have hρ := hr.trans ho
      by_contra hc
      nlinarith
    obtain ⟨i1, i2⟩ := inner t ht hout
    have ho := (hout t ⟨ht.1, le_rfl⟩).1
    refine le_min ((min_le_left _ _).trans i2) ((min_le_right _ _).trans ?_)
    have : ⟪x t - c, u⟫ = ‖x t - c‖ * q t := by
      exact inner_axis (hr.trans ho)
    rw [this]
    have hρ := hr.trans ho
    nlinarith

end Verif
