import Verif.Model.DeviationFit
import Verif.Props.Learner2
import Mathlib.Analysis.Complex.Angle

/-!
# C146: deviations learned from samples
-/

open scoped RealInnerProductSpace

namespace Verif.Spec

variable {n : ℕ}

/-- The regression reproduces samples that do not contradict each other. -/
def Interpolates (regress : List (Vec 2 × Vec n) → Vec 2 → Vec n) : Prop :=
  ∀ samples : List (Vec 2 × Vec n), (∀ s ∈ samples, ∀ t ∈ samples, s.1 = t.1 → s.2 = t.2) →
    ∀ s ∈ samples, regress samples s.1 = s.2

/-- What is assumed about the angle space: its vectors are as long as the angle to the null direction, and the inverse
gives back the direction. -/
structure AngleSpace2 (space : Vec 2 → Vec 2 → Vec n) (inverse : Vec n → Vec 2 → Vec 2) : Prop where
  size : ∀ v a : Vec 2, v ≠ 0 → a ≠ 0 → ‖space v a‖ = InnerProductGeometry.angle v a
  back : ∀ v a : Vec 2, v ≠ 0 → a ≠ 0 → inverse (space v a) a = ‖v‖⁻¹ • v
  null : ∀ a : Vec 2, a ≠ 0 → inverse 0 a = ‖a‖⁻¹ • a

/-- What is assumed about the directional mean: equal directions in front of the null direction have this mean. -/
def MeanOfEqual (mean : Vec 2 → (Fin 2 → Vec 2) → (Fin 2 → ℝ) → Vec 2) : Prop :=
  ∀ (null u : Vec 2) (w : Fin 2 → ℝ), 0 < ⟪null, u⟫ → ‖u‖ = 1 → (∀ i, 0 ≤ w i) → ∑ i, w i = 1 →
    mean null (fun _ => u) w = u

/-- What is assumed about the angle space in addition: a vector of it is at the angle of its length. -/
def AtAngle (inverse : Vec n → Vec 2 → Vec 2) : Prop :=
  ∀ (x : Vec n) (a : Vec 2), a ≠ 0 → ‖x‖ < Real.pi →
    InnerProductGeometry.angle (inverse x a) a = ‖x‖ ∧ ‖inverse x a‖ = 1

/-- What is assumed about the directional mean: if one direction has all the weight, it is the mean. -/
def MeanOfSingle (mean : Vec 2 → (Fin 2 → Vec 2) → (Fin 2 → ℝ) → Vec 2) : Prop :=
  ∀ (null : Vec 2) (u : Fin 2 → Vec 2) (w : Fin 2 → ℝ) (i : Fin 2), 0 < ⟪null, u i⟫ → ‖u i‖ = 1 → w i = 1 →
    (∀ j, j ≠ i → w j = 0) → mean null u w = u i

/-- The direction along axis `i` from the side of `p` to the attractor. -/
noncomputable def axisTowards (attractor p : Vec 2) (i : Fin 2) : Vec 2 :=
  open Classical in
  EuclideanSpace.single i (if p i < attractor i then 1 else -1)

end Verif.Spec

namespace Verif.DeviationFit

open Verif.LocalDynamics Verif.Spec

variable {n : ℕ}

local instance : Fact (2 ≤ 2) := ⟨le_rfl⟩

/-! ## Helpers -/

lemma fit_two (regress : List (Vec 2 × Vec n) → Vec 2 → Vec n) (space : Vec 2 → Vec 2 → Vec n) (attractor : Vec 2)
    (data : List (Vec 2 × Vec 2)) (regs after : Fin 2 → Bool → Regressor 2 n)
    (h : ∀ i s, fitSide regress space attractor data i s (regs i s) = .ok (after i s)) :
    fitFromVelocities regress space attractor data regs = .ok after := by
  have acc : ∀ (i : Fin 2) (s : Bool), nullMatrixAccess 2 i (if s then 1 else 0) = .ok () := by
    intro i s
    fin_cases i <;> cases s <;> rfl
  have step : ∀ (cur : Fin 2 → Bool → Regressor 2 n) i s, cur i s = regs i s →
      fitStep regress space attractor data i cur s
        = .ok (Function.update cur i (Function.update (cur i) s (after i s))) := by
    intro cur i s hc
    unfold fitStep
    rw [acc, hc, h]
    rfl
  unfold fitFromVelocities
  have hl : List.finRange 2 = [0, 1] := by decide
  rw [hl]
  simp only [List.foldlM_cons, List.foldlM_nil]
  rw [step regs 0 false rfl]
  simp only [bind, Except.bind]
  rw [step _ 0 true (by simp)]
  simp only [pure, Except.pure]
  rw [step _ 1 false (by simp)]
  simp only []
  rw [step _ 1 true (by simp)]
  simp only []
  congr 1
  funext i s
  fin_cases i <;> cases s <;> simp

/-- The regressor after a successful fit. -/
noncomputable def fitted (regress : List (Vec 2 × Vec n) → Vec 2 → Vec n) (space : Vec 2 → Vec 2 → Vec n)
    (attractor : Vec 2) (data : List (Vec 2 × Vec 2)) (i : Fin 2) (s : Bool) : Regressor 2 n :=
  if (goodSamples attractor i s data).length = 0 then .constant 0
  else .given (some (regress (velocityToDirection space (nullAxis i s) (goodSamples attractor i s data))))

lemma fit_given (regress : List (Vec 2 × Vec n) → Vec 2 → Vec n) (space : Vec 2 → Vec 2 → Vec n) (attractor : Vec 2)
    (data : List (Vec 2 × Vec 2)) (regs : Fin 2 → Bool → Regressor 2 n)
    (hr : ∀ i s, (∃ l, regs i s = .given l) ∨ (goodSamples attractor i s data).length = 0) :
    fitFromVelocities regress space attractor data regs = .ok (fitted regress space attractor data) := by
  apply fit_two
  intro i s
  unfold fitSide fitted
  by_cases hg : (goodSamples attractor i s data).length = 0
  · simp [hg]
  · rcases hr i s with ⟨l, hl⟩ | h0
    · simp only [hg, if_false, hl]
      rfl
    · exact absurd h0 hg

lemma mem_good {attractor : Vec 2} {i : Fin 2} {s : Bool} {data : List (Vec 2 × Vec 2)} {q : Vec 2 × Vec 2} :
    q ∈ goodSamples attractor i s data ↔
      ∃ t ∈ data, q = (t.1 - attractor, t.2) ∧ 0 ≤ (t.1 - attractor) i * sideSign s := by
  unfold goodSamples
  simp only [List.mem_filter, List.mem_map, decide_eq_true_eq, ge_iff_le]
  constructor
  · rintro ⟨⟨t, ht, rfl⟩, h⟩
    exact ⟨t, ht, rfl, h⟩
  · rintro ⟨t, ht, rfl, h⟩
    exact ⟨⟨t, ht, rfl⟩, h⟩

lemma sideSign_self (x : ℝ) : 0 ≤ x * sideSign (decide (¬ x < 0)) := by
  unfold sideSign
  by_cases h : x < 0
  · simp [h]; linarith
  · simp [h]; linarith

lemma fitted_value (regress : List (Vec 2 × Vec n) → Vec 2 → Vec n) (space : Vec 2 → Vec 2 → Vec n) (attractor : Vec 2)
    (data : List (Vec 2 × Vec 2)) (i : Fin 2) (s : Bool) (x : Vec 2) :
    (fitted regress space attractor data i s).predict x = .ok ((fitted regress space attractor data i s).value x) := by
  unfold fitted
  split_ifs <;> rfl

lemma evaluate_fitted (regress : List (Vec 2 × Vec n) → Vec 2 → Vec n) (space : Vec 2 → Vec 2 → Vec n)
    (inverse : Vec n → Vec 2 → Vec 2) (mean : Vec 2 → (Fin 2 → Vec 2) → (Fin 2 → ℝ) → Vec 2) (attractor : Vec 2)
    (data : List (Vec 2 × Vec 2)) (p : Vec 2) :
    evaluate inverse mean attractor (fitted regress space attractor data) p
      = .ok (perpendicular attractor (fun i s => (fitted regress space attractor data i s).value)
          (fun i s a => inverse a (nullAxis i s)) mean p) := by
  unfold evaluate
  by_cases h : ‖p - attractor‖ = 0
  · rw [if_pos h]
    unfold perpendicular
    simp only [h, if_true]
  · rw [if_neg h, if_neg]
    rintro ⟨i, e, he⟩
    rw [fitted_value] at he
    cases he

lemma fitted_at_sample {regress : List (Vec 2 × Vec n) → Vec 2 → Vec n} (hi : Interpolates regress)
    (space : Vec 2 → Vec 2 → Vec n) (attractor : Vec 2) (data : List (Vec 2 × Vec 2))
    (hc : ∀ s ∈ data, ∀ t ∈ data, s.1 = t.1 → s.2 = t.2) {t : Vec 2 × Vec 2} (ht : t ∈ data) (i : Fin 2) (s : Bool)
    (hs : 0 ≤ (t.1 - attractor) i * sideSign s) :
    (fitted regress space attractor data i s).value (t.1 - attractor) = space t.2 (nullAxis i s) := by
  have hm : (t.1 - attractor, t.2) ∈ goodSamples attractor i s data := mem_good.mpr ⟨t, ht, rfl, hs⟩
  have hne : (goodSamples attractor i s data).length ≠ 0 := by
    intro h
    rw [List.length_eq_zero_iff] at h
    rw [h] at hm
    simp at hm
  unfold fitted
  rw [if_neg hne]
  change regress _ _ = _
  refine hi _ ?_ (t.1 - attractor, space t.2 (nullAxis i s)) ?_
  · intro a ha b hb hab
    unfold velocityToDirection at ha hb
    rw [List.mem_map] at ha hb
    obtain ⟨a', ha', rfl⟩ := ha
    obtain ⟨b', hb', rfl⟩ := hb
    obtain ⟨u, hu, rfl, -⟩ := mem_good.mp ha'
    obtain ⟨w, hw, rfl, -⟩ := mem_good.mp hb'
    have : u.1 = w.1 := sub_left_injective hab
    simp only
    rw [hc u hu w hw this]
  · unfold velocityToDirection
    exact List.mem_map.mpr ⟨_, hm, rfl⟩

lemma nullAxis_axisTowards (attractor p : Vec 2) (i : Fin 2) :
    nullAxis i (decide (¬ (p - attractor) i < 0)) = axisTowards attractor p i := by
  unfold nullAxis axisTowards sideSign
  have : (p - attractor) i = p i - attractor i := rfl
  by_cases h : p i < attractor i
  · simp [h]
  · simp [h]

lemma axisTowards_norm (attractor p : Vec 2) (i : Fin 2) : ‖axisTowards attractor p i‖ = 1 := by
  unfold axisTowards
  rw [EuclideanSpace.norm_single]
  split_ifs <;> simp

lemma axisTowards_ne (attractor p : Vec 2) (i : Fin 2) : axisTowards attractor p i ≠ 0 := by
  rw [← norm_ne_zero_iff, axisTowards_norm]
  exact one_ne_zero

lemma inner_axisTowards (attractor p v : Vec 2) (i : Fin 2) :
    ⟪v, axisTowards attractor p i⟫ = v i * (open Classical in if p i < attractor i then 1 else -1) := by
  unfold axisTowards
  rw [EuclideanSpace.inner_single_right]
  simp [mul_comm]

/-- A velocity with a component towards the attractor along every axis approaches the attractor. -/
lemma inner_approach {attractor p v : Vec 2} (hp : p ≠ attractor) (h : ∀ i, 0 < ⟪v, axisTowards attractor p i⟫) :
    0 < ⟪attractor - p, v⟫ := by
  have hi : ∀ i, 0 ≤ v i * (attractor i - p i) ∧ (p i ≠ attractor i → 0 < v i * (attractor i - p i)) := by
    intro i
    have := h i
    rw [inner_axisTowards] at this
    split_ifs at this with hlt
    · have hv : 0 < v i := by linarith
      have := mul_pos hv (sub_pos.mpr hlt)
      exact ⟨this.le, fun _ => this⟩
    · have hv : v i < 0 := by linarith
      push Not at hlt
      exact ⟨mul_nonneg_of_nonpos_of_nonpos hv.le (sub_nonpos.mpr hlt),
        fun hne => mul_pos_of_neg_of_neg hv (sub_neg.mpr (lt_of_le_of_ne hlt (Ne.symm hne)))⟩
  have e : ⟪attractor - p, v⟫ = v 0 * (attractor 0 - p 0) + v 1 * (attractor 1 - p 1) := by
    rw [PiLp.inner_apply, Fin.sum_univ_two]
    simp
  rw [e]
  by_cases h0 : p 0 = attractor 0
  · have h1 : p 1 ≠ attractor 1 := by
      intro h1
      apply hp
      ext i
      fin_cases i
      · exact h0
      · exact h1
    linarith [(hi 0).1, (hi 1).2 h1]
  · linarith [(hi 0).2 h0, (hi 1).1]

/-! ## C146 -/

/-- C146: a new object learns from any samples, and the learned dynamics can be evaluated everywhere. -/
theorem C146_fitted (regress : List (Vec 2 × Vec n) → Vec 2 → Vec n) (space : Vec 2 → Vec 2 → Vec n)
    (inverse : Vec n → Vec 2 → Vec 2) (mean : Vec 2 → (Fin 2 → Vec 2) → (Fin 2 → ℝ) → Vec 2) (attractor : Vec 2)
    (data : List (Vec 2 × Vec 2)) :
    ∃ regs, fitFromVelocities regress space attractor data newRegressors = .ok regs
      ∧ ∀ p, ∃ v, evaluate inverse mean attractor regs p = .ok v :=
  ⟨_, fit_given _ _ _ _ _ fun _ _ => Or.inl ⟨none, rfl⟩, fun _ => ⟨_, evaluate_fitted _ _ _ _ _ _ _⟩⟩

/-- C146 (partial): if the regression reproduces its samples, the learned dynamics move at every sample in the direction
of the sampled velocity, as long as this velocity deviates by at most `0.49 π` from the two directions that lead along
the axes to the attractor.

Missing: velocities with a larger deviation, which are cut off (`C146_cut_off_fails`), and the speed, which is
`min(1, distance)` and not the one of the sample. -/
theorem C146_reproduces_partial {regress : List (Vec 2 × Vec n) → Vec 2 → Vec n} (hi : Interpolates regress)
    {space : Vec 2 → Vec 2 → Vec n} {inverse : Vec n → Vec 2 → Vec 2} (ha : AngleSpace2 space inverse)
    {mean : Vec 2 → (Fin 2 → Vec 2) → (Fin 2 → ℝ) → Vec 2} (hmean : MeanOfEqual mean) (attractor : Vec 2)
    (data : List (Vec 2 × Vec 2)) (hc : ∀ s ∈ data, ∀ t ∈ data, s.1 = t.1 → s.2 = t.2)
    (regs : Fin 2 → Bool → Regressor 2 n)
    (hfit : fitFromVelocities regress space attractor data newRegressors = .ok regs)
    (p v : Vec 2) (hs : (p, v) ∈ data) (hp : p ≠ attractor) (hv : v ≠ 0)
    (hdev : ∀ i, InnerProductGeometry.angle v (axisTowards attractor p i) ≤ 0.49 * Real.pi) :
    evaluate inverse mean attractor regs p = .ok (min 1 ‖p - attractor‖ • (‖v‖⁻¹ • v)) := by
  rw [fit_given _ _ _ _ newRegressors fun _ _ => Or.inl ⟨none, rfl⟩] at hfit
  obtain rfl := Except.ok.inj hfit
  rw [evaluate_fitted]
  have hr : p - attractor ≠ 0 := sub_ne_zero.mpr hp
  have hrn : ‖p - attractor‖ ≠ 0 := norm_ne_zero_iff.mpr hr
  have hvn : 0 < ‖v‖ := norm_pos_iff.mpr hv
  have hin : ∀ i, 0 < ⟪v, axisTowards attractor p i⟫ := by
    intro i
    rw [← InnerProductGeometry.cos_angle_mul_norm_mul_norm, axisTowards_norm, mul_one]
    refine mul_pos (Real.cos_pos_of_mem_Ioo ⟨?_, ?_⟩) hvn
    · linarith [InnerProductGeometry.angle_nonneg v (axisTowards attractor p i), Real.pi_pos]
    · have := hdev i
      have := Real.pi_pos
      norm_num at *
      linarith
  have happ := inner_approach hp hin
  have hlocal : ∀ i, inverse (clampDeviation (Real.pi * 0.49)
      ((fitted regress space attractor data i (decide (¬ (p - attractor) i < 0))).value (p - attractor)))
      (nullAxis i (decide (¬ (p - attractor) i < 0))) = ‖v‖⁻¹ • v := by
    intro i
    rw [fitted_at_sample hi space attractor data hc hs i _ (sideSign_self _), nullAxis_axisTowards]
    simp only
    unfold clampDeviation
    rw [if_neg, ha.back v _ hv (axisTowards_ne _ _ _)]
    rw [ha.size v _ hv (axisTowards_ne _ _ _)]
    have := hdev i
    linarith
  congr 1
  unfold perpendicular
  simp only
  rw [if_neg hrn]
  have hw : ∑ i, axisWeights (p - attractor) i = 1 := by
    unfold axisWeights
    rw [← Finset.sum_div]
    apply div_self
    intro h0
    rw [Finset.sum_eq_zero_iff_of_nonneg (fun _ _ => abs_nonneg _)] at h0
    apply hr
    ext i
    exact abs_eq_zero.mp (h0 i (Finset.mem_univ i))
  have hfun : (fun i => inverse (clampDeviation (Real.pi * 0.49)
      ((fitted regress space attractor data i (decide (¬ (p - attractor) i < 0))).value (p - attractor)))
      (nullAxis i (decide (¬ (p - attractor) i < 0)))) = fun _ => ‖v‖⁻¹ • v := funext hlocal
  rw [hfun, hmean _ _ _ ?_ ?_ ?_ hw]
  · unfold velocityFactor
    rw [div_one, mul_one]
  · rw [neg_one_smul, ← smul_neg, neg_sub, inner_smul_left, inner_smul_right]
    simp only [conj_trivial]
    have : 0 < ‖p - attractor‖ := norm_pos_iff.mpr hr
    positivity
  · rw [norm_smul, norm_inv, norm_norm, inv_mul_cancel₀ hvn.ne']
  · intro i
    unfold axisWeights
    positivity

/-- C146, violated for large deviations: at a sample straight on an axis, whose velocity deviates by more than `0.49 π`
from the direction to the attractor, the learned dynamics deviate by exactly `0.49 π`: not in the direction of the
sample. -/
theorem C146_cut_off_fails {regress : List (Vec 2 × Vec n) → Vec 2 → Vec n} (hi : Interpolates regress)
    {space : Vec 2 → Vec 2 → Vec n} {inverse : Vec n → Vec 2 → Vec 2} (ha : AngleSpace2 space inverse)
    (hat : AtAngle inverse) {mean : Vec 2 → (Fin 2 → Vec 2) → (Fin 2 → ℝ) → Vec 2} (hmean : MeanOfSingle mean)
    (attractor : Vec 2) (data : List (Vec 2 × Vec 2)) (hc : ∀ s ∈ data, ∀ t ∈ data, s.1 = t.1 → s.2 = t.2)
    (regs : Fin 2 → Bool → Regressor 2 n)
    (hfit : fitFromVelocities regress space attractor data newRegressors = .ok regs)
    (p v : Vec 2) (hs : (p, v) ∈ data) (i : Fin 2) (hp : p i ≠ attractor i) (haxis : ∀ j, j ≠ i → p j = attractor j)
    (hv : v ≠ 0) (hdev : 0.49 * Real.pi < InnerProductGeometry.angle v (attractor - p)) :
    ∃ w, evaluate inverse mean attractor regs p = .ok w
      ∧ InnerProductGeometry.angle w (attractor - p) = 0.49 * Real.pi
      ∧ ∀ c : ℝ, 0 < c → w ≠ c • v := by
  rw [fit_given _ _ _ _ newRegressors fun _ _ => Or.inl ⟨none, rfl⟩] at hfit
  obtain rfl := Except.ok.inj hfit
  have hne : p ≠ attractor := fun h => hp (by rw [h])
  have hr : p - attractor ≠ 0 := sub_ne_zero.mpr hne
  have hrn : 0 < ‖p - attractor‖ := norm_pos_iff.mpr hr
  have hpi := Real.pi_pos
  -- the direction to the attractor is along the axis
  have hline : attractor - p = |p i - attractor i| • axisTowards attractor p i := by
    ext j
    unfold axisTowards
    by_cases hj : j = i
    · subst hj
      by_cases hlt : p j < attractor j
      · simp [hlt, abs_of_neg (sub_neg.mpr hlt)]
      · have : 0 ≤ p j - attractor j := sub_nonneg.mpr (not_lt.mp hlt)
        simp [hlt, abs_of_nonneg this]
    · simp [hj, haxis j hj]
  have hpos : 0 < |p i - attractor i| := abs_pos.mpr (sub_ne_zero.mpr hp)
  have hangle : ∀ u : Vec 2, InnerProductGeometry.angle u (attractor - p)
      = InnerProductGeometry.angle u (axisTowards attractor p i) := by
    intro u
    rw [hline, InnerProductGeometry.angle_smul_right_of_pos _ _ hpos]
  rw [hangle] at hdev
  -- the local prediction of the axis
  have hsz : ‖space v (axisTowards attractor p i)‖ = InnerProductGeometry.angle v (axisTowards attractor p i) :=
    ha.size v _ hv (axisTowards_ne _ _ _)
  set a := clampDeviation (Real.pi * 0.49) (space v (axisTowards attractor p i)) with hadef
  have hanorm : ‖a‖ = 0.49 * Real.pi := by
    rw [hadef]
    unfold clampDeviation
    rw [if_pos (by rw [hsz]; linarith)]
    have : 0 < ‖space v (axisTowards attractor p i)‖ := by
      rw [hsz]
      have : 0 < 0.49 * Real.pi := by positivity
      linarith
    rw [norm_smul, norm_smul, norm_div, norm_one, norm_norm, one_div, inv_mul_cancel₀ this.ne', mul_one,
      Real.norm_of_nonneg (by positivity), mul_comm]
  obtain ⟨hu1, hu2⟩ := hat a (axisTowards attractor p i) (axisTowards_ne _ _ _) (by rw [hanorm]; norm_num; linarith)
  rw [hanorm] at hu1
  set u := inverse a (axisTowards attractor p i) with hudef
  have hinner : 0 < ⟪axisTowards attractor p i, u⟫ := by
    rw [real_inner_comm, ← InnerProductGeometry.cos_angle_mul_norm_mul_norm, axisTowards_norm, hu1, hu2, mul_one,
      mul_one]
    refine Real.cos_pos_of_mem_Ioo ⟨?_, ?_⟩ <;> norm_num <;> linarith
  have hnull : (-1 : ℝ) • ((1 / ‖p - attractor‖) • (p - attractor)) = axisTowards attractor p i := by
    have h1 : ‖p - attractor‖ = |p i - attractor i| := by
      rw [← norm_neg, neg_sub, hline, norm_smul, axisTowards_norm, mul_one, Real.norm_eq_abs, abs_abs]
    rw [neg_one_smul, ← smul_neg, neg_sub, h1, hline, smul_smul, one_div, inv_mul_cancel₀ hpos.ne', one_smul]
  have hw : axisWeights (p - attractor) i = 1 ∧ ∀ j, j ≠ i → axisWeights (p - attractor) j = 0 := by
    have hsum : ∑ j, |(p - attractor) j| = |p i - attractor i| := by
      rw [Finset.sum_eq_single i]
      · rfl
      · intro j _ hj
        change |p j - attractor j| = 0
        rw [haxis j hj, sub_self, abs_zero]
      · simp
    unfold axisWeights
    rw [hsum]
    constructor
    · change |p i - attractor i| / _ = 1
      exact div_self hpos.ne'
    · intro j hj
      change |p j - attractor j| / _ = 0
      rw [haxis j hj, sub_self, abs_zero, zero_div]
  have hlocal : inverse (clampDeviation (Real.pi * 0.49)
      ((fitted regress space attractor data i (decide (¬ (p - attractor) i < 0))).value (p - attractor)))
      (nullAxis i (decide (¬ (p - attractor) i < 0))) = u := by
    rw [fitted_at_sample hi space attractor data hc hs i _ (sideSign_self _), nullAxis_axisTowards]
  have heval : evaluate inverse mean attractor (fitted regress space attractor data) p
      = .ok (min 1 ‖p - attractor‖ • u) := by
    rw [evaluate_fitted]
    congr 1
    unfold perpendicular
    simp only
    rw [if_neg hrn.ne', hmean _ _ _ i _ _ hw.1 hw.2, hlocal]
    · unfold velocityFactor
      rw [div_one, mul_one]
    · rw [hlocal, hnull]
      exact hinner
    · rw [hlocal]
      exact hu2
  have hmin : 0 < min 1 ‖p - attractor‖ := lt_min one_pos hrn
  have hfin : InnerProductGeometry.angle (min 1 ‖p - attractor‖ • u) (axisTowards attractor p i) = 0.49 * Real.pi := by
    rw [InnerProductGeometry.angle_smul_left_of_pos _ _ hmin, hu1]
  refine ⟨_, heval, by rw [hangle]; exact hfin, ?_⟩
  intro c hcpos h
  rw [h, InnerProductGeometry.angle_smul_left_of_pos _ _ hcpos] at hfin
  linarith

/-- C146: a side of an axis without samples contributes the direction along the axis to the attractor. -/
theorem C146_no_samples (regress : List (Vec 2 × Vec n) → Vec 2 → Vec n) {space : Vec 2 → Vec 2 → Vec n}
    {inverse : Vec n → Vec 2 → Vec 2} (ha : AngleSpace2 space inverse) (attractor : Vec 2)
    (data : List (Vec 2 × Vec 2)) (regs : Fin 2 → Bool → Regressor 2 n)
    (hfit : fitFromVelocities regress space attractor data newRegressors = .ok regs) (i : Fin 2) (p : Vec 2) :
    ((∀ s ∈ data, s.1 i < attractor i) → attractor i ≤ p i →
      ∃ a, (regs i true).predict (p - attractor) = .ok a ∧ inverse a (nullAxis i true) = axisTowards attractor p i)
    ∧ ((∀ s ∈ data, attractor i < s.1 i) → p i < attractor i →
      ∃ a, (regs i false).predict (p - attractor) = .ok a ∧ inverse a (nullAxis i false) = axisTowards attractor p i) := by
  rw [fit_given _ _ _ _ newRegressors fun _ _ => Or.inl ⟨none, rfl⟩] at hfit
  obtain rfl := Except.ok.inj hfit
  have key : ∀ s, (∀ t ∈ data, ¬ 0 ≤ (t.1 - attractor) i * sideSign s) →
      fitted regress space attractor data i s = .constant 0 := by
    intro s h
    unfold fitted
    rw [if_pos]
    rw [List.length_eq_zero_iff, List.eq_nil_iff_forall_not_mem]
    intro q hq
    obtain ⟨t, ht, -, h0⟩ := mem_good.mp hq
    exact h t ht h0
  have sub : ∀ q : Vec 2, (q - attractor) i = q i - attractor i := fun _ => rfl
  constructor
  · intro h hp
    refine ⟨0, ?_, ?_⟩
    · rw [key true]
      · rfl
      · intro t ht
        have := h t ht
        rw [sub]
        simp only [sideSign, if_true, mul_one]
        linarith
    · have e := nullAxis_axisTowards attractor p i
      have : decide (¬ (p - attractor) i < 0) = true := by
        rw [decide_eq_true_eq, sub]
        linarith
      rw [this] at e
      rw [e, ha.null _ (axisTowards_ne _ _ _), axisTowards_norm, inv_one, one_smul]
  · intro h hp
    refine ⟨0, ?_, ?_⟩
    · rw [key false]
      · rfl
      · intro t ht
        have := h t ht
        rw [sub]
        simp only [sideSign, Bool.false_eq_true, if_false]
        linarith
    · have e := nullAxis_axisTowards attractor p i
      have : decide (¬ (p - attractor) i < 0) = false := by
        rw [decide_eq_false_iff_not, sub]
        intro hn
        exact hn (by linarith)
      rw [this] at e
      rw [e, ha.null _ (axisTowards_ne _ _ _), axisTowards_norm, inv_one, one_smul]

/-- The samples have one on each side of each axis (the border counts for both). -/
def Covers (attractor : Vec 2) (data : List (Vec 2 × Vec 2)) : Prop :=
  ∀ i, (∃ s ∈ data, attractor i ≤ s.1 i) ∧ (∃ s ∈ data, s.1 i ≤ attractor i)

lemma covers_good {attractor : Vec 2} {data : List (Vec 2 × Vec 2)} (h : Covers attractor data) (i : Fin 2) (s : Bool) :
    (goodSamples attractor i s data).length ≠ 0 := by
  intro h0
  rw [List.length_eq_zero_iff, List.eq_nil_iff_forall_not_mem] at h0
  have sub : ∀ q : Vec 2, (q - attractor) i = q i - attractor i := fun _ => rfl
  cases s
  · obtain ⟨t, ht, hle⟩ := (h i).2
    refine h0 _ (mem_good.mpr ⟨t, ht, rfl, ?_⟩)
    rw [sub]
    simp only [sideSign, Bool.false_eq_true, if_false]
    linarith
  · obtain ⟨t, ht, hle⟩ := (h i).1
    refine h0 _ (mem_good.mpr ⟨t, ht, rfl, ?_⟩)
    rw [sub]
    simp only [sideSign, if_true, mul_one]
    linarith

/-- C146: if the first samples lie on all sides, learning again forgets them: the result is the one of a new object. -/
theorem C146_refit (regress : List (Vec 2 × Vec n) → Vec 2 → Vec n) (space : Vec 2 → Vec 2 → Vec n) (attractor : Vec 2)
    (first second : List (Vec 2 × Vec 2)) (hcov : Covers attractor first) (regs : Fin 2 → Bool → Regressor 2 n)
    (hfit : fitFromVelocities regress space attractor first newRegressors = .ok regs) :
    fitFromVelocities regress space attractor second regs
      = fitFromVelocities regress space attractor second newRegressors := by
  rw [fit_given _ _ _ _ newRegressors fun _ _ => Or.inl ⟨none, rfl⟩] at hfit ⊢
  obtain rfl := Except.ok.inj hfit
  rw [fit_given]
  intro i s
  left
  unfold fitted
  rw [if_neg (covers_good hcov i s)]
  exact ⟨_, rfl⟩

/-- C146, violated by the code: if the first samples leave out a side of the first axis, learning again from samples that
have one there raises an `AttributeError`: the regressor of this side was replaced by a constant. -/
theorem C146_refit_fails (regress : List (Vec 2 × Vec n) → Vec 2 → Vec n) (space : Vec 2 → Vec 2 → Vec n)
    (attractor : Vec 2) (first second : List (Vec 2 × Vec 2)) (hmiss : ∀ s ∈ first, attractor 0 < s.1 0)
    (hnew : ∃ s ∈ second, s.1 0 ≤ attractor 0) (regs : Fin 2 → Bool → Regressor 2 n)
    (hfit : fitFromVelocities regress space attractor first newRegressors = .ok regs) :
    fitFromVelocities regress space attractor second regs = .error .attributeError := by
  rw [fit_given _ _ _ _ newRegressors fun _ _ => Or.inl ⟨none, rfl⟩] at hfit
  obtain rfl := Except.ok.inj hfit
  have sub : ∀ q : Vec 2, (q - attractor) 0 = q 0 - attractor 0 := fun _ => rfl
  have h1 : fitted regress space attractor first 0 false = .constant 0 := by
    unfold fitted
    rw [if_pos]
    rw [List.length_eq_zero_iff, List.eq_nil_iff_forall_not_mem]
    intro q hq
    obtain ⟨t, ht, -, h0⟩ := mem_good.mp hq
    have := hmiss t ht
    rw [sub] at h0
    simp only [sideSign, Bool.false_eq_true, if_false] at h0
    linarith
  have h2 : (goodSamples attractor 0 false second).length ≠ 0 := by
    intro h0
    rw [List.length_eq_zero_iff, List.eq_nil_iff_forall_not_mem] at h0
    obtain ⟨t, ht, hle⟩ := hnew
    refine h0 _ (mem_good.mpr ⟨t, ht, rfl, ?_⟩)
    rw [sub]
    simp only [sideSign, Bool.false_eq_true, if_false]
    linarith
  have h3 : fitStep regress space attractor second 0 (fitted regress space attractor first) false
      = .error .attributeError := by
    unfold fitStep fitSide
    rw [h1]
    simp only [h2, if_false]
    rfl
  unfold fitFromVelocities
  have hl : List.finRange 2 = [0, 1] := by decide
  rw [hl]
  simp only [List.foldlM_cons]
  rw [h3]
  rfl

/-- C146: outputs with several columns are learned column by column: if the regression of numbers reproduces its samples,
so does the regression of vectors. -/
theorem C146_columns {d n : ℕ} (svr : List (Vec d × ℝ) → Vec d → ℝ)
    (h : ∀ samples : List (Vec d × ℝ), (∀ s ∈ samples, ∀ t ∈ samples, s.1 = t.1 → s.2 = t.2) →
      ∀ s ∈ samples, svr samples s.1 = s.2)
    (samples : List (Vec d × Vec n)) (hc : ∀ s ∈ samples, ∀ t ∈ samples, s.1 = t.1 → s.2 = t.2)
    (s : Vec d × Vec n) (hs : s ∈ samples) : multiOutput svr samples s.1 = s.2 := by
  ext i
  unfold multiOutput
  refine h (samples.map fun s => (s.1, s.2 i)) ?_ (s.1, s.2 i) (List.mem_map.mpr ⟨s, hs, rfl⟩)
  intro a ha b hb hab
  obtain ⟨a', ha', rfl⟩ := List.mem_map.mp ha
  obtain ⟨b', hb', rfl⟩ := List.mem_map.mp hb
  simp only
  rw [hc a' ha' b' hb' hab]

/-- C146: where the dynamics move and the position is not the origin, the predicted deviation is the sine of an angle
between the position and the velocity: it is between -1 and 1, its square and the squared cosine add up to one, and it
is positive exactly if the velocity points to the left of the position. -/
theorem C146_predict (f : Vec 2 → Vec 2) (p : Vec 2) (hp : p ≠ 0) (hf : f p ≠ 0) :
    ∃ s, predictDeviation f p = some s ∧ |s| ≤ 1
      ∧ |s| = Real.sin (InnerProductGeometry.angle p (f p))
      ∧ (0 < s ↔ 0 < p 0 * f p 1 - p 1 * f p 0) := by
  have np : 0 < ‖p‖ := norm_pos_iff.mpr hp
  have nf : 0 < ‖f p‖ := norm_pos_iff.mpr hf
  have nm : 0 < ‖p‖ * ‖f p‖ := mul_pos np nf
  refine ⟨_, by unfold predictDeviation; rw [if_neg np.ne', if_neg nm.ne'], ?_⟩
  have hs : |(p 0 * f p 1 - p 1 * f p 0) / (‖p‖ * ‖f p‖)| = Real.sin (InnerProductGeometry.angle p (f p)) := by
    rw [eq_div_iff nm.ne' |>.mpr (InnerProductGeometry.sin_angle_mul_norm_mul_norm p (f p)), abs_div, abs_of_pos nm]
    congr 1
    rw [← Real.sqrt_sq_eq_abs]
    congr 1
    simp only [PiLp.inner_apply, Fin.sum_univ_two, RCLike.inner_apply, conj_trivial]
    ring
  refine ⟨?_, hs, ?_⟩
  · rw [hs]
    exact Real.sin_le_one _
  · rw [div_pos_iff_of_pos_right nm]

/-- C146, violated by the code: the deviation is measured from the line to the origin and not to the attractor: a motion
straight to the attractor has a deviation unless the position, the attractor and the origin lie on a line. -/
theorem C146_predict_origin_fails (f : Vec 2 → Vec 2) (attractor p : Vec 2) (c : ℝ) (hc : 0 < c)
    (hf : f p = c • (attractor - p)) (hline : p 0 * attractor 1 - p 1 * attractor 0 ≠ 0) :
    ∃ s, predictDeviation f p = some s ∧ s ≠ 0 := by
  have hp : p ≠ 0 := by
    rintro rfl
    simp at hline
  have hpa : attractor - p ≠ 0 := by
    intro h
    rw [sub_eq_zero] at h
    rw [h] at hline
    apply hline
    ring
  have hfn : f p ≠ 0 := by
    rw [hf]
    exact smul_ne_zero hc.ne' hpa
  have nm : ‖p‖ * ‖f p‖ ≠ 0 := mul_ne_zero (norm_ne_zero_iff.mpr hp) (norm_ne_zero_iff.mpr hfn)
  refine ⟨_, by unfold predictDeviation; rw [if_neg (norm_ne_zero_iff.mpr hp), if_neg nm], ?_⟩
  apply div_ne_zero _ nm
  have : p 0 * f p 1 - p 1 * f p 0 = c * (p 0 * attractor 1 - p 1 * attractor 0) := by
    rw [hf]
    simp only [PiLp.smul_apply, PiLp.sub_apply, smul_eq_mul]
    ring
  rw [this]
  exact mul_ne_zero hc.ne' hline

/-- C146, violated by the code: the predicted deviation at the attractor is `nan`, except at the origin. -/
theorem C146_predict_nan (f : Vec 2 → Vec 2) (attractor : Vec 2) (h0 : attractor ≠ 0) (hf : f attractor = 0) :
    predictDeviation f attractor = none := by
  unfold predictDeviation
  rw [if_neg (norm_ne_zero_iff.mpr h0), hf, norm_zero, mul_zero, if_pos rfl]

/-! ## A concrete case -/

/-- The signed angle. -/
noncomputable def signedAngle (v a : Vec 2) : Vec 1 := WithLp.toLp 2 (fun _ => Learner.planeAngles.space v a 0)

/-- The direction at a signed angle. -/
noncomputable def atAngle (x : Vec 1) (a : Vec 2) : Vec 2 := Learner.planeAngles.inverse (fun _ => x 0) a

lemma complex_angle (v a : Vec 2) :
    InnerProductGeometry.angle (⟨v 0, v 1⟩ : ℂ) ⟨a 0, a 1⟩ = InnerProductGeometry.angle v a := by
  unfold InnerProductGeometry.angle
  rw [Learner.complex_norm, Learner.complex_norm, Complex.inner, PiLp.inner_apply, Fin.sum_univ_two]
  simp [mul_comm]

lemma signed_angleSpace : AngleSpace2 signedAngle atAngle where
  size := by
    intro v a hv ha
    rw [← complex_angle, Complex.angle_eq_abs_arg (Learner.complex_ne hv) (Learner.complex_ne ha),
      EuclideanSpace.norm_eq]
    simp only [Finset.univ_unique, Finset.sum_singleton, Real.norm_eq_abs, sq_abs]
    rw [Real.sqrt_sq_eq_abs]
    rfl
  back := by
    intro v a hv ha
    exact Learner.planeAngles_spec.inverse v a hv ha
  null := by
    intro a ha
    exact Learner.planeAngles_spec.null a ha

lemma atAngle_angle : AtAngle atAngle := by
  intro x a ha hx
  have hx0 : ‖x‖ = |x 0| := by
    rw [EuclideanSpace.norm_eq]
    simp only [Finset.univ_unique, Finset.sum_singleton, Real.norm_eq_abs, sq_abs]
    rw [Real.sqrt_sq_eq_abs]
    rfl
  rw [hx0] at hx ⊢
  have za := Learner.complex_ne ha
  have hn : 0 < ‖(⟨a 0, a 1⟩ : ℂ)‖ := norm_pos_iff.mpr za
  have hz : (⟨atAngle x a 0, atAngle x a 1⟩ : ℂ)
      = ((‖(⟨a 0, a 1⟩ : ℂ)‖⁻¹ : ℝ) : ℂ) * ⟨a 0, a 1⟩ * Complex.exp ((x 0 : ℂ) * Complex.I) := rfl
  have hnorm : ‖(⟨atAngle x a 0, atAngle x a 1⟩ : ℂ)‖ = 1 := by
    rw [hz, norm_mul, norm_mul, Complex.norm_exp_ofReal_mul_I, Complex.norm_real, norm_inv, norm_norm,
      inv_mul_cancel₀ hn.ne', mul_one]
  refine ⟨?_, by rw [← Learner.complex_norm]; exact hnorm⟩
  have hne : (⟨atAngle x a 0, atAngle x a 1⟩ : ℂ) ≠ 0 := by
    rw [← norm_ne_zero_iff, hnorm]
    exact one_ne_zero
  rw [← complex_angle, Complex.angle_eq_abs_arg hne za]
  have hq : (⟨atAngle x a 0, atAngle x a 1⟩ : ℂ) / ⟨a 0, a 1⟩
      = ((‖(⟨a 0, a 1⟩ : ℂ)‖⁻¹ : ℝ) : ℂ) * Complex.exp ((x 0 : ℂ) * Complex.I) := by
    rw [hz, div_eq_iff za]
    ring
  rw [hq, Complex.arg_real_mul _ (inv_pos.mpr hn), Complex.arg_exp_mul_I]
  rw [(toIocMod_eq_self Real.two_pi_pos).mpr]
  have := abs_lt.mp hx
  exact ⟨this.1, by linarith⟩

open Classical in
/-- The regression that looks up the position in the samples. -/
noncomputable def lookUp (samples : List (Vec 2 × Vec n)) (x : Vec 2) : Vec n :=
  ((samples.find? fun s => decide (s.1 = x)).map Prod.snd).getD 0

lemma lookUp_interpolates : Interpolates (lookUp (n := n)) := by
  intro samples hc s hs
  unfold lookUp
  cases h : samples.find? fun t => decide (t.1 = s.1) with
  | none =>
    rw [List.find?_eq_none] at h
    exact absurd (by simp) (h s hs)
  | some t =>
    have h1 := List.find?_some h
    have h2 := List.mem_of_find?_eq_some h
    simp only [decide_eq_true_eq] at h1
    exact hc t h2 s hs h1

lemma weighted_mean : MeanOfEqual (fun _ u w => ∑ i, w i • u i) := by
  intro null u w _ _ _ hw
  simp only
  rw [← Finset.sum_smul, hw, one_smul]

/-- Case: the velocity `(-2, -2)` sampled at `(1, 3)` for the attractor `(0, 1)`, next to another sample on the other
side of both axes: it deviates by `π/4` from both axes and is reproduced. -/
example : ∃ regs, fitFromVelocities lookUp signedAngle !₂[0, 1]
      [(!₂[1, 3], !₂[-2, -2]), (!₂[-1, 0], !₂[1, 0])] newRegressors = .ok regs
    ∧ evaluate atAngle (fun _ u w => ∑ i, w i • u i) !₂[0, 1] regs !₂[1, 3]
      = .ok (min 1 ‖(!₂[1, 3] : Vec 2) - !₂[0, 1]‖ • (‖(!₂[-2, -2] : Vec 2)‖⁻¹ • !₂[-2, -2])) := by
  obtain ⟨regs, hr, -⟩ := C146_fitted lookUp signedAngle atAngle (fun _ u w => ∑ i, w i • u i) !₂[0, 1]
    [(!₂[1, 3], !₂[-2, -2]), (!₂[-1, 0], !₂[1, 0])]
  have ne : (!₂[1, 3] : Vec 2) ≠ !₂[-1, 0] := by
    intro h; have := congrFun (congrArg (fun x : Vec 2 => x.ofLp) h) 1; simp at this
  refine ⟨regs, hr, C146_reproduces_partial lookUp_interpolates signed_angleSpace weighted_mean _ _ ?_ regs hr _ _
    (by simp) ?_ ?_ ?_⟩
  · intro s hs t ht hst
    simp only [List.mem_cons, List.not_mem_nil, or_false] at hs ht
    rcases hs with rfl | rfl <;> rcases ht with rfl | rfl
    · rfl
    · exact absurd hst ne
    · exact absurd hst.symm ne
    · rfl
  · intro h; have := congrFun (congrArg (fun x : Vec 2 => x.ofLp) h) 1; simp at this
  · intro h; have := congrFun (congrArg (fun x : Vec 2 => x.ofLp) h) 1; simp at this
  · intro i
    have hn : ‖(!₂[-2, -2] : Vec 2)‖ = 2 * √2 := by
      rw [EuclideanSpace.norm_eq, Fin.sum_univ_two]
      have : (2 * √2) = √(2 ^ 2 * 2) := by
        rw [Real.sqrt_mul (by norm_num), Real.sqrt_sq (by norm_num)]
      rw [this]
      congr 1
      simp
      norm_num
    have hin : ⟪(!₂[-2, -2] : Vec 2), axisTowards !₂[0, 1] !₂[1, 3] i⟫ = 2 := by
      rw [inner_axisTowards]
      fin_cases i <;> simp <;> norm_num
    have : InnerProductGeometry.angle (!₂[-2, -2] : Vec 2) (axisTowards !₂[0, 1] !₂[1, 3] i) = Real.pi / 4 := by
      unfold InnerProductGeometry.angle
      rw [hin, hn, axisTowards_norm]
      have h2 : (2 : ℝ) / (2 * √2 * 1) = Real.cos (Real.pi / 4) := by
        rw [Real.cos_pi_div_four]
        have := Real.mul_self_sqrt (show (0 : ℝ) ≤ 2 by norm_num)
        have hp : 0 < √(2 : ℝ) := by positivity
        field_simp
        nlinarith
      rw [h2, Real.arccos_cos (by positivity) (by linarith [Real.pi_pos])]
    rw [this]
    have := Real.pi_pos
    norm_num
    linarith

lemma weighted_single : MeanOfSingle (fun _ u w => ∑ i, w i • u i) := by
  intro null u w i _ _ hi hj
  simp only
  rw [Finset.sum_eq_single i, hi, one_smul]
  · intro j _ h
    rw [hj j h, zero_smul]
  · simp

/-- Case: at `(2, 0)` the sampled velocity `(1, 0)` leads away from the attractor in the origin. -/
example : ∃ regs w, fitFromVelocities lookUp signedAngle 0 [(!₂[2, 0], !₂[1, 0])] newRegressors = .ok regs
    ∧ evaluate atAngle (fun _ u w => ∑ i, w i • u i) 0 regs !₂[2, 0] = .ok w
    ∧ InnerProductGeometry.angle w (0 - !₂[2, 0]) = 0.49 * Real.pi := by
  obtain ⟨regs, hr, -⟩ := C146_fitted lookUp signedAngle atAngle (fun _ u w => ∑ i, w i • u i) 0
    [(!₂[2, 0], !₂[1, 0])]
  have hv : (!₂[1, 0] : Vec 2) ≠ 0 := by
    intro h; have := congrFun (congrArg (fun x : Vec 2 => x.ofLp) h) 0; simp at this
  obtain ⟨w, hw, ha, -⟩ := C146_cut_off_fails lookUp_interpolates signed_angleSpace atAngle_angle weighted_single 0
    [(!₂[2, 0], !₂[1, 0])] (by simp) regs hr !₂[2, 0] !₂[1, 0] (by simp) 0 (by simp)
    (by
      intro j hj
      fin_cases j
      · simp at hj
      · simp) hv
    (by
      have : (0 : Vec 2) - !₂[2, 0] = (-2 : ℝ) • !₂[1, 0] := by
        ext j
        fin_cases j <;> simp
      rw [this, InnerProductGeometry.angle_smul_right_of_neg _ _ (by norm_num),
        InnerProductGeometry.angle_self_neg_of_nonzero hv]
      have := Real.pi_pos
      norm_num
      linarith)
  exact ⟨regs, w, hr, hw, ha⟩

/-- Case: the first samples are all to the right of the attractor, and learning again raises. -/
example : ∃ regs, fitFromVelocities lookUp signedAngle 0 [(!₂[1, 3], !₂[-2, -2])] newRegressors = .ok regs
    ∧ fitFromVelocities lookUp signedAngle 0 [(!₂[-1, 0], !₂[1, 0])] regs = .error .attributeError := by
  obtain ⟨regs, hr, -⟩ := C146_fitted lookUp signedAngle atAngle (fun _ u w => ∑ i, w i • u i) 0
    [(!₂[1, 3], !₂[-2, -2])]
  refine ⟨regs, hr, C146_refit_fails _ _ _ _ _ ?_ ?_ regs hr⟩
  · simp
  · simp

/-- Case: samples on all sides. -/
example : Covers 0 [(!₂[1, 3], !₂[-2, -2]), (!₂[-1, 0], !₂[1, 0])] := by
  intro i
  fin_cases i <;> simp

/-- Case: the linear dynamics with attractor `(0, 1)`, at `(1, 0)`. -/
example : ∃ s, predictDeviation (fun x => !₂[0, 1] - x) !₂[1, 0] = some s ∧ s ≠ 0 :=
  C146_predict_origin_fails _ !₂[0, 1] _ 1 one_pos (by simp) (by simp)

end Verif.DeviationFit
