import Verif.Props.AvoiderComponents

/-!
# C61 in space: a ball that moves towards a position on its surface
-/

open scoped RealInnerProductSpace

namespace Verif
open Spec

private instance : Fact (2 ≤ 3) := ⟨by norm_num⟩

/-- The unit ball in space, moving with the velocity `(1, 0, 0)` and expanding. -/
noncomputable def movingBall : ObstacleTree 3 :=
  { (discTree : ObstacleTree 3) with twist := some (!₂[1, 0, 0], none), deformationRate := some 2 }

/-- A motion with the constant velocity `(0, 1/2, 0)` and one moving ball. -/
noncomputable def ballSpaceAvoider : Avoider 3 where
  initial := { evaluate := fun _ => !₂[0, 1 / 2, 0], attractorPosition := some !₂[0, 1 / 2, 0] }
  convergence := convergenceWithoutSingularity (fun _ => !₂[0, 1 / 2, 0]) (fun _ => !₂[0, 1 / 2, 0])
  trees := [movingBall]

lemma e3_norm : ‖(!₂[1, 0, 0] : Vec 3)‖ = 1 := by simp [EuclideanSpace.norm_eq, Fin.sum_univ_three]

lemma ballSpace_sane : SaneTrees ballSpaceAvoider.trees := by
  intro t ht o ho
  have : t = movingBall := by simpa [ballSpaceAvoider] using ht
  subst this
  have : o = disc := by simpa [movingBall, discTree] using ho
  subst this
  exact disc_sane

lemma axis3 (r : ℝ) : r • (!₂[1, 0, 0] : Vec 3) = !₂[r, 0, 0] := by
  ext i; fin_cases i <;> simp

lemma axis3_norm {r : ℝ} (hr : 0 < r) : ‖(!₂[r, 0, 0] : Vec 3)‖ = r := by
  rw [← axis3, norm_smul, e3_norm, mul_one, Real.norm_of_nonneg hr.le]

lemma movingBall_drift (r : ℝ) : driftVelocity !₂[r, 0, 0] movingBall = !₂[1 + 2 * r, 0, 0] := by
  ext i; fin_cases i <;> norm_num [driftVelocity, movingBall, discTree]

lemma ballSpace_prepare {k : ℕ} {ext : Ext 3 k} {r : ℝ} (hr : 0 < r) (u : Vec 3) (hu : ‖u‖ = 1)
    (h : 0 ≤ ⟪(!₂[1, 0, 0] : Vec 3), u⟫) :
    ∃ pr, prepareAvoidance ext ballSpaceAvoider !₂[r, 0, 0] u = .ok pr ∧ GoodDirections pr.tree := by
  set b : Avoider 3 := { ballSpaceAvoider with trees := [discTree] } with hb
  have he : prepareAvoidance ext ballSpaceAvoider !₂[r, 0, 0] u = prepareAvoidance ext b !₂[r, 0, 0] u := rfl
  obtain ⟨pr, hpr, hU⟩ := disc_prepare (ext := ext) (a := b) (r := r) (e := !₂[1, 0, 0]) (u := u)
    (by norm_num [hb, ballSpaceAvoider])
    (by change Real.pi * 0.5 ≤ Real.pi; linarith [Real.pi_pos])
    (by intro gm hgm; have : gm = 0.8 := by simpa [hb, ballSpaceAvoider] using hgm.symm
        rw [this]; norm_num)
    (by intro t ht; simpa [hb] using ht) hr e3_norm hu h
  rw [axis3] at hpr
  exact ⟨pr, he.trans hpr, hU.good hu⟩

lemma ballSpace_only {x : Vec 3} : ∀ (j : ℕ) (t' : ObstacleTree 3) (c' : ℕ) (o' : Obstacle 3),
    ballSpaceAvoider.trees[j]? = some t' → t'.components[c']? = some o' → o'.gamma x ≤ 1 → j = 0 ∧ c' = 0 := by
  intro j t' c' o' hj hc _
  have hj' : j = 0 := by
    by_contra hne
    rw [List.getElem?_eq_none (by simp [ballSpaceAvoider]; omega)] at hj; cases hj
  subst hj'
  have : t' = movingBall := by simpa [ballSpaceAvoider] using hj.symm
  subst this
  refine ⟨rfl, ?_⟩
  by_contra hne
  rw [List.getElem?_eq_none (by simp [movingBall, discTree]; omega)] at hc; cases hc

lemma ballSpace_velocity : ‖(!₂[0, 1 / 2, 0] : Vec 3)‖ = 1 / 2 := by
  simp [EuclideanSpace.norm_eq, Fin.sum_univ_three]

/-- The evaluation on the surface of the ball, or inside, is defined. -/
lemma ballSpace_run {k : ℕ} (ext : Ext 3 k) (has : ArgsortSpec ext.argsort) {r : ℝ} (hr : 1 / 2 ≤ r) (hr1 : r ≤ 1) :
    ∃ w, ballSpaceAvoider.evaluate ext !₂[r, 0, 0] = .ok w := by
  classical
  have hr0 : 0 < r := by linarith
  have hx := axis3_norm hr0
  have hpow : (0 : ℝ) ≤ ballSpaceAvoider.power := by norm_num [ballSpaceAvoider]
  have hn := ballSpace_velocity
  have hv0 : (!₂[0, 1 / 2, 0] : Vec 3) ≠ 0 := by
    intro h; rw [h] at hn; norm_num at hn
  have href : referenceDirection (!₂[r, 0, 0] : Vec 3) ballSpaceAvoider.initial none = !₂[-r, 1 / 2, 0] := by
    ext i; fin_cases i <;> simp [referenceDirection, ballSpaceAvoider]
  have hn1 : 1 / 2 ≤ ‖(!₂[-r, 1 / 2, 0] : Vec 3)‖ := by
    rw [EuclideanSpace.norm_eq, Fin.sum_univ_three]
    apply Real.le_sqrt_of_sq_le; norm_num [Matrix.cons_val_two]; positivity
  have hn2 : ‖(!₂[-r, 1 / 2, 0] : Vec 3)‖ ≤ 2 := by
    rw [EuclideanSpace.norm_eq, Fin.sum_univ_three]
    apply Real.sqrt_le_iff.mpr; norm_num [Matrix.cons_val_two]; nlinarith
  have hone : AtMostOneContact (!₂[r, 0, 0] : Vec 3) ballSpaceAvoider.trees := List.pairwise_singleton _ _
  have hseq : ∃ s, evaluateDynamicsSequence (!₂[r, 0, 0] : Vec 3) ballSpaceAvoider.initial = .ok (some s) := by
    cases hs : evaluateDynamicsSequence (!₂[r, 0, 0] : Vec 3) ballSpaceAvoider.initial with
    | error er =>
      rcases ((C16_error_iff _ ballSpaceAvoider.initial none rfl er).mp hs).2.2.2 with h | h | h
      · rw [href] at h; linarith
      · change ‖(!₂[0, 1 / 2, 0] : Vec 3)‖ ≤ _ at h
        rw [hn] at h; norm_num at h
      · rw [href] at h
        obtain ⟨c, hc, h⟩ := h
        have := congrArg (fun w : Vec 3 => w 1) h
        simp [ballSpaceAvoider] at this
        linarith
    | ok s =>
      cases s with
      | none =>
        rcases (C16_none_iff _ ballSpaceAvoider.initial none rfl).mp hs with h | h
        · rw [href] at h; rw [h] at hn1; norm_num at hn1
        · exact absurd h hv0
      | some s => exact ⟨s, rfl⟩
  obtain ⟨s, hs1⟩ := hseq
  have hin : ∀ t ∈ ballSpaceAvoider.trees, InContact (!₂[0, 1 / 2, 0] : Vec 3) t := by
    intro t ht
    have : t = movingBall := by simpa [ballSpaceAvoider] using ht
    subst this
    refine ⟨disc, by simp [movingBall, discTree], ?_⟩
    change ‖(!₂[0, 1 / 2, 0] : Vec 3)‖ ≤ 1
    rw [hn]; norm_num
  have hdist : Distinguishable [referenceDirection (!₂[r, 0, 0] : Vec 3) ballSpaceAvoider.initial none,
      ballSpaceAvoider.initial.evaluate !₂[r, 0, 0]] := by
    rw [href]
    refine List.isChain_cons_cons.mpr ⟨Or.inr ?_, List.isChain_singleton _⟩
    intro h
    have h0 := h 0
    unfold isclose at h0
    simp only [PiLp.smul_apply, smul_eq_mul, Matrix.cons_val_zero, mul_zero, sub_zero, abs_zero,
      add_zero, mul_neg, abs_neg, ballSpaceAvoider] at h0
    rw [abs_of_nonneg (by positivity)] at h0
    have h4 : 1 / 2 ≤ 1 / ‖(!₂[-r, 1 / 2, 0] : Vec 3)‖ :=
      one_div_le_one_div_of_le (by linarith) hn2
    have h5 : 1 / 4 ≤ 1 / ‖(!₂[-r, 1 / 2, 0] : Vec 3)‖ * r := by nlinarith
    norm_num at h0 h5
    linarith
  obtain ⟨conv, hc1, hc2⟩ := C62_attractor_inside ext ballSpaceAvoider _ _ rfl rfl hin has hdist s hs1
  have hu : ‖unit (!₂[0, 1 / 2, 0] : Vec 3)‖ = 1 := unit_norm hv0
  obtain ⟨pr, hpr, hgd⟩ := ballSpace_prepare (ext := ext) hr0 _ hu (by
    unfold unit; rw [inner_smul_right]; simp [PiLp.inner_apply, Fin.sum_univ_three])
  have hrot : ¬ Rotating movingBall := by rintro ⟨lin, w, h⟩; simp [movingBall] at h
  have hgam : ballSpaceAvoider.trees.mapM (fun t => t.gamma !₂[r, 0, 0]) = .ok [‖(!₂[r, 0, 0] : Vec 3)‖] := rfl
  have hcon : disc.gamma (!₂[r, 0, 0] : Vec 3) ≤ 1 := by
    change ‖(!₂[r, 0, 0] : Vec 3)‖ ≤ 1
    rw [hx]; exact hr1
  have hrel := C60_contact_drift !₂[r, 0, 0] ballSpaceAvoider.trees _ hgam 0 (by simp [ballSpaceAvoider])
    ⟨disc, by simp [ballSpaceAvoider, movingBall, discTree], hcon⟩ (by
      intro j hj hne; simp [ballSpaceAvoider] at hj; omega) hrot
  obtain ⟨⟨w, hw⟩, _⟩ := run_of_prepared hpow ballSpace_sane hone has (by simp [ballSpaceAvoider]) hs1 hc1 hc2 hpr
    hrel hgd.inner
  exact ⟨w, hw⟩

/-- `C61_space_partial` is not vacuous: the ball moves and expands towards a position on its surface, and the
evaluation is defined: the position is carried along. -/
example {k : ℕ} (ext : Ext 3 k) (has : ArgsortSpec ext.argsort) :
    ∃ w, ballSpaceAvoider.evaluate ext !₂[1, 0, 0] = .ok w ∧ 3 - 1e-3 * (1 / 2) ≤ ⟪w, (!₂[1, 0, 0] : Vec 3)⟫ := by
  have hx := e3_norm
  have hn := ballSpace_velocity
  obtain ⟨w, hw⟩ := ballSpace_run ext has (r := 1) (by norm_num) (le_refl 1)
  refine ⟨w, hw, ?_⟩
  have hsurf : OnSurface (disc : Obstacle 3) !₂[1, 0, 0] := by
    refine ⟨hx, ?_⟩
    have hr : (disc : Obstacle 3).reference !₂[1, 0, 0] = -!₂[1, 0, 0] := by
      change (-(1 / ‖(!₂[1, 0, 0] : Vec 3)‖)) • _ = _
      rw [hx, div_one, neg_one_smul]
    have h0 : (!₂[1, 0, 0] : Vec 3) ≠ 0 := by intro h; rw [h] at hx; simp at hx
    rw [hr, smul_neg, neg_one_smul, neg_neg]
    change (if (!₂[1, 0, 0] : Vec 3) = 0 ∨ _ < (0 : ℝ) then none else some _) = _
    rw [real_inner_self_eq_norm_sq, hx]
    norm_num [h0]
  have := (C61_space_partial ext ballSpaceAvoider !₂[1, 0, 0] w (le_refl _) (by norm_num [ballSpaceAvoider]) ballSpace_sane has (norm_nonneg _)
    0 movingBall rfl 0 disc rfl hsurf (Or.inl rfl) ballSpace_only (moves_plain rfl (by
      intro h
      rw [show (!₂[0, 1 / 2, 0] : Vec 3) = 0 from h, norm_zero] at hn
      norm_num at hn) (by
      intro h
      have := congrArg (fun v : Vec 3 => v 0) (Option.some.inj h)
      simp at this)) hw).2
  have hm : ballSpaceAvoider.magnitude !₂[1, 0, 0] = 1 / 2 := hn
  have hnor : (disc : Obstacle 3).normal !₂[1, 0, 0] = !₂[1, 0, 0] := by
    change (1 / ‖(!₂[1, 0, 0] : Vec 3)‖) • _ = _
    rw [hx]; simp
  rw [movingBall_drift, hm, hnor, inner_sub_left] at this
  have h3 : ⟪(!₂[1 + 2 * 1, 0, 0] : Vec 3), (!₂[1, 0, 0] : Vec 3)⟫ = 3 := by
    simp [PiLp.inner_apply, Fin.sum_univ_three]; norm_num
  rw [h3] at this
  linarith

/-- `C61_space_inside_partial` is not vacuous: the position is inside of the moving and expanding ball, and it is
carried along, up to a thousandth of the speed of the initial motion. -/
example {k : ℕ} (ext : Ext 3 k) (has : ArgsortSpec ext.argsort) :
    ∃ w s, ballSpaceAvoider.evaluate ext !₂[1 / 2, 0, 0] = .ok w
      ∧ (disc : Obstacle 3).intersection !₂[1 / 2, 0, 0] ((-1 : ℝ) • disc.reference !₂[1 / 2, 0, 0]) = some s
      ∧ -1e-3 * ballSpaceAvoider.magnitude !₂[1 / 2, 0, 0]
        ≤ ⟪w - (!₂[1 + 2 * (1 / 2), 0, 0] : Vec 3), (disc : Obstacle 3).normal s⟫ := by
  have hn := ballSpace_velocity
  obtain ⟨w, hw⟩ := ballSpace_run ext has (r := 1 / 2) (le_refl _) (by norm_num)
  have hin : (disc : Obstacle 3).gamma !₂[1 / 2, 0, 0] < 1 := by
    change ‖(!₂[1 / 2, 0, 0] : Vec 3)‖ < 1
    rw [axis3_norm (by norm_num)]; norm_num
  obtain ⟨_, s, h1, h2⟩ := C61_space_inside_partial ext ballSpaceAvoider !₂[1 / 2, 0, 0] w (le_refl _)
    (by norm_num [ballSpaceAvoider]) ballSpace_sane has (norm_nonneg _) 0 movingBall rfl 0 disc rfl hin (Or.inl rfl)
    ballSpace_only (moves_plain rfl (by
      intro h
      rw [show (!₂[0, 1 / 2, 0] : Vec 3) = 0 from h, norm_zero] at hn
      norm_num at hn) (by
      intro h
      have := congrArg (fun v : Vec 3 => v 0) (Option.some.inj h)
      norm_num at this)) hw
  rw [movingBall_drift] at h2
  exact ⟨w, s, hw, h1, h2⟩

end Verif
