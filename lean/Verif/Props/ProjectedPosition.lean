import Verif.Props.Fold
import Verif.Props.Projected
import Verif.Props.Weights2
import Verif.Props.Sequence

/-!
# C68 – C70: the projected position and the convergence around an obstacle
-/

open scoped RealInnerProductSpace

set_option linter.unusedSectionVars false

namespace Verif
open Spec Projected

variable {d : ℕ} [h2 : Fact (2 ≤ d)]

/-! ## C68 -/

/-- The assumptions on the obstacle: local and global frame correspond to each other, the surface
is at a positive radius that depends only on the direction, gamma is one there, larger outside and
smaller inside. -/
structure StarGeometry (g : Geometry d) : Prop where
  to_from : ∀ x, g.toLocal (g.fromLocal x) = x
  from_to : ∀ x, g.fromLocal (g.toLocal x) = x
  radius_pos : ∀ x, 0 < g.localRadius x
  radius_dir : DirectionOnly 0 g.localRadius
  outside : ∀ x, 1 < g.localGamma x ↔ g.localRadius x < ‖x‖
  inside : ∀ x, g.localGamma x < 1 ↔ ‖x‖ < g.localRadius x

lemma foldedVec_eq_zero {a v : Vec d} (ha : ‖a‖ = 1) (hv : v ≠ 0) {D power : ℝ} (hD : 0 < D)
    (hpow : 0 < power) (h1 : -1 < ⟪unit v, a⟫) (hE : foldedVec a v D power = 0) : v = D • a := by
  have hle : ⟪unit v, a⟫ ≤ 1 := by
    have := (inner_unit_bounds v a).2; rwa [unit_of_norm_one ha] at this
  have hn : 0 < ‖v‖ := norm_pos_iff.mpr hv
  have hx0 := foldedVec_inner ha v D power
  rw [hE, inner_zero_right] at hx0
  have hvD : ‖v‖ = D := by
    have h3 : Real.log (‖v‖ / D) = 0 := by
      rcases mul_eq_zero.mp hx0.symm with h | h
      · exact absurd h hD.ne'
      · exact h
    have h4 := Real.eq_one_of_pos_of_log_eq_zero (by positivity) h3
    field_simp at h4; exact h4
  have hc1 : ⟪unit v, a⟫ = 1 := by
    rw [← (foldedVec_lateral ha hv h1 hle D power hpow).2, hE]
    simp [perpPart, Real.zero_rpow hpow.ne']; norm_num
  have hva : unit v = a := eq_of_inner_eq_one (unit_norm hv) ha hc1
  rw [← hva, ← hvD, norm_smul_unit]

lemma floatMax_pos : 0 < floatMax := by
  unfold floatMax
  rw [sub_pos]
  exact pow_lt_pow_right₀ (by norm_num) (by norm_num)

lemma setFirst_scale_ne_zero {x : Vec d} {D : ℝ} (hD : D ≠ 0) (hx : x ≠ 0) :
    setFirst x (x i0 * D) ≠ 0 := by
  intro h
  apply hx
  ext i
  have hi := congrArg (fun v : Vec d => v i) h
  by_cases h0 : i = i0
  · subst h0
    simp only [setFirst_apply] at hi
    simpa [hD] using hi
  · simpa [setFirst, h0] using hi

/-- Folding moves no other position to the obstacle centre. -/
lemma fold_ne_zero {basis : Vec d → (Vec d ≃ₗᵢ[ℝ] Vec d)} (hb : FirstColumn basis)
    (p A : Vec d) (power : ℝ) (hpow : 0 < power) (hp : p ≠ 0) :
    fold basis none p A power ≠ 0 := by
  classical
  by_cases hc : (0 : Vec d) - A = 0
  · unfold fold
    simp only [attractorToObstacle_eq, centre, Option.getD_none]
    rw [if_pos (by simpa using hc)]; exact hp
  have hD : 0 < ‖(0 : Vec d) - A‖ := norm_pos_iff.mpr hc
  by_cases hpA : p - A ≠ 0 ∧ -1 < ⟪unit (p - A), unit (centre none - A)⟫
  · have h := fold_eq hb none p A power hpow hc hpA.1 hpA.2
    simp only at h
    rw [h]
    refine setFirst_scale_ne_zero hD.ne' (fun hE => hp ?_)
    have := foldedVec_eq_zero (unit_norm hc) hpA.1 hD hpow hpA.2 hE
    change p - A = ‖(0 : Vec d) - A‖ • unit ((0 : Vec d) - A) at this
    rw [norm_smul_unit] at this
    have h3 := congrArg (· + A) this
    simpa using h3
  · unfold fold
    simp only [attractorToObstacle_eq, centre, Option.getD_none]
    rw [if_neg hD.ne']
    refine setFirst_scale_ne_zero hD.ne' ?_
    rw [Ne, LinearIsometryEquiv.map_eq_zero_iff]
    unfold foldTail
    by_cases h0 : ‖p - A‖ = 0
    · rw [if_pos h0]
      intro h
      have := congrArg (fun v : Vec d => v i0) h
      simp only [setFirst_apply, foldedRadial, h0] at this
      have hfm := floatMax_pos
      simp at this; linarith
    · rw [if_neg h0]
      have hle : ⟪(1 / ‖p - A‖) • (p - A), (1 / ‖(0 : Vec d) - A‖) • (0 - A)⟫ ≤ -1 := by
        by_contra hcon
        exact hpA ⟨norm_ne_zero_iff.mp h0, not_le.mp hcon⟩
      rw [if_pos hle]
      intro h
      have := congrArg (fun v : Vec d => v i1) h
      simp at this
      have hfm := floatMax_pos
      linarith

/-- C68: positions on or in the obstacle are not moved by the projection, and no position is if
the attractor lies in the obstacle. -/
theorem C68_unchanged (basis : Vec d → (Vec d ≃ₗᵢ[ℝ] Vec d)) (g : Geometry d) (A p : Vec d)
    (h : g.localGamma (g.toLocal p) ≤ 1 ∨ g.localGamma (g.toLocal A) < 1) :
    projectedPosition basis g A p = some p := by
  classical
  unfold projectedPosition
  simp only
  by_cases hA : g.localGamma (g.toLocal A) < 1
  · rw [if_pos hA]; rfl
  · rw [if_neg hA, if_pos (h.resolve_right hA)]; rfl

/-- C68: with the attractor exactly on the surface the projection moves nothing. -/
theorem C68_attractor_on_surface (basis : Vec d → (Vec d ≃ₗᵢ[ℝ] Vec d)) (g : Geometry d)
    (hg : StarGeometry g) (A p : Vec d) (hA : g.localGamma (g.toLocal A) = 1)
    (hnear : ‖g.toLocal p‖ ≤ 1e10) :
    projectedPosition basis g A p = some p := by
  classical
  by_cases hp : g.localGamma (g.toLocal p) ≤ 1
  · exact C68_unchanged basis g A p (Or.inl hp)
  have hpo := (hg.outside _).mp (not_le.mp hp)
  have hr := hg.radius_pos (g.toLocal p)
  have hAn : ‖g.toLocal A‖ = g.localRadius (g.toLocal A) := by
    refine le_antisymm (not_lt.mp fun h => ?_) (not_lt.mp fun h => ?_)
    · have := (hg.outside _).mpr h; linarith
    · have := (hg.inside _).mpr h; linarith
  have hdA : deflate g.localRadius none (g.toLocal A) = some 0 :=
    C49_centre g.localRadius none _ 1 (hg.radius_pos _)
      (Or.inr ⟨by simpa [centre] using hAn, rfl⟩)
  obtain ⟨q, hq1, hq2⟩ := C49_round_trip g.localRadius none hg.radius_dir (g.toLocal p) 1 hr.le
    le_rfl (by simpa [centre] using hpo)
  obtain ⟨q', hq1', hq3, _⟩ := C49_shrinks g.localRadius none (g.toLocal p) 1 hr.le
    le_rfl (by simpa [centre] using hpo)
  rw [hq1] at hq1'
  cases hq1'
  have hqn : ‖q‖ ≤ 1e10 := by
    simp only [centre, Option.getD_none, sub_zero] at hq3
    rw [hq3]; linarith
  have hfold : fold basis none q 0 2 = q := by
    unfold fold
    simp only [attractorToObstacle_eq, centre, Option.getD_none]
    rw [if_pos (by simp)]
  unfold projectedPosition
  simp only
  rw [if_neg (by rw [hA]; exact lt_irrefl _), if_neg hp, hq1, hdA]
  simp only [Option.bind_eq_bind, Option.bind_some, hfold]
  rw [if_neg (not_lt.mpr hqn), hq2, hg.from_to]; rfl

/-- C68: the projection of a position outside the obstacle is a number, and lies outside the
obstacle too, unless it is more than `1e10` away. -/
theorem C68_outside {basis : Vec d → (Vec d ≃ₗᵢ[ℝ] Vec d)} (hb : FirstColumn basis)
    (g : Geometry d) (hg : StarGeometry g) (A p : Vec d) (hp : 1 < g.localGamma (g.toLocal p)) :
    ∃ q, projectedPosition basis g A p = some q
      ∧ (1 < g.localGamma (g.toLocal q) ∨ 1e10 < ‖q‖) := by
  classical
  by_cases hA : g.localGamma (g.toLocal A) < 1
  · exact ⟨p, C68_unchanged basis g A p (Or.inr hA), Or.inl hp⟩
  have hpo := (hg.outside _).mp hp
  have hr := hg.radius_pos (g.toLocal p)
  obtain ⟨q, hq1, hq3, _⟩ := C49_shrinks g.localRadius none (g.toLocal p) 1 hr.le
    le_rfl (by simpa [centre] using hpo)
  have hq0 : q ≠ 0 := by
    intro h0
    rw [h0] at hq3
    simp only [centre, Option.getD_none, sub_zero, norm_zero] at hq3
    linarith
  obtain ⟨A', hA'⟩ : ∃ A', deflate g.localRadius none (g.toLocal A) = some A' := by
    rw [deflate_eq]
    have hrA := hg.radius_pos (g.toLocal A)
    have hn : ¬ ‖g.toLocal A - centre none‖ < g.localRadius (g.toLocal A) := by
      simp only [centre, Option.getD_none, sub_zero]
      exact fun h => hA ((hg.inside _).mpr h)
    rw [if_neg hn, if_neg (by intro h0; apply hn; rw [h0]; exact hrA)]
    exact ⟨_, rfl⟩
  have hf0 := fold_ne_zero hb q A' 2 two_pos hq0
  unfold projectedPosition
  simp only
  rw [if_neg hA, if_neg (not_le.mpr hp), hq1, hA']
  simp only [Option.bind_eq_bind, Option.bind_some]
  by_cases hfar : ‖fold basis none q A' 2‖ > 1e10
  · rw [if_pos hfar]
    exact ⟨_, rfl, Or.inr hfar⟩
  · rw [if_neg hfar]
    refine ⟨_, rfl, Or.inl ?_⟩
    rw [hg.to_from, hg.outside]
    obtain ⟨h1, t, ht, h3⟩ := C49_grows g.localRadius none (fold basis none q A' 2) 1
      (hg.radius_pos _).le zero_le_one hf0
    simp only [centre, Option.getD_none, sub_zero, zero_add] at h1 h3
    have hrad : g.localRadius (inflate g.localRadius none (fold basis none q A' 2))
        = g.localRadius (fold basis none q A' 2) := by
      have := hg.radius_dir (fold basis none q A' 2) t ht
      simp only [zero_add] at this
      rw [h3, this]
    rw [hrad, h1]
    have : 0 < ‖fold basis none q A' 2‖ := norm_pos_iff.mpr hf0
    linarith

/-- C68: the weight of the convergence around an obstacle is a number in `(0, 1]` for every
position, and one on and in the obstacle. -/
theorem C68_weight {basis : Vec d → (Vec d ≃ₗᵢ[ℝ] Vec d)} (hb : FirstColumn basis)
    (g : Geometry d) (hg : StarGeometry g) (o : Obstacle d)
    (A p : Vec d) (power : ℝ) (hw : 0 ≤ power) :
    ∃ w, evaluateProjectedWeight basis g A p o power = some w ∧ 0 < w ∧ w ≤ 1
      ∧ (o.gamma p ≤ 1 → w = 1) := by
  obtain ⟨q, hq⟩ : ∃ q, projectedPosition basis g A p = some q := by
    by_cases hp : g.localGamma (g.toLocal p) ≤ 1
    · exact ⟨p, C68_unchanged basis g A p (Or.inl hp)⟩
    · obtain ⟨q, hq, _⟩ := C68_outside hb g hg A p (not_le.mp hp)
      exact ⟨q, hq⟩
  obtain ⟨h1, h3, h4, _⟩ := C33_projected power hw (o.gamma q) (o.gamma p)
  refine ⟨_, ?_, h1, h3, fun h => h4 (Or.inr h)⟩
  unfold evaluateProjectedWeight
  rw [hq]; rfl

/-- The unit disc as a geometry: C68 is not vacuous. -/
noncomputable def discGeometry : Geometry 2 where
  toLocal x := x - !₂[5, 1]
  fromLocal x := x + !₂[5, 1]
  localGamma x := ‖x‖
  localRadius _ := 1

example : StarGeometry discGeometry ∧ 1 < discGeometry.localGamma (discGeometry.toLocal !₂[5, 4]) := by
  refine ⟨⟨fun x => by simp [discGeometry], fun x => by simp [discGeometry],
    fun _ => one_pos, fun _ _ _ => rfl, fun _ => Iff.rfl, fun _ => Iff.rfl⟩, ?_⟩
  have : (!₂[5, 4] : Vec 2) - !₂[5, 1] = EuclideanSpace.single 1 3 := by
    ext i; fin_cases i <;> simp; norm_num
  simp only [discGeometry, this]; simp

/-! ## C69 -/

lemma rotationStartToEnd_cases (hd : d ≤ 10 ^ 15) (start finish center : Vec d) :
    (start = center ∧ rotationStartToEnd start finish center = .ok none)
    ∨ (start ≠ center ∧ finish = center
        ∧ rotationStartToEnd start finish center = .error .notImplemented)
    ∨ (start ≠ center ∧ finish ≠ center ∧ Opposite (center - start) (center - finish)
        ∧ rotationStartToEnd start finish center = .ok none)
    ∨ (start ≠ center ∧ finish ≠ center ∧ ¬ Opposite (center - start) (center - finish)
        ∧ ∃ r, fromDirections (unit (center - start)) (unit (center - finish)) = some r
          ∧ rotationStartToEnd start finish center = .ok (some r)) := by
  classical
  unfold rotationStartToEnd
  simp only
  by_cases hs : center - start = 0
  · have hs' : start = center := (sub_eq_zero.mp hs).symm
    rw [if_pos (by simpa using hs)]
    exact Or.inl ⟨hs', rfl⟩
  have hs' : start ≠ center := fun h => hs (by rw [h, sub_self])
  rw [if_neg (by simpa using hs)]
  by_cases hf : center - finish = 0
  · have hf' : finish = center := (sub_eq_zero.mp hf).symm
    rw [if_pos (by simpa using hf)]
    exact Or.inr (Or.inl ⟨hs', hf', rfl⟩)
  have hf' : finish ≠ center := fun h => hf (by rw [h, sub_self])
  rw [if_neg (by simpa using hf)]
  have hu1 : (1 / ‖center - start‖) • (center - start) = unit (center - start) := rfl
  have hu2 : (1 / ‖center - finish‖) • (center - finish) = unit (center - finish) := rfl
  rw [hu1, hu2]
  by_cases ho : Opposite (center - start) (center - finish)
  · rw [if_pos (((opposite_iff_inner hs hf).mp ho).le)]
    exact Or.inr (Or.inr (Or.inl ⟨hs', hf', ho, rfl⟩))
  · have hne : ¬ ⟪unit (center - start), unit (center - finish)⟫ ≤ -1 := by
      intro h
      exact ho ((opposite_iff_inner hs hf).mpr (le_antisymm h (inner_unit_bounds _ _).1))
    rw [if_neg hne]
    obtain ⟨r, hr⟩ := (C05_from_directions_defined_iff hd (unit (center - start))
      (unit (center - finish))).mpr ⟨unit_ne_zero hs, unit_ne_zero hf,
        fun h => ho ((opposite_unit_iff hs hf).mp h)⟩
    rw [hr]
    exact Or.inr (Or.inr (Or.inr ⟨hs', hf', ho, r, rfl, rfl⟩))

/-- C69: the rotation from the start to the end around a centre is `None` exactly at the centre or
for an end on the opposite side of the centre, and not implemented exactly for an end at the centre
(and a start elsewhere); there is no other failure. -/
theorem C69_outcomes (hd : d ≤ 10 ^ 15) (start finish center : Vec d) :
    (rotationStartToEnd start finish center = .ok none ↔
      start = center ∨ (finish ≠ center ∧ Opposite (center - start) (center - finish)))
    ∧ (∀ e, rotationStartToEnd start finish center = .error e ↔
      e = .notImplemented ∧ start ≠ center ∧ finish = center) := by
  rcases rotationStartToEnd_cases hd start finish center with
    ⟨h1, h⟩ | ⟨h1, h3, h⟩ | ⟨h1, h3, h4, h⟩ | ⟨h1, h3, h4, r, _, h⟩ <;> rw [h]
  · exact ⟨by simp [h1], fun e => by simp [h1]⟩
  · refine ⟨by simp [h1, h3], fun e => ?_⟩
    simp only [h1, h3, ne_eq, not_false_eq_true, and_true, Except.error.injEq]
    exact eq_comm
  · exact ⟨by simp [h3, h4], fun e => by simp [h3]⟩
  · exact ⟨by simp [h1, h4], fun e => by simp [h3]⟩

/-- C69: the rotation has an orthonormal base, starts at the direction from the start to the centre
and turns by the angle under which the centre sees start and end; outside the tolerance of
`from_directions` it turns the direction from the start to the centre exactly into the direction
from the end to the centre. -/
theorem C69_rotation (hd : d ≤ 10 ^ 15) (start finish center : Vec d) (r : Rot (Vec d))
    (h : rotationStartToEnd start finish center = .ok (some r)) :
    OrthonormalPair r.base.b0 r.base.b1 ∧ r.getFirstVector = unit (center - start)
    ∧ r.angle = InnerProductGeometry.angle (center - start) (center - finish)
    ∧ (Distinguishable [center - start, center - finish] →
        r.rotate (unit (center - start)) = unit (center - finish)) := by
  rcases rotationStartToEnd_cases hd start finish center with
    ⟨h1, h'⟩ | ⟨h1, h3, h'⟩ | ⟨h1, h3, h4, h'⟩ | ⟨h1, h3, h4, q, hq, h'⟩ <;> rw [h'] at h
  · cases h
  · cases h
  · cases h
  · cases h
    have hs : center - start ≠ 0 := sub_ne_zero.mpr h1.symm
    have hf : center - finish ≠ 0 := sub_ne_zero.mpr h3.symm
    obtain ⟨c1, c2, c3, _⟩ := C05_from_directions_valid _ _ _ hq
    rw [unit_unit hs] at c2
    refine ⟨c1, c2, ?_, fun hdist => ?_⟩
    · rw [c3, unit, unit, InnerProductGeometry.angle_smul_left_of_pos _ _ (by positivity),
        InnerProductGeometry.angle_smul_right_of_pos _ _ (by positivity)]
    · have := (C06_maps_first_to_second _ _ _ hq ?_).1
      · rwa [unit_unit hs, unit_unit hf] at this
      · rw [unit_unit hs, unit_unit hf]
        have hh := List.isChain_cons_cons.mp hdist |>.1
        rcases hh with hh | hh
        · exact Or.inr hh
        · exact Or.inl hh

/-- C69: at the position itself the rotation towards an obstacle is that around the attractor from
the position to the reference point. -/
theorem C69_to_obstacle (hd : d ≤ 10 ^ 15) (A p : Vec d) (o : Obstacle d) (r : Rot (Vec d))
    (h : rotationPositionToTransform A p o = .ok (some r)) :
    r.getFirstVector = unit (A - p)
    ∧ r.angle = InnerProductGeometry.angle (A - p) (A - o.referencePoint) :=
  ⟨(C69_rotation hd _ _ _ r h).2.1, (C69_rotation hd _ _ _ r h).2.2.1⟩

/-- C69: `get_base_convergence` is a unit vector towards the attractor, and zero exactly there. -/
theorem C69_base_convergence (A p : Vec d) :
    (p = A → baseConvergence A p = 0)
    ∧ (p ≠ A → ‖baseConvergence A p‖ = 1 ∧ ∃ c : ℝ, 0 < c ∧ p + c • baseConvergence A p = A) := by
  classical
  unfold baseConvergence
  refine ⟨fun h => by subst h; simp, fun h => ?_⟩
  have h0 : A - p ≠ 0 := sub_ne_zero.mpr h.symm
  rw [if_neg (by simpa using h0)]
  refine ⟨unit_norm h0, ‖A - p‖, norm_pos_iff.mpr h0, ?_⟩
  change p + ‖A - p‖ • unit (A - p) = A
  rw [norm_smul_unit]; abel

/-- C69 is not vacuous: a quarter turn around the origin. -/
example : ∃ r, rotationStartToEnd (-e3 0) (-e3 2) (0 : Vec 3) = .ok (some r)
    ∧ Distinguishable [(0 : Vec 3) - -e3 0, 0 - -e3 2] := by
  haveI : Fact (2 ≤ 3) := ⟨by norm_num⟩
  have e1 : (0 : Vec 3) - -e3 0 = e3 0 := by simp
  have e2 : (0 : Vec 3) - -e3 2 = e3 2 := by simp
  rcases rotationStartToEnd_cases (d := 3) (by norm_num) (-e3 0) (-e3 2) 0 with
    ⟨h1, h'⟩ | ⟨h1, h3, h'⟩ | ⟨h1, h3, h4, h'⟩ | ⟨h1, h3, h4, q, hq, h'⟩
  · exact absurd (neg_eq_zero.mp h1) (e3_ne_zero 0)
  · exact absurd (neg_eq_zero.mp h3) (e3_ne_zero 2)
  · rw [e1, e2] at h4; exact absurd h4 (e3_not_opposite (by decide))
  · refine ⟨q, h', ?_⟩
    rw [e1, e2]
    refine List.isChain_cons_cons.mpr ⟨Or.inr ?_, by simp⟩
    have u1 : (1 / ‖e3 0‖) • e3 0 = e3 0 := e3_unit 0
    have u2 : (1 / ‖e3 2‖) • e3 2 = e3 2 := e3_unit 2
    rw [u1, u2]; exact e3_not_allclose (by decide)

/-! ## C70 -/

/-- C70: at the attractor, and where the attractor lies between position and obstacle, the
convergence sequence is the initial one. -/
theorem C70_initial (initial : Dynamics d) (A p : Vec d) (o : Obstacle d) (s0 : RotSeq (Vec d))
    (hd : d ≤ 10 ^ 15)
    (h : p = A ∨ (o.referencePoint ≠ A ∧ Opposite (A - p) (A - o.referencePoint))) :
    convergenceSequence initial A p o s0 = .ok s0 := by
  have := (C69_outcomes hd p o.referencePoint A).1.mpr h
  unfold convergenceSequence rotationPositionToTransform
  rw [this]; rfl

/-- C70: elsewhere the convergence sequence leads from the direction towards the attractor over the
direction in which the reference point of the obstacle sees the attractor to the direction of the
dynamics at the reference point.  (`initial` is a dynamics with that attractor.) -/
theorem C70_sequence (initial : Dynamics d) (A p : Vec d) (o : Obstacle d) (s0 : RotSeq (Vec d))
    (hd : d ≤ 10 ^ 15) (hown : initial.ownSequence = none)
    (hattr : initial.attractorPosition = some A)
    (hp : p ≠ A) (ho : ¬ Opposite (A - p) (A - o.referencePoint))
    (hv : 1e-8 < ‖initial.evaluate o.referencePoint‖) (hr : 1e-8 < ‖A - o.referencePoint‖)
    (hvo : ¬ Opposite (A - o.referencePoint) (initial.evaluate o.referencePoint))
    (hdist : Distinguishable [A - p, A - o.referencePoint, initial.evaluate o.referencePoint]) :
    ∃ s, convergenceSequence initial A p o s0 = .ok s ∧ s.length = 2
      ∧ s.map Rot.getFirstVector = [unit (A - p), unit (A - o.referencePoint)]
      ∧ Connected s
      ∧ s.getEndVector = .ok (unit (initial.evaluate o.referencePoint)) := by
  have hro : o.referencePoint ≠ A := by
    intro h; rw [h, sub_self, norm_zero] at hr; norm_num at hr
  have href : referenceDirection o.referencePoint initial none = A - o.referencePoint := by
    unfold referenceDirection; rw [hattr]
  rcases rotationStartToEnd_cases hd p o.referencePoint A with
    ⟨h1, h'⟩ | ⟨h1, h3, h'⟩ | ⟨h1, h3, h4, h'⟩ | ⟨h1, h3, h4, q, hq, h'⟩
  · exact absurd h1 hp
  · exact absurd h3 hro
  · exact absurd h4 ho
  obtain ⟨hon, hfst, _, hmap⟩ := C69_rotation hd _ _ _ _ h'
  obtain ⟨s, hs⟩ : ∃ s, evaluateDynamicsSequence o.referencePoint initial none = .ok (some s) := by
    cases hres : evaluateDynamicsSequence o.referencePoint initial none with
    | error e =>
      obtain ⟨_, _, _, h5⟩ := (C16_error_iff _ _ _ hown e).mp hres
      rw [href] at h5
      rcases h5 with h5 | h5 | h5
      · linarith
      · linarith
      · exact absurd h5 hvo
    | ok x =>
      cases x with
      | none =>
        rcases (C16_none_iff _ _ _ hown).mp hres with h5 | h5
        · rw [href] at h5; rw [h5, norm_zero] at hr; norm_num at hr
        · rw [h5, norm_zero] at hv; norm_num at hv
      | some s => exact ⟨s, rfl⟩
  obtain ⟨hl, hf, he⟩ := C16_rotation _ _ _ hown s hs
  rw [href] at hf he
  have hd1 := List.isChain_cons_cons.mp hdist
  have hend := he hd1.2
  have hdd : Distinguishable [A - p, A - o.referencePoint] :=
    List.isChain_cons_cons.mpr ⟨hd1.1, by simp⟩
  obtain ⟨r, hsr⟩ : ∃ r, s = [r] := List.length_eq_one_iff.mp hl
  subst hsr
  simp only [List.map_cons, List.map_nil, List.cons.injEq, and_true] at hf
  refine ⟨[q, r], ?_, rfl, ?_, ?_, ?_⟩
  · unfold convergenceSequence rotationPositionToTransform
    rw [h']
    simp only [bind, Except.bind, hs]
    rfl
  · simp [hfst, hf]
  · refine List.isChain_cons_cons.mpr ⟨?_, by simp⟩
    rw [hf, ← hmap hdd, ← hfst]
    simp [Rot.getSecondVector, Rot.rotate, Rot.getFirstVector]
  · have : RotSeq.getEndVector [q, r] = RotSeq.getEndVector [r] := by
      simp [RotSeq.getEndVector]
    rw [this, hend]

/-- C70: `evaluate_convergence_around_obstacle` keeps the speed of the initial dynamics, provided the
directional sum returns unit vectors. -/
theorem C70_speed (directionalSum : Vec d → List (Vec d) → List ℝ → Vec d)
    (hsum : ∀ n vs ws, ‖directionalSum n vs ws‖ = 1)
    (basis : Vec d → (Vec d ≃ₗᵢ[ℝ] Vec d)) (g : Geometry d) (initial : Vec d → Vec d)
    (A p : Vec d) (o : Obstacle d) (hd : d ≤ 10 ^ 15) (v : Vec d)
    (h : convergenceAroundObstacle directionalSum basis g initial A p o = .ok v) :
    ‖v‖ = ‖initial p‖ := by
  unfold convergenceAroundObstacle at h
  cases hrot : rotationPositionToTransform A p o with
  | error e => rw [hrot] at h; cases h
  | ok x =>
    rw [hrot] at h
    cases x with
    | none => cases h; rfl
    | some r =>
      simp only [bind, Except.bind] at h
      cases hw : evaluateProjectedWeight basis g A p o with
      | none => rw [hw] at h; cases h
      | some w =>
        rw [hw] at h
        cases h
        have hon := (C69_rotation hd _ _ _ r hrot).1
        rw [norm_smul, C01_rotate_norm r hon, hsum, mul_one, Real.norm_eq_abs, abs_norm]

/-- C70: on and in the obstacle the velocity is the one at the reference point, with the speed of
the initial dynamics at the position, provided a directional sum with weights one and zero is the
first direction. -/
theorem C70_contact (directionalSum : Vec d → List (Vec d) → List ℝ → Vec d)
    (hsum : ∀ n a b, directionalSum n [a, b] [1, 0] = unit a)
    (basis : Vec d → (Vec d ≃ₗᵢ[ℝ] Vec d)) (g : Geometry d) (initial : Vec d → Vec d)
    (A p : Vec d) (o : Obstacle d) (hd : d ≤ 10 ^ 15)
    (hin : g.localGamma (g.toLocal p) ≤ 1) (hgam : o.gamma p ≤ 1)
    (hp : p ≠ A) (hro : o.referencePoint ≠ A) (ho : ¬ Opposite (A - p) (A - o.referencePoint)) :
    convergenceAroundObstacle directionalSum basis g initial A p o
      = .ok (‖initial p‖ • unit (initial o.referencePoint)) := by
  rcases rotationStartToEnd_cases hd p o.referencePoint A with
    ⟨h1, h'⟩ | ⟨h1, h3, h'⟩ | ⟨h1, h3, h4, h'⟩ | ⟨h1, h3, h4, q, hq, h'⟩
  · exact absurd h1 hp
  · exact absurd h3 hro
  · exact absurd h4 ho
  have hw : evaluateProjectedWeight basis g A p o = some 1 := by
    unfold evaluateProjectedWeight
    rw [C68_unchanged basis g A p (Or.inl hin)]
    simp only [Option.bind_eq_bind, Option.bind_some]
    rw [(C33_projected (1 / 2) (by norm_num) _ _).2.2.1 (Or.inr hgam)]; rfl
  have hon := (C69_rotation hd _ _ _ q h').1
  unfold convergenceAroundObstacle rotationPositionToTransform
  rw [h']
  simp only [bind, Except.bind, hw, sub_self, mul_zero, hsum, (C03_rotate_add q hon _ 0 0).2]
  rfl

/-- C70: `compute_obstacle_convergence_sequence` never succeeds: its weight is always positive, and
then it calls a method with a missing argument. -/
theorem C70_compute_fails (basis : Vec d → (Vec d ≃ₗᵢ[ℝ] Vec d)) (g : Geometry d) (A p : Vec d)
    (o : Obstacle d) (s0 : RotSeq (Vec d)) :
    obstacleConvergenceSequence basis g A p o s0 = .error .typeError := by
  classical
  unfold obstacleConvergenceSequence
  cases hw : evaluateProjectedWeight basis g A p o with
  | none => rfl
  | some w =>
    have hpos : 0 < w := by
      unfold evaluateProjectedWeight at hw
      cases hq : projectedPosition basis g A p with
      | none => rw [hq] at hw; cases hw
      | some q =>
        rw [hq] at hw
        cases hw
        exact (C33_projected (1 / 2) (by norm_num) _ _).1
    simp only
    rw [if_neg (not_le.mpr hpos)]

/-- C70 is not vacuous: an attractor at the origin, an obstacle and a position at a right angle and
a dynamics that turns. -/
example : ∃ (initial : Dynamics 3) (p : Vec 3) (o : Obstacle 3), initial.ownSequence = none
    ∧ initial.attractorPosition = some 0 ∧ p ≠ 0 ∧ ¬ Opposite (0 - p) (0 - o.referencePoint)
    ∧ 1e-8 < ‖initial.evaluate o.referencePoint‖ ∧ 1e-8 < ‖0 - o.referencePoint‖
    ∧ ¬ Opposite (0 - o.referencePoint) (initial.evaluate o.referencePoint)
    ∧ Distinguishable [0 - p, 0 - o.referencePoint, initial.evaluate o.referencePoint]
    ∧ o.gamma p ≤ 1 := by
  have e1 : (0 : Vec 3) - -e3 0 = e3 0 := by simp
  have e2 : (0 : Vec 3) - -e3 2 = e3 2 := by simp
  refine ⟨⟨fun _ => e3 1, some 0, none⟩, -e3 0,
    ⟨fun _ => 1, fun x => x, fun x => x, -e3 2, -e3 2, fun _ _ => none, true, false, false⟩,
    rfl, rfl, by simpa using e3_ne_zero 0, ?_, ?_, ?_, ?_, ?_, le_refl _⟩
  · rw [e1, e2]; exact e3_not_opposite (by decide)
  · simp [e3]; norm_num
  · simp [e3]; norm_num
  · simp only; rw [e2]; exact e3_not_opposite (by decide)
  · simp only; rw [e1, e2]
    have u : ∀ i, (1 / ‖e3 i‖) • e3 i = e3 i := e3_unit
    refine List.isChain_cons_cons.mpr ⟨Or.inr ?_, List.isChain_cons_cons.mpr ⟨Or.inr ?_, by simp⟩⟩
    · rw [u, u]; exact e3_not_allclose (by decide)
    · rw [u, u]; exact e3_not_allclose (by decide)

end Verif
