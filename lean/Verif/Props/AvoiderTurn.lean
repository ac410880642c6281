import Verif.Lemmas.AvoiderTurn
import Verif.Lemmas.AvoiderBranches
import Verif.Lemmas.ConstantTree
import Verif.Props.NoAttractor
import Verif.Props.TangentExamples

/-!
# C140: the orientation of the axes, for the avoider

The scene in turned coordinates is defined in `Spec/TurnScene.lean`.
-/

open scoped RealInnerProductSpace

namespace Verif
open Spec

variable {d k : ℕ} [h2 : Fact (2 ≤ d)]
set_option linter.unusedSectionVars false

/-- C140: the tangent direction turns with the axes, although it is computed in coordinates of an orthonormal basis chosen by
an external function; for all unit vectors and all radii up to 180 degrees. -/
theorem C140_tangent (ext : Ext d k) (hs : DirectionSpace ext) (R : Vec d ≃ₗᵢ[ℝ] Vec d) (v n ref : Vec d) (r : ℝ)
    (hv : ‖v‖ = 1) (hn : ‖n‖ = 1) (href : ‖ref‖ = 1) (hneg : ⟪n, ref⟫ < 0) (h0 : 0 < r) (h1 : r ≤ Real.pi) :
    projectedTangent ext (R v) (R n) (R ref) r = (projectedTangent ext v n ref r).map R :=
  tangent_turn hs hv hn href hneg h0 h1

/-- C140: the weight of the avoidance does not change. -/
theorem C140_rotation_weight (ext : Ext d k) (hs : DirectionSpace ext) (R : Vec d ≃ₗᵢ[ℝ] Vec d) (v n ref : Vec d)
    (hv : ‖v‖ = 1) (hn : ‖n‖ = 1) (href : ‖ref‖ = 1) (hneg : ⟪n, ref⟫ < 0) (g p : ℝ) :
    getRotationWeight ext.angleOf (R n) (R ref) (R v) g (power := p)
      = getRotationWeight ext.angleOf n ref v g (power := p) :=
  rotationWeight_turn hs hv hn href hneg g p

lemma turn_avoidanceDirection {ext : Ext d k} {R : Vec d ≃ₗᵢ[ℝ] Vec d} (has : ArgsortSpec ext.argsort) {a : Avoider d}
    {x v : Vec d} (hp : 0 ≤ a.power) (hsane : SaneTrees a.trees) {pr : Prepared d}
    (h : prepareAvoidance ext a x v = .ok pr) (hc : ClearDirections pr.tree) :
    avoidanceDirection ext (turnPrepared R pr) = (avoidanceDirection ext pr).map R := by
  obtain ⟨hgw, hr1⟩ := prepared_weights hp hsane h
  obtain ⟨Ds, _, _, _, _, _, _, _, _, c4, _, c1, _, c2, c3⟩ := prepared_facts hp hsane h
  obtain ⟨s, e1, e2⟩ := TreeTurn.reduce_turn (R := R) c1 (TreeTurn.clear_good c1 hc)
    (TreeTurn.clear_good (TreeTurn.rooted c1) (TreeTurn.clear_turnTree hc)) has NodeState.init NodeState.init
    (ns := pr.nodes) (ws := avoidanceWeights pr.cluster) (by rw [c4]; simp [avoidanceWeights]) c3 hgw
    (by rw [hr1]; norm_num)
  have he1 : avoidanceDirection ext pr = RotSeq.getEndVector s := by
    unfold avoidanceDirection Tree.getWeightedMean
    rw [e1]; rfl
  have he2 : avoidanceDirection ext (turnPrepared R pr) = RotSeq.getEndVector (s.map (turnRot R)) := by
    unfold avoidanceDirection Tree.getWeightedMean
    change ((turnTree R pr.tree).reduceWeightedToSequence _ _ pr.nodes (avoidanceWeights pr.cluster) >>= _) = _
    rw [e2]; rfl
  rw [he1, he2]
  unfold RotSeq.getEndVector
  rw [List.getLast?_map]
  cases s.getLast? with
  | none => rfl
  | some q =>
    simp only [Option.map_some, Except.map, Except.ok.injEq]
    unfold Rot.rotate
    rw [rotateDirection_eq, rotateDirection_eq]
    exact planeRot_turned (turnRot_turned q) _ (fun h0 => by rw [show (turnRot R q).angle = q.angle from rfl, h0, mul_zero]) _

/-- C140 (partial): in turned coordinates the avoider returns the turned velocity, and raises the same exceptions: for any
number of obstacles outside of which the position is, any hierarchy of star-shaped components, and any motion without
rotation of the obstacles, if the direction of convergence turns with the scene.
Missing: positions inside of an obstacle and rotating obstacles; neighbouring directions which are nearly parallel, for
which it fails (`C140_nearly_parallel`). -/
theorem C140_avoider_partial (ext : Ext d k) (hs : DirectionSpace ext) (has : ArgsortSpec ext.argsort)
    (R : Vec d ≃ₗᵢ[ℝ] Vec d) (a : Avoider d) (K : Convergence d) (x : Vec d) (hp : 0 ≤ a.power)
    (h0 : 0 < a.convergenceRadius) (h1 : a.convergenceRadius ≤ Real.pi) (hsane : SaneTrees a.trees)
    (hready : ∀ ot ∈ a.trees, TurnReady x ot) (hdir : DirectionTurned ext R a K x)
    (hclear : ∀ pr, PreparedFor ext a x pr → ClearDirections pr.tree) (hne : a.trees ≠ []) :
    (turnedAvoider R a K).evaluate ext (R x) = (a.evaluate ext x).map R := by
  obtain ⟨s, conv, v, s', conv', b1, b2, b3, b4, b5, b6, b7⟩ := hdir
  unfold Avoider.evaluate evaluateSequence
  have b5' : evaluateDynamicsSequence (R x) (turnedAvoider R a K).initial = .ok (some s') := b5
  have hne' : (turnedAvoider R a K).trees ≠ [] := by simpa [turnedAvoider] using hne
  have hmag : (turnedAvoider R a K).magnitude (R x) = a.magnitude x := by
    unfold Avoider.magnitude turnedAvoider turnDynamics
    cases a.evaluateMagnitude <;> simp
  rw [b1, b5']
  simp only [bind, Except.bind]
  rw [if_neg hne, if_neg hne', hmag]
  refine bind_turn (T := R) (turn_relative x a.trees fun t ht => (hready t ht).still) ?_
  intro rel _
  simp only [b2, b6, b3, b7]
  refine bind_turn (T := turnPrepared R) (turn_prepare hs b4 h0 h1 hready) ?_
  intro pr hpr
  refine bind_turn (T := R) (turn_avoidanceDirection has hp hsane hpr (hclear pr ⟨s, conv, v, b1, b2, b3, hpr⟩)) ?_
  intro w _
  exact turn_slowDown _ _ _ _

/-! ### Motions of constant direction -/

lemma hierarchy_turn (R : Vec d ≃ₗᵢ[ℝ] Vec d) {t : ObstacleTree d} (h : Hierarchy t) : Hierarchy (turnObstacles R t) := by
  have key : ∀ c m, ParentsEnd t c m → ParentsEnd (turnObstacles R t) c m := by
    intro c m hm
    induction hm with
    | stop hc hp => exact .stop (by simpa [turnObstacles] using hc) hp
    | step hc hp _ ih => exact .step (by simpa [turnObstacles] using hc) hp ih
  refine ⟨by simpa [turnObstacles] using h.root, ?_⟩
  intro c hc
  obtain ⟨m, hm, hp⟩ := h.parents c (by simpa [turnObstacles] using hc)
  exact ⟨m, hm, key c m hp⟩

lemma straight_turn (R : Vec d ≃ₗᵢ[ℝ] Vec d) {f : Vec d → Vec d} {u : Vec d} (h : Straight f u) :
    Straight (fun y => R (f (R.symm y))) (R u) := by
  intro y
  obtain ⟨h1, h2⟩ := h (R.symm y)
  refine ⟨by rw [LinearIsometryEquiv.norm_map]; exact h1, ?_⟩
  rw [← h2]
  simp [unit, LinearIsometryEquiv.norm_map]

/-- The direction of convergence of a motion of constant direction turns with the scene. -/
lemma straight_direction (ext : Ext d k) (has : ArgsortSpec ext.argsort) (R : Vec d ≃ₗᵢ[ℝ] Vec d)
    (projected : Vec d → Convergence d) (trees : List (ObstacleTree d)) (initial : Dynamics d) (ref : Vec d → Vec d)
    (u x : Vec d) (a : Avoider d) (hA : initial.attractorPosition = none) (hown : initial.ownSequence = none)
    (hu : Straight initial.evaluate u) (hr : Straight ref u)
    (ha : createAvoider projected trees initial (some ref) = .ok a) (ht : ∀ t ∈ trees, Hierarchy t) :
    DirectionTurned ext R a (convergenceWithoutSingularity (turnDynamics R initial).evaluate (fun y => R (ref (R.symm y)))) x := by
  have ha0 := ha
  unfold createAvoider createLocalConvergence at ha
  rw [hA] at ha
  cases ha
  obtain ⟨s, conv, b1, b2, b3⟩ := C113_straight_partial ext has projected trees initial ref u _ hA hown hu hr ha0 ht x
  have hcreate : createAvoider projected (trees.map (turnObstacles R)) (turnDynamics R initial)
      (some (fun y => R (ref (R.symm y)))) = .ok (turnedAvoider R
        { initial := initial, convergence := convergenceWithoutSingularity initial.evaluate ref, trees := trees }
        (convergenceWithoutSingularity (turnDynamics R initial).evaluate (fun y => R (ref (R.symm y))))) := by
    unfold createAvoider createLocalConvergence
    have : (turnDynamics R initial).attractorPosition = none := by simp [turnDynamics, hA]
    rw [this]
    rfl
  obtain ⟨s', conv', c1, c2, c3⟩ := C113_straight_partial ext has projected (trees.map (turnObstacles R)) (turnDynamics R initial)
    (fun y => R (ref (R.symm y))) (R u) _ (by simp [turnDynamics, hA]) (by simp [turnDynamics, hown])
    (straight_turn R hu) (straight_turn R hr) hcreate (by
      intro t ht'
      obtain ⟨t0, h0, rfl⟩ := List.mem_map.mp ht'
      exact hierarchy_turn R (ht t0 h0)) (R x)
  exact ⟨s, conv, u, s', conv', b1, b2, b3, hu.norm, c1, c2, c3⟩

/-- C140 (partial): with a motion of constant direction without attractor, and obstacles of any number and hierarchy, the
scene may be described in any orthonormal axes: the avoider created for the turned scene returns the turned velocity.
Missing: as for `C140_avoider_partial`. -/
theorem C140_straight_partial (ext : Ext d k) (hs : DirectionSpace ext) (has : ArgsortSpec ext.argsort)
    (R : Vec d ≃ₗᵢ[ℝ] Vec d) (projected : Vec d → Convergence d) (trees : List (ObstacleTree d)) (initial : Dynamics d)
    (ref : Vec d → Vec d) (u x : Vec d) (a b : Avoider d) (hA : initial.attractorPosition = none)
    (hown : initial.ownSequence = none) (hu : Straight initial.evaluate u) (hr : Straight ref u)
    (ha : createAvoider projected trees initial (some ref) = .ok a)
    (hb : createAvoider projected (trees.map (turnObstacles R)) (turnDynamics R initial)
      (some (fun y => R (ref (R.symm y)))) = .ok b)
    (ht : ∀ t ∈ trees, Hierarchy t) (hsane : SaneTrees trees) (hready : ∀ ot ∈ trees, TurnReady x ot)
    (hclear : ∀ pr, PreparedFor ext a x pr → ClearDirections pr.tree) (hne : trees ≠ []) :
    b.evaluate ext (R x) = (a.evaluate ext x).map R := by
  have hdir := straight_direction ext has R projected trees initial ref u x a hA hown hu hr ha ht
  have hA' : (turnDynamics R initial).attractorPosition = none := by simp [turnDynamics, hA]
  unfold createAvoider createLocalConvergence at ha hb
  rw [hA] at ha
  rw [hA'] at hb
  cases ha
  cases hb
  exact C140_avoider_partial ext hs has R _ _ x (by norm_num) (by norm_num [Real.pi_pos])
    (by norm_num; linarith [Real.pi_pos]) hsane hready hdir hclear hne

lemma disc_star : StarComponent (disc (d := d)) where
  smooth := rfl
  reference := by
    intro y
    change (-(1 / ‖y‖)) • y = -unit (y - 0)
    rw [sub_zero, unit, neg_smul]
  normal := by
    intro y hy
    have hy : y ≠ 0 := hy
    have hn : 0 < ‖y‖ := norm_pos_iff.mpr hy
    refine ⟨unit_norm hy, ?_⟩
    change 0 < ⟪(1 / ‖y‖) • y, y - 0⟫
    rw [sub_zero, inner_smul_left, real_inner_self_eq_norm_sq]
    simp only [conj_trivial]
    positivity
  ray := by
    intro s v p hs h
    have hs1 : ‖s‖ ≤ 1 := by
      rcases hs with rfl | hs
      · change ‖(0 : Vec d)‖ ≤ 1
        rw [norm_zero]; norm_num
      · exact hs
    simp only [disc] at h
    split_ifs at h with hc
    push Not at hc
    obtain ⟨hv, hdisc⟩ := hc
    have hv2 : 0 < ‖v‖ ^ 2 := pow_pos (norm_pos_iff.mpr hv) 2
    set D := ⟪s, v⟫ ^ 2 - ‖v‖ ^ 2 * (‖s‖ ^ 2 - 1) with hD
    have hs2 : ‖s‖ ^ 2 ≤ 1 := by nlinarith [norm_nonneg s]
    have hDs : ⟪s, v⟫ ^ 2 ≤ D := by nlinarith
    have hge : ⟪s, v⟫ ≤ √D := Real.le_sqrt_of_sq_le hDs
    have hp := (Option.some.inj h).symm
    have ht : 0 ≤ (-⟪s, v⟫ + √D) / ‖v‖ ^ 2 := div_nonneg (by linarith) hv2.le
    refine ⟨?_, _, ht, hp⟩
    set t := (-⟪s, v⟫ + √D) / ‖v‖ ^ 2 with htd
    have htv : t * ‖v‖ ^ 2 = -⟪s, v⟫ + √D := by rw [htd]; field_simp
    have hsq := Real.sq_sqrt hdisc
    have hn : ‖p‖ ^ 2 = 1 := by
      rw [hp, norm_add_sq_real, inner_smul_right, norm_smul, mul_pow, Real.norm_eq_abs, sq_abs]
      have : ‖v‖ ^ 2 * (‖s‖ ^ 2 + 2 * (t * ⟪s, v⟫) + t ^ 2 * ‖v‖ ^ 2) = ‖v‖ ^ 2 * 1 := by
        have e1 : ‖v‖ ^ 2 * (2 * (t * ⟪s, v⟫) + t ^ 2 * ‖v‖ ^ 2)
            = 2 * (t * ‖v‖ ^ 2) * ⟪s, v⟫ + (t * ‖v‖ ^ 2) ^ 2 := by ring
        rw [add_assoc, mul_add, e1, htv]
        nlinarith
      exact mul_left_cancel₀ hv2.ne' this
    change p ≠ 0
    intro h0
    rw [h0, norm_zero] at hn
    norm_num at hn

lemma disc_ready {x : Vec d} (hx : 1 ≤ ‖x‖) : TurnReady x (discTree (d := d)) where
  star := by
    intro o ho
    have : o = disc := by simpa [discTree] using ho
    subst this; exact disc_star
  outside := by
    intro o ho
    have : o = disc := by simpa [discTree] using ho
    subst this
    refine ⟨hx, ?_⟩
    change x ≠ 0
    rintro rfl
    rw [norm_zero] at hx
    linarith
  clear := by
    intro j entries h e he
    exfalso
    unfold computeBranch at h
    obtain ⟨o, ho, h⟩ := bind_ok.mp h
    have hj : j = 0 := by
      by_contra hj
      obtain ⟨j', rfl⟩ := Nat.exists_eq_succ_of_ne_zero hj
      unfold ObstacleTree.getComponent at ho
      simp [discTree] at ho
    subst hj
    cases hi : o.intersection (if o.gamma x > 1 then o.referencePoint else x) ((-1 : ℝ) • o.reference x) with
    | none => simp only [hi] at h; cases h
    | some s =>
      simp only [hi] at h
      obtain ⟨n, _, h⟩ := bind_ok.mp h
      obtain ⟨rest, hr, h⟩ := bind_ok.mp h
      cases h
      unfold branchLoop at hr
      simp [discTree] at hr
      subst hr
      simp at he
  still := by
    intro h
    simp [Rotating, discTree] at h

/-- The hypotheses of `C140_straight_partial` are met by a disc, or a ball in any dimension, at all positions outside which
are not in front of it. -/
example (ext : Ext d k) (has : ArgsortSpec ext.argsort) (projected : Vec d → Convergence d) (e u : Vec d) (r : ℝ) (hr : 1 ≤ r)
    (he : ‖e‖ = 1) (hu : ‖u‖ = 1) (heu : 0 ≤ ⟪e, u⟫) (a : Avoider d)
    (ha : createAvoider projected [discTree] { evaluate := fun _ => u, attractorPosition := none } (some (fun _ => u)) = .ok a) :
    Straight (fun _ => u) u ∧ Hierarchy (discTree (d := d)) ∧ SaneTrees [discTree (d := d)] ∧ TurnReady (r • e) discTree
      ∧ ∀ pr, PreparedFor ext a (r • e) pr → ClearDirections pr.tree := by
  have hst : Straight (fun _ : Vec d => u) u := by
    intro y
    refine ⟨by rw [hu]; norm_num, by simp [unit, hu]⟩
  have hh : Hierarchy (discTree (d := d)) := by
    refine ⟨by simp [discTree], ?_⟩
    intro c hc
    have : c = 0 := by simpa [discTree] using hc
    subst this
    exact ⟨0, by norm_num, .stop (by simp [discTree]) (by simp [discTree])⟩
  have hra : ‖r • e‖ = r := by rw [norm_smul, he, Real.norm_of_nonneg (by linarith), mul_one]
  refine ⟨hst, hh, ?_, disc_ready (by rw [hra]; exact hr), ?_⟩
  · intro t ht o ho
    have : t = discTree := by simpa using ht
    subst this
    have : o = disc := by simpa [discTree] using ho
    subst this
    exact disc_sane
  · rintro pr ⟨s, conv, w, e1, e2, e3, e4⟩
    obtain ⟨s', conv', b1, b2, b3⟩ := C113_straight_partial ext has projected [discTree]
      { evaluate := fun _ => u, attractorPosition := none } (fun _ => u) u a rfl rfl hst hst ha
      (by simpa using hh) (r • e)
    unfold createAvoider createLocalConvergence at ha
    cases ha
    rw [show evaluateDynamicsSequence (r • e) _ = _ from b1] at e1
    cases e1
    rw [b2] at e2; cases e2
    rw [b3] at e3; cases e3
    obtain ⟨pr', c1, c2⟩ := disc_prepare (ext := ext)
      (a := { initial := { evaluate := fun _ => u, attractorPosition := none },
              convergence := convergenceWithoutSingularity (fun _ => u) (fun _ => u), trees := [discTree] })
      (by norm_num) (by norm_num; linarith [Real.pi_pos])
      (by intro gm hgm; have : gm = 0.8 := by simpa using hgm.symm
          rw [this]; norm_num)
      (by simp) (show 0 < r by linarith) he hu heu
    rw [c1] at e4; cases e4
    intro p c hpc
    rw [c2.dirs p (c2.rooted.edge_fst _ _ hpc), c2.dirs c (c2.rooted.edge_snd _ _ hpc)]
    exact ⟨not_opposite_self hu, Or.inl rfl⟩

/-- The assumption on the external functions is met in the plane. -/
example : ∃ ext : Ext 2 1, DirectionSpace ext ∧ ArgsortSpec ext.argsort := by
  obtain ⟨argsort, has⟩ := argsort_exists
  exact ⟨planeExt argsort, planeExt_space argsort, has⟩

end Verif
