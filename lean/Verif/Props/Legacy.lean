import Verif.Props.AveragedNormal
import Verif.Props.Tangent
import Verif.Props.TangentExamples
import Verif.Lemmas.AvoiderStarTotal

/-!
# C119: the older evaluation (`evaluate_old`, `evaluate_avoidance_direction`, `get_tangent_direction`)
-/

open scoped RealInnerProductSpace

namespace Verif
open Spec

variable {d k : ℕ} [Fact (2 ≤ d)]
set_option linter.unusedSectionVars false

lemma legacy_gamma_none {ext : Ext d k} {p : ℝ} {x v : Vec d} {ot : ObstacleTree d} {r} :
    legacyGammaAndWeights ext p x ot v none ≠ .ok r := by
  intro h
  unfold legacyGammaAndWeights at h
  obtain ⟨root, _, h⟩ := bind_ok.mp h
  obtain ⟨g, _, h⟩ := bind_ok.mp h
  obtain ⟨w, _, h⟩ := bind_ok.mp h
  cases h

/-- C119 (negative result): on a new avoider, which has not evaluated a velocity yet, asking for the avoidance direction
never succeeds if there is an obstacle and the velocity is not zero; neither does `evaluate_old`. -/
theorem C119_fresh (ext : Ext d k) (weightsOf : List ℝ → List ℝ) (a : Avoider d) (hne : a.trees ≠ []) (x : Vec d) :
    (∀ (around : Vec d → Obstacle d → Except PyErr (Vec d)) (v w : Vec d) (lin : Option (Vec d)), v ≠ 0 →
      evaluateAvoidanceDirection ext weightsOf a around none x v lin ≠ .ok w)
      ∧ ∀ (around : Option (Vec d → Obstacle d → Except PyErr (Vec d))) (w : Vec d), a.initial.evaluate x ≠ 0 →
        evaluateOld ext weightsOf a around none x ≠ .ok w := by
  classical
  have key : ∀ (around : Vec d → Obstacle d → Except PyErr (Vec d)) (v w : Vec d) (lin : Option (Vec d)), v ≠ 0 →
      evaluateAvoidanceDirection ext weightsOf a around none x v lin ≠ .ok w := by
    intro around v w lin hv h
    unfold evaluateAvoidanceDirection at h
    rw [if_neg (norm_ne_zero_iff.mpr hv)] at h
    obtain ⟨s, h, _⟩ := bind_ok.mp h
    unfold evaluateAvoidanceSequence at h
    obtain ⟨t, _, h⟩ := bind_ok.mp h
    obtain ⟨st, h, _⟩ := bind_ok.mp h
    obtain ⟨t0, ts, hts⟩ := List.exists_cons_of_ne_nil hne
    rw [hts, List.zipIdx_cons, List.foldlM_cons] at h
    obtain ⟨st1, h, _⟩ := bind_ok.mp h
    unfold legacyStep at h
    obtain ⟨u, _, h⟩ := bind_ok.mp h
    obtain ⟨r, h, _⟩ := bind_ok.mp h
    exact legacy_gamma_none h
  refine ⟨key, fun around w hv h => ?_⟩
  unfold evaluateOld at h
  obtain ⟨rel, _, h⟩ := bind_ok.mp h
  obtain ⟨f, h, _⟩ := bind_ok.mp h
  cases around with
  | none => exact key _ _ _ _ hv h
  | some g => exact key _ _ _ _ hv h

/-- C119 (negative result): the error of a new avoider is `AttributeError`, whenever the first obstacle has its root
component. -/
theorem C119_fresh_attribute (ext : Ext d k) (weightsOf : List ℝ → List ℝ) (a : Avoider d) (hp : 0 ≤ a.power)
    (t : ObstacleTree d) (ts : List (ObstacleTree d)) (ht : a.trees = t :: ts) (root : Obstacle d)
    (hroot : t.components[t.rootIdx]? = some root) (x v u : Vec d) (hv : ‖v‖ = 1)
    (around : Vec d → Obstacle d → Except PyErr (Vec d)) :
    evaluateAvoidanceDirection ext weightsOf a around none x v (some u) = .error .attributeError := by
  classical
  have hv0 : v ≠ 0 := by rintro rfl; simp at hv
  unfold evaluateAvoidanceDirection
  rw [if_neg (norm_ne_zero_iff.mpr hv0)]
  obtain ⟨t0, a1, _⟩ := from_sequence_root baseId v hv
  have hcomp : t.getComponent t.rootIdx = .ok root := by unfold ObstacleTree.getComponent; rw [hroot]
  have hgam : ∃ g, t.gamma x = .ok g := by
    unfold ObstacleTree.gamma
    cases hm : (t.components.map (fun o => o.gamma x)).min? with
    | none =>
      simp [List.min?_eq_none_iff] at hm
      rw [hm] at hroot; simp at hroot
    | some g => exact ⟨g, by simp only [hm]⟩
  obtain ⟨g, hg⟩ := hgam
  obtain ⟨w, hw, _⟩ := C32_range_partial ext.angleOf (root.normal x)
      (root.reference x) u g (Real.pi * 0.5) a.power (Real.pi * 0.5) hp
  have hstep : ∀ st : LegacyState d, st.stored = none →
      legacyStep ext a around x (some u) st (t, 0) = .error .attributeError := by
    intro st hst
    unfold legacyStep
    change (legacyGammaAndWeights ext a.power x t u st.stored >>= _) = _
    rw [hst]
    unfold legacyGammaAndWeights
    simp only
    rw [hcomp]
    change (t.gamma x >>= _) >>= _ = _
    rw [hg]
    change (getRotationWeight ext.angleOf (root.normal x) (root.reference x) u g (power := a.power) >>= _) >>= _ = _
    rw [hw]
    rfl
  have hseq : evaluateAvoidanceSequence ext weightsOf a around none x v (some u) = .error .attributeError := by
    unfold evaluateAvoidanceSequence
    have a1' : (Tree.empty : Tree NodeId d).setRoot (.key (-1) (-1) (-1)) v = .ok t0 := a1
    rw [a1']
    change (a.trees.zipIdx.foldlM (legacyStep ext a around x (some u)) ⟨t0, [], [], [], none⟩ >>= _) = _
    rw [ht, List.zipIdx_cons, List.foldlM_cons, hstep _ rfl]
    rfl
  rw [hseq]
  rfl

/-- C119 (negative result): without obstacles the avoidance direction of a unit velocity is not the velocity but `ValueError`
(there is nothing to concatenate), and `evaluate_old` always fails. -/
theorem C119_no_obstacles (ext : Ext d k) (weightsOf : List ℝ → List ℝ) (a : Avoider d) (hnone : a.trees = [])
    (stored : Option (List (ℝ × ℝ))) (x : Vec d) :
    (∀ (around : Vec d → Obstacle d → Except PyErr (Vec d)) (v : Vec d) (lin : Option (Vec d)), ‖v‖ = 1 →
      evaluateAvoidanceDirection ext weightsOf a around stored x v lin = .error .valueError)
      ∧ ∀ (around : Option (Vec d → Obstacle d → Except PyErr (Vec d))) (w : Vec d),
        evaluateOld ext weightsOf a around stored x ≠ .ok w := by
  classical
  constructor
  · intro around v lin hv
    have hv0 : v ≠ 0 := by rintro rfl; simp at hv
    obtain ⟨t0, a1, _⟩ := from_sequence_root (NodeId.key (-1) (-1) (-1)) v hv
    unfold evaluateAvoidanceDirection
    rw [if_neg (norm_ne_zero_iff.mpr hv0)]
    unfold evaluateAvoidanceSequence
    rw [a1, hnone]
    simp only [List.zipIdx_nil, List.foldlM_nil]
    change ((if List.zipWith _ _ ([] : List (List ℝ)) = [] then (Except.error PyErr.valueError : Except PyErr _)
      else _) >>= _) = _
    rw [List.zipWith_nil_right, if_pos rfl]
    rfl
  · intro around w h
    unfold evaluateOld at h
    obtain ⟨rel, _, h⟩ := bind_ok.mp h
    obtain ⟨f, _, h⟩ := bind_ok.mp h
    obtain ⟨r, h, _⟩ := bind_ok.mp h
    rw [(C118_defined a.trees x 2).2 (by simp [hnone])] at h
    cases h

/-- C119: a velocity of zero is returned as it is. -/
theorem C119_rest (ext : Ext d k) (weightsOf : List ℝ → List ℝ) (a : Avoider d)
    (around : Vec d → Obstacle d → Except PyErr (Vec d)) (stored : Option (List (ℝ × ℝ))) (x : Vec d)
    (lin : Option (Vec d)) : evaluateAvoidanceDirection ext weightsOf a around stored x 0 lin = .ok 0 := by
  unfold evaluateAvoidanceDirection
  rw [if_pos norm_zero]

/-- Equal up to the stored lists. -/
def SameButStored (s s' : LegacyState d) : Prop :=
  s.tree = s'.tree ∧ s.nodes = s'.nodes ∧ s.componentWeights = s'.componentWeights ∧ s.gammas = s'.gammas
    ∧ s.stored.isSome ∧ s'.stored.isSome

lemma legacy_step_stored {ext : Ext d k} {a : Avoider d} {around : Vec d → Obstacle d → Except PyErr (Vec d)}
    {x : Vec d} {lin : Option (Vec d)} {s s' : LegacyState d} (h : SameButStored s s') (p : ObstacleTree d × ℕ) :
    (∃ e, legacyStep ext a around x lin s p = .error e ∧ legacyStep ext a around x lin s' p = .error e)
      ∨ ∃ r r', legacyStep ext a around x lin s p = .ok r ∧ legacyStep ext a around x lin s' p = .ok r'
        ∧ SameButStored r r' := by
  classical
  obtain ⟨tree, nodes, cw, gs, st⟩ := s
  obtain ⟨tree', nodes', cw', gs', st'⟩ := s'
  obtain ⟨rfl, rfl, rfl, rfl, h1, h2⟩ := h
  obtain ⟨l, rfl⟩ := Option.isSome_iff_exists.mp h1
  obtain ⟨l', rfl⟩ := Option.isSome_iff_exists.mp h2
  unfold legacyStep
  cases legacyVelocity around x lin p.1 with
  | error e => exact .inl ⟨e, rfl, rfl⟩
  | ok u =>
    simp only [legacyGammaAndWeights]
    change (∃ e, ((computeGammaAndWeights ext a.power x p.1 u >>= _) >>= _) = _ ∧
      ((computeGammaAndWeights ext a.power x p.1 u >>= _) >>= _) = _) ∨ ∃ r r',
      ((computeGammaAndWeights ext a.power x p.1 u >>= _) >>= _) = _ ∧
      ((computeGammaAndWeights ext a.power x p.1 u >>= _) >>= _) = _ ∧ _
    cases hg : computeGammaAndWeights ext a.power x p.1 u with
    | error e => exact .inl ⟨e, rfl, rfl⟩
    | ok r =>
      obtain ⟨gammas, gw, slow⟩ := r
      change (∃ e, (legacyPopulate ext a.convergenceRadius x u p.1 p.2 gw (tree, nodes) >>= _) = _ ∧
        (legacyPopulate ext a.convergenceRadius x u p.1 p.2 gw (tree, nodes) >>= _) = _) ∨ ∃ r r',
        (legacyPopulate ext a.convergenceRadius x u p.1 p.2 gw (tree, nodes) >>= _) = _ ∧
        (legacyPopulate ext a.convergenceRadius x u p.1 p.2 gw (tree, nodes) >>= _) = _ ∧ _
      cases legacyPopulate ext a.convergenceRadius x u p.1 p.2 gw (tree, nodes) with
      | error e => exact .inl ⟨e, rfl, rfl⟩
      | ok q =>
        obtain ⟨t, ns⟩ := q
        simp only [bind, Except.bind]
        split_ifs
        all_goals first
          | exact .inl ⟨_, rfl, rfl⟩
          | (cases gammas.min? with
            | none => exact .inl ⟨_, rfl, rfl⟩
            | some g => exact .inr ⟨_, _, rfl, rfl, rfl, rfl, rfl, rfl, rfl, rfl⟩)

lemma legacy_loop_stored {ext : Ext d k} {a : Avoider d} {around : Vec d → Obstacle d → Except PyErr (Vec d)}
    {x : Vec d} {lin : Option (Vec d)} (ps : List (ObstacleTree d × ℕ)) :
    ∀ {s s' : LegacyState d}, SameButStored s s' →
      (∃ e, ps.foldlM (legacyStep ext a around x lin) s = .error e
        ∧ ps.foldlM (legacyStep ext a around x lin) s' = .error e)
      ∨ ∃ r r', ps.foldlM (legacyStep ext a around x lin) s = .ok r
        ∧ ps.foldlM (legacyStep ext a around x lin) s' = .ok r' ∧ SameButStored r r' := by
  induction ps with
  | nil => intro s s' h; exact .inr ⟨s, s', rfl, rfl, h⟩
  | cons p ps ih =>
    intro s s' h
    rw [List.foldlM_cons, List.foldlM_cons]
    rcases legacy_step_stored (ext := ext) (a := a) (around := around) (x := x) (lin := lin) h p with
      ⟨e, h1, h2⟩ | ⟨r, r', h1, h2, h3⟩
    · rw [h1, h2]; exact .inl ⟨e, rfl, rfl⟩
    · rw [h1, h2]; exact ih h3

/-- C119: once the avoider has evaluated a velocity, the result does not depend on how many evaluations there have been, or on
what they left behind. -/
theorem C119_history (ext : Ext d k) (weightsOf : List ℝ → List ℝ) (a : Avoider d)
    (around : Vec d → Obstacle d → Except PyErr (Vec d)) (l l' : List (ℝ × ℝ)) (x v : Vec d)
    (lin : Option (Vec d)) :
    evaluateAvoidanceDirection ext weightsOf a around (some l) x v lin
      = evaluateAvoidanceDirection ext weightsOf a around (some l') x v lin := by
  classical
  have hseq : evaluateAvoidanceSequence ext weightsOf a around (some l) x v lin
      = evaluateAvoidanceSequence ext weightsOf a around (some l') x v lin := by
    unfold evaluateAvoidanceSequence
    cases (Tree.empty : Tree NodeId d).setRoot (.key (-1) (-1) (-1)) v with
    | error e => rfl
    | ok t =>
      change (a.trees.zipIdx.foldlM (legacyStep ext a around x lin) ⟨t, [], [], [], some l⟩ >>= _)
        = (a.trees.zipIdx.foldlM (legacyStep ext a around x lin) ⟨t, [], [], [], some l'⟩ >>= _)
      rcases legacy_loop_stored (ext := ext) (a := a) (around := around) (x := x) (lin := lin) a.trees.zipIdx
        (s := ⟨t, [], [], [], some l⟩) (s' := ⟨t, [], [], [], some l'⟩) ⟨rfl, rfl, rfl, rfl, rfl, rfl⟩ with
        ⟨e, h1, h2⟩ | ⟨r, r', h1, h2, h3, h4, h5, h6, _⟩
      · rw [h1, h2]
      · rw [h1, h2]
        simp only [bind, Except.bind, h3, h4, h5, h6]
  unfold evaluateAvoidanceDirection
  rw [hseq]

/-- The weights of an obstacle with one component. -/
lemma legacy_weights {ext : Ext d k} {p : ℝ} {x u : Vec d} {t : ObstacleTree d} {o : Obstacle d}
    (h0 : t.rootIdx = 0) (hc : t.components = [o]) (hu : u ≠ 0) {w : ℝ}
    (hw : getRotationWeight ext.angleOf (o.normal x) (o.reference x) u (o.gamma x) (power := p) = .ok w) :
    ∃ slow, computeGammaAndWeights ext p x t u
      = .ok (open Classical in if w = 0 then [1] else [o.gamma x], [w], slow) := by
  classical
  have hcomp : t.getComponent 0 = .ok o := by unfold ObstacleTree.getComponent; rw [hc]; rfl
  have hgam : t.gamma x = .ok (o.gamma x) := by
    unfold ObstacleTree.gamma; rw [hc]; simp
  obtain ⟨y, hy, hy0⟩ := weights_single (g := o.gamma x)
  have hv' : ¬ ‖u‖ = 0 := norm_ne_zero_iff.mpr hu
  refine ⟨(w, ⟪(1 / ‖u‖) • u, o.reference x⟫), ?_⟩
  unfold computeGammaAndWeights
  simp only
  rw [h0]
  refine bind_ok.mpr ⟨o, hcomp, bind_ok.mpr ⟨_, hgam, bind_ok.mpr ⟨w, hw, ?_⟩⟩⟩
  rw [if_neg hv', hc]
  simp only [List.map_cons, List.map_nil, hy, List.sum_cons, List.sum_nil, add_zero]
  by_cases hz : w = 0
  · rw [if_pos (.inr hz), if_pos hz, hz]
  · rw [if_neg (by rintro (h | h); exacts [hy0 h, hz h]), if_neg hz, div_self hy0, one_mul]

/-- C119 (negative result): if the rotation weight of the obstacle vanishes (a motion exactly along its reference direction
outside of it, see C32), the older evaluation fails with `ValueError`: there is a weight, but no node, for the obstacle. -/
theorem C119_aligned (ext : Ext d k) (weightsOf : List ℝ → List ℝ) (hwl : ∀ l, (weightsOf l).length = l.length)
    (a : Avoider d) (t : ObstacleTree d) (o : Obstacle d) (ht : a.trees = [t]) (h0 : t.rootIdx = 0)
    (hc : t.components = [o]) (x v u : Vec d) (hv : ‖v‖ = 1) (hu : u ≠ 0)
    (hw : getRotationWeight ext.angleOf (o.normal x) (o.reference x) u (o.gamma x) (power := a.power) = .ok 0)
    (around : Vec d → Obstacle d → Except PyErr (Vec d)) (l : List (ℝ × ℝ)) :
    evaluateAvoidanceDirection ext weightsOf a around (some l) x v (some u) = .error .valueError := by
  classical
  have hv0 : v ≠ 0 := by rintro rfl; simp at hv
  obtain ⟨slow, hgw⟩ := legacy_weights h0 hc hu hw
  rw [if_pos rfl] at hgw
  obtain ⟨t0, a1, a2, a3, a4, a5⟩ := from_sequence_root (I := NodeId) (.key (-1) (-1) (-1)) v hv
  obtain ⟨t1, b1, b2, b3, b4, b5, b6, b7⟩ := addNode_step_ne t0 _ a2 (.key ((0 : ℕ) : ℤ) (-1) (-1)) (.key (-1) (-1) (-1)) u hu
    (by rw [a3]; simp) (by rw [a3]; simp) 0 a2.root_level (by norm_num)
  have hstep : legacyStep ext a around x (some u) ⟨t0, [], [], [], some l⟩ (t, 0)
      = .ok ⟨t1, [], [[0]], [1], some (l ++ [slow])⟩ := by
    unfold legacyStep
    refine bind_ok.mpr ⟨u, rfl, bind_ok.mpr ⟨([1], [0], l ++ [slow]), ?_, bind_ok.mpr ⟨(t1, []), ?_, ?_⟩⟩⟩
    · unfold legacyGammaAndWeights
      exact bind_ok.mpr ⟨_, hgw, rfl⟩
    · unfold legacyPopulate
      refine bind_ok.mpr ⟨t1, b1, ?_⟩
      rw [hc]
      simp [legacyPopulateStep]
    · norm_num
  unfold evaluateAvoidanceDirection
  rw [if_neg (norm_ne_zero_iff.mpr hv0)]
  have hseq : evaluateAvoidanceSequence ext weightsOf a around (some l) x v (some u) = .error .valueError := by
    unfold evaluateAvoidanceSequence
    rw [a1, ht]
    change (List.foldlM (legacyStep ext a around x (some u)) ⟨t0, [], [], [], some l⟩ ([t].zipIdx) >>= _) = _
    rw [List.zipIdx_cons, List.zipIdx_nil, List.foldlM_cons, hstep]
    obtain ⟨ω, hω⟩ := List.length_eq_one_iff.mp (hwl [1])
    simp only [bind, Except.bind, List.foldlM_nil, pure, Except.pure, hω]
    simp only [List.zipWith_cons_cons, List.zipWith_nil_right]
    rw [if_neg (by simp)]
    exact C25_length _ _ _ _ _ (by simp [avoidanceWeights])
  rw [hseq]
  rfl

/-- C119 (partial): for a single obstacle with one component and a position on its surface, `evaluate_old` of an avoider
without convergence dynamics returns a tangent of the surface, with the speed of the initial dynamics.  Missing: other
positions, several obstacles or components, which the older evaluation treats without the slowing down for the
convergence direction; and a new avoider (`C119_fresh`). -/
theorem C119_surface_partial (ext : Ext d k) (hE : DirectionSpace ext) (has : ArgsortSpec ext.argsort)
    (weightsOf : List ℝ → List ℝ) (a : Avoider d) (hp : 0 ≤ a.power) (t : ObstacleTree d) (o : Obstacle d)
    (ht : a.trees = [t]) (h0 : t.rootIdx = 0) (hc : t.components = [o]) (hstatic : Static t)
    (hcub : o.isCuboid = false) (x : Vec d) (hγ : o.gamma x = 1) (hwo : weightsOf [1] = [1])
    (hs : o.intersection x (-o.reference x) = some x) (hn : ‖o.normal x‖ = 1) (href : ‖o.reference x‖ = 1)
    (hvis : InnerProductGeometry.angle (-o.normal x) (o.reference x) < Real.pi)
    (hv : ‖a.initial.evaluate x‖ = 1) (hne : a.initial.evaluate x ≠ o.reference x)
    (hne' : a.initial.evaluate x ≠ -o.reference x)
    (hgood : ∀ τ, projectedTangent ext (a.initial.evaluate x) (o.normal x) (o.reference x) (Real.pi * 0.5) = .ok τ →
      GoodPair (a.initial.evaluate x) τ) (l : List (ℝ × ℝ)) :
    ∃ τ, evaluateOld ext weightsOf a none (some l) x = .ok τ ∧ ‖τ‖ = 1 ∧ ⟪o.normal x, τ⟫ = 0
      ∧ (InnerProductGeometry.angle (-o.normal x) (a.initial.evaluate x) < Real.pi / 2 →
        TangentAt (-o.normal x) (o.reference x) (a.initial.evaluate x) τ (Real.pi / 2)) := by
  classical
  set v := a.initial.evaluate x with hvdef
  have hpi := Real.pi_pos
  have hhalf : Real.pi * 0.5 = Real.pi / 2 := by ring
  have hv0 : v ≠ 0 := by rintro h; rw [h] at hv; simp at hv
  obtain ⟨τ, hτ, hτ1, _⟩ := C114_tangent ext hE (o.normal x) (o.reference x) v (Real.pi * 0.5) hn href hv
    (by linarith) (by linarith) hvis hne hne'
  obtain ⟨hτn, _, hτi⟩ := C114_angle ext hE (o.normal x) (o.reference x) v τ (Real.pi * 0.5) hn href hv
    (by linarith) (by linarith) hvis hne hne' hτ
  rw [hhalf, Real.cos_pi_div_two, neg_zero] at hτi
  have hτ0 : τ ≠ 0 := by rintro rfl; simp at hτn
  have huv : unit v = v := by simp [unit, hv]
  have huτ : unit τ = τ := by simp [unit, hτn]
  obtain ⟨w, hw, _, _, hw1, _⟩ := C32_range_partial ext.angleOf (o.normal x) (o.reference x) v (o.gamma x)
    (Real.pi * 0.5) a.power (Real.pi * 0.5) hp
  rw [hw1 hγ.le] at hw
  obtain ⟨slow, hgw⟩ := legacy_weights h0 hc hv0 hw
  rw [if_neg one_ne_zero, hγ] at hgw
  obtain ⟨t0, a1, a2, a3, a4, a5⟩ := from_sequence_root (I := NodeId) (.key (-1) (-1) (-1)) v hv
  have g0 : GoodDirections t0 := by
    intro p c hpc
    unfold IsParent at hpc
    rw [a4] at hpc; simp at hpc
  have hd0 : dirOf t0 (.key (-1) (-1) (-1)) = v := by simp [dirOf, a5]
  obtain ⟨t1, b1, b2, b3, b4, b5, b6, b7⟩ := addNode_step_ne t0 _ a2 (.key ((0 : ℕ) : ℤ) (-1) (-1)) (.key (-1) (-1) (-1)) v hv0
    (by rw [a3]; simp) (by rw [a3]; simp) 0 a2.root_level (by norm_num)
  have g1 : GoodDirections t1 := by
    refine b7 g0 ?_
    rw [hd0, huv]
    exact ⟨not_opposite_self hv, .inl rfl⟩
  have hd1 : dirOf t1 (.key ((0 : ℕ) : ℤ) (-1) (-1)) = v := by simp only [dirOf, b5, huv, Option.getD_some]
  obtain ⟨t2, c1, c2, c3, c4, c5, c6, c7⟩ := addNode_step_ne t1 _ b2 (.key ((0 : ℕ) : ℤ) ((0 : ℕ) : ℤ) ((0 : ℕ) : ℤ))
    (.key ((0 : ℕ) : ℤ) (-1) (-1)) τ hτ0 (by rw [b3, a3]; simp) (by rw [b3]; simp) _ b4 (by norm_num)
  have g2 : GoodDirections t2 := by
    refine c7 g1 ?_
    rw [hd1, huτ]
    exact hgood τ hτ
  have hbranch : computeBranch x 0 t = .ok [⟨0, o.normal x, o.reference x⟩] := by
    have hcomp : t.getComponent 0 = .ok o := by unfold ObstacleTree.getComponent; rw [hc]; rfl
    unfold computeBranch
    refine bind_ok.mpr ⟨o, hcomp, ?_⟩
    simp only
    rw [if_neg (by rw [hγ]; norm_num), neg_one_smul, hs]
    simp only
    refine bind_ok.mpr ⟨o.normal x, ?_, bind_ok.mpr ⟨[], ?_, rfl⟩⟩
    · unfold getNormalAtDistance
      rw [if_neg (by rw [hcub]; simp)]
    · unfold branchLoop
      rw [if_pos h0.symm]
  have hleg : legacyBranch ext x 0 v t 0 a.convergenceRadius t1 = .ok t2 := by
    unfold legacyBranch
    rw [hbranch]
    refine bind_ok.mpr ⟨_, rfl, ?_⟩
    simp only [List.getLast?_singleton]
    refine bind_ok.mpr ⟨τ, hτ, bind_ok.mpr ⟨t2, c1, ?_⟩⟩
    rfl
  have hstep : legacyStep ext a (fun _ _ => .error .attributeError) x (some v) ⟨t0, [], [], [], some l⟩ (t, 0)
      = .ok ⟨t2, [.key ((0 : ℕ) : ℤ) ((0 : ℕ) : ℤ) ((0 : ℕ) : ℤ)], [[1]], [1], some (l ++ [slow])⟩ := by
    unfold legacyStep
    refine bind_ok.mpr ⟨v, rfl, bind_ok.mpr ⟨([1], [1], l ++ [slow]), ?_,
      bind_ok.mpr ⟨(t2, [.key ((0 : ℕ) : ℤ) ((0 : ℕ) : ℤ) ((0 : ℕ) : ℤ)]), ?_, ?_⟩⟩⟩
    · unfold legacyGammaAndWeights
      exact bind_ok.mpr ⟨_, hgw, rfl⟩
    · unfold legacyPopulate
      refine bind_ok.mpr ⟨t1, b1, ?_⟩
      rw [hc]
      simp only [List.length_cons, List.length_nil, zero_add, List.range_one, List.zip_cons_cons, List.zip_nil_right,
        List.foldlM_cons, List.foldlM_nil]
      refine bind_ok.mpr ⟨(t2, [.key ((0 : ℕ) : ℤ) ((0 : ℕ) : ℤ) ((0 : ℕ) : ℤ)]), ?_, rfl⟩
      unfold legacyPopulateStep
      rw [if_neg (by norm_num)]
      exact bind_ok.mpr ⟨t2, hleg, rfl⟩
    · norm_num
  have hdir : evaluateAvoidanceDirection ext weightsOf a (fun _ _ => .error .attributeError) (some l) x v (some v)
      = .ok τ := by
    unfold evaluateAvoidanceDirection
    rw [if_neg (norm_ne_zero_iff.mpr hv0)]
    have hseq : evaluateAvoidanceSequence ext weightsOf a (fun _ _ => .error .attributeError) (some l) x v (some v)
        = t2.reduceWeightedToSequence ext.argsort NodeState.init
          [.key ((0 : ℕ) : ℤ) ((0 : ℕ) : ℤ) ((0 : ℕ) : ℤ), .key (-1) (-1) (-1)] [1, 0] := by
      unfold evaluateAvoidanceSequence
      rw [a1, ht]
      change (List.foldlM (legacyStep ext a (fun _ _ => .error .attributeError) x (some v)) ⟨t0, [], [], [], some l⟩
        ([t].zipIdx) >>= _) = _
      rw [List.zipIdx_cons, List.zipIdx_nil, List.foldlM_cons, hstep]
      simp only [bind, Except.bind, List.foldlM_nil, pure, Except.pure, hwo]
      simp [avoidanceWeights]
    rw [hseq]
    have hns : ∀ n ∈ [NodeId.key ((0 : ℕ) : ℤ) ((0 : ℕ) : ℤ) ((0 : ℕ) : ℤ), NodeId.key (-1) (-1) (-1)],
        n ∈ t2.nodes := by
      rw [c3, b3, a3]
      intro n hn
      simp only [List.mem_cons, List.not_mem_nil, or_false] at hn
      rcases hn with rfl | rfl <;> simp
    have hz : ∀ p ∈ [NodeId.key ((0 : ℕ) : ℤ) ((0 : ℕ) : ℤ) ((0 : ℕ) : ℤ), NodeId.key (-1) (-1) (-1)].zip [(1 : ℝ), 0],
        p.1 ≠ NodeId.key ((0 : ℕ) : ℤ) ((0 : ℕ) : ℤ) ((0 : ℕ) : ℤ) → p.2 = 0 := by
      intro p hp hne
      simp only [List.zip_cons_cons, List.zip_nil_right, List.mem_cons, List.not_mem_nil, or_false] at hp
      rcases hp with rfl | rfl
      · exact absurd rfl hne
      · rfl
    have := C21_one_hot t2 (.key (-1) (-1) (-1)) c2 g2 ext.argsort has NodeState.init
      [.key ((0 : ℕ) : ℤ) ((0 : ℕ) : ℤ) ((0 : ℕ) : ℤ), .key (-1) (-1) (-1)] [1, 0] rfl (by simp)
      hns (.key ((0 : ℕ) : ℤ) ((0 : ℕ) : ℤ) ((0 : ℕ) : ℤ))
      (by simp) hz (unit τ) c5
    rw [huτ] at this
    exact this
  refine ⟨τ, ?_, hτn, hτi, fun h => by rw [hhalf] at hτ1; exact hτ1 h⟩
  have hrel : relativeVelocity x a.trees = .ok 0 := C60_static x a.trees (by simpa [ht] using hstatic) (by simp [ht, hc])
  have havg : computeAveragedNormalAndGamma a.trees x = .ok (o.normal x, 1) := by
    rw [ht, averaged_single t o hc x (by norm_num), hγ]
    simp
  unfold evaluateOld
  refine bind_ok.mpr ⟨0, hrel, bind_ok.mpr ⟨τ, hdir, bind_ok.mpr ⟨_, havg, ?_⟩⟩⟩
  simp only [add_zero]
  unfold computeSafeMagnitude
  rw [if_neg (by rw [hτn]; norm_num), real_inner_comm, hτi]
  rw [if_neg (by rw [hn]; norm_num), if_pos le_rfl, if_neg (by norm_num)]
  simp only
  rw [if_neg (by norm_num), ← hvdef, hv, hτn]
  simp

/-- C119 (fresh, fresh_attribute, history) is not vacuous: a disc and a motion that is not zero. -/
example : ∃ (a : Avoider 2) (t : ObstacleTree 2) (root : Obstacle 2) (x : Vec 2), 0 ≤ a.power ∧ a.trees = [t]
    ∧ t.components[t.rootIdx]? = some root ∧ a.initial.evaluate x ≠ 0 ∧ ‖a.initial.evaluate x‖ = 1 := by
  have hd : diag ≠ 0 := by intro h; have := diag_norm; rw [h] at this; simp at this
  exact ⟨discsAvoider diag !₂[1, 0] [discTreeAt (-!₂[0, 1]) false], _, discAt (-!₂[0, 1]) false, 0,
    by norm_num [discsAvoider], rfl, rfl, hd, diag_norm⟩

/-- C119 (aligned) is not vacuous: a motion straight away from a disc. -/
example : ∃ (ext : Ext 2 1) (a : Avoider 2) (t : ObstacleTree 2) (o : Obstacle 2) (x u : Vec 2), a.trees = [t]
    ∧ t.rootIdx = 0 ∧ t.components = [o] ∧ u ≠ 0 ∧ 1 < o.gamma x
    ∧ getRotationWeight ext.angleOf (o.normal x) (o.reference x) u (o.gamma x) (power := a.power) = .ok 0 := by
  have hpi := Real.pi_pos
  obtain ⟨f1, f2, f3, _⟩ := discAt_facts (-!₂[0, 1]) false (show (1 : ℝ) ≤ 2 by norm_num) low_norm
  have h1 : (-1 : ℝ) • (-(!₂[0, 1] : Vec 2)) = !₂[0, 1] := by rw [neg_one_smul, neg_neg]
  refine ⟨planeExt (fun _ => []), discsAvoider diag !₂[1, 0] [discTreeAt (-!₂[0, 1]) false], _,
    discAt (-!₂[0, 1]) false, -!₂[0, 1] + (2 : ℝ) • !₂[0, 1], (-1 : ℝ) • (-(!₂[0, 1] : Vec 2)), rfl, rfl, rfl, ?_, ?_, ?_⟩
  · rw [h1]; intro h; have := low_norm; rw [h] at this; simp at this
  · rw [f1]; norm_num
  · rw [f1, f2, f3]
    refine C32_aligned_zero _ _ _ _ _ _ _ (by norm_num [discsAvoider]) (by norm_num) ?_ ?_
    · rw [h1, real_inner_self_eq_norm_sq, low_norm, show Real.pi * 0.5 = Real.pi / 2 by ring, Real.cos_pi_div_two]
      norm_num
    · have : (planeExt (fun _ => [])).angleOf !₂[0, 1] !₂[0, 1] = 0 := by
        ext i; fin_cases i; simp [planeExt]
      rw [h1, this, norm_zero]
      exact lt_min (by linarith) (by linarith)

/-- C119 (surface) is not vacuous: a motion diagonally onto a disc, at its surface. -/
example : ∃ (ext : Ext 2 1) (a : Avoider 2) (t : ObstacleTree 2) (o : Obstacle 2) (x : Vec 2), DirectionSpace ext
    ∧ ArgsortSpec ext.argsort ∧ 0 ≤ a.power ∧ a.trees = [t] ∧ t.rootIdx = 0 ∧ t.components = [o] ∧ Static t
    ∧ o.isCuboid = false ∧ o.gamma x = 1 ∧ o.intersection x (-o.reference x) = some x ∧ ‖o.normal x‖ = 1
    ∧ ‖o.reference x‖ = 1 ∧ InnerProductGeometry.angle (-o.normal x) (o.reference x) < Real.pi
    ∧ ‖a.initial.evaluate x‖ = 1 ∧ a.initial.evaluate x ≠ o.reference x ∧ a.initial.evaluate x ≠ -o.reference x
    ∧ ∀ τ, projectedTangent ext (a.initial.evaluate x) (o.normal x) (o.reference x) (Real.pi * 0.5) = .ok τ →
      GoodPair (a.initial.evaluate x) τ := by
  have hpi := Real.pi_pos
  obtain ⟨argsort, has⟩ := argsort_exists
  obtain ⟨f1, f2, f3, _⟩ := touch_facts low_norm false
  obtain ⟨_, _, _, g4, _⟩ := discAt_facts (-!₂[0, 1]) false (le_refl (1 : ℝ)) low_norm
  have h0 : -(!₂[0, 1] : Vec 2) + (1 : ℝ) • !₂[0, 1] = 0 := by rw [one_smul, neg_add_cancel]
  rw [h0, f1, if_neg (lt_irrefl _), neg_add_cancel] at g4
  refine ⟨planeExt argsort, discsAvoider diag !₂[1, 0] [discTreeAt (-!₂[0, 1]) false], _,
    discAt (-!₂[0, 1]) false, 0, planeExt_space _, has, by norm_num [discsAvoider], rfl, rfl, rfl, ⟨rfl, rfl⟩, rfl, f1, g4,
    ?_, ?_, ?_, diag_norm, ?_, ?_, ?_⟩
  · rw [f2, low_norm]
  · rw [f3, norm_neg, low_norm]
  · rw [f2, f3, low_angle]; exact hpi
  · rw [f3]; exact diag_ne_low.1
  · rw [f3]; exact diag_ne_low.2
  · intro τ hτ
    rw [f2, f3] at hτ
    change projectedTangent (planeExt argsort) diag _ _ _ = _ at hτ
    rw [tangent_low] at hτ
    cases hτ
    change GoodPair diag _
    have hp := diag_pos
    have hs : (1 : ℝ) ≤ √2 := by rw [show (1 : ℝ) = √1 by simp]; exact Real.sqrt_le_sqrt (by norm_num)
    refine ⟨not_opposite_of_inner diag_norm ?_, Or.inr ?_⟩
    · simp [PiLp.inner_apply, Fin.sum_univ_two, diag]
    · intro h
      have := h 1
      unfold isclose at this
      simp [diag] at this
      rw [abs_of_nonneg hp.le] at this
      norm_num at this
      linarith

end Verif
