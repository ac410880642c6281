import Verif.Lemmas.ConvergenceTurn
import Verif.Lemmas.ConvergenceReduction
import Verif.Props.AvoiderTurn
import Verif.Props.AvoiderConvergence
import Verif.Props.ProjectedPosition
import Verif.Props.Weights2
import Verif.Props.TreeTurn

/-!
# C140: the orientation of the axes, for the direction of convergence

`Spec/TurnConvergence.lean` says what is required of the directions.
-/

open scoped RealInnerProductSpace

namespace Verif
open Spec TreeTurn

variable {d k : ℕ} [h2 : Fact (2 ≤ d)] {R : Vec d ≃ₗᵢ[ℝ] Vec d}
set_option linter.unusedSectionVars false

lemma turn_back (R : Vec d ≃ₗᵢ[ℝ] Vec d) (o : Obstacle d) : turnObstacle R.symm (turnObstacle R o) = o := by
  cases o
  simp [turnObstacle, Function.comp_def]

/-- The rotation between two directions which are equal or clearly different. -/
lemma fromDirections_sim {u v : Vec d} (hc : ClearlyApart (unit u) (unit v)) :
    (fromDirections u v = none ∧ fromDirections (R u) (R v) = none)
      ∨ ∃ o o', fromDirections u v = some o ∧ fromDirections (R u) (R v) = some o' ∧ RotTurned R o o' := by
  have hn := (C140_rotation_partial R u v hc).1
  cases h : fromDirections u v with
  | none => exact Or.inl ⟨rfl, hn.mpr h⟩
  | some o =>
    cases h' : fromDirections (R u) (R v) with
    | none => rw [hn.mp h'] at h; cases h
    | some o' =>
      refine Or.inr ⟨o, o', rfl, rfl, ?_⟩
      obtain ⟨hu, hv, -, e1, e2⟩ := fromDirections_some h
      obtain ⟨-, -, -, e1', e2'⟩ := fromDirections_some h'
      have hv' : R v ≠ 0 := by simpa using hv
      by_cases hp : unit u = unit v
      · refine ⟨by rw [e1, e1', unit_turn], by rw [e2, e2', angle_turn], Or.inl ?_⟩
        rw [e2, ← InnerProductGeometry.angle_smul_left_of_pos u v (r := 1 / ‖u‖) (by positivity),
          ← InnerProductGeometry.angle_smul_right_of_pos _ v (r := 1 / ‖v‖) (by positivity)]
        change InnerProductGeometry.angle (unit u) (unit v) = 0
        rw [hp]
        refine InnerProductGeometry.angle_self fun e => ?_
        have := unit_norm hv
        rw [e] at this
        simp at this
      · refine fromDirections_turned (Or.inr ⟨?_, ?_⟩) h h'
        · exact (clear_not_close (unit_norm hv) hc).resolve_left hp
        · refine (clear_not_close (unit_norm hv') (by rw [unit_turn, unit_turn]; exact clear_turn hc)).resolve_left ?_
          rw [unit_turn, unit_turn]
          exact fun e => hp (R.injective e)

lemma startToEnd_turn {s e c : Vec d} (h : ClearlyApart (unit (c - s)) (unit (c - e))) :
    SameTransform R (Projected.rotationStartToEnd s e c) (Projected.rotationStartToEnd (R s) (R e) (R c)) := by
  classical
  unfold Projected.rotationStartToEnd
  simp only [← map_sub, R.norm_map, ← map_smul, R.inner_map_map]
  by_cases h1 : ‖c - s‖ = 0
  · rw [if_pos h1, if_pos h1]; trivial
  rw [if_neg h1, if_neg h1]
  by_cases h3 : ‖c - e‖ = 0
  · rw [if_pos h3, if_pos h3]; exact rfl
  rw [if_neg h3, if_neg h3]
  split_ifs with h4
  · trivial
  have hu : unit (unit (c - s)) = unit (c - s) := unit_unit (norm_ne_zero_iff.mp h1)
  have hv : unit (unit (c - e)) = unit (c - e) := unit_unit (norm_ne_zero_iff.mp h3)
  have h' : ClearlyApart (unit (unit (c - s))) (unit (unit (c - e))) := by rw [hu, hv]; exact h
  have key := fromDirections_sim (R := R) h'
  unfold unit at key
  rcases key with ⟨k1, k2⟩ | ⟨o, o', k1, k2, k3⟩
  · rw [k1, k2]; exact rfl
  · rw [k1, k2]; exact k3

lemma projectedPosition_turn (basis : Vec d → (Vec d ≃ₗᵢ[ℝ] Vec d)) (g : Geometry d) (R : Vec d ≃ₗᵢ[ℝ] Vec d) (x z : Vec d)
    (h : NotFar basis g z x) :
    Projected.projectedPosition basis (turnGeometry R g) (R z) (R x)
      = (Projected.projectedPosition basis g z x).map R := by
  unfold Projected.projectedPosition
  simp only [turnGeometry, R.symm_apply_apply]
  split_ifs with h1 h2
  · rfl
  · rfl
  · cases hp : Projected.deflate g.localRadius none (g.toLocal x) with
    | none => rfl
    | some p =>
      cases hq : Projected.deflate g.localRadius none (g.toLocal z) with
      | none => rfl
      | some q =>
        have hf := h p q hp hq
        simp only [bind, Option.bind, pure]
        rw [if_neg (not_lt.mpr hf), if_neg (not_lt.mpr hf)]
        rfl

/-- C140: the convergence dynamics with the projection (`ProjectedRotationDynamics`): if the attractor and the obstacles are
turned, the weights are the same and the transformations are turned, unless the folded position is further away than `1e10`,
or the directions to the attractor are nearly, but not exactly, parallel. -/
theorem C140_projection (basis : Vec d → (Vec d ≃ₗᵢ[ℝ] Vec d)) (geometry : Obstacle d → Geometry d)
    (R : Vec d ≃ₗᵢ[ℝ] Vec d) (z x : Vec d) (a : Avoider d) (ha : a.convergence = Projected.convergence basis geometry z)
    (hz : a.initial.attractorPosition = some z)
    (hfar : ∀ t ∈ a.trees, ∀ o ∈ t.components, NotFar basis (geometry o) z x)
    (hclear : ∀ t ∈ a.trees, ∀ o ∈ t.components, ∀ p, p = x ∨ (∃ o' ∈ t.components, p = o'.referencePoint) →
      ClearlyApart (unit (z - p)) (unit (z - o.referencePoint))) :
    ConvergenceTurned R x a
      (Projected.convergence basis (fun o => turnGeometry R (geometry (turnObstacle R.symm o))) (R z)) := by
  have ha' : a = { a with convergence := Projected.convergence basis geometry z } := by rw [← ha]
  refine ⟨?_, ?_, ?_⟩
  · intro t ht o ho
    have key : Projected.evaluateProjectedWeight basis (turnGeometry R (geometry o)) (R z) (R x) (turnObstacle R o)
        = Projected.evaluateProjectedWeight basis (geometry o) z x o := by
      unfold Projected.evaluateProjectedWeight
      rw [projectedPosition_turn basis _ R x z (hfar t ht o ho)]
      cases Projected.projectedPosition basis (geometry o) z x with
      | none => rfl
      | some p => simp [turnObstacle]
    rw [ha]
    simp only [Projected.convergence, turn_back, key]
  · intro t ht o ho
    rw [ha]
    exact startToEnd_turn (hclear t ht o ho x (Or.inl rfl))
  · intro t ht o ho p hp
    rw [ha, hz]
    exact startToEnd_turn (hclear t ht o ho p hp)

/-- C140: the convergence dynamics without singularity turn with the scene, without any condition. -/
theorem C140_without_singularity (f g : Vec d → Vec d) (R : Vec d ≃ₗᵢ[ℝ] Vec d) (x : Vec d) (a : Avoider d)
    (ha : a.convergence = convergenceWithoutSingularity f g) :
    ConvergenceTurned R x a (convergenceWithoutSingularity (fun y => R (f (R.symm y))) (fun y => R (g (R.symm y)))) := by
  have key : ∀ v : Vec d, SameTransform R
      (match fromDirections v v with | none => .error .nan | some r => .ok (some r))
      (match fromDirections (R v) (R v) with | none => .error .nan | some r => .ok (some r)) := by
    intro v
    rcases fromDirections_sim (R := R) (u := v) (v := v) (Or.inl rfl) with ⟨k1, k2⟩ | ⟨o, o', k1, k2, k3⟩
    · rw [k1, k2]; exact rfl
    · rw [k1, k2]; exact k3
  refine ⟨?_, ?_, ?_⟩
  · intro t _ o _
    rw [ha]
    simp [convergenceWithoutSingularity, turnObstacle]
  · intro t _ o _
    rw [ha]
    simp only [convergenceWithoutSingularity, R.symm_apply_apply]
    exact key _
  · intro t _ o _ p _
    rw [ha]
    simp only [convergenceWithoutSingularity, R.symm_apply_apply]
    exact key _

/-- C140 (partial): the direction of convergence, which is computed with trees of directions over all obstacles and their
components, turns with the scene.
Missing: neighbouring directions which are nearly parallel, for which it fails (`C140_nearly_parallel`); exceptions. -/
theorem C140_convergence_partial (ext : Ext d k) (has : ArgsortSpec ext.argsort) (R : Vec d ≃ₗᵢ[ℝ] Vec d) (a : Avoider d)
    (K : Convergence d) (x : Vec d) (hK : ConvergenceTurned R x a K) (h0 : ClearAt a.initial x) (s : RotSeq (Vec d))
    (hs : evaluateDynamicsSequence x a.initial = .ok (some s)) (hcl : ClearConvergence ext a x s) (conv : RotSeq (Vec d))
    (hconv : computeConvergenceSequence ext a x s = .ok conv) : DirectionTurned ext R a K x := by
  obtain ⟨so', e1, e2⟩ := dynamics_turn (R := R) h0 hs
  cases so' with
  | none => exact absurd e2 id
  | some s' =>
    obtain ⟨v, v1, v2⟩ := convergence_unit has hcl hconv
    have h3 := convergence_turn has hK e2 hcl hconv
    refine ⟨s, conv, v, s', _, hs, hconv, v1, v2, e1, h3, ?_⟩
    rw [endVector_turned (map_seqTurned conv), v1]
    rfl

/-- C140 (partial): the velocity of the avoider turns with the scene, for any initial dynamics and any of the convergence
dynamics: if the avoider returns the velocity `v`, then it returns `R v` in the turned coordinates, also without obstacles
and at the attractor.
Missing: positions inside of an obstacle and rotating obstacles; neighbouring directions which are nearly parallel, for
which it fails (`C140_nearly_parallel`). -/
theorem C140_velocity_partial (ext : Ext d k) (hs : DirectionSpace ext) (has : ArgsortSpec ext.argsort)
    (R : Vec d ≃ₗᵢ[ℝ] Vec d) (a : Avoider d) (K : Convergence d) (x : Vec d) (hp : 0 ≤ a.power)
    (h0 : 0 < a.convergenceRadius) (h1 : a.convergenceRadius ≤ Real.pi) (hsane : SaneTrees a.trees)
    (hready : ∀ ot ∈ a.trees, TurnReady x ot) (hK : ConvergenceTurned R x a K) (hat : ClearAt a.initial x)
    (hcl : ∀ s, evaluateDynamicsSequence x a.initial = .ok (some s) → ClearConvergence ext a x s)
    (hclear : ∀ pr, PreparedFor ext a x pr → ClearDirections pr.tree) (v : Vec d) (hv : a.evaluate ext x = .ok v) :
    (turnedAvoider R a K).evaluate ext (R x) = .ok (R v) := by
  have hv0 := hv
  unfold Avoider.evaluate evaluateSequence at hv
  obtain ⟨so, e1, hv⟩ := bind_ok.mp hv
  obtain ⟨so', e2, e3⟩ := dynamics_turn (R := R) hat e1
  cases so with
  | none =>
    cases so' with
    | some s' => exact absurd e3 id
    | none =>
      cases hv
      unfold Avoider.evaluate evaluateSequence
      refine bind_ok.mpr ⟨none, e2, ?_⟩
      simp
  | some s =>
    cases so' with
    | none => exact absurd e3 id
    | some s' =>
      simp only at hv
      by_cases hne : a.trees = []
      · rw [if_pos hne] at hv
        obtain ⟨w, w1, hv⟩ := bind_ok.mp hv
        cases hv
        unfold Avoider.evaluate evaluateSequence
        refine bind_ok.mpr ⟨some s', e2, ?_⟩
        have hne' : (turnedAvoider R a K).trees = [] := by simp [turnedAvoider, hne]
        simp only
        rw [if_pos hne']
        refine bind_ok.mpr ⟨R w, ?_, ?_⟩
        · rw [endVector_turned e3, w1]; rfl
        · have hmag : (turnedAvoider R a K).magnitude (R x) = a.magnitude x := by
            unfold Avoider.magnitude turnedAvoider turnDynamics
            cases a.evaluateMagnitude <;> simp
          rw [hmag, map_smul]
      · rw [if_neg hne] at hv
        obtain ⟨rel, _, hv⟩ := bind_ok.mp hv
        obtain ⟨conv, hc, hv⟩ := bind_ok.mp hv
        rw [C140_avoider_partial ext hs has R a K x hp h0 h1 hsane hready
          (C140_convergence_partial ext has R a K x hK hat s e1 (hcl s e1) conv hc) hclear hne, hv0]
        rfl

/-! ### Projected dynamics -/

lemma clear_distinguishable {u v : Vec d} (hv : v ≠ 0) (h : ClearlyApart (unit u) (unit v)) : Distinguishable [u, v] :=
  List.isChain_cons_cons.mpr ⟨clear_not_close (unit_norm hv) h, List.isChain_singleton _⟩

/-- The rotation of the projected dynamics leads to the direction from the end to the centre, where the sequence of the
dynamics starts. -/
lemma projected_continues (hd : d ≤ 10 ^ 15) {f : Dynamics d} {z p e : Vec d} (hown : f.ownSequence = none)
    (hz : f.attractorPosition = some z) (hc : ClearlyApart (unit (z - p)) (unit (z - e))) {r : Rot (Vec d)}
    (hr : Projected.rotationStartToEnd p e z = .ok (some r)) {s : RotSeq (Vec d)}
    (hs : evaluateDynamicsSequence e f = .ok (some s)) : Continues r s := by
  have he : z - e ≠ 0 := by
    intro h
    have : e = z := (sub_eq_zero.mp h).symm
    have hout := (C69_outcomes hd p e z)
    by_cases hp : p = z
    · rw [hout.1.mpr (Or.inl hp)] at hr; cases hr
    · rw [(hout.2 .notImplemented).mpr ⟨rfl, hp, this⟩] at hr; cases hr
  obtain ⟨c1, c2, c3, c4⟩ := C69_rotation hd _ _ _ r hr
  have hsec : r.getSecondVector = unit (z - e) := by
    rw [← c4 (clear_distinguishable he hc), ← c2]
    simp [Rot.rotate, Rot.getSecondVector, Rot.getFirstVector]
  intro q hq
  have href : referenceDirection e f none = z - e := by simp [referenceDirection, hz]
  have hfirst := (C16_rotation e f none hown s hs).2.1
  rw [href] at hfirst
  have hq' : q.base.b0 = unit (z - e) := by
    cases s with
    | nil => cases hq
    | cons q' s' =>
      have : q = q' := by simpa using hq.symm
      subst this
      exact (List.cons.inj hfirst).1
  rw [hq', hsec, unit_unit he, sub_self, norm_zero]
  norm_num

/-- C140 (partial): the avoider with the projected convergence dynamics (`ProjectedRotationDynamics`), with an attractor: the
velocity turns with the scene, if all directions which are compared are equal or clearly different.
Missing: positions inside of an obstacle and rotating obstacles; neighbouring directions which are nearly parallel, for
which it fails (`C140_nearly_parallel`); folded positions further away than `1e10`. -/
theorem C140_projected_partial (hd : d ≤ 10 ^ 15) (ext : Ext d k) (hs : DirectionSpace ext) (has : ArgsortSpec ext.argsort)
    (R : Vec d ≃ₗᵢ[ℝ] Vec d) (basis : Vec d → (Vec d ≃ₗᵢ[ℝ] Vec d)) (geometry : Obstacle d → Geometry d) (a : Avoider d)
    (z x : Vec d) (ha : a.convergence = Projected.convergence basis geometry z) (hz : a.initial.attractorPosition = some z)
    (hown : a.initial.ownSequence = none) (hdef : a.default = none) (hp : 0 ≤ a.power)
    (h0 : 0 < a.convergenceRadius) (h1 : a.convergenceRadius ≤ Real.pi) (hsane : SaneTrees a.trees)
    (hready : ∀ ot ∈ a.trees, TurnReady x ot)
    (hroots : ∀ ot ∈ a.trees, ∀ c < ot.components.length, ot.parentIdx c = none → c = ot.rootIdx)
    (hfar : ∀ t ∈ a.trees, ∀ o ∈ t.components, NotFar basis (geometry o) z x)
    (hsight : ∀ t ∈ a.trees, ∀ o ∈ t.components, ∀ p, p = x ∨ (∃ o' ∈ t.components, p = o'.referencePoint) →
      ClearlyApart (unit (z - p)) (unit (z - o.referencePoint)))
    (hx : ClearAt a.initial x)
    (hrp : ∀ ot ∈ a.trees, Active a ot → ∀ root ∈ ot.components[ot.rootIdx]?, ClearAt a.initial root.referencePoint)
    (hred : ∀ s, evaluateDynamicsSequence x a.initial = .ok (some s) → ∀ ot ∈ a.trees, Active a ot →
      ∀ root ∈ ot.components[ot.rootIdx]?, ∀ o s2, Projected.rotationStartToEnd x root.referencePoint z = .ok (some o) →
        evaluateDynamicsSequence root.referencePoint a.initial = .ok (some s2) →
        ∀ t, ReductionTree s o s2 t → ClearDirections t)
    (htree : ∀ s, evaluateDynamicsSequence x a.initial = .ok (some s) →
      ∀ st, ConvergenceTree ext a x s st → ClearDirections st.tree)
    (hclear : ∀ pr, PreparedFor ext a x pr → ClearDirections pr.tree) (v : Vec d) (hv : a.evaluate ext x = .ok v) :
    (turnedAvoider R a (Projected.convergence basis (fun o => turnGeometry R (geometry (turnObstacle R.symm o))) (R z))).evaluate
      ext (R x) = .ok (R v) := by
  refine C140_velocity_partial ext hs has R a _ x hp h0 h1 hsane hready
    (C140_projection basis geometry R z x a ha hz hfar hsight) hx ?_ hclear v hv
  intro s hseq
  have hco : convergenceOf a = a.initial := by simp [convergenceOf, hdef]
  have hroot : ∀ ot : ObstacleTree d, ∀ root ∈ ot.components[ot.rootIdx]?, root ∈ ot.components :=
    fun ot root h => List.mem_of_getElem? h
  refine ⟨?_, ?_, ?_, ?_, hroots, ?_, htree s hseq⟩
  · intro q hq
    obtain ⟨_, hfirst, _⟩ := C16_rotation x a.initial none hown s hseq
    have hne : referenceDirection x a.initial none ≠ 0 := by
      classical
      intro h
      rw [evaluateDynamicsSequence_eq _ _ _ hown, if_pos (Or.inl (by rw [h, norm_zero]))] at hseq
      cases hseq
    cases s with
    | nil => cases hq
    | cons q' s' =>
      have : q = q' := by simpa using hq.symm
      subst this
      have hb : q.base.b0 = unit (referenceDirection x a.initial none) := (List.cons.inj hfirst).1
      rw [hb, unit_norm hne]
  · intro ot hot _ root hr w hw
    rw [ha] at hw
    simp only [Projected.convergence] at hw
    cases he : Projected.evaluateProjectedWeight basis (geometry root) z x root with
    | none => rw [he] at hw; cases hw
    | some w' =>
      rw [he] at hw
      cases hw
      unfold Projected.evaluateProjectedWeight at he
      cases hpp : Projected.projectedPosition basis (geometry root) z x with
      | none => rw [hpp] at he; cases he
      | some y =>
        rw [hpp] at he
        cases he
        exact (C33_projected (1 / 2) (by norm_num) _ _).2.1
  · intro ot hot hact root hr
    rw [hco]
    exact hrp ot hot hact root hr
  · intro ot hot hact root hr o s2 ho h2'
    rw [ha] at ho
    rw [hco] at h2'
    exact ⟨projected_continues hd hown hz (hsight ot hot root (hroot ot root hr) x (Or.inl rfl)) ho h2',
      hred s hseq ot hot hact root hr o s2 ho h2'⟩
  · intro ot hot hact root hr p hpp r s2 hr2 h2'
    rw [ha, hz] at hr2
    rw [hco] at h2'
    exact projected_continues hd hown hz (hsight ot hot root (hroot ot root hr) p hpp) hr2 h2'

/-! ### Examples -/

lemma weight_inside {a : Avoider d} {c : Vec d} (hattr : a.initial.attractorPosition = some c) {ot : ObstacleTree d}
    (h : InContact c ot) : treeWeight a ot = .ok 0 := by
  obtain ⟨o, ho, hog⟩ := h
  unfold treeWeight
  rw [hattr]
  have hg : ∃ g, ot.gamma c = .ok g := by
    unfold ObstacleTree.gamma
    cases hm : (ot.components.map (fun o => o.gamma c)).min? with
    | none =>
      rw [List.min?_eq_none_iff, List.map_eq_nil_iff] at hm
      rw [hm] at ho; cases ho
    | some g => exact ⟨g, rfl⟩
  obtain ⟨g, hg⟩ := hg
  have hg1 := (gamma_ok hg).2 o ho
  simp only
  rw [hg]
  change Except.ok (computeTreeWeight (some g)) = _
  unfold computeTreeWeight
  simp only
  rw [if_pos (hg1.trans hog)]

/-- If the attractor is inside of all obstacles, only the sequence of the initial dynamics is in the tree. -/
lemma clear_inside {ext : Ext d k} {a : Avoider d} {x c : Vec d} (hattr : a.initial.attractorPosition = some c)
    (hin : ∀ t ∈ a.trees, InContact c t) (hown : a.initial.ownSequence = none) {s : RotSeq (Vec d)}
    (hs : evaluateDynamicsSequence x a.initial = .ok (some s)) (hc : ClearAt a.initial x) {st : ConvState d}
    (h : ConvergenceTree ext a x s st) : ClearDirections st.tree := by
  classical
  obtain ⟨t, ht, hst⟩ := h
  have hfold : ∀ (l : List (ObstacleTree d × ℕ)) (st : ConvState d), (∀ p ∈ l, InContact c p.1) →
      l.foldlM (convTree ext a x s) st = .ok st := by
    intro l
    induction l with
    | nil => intro st _; rfl
    | cons p l ih =>
      intro st hl
      have hstep : convTree ext a x s st p = .ok st := by
        unfold convTree
        simp only
        rw [weight_inside hattr (hl p List.mem_cons_self)]
        change (if (0 : ℝ) ≤ 1e-6 then _ else _) = _
        rw [if_pos (by norm_num)]
      rw [List.foldlM_cons, hstep]
      exact ih st (fun p hp => hl p (List.mem_cons_of_mem _ hp))
  rw [hfold _ _ (fun p hp => hin p.1 (by
    obtain ⟨i, hi⟩ := List.mem_iff_getElem?.mp hp
    rw [List.getElem?_zipIdx] at hi
    obtain ⟨t', h1, h2⟩ := Option.map_eq_some_iff.mp hi
    rw [← h2]
    exact List.mem_of_getElem? h1))] at hst
  cases hst
  have hnz : referenceDirection x a.initial none ≠ 0 ∧ a.initial.evaluate x ≠ 0 := by
    constructor <;> intro h <;>
    · rw [evaluateDynamicsSequence_eq _ _ _ hown, if_pos (by simp [h])] at hs
      cases hs
  have hdist := clear_distinguishable hnz.2 (hc hown)
  have hfirst := (C16_rotation x a.initial none hown s hs).2.1
  obtain ⟨q, rfl, hon, hgp, hsec⟩ := initial_sequence hown hs hdist
  have hq1 : q.getFirstVector = unit (referenceDirection x a.initial none) := by simpa using hfirst
  obtain ⟨t', f1, f2, f3, f4, f5, f6⟩ := fromSequence_proper (NodeId.num (-10)) (NodeId.num (-1)) freshInit
    (proper_single hon hgp)
  rw [ht] at f1
  cases f1
  intro p m hpm
  have hm : m = NodeId.num (-1) := by
    have h1 := f2.edge_snd _ _ hpm
    rw [f4] at h1
    have h3 : m ≠ NodeId.num (-10) := fun e => f2.root_no_parent p (e ▸ hpm)
    simpa [h3] using h1
  have hp : p = NodeId.num (-10) := by
    have h1 := f2.edge_fst _ _ hpm
    rw [f4] at h1
    have h3 : p ≠ NodeId.num (-1) := by
      intro e
      have := f2.parent_before _ _ hpm
      rw [e, hm] at this
      exact lt_irrefl _ this
    simpa [h3] using h1
  subst hm hp
  have e1 : dirOf t (.num (-10)) = q.getFirstVector := f5
  have e2 : dirOf t (.num (-1)) = q.getSecondVector := by unfold dirOf; rw [f6]; rfl
  rw [e1, e2]
  refine ⟨hgp.1, ?_⟩
  rw [hq1, hsec]
  exact hc hown

/-- A disc with the attractor `(0, 1/2)` inside, the velocity `(0, 1/2)`, and the projected convergence dynamics. -/
noncomputable def projectedDisc (basis : Vec 2 → (Vec 2 ≃ₗᵢ[ℝ] Vec 2)) : Avoider 2 :=
  { discAvoider !₂[0, 1 / 2] 1 with
    convergence := Projected.convergence basis (fun _ => ⟨id, id, fun y => ‖y‖, fun _ => 1⟩) !₂[0, 1 / 2] }

lemma slide_clear : ClearlyApart (unit (!₂[-1, 1 / 2] : Vec 2)) (unit (!₂[0, 1 / 2] : Vec 2)) := by
  right
  have hn : ‖(!₂[-1, 1 / 2] : Vec 2)‖ ≤ 2 := by
    rw [EuclideanSpace.norm_eq, Fin.sum_univ_two]
    apply Real.sqrt_le_iff.mpr; norm_num
  have hpos : 0 < ‖(!₂[-1, 1 / 2] : Vec 2)‖ := by
    rw [norm_pos_iff]
    intro h
    have := congrArg (fun w : Vec 2 => w 0) h
    simp at this
  have h1 : 1 / 2 ≤ 1 / ‖(!₂[-1, 1 / 2] : Vec 2)‖ := one_div_le_one_div_of_le hpos hn
  have h3 : ‖(unit (!₂[-1, 1 / 2] : Vec 2) - unit (!₂[0, 1 / 2] : Vec 2)) 0‖
      ≤ ‖unit (!₂[-1, 1 / 2] : Vec 2) - unit (!₂[0, 1 / 2] : Vec 2)‖ := PiLp.norm_apply_le _ 0
  have h4 : (unit (!₂[-1, 1 / 2] : Vec 2) - unit (!₂[0, 1 / 2] : Vec 2)) 0 = -(1 / ‖(!₂[-1, 1 / 2] : Vec 2)‖) := by
    simp [unit]
  rw [h4, norm_neg, Real.norm_of_nonneg (by positivity)] at h3
  have h5 : √((2 : ℕ) : ℝ) ≤ 2 := by
    rw [Real.sqrt_le_iff]; norm_num
  have h6 : (1e-8 : ℝ) * √((2 : ℕ) : ℝ) ≤ 1e-8 * 2 := by gcongr
  norm_num at h6 ⊢
  linarith

/-- The hypotheses of `C140_projected_partial` are met, and with them the ones of `C140_projection`,
`C140_convergence_partial` and `C140_velocity_partial`: a position on the surface of a disc. -/
example (basis : Vec 2 → (Vec 2 ≃ₗᵢ[ℝ] Vec 2)) (R : Vec 2 ≃ₗᵢ[ℝ] Vec 2) (argsort : List ℤ → List ℕ) (has : ArgsortSpec argsort) :
    ∃ v, (projectedDisc basis).evaluate (planeExt argsort) ((1 : ℝ) • !₂[1, 0]) = .ok v
      ∧ (turnedAvoider R (projectedDisc basis)
          (Projected.convergence basis (fun _ => turnGeometry R ⟨id, id, fun y => ‖y‖, fun _ => 1⟩) (R !₂[0, 1 / 2]))).evaluate
            (planeExt argsort) (R ((1 : ℝ) • !₂[1, 0])) = .ok (R v) := by
  classical
  set a := projectedDisc basis with ha
  set x : Vec 2 := (1 : ℝ) • !₂[1, 0] with hx
  set ext := planeExt argsort with hext
  have href : referenceDirection x a.initial none = !₂[-1, 1 / 2] := by
    ext i; fin_cases i <;> simp [referenceDirection, a, projectedDisc, discAvoider, x]
  have hat : ClearAt a.initial x := by
    intro _
    rw [href]
    exact slide_clear
  have htrees : a.trees = [discTree] := rfl
  have hin : ∀ t ∈ a.trees, InContact (!₂[0, 1 / 2] : Vec 2) t := by
    intro t ht
    have : t = discTree := by simpa [htrees] using ht
    subst this
    refine ⟨disc, by simp [discTree], ?_⟩
    change ‖(!₂[0, 1 / 2] : Vec 2)‖ ≤ 1
    rw [EuclideanSpace.norm_eq, Fin.sum_univ_two]
    apply Real.sqrt_le_iff.mpr; norm_num
  have hinact : ∀ t ∈ a.trees, ¬ Active a t := by
    rintro t ht ⟨w, hw, h⟩
    rw [weight_inside (a := a) rfl (hin t ht)] at hw
    cases hw
    norm_num at h
  have hv0 : (!₂[0, 1 / 2] : Vec 2) ≠ 0 := by
    intro h
    have := congrArg (fun w : Vec 2 => w 1) h
    simp at this
  have hdist : Distinguishable [referenceDirection x a.initial none, a.initial.evaluate x] :=
    clear_distinguishable hv0 (hat rfl)
  obtain ⟨w, pr, h1, -, h3, -⟩ := slide_run argsort has
  have hev : a.evaluate ext x = .ok w := by
    unfold Avoider.evaluate evaluateSequence at h1 ⊢
    obtain ⟨so, e1, h1⟩ := bind_ok.mp h1
    refine bind_ok.mpr ⟨so, e1, ?_⟩
    cases so with
    | none => exact h1
    | some s =>
      simp only at h1 ⊢
      rw [if_neg (by simp [discAvoider])] at h1
      rw [if_neg (by simp [htrees])]
      obtain ⟨rel, e2, h1⟩ := bind_ok.mp h1
      obtain ⟨conv, e3, h1⟩ := bind_ok.mp h1
      obtain ⟨u, e4, h1⟩ := bind_ok.mp h1
      obtain ⟨conv', c1, c2⟩ := C62_attractor_inside ext a x !₂[0, 1 / 2] rfl rfl hin has hdist s e1
      obtain ⟨conv'', c3, c4⟩ := C62_attractor_inside ext (discAvoider !₂[0, 1 / 2] 1) x !₂[0, 1 / 2] rfl rfl hin has hdist s e1
      rw [e3] at c3; cases c3
      rw [e4] at c4
      refine bind_ok.mpr ⟨rel, e2, bind_ok.mpr ⟨conv', c1, bind_ok.mpr ⟨u, by rw [c2]; exact c4.symm, h1⟩⟩⟩
  refine ⟨w, hev, ?_⟩
  have hsane : SaneTrees a.trees := by
    intro t ht o ho
    have : t = discTree := by simpa [htrees] using ht
    subst this
    have : o = disc := by simpa [discTree] using ho
    subst this
    exact disc_sane
  have hxn : ‖x‖ = 1 := by rw [hx, one_smul, e_norm]
  refine C140_projected_partial (by norm_num) ext (planeExt_space argsort) has R basis _ a !₂[0, 1 / 2] x rfl rfl rfl rfl
    (by norm_num [a, projectedDisc, discAvoider]) (by norm_num [a, projectedDisc, discAvoider, Real.pi_pos])
    (by norm_num [a, projectedDisc, discAvoider]; linarith [Real.pi_pos]) hsane ?_ ?_ ?_ ?_ hat
    (fun ot hot h => absurd h (hinact ot hot)) (fun _ _ ot hot h => absurd h (hinact ot hot)) ?_ ?_ w hev
  · intro t ht
    have : t = discTree := by simpa [htrees] using ht
    subst this
    exact disc_ready hxn.ge
  · intro t ht c hc _
    have : t = discTree := by simpa [htrees] using ht
    subst this
    have : c = 0 := by simpa [discTree] using hc
    rw [this]; rfl
  · intro t _ o _ p q hp hq
    have hz : ‖(!₂[0, 1 / 2] : Vec 2)‖ < 1 := by
      rw [EuclideanSpace.norm_eq, Fin.sum_univ_two]
      rw [Real.sqrt_lt' (by norm_num)]; norm_num
    have hq0 : q = 0 := by
      simp only [Projected.deflate, Projected.relative, Projected.absolute, id] at hq
      exact (Option.some.inj ((if_pos hz).symm.trans hq)).symm
    have hp0 : p = 0 := by
      simp [Projected.deflate, Projected.relative, Projected.absolute, hxn] at hp
      exact hp.symm
    subst hp0 hq0
    have hf : Projected.fold basis none (0 : Vec 2) 0 = 0 := by
      unfold Projected.fold Projected.attractorToObstacle
      exact if_pos (by simp)
    rw [hf, norm_zero]
    norm_num
  · intro t ht o ho p hp
    have : t = discTree := by simpa [htrees] using ht
    subst this
    have : o = disc := by simpa [discTree] using ho
    subst this
    have hrp : (!₂[0, 1 / 2] : Vec 2) - (disc (d := 2)).referencePoint = !₂[0, 1 / 2] := sub_zero _
    rw [hrp]
    rcases hp with rfl | ⟨o', ho', rfl⟩
    · have : (!₂[0, 1 / 2] : Vec 2) - x = !₂[-1, 1 / 2] := by
        ext i; fin_cases i <;> simp [x]
      rw [this]
      exact slide_clear
    · have : o' = disc := by simpa [discTree] using ho'
      subst this
      rw [hrp]
      exact Or.inl rfl
  · intro s hs st hst
    exact clear_inside rfl hin rfl hs hat hst
  · rintro pr' ⟨s, conv, u, e1, e2, e3, e4⟩
    obtain ⟨conv', c1, c2⟩ := C62_attractor_inside ext a x !₂[0, 1 / 2] rfl rfl hin has hdist s e1
    rw [e2] at c1; cases c1
    rw [e3] at c2
    have hu : u = unit !₂[0, 1 / 2] := Except.ok.inj c2
    subst hu
    have hun : ‖unit (!₂[0, 1 / 2] : Vec 2)‖ = 1 := unit_norm hv0
    obtain ⟨pr2, p1, p2⟩ := disc_prepare (ext := ext) (a := a) (by norm_num [a, projectedDisc, discAvoider])
      (by norm_num [a, projectedDisc, discAvoider]; linarith [Real.pi_pos])
      (by intro gm hgm; have : gm = 0.8 := by simpa [a, projectedDisc, discAvoider] using hgm.symm
          rw [this]; norm_num)
      (by simp [htrees]) one_pos e_norm hun (by simp [unit, PiLp.inner_apply, Fin.sum_univ_two])
    rw [p1] at e4; cases e4
    intro p c hpc
    rw [p2.dirs p (p2.rooted.edge_fst _ _ hpc), p2.dirs c (p2.rooted.edge_snd _ _ hpc)]
    exact ⟨not_opposite_self hun, Or.inl rfl⟩

/-- The hypothesis of `C140_without_singularity` is met by the avoider which `createAvoider` returns for a motion without
attractor. -/
example (projected : Vec d → Convergence d) (trees : List (ObstacleTree d)) (f : Vec d → Vec d) (ref : Vec d → Vec d) :
    ∃ a, createAvoider projected trees { evaluate := f, attractorPosition := none } (some ref) = .ok a
      ∧ a.convergence = convergenceWithoutSingularity f ref := ⟨_, rfl, rfl⟩

end Verif
