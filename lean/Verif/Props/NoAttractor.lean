import Verif.Model.AvoiderCreate
import Verif.Props.ConvergenceExamples
import Verif.Props.Weights2
import Verif.Lemmas.ConstantTree

/-!
# C113: motions without an attractor

Model: `Verif.Model.AvoiderCreate` (`create_with_convergence_dynamics`), `Verif.Model.Avoider`.
-/

open scoped RealInnerProductSpace

namespace Verif
open Spec

variable {d k : ℕ} [Fact (2 ≤ d)]
set_option linter.unusedSectionVars false

/-- C113: without an attractor the caller has to give reference dynamics (`ValueError` otherwise); with an attractor
they are optional, and the avoider uses the dynamics around this attractor. -/
theorem C113_create (projected : Vec d → Convergence d) (trees : List (ObstacleTree d)) (initial : Dynamics d)
    (reference : Option (Vec d → Vec d)) :
    (createAvoider projected trees initial reference = .error .valueError
      ↔ initial.attractorPosition = none ∧ reference = none)
    ∧ (∀ a, createAvoider projected trees initial reference = .ok a →
      a.initial = initial ∧ a.trees = trees ∧ a.default = none
        ∧ ∀ A, initial.attractorPosition = some A → a.convergence = projected A) := by
  unfold createAvoider createLocalConvergence
  cases h : initial.attractorPosition with
  | some A =>
    refine ⟨⟨fun h => (by cases h), fun h => (by simp at h)⟩, fun a ha => ?_⟩
    cases ha; exact ⟨rfl, rfl, rfl, fun B hB => by cases hB; rfl⟩
  | none =>
    cases reference with
    | none => exact ⟨⟨fun _ => ⟨rfl, rfl⟩, fun _ => rfl⟩, fun a ha => (by cases ha)⟩
    | some ref =>
      refine ⟨⟨fun h => (by cases h), fun h => (by simp at h)⟩, fun a ha => ?_⟩
      cases ha; exact ⟨rfl, rfl, rfl, fun B hB => by cases hB⟩

/-- The avoider as `createAvoider` leaves it, for a motion without attractor. -/
lemma create_spec {projected : Vec d → Convergence d} {trees : List (ObstacleTree d)} {initial : Dynamics d}
    {reference : Option (Vec d → Vec d)} {a : Avoider d} (hA : initial.attractorPosition = none)
    (h : createAvoider projected trees initial reference = .ok a) :
    ∃ ref, a = { initial := initial, convergence := convergenceWithoutSingularity initial.evaluate ref, trees := trees } := by
  unfold createAvoider createLocalConvergence at h
  rw [hA] at h
  cases reference with
  | none => cases h
  | some ref => cases h; exact ⟨ref, rfl⟩

/-- The sequence of a motion without attractor is the trivial rotation of its direction. -/
lemma no_attractor_sequence {x : Vec d} {dyn : Dynamics d} (hA : dyn.attractorPosition = none)
    (hown : dyn.ownSequence = none) {s : RotSeq (Vec d)} (h : evaluateDynamicsSequence x dyn = .ok (some s)) :
    dyn.evaluate x ≠ 0 ∧ ∃ q, s = [q] ∧ Proper [q] ∧ q.getFirstVector = unit (dyn.evaluate x)
      ∧ q.getSecondVector = unit (dyn.evaluate x) := by
  have href : referenceDirection x dyn none = dyn.evaluate x := by
    unfold referenceDirection; rw [hA]
  have hnz : dyn.evaluate x ≠ 0 := by
    intro hc
    have := (C16_none_iff x dyn none hown).mpr (Or.inr hc)
    rw [this] at h; cases h
  have hdist : Distinguishable [referenceDirection x dyn none, dyn.evaluate x] := by
    rw [href]
    exact List.isChain_cons_cons.mpr ⟨Or.inl rfl, List.isChain_singleton _⟩
  obtain ⟨q, rfl, hon, hgp, hsec⟩ := initial_sequence hown h hdist
  have hfirst := (C16_rotation x dyn none hown [q] h).2.1
  rw [href] at hfirst
  exact ⟨hnz, q, rfl, proper_single hon hgp, by simpa using hfirst, hsec⟩

/-- The trivial rotation to an obstacle. -/
lemma trivial_rotation {v : Vec d} (hv : v ≠ 0) :
    ∃ o : Rot (Vec d), fromDirections v v = some o ∧ OrthonormalPair o.base.b0 o.base.b1
      ∧ o.getFirstVector = unit v ∧ o.getSecondVector = unit v := by
  have h := fromDirections_close hv hv (allclose_refl (unit v))
  refine ⟨_, h, (C05_from_directions_valid _ _ _ h).1, (C05_from_directions_valid _ _ _ h).2.1, ?_⟩
  rw [InnerProductGeometry.angle_self hv]
  have hz : ∀ (b : Base (Vec d)), (⟨b, 0⟩ : Rot (Vec d)).getSecondVector = b.b0 := by
    intro b
    simp [Rot.getSecondVector, rotateDirection_eq, planeRot_zero]
  exact hz _

/-- C113, the general claim is violated: an avoider created for a motion without attractor returns nothing
(`breakpoint()`, then an exception) wherever the direction of the motion is not that at the reference points of all
obstacles, however far away they are. -/
theorem C113_blocked (ext : Ext d k) (projected : Vec d → Convergence d) (trees : List (ObstacleTree d))
    (initial : Dynamics d) (reference : Option (Vec d → Vec d)) (a : Avoider d)
    (hA : initial.attractorPosition = none) (hown : initial.ownSequence = none)
    (ha : createAvoider projected trees initial reference = .ok a) (x : Vec d)
    (t : ObstacleTree d) (root : Obstacle d) (ht : t ∈ trees) (hroot : t.components[t.rootIdx]? = some root)
    (hmv : initial.evaluate x ≠ 0)
    (hdir : ¬ allclose (unit (initial.evaluate root.referencePoint)) (unit (initial.evaluate x))) :
    ∀ v, a.evaluate ext x ≠ .ok v := by
  classical
  obtain ⟨ref, rfl⟩ := create_spec hA ha
  set a : Avoider d := { initial := initial, convergence := convergenceWithoutSingularity initial.evaluate ref, trees := trees } with haa
  intro v hv
  unfold Avoider.evaluate evaluateSequence at hv
  obtain ⟨so, hso, hv⟩ := bind_ok.mp hv
  cases so with
  | none =>
    rcases (C16_none_iff x initial none hown).mp hso with h | h
    · have : referenceDirection x initial none = initial.evaluate x := by
        unfold referenceDirection; rw [hA]
      rw [this] at h; exact hmv h
    · exact hmv h
  | some s =>
    simp only at hv
    have hne : trees ≠ [] := by rintro h; rw [h] at ht; simp at ht
    rw [if_neg (by simpa using hne)] at hv
    obtain ⟨_, _, hv⟩ := bind_ok.mp hv
    obtain ⟨conv, hconv, hv⟩ := bind_ok.mp hv
    obtain ⟨_, q, rfl, hq, hq1, hq2⟩ := no_attractor_sequence hA hown hso
    unfold computeConvergenceSequence at hconv
    obtain ⟨t0, ht0, hconv⟩ := bind_ok.mp hconv
    obtain ⟨st, hst, _⟩ := bind_ok.mp hconv
    obtain ⟨i, hi⟩ := List.getElem?_of_mem ht
    obtain ⟨r0, _⟩ := fromSequence_facts ht0
    have htw : treeWeight a t = .ok 1 := by
      unfold treeWeight
      have : a.initial.attractorPosition = none := hA
      rw [this]; rfl
    obtain ⟨root', w, trafo, conv', cont, v', b1, b2, b3, b4, b5, _⟩ :=
      (convFold r0 hst).2 i t hi 1 htw (by norm_num)
    rw [hroot] at b1
    cases b1
    have hw : 0 < w := by
      change Except.ok _ = Except.ok _ at b2
      injection b2 with b2
      rw [← b2]
      exact (C33_without_singularity _).1
    obtain ⟨o, ho, hoon, ho1, ho2⟩ := trivial_rotation hmv
    have htr : trafo = some o := by
      have : (convergenceWithoutSingularity initial.evaluate ref).positionToTransform x root = .ok trafo := b3
      unfold convergenceWithoutSingularity at this
      simp only [ho] at this
      injection this with this
      exact this.symm
    subst htr
    cases conv' with
    | none => rw [C112_reduction_missing ext.argsort [q] hq o hoon w hw] at b5; cases b5
    | some s2 =>
      obtain ⟨_, q2, rfl, _, hf, _⟩ := no_attractor_sequence hA hown b4
      rw [C112_reduction_mismatch ext.argsort [q] [q2] hq (by simp) o hoon
        (by change ¬ allclose q2.getFirstVector _; rw [hf, ho2]; exact hdir) w hw] at b5
      cases b5

/-- A turning motion without attractor. -/
noncomputable def turning : Dynamics 2 where
  evaluate x := if x 0 < 2 then !₂[1, 0] else !₂[0, 1]
  attractorPosition := none
  ownSequence := none

/-- The hypotheses of `C113_blocked` are met ahead of a disc, five units away from it. -/
example : ∃ (a : Avoider 2) (root : Obstacle 2),
    createAvoider (fun _ => (turnAvoider 0).convergence) [discTree] turning (some turning.evaluate) = .ok a
    ∧ discTree.components[(discTree : ObstacleTree 2).rootIdx]? = some root ∧ turning.evaluate !₂[5, 0] ≠ 0
    ∧ ¬ allclose (unit (turning.evaluate root.referencePoint)) (unit (turning.evaluate !₂[5, 0])) := by
  have h1 : turning.evaluate !₂[5, 0] = !₂[0, 1] := by
    simp [turning]; norm_num
  have h0 : turning.evaluate disc.referencePoint = !₂[1, 0] := by
    simp [turning, disc]
  refine ⟨_, disc, rfl, rfl, ?_, ?_⟩
  · rw [h1]
    intro h
    have := congrFun (congrArg WithLp.ofLp h) 1
    simp at this
  · rw [h1, h0, unit_e1 one_pos, unit_e2 (by simp)]
    intro h
    have := h 0
    unfold isclose at this
    norm_num at this

/-- What a successful evaluation with obstacles has computed. -/
lemma evaluate_convergence {ext : Ext d k} {a : Avoider d} {x v : Vec d} (hne : a.trees ≠ [])
    (hso : ∀ h : evaluateDynamicsSequence x a.initial = .ok none, False) (h : a.evaluate ext x = .ok v) :
    ∃ s conv, evaluateDynamicsSequence x a.initial = .ok (some s) ∧ computeConvergenceSequence ext a x s = .ok conv := by
  unfold Avoider.evaluate evaluateSequence at h
  obtain ⟨so, hs, h⟩ := bind_ok.mp h
  cases so with
  | none => exact absurd hs (fun h => hso h)
  | some s =>
    simp only at h
    rw [if_neg (by simpa using hne)] at h
    obtain ⟨_, _, h⟩ := bind_ok.mp h
    obtain ⟨conv, hconv, h⟩ := bind_ok.mp h
    exact ⟨s, conv, hs, hconv⟩

/-- C113, the reference dynamics cannot be used (violated): for a component which is a child of the root, as soon as
its projected weight is above the threshold, the avoider created for a motion without attractor returns nothing unless
the reference dynamics at the component has the direction of the motion at the root of the obstacle. -/
theorem C113_reference_blocked (ext : Ext d k) (projected : Vec d → Convergence d) (trees : List (ObstacleTree d))
    (initial : Dynamics d) (ref : Vec d → Vec d) (a : Avoider d)
    (hA : initial.attractorPosition = none) (hown : initial.ownSequence = none)
    (ha : createAvoider projected trees initial (some ref) = .ok a) (x : Vec d) (hmv : initial.evaluate x ≠ 0)
    (t : ObstacleTree d) (c : ℕ) (o root : Obstacle d) (ht : t ∈ trees) (hroot : t.components[t.rootIdx]? = some root)
    (hc : t.components[c]? = some o) (hcr : c ≠ t.rootIdx) (hpar : t.parentIdx c = some t.rootIdx)
    (hrp : t.parentIdx t.rootIdx = none) (hw : 1e-2 < projectedWeightWithoutSingularity (o.gamma x))
    (hdir : ¬ allclose (unit (initial.evaluate root.referencePoint)) (unit (ref o.referencePoint))) :
    ∀ v, a.evaluate ext x ≠ .ok v := by
  classical
  intro v hv
  have ha' : a = { initial := initial, convergence := convergenceWithoutSingularity initial.evaluate ref, trees := trees } := by
    unfold createAvoider createLocalConvergence at ha
    rw [hA] at ha
    cases ha; rfl
  subst ha'
  obtain ⟨s, conv, hs, hconv⟩ := evaluate_convergence (by rintro h; change trees = [] at h; rw [h] at ht; simp at ht)
    (by
      intro hso
      rcases (C16_none_iff x initial none hown).mp hso with h | h
      · have : referenceDirection x initial none = initial.evaluate x := by
          unfold referenceDirection; rw [hA]
        rw [this] at h; exact hmv h
      · exact hmv h) hv
  unfold computeConvergenceSequence at hconv
  obtain ⟨t0, ht0, hconv⟩ := bind_ok.mp hconv
  obtain ⟨st, hst, _⟩ := bind_ok.mp hconv
  obtain ⟨i, hi⟩ := List.getElem?_of_mem ht
  obtain ⟨r0, _⟩ := fromSequence_facts ht0
  have htw : treeWeight { initial := initial, convergence := convergenceWithoutSingularity initial.evaluate ref, trees := trees }
      t = .ok 1 := by
    unfold treeWeight
    simp only [hA]; rfl
  obtain ⟨root', s2, v, b1, b2, b3, b4, b5, b6, b, t2, pred, b7, b8, b9⟩ := convFold_component r0 hst hi htw
    (by norm_num) hc hcr (w := projectedWeightWithoutSingularity (o.gamma x)) rfl hw
  rw [hroot] at b1
  cases b1
  obtain ⟨_, q2, rfl, _, hf, _⟩ := no_attractor_sequence hA hown b2
  -- the two nodes of the chain
  have hgc : t.getComponent c = .ok o := by unfold ObstacleTree.getComponent; rw [hc]
  have hgr : t.getComponent t.rootIdx = .ok root := by unfold ObstacleTree.getComponent; rw [hroot]
  rw [parentChain, hgc] at b8
  simp only [bind, Except.bind, hpar] at b8
  cases h1 : fromDirections (ref x) (ref x) with
  | none => simp only [convergenceWithoutSingularity, h1] at b8; cases b8
  | some o1 =>
    simp only [convergenceWithoutSingularity, h1] at b8
    cases h2 : orRaise (b.addNodeOrientation (.key i c (0 : ℕ)) o1 (.num (-10))) with
    | error e => rw [h2] at b8; cases b8
    | ok b' =>
      rw [h2] at b8
      have hf2 := addNode_full b7 h2
      simp only at b8
      rw [parentChain, hgr] at b8
      simp only [bind, Except.bind, hrp] at b8
      cases h3 : fromDirections (ref o.referencePoint) (ref o.referencePoint) with
      | none => simp only [h3] at b8; cases b8
      | some o2 =>
        simp only [h3] at b8
        cases h4 : orRaise (b'.addNodeOrientation (.key i c (0 + 1 : ℕ)) o2 (.key i c (0 : ℕ))) with
        | error e => rw [h4] at b8; cases b8
        | ok b'' =>
          rw [h4] at b8
          cases b8
          have hf4 := addNode_full hf2.1 h4
          have hne := (fromDirections_some h3).1
          obtain ⟨o2', g1, _, _, g4⟩ := trivial_rotation hne
          rw [h3] at g1
          cases g1
          have hsec : o2.rotate o2.base.b0 = o2.getSecondVector := by simp [Rot.rotate, Rot.getSecondVector]
          have hdp : t2.dir (.key i c (0 + 1 : ℕ)) = some (unit (ref o.referencePoint)) := by
            rw [(dir_eq hf4.1 (hf4.1.edge_snd _ _ hf4.2.2.2.1)).1, hf4.2.2.2.2.1, hsec, g4,
              unit_of_norm_one (unit_norm hne)]
          unfold Tree.addSequence at b9
          simp only [if_true, hdp] at b9
          have hq : ¬ allclose q2.base.b0 (unit (ref o.referencePoint)) := by
            have : q2.base.b0 = q2.getFirstVector := rfl
            rw [this, hf]; exact hdir
          rw [if_neg hq] at b9
          cases b9

/-- The hypotheses of `C113_reference_blocked` are met: a uniform motion along the first axis, reference dynamics along
the second one, the position `(1, 0)` on the surface of the component `disc` of an obstacle with the root `farDisc`. -/
example : ∃ (a : Avoider 2),
    createAvoider (fun _ => (turnAvoider 0).convergence) [pairTree] ⟨fun _ => !₂[1, 0], none, none⟩
      (some fun _ => !₂[0, 1]) = .ok a
    ∧ (!₂[1, 0] : Vec 2) ≠ 0
    ∧ pairTree.components[pairTree.rootIdx]? = some farDisc ∧ pairTree.components[1]? = some disc
    ∧ 1 ≠ pairTree.rootIdx ∧ pairTree.parentIdx 1 = some pairTree.rootIdx ∧ pairTree.parentIdx pairTree.rootIdx = none
    ∧ 1e-2 < projectedWeightWithoutSingularity (disc.gamma !₂[1, 0])
    ∧ ¬ allclose (unit !₂[1, 0] : Vec 2) (unit !₂[0, 1]) := by
  refine ⟨_, rfl, ?_, rfl, rfl, by simp [pairTree], by simp [pairTree], by simp [pairTree], ?_, ?_⟩
  · intro h
    have := congrFun (congrArg WithLp.ofLp h) 0
    simp at this
  · rw [(C33_without_singularity _).2.2.1]
    · norm_num
    · change ‖(!₂[1, 0] : Vec 2)‖ ≤ 1
      rw [e_norm]
  · rw [unit_e1 one_pos, unit_e2 (by simp)]
    intro h
    have := h 0
    unfold isclose at this
    norm_num at this

/-! ## Straight motions -/

/-- A motion of constant direction; the speed may vary, above the tolerance of the code. -/
def Straight (f : Vec d → Vec d) (u : Vec d) : Prop := ∀ y, 1e-8 < ‖f y‖ ∧ unit (f y) = u

lemma Straight.ne {f : Vec d → Vec d} {u : Vec d} (h : Straight f u) (y : Vec d) : f y ≠ 0 := by
  intro h0
  have := (h y).1
  rw [h0, norm_zero] at this
  norm_num at this

lemma Straight.norm {f : Vec d → Vec d} {u : Vec d} (h : Straight f u) : ‖u‖ = 1 := by
  rw [← (h 0).2]; exact unit_norm (h.ne 0)

lemma straight_rotation {f : Vec d → Vec d} {u : Vec d} (h : Straight f u) (y : Vec d) :
    ∃ o, fromDirections (f y) (f y) = some o ∧ Still u o := by
  obtain ⟨o, h1, _, h2, h3⟩ := trivial_rotation (h.ne y)
  exact ⟨o, h1, h2.trans (h y).2, h3.trans (h y).2⟩

lemma straight_sequence {dyn : Dynamics d} {u : Vec d} (hA : dyn.attractorPosition = none)
    (hown : dyn.ownSequence = none) (h : Straight dyn.evaluate u) (y : Vec d) :
    ∃ R, evaluateDynamicsSequence y dyn = .ok (some [R]) ∧ Still u R := by
  have href : referenceDirection y dyn none = dyn.evaluate y := by
    unfold referenceDirection; rw [hA]
  cases hs : evaluateDynamicsSequence y dyn with
  | error e =>
    exfalso
    obtain ⟨_, _, _, h' | h' | h'⟩ := (C16_error_iff y dyn none hown e).mp hs
    · rw [href] at h'; exact absurd (h y).1 (not_lt.mpr h')
    · exact absurd (h y).1 (not_lt.mpr h')
    · rw [href] at h'
      obtain ⟨c, hc, e⟩ := h'
      have h1 := congrArg (fun w => ⟪dyn.evaluate y, w⟫) e
      simp only [inner_smul_right, inner_neg_right, real_inner_self_eq_norm_sq] at h1
      have hn : 0 < ‖dyn.evaluate y‖ := norm_pos_iff.mpr (h.ne y)
      nlinarith [pow_pos hn 2, mul_pos hc (pow_pos hn 2)]
  | ok so =>
    cases so with
    | none =>
      rcases (C16_none_iff y dyn none hown).mp hs with h' | h'
      · rw [href] at h'; exact absurd h' (h.ne y)
      · exact absurd h' (h.ne y)
    | some s =>
      obtain ⟨_, q, rfl, _, h2, h3⟩ := no_attractor_sequence hA hown hs
      exact ⟨q, rfl, h2.trans (h y).2, h3.trans (h y).2⟩

/-- C113 (partial): for a motion of constant direction without attractor, and reference dynamics of the same direction,
the convergence direction is defined at every position, in contact with any number of components or with none, whatever the
obstacles and their components are, and it is the direction of the motion.

Missing: motions that turn, for which the claim fails (`C113_blocked`). -/
theorem C113_straight_partial (ext : Ext d k) (has : ArgsortSpec ext.argsort) (projected : Vec d → Convergence d)
    (trees : List (ObstacleTree d)) (initial : Dynamics d) (ref : Vec d → Vec d) (u : Vec d) (a : Avoider d)
    (hA : initial.attractorPosition = none) (hown : initial.ownSequence = none)
    (hu : Straight initial.evaluate u) (hr : Straight ref u)
    (ha : createAvoider projected trees initial (some ref) = .ok a) (ht : ∀ t ∈ trees, Hierarchy t) (x : Vec d) :
    ∃ s conv, evaluateDynamicsSequence x initial = .ok (some s) ∧ computeConvergenceSequence ext a x s = .ok conv
      ∧ conv.getEndVector = .ok u := by
  classical
  have ha' : a = { initial := initial, convergence := convergenceWithoutSingularity initial.evaluate ref, trees := trees } := by
    unfold createAvoider createLocalConvergence at ha
    rw [hA] at ha
    cases ha; rfl
  have hst : StillDynamics u a x := by
    subst ha'
    refine ⟨?_, ?_, ?_, ?_⟩
    · intro o
      obtain ⟨R, h1, h2⟩ := straight_rotation hu x
      exact ⟨R, by simp only [convergenceWithoutSingularity, h1], h2⟩
    · intro p q
      obtain ⟨R, h1, h2⟩ := straight_rotation hr p
      exact ⟨R, by simp only [convergenceWithoutSingularity, h1], h2⟩
    · intro p
      exact straight_sequence hA hown hu p
    · intro o
      exact ⟨_, rfl, (C33_without_singularity _).2.1⟩
  obtain ⟨R, hR, hRs⟩ := straight_sequence hA hown hu x
  have htw : ∀ t, treeWeight a t = .ok 1 := by
    intro t
    subst ha'
    unfold treeWeight
    simp only [hA]
    rfl
  obtain ⟨st, h1, h2⟩ := still_tree (ext := ext) has hu.norm hst (by subst ha'; exact ht) (fun t _ => ⟨1, htw t⟩) hRs
  obtain ⟨t0, ht0, hf⟩ := id h1
  obtain ⟨r0, m0, _⟩ := fromSequence_facts ht0
  obtain ⟨inv, -⟩ := convFold r0 hf
  obtain ⟨c1, c2, c3⟩ := convergenceWeights_total (conv_nonneg inv)
  obtain ⟨n1, n2⟩ := conv_nodes inv m0
  obtain ⟨Q, q1, _, q3⟩ := h2.reduce has NodeState.init (ns := st.nodes ++ [.num (-1)])
    (ws := convergenceWeights st.weights) (by rw [c1, List.length_append, inv.len]; rfl) n1 n2 c2
    (by linarith)
  refine ⟨[R], [Q], hR, ?_, ?_⟩
  · unfold computeConvergenceSequence
    exact bind_ok.mpr ⟨t0, ht0, bind_ok.mpr ⟨st, hf, q1⟩⟩
  · rw [endVector_of_ne [Q] (by simp), ← q3]; rfl

/-- The hypotheses of `C113_straight_partial` are met by an obstacle of two components, listed twice, so that two
components are in contact at the same position. -/
example : Straight (fun _ => (!₂[2, 0] : Vec 2)) !₂[1, 0] ∧ (∀ t ∈ [pairTree, pairTree], Hierarchy t)
    ∧ disc.gamma !₂[1, 0] ≤ 1 ∧ disc ∈ pairTree.components := by
  refine ⟨?_, ?_, ?_, by simp [pairTree]⟩
  · intro y
    have hn : ‖(!₂[2, 0] : Vec 2)‖ = 2 := by simp [EuclideanSpace.norm_eq, Fin.sum_univ_two]
    refine ⟨by simp only [hn]; norm_num, ?_⟩
    exact unit_e1 two_pos
  · intro t ht
    have ht : t = pairTree := by simpa using ht
    subst ht
    refine ⟨by simp [pairTree], ?_⟩
    intro c hc
    have : c = 0 ∨ c = 1 := by
      simp [pairTree] at hc; omega
    rcases this with rfl | rfl
    · exact ⟨0, by norm_num, .stop (by simp [pairTree]) (by simp [pairTree])⟩
    · exact ⟨1, by norm_num, .step (p := 0) (by simp [pairTree]) (by simp [pairTree])
        (.stop (by simp [pairTree]) (by simp [pairTree]))⟩
  · change ‖(!₂[1, 0] : Vec 2)‖ ≤ 1
    rw [e_norm]

end Verif
