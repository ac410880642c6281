import Verif.Model.ConstantValue
import Verif.Props.AvoiderContact
import Verif.Props.AvoiderExamples
import Verif.Props.Avoider

/-!
# C135: constant dynamics with an own sequence
-/

open scoped RealInnerProductSpace

namespace Verif
open Spec

variable {d k : ℕ} [Fact (2 ≤ d)]
set_option linter.unusedSectionVars false

lemma constant_sequence (v x : Vec d) (dflt : Option (Dynamics d)) :
    evaluateDynamicsSequence x (constantValueWithSequence v) dflt
      = match createFromVectorArray [v, v] with
        | .error e => .error e
        | .ok s => .ok (some s) := by
  unfold evaluateDynamicsSequence constantValueWithSequence
  rfl

lemma twice_iff (v : Vec d) : (∃ s, createFromVectorArray [v, v] = .ok s) ↔ 1e-8 < ‖v‖ := by
  rw [C10_accepts_iff]
  constructor
  · intro h; exact h.1 v (by simp)
  · intro h
    refine ⟨by simpa using h, ?_⟩
    rintro i hi ⟨c, hc, he⟩
    have hi0 : i = 0 := by simp at hi; omega
    subst hi0
    simp only [List.getElem_cons_zero, List.getElem_cons_succ] at he
    have h1 : (1 + c) • v = 0 := by
      rw [add_smul, one_smul]
      nth_rewrite 1 [he]
      rw [← add_smul, neg_add_cancel, zero_smul]
    rcases smul_eq_zero.mp h1 with h2 | h2
    · linarith
    · rw [h2, norm_zero] at h; norm_num at h

/-- C135: the constant dynamics has a sequence exactly if the velocity is longer than `1e-8`; otherwise, also for the
velocity zero, a `ValueError` is raised. -/
theorem C135_accepted_iff (v x : Vec d) (dflt : Option (Dynamics d)) :
    ((∃ s, evaluateDynamicsSequence x (constantValueWithSequence v) dflt = .ok (some s)) ↔ 1e-8 < ‖v‖)
      ∧ (‖v‖ ≤ 1e-8 → evaluateDynamicsSequence x (constantValueWithSequence v) dflt = .error .valueError) := by
  have hacc := twice_iff v
  rw [constant_sequence]
  cases h : createFromVectorArray [v, v] with
  | error e =>
    rw [h] at hacc
    have he := C10_rejects _ _ h
    subst he
    refine ⟨⟨?_, ?_⟩, fun _ => rfl⟩
    · rintro ⟨s, hs⟩; cases hs
    · intro hv
      obtain ⟨s, hs⟩ := hacc.mpr hv
      cases hs
  | ok s =>
    have hv := hacc.mp ⟨s, h⟩
    exact ⟨⟨fun _ => hv, fun _ => ⟨s, rfl⟩⟩, fun hn => absurd hv (not_lt.mpr hn)⟩

/-- C135: the sequence consists of one rotation by the angle zero, which starts and ends at the direction of the
velocity. -/
theorem C135_sequence (v x : Vec d) (dflt : Option (Dynamics d)) (s : RotSeq (Vec d))
    (h : evaluateDynamicsSequence x (constantValueWithSequence v) dflt = .ok (some s)) :
    s.map Rot.getFirstVector = [unit v] ∧ s.map (fun r => r.angle) = [0] ∧ s.getEndVector = .ok (unit v) := by
  classical
  rw [constant_sequence] at h
  cases hc : createFromVectorArray [v, v] with
  | error e => rw [hc] at h; cases h
  | ok s' =>
    rw [hc] at h
    cases h
    have hd : Distinguishable [v, v] := by simp [Distinguishable]
    have hend := C11_end_vector _ _ hc hd 0 rfl
    obtain ⟨hl, hr⟩ := C10_rotations _ _ hc
    have hl : s.length = 1 := by simpa using hl
    have hs := hc
    rw [createFromVectorArray_eq] at hs
    split_ifs at hs with h1 h2
    simp only [List.map_cons, List.map_nil, List.tail_cons, List.zip_cons_cons, List.zip_nil_right, List.mapM_cons,
      List.mapM_nil] at hs
    have hn : neighbourRotation (unit v) (unit v) = some ⟨⟨unit v, parallelPerp (unit v)⟩, 0⟩ := by
      unfold neighbourRotation
      rw [if_pos (allclose_refl _)]
    rw [hn] at hs
    simp at hs
    subst hs
    exact ⟨rfl, rfl, hend⟩

/-- C135: for a velocity different from zero the sequence is that of the constant dynamics without an own sequence and
without attractor (`evaluate_dynamics_sequence` of sequenced_dynamics.py). -/
theorem C135_same (v x : Vec d) (hv : v ≠ 0) :
    evaluateDynamicsSequence x (constantValueWithSequence v)
      = evaluateDynamicsSequence x ({ evaluate := fun _ => v } : Dynamics d) := by
  rw [constant_sequence, evaluateDynamicsSequence_eq _ _ _ rfl]
  rw [if_neg (by simpa [referenceDirection] using hv)]
  rfl

/-- Avoiders which differ in the initial dynamics only. -/
lemma avoider_congr {ext : Ext d k} {a : Avoider d} {d1 d2 : Dynamics d} (he : d1.evaluate = d2.evaluate)
    (ha : d1.attractorPosition = d2.attractorPosition)
    (hs : ∀ x, evaluateDynamicsSequence x d1 = evaluateDynamicsSequence x d2) (x : Vec d) :
    ({ a with initial := d1 } : Avoider d).evaluate ext x = ({ a with initial := d2 } : Avoider d).evaluate ext x := by
  have hchain : ∀ (ot : ObstacleTree d) (i c : ℕ) (n l q : ℕ) (id : NodeId) (y : Vec d) (t : Tree NodeId d),
      parentChain ({ a with initial := d1 } : Avoider d) ot i c n l q id y t
        = parentChain ({ a with initial := d2 } : Avoider d) ot i c n l q id y t := by
    intro ot i c n
    induction n with
    | zero => intros; rfl
    | succ n ih =>
      intro l q id y t
      unfold parentChain
      simp only [ha, ih]
  have hcomp : ∀ (i : ℕ) (ot : ObstacleTree d) (w : ℝ) (c : Option (RotSeq (Vec d))),
      convComponent ({ a with initial := d1 } : Avoider d) x i ot w c
        = convComponent ({ a with initial := d2 } : Avoider d) x i ot w c := by
    intro i ot w c
    funext st p
    unfold convComponent
    simp only [hchain]
  have htw : ∀ ot, treeWeight ({ a with initial := d1 } : Avoider d) ot
      = treeWeight ({ a with initial := d2 } : Avoider d) ot := by
    intro ot
    unfold treeWeight
    simp only [ha]
  have htree : ∀ s, convTree ext ({ a with initial := d1 } : Avoider d) x s
      = convTree ext ({ a with initial := d2 } : Avoider d) x s := by
    intro s
    funext st p
    have hd : ∀ y, evaluateDynamicsSequence y (a.default.getD d1) = evaluateDynamicsSequence y (a.default.getD d2) := by
      intro y
      cases a.default with
      | none => exact hs y
      | some dd => rfl
    unfold convTree
    simp only [hcomp, htw, hd]
  have hconv : ∀ s, computeConvergenceSequence ext ({ a with initial := d1 } : Avoider d) x s
      = computeConvergenceSequence ext ({ a with initial := d2 } : Avoider d) x s := by
    intro s
    unfold computeConvergenceSequence
    simp only [htree]
  have hmag : ({ a with initial := d1 } : Avoider d).magnitude x = ({ a with initial := d2 } : Avoider d).magnitude x := by
    unfold Avoider.magnitude
    simp only [he]
  unfold Avoider.evaluate evaluateSequence
  simp only [hs, hconv, hmag]
  rfl

/-- C135: whatever the obstacles, the convergence dynamics and the external functions: for a velocity different from
zero an avoider cannot distinguish the constant dynamics with a sequence from the one without. -/
theorem C135_avoider (ext : Ext d k) (a : Avoider d) (v x : Vec d) (hv : v ≠ 0) :
    ({ a with initial := constantValueWithSequence v } : Avoider d).evaluate ext x
      = ({ a with initial := { evaluate := fun _ => v } } : Avoider d).evaluate ext x :=
  avoider_congr (d1 := constantValueWithSequence v) (d2 := { evaluate := fun _ => v }) rfl rfl (fun y => C135_same v y hv) x

/-- C135, negative result: at rest the two differ.  The constant dynamics with a sequence makes every evaluation of
the avoider fail with a `ValueError`, also without obstacles; the one without returns the velocity zero. -/
theorem C135_rest (ext : Ext d k) (a : Avoider d) (x : Vec d) :
    ({ a with initial := constantValueWithSequence 0 } : Avoider d).evaluate ext x = .error .valueError
      ∧ ({ a with initial := { evaluate := fun _ => 0 } } : Avoider d).evaluate ext x = .ok 0 := by
  constructor
  · unfold Avoider.evaluate evaluateSequence
    rw [(C135_accepted_iff (0 : Vec d) x none).2 (by rw [norm_zero]; norm_num)]
    rfl
  · exact C40_rest ext _ x rfl (Or.inl rfl)

/-- C135: without obstacles the avoider returns the constant velocity itself, at every position. -/
theorem C135_free (ext : Ext d k) (a : Avoider d) (v x : Vec d) (hv : 1e-8 < ‖v‖) (ht : a.trees = [])
    (hm : a.evaluateMagnitude = none) :
    ({ a with initial := constantValueWithSequence v } : Avoider d).evaluate ext x = .ok v := by
  obtain ⟨s, hs⟩ := (C135_accepted_iff v x none).1.mpr hv
  have hend := (C135_sequence v x none s hs).2.2
  have h0 : ‖v‖ ≠ 0 := by
    have : (0 : ℝ) < 1e-8 := by norm_num
    linarith
  unfold Avoider.evaluate evaluateSequence Avoider.magnitude
  rw [hs]
  change (if a.trees = [] then _ else _) = _
  rw [if_pos ht, hend]
  simp only [hm]
  change Except.ok (‖v‖ • (1 / ‖v‖) • v) = _
  rw [smul_smul, mul_one_div_cancel h0, one_smul]

/-- The hypotheses are met: the velocity of the tests of /repo (tests/test_arch_obstacle.py:122), and the avoider past a
disc of `AvoiderExamples`. -/
example : ∃ (v : Vec 2) (a : Avoider 2), v ≠ 0 ∧ 1e-8 < ‖v‖ ∧ a.trees ≠ [] := by
  refine ⟨!₂[-1, 0], discAvoider !₂[0, 1] 1, ?_, ?_, ?_⟩
  · intro h
    have := congrArg (fun w : Vec 2 => w 0) h
    simp at this
  · rw [EuclideanSpace.norm_eq]
    simp [Fin.sum_univ_two]; norm_num
  · simp [discAvoider]

end Verif
