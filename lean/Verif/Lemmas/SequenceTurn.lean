import Verif.Spec.TurnConvergence
import Verif.Lemmas.TreeTurnBuild
import Verif.Lemmas.ConvergenceReduction
import Verif.Lemmas.SceneTurn

/-!
# Sequences of rotations in turned coordinates
-/

open scoped RealInnerProductSpace

namespace Verif
open Spec

variable {d k : ℕ} [h2 : Fact (2 ≤ d)] {R : Vec d ≃ₗᵢ[ℝ] Vec d}
set_option linter.unusedSectionVars false

namespace TreeTurn

/-- The sequence in turned coordinates. -/
abbrev SeqTurned (R : Vec d ≃ₗᵢ[ℝ] Vec d) (s s' : RotSeq (Vec d)) : Prop := List.Forall₂ (RotTurned R) s s'

lemma second_turned {p p' : Rot (Vec d)} (h : RotTurned R p p') : p'.getSecondVector = R p.getSecondVector := by
  unfold Rot.getSecondVector
  rw [rotateDirection_eq, rotateDirection_eq, h.b0, h.angle]
  exact planeRot_turned h _ id _

lemma rotate_first {p : Rot (Vec d)} : p.rotate p.base.b0 = p.getSecondVector := by
  simp [Rot.rotate, Rot.getSecondVector]

lemma map_seqTurned (s : RotSeq (Vec d)) : SeqTurned R s (s.map (turnRot R)) := by
  induction s with
  | nil => exact .nil
  | cons q s ih => exact .cons (turnRot_turned q) ih

lemma endVector_turned {s s' : RotSeq (Vec d)} (h : SeqTurned R s s') :
    s'.getEndVector = s.getEndVector.map R := by
  unfold RotSeq.getEndVector
  induction h with
  | nil => rfl
  | @cons p p' l l' hp hl ih =>
    cases hl with
    | nil =>
      simp only [List.getLast?_singleton, Except.map, Except.ok.injEq]
      have e1 : p'.rotate p'.base.b0 = p'.getSecondVector := rotate_first
      have e2 : p.rotate p.base.b0 = p.getSecondVector := rotate_first
      first
        | exact second_turned hp
        | (rw [e1, e2]; exact second_turned hp)
    | @cons q q' m m' hq hm =>
      simpa only [List.getLast?_cons_cons] using ih

lemma addSequenceLoop_turn (n : NodeId) {s s' : RotSeq (Vec d)} (h : SeqTurned R s s') :
    ∀ (ii : ℕ) (p : NodeId) (t : Tree NodeId d), Tree.addSequenceLoop interId n s' ii p (turnTree R t)
      = turnOutcome R (Tree.addSequenceLoop interId n s ii p t) := by
  induction h with
  | nil => intros; rfl
  | @cons q q' l l' hq hl ih =>
    intro ii p t
    unfold Tree.addSequenceLoop
    rw [hq.b0, addNode_turn]
    cases hadd : t.addNode (interId n ii) q.base.b0 (some p) with
    | mk t1 e1 =>
      cases e1 with
      | error e => rfl
      | ok _ => exact ih _ _ _

lemma close_turn {u v : Vec d} (h : ‖u - v‖ ≤ 1e-8) : allclose u v := by
  intro i
  unfold isclose
  have h1 : |u i - v i| ≤ ‖u - v‖ := by
    have := PiLp.norm_apply_le (u - v) i
    simpa using this
  have : (0 : ℝ) ≤ 1e-5 * |v i| := by positivity
  linarith

/-- `add_sequence` with a turned sequence. -/
lemma addSequence_turn (n p : NodeId) {s s' : RotSeq (Vec d)} (h : SeqTurned R s s') (t : Tree NodeId d)
    (hc : ∀ q ∈ s.head?, ∀ v, t.dir p = some v → ‖q.base.b0 - v‖ ≤ 1e-8) :
    (turnTree R t).addSequence interId n s' p = turnOutcome R (t.addSequence interId n s p) := by
  classical
  have he := endVector_turned h
  cases h with
  | nil => rfl
  | @cons q q' l l' hq hl =>
    unfold Tree.addSequence
    simp only [if_true, List.drop_one, List.tail_cons]
    rw [show (turnTree R t).dir p = (t.dir p).map R from rfl]
    cases hd : t.dir p with
    | none => rfl
    | some v =>
      have hv := hc q (by simp) v hd
      have hv' : ‖q'.base.b0 - R v‖ ≤ 1e-8 := by rw [hq.b0, ← map_sub, R.norm_map]; exact hv
      simp only [Option.map_some]
      rw [if_pos (close_turn hv), if_pos (close_turn hv'), addSequenceLoop_turn n hl, he]
      cases Tree.addSequenceLoop interId n l 1 p t with
      | mk t1 e1 =>
        cases e1 with
        | error e => rfl
        | ok p1 =>
          simp only [turnOutcome]
          cases RotSeq.getEndVector (q :: l) with
          | error e => rfl
          | ok w => exact addNode_turn _ _ _ _ _ _

/-- `from_sequence` with a turned sequence. -/
lemma fromSequence_turn (r n : NodeId) {s s' : RotSeq (Vec d)} (h : SeqTurned R s s')
    (h1 : ∀ q ∈ s.head?, ‖q.base.b0‖ = 1) :
    Tree.fromSequence interId r n s' = (Tree.fromSequence interId r n s).map (turnTree R) := by
  have h0 := h
  cases h with
  | nil => rfl
  | @cons q q' l l' hq hl =>
    unfold Tree.fromSequence
    simp only
    rw [hq.b0, ← empty_turn (R := R), setRoot_turn]
    obtain ⟨t0, a1, a2, a3, a4, a5⟩ := from_sequence_root r q.base.b0 (h1 q (by simp))
    rw [show (turnTree R (Tree.empty : Tree NodeId d)) = Tree.empty from rfl] at *
    rw [a1]
    simp only [Except.map]
    rw [addSequence_turn n r h0 t0 (by
      intro q1 hq1 v hv
      rw [a5] at hv
      have e1 : q = q1 := by simpa using hq1
      subst e1
      cases hv
      rw [sub_self, norm_zero]
      norm_num)]
    cases t0.addSequence interId n (q :: l) r with
    | mk t1 e1 => cases e1 <;> rfl

lemma addNodeOrientation_turn (t : Tree NodeId d) (n p : NodeId) {o o' : Rot (Vec d)} (h : RotTurned R o o') :
    (turnTree R t).addNodeOrientation n o' p = turnOutcome R (t.addNodeOrientation n o p) := by
  unfold Tree.addNodeOrientation
  rw [rotate_first, rotate_first, second_turned h]
  exact addNode_turn _ _ _ _ _ _

end TreeTurn
end Verif
