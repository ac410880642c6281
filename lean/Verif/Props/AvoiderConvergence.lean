import Verif.Props.AvoiderContact

/-!
# C62: obstacles that contain the attractor do not bend the convergence direction
-/

open scoped RealInnerProductSpace

namespace Verif
open Spec

variable {d k : ℕ} [Fact (2 ≤ d)]
set_option linter.unusedSectionVars false

lemma opposite_of_unit {a b : Vec d} (ha : a ≠ 0) (hb : b ≠ 0) (h : Opposite (unit a) (unit b)) :
    Opposite a b := by
  obtain ⟨c, hc, h⟩ := h
  have hna : 0 < ‖a‖ := norm_pos_iff.mpr ha
  have hnb : 0 < ‖b‖ := norm_pos_iff.mpr hb
  refine ⟨c * ‖b‖ / ‖a‖, by positivity, ?_⟩
  calc b = ‖b‖ • unit b := by
        unfold unit; rw [smul_smul, mul_one_div_cancel (ne_of_gt hnb), one_smul]
    _ = (-(c * ‖b‖ / ‖a‖)) • a := by
        rw [h]; unfold unit; rw [smul_smul, smul_smul]; congr 1; ring

/-- The sequence of the initial dynamics: one rotation with an orthonormal base and admissible
first and second vectors. -/
lemma initial_sequence {x : Vec d} {dyn : Dynamics d} (hown : dyn.ownSequence = none)
    {s : RotSeq (Vec d)} (h : evaluateDynamicsSequence x dyn = .ok (some s))
    (hdist : Distinguishable [referenceDirection x dyn none, dyn.evaluate x]) :
    ∃ q, s = [q] ∧ q.base.ON ∧ GoodPair q.getFirstVector q.getSecondVector
      ∧ q.getSecondVector = unit (dyn.evaluate x) := by
  classical
  obtain ⟨h1, h2, h3⟩ := C16_rotation x dyn none hown s h
  have h3 := h3 hdist
  have hnz : ¬ (referenceDirection x dyn none = 0 ∨ dyn.evaluate x = 0) := by
    intro hc
    have := (C16_none_iff x dyn none hown).mpr hc
    rw [this] at h; cases h
  push Not at hnz
  have hc : createFromVectorArray [referenceDirection x dyn none, dyn.evaluate x] = .ok s := by
    rw [evaluateDynamicsSequence_eq x dyn none hown] at h
    split_ifs at h with h0
    · cases h
    · cases hc : createFromVectorArray [referenceDirection x dyn none, dyn.evaluate x] with
      | error e => rw [hc] at h; cases h
      | ok s' => rw [hc] at h; cases h; rfl
  obtain ⟨q, rfl⟩ := List.length_eq_one_iff.mp h1
  have hon : q.base.ON := created_allON hc q List.mem_cons_self
  have hend := endVector_of_ne [q] (by simp)
  rw [hend] at h3
  have h3' : q.getSecondVector = unit (dyn.evaluate x) := by simpa using h3
  have h2' : q.getFirstVector = unit (referenceDirection x dyn none) := by simpa using h2
  refine ⟨q, rfl, hon, ?_, h3'⟩
  rw [h2', h3']
  have hacc := (C10_accepts_iff _).mp ⟨_, hc⟩
  refine ⟨fun ho => hacc.2 0 (by simp) (opposite_of_unit hnz.1 hnz.2 ho), ?_⟩
  unfold Distinguishable at hdist
  have := (List.isChain_cons_cons.mp hdist).1
  exact this

lemma freshInit : FreshIds interId [NodeId.num (-10)] (NodeId.num (-1)) where
  inj := by intro i j h; simp only [interId] at h; injection h
  ne := by intro i h; simp [interId] at h
  new := by intro i h; simp [interId] at h
  end_new := by simp

/-- C62: if every obstacle contains the attractor of the initial dynamics (inside or on the surface
of one of its components), the convergence sequence of the avoider ends with the direction of the
initial dynamics: the obstacles do not bend the flow, they are only avoided. -/
theorem C62_attractor_inside (ext : Ext d k) (a : Avoider d) (x c : Vec d)
    (hown : a.initial.ownSequence = none) (hattr : a.initial.attractorPosition = some c)
    (hin : ∀ t ∈ a.trees, InContact c t) (has : ArgsortSpec ext.argsort)
    (hdist : Distinguishable [referenceDirection x a.initial none, a.initial.evaluate x])
    (s : RotSeq (Vec d)) (hs : evaluateDynamicsSequence x a.initial = .ok (some s)) :
    ∃ conv, computeConvergenceSequence ext a x s = .ok conv
      ∧ conv.getEndVector = .ok (unit (a.initial.evaluate x)) := by
  classical
  obtain ⟨q, rfl, hon, hgp, hsec⟩ := initial_sequence hown hs hdist
  obtain ⟨t, v, ht, hv, hmean⟩ := C26_round_trip interId (NodeId.num (-10)) (NodeId.num (-1)) freshInit
    [q] (by simp) (by simpa using hon) (by exact List.isChain_singleton _) (by simpa using hgp)
    (by simp) ext.argsort has NodeState.init
  have hv' : v = unit (a.initial.evaluate x) := by
    have := endVector_of_ne [q] (by simp)
    rw [hv] at this
    injection this with this
    rw [this]; simpa using hsec
  have hfold : ∀ (l : List (ObstacleTree d × ℕ)) (st : ConvState d), (∀ p ∈ l, InContact c p.1) →
      l.foldlM (convTree ext a x [q]) st = .ok st := by
    intro l
    induction l with
    | nil => intro st _; rfl
    | cons p l ih =>
      intro st hl
      have hstep : convTree ext a x [q] st p = .ok st := by
        obtain ⟨o, ho, hog⟩ := hl p List.mem_cons_self
        have htw : treeWeight a p.1 = .ok 0 := by
          unfold treeWeight
          rw [hattr]
          have hg : ∃ g, p.1.gamma c = .ok g := by
            unfold ObstacleTree.gamma
            cases hm : (p.1.components.map (fun o => o.gamma c)).min? with
            | none =>
              rw [List.min?_eq_none_iff, List.map_eq_nil_iff] at hm
              rw [hm] at ho; cases ho
            | some g => exact ⟨g, rfl⟩
          obtain ⟨g, hg⟩ := hg
          have hg1 := (gamma_ok hg).2 o ho
          simp only
          rw [hg]
          change Except.ok (computeTreeWeight (some g)) = _
          unfold computeTreeWeight
          simp only
          rw [if_pos (hg1.trans hog)]
        unfold convTree
        simp only
        rw [htw]
        change (if (0 : ℝ) ≤ 1e-6 then _ else _) = _
        rw [if_pos (by norm_num)]
      rw [List.foldlM_cons, hstep]
      exact ih st (fun p hp => hl p (List.mem_cons_of_mem _ hp))
  have hw : convergenceWeights [] = [1] := by
    unfold convergenceWeights getLimitedWeightsToMaxSum
    simp [addToLast]
  unfold Tree.getWeightedMean at hmean
  obtain ⟨conv, h1, h2⟩ := bind_ok.mp hmean
  refine ⟨conv, ?_, by rw [h2, hv']⟩
  unfold computeConvergenceSequence
  refine bind_ok.mpr ⟨t, ht, bind_ok.mpr ⟨_, hfold _ _ (fun p hp => hin _ (zipIdx_mem hp)), ?_⟩⟩
  simp only [hw, List.nil_append]
  exact h1

end Verif
