import Verif.Props.Convergence

/-!
# Complete runs of the convergence: the theorems C112 are not vacuous

Unit discs at the origin, the position `(1, 0)` on their surface, the attractor `(4, 0)`, and a motion which turns
around between the position and the centre of the discs.
-/

open scoped RealInnerProductSpace

namespace Verif
open Spec

section General
variable {d : ℕ} [Fact (2 ≤ d)]
set_option linter.unusedSectionVars false

lemma addSequence_one (t : Tree NodeId d) (n p : NodeId) (R : Rot (Vec d)) (h : t.dir p = some R.base.b0) :
    t.addSequence interId n [R] p = t.addNode n R.getSecondVector (some p) := by
  classical
  unfold Tree.addSequence
  simp only [if_true, h]
  rw [if_pos (allclose_refl _)]
  simp [Tree.addSequenceLoop, endVector_of_ne [R] (by simp)]

/-- A reduction with full weight where the rotation to the obstacle is trivial: one rotation from the first direction
of the initial sequence to the last direction of the second one. -/
lemma reduction_single {q1 q2 o : Rot (Vec d)} (h1 : Proper [q1]) (h2 : Proper [q2])
    (ho : OrthonormalPair o.base.b0 o.base.b1) (hg : o.getSecondVector = q1.getFirstVector)
    (hs : q2.getFirstVector = o.getSecondVector) (argsort : List ℤ → List ℕ) (has : ArgsortSpec argsort) :
    ∃ R, vectorRotationReduction argsort [q1] (some o) (some [q2]) 1 = .ok [R]
      ∧ R.base.b0 = q1.getFirstVector ∧ R.getSecondVector = q2.getSecondVector := by
  classical
  have hq1 : ‖q1.base.b0‖ = 1 := (h1.on q1 (by simp)).norm_fst
  obtain ⟨t0, a1, a2, a3, a4, a5⟩ := from_sequence_root (NodeId.num 0) q1.base.b0 hq1
  have hu1 : ‖q1.getSecondVector‖ = 1 := second_unit (h1.on q1 (by simp))
  have hu2 : ‖q2.getSecondVector‖ = 1 := second_unit (h2.on q2 (by simp))
  have hu3 : ‖o.getSecondVector‖ = 1 := second_unit ho
  have hd0 : dirOf t0 (.num 0) = q1.base.b0 := by simp [dirOf, a5]
  have hg0 : GoodDirections t0 := by
    intro a c hac; simp [IsParent, a4] at hac
  obtain ⟨t1, b1, b2, b3, b4, b5, b6, b7⟩ := addNode_step t0 (.num 0) a2 (.num 1) (.num 0) q1.getSecondVector hu1
    (by rw [a3]; simp) (by rw [a3]; simp) 0 a2.root_level (by norm_num)
  have hg1 := b7 hg0 (by rw [hd0]; exact h1.good q1 (by simp))
  have f1 := addNode_full a2 (show orRaise (t0.addNode (.num 1) q1.getSecondVector (some (.num 0))) = .ok t1 by
    rw [b1]; rfl)
  have hm10 : NodeId.num 0 ∈ t1.nodes := by rw [b3, a3]; simp
  have hd1 : dirOf t1 (.num 0) = q1.base.b0 := by rw [f1.2.1.dirs _ (by rw [a3]; simp), hd0]
  obtain ⟨t2, c1, c2, c3, c4, c5, c6, c7⟩ := addNode_step t1 (.num 0) b2 (.num (-1)) (.num 0) o.getSecondVector hu3
    (by rw [b3, a3]; simp) hm10 0 b2.root_level (by norm_num)
  have hg2 := c7 hg1 (by
    rw [hd1, hg]
    change GoodPair q1.base.b0 q1.base.b0
    refine ⟨?_, Or.inl rfl⟩
    rintro ⟨c, hc, h⟩
    have h2 : (1 + c) • q1.base.b0 = 0 := by rw [add_smul, one_smul]; nth_rw 1 [h]; rw [neg_smul]; simp
    rw [smul_eq_zero] at h2
    rcases h2 with h2 | h2
    · linarith
    · rw [h2] at hq1; simp at hq1)
  have f2 := addNode_full b2 (show orRaise (t1.addNode (.num (-1)) o.getSecondVector (some (.num 0))) = .ok t2 by
    rw [c1]; rfl)
  have hm2 : NodeId.num (-1) ∈ t2.nodes := by rw [c3]; simp
  have hd2 : dirOf t2 (.num (-1)) = q2.base.b0 := by
    unfold dirOf; rw [c5]; change o.getSecondVector = _; rw [← hs]; rfl
  obtain ⟨t3, e1, e2, e3, e4, e5, e6, e7⟩ := addNode_step t2 (.num 0) c2 (.num 2) (.num (-1)) q2.getSecondVector hu2
    (by rw [c3, b3, a3]; simp) hm2 1 (by rw [c4]; norm_num) (by norm_num)
  have hg3 := e7 hg2 (by rw [hd2]; exact h2.good q2 (by simp))
  have f3 := addNode_full c2 (show orRaise (t2.addNode (.num 2) q2.getSecondVector (some (.num (-1)))) = .ok t3 by
    rw [e1]; rfl)
  have hedge : ∀ p c, IsParent t3 p c → (p = .num 0 ∧ c = .num 1) ∨ (p = .num 0 ∧ c = .num (-1))
      ∨ (p = .num (-1) ∧ c = .num 2) := by
    intro p c h
    rcases f3.2.2.2.2.2 p c h with h | h
    · rcases f2.2.2.2.2.2 p c h with h | h
      · rcases f1.2.2.2.2.2 p c h with h | h
        · simp [IsParent, a4] at h
        · exact Or.inl h
      · exact Or.inr (Or.inl h)
    · exact Or.inr (Or.inr h)
  have hrun : vectorRotationReduction argsort [q1] (some o) (some [q2]) 1
      = t3.reduceWeightedToSequence argsort NodeState.init [.num 1, .num 2] [1 - 1, 1] := by
    unfold vectorRotationReduction
    rw [if_neg (by norm_num)]
    have h0 : Tree.fromSequence interId (.num 0) (.num 1) [q1] = .ok t1 := by
      unfold Tree.fromSequence
      simp only [a1]
      rw [addSequence_one t0 _ _ q1 a5, b1]
    have hsec : o.rotate o.base.b0 = o.getSecondVector := by simp [Rot.rotate, Rot.getSecondVector]
    simp only [h0, bind, Except.bind]
    unfold Tree.addNodeOrientation
    rw [hsec, c1]
    simp only [orRaise_mk]
    rw [addSequence_one t2 _ _ q2 (by rw [c5, ← hs]; rfl), e1]
    rfl
  have hm3 : NodeId.num 2 ∈ t3.nodes := by rw [e3]; simp
  have hm31 : NodeId.num 1 ∈ t3.nodes := by rw [e3, c3, b3]; simp
  obtain ⟨seq, R, g1, g2, g3, g4, g5⟩ := one_hot_core e2 hg3 has NodeState.init (.num 2) hm3
  have hO := orientOf_isOrient e2 (defined_of_good e2 hg3)
  have hpar : IsParent t3 (.num (-1)) (.num 2) := f3.2.2.2.1
  have hpar0 : IsParent t3 (.num 0) (.num (-1)) := f3.2.1.edges _ _ f2.2.2.2.1
  have hdm : dirOf t3 (.num (-1)) = q2.base.b0 := by rw [f3.2.1.dirs _ hm2, hd2]
  have hd00 : dirOf t3 (.num 0) = q1.base.b0 := by
    rw [f3.2.1.dirs _ (by rw [c3]; exact List.mem_append_left _ hm10), f2.2.1.dirs _ hm10, hd1]
  have heq : q2.base.b0 = q1.base.b0 := by
    have := hs.trans hg
    exact this
  have hleaf : ∀ m, ¬ Descendant t3 (.num 2) m := by
    intro m hm
    obtain ⟨c, hc, _⟩ := Relation.TransGen.head'_iff.mp hm
    rcases hedge _ _ hc with h | h | h <;> simp at h
  have hseq : seq = [] := by
    refine g5 ?_
    intro m hm
    rcases e2.desc_parent hm hpar with rfl | hm
    · have h := hO.child _ _ hpar0
      rw [hd00, hdm, heq] at h
      rw [fromDirections_self hq1] at h
      rw [← Option.some.inj h]
    · rcases e2.desc_parent hm hpar0 with rfl | hm
      · rw [hO.root]
      · exact absurd hm (by
          intro hm
          obtain ⟨c, _, hc⟩ := Relation.TransGen.tail'_iff.mp hm
          exact e2.root_no_parent _ hc)
  refine ⟨R, ?_, ?_, ?_⟩
  · rw [hrun, one_hot_reduce argsort t3 NodeState.init [.num 1, .num 2] [1 - 1, 1] rfl (by simp)
      (by
        intro n hn
        simp only [List.mem_cons, List.not_mem_nil, or_false] at hn
        rcases hn with rfl | rfl
        · exact hm31
        · exact hm3) (.num 2) (by simp) (by
        intro p hp hp2
        simp only [List.zip_cons_cons, List.zip_nil_right, List.mem_cons, List.not_mem_nil, or_false] at hp
        rcases hp with rfl | rfl
        · simp
        · exact absurd rfl hp2), g1, if_pos (Or.inl hleaf), hseq]
    rfl
  · rw [g3]
    have h := hO.child _ _ hpar
    have h5 := (C05_from_directions_valid _ _ _ h).2.1
    rw [hdm, heq, unit_of_norm_one hq1] at h5
    exact h5
  · unfold dirOf at g2
    rw [g2, e5]; rfl

end General

/-! ## The run -/

/-- `n` unit discs at the origin; the motion `(0, 2 x - 1)`, the attractor `(4, 0)`, and the rotation around the
attractor (`ProjectedRotationDynamics`, with the position itself as projected position). -/
noncomputable def turnAvoider (n : ℕ) : Avoider 2 where
  initial := { evaluate := fun p => !₂[0, 2 * p 0 - 1], attractorPosition := some !₂[4, 0] }
  convergence :=
    { projectedWeight := fun p o => .ok (projectedWeight (o.gamma p) (o.gamma p))
      positionToTransform := Projected.rotationPositionToTransform !₂[4, 0]
      startToEnd := fun s e c =>
        match c with
        | none => .error .typeError
        | some c => Projected.rotationStartToEnd s e c }
  trees := List.replicate n discTree

lemma unit_e1 {r : ℝ} (hr : 0 < r) : unit (!₂[r, 0] : Vec 2) = !₂[1, 0] := by
  unfold unit
  have : ‖(!₂[r, 0] : Vec 2)‖ = r := by
    simp [EuclideanSpace.norm_eq, Fin.sum_univ_two, Real.sqrt_sq hr.le]
  rw [this]
  ext i; fin_cases i <;> simp [hr.ne']

lemma unit_e2 {r : ℝ} (hr : |r| = 1) : unit (!₂[0, r] : Vec 2) = !₂[0, r] := by
  apply unit_of_norm_one
  simp [EuclideanSpace.norm_eq, Fin.sum_univ_two, Real.sqrt_sq_eq_abs, hr]

lemma turn_ref : referenceDirection !₂[1, 0] (turnAvoider 0).initial none = (!₂[3, 0] : Vec 2) := by
  unfold referenceDirection
  simp only [turnAvoider]
  ext i; fin_cases i <;> norm_num

lemma turn_ref0 : referenceDirection 0 (turnAvoider 0).initial none = (!₂[4, 0] : Vec 2) := by
  unfold referenceDirection
  simp only [turnAvoider]
  ext i; fin_cases i <;> norm_num

lemma turn_eval : (turnAvoider 0).initial.evaluate !₂[1, 0] = (!₂[0, 1] : Vec 2) := by
  simp only [turnAvoider]
  ext i; fin_cases i <;> norm_num

lemma turn_eval0 : (turnAvoider 0).initial.evaluate 0 = (!₂[0, -1] : Vec 2) := by
  simp only [turnAvoider]
  ext i; fin_cases i <;> norm_num

/-- Perpendicular directions are neither opposite nor close. -/
lemma good_perp {r y : ℝ} (hr : 0 < r) (hy : |y| = 1) :
    ¬ Opposite (!₂[r, 0] : Vec 2) !₂[0, y] ∧ Distinguishable [(!₂[r, 0] : Vec 2), !₂[0, y]] := by
  constructor
  · rintro ⟨c, hc, h⟩
    have := congrFun (congrArg WithLp.ofLp h) 1
    simp at this
    rw [this] at hy; simp at hy
  · refine List.isChain_cons_cons.mpr ⟨Or.inr ?_, List.isChain_singleton _⟩
    change ¬ allclose (unit _) (unit _)
    rw [unit_e1 hr, unit_e2 hy]
    intro h
    have := h 0
    simp [isclose] at this
    norm_num at this

lemma turn_sequence {p : Vec 2} {r y : ℝ} (hr : 1 ≤ r) (hy : |y| = 1)
    (h1 : referenceDirection p (turnAvoider 0).initial none = !₂[r, 0])
    (h2 : (turnAvoider 0).initial.evaluate p = !₂[0, y]) :
    ∃ q, evaluateDynamicsSequence p (turnAvoider 0).initial = .ok (some [q]) ∧ Proper [q]
      ∧ q.getFirstVector = !₂[1, 0] ∧ q.getSecondVector = !₂[0, y] := by
  have hr0 : 0 < r := by linarith
  have hn1 : ‖(!₂[r, 0] : Vec 2)‖ = r := by
    simp [EuclideanSpace.norm_eq, Fin.sum_univ_two, Real.sqrt_sq hr0.le]
  have hn2 : ‖(!₂[0, y] : Vec 2)‖ = 1 := by
    simp [EuclideanSpace.norm_eq, Fin.sum_univ_two, Real.sqrt_sq_eq_abs, hy]
  obtain ⟨hopp, hdist⟩ := good_perp hr0 hy
  have hs : ∃ s, evaluateDynamicsSequence p (turnAvoider 0).initial = .ok (some s) := by
    cases hs : evaluateDynamicsSequence p (turnAvoider 0).initial with
    | error er =>
      rcases ((C16_error_iff p (turnAvoider 0).initial none rfl er).mp hs).2.2.2 with h | h | h
      · rw [h1, hn1] at h; norm_num at h; linarith
      · rw [h2, hn2] at h; norm_num at h
      · rw [h1, h2] at h; exact absurd h hopp
    | ok s =>
      cases s with
      | none =>
        rcases (C16_none_iff p (turnAvoider 0).initial none rfl).mp hs with h | h
        · rw [h1] at h; rw [h] at hn1; simp at hn1; linarith
        · rw [h2] at h; rw [h] at hn2; simp at hn2
      | some s => exact ⟨s, rfl⟩
  obtain ⟨s, hs⟩ := hs
  obtain ⟨q, rfl, hon, hgp, hsec⟩ := initial_sequence rfl hs (by rw [h1, h2]; exact hdist)
  have hfirst := (C16_rotation p (turnAvoider 0).initial none rfl [q] hs).2.1
  rw [h1] at hfirst
  refine ⟨q, hs, proper_single hon hgp, ?_, ?_⟩
  · have h : q.getFirstVector = unit !₂[r, 0] := by simpa using hfirst
    rw [h, unit_e1 hr0]
  · rw [hsec, h2, unit_e2 hy]

/-- The tree of the convergence after `i` discs: every node hangs at the root. -/
structure Fan (i : ℕ) (st : ConvState 2) : Prop where
  rooted : RootedTree st.tree (.num (-10))
  root : dirOf st.tree (.num (-10)) = !₂[1, 0]
  init : IsParent st.tree (.num (-10)) (.num (-1)) ∧ dirOf st.tree (.num (-1)) = !₂[0, 1]
  child : ∀ p c, IsParent st.tree p c → p = .num (-10) ∧ (dirOf st.tree c = !₂[0, 1] ∨ dirOf st.tree c = !₂[0, -1])
  ids : ∀ m ∈ st.tree.nodes, m = .num (-10) ∨ m = .num (-1) ∨ ∃ j < i, m = .pair (.num (j : ℕ)) 0
  nodes : st.nodes = (List.range i).map (fun (j : ℕ) => .pair (.num (j : ℕ)) 0)
  weights : st.weights = List.replicate i 1
  obstacles : ∀ j < i, IsParent st.tree (.num (-10)) (.pair (.num (j : ℕ)) 0)
    ∧ dirOf st.tree (.pair (.num (j : ℕ)) 0) = !₂[0, -1]

lemma Fan.good {i : ℕ} {st : ConvState 2} (h : Fan i st) : GoodDirections st.tree := by
  intro p c hpc
  obtain ⟨rfl, hc⟩ := h.child p c hpc
  rw [h.root]
  have key : ∀ y : ℝ, |y| = 1 → ¬ Opposite (!₂[1, 0] : Vec 2) !₂[0, y]
      ∧ ((!₂[1, 0] : Vec 2) = !₂[0, y] ∨ ¬ allclose (!₂[1, 0] : Vec 2) !₂[0, y]) := by
    intro y hy
    obtain ⟨h1, h2⟩ := good_perp one_pos hy
    refine ⟨h1, ?_⟩
    have := (List.isChain_cons_cons.mp h2).1
    change unit _ = unit _ ∨ ¬ allclose (unit _) (unit _) at this
    rwa [unit_e1 one_pos, unit_e2 hy] at this
  rcases hc with hc | hc <;> rw [hc]
  · exact key 1 (by simp)
  · exact key (-1) (by simp)

lemma disc_weight : projectedWeight (disc.gamma !₂[1, 0]) (disc.gamma !₂[1, 0]) = 1 := by
  unfold projectedWeight
  rw [if_pos]
  left
  change ‖(!₂[1, 0] : Vec 2)‖ ≤ 1
  rw [e_norm]

lemma disc_far : ∀ o ∈ discTree.components, 2 ≤ o.gamma (!₂[4, 0] : Vec 2) := by
  intro o ho
  have : o = disc := by simpa [discTree] using ho
  subst this
  change 2 ≤ ‖(!₂[4, 0] : Vec 2)‖
  simp [EuclideanSpace.norm_eq, Fin.sum_univ_two]
  norm_num

lemma turn_rotation : ∃ o : Rot (Vec 2), Projected.rotationPositionToTransform !₂[4, 0] !₂[1, 0] disc = .ok (some o)
    ∧ OrthonormalPair o.base.b0 o.base.b1 ∧ o.getFirstVector = !₂[1, 0] ∧ o.getSecondVector = !₂[1, 0] := by
  have e1 : (!₂[4, 0] : Vec 2) - !₂[1, 0] = !₂[3, 0] := by ext i; fin_cases i <;> norm_num
  have e2 : (!₂[4, 0] : Vec 2) - 0 = !₂[4, 0] := sub_zero _
  have hout := C69_outcomes (by norm_num) (!₂[1, 0] : Vec 2) 0 !₂[4, 0]
  rw [e1, e2] at hout
  have hne1 : (!₂[1, 0] : Vec 2) ≠ !₂[4, 0] := by
    intro h; have := congrFun (congrArg WithLp.ofLp h) 0; norm_num at this
  have hne2 : (0 : Vec 2) ≠ !₂[4, 0] := by
    intro h; have := congrFun (congrArg WithLp.ofLp h) 0; norm_num at this
  have hopp : ¬ Opposite (!₂[3, 0] : Vec 2) !₂[4, 0] := by
    rintro ⟨c, hc, h⟩
    have := congrFun (congrArg WithLp.ofLp h) 0
    simp at this
    linarith
  obtain ⟨o, ho⟩ : ∃ o, Projected.rotationStartToEnd (!₂[1, 0] : Vec 2) 0 !₂[4, 0] = .ok (some o) := by
    cases h : Projected.rotationStartToEnd (!₂[1, 0] : Vec 2) 0 !₂[4, 0] with
    | error e => exact absurd ((hout.2 e).mp h).2.2 hne2
    | ok v =>
      cases v with
      | none =>
        rcases hout.1.mp h with h | h
        · exact absurd h hne1
        · exact absurd h.2 hopp
      | some o => exact ⟨o, rfl⟩
  obtain ⟨c1, c2, c3, c4⟩ := C69_rotation (by norm_num) _ _ _ o ho
  rw [e1, unit_e1 (by norm_num)] at c2 c4
  rw [e2, unit_e1 (by norm_num)] at c4
  refine ⟨o, ho, c1, c2, ?_⟩
  rw [← c4 (by
    refine List.isChain_cons_cons.mpr ⟨Or.inl ?_, List.isChain_singleton _⟩
    change unit _ = unit _
    rw [unit_e1 (by norm_num), unit_e1 (by norm_num)]), ← c2]
  simp [Rot.rotate, Rot.getSecondVector, Rot.getFirstVector]

/-- One disc adds one node. -/
lemma turn_step {ext : Ext 2 1} (has : ArgsortSpec ext.argsort) {n : ℕ} {q : Rot (Vec 2)} (hq : Proper [q])
    (hq1 : q.getFirstVector = !₂[1, 0]) {i : ℕ} {st : ConvState 2} (h : Fan i st) :
    ∃ st', convTree ext (turnAvoider n) !₂[1, 0] [q] st (discTree, i) = .ok st' ∧ Fan (i + 1) st' := by
  classical
  obtain ⟨q2, hs2, hp2, hf2, hl2⟩ := turn_sequence (p := 0) (r := 4) (y := -1) (by norm_num) (by simp)
    turn_ref0 turn_eval0
  obtain ⟨o, ho, hoon, hof, hol⟩ := turn_rotation
  obtain ⟨R, hR, hR0, hR1⟩ := reduction_single hq hp2 hoon (by rw [hol, hq1]) (by rw [hf2, hol]) ext.argsort has
  rw [hq1] at hR0
  rw [hl2] at hR1
  have hroot := h.rooted.root_mem
  have hnew : NodeId.pair (.num (i : ℕ)) 0 ∉ st.tree.nodes := by
    intro hm
    rcases h.ids _ hm with h | h | ⟨j, hj, h⟩
    · cases h
    · cases h
    · injection h with h _; injection h with h; omega
  obtain ⟨t', a1, a2, a3, a4, a5, a6, a7⟩ := addNode_step st.tree (.num (-10)) h.rooted (.pair (.num (i : ℕ)) 0)
    (.num (-10)) R.getSecondVector (by
      rw [hR1]; simp [EuclideanSpace.norm_eq, Fin.sum_univ_two]) hnew hroot 0 h.rooted.root_level (by norm_num)
  have f := addNode_full h.rooted (show orRaise (st.tree.addNode (.pair (.num (i : ℕ)) 0) R.getSecondVector
    (some (.num (-10)))) = .ok t' by rw [a1]; rfl)
  have hdn : dirOf t' (.pair (.num (i : ℕ)) 0) = !₂[0, -1] := by
    unfold dirOf; rw [a5, hR1]; rfl
  refine ⟨⟨t', st.nodes ++ [.pair (.num (i : ℕ)) 0], st.weights ++ [1]⟩, ?_, ?_⟩
  · unfold convTree
    simp only
    refine bind_ok.mpr ⟨1, treeWeight_far rfl (by simp [discTree]) disc_far, ?_⟩
    rw [if_neg (by norm_num)]
    refine bind_ok.mpr ⟨disc, rfl, bind_ok.mpr ⟨1, ?_, bind_ok.mpr ⟨some o, ho, bind_ok.mpr ⟨some [q2], hs2, ?_⟩⟩⟩⟩
    · change Except.ok _ = _
      rw [disc_weight]
    · rw [hR]
      simp only
      refine bind_ok.mpr ⟨t', ?_, ?_⟩
      · rw [addSequence_one st.tree _ _ R (by rw [hR0, ← h.root]; exact (dir_eq h.rooted hroot).1)]
        change orRaise (st.tree.addNode (.pair (.num (i : ℕ)) 0) _ _) = _
        rw [a1]; rfl
      · rw [if_pos (by norm_num)]
        simp [discTree, convComponent]
  · refine ⟨a2, ?_, ⟨f.2.1.edges _ _ h.init.1, ?_⟩, ?_, ?_, ?_, ?_, ?_⟩
    · rw [f.2.1.dirs _ hroot]; exact h.root
    · rw [f.2.1.dirs _ (h.rooted.edge_snd _ _ h.init.1)]; exact h.init.2
    · intro p c hpc
      change IsParent t' p c at hpc
      rcases f.2.2.2.2.2 p c hpc with hpc | ⟨rfl, rfl⟩
      · obtain ⟨e1, e2⟩ := h.child p c hpc
        refine ⟨e1, ?_⟩
        change dirOf t' c = _ ∨ dirOf t' c = _
        rwa [f.2.1.dirs _ (h.rooted.edge_snd _ _ hpc)]
      · exact ⟨rfl, Or.inr hdn⟩
    · intro m hm
      change m ∈ t'.nodes at hm
      rw [a3, List.mem_append, List.mem_singleton] at hm
      rcases hm with hm | rfl
      · rcases h.ids m hm with e | e | ⟨j, hj, e⟩
        · exact Or.inl e
        · exact Or.inr (Or.inl e)
        · exact Or.inr (Or.inr ⟨j, by omega, e⟩)
      · exact Or.inr (Or.inr ⟨i, by omega, rfl⟩)
    · rw [h.nodes, List.range_succ, List.map_append]; rfl
    · rw [h.weights, List.replicate_succ']
    · intro j hj
      by_cases hji : j = i
      · subst hji; exact ⟨f.2.2.2.1, hdn⟩
      · obtain ⟨e1, e2⟩ := h.obstacles j (by omega)
        exact ⟨f.2.1.edges _ _ e1, by
          change dirOf t' _ = _
          rw [f.2.1.dirs _ (h.rooted.edge_snd _ _ e1)]; exact e2⟩

/-- The whole tree for `n` discs. -/
lemma turn_tree {ext : Ext 2 1} (has : ArgsortSpec ext.argsort) (n : ℕ) :
    ∃ q st, evaluateDynamicsSequence !₂[1, 0] (turnAvoider n).initial = .ok (some [q]) ∧ Proper [q]
      ∧ q.getFirstVector = !₂[1, 0] ∧ q.getSecondVector = !₂[0, 1]
      ∧ ConvergenceTree ext (turnAvoider n) !₂[1, 0] [q] st ∧ Fan n st := by
  classical
  obtain ⟨q, hs, hp, hf, hl⟩ := turn_sequence (p := !₂[1, 0]) (r := 3) (y := 1) (by norm_num) (by simp)
    turn_ref turn_eval
  have hq1 : ‖q.base.b0‖ = 1 := (hp.on q (by simp)).norm_fst
  obtain ⟨t0, a1, a2, a3, a4, a5⟩ := from_sequence_root (NodeId.num (-10)) q.base.b0 hq1
  obtain ⟨t1, b1, b2, b3, b4, b5, b6, b7⟩ := addNode_step t0 (.num (-10)) a2 (.num (-1)) (.num (-10)) q.getSecondVector
    (second_unit (hp.on q (by simp))) (by rw [a3]; simp) (by rw [a3]; simp) 0 a2.root_level (by norm_num)
  have f := addNode_full a2 (show orRaise (t0.addNode (.num (-1)) q.getSecondVector (some (.num (-10)))) = .ok t1 by
    rw [b1]; rfl)
  have h0 : Tree.fromSequence interId (.num (-10)) (.num (-1)) [q] = .ok t1 := by
    unfold Tree.fromSequence
    simp only [a1]
    rw [addSequence_one t0 _ _ q a5, b1]
  have hd1 : dirOf t1 (.num (-1)) = !₂[0, 1] := by unfold dirOf; rw [b5, hl]; rfl
  have hfan : Fan 0 ⟨t1, [], []⟩ := by
    refine ⟨b2, ?_, ⟨f.2.2.2.1, hd1⟩, ?_, ?_, rfl, rfl, by intro j hj; omega⟩
    · change dirOf t1 _ = _
      rw [f.2.1.dirs _ (by rw [a3]; simp), ← hf]
      unfold dirOf; rw [a5]; rfl
    · intro p c hpc
      change IsParent t1 p c at hpc
      rcases f.2.2.2.2.2 p c hpc with h | ⟨rfl, rfl⟩
      · simp [IsParent, a4] at h
      · exact ⟨rfl, Or.inl hd1⟩
    · intro m hm
      change m ∈ t1.nodes at hm
      rw [b3, a3] at hm
      simp only [List.cons_append, List.nil_append, List.mem_cons, List.not_mem_nil, or_false] at hm
      tauto
  have hfold : ∀ m, ∃ st, (List.replicate m discTree).zipIdx.foldlM (convTree ext (turnAvoider n) !₂[1, 0] [q])
      ⟨t1, [], []⟩ = .ok st ∧ Fan m st := by
    intro m
    induction m with
    | zero => exact ⟨_, rfl, hfan⟩
    | succ m ih =>
      obtain ⟨st, h1, h2⟩ := ih
      obtain ⟨st', h3, h4⟩ := turn_step has hp hf h2
      refine ⟨st', ?_, h4⟩
      rw [List.replicate_succ', List.zipIdx_append, List.foldlM_append]
      refine bind_ok.mpr ⟨st, h1, ?_⟩
      simp only [List.length_replicate, Nat.zero_add, List.zipIdx_cons, List.zipIdx_nil, List.foldlM_cons,
        List.foldlM_nil]
      exact bind_ok.mpr ⟨st', h3, rfl⟩
  obtain ⟨st, h1, h2⟩ := hfold n
  exact ⟨q, st, hs, hp, hf, hl, ⟨t1, h0, h1⟩, h2⟩

lemma turn_weights (n : ℕ) (x : Vec 2) : WeightsAtMostOne (turnAvoider n) x := by
  intro o p hp
  change Except.ok _ = Except.ok _ at hp
  injection hp with hp
  rw [← hp]
  unfold projectedWeight
  split_ifs
  · exact le_refl _
  · exact min_le_right _ _

lemma turn_one (x : Vec 2) : AtMostOneSaturated (turnAvoider 1) x := by
  intro i j t t' c c' o o' hi hj hc hc' _ _ _ _
  simp only [turnAvoider, List.replicate_one] at hi hj
  rw [List.getElem?_singleton] at hi hj
  split_ifs at hi hj with h1 h2
  cases hi; cases hj
  simp only [discTree, List.getElem?_singleton] at hc hc'
  split_ifs at hc hc' with h3 h4
  omega

/-- C112 is not vacuous: on the surface of a disc the motion converges to its direction at the centre. -/
example (argsort : List ℤ → List ℕ) (has : ArgsortSpec argsort) :
    ∃ q conv, evaluateDynamicsSequence !₂[1, 0] (turnAvoider 1).initial = .ok (some [q])
      ∧ q.getSecondVector = !₂[0, 1]
      ∧ computeConvergenceSequence (planeExt argsort) (turnAvoider 1) !₂[1, 0] [q] = .ok conv
      ∧ conv.getEndVector = .ok !₂[0, -1] := by
  obtain ⟨q, st, hs, _, _, hl, htree, hfan⟩ := turn_tree (ext := planeExt argsort) has 1
  have hr : disc.referencePoint = (0 : Vec 2) := rfl
  have e1 : (!₂[4, 0] : Vec 2) - !₂[1, 0] = !₂[3, 0] := by ext i; fin_cases i <;> norm_num
  have e2 : (!₂[4, 0] : Vec 2) - 0 = !₂[4, 0] := sub_zero _
  obtain ⟨conv, h1, h2⟩ := C112_attractor_partial (planeExt argsort) (turnAvoider 1) !₂[1, 0] !₂[4, 0] [q] st
    (by norm_num) hs htree hfan.good has rfl rfl rfl rfl rfl (turn_weights 1 _) (turn_one _) 0 discTree disc rfl rfl
    (by change Except.ok _ = _; rw [disc_weight]) disc_far
    (by intro h; have := congrFun (congrArg WithLp.ofLp h) 0; norm_num at this)
    (by rw [hr]; intro h; have := congrFun (congrArg WithLp.ofLp h) 0; norm_num at this)
    (by
      rw [hr, e1, e2]
      rintro ⟨c, hc, h⟩
      have := congrFun (congrArg WithLp.ofLp h) 0
      simp at this
      linarith)
    (by
      have := (good_perp (r := 3) (y := 1) (by norm_num) (by simp)).2
      rw [e1]; rw [← turn_eval] at this; exact this)
    (by
      rw [hr, e1, e2]
      refine List.isChain_cons_cons.mpr ⟨Or.inl ?_, List.isChain_singleton _⟩
      change unit _ = unit _
      rw [unit_e1 (by norm_num), unit_e1 (by norm_num)])
    (by
      have := (good_perp (r := 4) (y := -1) (by norm_num) (by simp)).2
      rw [hr, e2]; rw [← turn_eval0] at this; exact this)
  refine ⟨q, conv, hs, hl, h1, ?_⟩
  rw [h2, hr]
  change Except.ok (unit ((turnAvoider 0).initial.evaluate 0)) = _
  rw [turn_eval0, unit_e2 (by simp)]

/-- C112, the general claim is violated: two obstacles in contact at the same position, whose dynamics have the same
direction `(0, -1)`; the weights sum to two, and the avoider converges to `(-1, 0)` instead (away from the
attractor). -/
theorem C112_two_contacts (argsort : List ℤ → List ℕ) (has : ArgsortSpec argsort) :
    ∃ q conv, evaluateDynamicsSequence !₂[1, 0] (turnAvoider 2).initial = .ok (some [q])
      ∧ (∀ t ∈ (turnAvoider 2).trees, ∀ o ∈ t.components, (turnAvoider 2).initial.evaluate o.referencePoint = !₂[0, -1])
      ∧ computeConvergenceSequence (planeExt argsort) (turnAvoider 2) !₂[1, 0] [q] = .ok conv
      ∧ conv.getEndVector = .ok !₂[-1, 0] := by
  classical
  obtain ⟨q, st, hs, _, _, hl, htree, hfan⟩ := turn_tree (ext := planeExt argsort) has 2
  have hw : st.weights = [1, 1] := hfan.weights
  have hn : st.nodes = [.pair (.num 0) 0, .pair (.num 1) 0] := hfan.nodes
  have hcw : convergenceWeights st.weights = [1, 1, 0] := by
    rw [convergenceWeights_saturated (w := 1) (by rw [hw]; intro w h; simp at h; rw [h]; norm_num) (by rw [hw]; simp)
      (le_refl 1), hw]
    simp [indicator]
  have h0 := hfan.obstacles 0 (by norm_num)
  have h1 := hfan.obstacles 1 (by norm_num)
  have hmean := star_mean_le hfan.rooted hfan.good has NodeState.init
    [.pair (.num 0) 0, .pair (.num 1) 0, .num (-1)] [1, 1, 0] rfl (by simp) (by
      intro m hm
      simp only [List.mem_cons, List.not_mem_nil, or_false] at hm
      rcases hm with rfl | rfl | rfl
      · exact h0.1
      · exact h1.1
      · exact hfan.init.1) (by intro w h; simp at h; rcases h with rfl | rfl <;> norm_num) (by norm_num)
    (by intro w h; simp at h; rcases h with rfl | rfl <;> norm_num)
  have hlog : sphereLog (!₂[1, 0] : Vec 2) !₂[0, -1] = !₂[0, -(Real.pi / 2)] := by
    have hin : ⟪(!₂[1, 0] : Vec 2), !₂[0, -1]⟫ = 0 := by simp [PiLp.inner_apply, Fin.sum_univ_two]
    unfold sphereLog
    rw [hin, zero_smul, sub_zero, unit_e2 (by simp), InnerProductGeometry.inner_eq_zero_iff_angle_eq_pi_div_two _ _ |>.mp hin]
    ext i; fin_cases i <;> simp
  obtain ⟨conv, c1, c2⟩ := conv_reduce htree (v := !₂[-1, 0]) (by
    rw [hcw, hn]
    refine hmean.trans ?_
    have e0 : dirOf st.tree (.pair (.num 0) 0) = !₂[0, -1] := h0.2
    have e1 : dirOf st.tree (.pair (.num 1) 0) = !₂[0, -1] := h1.2
    simp only [List.zip_cons_cons, List.zip_nil_right, List.map_cons, List.map_nil, List.sum_cons, List.sum_nil,
      one_smul, zero_smul, add_zero, e0, e1, hfan.root, hlog]
    have hsum : (!₂[0, -(Real.pi / 2)] : Vec 2) + !₂[0, -(Real.pi / 2)] = !₂[0, -Real.pi] := by
      ext i; fin_cases i
      · simp
      · simp; ring
    rw [hsum]
    have hnorm : ‖(!₂[0, -Real.pi] : Vec 2)‖ = Real.pi := by
      simp [EuclideanSpace.norm_eq, Fin.sum_univ_two, Real.sqrt_sq Real.pi_pos.le]
    unfold sphereExp
    rw [hnorm]
    congr 1
    ext i; fin_cases i <;> simp)
  refine ⟨q, conv, hs, ?_, c1, c2⟩
  intro t ht o ho
  have h3 : t = discTree := by
    simp only [turnAvoider] at ht; exact List.eq_of_mem_replicate ht
  subst h3
  have h4 : o = disc := by simpa [discTree] using ho
  subst h4
  exact turn_eval0

/-- C112 (far) is not vacuous: without obstacles. -/
example (argsort : List ℤ → List ℕ) (has : ArgsortSpec argsort) :
    ∃ q conv, evaluateDynamicsSequence !₂[1, 0] (turnAvoider 0).initial = .ok (some [q])
      ∧ computeConvergenceSequence (planeExt argsort) (turnAvoider 0) !₂[1, 0] [q] = .ok conv
      ∧ conv.getEndVector = .ok !₂[0, 1] := by
  obtain ⟨q, st, hs, _, _, hl, htree, hfan⟩ := turn_tree (ext := planeExt argsort) has 0
  obtain ⟨conv, v, h1, h2, h3⟩ := C112_far (planeExt argsort) (turnAvoider 0) !₂[1, 0] [q] st htree hfan.good has
    (by intro t ht; simp [turnAvoider] at ht)
  refine ⟨q, conv, hs, h1, ?_⟩
  rw [endVector_of_ne [q] (by simp)] at h3
  have : v = !₂[0, 1] := by rw [← Except.ok.inj h3, ← hl]; rfl
  rw [h2, this, unit_e2 (by simp)]

/-- C112 (reduction) is not vacuous: with the sequences of the run. -/
example (argsort : List ℤ → List ℕ) (has : ArgsortSpec argsort) (w : ℝ) (hw : 0 < w) (hw1 : w ≤ 1) :
    ∃ q1 q2 o s, Proper [q1] ∧ Proper [q2] ∧ q1.getSecondVector = (!₂[0, 1] : Vec 2) ∧ q2.getSecondVector = !₂[0, -1]
      ∧ vectorRotationReduction argsort [q1] (some o) (some [q2]) w = .ok s := by
  obtain ⟨q1, _, h1, f1, l1⟩ := turn_sequence (p := !₂[1, 0]) (r := 3) (y := 1) (by norm_num) (by simp)
    turn_ref turn_eval
  obtain ⟨q2, _, h2, f2, l2⟩ := turn_sequence (p := 0) (r := 4) (y := -1) (by norm_num) (by simp)
    turn_ref0 turn_eval0
  obtain ⟨o, _, hoon, hof, hol⟩ := turn_rotation
  obtain ⟨s, _, _, h, _⟩ := C112_reduction h1 h2 hoon (by
    change GoodPair q1.getFirstVector _
    rw [f1, hol]
    refine ⟨?_, Or.inl rfl⟩
    rintro ⟨c, hc, h⟩
    have := congrFun (congrArg WithLp.ofLp h) 0
    simp at this
    linarith) (by change q2.getFirstVector = _; rw [f2, hol]) argsort has w hw hw1
  exact ⟨q1, q2, o, s, h1, h2, l1, l2, h⟩

/-! ## An obstacle with two components -/

/-- The unit disc around `(-3, 0)`. -/
noncomputable def farDisc : Obstacle 2 :=
  { disc with
    gamma := fun p => ‖p - !₂[-3, 0]‖
    referencePoint := !₂[-3, 0]
    center := !₂[-3, 0] }

/-- Two discs, the root is the one further away. -/
noncomputable def pairTree : ObstacleTree 2 where
  components := [farDisc, disc]
  rootIdx := 0
  parentIdx := fun i => if i = 1 then some 0 else none
  position := 0

/-- The motion of `turnAvoider` with an obstacle of two components, and a convergence that acts in contact only. -/
noncomputable def pairAvoider : Avoider 2 :=
  { turnAvoider 0 with
    convergence :=
      { (turnAvoider 0).convergence with
        projectedWeight := fun p o => open Classical in .ok (if o.gamma p ≤ 1 then 1 else 0) }
    trees := [pairTree] }

lemma unit_ne {a b : ℝ} (h : a ≠ b) : (!₂[a, 0] : Vec 2) ≠ !₂[b, 0] := by
  intro e
  have := congrFun (congrArg WithLp.ofLp e) 0
  simp at this
  exact h this

/-- The rotation between two points on the same side of the attractor on the axis. -/
lemma axis_rotation {a b : ℝ} (ha : a < 4) (hb : b < 4) :
    ∃ o : Rot (Vec 2), Projected.rotationStartToEnd !₂[a, 0] !₂[b, 0] !₂[4, 0] = .ok (some o)
    ∧ OrthonormalPair o.base.b0 o.base.b1 ∧ o.getFirstVector = !₂[1, 0] ∧ o.getSecondVector = !₂[1, 0] := by
  have e1 : ∀ c : ℝ, (!₂[4, 0] : Vec 2) - !₂[c, 0] = !₂[4 - c, 0] := by
    intro c; ext i; fin_cases i <;> simp
  have hout := C69_outcomes (by norm_num) (!₂[a, 0] : Vec 2) !₂[b, 0] !₂[4, 0]
  rw [e1, e1] at hout
  have hopp : ¬ Opposite (!₂[4 - a, 0] : Vec 2) !₂[4 - b, 0] := by
    rintro ⟨c, hc, h⟩
    have h := congrFun (congrArg WithLp.ofLp h) 0
    simp at h
    have := mul_pos hc (sub_pos.mpr ha)
    linarith
  obtain ⟨o, ho⟩ : ∃ o, Projected.rotationStartToEnd (!₂[a, 0] : Vec 2) !₂[b, 0] !₂[4, 0] = .ok (some o) := by
    cases h : Projected.rotationStartToEnd (!₂[a, 0] : Vec 2) !₂[b, 0] !₂[4, 0] with
    | error e => exact absurd ((hout.2 e).mp h).2.2 (unit_ne hb.ne)
    | ok v =>
      cases v with
      | none =>
        rcases hout.1.mp h with h | h
        · exact absurd h (unit_ne ha.ne)
        · exact absurd h.2 hopp
      | some o => exact ⟨o, rfl⟩
  obtain ⟨c1, c2, c3, c4⟩ := C69_rotation (by norm_num) _ _ _ o ho
  rw [e1, unit_e1 (by linarith)] at c2
  rw [e1, e1, unit_e1 (by linarith), unit_e1 (by linarith)] at c4
  refine ⟨o, ho, c1, c2, ?_⟩
  rw [← c4 (by
    refine List.isChain_cons_cons.mpr ⟨Or.inl ?_, List.isChain_singleton _⟩
    change unit _ = unit _
    rw [unit_e1 (by linarith), unit_e1 (by linarith)]), ← c2]
  simp [Rot.rotate, Rot.getSecondVector, Rot.getFirstVector]

/-- The directions of a tree are `e1`, and `e2` or `-e2` below. -/
def AxisTree (t : Tree NodeId 2) : Prop :=
  ∀ p c, IsParent t p c → dirOf t p = !₂[1, 0]
    ∧ (dirOf t c = !₂[1, 0] ∨ dirOf t c = !₂[0, 1] ∨ dirOf t c = !₂[0, -1])

lemma AxisTree.good {t : Tree NodeId 2} (h : AxisTree t) : GoodDirections t := by
  intro p c hpc
  obtain ⟨hp, hc⟩ := h p c hpc
  rw [hp]
  have key : ∀ y : ℝ, |y| = 1 → ¬ Opposite (!₂[1, 0] : Vec 2) !₂[0, y]
      ∧ ((!₂[1, 0] : Vec 2) = !₂[0, y] ∨ ¬ allclose (!₂[1, 0] : Vec 2) !₂[0, y]) := by
    intro y hy
    obtain ⟨h1, h2⟩ := good_perp one_pos hy
    refine ⟨h1, ?_⟩
    have := (List.isChain_cons_cons.mp h2).1
    change unit _ = unit _ ∨ ¬ allclose (unit _) (unit _) at this
    rwa [unit_e1 one_pos, unit_e2 hy] at this
  rcases hc with hc | hc | hc <;> rw [hc]
  · refine ⟨?_, Or.inl rfl⟩
    rintro ⟨c, hc, h⟩
    have := congrFun (congrArg WithLp.ofLp h) 0
    simp at this
    linarith
  · exact key 1 (by simp)
  · exact key (-1) (by simp)

/-- Adding a node below a node with direction `e1`. -/
lemma axisTree_add {t : Tree NodeId 2} (hr : RootedTree t (.num (-10))) (ha : AxisTree t) {n p : NodeId} {v : Vec 2}
    (hn : n ∉ t.nodes) (hp : p ∈ t.nodes) (hpd : dirOf t p = !₂[1, 0]) {l : ℤ} (hl : t.level p = some l)
    (hlt : l + 1 < 100) (hv : v = !₂[1, 0] ∨ v = !₂[0, 1] ∨ v = !₂[0, -1]) :
    ∃ t', t.addNode n v (some p) = (t', .ok ()) ∧ RootedTree t' (.num (-10)) ∧ AxisTree t'
      ∧ t'.nodes = t.nodes ++ [n] ∧ t'.level n = some (l + 1) ∧ dirOf t' n = v
      ∧ ∀ m ∈ t.nodes, dirOf t' m = dirOf t m := by
  have hvn : ‖v‖ = 1 := by
    rcases hv with rfl | rfl | rfl <;> simp [EuclideanSpace.norm_eq, Fin.sum_univ_two]
  obtain ⟨t', a1, a2, a3, a4, a5, a6, a7⟩ := addNode_step t (.num (-10)) hr n p v hvn hn hp l hl hlt
  have f := addNode_full hr (show orRaise (t.addNode n v (some p)) = .ok t' by rw [a1]; rfl)
  have hdn : dirOf t' n = v := by unfold dirOf; rw [a5]; rfl
  refine ⟨t', a1, a2, ?_, a3, a4, hdn, f.2.1.dirs⟩
  intro q c hqc
  rcases f.2.2.2.2.2 q c hqc with h | ⟨rfl, rfl⟩
  · rw [f.2.1.dirs _ (hr.edge_fst _ _ h), f.2.1.dirs _ (hr.edge_snd _ _ h)]
    exact ha q c h
  · rw [f.2.1.dirs _ hp, hdn]
    exact ⟨hpd, hv⟩

lemma pair_far : ∀ o ∈ pairTree.components, 2 ≤ o.gamma (!₂[4, 0] : Vec 2) := by
  intro o ho
  have : o = farDisc ∨ o = disc := by simpa [pairTree] using ho
  rcases this with rfl | rfl
  · change 2 ≤ ‖(!₂[4, 0] : Vec 2) - !₂[-3, 0]‖
    have : (!₂[4, 0] : Vec 2) - !₂[-3, 0] = !₂[7, 0] := by ext i; fin_cases i <;> norm_num
    rw [this]
    simp [EuclideanSpace.norm_eq, Fin.sum_univ_two]
    norm_num
  · exact disc_far disc (by simp [discTree])

lemma pair_weight_root : pairAvoider.convergence.projectedWeight !₂[1, 0] farDisc = .ok 0 := by
  change Except.ok (if ‖(!₂[1, 0] : Vec 2) - !₂[-3, 0]‖ ≤ 1 then (1 : ℝ) else 0) = _
  have : (!₂[1, 0] : Vec 2) - !₂[-3, 0] = !₂[4, 0] := by ext i; fin_cases i <;> norm_num
  rw [this, if_neg]
  simp [EuclideanSpace.norm_eq, Fin.sum_univ_two]

lemma pair_weight_disc : pairAvoider.convergence.projectedWeight !₂[1, 0] disc = .ok 1 := by
  change Except.ok (if ‖(!₂[1, 0] : Vec 2)‖ ≤ 1 then (1 : ℝ) else 0) = _
  rw [e_norm, if_pos (le_refl _)]

/-- The tree of the two components. -/
lemma pair_tree {ext : Ext 2 1} :
    ∃ q st, evaluateDynamicsSequence !₂[1, 0] pairAvoider.initial = .ok (some [q]) ∧ q.getSecondVector = !₂[0, 1]
      ∧ ConvergenceTree ext pairAvoider !₂[1, 0] [q] st ∧ GoodDirections st.tree := by
  classical
  obtain ⟨q, hs, hp, hf, hl⟩ := turn_sequence (p := !₂[1, 0]) (r := 3) (y := 1) (by norm_num) (by simp)
    turn_ref turn_eval
  have e3 : (!₂[4, 0] : Vec 2) - !₂[-3, 0] = !₂[7, 0] := by ext i; fin_cases i <;> norm_num
  -- the dynamics at the root
  have hs2 : ∃ q2, evaluateDynamicsSequence farDisc.referencePoint pairAvoider.initial = .ok (some [q2])
      ∧ q2.getFirstVector = !₂[1, 0] ∧ q2.getSecondVector = !₂[0, -1] := by
    have h1 : referenceDirection (!₂[-3, 0] : Vec 2) (turnAvoider 0).initial none = !₂[7, 0] := by
      unfold referenceDirection
      simp only [turnAvoider]
      exact e3
    have h2 : (turnAvoider 0).initial.evaluate (!₂[-3, 0] : Vec 2) = !₂[0, -7] := by
      simp only [turnAvoider]
      ext i; fin_cases i <;> norm_num
    have hn1 : ‖(!₂[7, 0] : Vec 2)‖ = 7 := by simp [EuclideanSpace.norm_eq, Fin.sum_univ_two]
    have hn2 : ‖(!₂[0, -7] : Vec 2)‖ = 7 := by simp [EuclideanSpace.norm_eq, Fin.sum_univ_two]
    have hu2 : unit (!₂[0, -7] : Vec 2) = !₂[0, -1] := by
      unfold unit; rw [hn2]; ext i; fin_cases i <;> norm_num
    have hopp : ¬ Opposite (!₂[7, 0] : Vec 2) !₂[0, -7] := by
      rintro ⟨c, hc, h⟩
      have := congrFun (congrArg WithLp.ofLp h) 1
      norm_num at this
    have hdist : Distinguishable [(!₂[7, 0] : Vec 2), !₂[0, -7]] := by
      refine List.isChain_cons_cons.mpr ⟨Or.inr ?_, List.isChain_singleton _⟩
      change ¬ allclose (unit _) (unit _)
      rw [unit_e1 (by norm_num), hu2]
      intro h
      have := h 0
      simp [isclose] at this
      norm_num at this
    have hex : ∃ s, evaluateDynamicsSequence (!₂[-3, 0] : Vec 2) (turnAvoider 0).initial = .ok (some s) := by
      cases hs : evaluateDynamicsSequence (!₂[-3, 0] : Vec 2) (turnAvoider 0).initial with
      | error er =>
        rcases ((C16_error_iff _ (turnAvoider 0).initial none rfl er).mp hs).2.2.2 with h | h | h
        · rw [h1, hn1] at h; norm_num at h
        · rw [h2, hn2] at h; norm_num at h
        · rw [h1, h2] at h; exact absurd h hopp
      | ok s =>
        cases s with
        | none =>
          rcases (C16_none_iff _ (turnAvoider 0).initial none rfl).mp hs with h | h
          · rw [h1] at h; rw [h] at hn1; simp at hn1
          · rw [h2] at h; rw [h] at hn2; simp at hn2
        | some s => exact ⟨s, rfl⟩
    obtain ⟨s, hs⟩ := hex
    obtain ⟨q2, rfl, hon, hgp, hsec⟩ := initial_sequence rfl hs (by rw [h1, h2]; exact hdist)
    have hfirst := (C16_rotation _ (turnAvoider 0).initial none rfl [q2] hs).2.1
    rw [h1] at hfirst
    refine ⟨q2, hs, ?_, ?_⟩
    · have h : q2.getFirstVector = unit !₂[7, 0] := by simpa using hfirst
      rw [h, unit_e1 (by norm_num)]
    · rw [hsec, h2, hu2]
  obtain ⟨q2, hs2, hf2, hl2⟩ := hs2
  have hq1 : ‖q.base.b0‖ = 1 := (hp.on q (by simp)).norm_fst
  obtain ⟨t0, a1, a2, a3, a4, a5⟩ := from_sequence_root (NodeId.num (-10)) q.base.b0 hq1
  have hq0 : q.base.b0 = !₂[1, 0] := hf
  have hd0 : dirOf t0 (.num (-10)) = !₂[1, 0] := by unfold dirOf; rw [a5, hq0]; rfl
  have hax0 : AxisTree t0 := by intro p c h; simp [IsParent, a4] at h
  obtain ⟨t1, b1, b2, b3, b4, b5, b6, b7⟩ := axisTree_add a2 hax0 (n := .num (-1)) (p := .num (-10)) (v := q.getSecondVector)
    (by rw [a3]; simp) (by rw [a3]; simp) hd0 a2.root_level (by norm_num) (by rw [hl]; simp)
  have h0 : Tree.fromSequence interId (.num (-10)) (.num (-1)) [q] = .ok t1 := by
    unfold Tree.fromSequence
    simp only [a1]
    rw [addSequence_one t0 _ _ q a5, b1]
  have hr1 : NodeId.num (-10) ∈ t1.nodes := b2.root_mem
  have hd1 : dirOf t1 (.num (-10)) = !₂[1, 0] := by rw [b7 _ (by rw [a3]; simp)]; exact hd0
  obtain ⟨t2, c1, c2, c3, c4, c5, c6, c7⟩ := axisTree_add b2 b3 (n := .pair (.num (0 : ℕ)) 0) (p := .num (-10))
    (v := q.getSecondVector) (by rw [b4, a3]; simp) hr1 hd1 b2.root_level (by norm_num) (by rw [hl]; simp)
  have hr2 : NodeId.num (-10) ∈ t2.nodes := c2.root_mem
  have hd2 : dirOf t2 (.num (-10)) = !₂[1, 0] := by rw [c7 _ hr1]; exact hd1
  obtain ⟨o1, ho1, _, hof1, hol1⟩ := axis_rotation (a := 1) (b := 0) (by norm_num) (by norm_num)
  obtain ⟨o2, ho2, _, hof2, hol2⟩ := axis_rotation (a := 0) (b := -3) (by norm_num) (by norm_num)
  have hz : (!₂[0, 0] : Vec 2) = 0 := by ext i; fin_cases i <;> simp
  rw [hz] at ho1 ho2
  have hsec : ∀ o : Rot (Vec 2), o.rotate o.base.b0 = o.getSecondVector := fun o => by
    simp [Rot.rotate, Rot.getSecondVector]
  obtain ⟨t3, d1, d2, d3, d4, d5, d6, d7⟩ := axisTree_add c2 c3 (n := .key (0 : ℕ) (1 : ℕ) (0 : ℕ)) (p := .num (-10))
    (v := o1.getSecondVector) (by rw [c4, b4, a3]; simp) hr2 hd2 c2.root_level (by norm_num) (by rw [hol1]; simp)
  have hk3 : NodeId.key (0 : ℕ) (1 : ℕ) (0 : ℕ) ∈ t3.nodes := by rw [d4]; simp
  obtain ⟨t4, e1, e2, e3', e4, e5, e6, e7⟩ := axisTree_add d2 d3 (n := .key (0 : ℕ) (1 : ℕ) (1 : ℕ))
    (p := .key (0 : ℕ) (1 : ℕ) (0 : ℕ)) (v := o2.getSecondVector) (by rw [d4, c4, b4, a3]; simp) hk3
    (by rw [d6, hol1]) d5 (by norm_num) (by rw [hol2]; simp)
  have hk4 : NodeId.key (0 : ℕ) (1 : ℕ) (1 : ℕ) ∈ t4.nodes := by rw [e4]; simp
  obtain ⟨t5, f1, f2, f3, f4, f5, f6, f7⟩ := axisTree_add e2 e3' (n := .pair (.num (0 : ℕ)) 1)
    (p := .key (0 : ℕ) (1 : ℕ) (1 : ℕ)) (v := q2.getSecondVector) (by rw [e4, d4, c4, b4, a3]; simp) hk4
    (by rw [e6, hol2]) e5 (by norm_num) (by rw [hl2]; simp)
  refine ⟨q, ⟨t5, [.pair (.num (0 : ℕ)) 1], [1 * 1]⟩, hs, hl, ⟨t1, h0, ?_⟩, f3.good⟩
  change [(pairTree, 0)].foldlM _ _ = _
  rw [List.foldlM_cons]
  refine bind_ok.mpr ⟨_, ?_, rfl⟩
  unfold convTree
  simp only
  refine bind_ok.mpr ⟨1, treeWeight_far rfl (by simp [pairTree]) pair_far, ?_⟩
  rw [if_neg (by norm_num)]
  have htr : ∃ o, pairAvoider.convergence.positionToTransform !₂[1, 0] farDisc = .ok (some o) := by
    obtain ⟨o, ho, _⟩ := axis_rotation (a := 1) (b := -3) (by norm_num) (by norm_num)
    exact ⟨o, ho⟩
  obtain ⟨o0, ho0⟩ := htr
  refine bind_ok.mpr ⟨farDisc, rfl, bind_ok.mpr ⟨0, pair_weight_root, bind_ok.mpr ⟨some o0, ho0,
    bind_ok.mpr ⟨some [q2], hs2, ?_⟩⟩⟩⟩
  rw [C112_reduction_off _ _ _ _ _ (Or.inl (le_refl 0))]
  simp only
  refine bind_ok.mpr ⟨t2, ?_, ?_⟩
  · rw [addSequence_one t1 _ _ q (by rw [hq0, ← hd1]; exact (dir_eq b2 hr1).1)]
    change orRaise (t1.addNode (.pair (.num (0 : ℕ)) 0) _ _) = _
    rw [c1]; rfl
  · rw [if_neg (by norm_num)]
    change [(farDisc, 0), (disc, 1)].foldlM _ _ = _
    rw [List.foldlM_cons]
    refine bind_ok.mpr ⟨⟨t2, [], []⟩, by simp [convComponent, pairTree], ?_⟩
    rw [List.foldlM_cons]
    refine bind_ok.mpr ⟨_, ?_, rfl⟩
    unfold convComponent
    simp only
    rw [if_neg (by simp [pairTree])]
    refine bind_ok.mpr ⟨1, pair_weight_disc, ?_⟩
    rw [if_neg (by norm_num)]
    refine bind_ok.mpr ⟨(t4, .key (0 : ℕ) (1 : ℕ) (1 : ℕ)), ?_, ?_⟩
    · unfold parentChain
      refine bind_ok.mpr ⟨disc, rfl, bind_ok.mpr ⟨some o1, ho1, bind_ok.mpr ⟨t3, ?_, ?_⟩⟩⟩
      · unfold Tree.addNodeOrientation
        rw [hsec, d1]; rfl
      · change parentChain pairAvoider pairTree 0 1 99 1 0 _ disc.referencePoint t3 = _
        unfold parentChain
        refine bind_ok.mpr ⟨farDisc, rfl, bind_ok.mpr ⟨some o2, ho2, bind_ok.mpr ⟨t4, ?_, rfl⟩⟩⟩
        unfold Tree.addNodeOrientation
        rw [hsec, e1]; rfl
    · simp only
      have hb : q2.base.b0 = !₂[1, 0] := hf2
      rw [addSequence_one t4 _ _ q2 (by rw [hb, ← hol2, ← e6]; exact (dir_eq e2 hk4).1)]
      rw [f1]
      rfl

/-- C112 (component) is not vacuous: in contact with the component that is not the root, the motion converges to its
direction at the root. -/
example (argsort : List ℤ → List ℕ) (has : ArgsortSpec argsort) :
    ∃ q conv, evaluateDynamicsSequence !₂[1, 0] pairAvoider.initial = .ok (some [q])
      ∧ q.getSecondVector = !₂[0, 1]
      ∧ computeConvergenceSequence (planeExt argsort) pairAvoider !₂[1, 0] [q] = .ok conv
      ∧ conv.getEndVector = .ok !₂[0, -1] := by
  obtain ⟨q, st, hs, hl, htree, hgood⟩ := pair_tree (ext := planeExt argsort)
  have hr : farDisc.referencePoint = (!₂[-3, 0] : Vec 2) := rfl
  have h1 : referenceDirection (!₂[-3, 0] : Vec 2) (turnAvoider 0).initial none = !₂[7, 0] := by
    unfold referenceDirection
    simp only [turnAvoider]
    ext i; fin_cases i <;> norm_num
  have h2 : (turnAvoider 0).initial.evaluate (!₂[-3, 0] : Vec 2) = !₂[0, -7] := by
    simp only [turnAvoider]
    ext i; fin_cases i <;> norm_num
  have hu2 : unit (!₂[0, -7] : Vec 2) = !₂[0, -1] := by
    have hn2 : ‖(!₂[0, -7] : Vec 2)‖ = 7 := by simp [EuclideanSpace.norm_eq, Fin.sum_univ_two]
    unfold unit; rw [hn2]; ext i; fin_cases i <;> norm_num
  have hdist : Distinguishable [(!₂[7, 0] : Vec 2), !₂[0, -7]] := by
    refine List.isChain_cons_cons.mpr ⟨Or.inr ?_, List.isChain_singleton _⟩
    change ¬ allclose (unit _) (unit _)
    rw [unit_e1 (by norm_num), hu2]
    intro h
    have := h 0
    simp [isclose] at this
    norm_num at this
  obtain ⟨conv, g1, g2⟩ := C112_component_partial (planeExt argsort) pairAvoider !₂[1, 0] [q] st htree hgood has
    (by
      intro o p hp
      change Except.ok _ = Except.ok _ at hp
      injection hp with hp
      rw [← hp]
      split_ifs <;> norm_num)
    (by
      intro i j t t' c c' o o' hi hj hc hc' hp _ hp' _
      change [pairTree][i]? = _ at hi
      change [pairTree][j]? = _ at hj
      rw [List.getElem?_singleton] at hi hj
      split_ifs at hi hj with h1 h2
      cases hi; cases hj
      have key : ∀ c (o : Obstacle 2), pairTree.components[c]? = some o →
          pairAvoider.convergence.projectedWeight !₂[1, 0] o = .ok 1 → c = 1 := by
        intro c o hc hp
        match c with
        | 0 =>
          have : o = farDisc := by simpa [pairTree] using hc.symm
          subst this
          rw [pair_weight_root] at hp
          injection hp with hp
          norm_num at hp
        | 1 => rfl
        | c + 2 => simp [pairTree] at hc
      rw [key c o hc hp, key c' o' hc' hp', h1, h2]
      exact ⟨rfl, rfl⟩)
    0 pairTree 1 disc farDisc rfl rfl rfl (by simp [pairTree]) pair_weight_disc
    (treeWeight_far rfl (by simp [pairTree]) pair_far) rfl (by
      change Distinguishable [referenceDirection (!₂[-3, 0] : Vec 2) (turnAvoider 0).initial none,
        (turnAvoider 0).initial.evaluate (!₂[-3, 0] : Vec 2)]
      rw [h1, h2]; exact hdist)
  refine ⟨q, conv, hs, hl, g1, ?_⟩
  rw [g2]
  change Except.ok (unit ((turnAvoider 0).initial.evaluate (!₂[-3, 0] : Vec 2))) = _
  rw [h2, hu2]

end Verif
