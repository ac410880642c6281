import Verif.Lemmas.PlanarReduce

/-! # Helper lemmas: the convergence direction in the plane -/

open Verif.Spec
open scoped RealInnerProductSpace

set_option linter.unusedSectionVars false

namespace Verif

variable {d k : ℕ} [Fact (2 ≤ d)]

/-- The steps of `from_sequence`. -/
lemma fromSequence_steps {rootId n : NodeId} {s : RotSeq (Vec d)} {t : Tree NodeId d}
    (h : Tree.fromSequence interId rootId n s = .ok t) (hs : ∀ q ∈ s, ‖q.getFirstVector‖ = 1) :
    ∃ t0, RootedTree t0 rootId ∧ rootId ∈ t0.nodes ∧ t0.addSequence interId n s rootId true = (t, .ok ())
      ∧ (∀ q, s.head? = some q → dirOf t0 rootId = q.getFirstVector) := by
  unfold Tree.fromSequence at h
  cases s with
  | nil => cases h
  | cons q s =>
    simp only at h
    obtain ⟨t0', a1, a2, a3, a4, a5⟩ := from_sequence_root rootId q.base.b0 (hs q List.mem_cons_self)
    rw [a1] at h
    simp only at h
    cases h2 : t0'.addSequence interId n (q :: s) rootId true with
    | mk t1 e =>
      rw [h2] at h
      cases e with
      | error e => cases h
      | ok u =>
        cases h
        refine ⟨t0', a2, by rw [a3]; simp, h2, ?_⟩
        intro q' hq'
        simp only [List.head?_cons, Option.some.injEq] at hq'
        subst hq'
        unfold dirOf
        rw [a5]; rfl

/-- The turn of the sequence of a tree. -/
lemma fromSequence_angle {rootId n : NodeId} {s : RotSeq (Vec 2)} {t T : Tree NodeId 2}
    (h : Tree.fromSequence interId rootId n s = .ok t)
    (hs : ∀ q ∈ s, ‖q.getFirstVector‖ = 1 ∧ ‖q.getSecondVector‖ = 1) (hT : RootedTree T rootId)
    (hg : Grows t T) {Θ : NodeId → ℝ} (hΘ : PathAngles T rootId Θ) :
    Θ n = pathTurn s ∧ ∀ q, s.head? = some q → dirOf T rootId = q.getFirstVector := by
  obtain ⟨t0, a1, a2, a3, a4⟩ := fromSequence_steps h (fun q hq => (hs q hq).1)
  obtain ⟨b1, b2, _⟩ := addSequence_grows a1 a3
  have hd : ∀ q, s.head? = some q → dirOf T rootId = q.getFirstVector := fun q hq => by
    rw [(b2.trans hg).dirs _ a2]; exact a4 q hq
  refine ⟨?_, hd⟩
  rw [addSequence_angle hT hΘ a1 hs a3 hg (fun q hq => (hd q hq).symm), hΘ.root, zero_add]

lemma proper_units {s : RotSeq (Vec d)} (h : Proper s) :
    ∀ q ∈ s, ‖q.getFirstVector‖ = 1 ∧ ‖q.getSecondVector‖ = 1 :=
  fun q hq => ⟨(h.on q hq).norm_fst, second_unit (h.on q hq)⟩

lemma notOpposite_of_good {I : Type} {t : Tree I d} (hg : GoodDirections t) :
    ∀ p c, IsParent t p c → ¬ Opposite (dirOf t p) (dirOf t c) := fun p c hp => (hg p c hp).1

/-- The reduction of two sequences in the plane. -/
lemma reduction_planar {s1 s2 : RotSeq (Vec 2)} (h1 : Proper s1) (h2 : Proper s2) {o : Rot (Vec 2)}
    (ho : OrthonormalPair o.base.b0 o.base.b1) (hg : GoodPair (s1.head h1.ne).getFirstVector o.getSecondVector)
    (hs : (s2.head h2.ne).getFirstVector = o.getSecondVector) (argsort : List ℤ → List ℕ)
    (has : ArgsortSpec argsort) (w : ℝ) (hw : 0 < w) (hw1 : w ≤ 1) :
    ∃ s, vectorRotationReduction argsort s1 (some o) (some s2) w = .ok s
      ∧ pathTurn s = (1 - w) * pathTurn s1
          + w * (signedAngle (s1.head h1.ne).getFirstVector o.getSecondVector + pathTurn s2)
      ∧ s.getEndVector = .ok (turnBy ((1 - w) * pathTurn s1
          + w * (signedAngle (s1.head h1.ne).getFirstVector o.getSecondVector + pathTurn s2))
            (s1.head h1.ne).getFirstVector)
      ∧ (∀ q ∈ s, ‖q.getFirstVector‖ = 1 ∧ ‖q.getSecondVector‖ = 1)
      ∧ (∀ q ∈ s.head?, q.getFirstVector = (s1.head h1.ne).getFirstVector) := by
  obtain ⟨t, a1, a2, a3, a4, a5, a6, a7, a8, t1, t2, e1, e2, e3⟩ := reduction_tree_full h1 h2 ho hg hs
  obtain ⟨Θ, hΘ⟩ := exists_pathAngles a2 (notOpposite_of_good a3)
  obtain ⟨t0, f1, f2, f3, f4⟩ := fromSequence_steps e1 (fun q hq => (proper_units h1 q hq).1)
  have r1 := (addSequence_grows f1 f3).1
  obtain ⟨r2, g2, _, p2, d2, _⟩ := addNode_full r1 e2
  obtain ⟨r3, g3, _⟩ := addSequence_grows r2 e3
  have k1 := (fromSequence_angle e1 (proper_units h1) a2 (g2.trans g3) hΘ).1
  have hpar := g3.edges _ _ p2
  have hn0 := (dir_eq a2 (a2.edge_fst _ _ hpar)).2
  have hdm : dirOf t (.num (-1)) = o.getSecondVector := by
    rw [g3.dirs _ (r2.edge_snd _ _ p2), d2, unit_of_norm_one (second_unit ho)]
  have k2 : Θ (.num (-1)) = signedAngle (s1.head h1.ne).getFirstVector o.getSecondVector := by
    rw [hΘ.signed hpar hn0, hΘ.root, zero_add, a6, hdm]
  have k3 : Θ (.num 2) = Θ (.num (-1)) + pathTurn s2 := by
    refine addSequence_angle a2 hΘ r2 (proper_units h2) e3 ⟨fun _ h => h, fun _ _ h => h, fun _ _ => rfl⟩ ?_
    intro q hq
    rw [hdm, ← hs]
    rw [List.head?_eq_some_head h2.ne] at hq
    rw [Option.some.inj hq]
  obtain ⟨s, b1, b2, b3, b4, b5⟩ := reduce_turn a2 a3 has NodeState.init (ns := [NodeId.num 1, .num 2])
    (ws := [1 - w, w]) rfl (by
      intro n hn
      simp only [List.mem_cons, List.not_mem_nil, or_false] at hn
      rcases hn with rfl | rfl
      · exact a4
      · exact a5) (by simp) (by
      intro x hx
      simp only [List.mem_cons, List.not_mem_nil, or_false] at hx
      rcases hx with rfl | rfl <;> linarith) (by simp) (by simp) hΘ
  have hsum : (([NodeId.num 1, .num 2].zip [1 - w, w]).map (fun p => p.2 * Θ p.1)).sum
      = (1 - w) * pathTurn s1
          + w * (signedAngle (s1.head h1.ne).getFirstVector o.getSecondVector + pathTurn s2) := by
    simp [k1, k3, k2]
  rw [hsum, a6] at b2
  rw [hsum] at b3
  rw [a6] at b5
  exact ⟨s, by rw [a1 argsort w hw]; exact b1, b3, b2, b4, b5⟩

/-! ### The tree of convergence directions -/

/-- How the node of the root of an obstacle got into the tree. -/
def RootStep (ext : Ext d k) (a : Avoider d) (x : Vec d) (s : RotSeq (Vec d)) (i : ℕ) (t : ObstacleTree d)
    (st : ConvState d) : Prop :=
  ∃ root w trafo conv cont b b', t.components[t.rootIdx]? = some root
    ∧ a.convergence.projectedWeight x root = .ok w
    ∧ a.convergence.positionToTransform x root = .ok trafo
    ∧ evaluateDynamicsSequence root.referencePoint (convergenceOf a) = .ok conv
    ∧ vectorRotationReduction ext.argsort s trafo conv w = .ok cont
    ∧ RootedTree b (.num (-10))
    ∧ b.addSequence interId (.pair (.num i) t.rootIdx) cont (.num (-10)) true = (b', .ok ())
    ∧ Grows b' st.tree

lemma convTree_step {ext : Ext d k} {a : Avoider d} {x : Vec d} {s : RotSeq (Vec d)} {t0 : Tree NodeId d}
    {st st' : ConvState d} {p : ObstacleTree d × ℕ} (h : ConvInv a x t0 st) (hi : a.trees[p.2]? = some p.1)
    (hok : convTree ext a x s st p = .ok st') {tw : ℝ} (htw : treeWeight a p.1 = .ok tw) (htw6 : 1e-6 < tw) :
    RootStep ext a x s p.2 p.1 st' := by
  classical
  unfold convTree at hok
  obtain ⟨tw', htw', hok⟩ := bind_ok.mp hok
  rw [htw] at htw'
  cases htw'
  rw [if_neg (not_le.mpr htw6)] at hok
  obtain ⟨root, hroot, hok⟩ := bind_ok.mp hok
  obtain ⟨w0, hw0, hok⟩ := bind_ok.mp hok
  obtain ⟨trafo, htr, hok⟩ := bind_ok.mp hok
  obtain ⟨conv, hconv, hok⟩ := bind_ok.mp hok
  have hroot' : p.1.components[p.1.rootIdx]? = some root := by
    unfold ObstacleTree.getComponent at hroot
    split at hroot
    · cases hroot
    · rename_i o ho; cases hroot; exact ho
  cases hr : vectorRotationReduction ext.argsort s trafo conv w0 with
  | error e => rw [hr] at hok; cases hok
  | ok cont =>
    rw [hr] at hok
    simp only at hok
    obtain ⟨t1, h1, hok⟩ := bind_ok.mp hok
    have h1' := orRaise_ok.mp h1
    have hadd : st.tree.addSequence interId (.pair (.num p.2) p.1.rootIdx) cont (.num (-10)) true = (t1, .ok ()) :=
      Prod.ext h1'.1 h1'.2
    obtain ⟨b1, b2, b3, b4, v, b5, b6⟩ := addSequence_grows (t' := t1) h.rooted hadd
    have hmid : ConvInv a x t0 (if w0 > 1e-6 then
          (⟨t1, st.nodes ++ [.pair (.num p.2) p.1.rootIdx], st.weights ++ [w0 * tw]⟩ : ConvState d)
        else ⟨t1, st.nodes, st.weights⟩) := by
      by_cases hgt : w0 > 1e-6
      · rw [if_pos hgt]
        exact (h.add (w := w0 * tw) b1 b2 b3 b4 ⟨p.2, p.1, p.1.rootIdx, root, hi, hroot', rfl, w0, tw, hw0, htw, hgt,
          htw6, rfl⟩).1
      · rw [if_neg hgt]
        exact (h.keep b1 b2).1
    have hmt : (if w0 > 1e-6 then
          (⟨t1, st.nodes ++ [.pair (.num p.2) p.1.rootIdx], st.weights ++ [w0 * tw]⟩ : ConvState d)
        else ⟨t1, st.nodes, st.weights⟩).tree = t1 := by split_ifs <;> rfl
    have := foldlM_prefix (f := convComponent a x p.2 p.1 tw conv) (l := p.1.components.zipIdx)
      (P := fun _ s' => ConvInv a x t0 s' ∧ Grows t1 s'.tree) (by
        rintro pre q b b' hq ⟨c1, c2⟩ hb
        have hq' : p.1.components[q.2]? = some q.1 := by
          rw [← List.mem_zipIdx_iff_getElem?]; exact hq
        obtain ⟨d1, d2⟩ := convComponent_inv c1 hi hq' htw htw6 hb
        exact ⟨d1, c2.trans d2.grows⟩) ⟨hmid, by rw [hmt]; exact Grows.refl _⟩ hok
    exact ⟨root, w0, trafo, conv, cont, st.tree, t1, hroot', hw0, htr, hconv, hr, h.rooted, hadd, this.2⟩

lemma RootStep.mono {ext : Ext d k} {a : Avoider d} {x : Vec d} {s : RotSeq (Vec d)} {i : ℕ} {t : ObstacleTree d}
    {st st' : ConvState d} (h : RootStep ext a x s i t st) (hx : Extends st st') : RootStep ext a x s i t st' := by
  obtain ⟨root, w, trafo, conv, cont, b, b', h1, h2, h3, h4, h5, h6, h7, h8⟩ := h
  exact ⟨root, w, trafo, conv, cont, b, b', h1, h2, h3, h4, h5, h6, h7, h8.trans hx.grows⟩

lemma convFold_step {ext : Ext d k} {a : Avoider d} {x : Vec d} {s : RotSeq (Vec d)} {t0 : Tree NodeId d}
    (h0 : RootedTree t0 (.num (-10))) {st : ConvState d}
    (hok : a.trees.zipIdx.foldlM (convTree ext a x s) ⟨t0, [], []⟩ = .ok st)
    {i : ℕ} {t : ObstacleTree d} (hi : a.trees[i]? = some t) {tw : ℝ} (htw : treeWeight a t = .ok tw)
    (htw6 : 1e-6 < tw) : RootStep ext a x s i t st := by
  have := foldlM_prefix (f := convTree ext a x s) (l := a.trees.zipIdx)
    (P := fun pre st => ConvInv a x t0 st ∧ ((t, i) ∈ pre → RootStep ext a x s i t st)) ?_ ?_ hok
  · exact this.2 (by rw [List.mem_zipIdx_iff_getElem?]; exact hi)
  · rintro pre p b b' hm ⟨c1, c2⟩ hb
    have hi : a.trees[p.2]? = some p.1 := by
      rw [← List.mem_zipIdx_iff_getElem?]; exact hm
    obtain ⟨d1, d2, _⟩ := convTree_inv c1 hi hb
    refine ⟨d1, fun hq => ?_⟩
    rw [List.mem_append, List.mem_singleton] at hq
    rcases hq with hq | rfl
    · exact (c2 hq).mono d2
    · exact convTree_step c1 hi hb htw htw6
  · exact ⟨⟨h0, Grows.refl _, rfl, List.nodup_nil, by simp, by simp⟩, by simp⟩

end Verif
