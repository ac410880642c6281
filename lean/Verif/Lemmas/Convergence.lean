import Verif.Props.AvoiderConvergence
import Verif.Lemmas.AvoiderStar
import Verif.Spec.Convergence

/-! # Helper lemmas: the tree of convergence directions -/

open scoped RealInnerProductSpace

namespace Verif
open Spec

variable {d k : ℕ} [Fact (2 ≤ d)]
set_option linter.unusedSectionVars false

lemma addSequenceLoop_grows {n r : NodeId} (s : RotSeq (Vec d)) {ii : ℕ} {p p' : NodeId} {t t' : Tree NodeId d}
    (h : RootedTree t r) (hok : Tree.addSequenceLoop interId n s ii p t = (t', .ok p')) :
    RootedTree t' r ∧ Grows t t' := by
  induction s generalizing ii p t with
  | nil =>
    unfold Tree.addSequenceLoop at hok
    cases hok
    exact ⟨h, Grows.refl _⟩
  | cons q s ih =>
    unfold Tree.addSequenceLoop at hok
    split at hok
    · cases hok
    · rename_i t1 h1
      have hf := addNode_full (t' := t1) h (by rw [h1]; rfl)
      have := ih hf.1 hok
      exact ⟨this.1, hf.2.1.trans this.2⟩

/-- A successful `add_sequence` on a rooted tree. -/
lemma addSequence_grows {n r p : NodeId} {s : RotSeq (Vec d)} {t t' : Tree NodeId d} (h : RootedTree t r)
    (hok : t.addSequence interId n s p true = (t', .ok ())) :
    RootedTree t' r ∧ Grows t t' ∧ n ∉ t.nodes ∧ n ∈ t'.nodes
      ∧ ∃ v, s.getEndVector = .ok v ∧ dirOf t' n = unit v := by
  classical
  unfold Tree.addSequence at hok
  simp only [if_true] at hok
  cases s with
  | nil => cases hok
  | cons q s =>
    simp only at hok
    cases hd : t.dir p with
    | none => rw [hd] at hok; cases hok
    | some v =>
      rw [hd] at hok
      simp only at hok
      split_ifs at hok with hc
      · cases h1 : Tree.addSequenceLoop interId n (List.drop 1 (q :: s)) 1 p t with
        | mk t1 e1 =>
          rw [h1] at hok
          cases e1 with
          | error e => cases hok
          | ok p1 =>
            simp only at hok
            obtain ⟨a1, a2⟩ := addSequenceLoop_grows _ h h1
            cases he : RotSeq.getEndVector (q :: s) with
            | error e => rw [he] at hok; cases hok
            | ok w =>
              rw [he] at hok
              simp only at hok
              have hf := addNode_full (t' := t') a1 (by rw [hok]; rfl)
              exact ⟨hf.1, a2.trans hf.2.1, fun hn => hf.2.2.1 (a2.nodes _ hn), hf.1.edge_snd _ _ hf.2.2.2.1,
                w, rfl, hf.2.2.2.2.1⟩
      · cases hok

lemma parentChain_grows {a : Avoider d} {ot : ObstacleTree d} {iTree iCom : ℕ} {r : NodeId} :
    ∀ (fuel pp iObs : ℕ) (pred : NodeId) (point : Vec d) (t t' : Tree NodeId d) (n : NodeId), RootedTree t r →
      parentChain a ot iTree iCom fuel pp iObs pred point t = .ok (t', n) → RootedTree t' r ∧ Grows t t' := by
  intro fuel
  induction fuel with
  | zero =>
    intro pp iObs pred point t t' n h hok
    unfold parentChain at hok
    cases hok
    exact ⟨h, Grows.refl _⟩
  | succ fuel ih =>
    intro pp iObs pred point t t' n h hok
    unfold parentChain at hok
    obtain ⟨o, _, hok⟩ := bind_ok.mp hok
    obtain ⟨tr, _, hok⟩ := bind_ok.mp hok
    cases tr with
    | none => cases hok
    | some trafo =>
      obtain ⟨t1, h1, hok⟩ := bind_ok.mp hok
      have hf := addNode_full h h1
      cases hp : ot.parentIdx iObs with
      | none => rw [hp] at hok; cases hok; exact ⟨hf.1, hf.2.1⟩
      | some parent =>
        rw [hp] at hok
        have := ih _ _ _ _ _ _ _ hf.1 hok
        exact ⟨this.1, hf.2.1.trans this.2⟩

/-- What holds during the construction of the tree of convergence directions. -/
structure ConvInv (a : Avoider d) (x : Vec d) (t0 : Tree NodeId d) (st : ConvState d) : Prop where
  rooted : RootedTree st.tree (.num (-10))
  grows : Grows t0 st.tree
  len : st.nodes.length = st.weights.length
  nodup : st.nodes.Nodup
  mem : ∀ n ∈ st.nodes, n ∈ st.tree.nodes ∧ n ∉ t0.nodes
  origin : ∀ q ∈ st.nodes.zip st.weights, ∃ (j : ℕ) (t : ObstacleTree d) (c : ℕ) (o : Obstacle d),
    a.trees[j]? = some t ∧ t.components[c]? = some o ∧ q.1 = .pair (.num j) c ∧ ConvergenceWeight a x t o q.2

/-- The construction only adds. -/
structure Extends (st st' : ConvState d) : Prop where
  grows : Grows st.tree st'.tree
  pairs : ∀ q ∈ st.nodes.zip st.weights, q ∈ st'.nodes.zip st'.weights

lemma Extends.refl (st : ConvState d) : Extends st st := ⟨Grows.refl _, fun _ h => h⟩

lemma Extends.trans {a b c : ConvState d} (h : Extends a b) (h' : Extends b c) : Extends a c :=
  ⟨h.grows.trans h'.grows, fun q hq => h'.pairs q (h.pairs q hq)⟩

lemma ConvInv.add {a : Avoider d} {x : Vec d} {t0 : Tree NodeId d} {st : ConvState d} (h : ConvInv a x t0 st)
    {t' : Tree NodeId d} {n : NodeId} {w : ℝ} (hr : RootedTree t' (.num (-10))) (hg : Grows st.tree t')
    (hnew : n ∉ st.tree.nodes) (hn : n ∈ t'.nodes)
    (ho : ∃ (j : ℕ) (t : ObstacleTree d) (c : ℕ) (o : Obstacle d),
      a.trees[j]? = some t ∧ t.components[c]? = some o ∧ n = .pair (.num j) c ∧ ConvergenceWeight a x t o w) :
    ConvInv a x t0 ⟨t', st.nodes ++ [n], st.weights ++ [w]⟩
      ∧ Extends st ⟨t', st.nodes ++ [n], st.weights ++ [w]⟩
      ∧ (n, w) ∈ (st.nodes ++ [n]).zip (st.weights ++ [w]) := by
  have hz : (st.nodes ++ [n]).zip (st.weights ++ [w]) = st.nodes.zip st.weights ++ [(n, w)] := by
    rw [List.zip_append h.len]; rfl
  refine ⟨⟨hr, h.grows.trans hg, by simp [h.len], ?_, ?_, ?_⟩, ⟨hg, ?_⟩, ?_⟩
  · rw [List.nodup_append]
    refine ⟨h.nodup, by simp, ?_⟩
    rintro m hm _ hm' rfl
    rw [List.mem_singleton] at hm'
    subst hm'
    exact hnew (h.mem _ hm).1
  · intro m hm
    rw [List.mem_append, List.mem_singleton] at hm
    rcases hm with hm | rfl
    · exact ⟨hg.nodes _ (h.mem _ hm).1, (h.mem _ hm).2⟩
    · exact ⟨hn, fun h0 => hnew (h.grows.nodes _ h0)⟩
  · intro q hq
    rw [hz, List.mem_append, List.mem_singleton] at hq
    rcases hq with hq | rfl
    · exact h.origin q hq
    · exact ho
  · intro q hq
    change q ∈ (st.nodes ++ [n]).zip (st.weights ++ [w])
    rw [hz]; exact List.mem_append_left _ hq
  · rw [hz]; simp

lemma ConvInv.keep {a : Avoider d} {x : Vec d} {t0 : Tree NodeId d} {st : ConvState d} (h : ConvInv a x t0 st)
    {t' : Tree NodeId d} (hr : RootedTree t' (.num (-10))) (hg : Grows st.tree t') :
    ConvInv a x t0 ⟨t', st.nodes, st.weights⟩ ∧ Extends st ⟨t', st.nodes, st.weights⟩ :=
  ⟨⟨hr, h.grows.trans hg, h.len, h.nodup, fun m hm => ⟨hg.nodes _ (h.mem m hm).1, (h.mem m hm).2⟩, h.origin⟩,
    ⟨hg, fun _ hq => hq⟩⟩

lemma convComponent_inv {a : Avoider d} {x : Vec d} {t0 : Tree NodeId d} {st st' : ConvState d} {i : ℕ}
    {ot : ObstacleTree d} {tw : ℝ} {conv : Option (RotSeq (Vec d))} {c : Obstacle d × ℕ}
    (h : ConvInv a x t0 st) (hi : a.trees[i]? = some ot) (hc : ot.components[c.2]? = some c.1)
    (htw : treeWeight a ot = .ok tw) (htw6 : 1e-6 < tw) (hok : convComponent a x i ot tw conv st c = .ok st') :
    ConvInv a x t0 st' ∧ Extends st st' := by
  classical
  unfold convComponent at hok
  split_ifs at hok with h0
  · cases hok; exact ⟨h, Extends.refl _⟩
  · obtain ⟨w, hw, hok⟩ := bind_ok.mp hok
    split_ifs at hok with h1
    · cases hok; exact ⟨h, Extends.refl _⟩
    · obtain ⟨⟨t1, pred⟩, hp, hok⟩ := bind_ok.mp hok
      have hpc := parentChain_grows _ _ _ _ _ _ _ _ h.rooted hp
      cases conv with
      | none => cases hok
      | some s =>
        simp only at hok
        cases ha : t1.addSequence interId (.pair (.num i) c.2) s pred with
        | mk t2 e =>
          rw [ha] at hok
          cases e with
          | error e => cases hok
          | ok u =>
            cases hok
            obtain ⟨b1, b2, b3, b4, _⟩ := addSequence_grows hpc.1 ha
            have := h.add (w := w * tw) b1 (hpc.2.trans b2) (fun hn => b3 (hpc.2.nodes _ hn)) b4
              ⟨i, ot, c.2, c.1, hi, hc, rfl, w, tw, hw, htw, by push Not at h1; norm_num at h1 ⊢; linarith, htw6, rfl⟩
            exact ⟨this.1, this.2.1⟩

/-- One obstacle. -/
lemma convTree_inv {ext : Ext d k} {a : Avoider d} {x : Vec d} {s : RotSeq (Vec d)} {t0 : Tree NodeId d}
    {st st' : ConvState d} {p : ObstacleTree d × ℕ} (h : ConvInv a x t0 st) (hi : a.trees[p.2]? = some p.1)
    (hok : convTree ext a x s st p = .ok st') :
    ConvInv a x t0 st' ∧ Extends st st'
      ∧ ∀ tw, treeWeight a p.1 = .ok tw → 1e-6 < tw →
        ∃ root w trafo conv cont v, p.1.components[p.1.rootIdx]? = some root
          ∧ a.convergence.projectedWeight x root = .ok w
          ∧ a.convergence.positionToTransform x root = .ok trafo
          ∧ evaluateDynamicsSequence root.referencePoint (convergenceOf a) = .ok conv
          ∧ vectorRotationReduction ext.argsort s trafo conv w = .ok cont
          ∧ cont.getEndVector = .ok v
          ∧ dirOf st'.tree (.pair (.num p.2) p.1.rootIdx) = unit v
          ∧ NodeId.pair (.num p.2) p.1.rootIdx ∈ st'.tree.nodes
          ∧ (1e-6 < w → (NodeId.pair (.num p.2) p.1.rootIdx, w * tw) ∈ st'.nodes.zip st'.weights) := by
  classical
  unfold convTree at hok
  obtain ⟨tw, htw, hok⟩ := bind_ok.mp hok
  split_ifs at hok with h0
  · cases hok
    refine ⟨h, Extends.refl _, ?_⟩
    intro tw' htw' hlt
    rw [htw] at htw'
    cases htw'
    linarith
  · obtain ⟨root, hroot, hok⟩ := bind_ok.mp hok
    obtain ⟨w, hw, hok⟩ := bind_ok.mp hok
    obtain ⟨trafo, htr, hok⟩ := bind_ok.mp hok
    obtain ⟨conv, hconv, hok⟩ := bind_ok.mp hok
    have hroot' : p.1.components[p.1.rootIdx]? = some root := by
      unfold ObstacleTree.getComponent at hroot
      split at hroot
      · cases hroot
      · rename_i o ho; cases hroot; exact ho
    cases hr : vectorRotationReduction ext.argsort s trafo conv w with
    | error e => rw [hr] at hok; cases hok
    | ok cont =>
      rw [hr] at hok
      simp only at hok
      obtain ⟨t1, h1, hok⟩ := bind_ok.mp hok
      have h1' := orRaise_ok.mp h1
      obtain ⟨b1, b2, b3, b4, v, b5, b6⟩ := addSequence_grows (t' := t1) h.rooted
        (Prod.ext h1'.1 h1'.2)
      have hmid : ∃ st1 : ConvState d, (if w > 1e-6 then
            (⟨t1, st.nodes ++ [.pair (.num p.2) p.1.rootIdx], st.weights ++ [w * tw]⟩ : ConvState d)
          else ⟨t1, st.nodes, st.weights⟩) = st1 ∧ ConvInv a x t0 st1 ∧ Extends st st1 ∧ st1.tree = t1
          ∧ (1e-6 < w → (NodeId.pair (.num p.2) p.1.rootIdx, w * tw) ∈ st1.nodes.zip st1.weights) := by
        by_cases hgt : w > 1e-6
        · rw [if_pos hgt]
          have := h.add (w := w * tw) b1 b2 b3 b4 ⟨p.2, p.1, p.1.rootIdx, root, hi, hroot', rfl, w, tw, hw, htw, hgt,
            not_le.mp h0, rfl⟩
          exact ⟨_, rfl, this.1, this.2.1, rfl, fun _ => this.2.2⟩
        · rw [if_neg hgt]
          have := h.keep b1 b2
          exact ⟨_, rfl, this.1, this.2, rfl, fun hlt => absurd hlt hgt⟩
      obtain ⟨st1, e1, i1, x1, ht1, hz⟩ := hmid
      rw [e1] at hok
      have hfold := foldlM_inv (f := convComponent a x p.2 p.1 tw conv) (l := p.1.components.zipIdx)
        (P := fun s' => ConvInv a x t0 s' ∧ Extends st1 s') (by
          rintro c b b' hc ⟨c1, c2⟩ hb
          have hc' : p.1.components[c.2]? = some c.1 := by
            obtain ⟨i, hi, he⟩ := List.getElem_of_mem hc
            rw [List.getElem_zipIdx] at he
            rw [← he]
            simp only [zero_add]
            exact List.getElem?_eq_getElem _
          have := convComponent_inv c1 hi hc' htw (not_le.mp h0) hb
          exact ⟨this.1, c2.trans this.2⟩) ⟨i1, Extends.refl _⟩ hok
      refine ⟨hfold.1, x1.trans hfold.2, ?_⟩
      intro tw' htw' _
      rw [htw] at htw'
      cases htw'
      have hn1 : NodeId.pair (.num p.2) p.1.rootIdx ∈ st1.tree.nodes := by rw [ht1]; exact b4
      refine ⟨root, w, trafo, conv, cont, v, hroot', hw, htr, hconv, hr, b5, ?_, hfold.2.grows.nodes _ hn1,
        fun hlt => hfold.2.pairs _ (hz hlt)⟩
      rw [hfold.2.grows.dirs _ hn1, ht1]
      exact b6

/-- The whole loop: the invariant at the end, and what is known of every obstacle. -/
lemma convFold {ext : Ext d k} {a : Avoider d} {x : Vec d} {s : RotSeq (Vec d)} {t0 : Tree NodeId d}
    (h0 : RootedTree t0 (.num (-10))) {st : ConvState d}
    (hok : a.trees.zipIdx.foldlM (convTree ext a x s) ⟨t0, [], []⟩ = .ok st) :
    ConvInv a x t0 st ∧ ∀ (i : ℕ) (t : ObstacleTree d), a.trees[i]? = some t → ∀ tw, treeWeight a t = .ok tw →
      1e-6 < tw → ∃ root w trafo conv cont v, t.components[t.rootIdx]? = some root
          ∧ a.convergence.projectedWeight x root = .ok w
          ∧ a.convergence.positionToTransform x root = .ok trafo
          ∧ evaluateDynamicsSequence root.referencePoint (convergenceOf a) = .ok conv
          ∧ vectorRotationReduction ext.argsort s trafo conv w = .ok cont
          ∧ cont.getEndVector = .ok v
          ∧ dirOf st.tree (.pair (.num i) t.rootIdx) = unit v
          ∧ NodeId.pair (.num i) t.rootIdx ∈ st.tree.nodes
          ∧ (1e-6 < w → (NodeId.pair (.num i) t.rootIdx, w * tw) ∈ st.nodes.zip st.weights) := by
  have := foldlM_prefix (f := convTree ext a x s) (l := a.trees.zipIdx)
    (P := fun pre st => ConvInv a x t0 st ∧ ∀ q ∈ pre, ∀ tw, treeWeight a q.1 = .ok tw → 1e-6 < tw →
        ∃ root w trafo conv cont v, q.1.components[q.1.rootIdx]? = some root
          ∧ a.convergence.projectedWeight x root = .ok w
          ∧ a.convergence.positionToTransform x root = .ok trafo
          ∧ evaluateDynamicsSequence root.referencePoint (convergenceOf a) = .ok conv
          ∧ vectorRotationReduction ext.argsort s trafo conv w = .ok cont
          ∧ cont.getEndVector = .ok v
          ∧ dirOf st.tree (.pair (.num q.2) q.1.rootIdx) = unit v
          ∧ NodeId.pair (.num q.2) q.1.rootIdx ∈ st.tree.nodes
          ∧ (1e-6 < w → (NodeId.pair (.num q.2) q.1.rootIdx, w * tw) ∈ st.nodes.zip st.weights)) ?_ ?_ hok
  · refine ⟨this.1, fun i t hi tw htw hlt => ?_⟩
    have hm : (t, i) ∈ a.trees.zipIdx := by
      rw [List.mem_zipIdx_iff_getElem?]; exact hi
    exact this.2 (t, i) hm tw htw hlt
  · rintro pre p b b' hm ⟨c1, c2⟩ hb
    have hi : a.trees[p.2]? = some p.1 := by
      rw [← List.mem_zipIdx_iff_getElem?]; exact hm
    obtain ⟨d1, d2, d3⟩ := convTree_inv c1 hi hb
    refine ⟨d1, ?_⟩
    intro q hq tw htw hlt
    rw [List.mem_append, List.mem_singleton] at hq
    rcases hq with hq | rfl
    · obtain ⟨root, w, trafo, conv, cont, v, e1, e2, e3, e4, e5, e6, e7, e8, e9⟩ := c2 q hq tw htw hlt
      exact ⟨root, w, trafo, conv, cont, v, e1, e2, e3, e4, e5, e6, by rw [d2.grows.dirs _ e8]; exact e7,
        d2.grows.nodes _ e8, fun hw => d2.pairs _ (e9 hw)⟩
    · exact d3 tw htw hlt
  · exact ⟨⟨h0, Grows.refl _, rfl, List.nodup_nil, by simp, by simp⟩, by simp⟩

/-- What is known of a component with a weight above the threshold of the code. -/
def ComponentFact (a : Avoider d) (x : Vec d) (i : ℕ) (t : ObstacleTree d) (c : ℕ) (w tw : ℝ) (st : ConvState d) : Prop :=
  ∃ root s v, t.components[t.rootIdx]? = some root
    ∧ evaluateDynamicsSequence root.referencePoint (convergenceOf a) = .ok (some s)
    ∧ s.getEndVector = .ok v ∧ dirOf st.tree (.pair (.num i) c) = unit v
    ∧ NodeId.pair (.num i) c ∈ st.tree.nodes ∧ (NodeId.pair (.num i) c, w * tw) ∈ st.nodes.zip st.weights
    ∧ ∃ b t2 pred, RootedTree b (.num (-10)) ∧ parentChain a t i c 100 0 c (.num (-10)) x b = .ok (t2, pred)
      ∧ (t2.addSequence interId (.pair (.num i) c) s pred).2 = .ok ()

lemma ComponentFact.mono {a : Avoider d} {x : Vec d} {i : ℕ} {t : ObstacleTree d} {c : ℕ} {w tw : ℝ} {st st' : ConvState d}
    (h : ComponentFact a x i t c w tw st) (hx : Extends st st') : ComponentFact a x i t c w tw st' := by
  obtain ⟨root, s, v, h1, h2, h3, h4, h5, h6, h7⟩ := h
  exact ⟨root, s, v, h1, h2, h3, by rw [hx.grows.dirs _ h5]; exact h4, hx.grows.nodes _ h5, hx.pairs _ h6, h7⟩

/-- The end of the chain of a component is the end of the sequence of the dynamics at the root of the obstacle. -/
lemma convTree_component {ext : Ext d k} {a : Avoider d} {x : Vec d} {s : RotSeq (Vec d)} {t0 : Tree NodeId d}
    {st st' : ConvState d} {p : ObstacleTree d × ℕ} (h : ConvInv a x t0 st) (hi : a.trees[p.2]? = some p.1)
    (hok : convTree ext a x s st p = .ok st') {tw : ℝ} (htw : treeWeight a p.1 = .ok tw) (htw6 : 1e-6 < tw)
    {c : ℕ} {o : Obstacle d} (hc : p.1.components[c]? = some o) (hcr : c ≠ p.1.rootIdx) {w : ℝ}
    (hw : a.convergence.projectedWeight x o = .ok w) (hw2 : 1e-2 < w) :
    ComponentFact a x p.2 p.1 c w tw st' := by
  classical
  unfold convTree at hok
  obtain ⟨tw', htw', hok⟩ := bind_ok.mp hok
  rw [htw] at htw'
  cases htw'
  rw [if_neg (not_le.mpr htw6)] at hok
  obtain ⟨root, hroot, hok⟩ := bind_ok.mp hok
  obtain ⟨w0, hw0, hok⟩ := bind_ok.mp hok
  obtain ⟨trafo, htr, hok⟩ := bind_ok.mp hok
  obtain ⟨conv, hconv, hok⟩ := bind_ok.mp hok
  have hroot' : p.1.components[p.1.rootIdx]? = some root := by
    unfold ObstacleTree.getComponent at hroot
    split at hroot
    · cases hroot
    · rename_i o ho; cases hroot; exact ho
  cases hr : vectorRotationReduction ext.argsort s trafo conv w0 with
  | error e => rw [hr] at hok; cases hok
  | ok cont =>
    rw [hr] at hok
    simp only at hok
    obtain ⟨t1, h1, hok⟩ := bind_ok.mp hok
    have h1' := orRaise_ok.mp h1
    obtain ⟨b1, b2, b3, b4, v, b5, b6⟩ := addSequence_grows (t' := t1) h.rooted (Prod.ext h1'.1 h1'.2)
    have hmid : ConvInv a x t0 (if w0 > 1e-6 then
          (⟨t1, st.nodes ++ [.pair (.num p.2) p.1.rootIdx], st.weights ++ [w0 * tw]⟩ : ConvState d)
        else ⟨t1, st.nodes, st.weights⟩) := by
      by_cases hgt : w0 > 1e-6
      · rw [if_pos hgt]
        exact (h.add (w := w0 * tw) b1 b2 b3 b4 ⟨p.2, p.1, p.1.rootIdx, root, hi, hroot', rfl, w0, tw, hw0, htw, hgt,
          htw6, rfl⟩).1
      · rw [if_neg hgt]
        exact (h.keep b1 b2).1
    have := foldlM_prefix (f := convComponent a x p.2 p.1 tw conv) (l := p.1.components.zipIdx)
      (P := fun pre s' => ConvInv a x t0 s' ∧ ((o, c) ∈ pre → ComponentFact a x p.2 p.1 c w tw s')) (by
        rintro pre q b b' hq ⟨c1, c2⟩ hb
        have hq' : p.1.components[q.2]? = some q.1 := by
          rw [← List.mem_zipIdx_iff_getElem?]; exact hq
        obtain ⟨d1, d2⟩ := convComponent_inv c1 hi hq' htw htw6 hb
        refine ⟨d1, fun hm => ?_⟩
        rw [List.mem_append, List.mem_singleton] at hm
        rcases hm with hm | rfl
        · exact (c2 hm).mono d2
        · unfold convComponent at hb
          simp only at hb
          rw [if_neg hcr] at hb
          obtain ⟨w', hw', hb⟩ := bind_ok.mp hb
          rw [hw] at hw'
          cases hw'
          rw [if_neg (not_le.mpr hw2)] at hb
          obtain ⟨⟨t2, pred⟩, hp, hb⟩ := bind_ok.mp hb
          have hpc := parentChain_grows _ _ _ _ _ _ _ _ c1.rooted hp
          cases conv with
          | none => cases hb
          | some s2 =>
            simp only at hb
            cases ha : t2.addSequence interId (.pair (.num p.2) c) s2 pred with
            | mk t3 e =>
              rw [ha] at hb
              cases e with
              | error e => cases hb
              | ok u =>
                cases hb
                obtain ⟨f1, f2, f3, f4, v2, f5, f6⟩ := addSequence_grows hpc.1 ha
                refine ⟨root, s2, v2, hroot', hconv, f5, f6, f4, ?_, b.tree, t2, pred, c1.rooted, hp, by rw [ha]⟩
                change _ ∈ (b.nodes ++ [_]).zip (b.weights ++ [_])
                rw [List.zip_append c1.len]
                simp) ⟨hmid, by simp⟩ hok
    exact this.2 (by rw [List.mem_zipIdx_iff_getElem?]; exact hc)

/-- The same at the end of the whole loop. -/
lemma convFold_component {ext : Ext d k} {a : Avoider d} {x : Vec d} {s : RotSeq (Vec d)} {t0 : Tree NodeId d}
    (h0 : RootedTree t0 (.num (-10))) {st : ConvState d}
    (hok : a.trees.zipIdx.foldlM (convTree ext a x s) ⟨t0, [], []⟩ = .ok st)
    {i : ℕ} {t : ObstacleTree d} (hi : a.trees[i]? = some t) {tw : ℝ} (htw : treeWeight a t = .ok tw)
    (htw6 : 1e-6 < tw) {c : ℕ} {o : Obstacle d} (hc : t.components[c]? = some o) (hcr : c ≠ t.rootIdx) {w : ℝ}
    (hw : a.convergence.projectedWeight x o = .ok w) (hw2 : 1e-2 < w) : ComponentFact a x i t c w tw st := by
  have := foldlM_prefix (f := convTree ext a x s) (l := a.trees.zipIdx)
    (P := fun pre st => ConvInv a x t0 st ∧ ((t, i) ∈ pre → ComponentFact a x i t c w tw st)) ?_ ?_ hok
  · exact this.2 (by rw [List.mem_zipIdx_iff_getElem?]; exact hi)
  · rintro pre p b b' hm ⟨c1, c2⟩ hb
    have hi : a.trees[p.2]? = some p.1 := by
      rw [← List.mem_zipIdx_iff_getElem?]; exact hm
    obtain ⟨d1, d2, _⟩ := convTree_inv c1 hi hb
    refine ⟨d1, fun hq => ?_⟩
    rw [List.mem_append, List.mem_singleton] at hq
    rcases hq with hq | rfl
    · exact (c2 hq).mono d2
    · exact convTree_component c1 hi hb htw htw6 hc hcr hw hw2
  · exact ⟨⟨h0, Grows.refl _, rfl, List.nodup_nil, by simp, by simp⟩, by simp⟩

/-- The tree of the initial sequence. -/
lemma fromSequence_facts {s : RotSeq (Vec d)} {t : Tree NodeId d}
    (h : Tree.fromSequence interId (.num (-10)) (.num (-1)) s = .ok t) :
    RootedTree t (.num (-10)) ∧ NodeId.num (-1) ∈ t.nodes
      ∧ ∃ v, s.getEndVector = .ok v ∧ dirOf t (.num (-1)) = unit v := by
  unfold Tree.fromSequence at h
  cases s with
  | nil => cases h
  | cons q s =>
    simp only at h
    cases h1 : (Tree.empty : Tree NodeId d).setRoot (.num (-10)) q.base.b0 with
    | error e => rw [h1] at h; cases h
    | ok t0 =>
      rw [h1] at h
      simp only at h
      cases h2 : t0.addSequence interId (.num (-1)) (q :: s) (.num (-10)) true with
      | mk t1 e =>
        rw [h2] at h
        cases e with
        | error e => cases h
        | ok u =>
          cases h
          obtain ⟨b1, _, _, b4, b5⟩ := addSequence_grows (C17_set_root _ _ _ h1) h2
          exact ⟨b1, b4, b5⟩

end Verif
