import Verif.Lemmas.ConvergenceReduction
import Verif.Lemmas.Convergence
import Verif.Props.TreeMean

/-!
# Trees of equal directions
-/

open scoped RealInnerProductSpace

namespace Verif
open Spec

variable {d k : ℕ} [Fact (2 ≤ d)]
set_option linter.unusedSectionVars false

/-- A tree in which all directions are `u`. -/
structure ConstTree (u : Vec d) (r : NodeId) (t : Tree NodeId d) : Prop where
  rooted : RootedTree t r
  dirs : ∀ n ∈ t.nodes, dirOf t n = u

lemma not_opposite_self {u : Vec d} (hu : ‖u‖ = 1) : ¬ Opposite u u := by
  rintro ⟨c, hc, h⟩
  have h1 := congrArg (fun w => ⟪u, w⟫) h
  simp only [inner_smul_right, inner_neg_right, real_inner_self_eq_norm_sq, hu] at h1
  norm_num at h1
  linarith

lemma goodPair_self {u : Vec d} (hu : ‖u‖ = 1) : GoodPair u u := ⟨not_opposite_self hu, Or.inl rfl⟩

lemma ConstTree.unit {u : Vec d} {r : NodeId} {t : Tree NodeId d} (h : ConstTree u r t) : ‖u‖ = 1 := by
  rw [← h.dirs r h.rooted.root_mem]
  exact (dir_eq h.rooted h.rooted.root_mem).2

lemma ConstTree.good {u : Vec d} {r : NodeId} {t : Tree NodeId d} (h : ConstTree u r t) : GoodDirections t := by
  intro p c hpc
  rw [h.dirs p (h.rooted.edge_fst _ _ hpc), h.dirs c (h.rooted.edge_snd _ _ hpc)]
  exact goodPair_self h.unit

lemma ConstTree.dir {u : Vec d} {r : NodeId} {t : Tree NodeId d} (h : ConstTree u r t) {n : NodeId}
    (hn : n ∈ t.nodes) : t.dir n = some u := by
  rw [(dir_eq h.rooted hn).1, h.dirs n hn]

/-- Adding one more node of the same direction. -/
lemma ConstTree.add {u : Vec d} {r : NodeId} {t : Tree NodeId d} (h : ConstTree u r t) {n p : NodeId}
    (hn : n ∉ t.nodes) (hp : p ∈ t.nodes) {l : ℤ} (hl : t.level p = some l) (hlt : l + 1 < 100) :
    ∃ t', t.addNode n u (some p) = (t', .ok ()) ∧ ConstTree u r t' ∧ t'.nodes = t.nodes ++ [n]
      ∧ t'.level n = some (l + 1) := by
  obtain ⟨t', a1, a2, a3, a4, a5, a6, _⟩ := addNode_step t r h.rooted n p u h.unit hn hp l hl hlt
  refine ⟨t', a1, ⟨a2, ?_⟩, a3, a4⟩
  intro m hm
  rw [a3, List.mem_append, List.mem_singleton] at hm
  rcases hm with hm | rfl
  · rw [← h.dirs m hm]; unfold dirOf; rw [(a6 m hm).1]
  · unfold dirOf; rw [a5]; rfl

/-- The reduction of a tree of equal directions is a trivial rotation. -/
lemma ConstTree.reduce {u : Vec d} {r : NodeId} {t : Tree NodeId d} (h : ConstTree u r t)
    {argsort : List ℤ → List ℕ} (has : ArgsortSpec argsort) (st : NodeState NodeId d) {ns : List NodeId}
    {ws : List ℝ} (hlen : ns.length = ws.length) (hnd : ns.Nodup) (hns : ∀ n ∈ ns, n ∈ t.nodes)
    (hw : ∀ w ∈ ws, 0 ≤ w) (hpos : 0 < ws.sum) :
    ∃ R, t.reduceWeightedToSequence argsort st ns ws = .ok [R] ∧ R.base.b0 = u
      ∧ R.getSecondVector = u := by
  classical
  have hr := C20_root_total t r h.rooted ns ws hlen hnd hns
  have hz : ∀ p ∈ ns.zip ws, 0 ≤ p.2 := fun p hp => hw _ (zip_fst_mem hp).2
  have hgw : GoodWeights t r (branchWeight t (ns.zip ws)) := by
    refine ⟨branchWeight_nonneg t _ hz, fun _ _ hp => branchWeight_child_le h.rooted _ hz hp, fun n hn hnr => Or.inr ?_⟩
    obtain ⟨p, hp⟩ := h.rooted.has_parent n hn hnr
    exact ⟨p, hp, by rw [h.dirs p (h.rooted.edge_fst _ _ hp), h.dirs n hn]⟩
  have hO := orientOf_isOrient h.rooted (defined_of_good h.rooted h.good)
  have hzero : ∀ n ∈ t.nodes, (orientOf t r n).angle = 0 := by
    intro n hn
    by_cases hnr : n = r
    · rw [hnr, hO.root]
    · obtain ⟨p, hp⟩ := h.rooted.has_parent n hn hnr
      exact hO.still h.rooted hp (by rw [h.dirs p (h.rooted.edge_fst _ _ hp), h.dirs n hn])
  obtain ⟨L, hL⟩ := exists_deepest h.rooted hgw (by rw [hr]; exact ne_of_gt hpos)
  obtain ⟨sorted, S, R, -, g1, g2, g3, g4, g5, g6, g7⟩ := reduce_spec_good h.rooted h.good.inner has st hlen hns hgw rfl L hL
  have hq : ∀ (j : ℤ), ∀ n ∈ idsAt t (branchWeight t (ns.zip ws)) sorted j,
      (partOf t (branchWeight t (ns.zip ws)) (orientOf t r) sorted n).angle = 0 := by
    intro j n hn
    obtain ⟨hn1, _, _⟩ := (mem_idsAt h.rooted g1).mp hn
    rw [g2.ang n hn1, hzero n hn1, zero_mul]
  obtain ⟨z1, z2⟩ := levelsUpTo_zero _ L (fun j _ n hn => hq j n hn)
  have hR : R.angle = 0 := by
    rw [g4, z1]
    exact levelRot_zero _ _ _ (hq L)
  rw [if_pos (Or.inr hR), z2, List.nil_append] at g7
  have hb0 : R.base.b0 = u := by
    have hl := leads_append g3.leads R g5.first
    rw [z2, List.nil_append] at hl
    rw [← h.dirs r h.rooted.root_mem]
    exact hl.1
  refine ⟨R, g7, hb0, ?_⟩
  unfold Rot.getSecondVector
  rw [rotateDirection_eq, hR, planeRot_zero, hb0]

/-- The trivial rotation of `u`. -/
def Still (u : Vec d) (R : Rot (Vec d)) : Prop := R.base.b0 = u ∧ R.getSecondVector = u

lemma add_still {u : Vec d} {t : Tree NodeId d} {R : Rot (Vec d)} (hR : Still u R) {n p : NodeId}
    (hp : t.dir p = some u) : t.addSequence interId n [R] p = t.addNode n u (some p) := by
  classical
  unfold Tree.addSequence
  simp only [if_true, hp]
  rw [if_pos (by rw [← hR.1]; exact allclose_refl _)]
  simp [Tree.addSequenceLoop, endVector_of_ne [R] (by simp), hR.2]

lemma add_still_orientation {u : Vec d} {t : Tree NodeId d} {R : Rot (Vec d)} (hR : Still u R) (n p : NodeId) :
    t.addNodeOrientation n R p = t.addNode n u (some p) := by
  unfold Tree.addNodeOrientation
  have : R.rotate R.base.b0 = R.getSecondVector := by simp [Rot.rotate, Rot.getSecondVector]
  rw [this, hR.2]

lemma from_still {u : Vec d} (hu : ‖u‖ = 1) {R : Rot (Vec d)} (hR : Still u R) {r n : NodeId} (hn : n ≠ r) :
    ∃ t, Tree.fromSequence interId r n [R] = .ok t ∧ ConstTree u r t ∧ t.nodes = [r, n] := by
  obtain ⟨t0, a1, a2, a3, a4, a5⟩ := from_sequence_root r R.base.b0 (by rw [hR.1]; exact hu)
  rw [hR.1] at a5
  have h0 : ConstTree u r t0 := by
    refine ⟨a2, ?_⟩
    intro m hm
    rw [a3, List.mem_singleton] at hm
    subst hm
    unfold dirOf; rw [a5]; rfl
  obtain ⟨t1, b1, b2, b3, _⟩ := h0.add (n := n) (p := r) (by rw [a3]; simpa using hn) (by rw [a3]; simp) a2.root_level
    (by norm_num)
  refine ⟨t1, ?_, b2, by rw [b3, a3]; rfl⟩
  unfold Tree.fromSequence
  simp only [a1]
  rw [add_still hR a5, b1]

/-- The reduction of trivial rotations. -/
lemma reduction_still {u : Vec d} (hu : ‖u‖ = 1) {R o R2 : Rot (Vec d)} (hR : Still u R) (ho : Still u o)
    (hR2 : Still u R2) {argsort : List ℤ → List ℕ} (has : ArgsortSpec argsort) {w : ℝ} (hw1 : w ≤ 1) :
    ∃ Q, vectorRotationReduction argsort [R] (some o) (some [R2]) w = .ok [Q] ∧ Still u Q := by
  classical
  by_cases hw : w ≤ 0
  · refine ⟨R, ?_, hR⟩
    unfold vectorRotationReduction
    rw [if_pos hw]
  · obtain ⟨t1, a1, a2, a3⟩ := from_still hu hR (r := .num 0) (n := .num 1) (by simp)
    obtain ⟨t2, b1, b2, b3, b4⟩ := a2.add (n := .num (-1)) (p := .num 0) (by rw [a3]; simp) (by rw [a3]; simp)
      a2.rooted.root_level (by norm_num)
    obtain ⟨t3, c1, c2, c3, _⟩ := b2.add (n := .num 2) (p := .num (-1)) (by rw [b3, a3]; simp) (by rw [b3]; simp) b4
      (by norm_num)
    push Not at hw
    obtain ⟨Q, d1, d2, d3⟩ := c2.reduce has NodeState.init (ns := [.num 1, .num 2]) (ws := [1 - w, w]) rfl (by simp)
      (by rw [c3, b3, a3]; simp) (by
        intro x hx
        simp only [List.mem_cons, List.not_mem_nil, or_false] at hx
        rcases hx with rfl | rfl <;> linarith) (by simp)
    refine ⟨Q, ?_, d2, d3⟩
    unfold vectorRotationReduction
    rw [if_neg (not_le.mpr hw)]
    simp only [a1, bind, Except.bind]
    rw [add_still_orientation ho, b1]
    simp only [orRaise]
    rw [add_still hR2 (b2.dir (by rw [b3]; simp)), c1]
    exact d1

/-- The parents of component `c` end at a component without parent, after `m` steps, and all are components of the
obstacle. -/
inductive ParentsEnd (t : ObstacleTree d) : ℕ → ℕ → Prop
  | stop {c : ℕ} (hc : c < t.components.length) (hp : t.parentIdx c = none) : ParentsEnd t c 0
  | step {c p m : ℕ} (hc : c < t.components.length) (hp : t.parentIdx c = some p) (h : ParentsEnd t p m) :
      ParentsEnd t c (m + 1)

/-- All transformations of the convergence dynamics are trivial rotations of `u`. -/
structure StillDynamics (u : Vec d) (a : Avoider d) (x : Vec d) : Prop where
  position : ∀ o, ∃ R, a.convergence.positionToTransform x o = .ok (some R) ∧ Still u R
  between : ∀ p q, ∃ R, a.convergence.startToEnd p q a.initial.attractorPosition = .ok (some R) ∧ Still u R
  sequence : ∀ p, ∃ R, evaluateDynamicsSequence p (convergenceOf a) = .ok (some [R]) ∧ Still u R
  weight : ∀ o, ∃ w, a.convergence.projectedWeight x o = .ok w ∧ w ≤ 1

lemma parentChain_still {u : Vec d} {a : Avoider d} {x : Vec d} (ha : StillDynamics u a x) {ot : ObstacleTree d}
    {i com : ℕ} {c m : ℕ} (hm : ParentsEnd ot c m) :
    ∀ (fuel pp : ℕ) (pred : NodeId) (point : Vec d) (t : Tree NodeId d) (l : ℤ), ConstTree u (.num (-10)) t →
      pred ∈ t.nodes → t.level pred = some l → l + m + 1 < 100 → m < fuel →
      (∀ p' : ℕ, pp ≤ p' → NodeId.key i com p' ∉ t.nodes) →
      ∃ t' pred', parentChain a ot i com fuel pp c pred point t = .ok (t', pred') ∧ ConstTree u (.num (-10)) t'
        ∧ pred' ∈ t'.nodes ∧ t'.level pred' = some (l + m + 1)
        ∧ (∀ n ∈ t.nodes, n ∈ t'.nodes)
        ∧ ∀ n ∈ t'.nodes, n ∈ t.nodes ∨ ∃ p' : ℕ, n = .key i com p' := by
  induction hm with
  | @stop c hc hp =>
    intro fuel pp pred point t l ht hpred hl hlt hfuel hfresh
    obtain ⟨f, rfl⟩ : ∃ f, fuel = f + 1 := ⟨fuel - 1, by omega⟩
    obtain ⟨R, hR, hRs⟩ := ha.between point (ot.components[c]).referencePoint
    obtain ⟨t', b1, b2, b3, b4⟩ := ht.add (hfresh pp (le_refl _)) hpred hl (by push_cast at hlt; linarith)
    refine ⟨t', .key i com pp, ?_, b2, by rw [b3]; simp, by rw [b4]; simp, by intro n hn; rw [b3]; simp [hn], ?_⟩
    · unfold parentChain
      have hg : ot.getComponent c = .ok (ot.components[c]) := by
        unfold ObstacleTree.getComponent; rw [List.getElem?_eq_getElem hc]
      rw [hg]
      simp only [bind, Except.bind]
      rw [hR]
      simp only
      rw [add_still_orientation hRs, b1]
      simp only [orRaise, hp]
    · intro n hn
      rw [b3, List.mem_append, List.mem_singleton] at hn
      rcases hn with hn | rfl
      · exact Or.inl hn
      · exact Or.inr ⟨pp, rfl⟩
  | @step c p m hc hp _ ih =>
    intro fuel pp pred point t l ht hpred hl hlt hfuel hfresh
    obtain ⟨f, rfl⟩ : ∃ f, fuel = f + 1 := ⟨fuel - 1, by omega⟩
    obtain ⟨R, hR, hRs⟩ := ha.between point (ot.components[c]).referencePoint
    obtain ⟨t1, b1, b2, b3, b4⟩ := ht.add (hfresh pp (le_refl _)) hpred hl (by push_cast at hlt; linarith)
    obtain ⟨t', pred', c1, c2, c3, c4, c5, c6⟩ := ih f (pp + 1) (.key i com pp) (ot.components[c]).referencePoint t1
      (l + 1) b2 (by rw [b3]; simp) b4 (by push_cast at hlt; linarith) (by omega) (by
        intro p' hp' hmem
        rw [b3, List.mem_append, List.mem_singleton] at hmem
        rcases hmem with hmem | hmem
        · exact hfresh p' (by omega) hmem
        · injection hmem with _ _ h3
          have : p' = pp := by exact_mod_cast h3
          omega)
    refine ⟨t', pred', ?_, c2, c3, by rw [c4]; push_cast; congr 1; ring, ?_, ?_⟩
    · rw [parentChain]
      have hg : ot.getComponent c = .ok (ot.components[c]) := by
        unfold ObstacleTree.getComponent; rw [List.getElem?_eq_getElem hc]
      rw [hg]
      simp only [bind, Except.bind]
      rw [hR]
      simp only
      rw [add_still_orientation hRs, b1]
      simp only [orRaise, hp]
      exact c1
    · intro n hn
      exact c5 n (by rw [b3]; simp [hn])
    · intro n hn
      rcases c6 n hn with h | h
      · rw [b3, List.mem_append, List.mem_singleton] at h
        rcases h with h | rfl
        · exact Or.inl h
        · exact Or.inr ⟨pp, rfl⟩
      · exact Or.inr h

/-- The identifiers in use while component `c` of obstacle `i` is processed. -/
def Seen (i root c : ℕ) (n : NodeId) : Prop :=
  (∃ z, n = .num z) ∨ (∃ j c' : ℕ, j < i ∧ (n = .pair (.num j) c' ∨ ∃ p : ℕ, n = .key j c' p))
    ∨ n = .pair (.num i) root ∨ ∃ c' : ℕ, c' < c ∧ (n = .pair (.num i) c' ∨ ∃ p : ℕ, n = .key i c' p)

/-- The obstacle has its root among its components, and the parents of all components end. -/
structure Hierarchy (t : ObstacleTree d) : Prop where
  root : t.rootIdx < t.components.length
  parents : ∀ c < t.components.length, ∃ m ≤ 90, ParentsEnd t c m

lemma convComponent_still {u : Vec d} {a : Avoider d} {x : Vec d} (ha : StillDynamics u a x) {ot : ObstacleTree d}
    (hot : Hierarchy ot) {i : ℕ} {tw : ℝ} {R2 : Rot (Vec d)} (hR2 : Still u R2) {c : Obstacle d × ℕ}
    (hc : c.2 < ot.components.length) {st : ConvState d} (hst : ConstTree u (.num (-10)) st.tree)
    (hseen : ∀ n ∈ st.tree.nodes, Seen i ot.rootIdx c.2 n) :
    ∃ st', convComponent a x i ot tw (some [R2]) st c = .ok st' ∧ ConstTree u (.num (-10)) st'.tree
      ∧ ∀ n ∈ st'.tree.nodes, Seen i ot.rootIdx (c.2 + 1) n := by
  classical
  have hmono : ∀ n ∈ st.tree.nodes, Seen i ot.rootIdx (c.2 + 1) n := by
    intro n hn
    rcases hseen n hn with h | h | h | ⟨c', h1, h2⟩
    · exact Or.inl h
    · exact Or.inr (Or.inl h)
    · exact Or.inr (Or.inr (Or.inl h))
    · exact Or.inr (Or.inr (Or.inr ⟨c', by omega, h2⟩))
  unfold convComponent
  by_cases h0 : c.2 = ot.rootIdx
  · rw [if_pos h0]
    exact ⟨st, rfl, hst, hmono⟩
  · rw [if_neg h0]
    obtain ⟨w, hw, _⟩ := ha.weight c.1
    rw [hw]
    simp only [bind, Except.bind]
    by_cases h1 : w ≤ 1e-2
    · rw [if_pos h1]
      exact ⟨st, rfl, hst, hmono⟩
    · rw [if_neg h1]
      obtain ⟨m, hm90, hm⟩ := hot.parents c.2 hc
      obtain ⟨t', pred, b1, b2, b3, b4, b5, b6⟩ := parentChain_still ha (i := i) (com := c.2) hm 100 0 (.num (-10)) x
        st.tree 0 hst hst.rooted.root_mem hst.rooted.root_level (by
          have : (m : ℤ) ≤ 90 := by exact_mod_cast hm90
          linarith) (by omega) (by
          intro p' _ hmem
          rcases hseen _ hmem with ⟨z, h⟩ | ⟨j, c', hj, h | ⟨p, h⟩⟩ | h | ⟨c', hc', h | ⟨p, h⟩⟩
          · cases h
          · cases h
          · injection h with e1
            have : i = j := by exact_mod_cast e1
            omega
          · cases h
          · cases h
          · injection h with _ e2
            have : c.2 = c' := by exact_mod_cast e2
            omega)
      have hfresh : NodeId.pair (.num i) c.2 ∉ t'.nodes := by
        intro hmem
        rcases b6 _ hmem with hmem | ⟨p', h⟩
        · rcases hseen _ hmem with ⟨z, h⟩ | ⟨j, c', hj, h | ⟨p, h⟩⟩ | h | ⟨c', hc', h | ⟨p, h⟩⟩
          · cases h
          · injection h with e1 _
            injection e1 with e1
            have : i = j := by exact_mod_cast e1
            omega
          · cases h
          · injection h with _ e2
            exact h0 e2
          · injection h with _ e2
            omega
          · cases h
        · cases h
      obtain ⟨t2, c1, c2, c3, _⟩ := b2.add hfresh b3 b4 (by
          have : (m : ℤ) ≤ 90 := by exact_mod_cast hm90
          linarith)
      rw [b1]
      simp only
      rw [add_still hR2 (b2.dir b3), c1]
      refine ⟨_, rfl, c2, ?_⟩
      intro n hn
      change n ∈ t2.nodes at hn
      rw [c3, List.mem_append, List.mem_singleton] at hn
      rcases hn with hn | rfl
      · rcases b6 n hn with h | ⟨p', h⟩
        · exact hmono n h
        · exact Or.inr (Or.inr (Or.inr ⟨c.2, by omega, Or.inr ⟨p', h⟩⟩))
      · exact Or.inr (Or.inr (Or.inr ⟨c.2, by omega, Or.inl rfl⟩))

/-- A fold over an enumerated list succeeds if every step does. -/
lemma foldlM_zipIdx_total {ε α β : Type} {f : β → α × ℕ → Except ε β} (P : ℕ → β → Prop) (l : List α) :
    ∀ (s : ℕ) (b : β), P s b →
      (∀ (i : ℕ) (h : i < l.length) (b : β), P (s + i) b → ∃ b', f b (l[i], s + i) = .ok b' ∧ P (s + i + 1) b') →
      ∃ b', (l.zipIdx s).foldlM f b = .ok b' ∧ P (s + l.length) b' := by
  induction l with
  | nil => intro s b hb _; exact ⟨b, rfl, hb⟩
  | cons x l ih =>
    intro s b hb hstep
    obtain ⟨b1, e1, p1⟩ := hstep 0 (by simp) b hb
    obtain ⟨b2, e2, p2⟩ := ih (s + 1) b1 p1 (by
      intro i h b hb
      have := hstep (i + 1) (by simpa using h) b (by rw [show s + (i + 1) = s + 1 + i by omega]; exact hb)
      simpa [show s + (i + 1) = s + 1 + i by omega] using this)
    refine ⟨b2, ?_, by rw [List.length_cons, show s + (l.length + 1) = s + 1 + l.length by omega]; exact p2⟩
    rw [List.zipIdx_cons, List.foldlM_cons]
    change f b (x, s) = .ok b1 at e1
    rw [e1]
    exact e2

lemma convTree_still {u : Vec d} {ext : Ext d k} (has : ArgsortSpec ext.argsort) {a : Avoider d} {x : Vec d}
    (hu : ‖u‖ = 1) (ha : StillDynamics u a x) {ot : ObstacleTree d} (hot : Hierarchy ot) {i : ℕ}
    (htw : ∃ w, treeWeight a ot = .ok w) {R : Rot (Vec d)} (hR : Still u R)
    {st : ConvState d} (hst : ConstTree u (.num (-10)) st.tree) (hseen : ∀ n ∈ st.tree.nodes,
      (∃ z, n = .num z) ∨ ∃ j c' : ℕ, j < i ∧ (n = .pair (.num j) c' ∨ ∃ p : ℕ, n = .key j c' p)) :
    ∃ st', convTree ext a x [R] st (ot, i) = .ok st' ∧ ConstTree u (.num (-10)) st'.tree
      ∧ ∀ n ∈ st'.tree.nodes,
        (∃ z, n = .num z) ∨ ∃ j c' : ℕ, j < i + 1 ∧ (n = .pair (.num j) c' ∨ ∃ p : ℕ, n = .key j c' p) := by
  classical
  have hmono : ∀ n ∈ st.tree.nodes,
      (∃ z, n = .num z) ∨ ∃ j c' : ℕ, j < i + 1 ∧ (n = .pair (.num j) c' ∨ ∃ p : ℕ, n = .key j c' p) := by
    intro n hn
    rcases hseen n hn with h | ⟨j, c', hj, h⟩
    · exact Or.inl h
    · exact Or.inr ⟨j, c', by omega, h⟩
  obtain ⟨tw, htw⟩ := htw
  unfold convTree
  simp only [htw, bind, Except.bind]
  by_cases h0 : tw ≤ 1e-6
  · rw [if_pos h0]
    exact ⟨st, rfl, hst, hmono⟩
  · rw [if_neg h0]
    have hroot : ot.getComponent ot.rootIdx = .ok (ot.components[ot.rootIdx]'hot.root) := by
      unfold ObstacleTree.getComponent; rw [List.getElem?_eq_getElem hot.root]
    obtain ⟨w, hw, hw1⟩ := ha.weight (ot.components[ot.rootIdx]'hot.root)
    obtain ⟨o, ho, hos⟩ := ha.position (ot.components[ot.rootIdx]'hot.root)
    obtain ⟨R2, hR2, hR2s⟩ := ha.sequence (ot.components[ot.rootIdx]'hot.root).referencePoint
    obtain ⟨Q, hQ, hQs⟩ := reduction_still hu hR hos hR2s has hw1
    have hR2' : evaluateDynamicsSequence (ot.components[ot.rootIdx]'hot.root).referencePoint (a.default.getD a.initial)
      = .ok (some [R2]) := hR2
    rw [hroot]
    simp only
    rw [hw, ho]
    simp only
    rw [hR2']
    simp only
    rw [hQ]
    simp only
    have hfresh : NodeId.pair (.num i) ot.rootIdx ∉ st.tree.nodes := by
      intro hmem
      rcases hseen _ hmem with ⟨z, h⟩ | ⟨j, c', hj, h | ⟨p, h⟩⟩
      · cases h
      · injection h with e1 _
        injection e1 with e1
        have : i = j := by exact_mod_cast e1
        omega
      · cases h
    obtain ⟨t1, b1, b2, b3, _⟩ := hst.add hfresh hst.rooted.root_mem hst.rooted.root_level (by norm_num)
    rw [add_still hQs (hst.dir hst.rooted.root_mem), b1]
    simp only [orRaise]
    have hfold := foldlM_zipIdx_total (f := convComponent a x i ot tw (some [R2]))
      (fun c (s' : ConvState d) => ConstTree u (.num (-10)) s'.tree ∧ ∀ n ∈ s'.tree.nodes, Seen i ot.rootIdx c n)
      ot.components 0 (if w > 1e-6 then
            (⟨t1, st.nodes ++ [.pair (.num i) ot.rootIdx], st.weights ++ [w * tw]⟩ : ConvState d)
          else ⟨t1, st.nodes, st.weights⟩) (by
        have ht : (if w > 1e-6 then
            (⟨t1, st.nodes ++ [.pair (.num i) ot.rootIdx], st.weights ++ [w * tw]⟩ : ConvState d)
          else ⟨t1, st.nodes, st.weights⟩).tree = t1 := by split_ifs <;> rfl
        rw [ht]
        refine ⟨b2, ?_⟩
        intro n hn
        rw [b3, List.mem_append, List.mem_singleton] at hn
        rcases hn with hn | rfl
        · rcases hseen n hn with h | h
          · exact Or.inl h
          · exact Or.inr (Or.inl h)
        · exact Or.inr (Or.inr (Or.inl rfl))) (by
        intro c hc s' hs'
        have := convComponent_still ha hot (tw := tw) hR2s (c := (ot.components[c], 0 + c)) (by simpa using hc) hs'.1 hs'.2
        exact this)
    obtain ⟨st', f1, f2, f3⟩ := hfold
    refine ⟨st', f1, f2, ?_⟩
    intro n hn
    rcases f3 n hn with h | ⟨j, c', hj, h⟩ | h | ⟨c', _, h⟩
    · exact Or.inl h
    · exact Or.inr ⟨j, c', by omega, h⟩
    · exact Or.inr ⟨i, ot.rootIdx, by omega, Or.inl h⟩
    · exact Or.inr ⟨i, c', by omega, h⟩

/-- The tree of convergence directions of a motion without rotations exists. -/
lemma still_tree {u : Vec d} {ext : Ext d k} (has : ArgsortSpec ext.argsort) {a : Avoider d} {x : Vec d}
    (hu : ‖u‖ = 1) (ha : StillDynamics u a x) (hot : ∀ t ∈ a.trees, Hierarchy t)
    (htw : ∀ t ∈ a.trees, ∃ w, treeWeight a t = .ok w) {R : Rot (Vec d)} (hR : Still u R) :
    ∃ st, ConvergenceTree ext a x [R] st ∧ ConstTree u (.num (-10)) st.tree := by
  obtain ⟨t, a1, a2, a3⟩ := from_still hu hR (r := .num (-10)) (n := .num (-1)) (by simp)
  have := foldlM_zipIdx_total (f := convTree ext a x [R])
    (fun i (s' : ConvState d) => ConstTree u (.num (-10)) s'.tree ∧ ∀ n ∈ s'.tree.nodes,
      (∃ z, n = .num z) ∨ ∃ j c' : ℕ, j < i ∧ (n = .pair (.num j) c' ∨ ∃ p : ℕ, n = .key j c' p))
    a.trees 0 ⟨t, [], []⟩ (by
      refine ⟨a2, ?_⟩
      intro n hn
      change n ∈ t.nodes at hn
      rw [a3] at hn
      simp only [List.mem_cons, List.not_mem_nil, or_false] at hn
      rcases hn with rfl | rfl
      · exact Or.inl ⟨_, rfl⟩
      · exact Or.inl ⟨_, rfl⟩) (by
      intro i hi s' hs'
      exact convTree_still has hu ha (hot _ (List.getElem_mem hi)) (htw _ (List.getElem_mem hi)) hR hs'.1 hs'.2)
  obtain ⟨st, f1, f2, _⟩ := this
  exact ⟨st, ⟨t, a1, f1⟩, f2⟩

end Verif
