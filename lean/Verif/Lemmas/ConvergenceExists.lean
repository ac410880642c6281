import Verif.Lemmas.NonlinearAvoider
import Verif.Lemmas.ConstantTree
import Verif.Props.Convergence

/-!
# The tree of convergence directions exists
-/

open scoped RealInnerProductSpace

namespace Verif
open Spec

variable {d k : ℕ} [Fact (2 ≤ d)]
set_option linter.unusedSectionVars false

/-! ### The reduction -/

lemma fromSequence_edges {r n : NodeId} {s : RotSeq (Vec d)} (hs : Proper s) {t : Tree NodeId d}
    (h : Tree.fromSequence interId r n s = .ok t) {a b : NodeId} (hab : IsParent t a b) :
    a = r ∨ ∃ i, a = interId n i := by
  obtain ⟨q, s, rfl⟩ := List.exists_cons_of_ne_nil hs.ne
  obtain ⟨t0, a1, a2, a3, a4, a5⟩ := from_sequence_root (I := NodeId) r q.base.b0 (hs.on q List.mem_cons_self).norm_fst
  unfold Tree.fromSequence at h
  simp only [a1] at h
  split at h
  · cases h
  · rename_i t' ht'
    cases h
    rcases addSequence_edges interId t0 n _ r _ _ ht' hab with h | h
    · simp [IsParent, a4] at h
    · exact h

/-- The reduction gives a sequence of unit vectors that starts where the initial sequence does. -/
lemma reduction_ok {s1 s2 : RotSeq (Vec d)} (h1 : Proper s1) (h2 : Proper s2) {o : Rot (Vec d)}
    (ho : OrthonormalPair o.base.b0 o.base.b1) (hg : GoodPair (s1.head h1.ne).getFirstVector o.getSecondVector)
    (hs : (s2.head h2.ne).getFirstVector = o.getSecondVector) {argsort : List ℤ → List ℕ}
    (has : ArgsortSpec argsort) {w : ℝ} (hw1 : w ≤ 1) :
    ∃ s, vectorRotationReduction argsort s1 (some o) (some s2) w = .ok s
      ∧ (∃ hne : s ≠ [], (s.head hne).getFirstVector = (s1.head h1.ne).getFirstVector)
      ∧ UnitVectors s ∧ s.length < 100 := by
  classical
  by_cases hw : w ≤ 0
  · refine ⟨s1, ?_, ⟨h1.ne, rfl⟩, unitVectors_of_on h1.on, by have := h1.short; omega⟩
    unfold vectorRotationReduction
    rw [if_pos hw]
  push Not at hw
  obtain ⟨t, a1, a2, a3, a4, a5, a6, a7, a8, t1, t2, e1, e2, e3⟩ := reduction_tree_full h1 h2 ho hg hs
  have hleaf : ∀ n ∈ [NodeId.num 1, NodeId.num 2], ∀ c, ¬ IsParent t n c := by
    intro n hn c hc
    have h3 : n = .num (-1) ∨ n = .num 0 ∨ (∃ i, n = interId (.num 1) i) ∨ ∃ i, n = interId (.num 2) i := by
      rcases addSequence_edges interId t2 _ _ _ _ _ e3 hc with h | h | h
      · have h' : IsParent (t1.addNode (.num (-1)) o.getSecondVector (some (.num 0))).1 n c := by
          cases hx : t1.addNode (.num (-1)) o.getSecondVector (some (.num 0)) with
          | mk t' r =>
            rw [hx] at e2
            cases r with
            | error e => cases e2
            | ok u => cases e2; exact h
        rcases addNode_edges t1 _ _ _ h' with h | h
        · rcases fromSequence_edges h1 e1 h with h | h
          · exact Or.inr (Or.inl h)
          · exact Or.inr (Or.inr (Or.inl h))
        · exact Or.inr (Or.inl h)
      · exact Or.inl h
      · exact Or.inr (Or.inr (Or.inr h))
    simp only [List.mem_cons, List.not_mem_nil, or_false] at hn
    rcases hn with rfl | rfl <;> simp [interId] at h3
  obtain ⟨s, v, b1, b2, b3, _, b5, b6, _⟩ := reduce_proper t (.num 0) a2 a3.inner argsort has NodeState.init
    [.num 1, .num 2] [1 - w, w] rfl (by simp) (by
      intro n hn
      simp only [List.mem_cons, List.not_mem_nil, or_false] at hn
      rcases hn with rfl | rfl
      · exact a4
      · exact a5) ⟨by
      intro x hx
      simp only [List.mem_cons, List.not_mem_nil, or_false] at hx
      rcases hx with rfl | rfl <;> linarith, by simp⟩ hleaf 99 (by
      intro n hn
      simp only [List.mem_cons, List.not_mem_nil, or_false] at hn
      obtain ⟨l, hl, _, hl2⟩ : ∃ l, t.level n = some l ∧ 0 ≤ l ∧ l < 100 := a2.level_bound n (by
        rcases hn with rfl | rfl
        · exact a4
        · exact a5)
      exact ⟨l, hl, by push_cast; omega⟩)
  refine ⟨s, by rw [a1 argsort w hw]; exact b1, ⟨b2, ?_⟩, b5, by omega⟩
  obtain ⟨q, s, rfl⟩ := List.exists_cons_of_ne_nil b2
  rw [← a6]
  exact b3.1

/-! ### The identifiers -/

/-- The identifiers of component `c` of obstacle `j`. -/
def OwnId (j c : ℕ) (n : NodeId) : Prop :=
  n = .pair (.num j) c ∨ (∃ l : ℕ, n = interId (.pair (.num j) c) l) ∨ ∃ p : ℕ, n = .key j c p

/-- The identifiers of the initial sequence. -/
def BaseId (n : NodeId) : Prop := (∃ z, n = .num z) ∨ ∃ l : ℕ, n = interId (.num (-1)) l

/-- All identifiers belong to the initial sequence or to a component that has been processed. -/
def OnlyIds (P : ℕ → ℕ → Prop) (l : List NodeId) : Prop := ∀ n ∈ l, BaseId n ∨ ∃ j c, P j c ∧ OwnId j c n

lemma OwnId.not_base {j c : ℕ} {n : NodeId} (h : OwnId j c n) : ¬ BaseId n := by
  rintro (⟨z, rfl⟩ | ⟨l, rfl⟩)
  · rcases h with h | ⟨l, h⟩ | ⟨p, h⟩
    · cases h
    · simp [interId] at h
    · cases h
  · rcases h with h | ⟨l, h⟩ | ⟨p, h⟩
    · simp only [interId] at h
      injection h with h _
      injection h with h
      have := Int.natCast_nonneg j
      omega
    · simp [interId] at h
    · simp [interId] at h

lemma OwnId.unique {j c j' c' : ℕ} {n : NodeId} (h : OwnId j c n) (h' : OwnId j' c' n) : j = j' ∧ c = c' := by
  rcases h with rfl | ⟨l, rfl⟩ | ⟨p, rfl⟩ <;> rcases h' with h | ⟨l', h⟩ | ⟨p', h⟩
  · simpa using h
  · simp [interId] at h
  · cases h
  · simp [interId] at h
  · simp only [interId] at h
    injection h with h _
    simpa using h
  · simp [interId] at h
  · cases h
  · simp [interId] at h
  · injection h with h1 h2 _
    exact ⟨by exact_mod_cast h1, by exact_mod_cast h2⟩

lemma OnlyIds.fresh {P : ℕ → ℕ → Prop} {l : List NodeId} (h : OnlyIds P l) {j c : ℕ} (hP : ¬ P j c) {n : NodeId}
    (hn : OwnId j c n) : n ∉ l := by
  intro hmem
  rcases h n hmem with hb | ⟨j', c', h1, h2⟩
  · exact hn.not_base hb
  · obtain ⟨rfl, rfl⟩ := hn.unique h2
    exact hP h1

lemma OnlyIds.mono {P Q : ℕ → ℕ → Prop} {l : List NodeId} (h : OnlyIds P l) (hPQ : ∀ j c, P j c → Q j c) :
    OnlyIds Q l := by
  intro n hn
  rcases h n hn with hb | ⟨j', c', h1, h2⟩
  · exact Or.inl hb
  · exact Or.inr ⟨j', c', hPQ _ _ h1, h2⟩

/-! ### The parents -/

/-- The contract of the convergence dynamics at the position `x`: everything the avoider asks for is defined; the
rotations towards a component end in its direction `u`, where the sequence of the convergence dynamics starts, and the
direction `first` at the position can be told from it. -/
structure Turning (u : Vec d → Vec d) (first : Vec d) (a : Avoider d) (x : Vec d) : Prop where
  weight : ∀ t ∈ a.trees, ∀ o ∈ t.components, ∃ w, a.convergence.projectedWeight x o = .ok w ∧ w ≤ 1
  obstacle : ∀ t ∈ a.trees, ∃ w, treeWeight a t = .ok w
  unit : ∀ t ∈ a.trees, ∀ o ∈ t.components, ‖u o.referencePoint‖ = 1
  position : ∀ t ∈ a.trees, ∀ o, t.components[t.rootIdx]? = some o →
    ∃ R, a.convergence.positionToTransform x o = .ok (some R) ∧ OrthonormalPair R.base.b0 R.base.b1
      ∧ R.getSecondVector = u o.referencePoint ∧ GoodPair first (u o.referencePoint)
  start : ∀ t ∈ a.trees, ∀ o ∈ t.components,
    ∃ R, a.convergence.startToEnd x o.referencePoint a.initial.attractorPosition = .ok (some R)
      ∧ R.getSecondVector = u o.referencePoint
  parent : ∀ t ∈ a.trees, ∀ i j o o', t.parentIdx i = some j → t.components[i]? = some o →
    t.components[j]? = some o' →
    ∃ R, a.convergence.startToEnd o.referencePoint o'.referencePoint a.initial.attractorPosition = .ok (some R)
      ∧ R.getSecondVector = u o'.referencePoint
  sequence : ∀ t ∈ a.trees, ∀ o, t.components[t.rootIdx]? = some o →
    ∃ s, evaluateDynamicsSequence o.referencePoint (convergenceOf a) = .ok (some s)
      ∧ ∃ hs : Proper s, (s.head hs.ne).getFirstVector = u o.referencePoint

/-- The obstacle has its root among its components, the root alone has no parent, and everybody reaches it within
45 steps. -/
structure ShortHierarchy (t : ObstacleTree d) : Prop where
  root : t.rootIdx < t.components.length
  only : ∀ c < t.components.length, t.parentIdx c = none → c = t.rootIdx
  parents : ∀ c < t.components.length, ∃ m ≤ 45, ParentsEnd t c m

lemma addOrientation_step {t : Tree NodeId d} {r n p : NodeId} (h : RootedTree t r) {R : Rot (Vec d)} {v : Vec d}
    (hR : R.getSecondVector = v) (hv : ‖v‖ = 1) (hn : n ∉ t.nodes) (hp : p ∈ t.nodes) {l : ℤ}
    (hl : t.level p = some l) (hlt : l + 1 < 100) :
    ∃ t', t.addNodeOrientation n R p = (t', .ok ()) ∧ RootedTree t' r ∧ t'.nodes = t.nodes ++ [n]
      ∧ t'.level n = some (l + 1) ∧ t'.dir n = some v ∧ (∀ m ∈ t.nodes, t'.dir m = t.dir m) := by
  obtain ⟨t', a1, a2, a3, a4, a5, a6, _⟩ := addNode_step t r h n p v hv hn hp l hl hlt
  refine ⟨t', ?_, a2, a3, a4, a5, fun m hm => (a6 m hm).1⟩
  unfold Tree.addNodeOrientation
  have : R.rotate R.base.b0 = R.getSecondVector := by simp [Rot.rotate, Rot.getSecondVector]
  rw [this, hR, a1]

lemma parentChain_ok {u : Vec d → Vec d} {first : Vec d} {a : Avoider d} {x : Vec d} (ha : Turning u first a x)
    {ot : ObstacleTree d} (hot : ot ∈ a.trees) (hh : ShortHierarchy ot) {i com : ℕ} {c m : ℕ}
    (hm : ParentsEnd ot c m) :
    ∀ (fuel pp : ℕ) (pred : NodeId) (point : Vec d) (t : Tree NodeId d) (l : ℤ), RootedTree t (.num (-10)) →
      pred ∈ t.nodes → t.level pred = some l → l + m + 1 < 100 → m < fuel →
      (∀ o, ot.components[c]? = some o →
        ∃ R, a.convergence.startToEnd point o.referencePoint a.initial.attractorPosition = .ok (some R)
          ∧ R.getSecondVector = u o.referencePoint) →
      (∀ p' : ℕ, pp ≤ p' → NodeId.key i com p' ∉ t.nodes) →
      ∃ t' pred', parentChain a ot i com fuel pp c pred point t = .ok (t', pred') ∧ RootedTree t' (.num (-10))
        ∧ pred' ∈ t'.nodes ∧ t'.level pred' = some (l + m + 1)
        ∧ (∀ o, ot.components[ot.rootIdx]? = some o → t'.dir pred' = some (u o.referencePoint))
        ∧ (∀ n ∈ t.nodes, n ∈ t'.nodes ∧ t'.dir n = t.dir n)
        ∧ ∀ n ∈ t'.nodes, n ∈ t.nodes ∨ ∃ p' : ℕ, n = .key i com p' := by
  induction hm with
  | @stop c hc hp =>
    intro fuel pp pred point t l ht hpred hl hlt hfuel hstart hfresh
    obtain ⟨f, rfl⟩ : ∃ f, fuel = f + 1 := ⟨fuel - 1, by omega⟩
    have hg0 : ot.components[c]? = some (ot.components[c]) := List.getElem?_eq_getElem hc
    obtain ⟨R, hR, hRs⟩ := hstart _ hg0
    obtain ⟨t', b1, b2, b3, b4, b5, b6⟩ := addOrientation_step ht hRs (ha.unit ot hot _ (List.getElem_mem hc))
      (hfresh pp (le_refl _)) hpred hl (by push_cast at hlt; linarith)
    refine ⟨t', .key i com pp, ?_, b2, by rw [b3]; simp, by rw [b4]; simp, ?_, ?_, ?_⟩
    · unfold parentChain
      have hg : ot.getComponent c = .ok (ot.components[c]) := by
        unfold ObstacleTree.getComponent; rw [hg0]
      rw [hg]
      simp only [bind, Except.bind]
      rw [hR]
      simp only
      rw [b1]
      simp only [orRaise, hp]
    · intro o ho
      rw [← hh.only c hc hp, hg0] at ho
      cases ho
      exact b5
    · intro n hn
      exact ⟨by rw [b3]; simp [hn], b6 n hn⟩
    · intro n hn
      rw [b3, List.mem_append, List.mem_singleton] at hn
      rcases hn with hn | rfl
      · exact Or.inl hn
      · exact Or.inr ⟨pp, rfl⟩
  | @step c p m hc hp hrest ih =>
    intro fuel pp pred point t l ht hpred hl hlt hfuel hstart hfresh
    obtain ⟨f, rfl⟩ : ∃ f, fuel = f + 1 := ⟨fuel - 1, by omega⟩
    have hg0 : ot.components[c]? = some (ot.components[c]) := List.getElem?_eq_getElem hc
    obtain ⟨R, hR, hRs⟩ := hstart _ hg0
    obtain ⟨t1, b1, b2, b3, b4, b5, b6⟩ := addOrientation_step ht hRs (ha.unit ot hot _ (List.getElem_mem hc))
      (hfresh pp (le_refl _)) hpred hl (by push_cast at hlt; linarith)
    obtain ⟨t', pred', c1, c2, c3, c4, c5, c6, c7⟩ := ih f (pp + 1) (.key i com pp) (ot.components[c]).referencePoint t1
      (l + 1) b2 (by rw [b3]; simp) b4 (by push_cast at hlt; linarith) (by omega)
      (fun o ho => ha.parent ot hot c p _ o hp hg0 ho) (by
        intro p' hp' hmem
        rw [b3, List.mem_append, List.mem_singleton] at hmem
        rcases hmem with hmem | hmem
        · exact hfresh p' (by omega) hmem
        · injection hmem with _ _ h3
          have : p' = pp := by exact_mod_cast h3
          omega)
    refine ⟨t', pred', ?_, c2, c3, by rw [c4]; push_cast; congr 1; ring, c5, ?_, ?_⟩
    · rw [parentChain]
      have hg : ot.getComponent c = .ok (ot.components[c]) := by
        unfold ObstacleTree.getComponent; rw [hg0]
      rw [hg]
      simp only [bind, Except.bind]
      rw [hR]
      simp only
      rw [b1]
      simp only [orRaise, hp]
      exact c1
    · intro n hn
      have h1 := c6 n (by rw [b3]; simp [hn])
      exact ⟨h1.1, h1.2.trans (b6 n hn)⟩
    · intro n hn
      rcases c7 n hn with h | h
      · rw [b3, List.mem_append, List.mem_singleton] at h
        rcases h with h | rfl
        · exact Or.inl h
        · exact Or.inr ⟨pp, rfl⟩
      · exact Or.inr h

/-! ### The loops -/

/-- The invariant of the loops. -/
structure Growing (first : Vec d) (P : ℕ → ℕ → Prop) (t : Tree NodeId d) : Prop where
  rooted : RootedTree t (.num (-10))
  root : t.dir (.num (-10)) = some first
  ids : OnlyIds P t.nodes

lemma Growing.mono {first : Vec d} {P Q : ℕ → ℕ → Prop} {t : Tree NodeId d} (h : Growing first P t)
    (hPQ : ∀ j c, P j c → Q j c) : Growing first Q t := ⟨h.rooted, h.root, h.ids.mono hPQ⟩

/-- Adding a sequence with new identifiers. -/
lemma Growing.add {first : Vec d} {P : ℕ → ℕ → Prop} {t : Tree NodeId d} (h : Growing first P t) {i c : ℕ} {p : NodeId}
    (hn : NodeId.pair (.num i) c ∉ t.nodes) (hn' : ∀ l : ℕ, interId (.pair (.num i) c) l ∉ t.nodes) (hP : P i c)
    (hp : p ∈ t.nodes) {l : ℤ} (hl : t.level p = some l) {s : RotSeq (Vec d)} (hne : s ≠ []) (hs : UnitVectors s)
    (hlt : l + s.length < 100) {v : Vec d} (hv : t.dir p = some v) (hfirst : (s.head hne).getFirstVector = v) :
    ∃ t', t.addSequence interId (.pair (.num i) c) s p = (t', .ok ()) ∧ Growing first P t' := by
  obtain ⟨t', a1, a2, a3, a4, _⟩ := addSequence_unit interId t (.num (-10)) h.rooted (.pair (.num i) c) p s hne hs hp
    ⟨by intro a b hab; simp only [interId] at hab; injection hab, by intro j hj; simp [interId] at hj, hn', hn⟩ l hl hlt (by
      have : dirOf t p = v := by unfold dirOf; rw [hv]; rfl
      rw [this, ← hfirst]
      exact allclose_refl _)
  refine ⟨t', a1, a2, by rw [(a4 _ h.rooted.root_mem).1, h.root], ?_⟩
  intro n hnm
  rw [a3, List.append_assoc, List.mem_append, List.mem_append, List.mem_singleton, List.mem_map] at hnm
  rcases hnm with hnm | ⟨j, _, rfl⟩ | rfl
  · exact h.ids n hnm
  · exact Or.inr ⟨i, c, hP, Or.inr (Or.inl ⟨j, rfl⟩)⟩
  · exact Or.inr ⟨i, c, hP, Or.inl rfl⟩

/-- What has been processed before component `c` of obstacle `i`. -/
def Before (i root c : ℕ) (j c' : ℕ) : Prop := j < i ∨ (j = i ∧ (c' = root ∨ c' < c))

lemma convComponent_ok {u : Vec d → Vec d} {first : Vec d} {a : Avoider d} {x : Vec d} (ha : Turning u first a x)
    {ot : ObstacleTree d} (hot : ot ∈ a.trees) (hh : ShortHierarchy ot) {i : ℕ} {tw : ℝ} {root : Obstacle d}
    (hroot : ot.components[ot.rootIdx]? = some root) {s2 : RotSeq (Vec d)} (h2 : Proper s2)
    (hs2 : (s2.head h2.ne).getFirstVector = u root.referencePoint) {c : ℕ} {o : Obstacle d}
    (hc : ot.components[c]? = some o) {st : ConvState d}
    (hst : Growing first (Before i ot.rootIdx c) st.tree) :
    ∃ st', convComponent a x i ot tw (some s2) st (o, c) = .ok st'
      ∧ Growing first (Before i ot.rootIdx (c + 1)) st'.tree := by
  classical
  have hmono : ∀ j c', Before i ot.rootIdx c j c' → Before i ot.rootIdx (c + 1) j c' := by
    rintro j c' (h | ⟨h, h' | h'⟩)
    · exact Or.inl h
    · exact Or.inr ⟨h, Or.inl h'⟩
    · exact Or.inr ⟨h, Or.inr (by omega)⟩
  unfold convComponent
  by_cases h0 : c = ot.rootIdx
  · rw [if_pos h0]
    exact ⟨st, rfl, hst.mono hmono⟩
  · rw [if_neg h0]
    have hom : o ∈ ot.components := List.mem_of_getElem? hc
    obtain ⟨w, hw, _⟩ := ha.weight ot hot o hom
    simp only
    rw [hw]
    simp only [bind, Except.bind]
    by_cases h1 : w ≤ 1e-2
    · rw [if_pos h1]
      exact ⟨st, rfl, hst.mono hmono⟩
    · rw [if_neg h1]
      have hclt : c < ot.components.length := (List.getElem?_eq_some_iff.mp hc).1
      obtain ⟨m, hm45, hm⟩ := hh.parents c hclt
      have hm' : (m : ℤ) ≤ 45 := by exact_mod_cast hm45
      have hnot : ¬ Before i ot.rootIdx c i c := by
        rintro (h | ⟨_, h | h⟩)
        · omega
        · exact h0 h
        · omega
      obtain ⟨t', pred, b1, b2, b3, b4, b5, b6, b7⟩ := parentChain_ok ha hot hh (i := i) (com := c) hm 100 0 (.num (-10)) x
        st.tree 0 hst.rooted hst.rooted.root_mem hst.rooted.root_level (by linarith) (by omega)
        (fun o' ho' => ha.start ot hot o' (List.mem_of_getElem? ho')) (by
          intro p' _
          exact hst.ids.fresh hnot (Or.inr (Or.inr ⟨p', rfl⟩)))
      have hg' : Growing first (Before i ot.rootIdx (c + 1)) t' := by
        refine ⟨b2, by rw [(b6 _ hst.rooted.root_mem).2, hst.root], ?_⟩
        intro n hn
        rcases b7 n hn with h | ⟨p', rfl⟩
        · exact hst.ids.mono hmono n h
        · exact Or.inr ⟨i, c, Or.inr ⟨rfl, Or.inr (by omega)⟩, Or.inr (Or.inr ⟨p', rfl⟩)⟩
      have hlen : (s2.length : ℤ) < 50 := by exact_mod_cast h2.short
      obtain ⟨t2, c1, c2⟩ := hg'.add (i := i) (c := c) (p := pred) (by
          intro hmem
          rcases b7 _ hmem with h | ⟨p', h⟩
          · exact hst.ids.fresh hnot (Or.inl rfl) h
          · cases h) (by
          intro l hmem
          rcases b7 _ hmem with h | ⟨p', h⟩
          · exact hst.ids.fresh hnot (Or.inr (Or.inl ⟨l, rfl⟩)) h
          · simp [interId] at h) (Or.inr ⟨rfl, Or.inr (by omega)⟩) b3 b4 h2.ne (unitVectors_of_on h2.on)
          (by linarith) (b5 root hroot) hs2
      rw [b1]
      simp only
      rw [c1]
      exact ⟨_, rfl, c2⟩

lemma convTree_ok {u : Vec d → Vec d} {ext : Ext d k} (has : ArgsortSpec ext.argsort) {a : Avoider d} {x : Vec d}
    {s : RotSeq (Vec d)} (hs : Proper s) (ha : Turning u (s.head hs.ne).getFirstVector a x)
    {ot : ObstacleTree d} (hot : ot ∈ a.trees) (hh : ShortHierarchy ot) {i : ℕ} {st : ConvState d}
    (hst : Growing (s.head hs.ne).getFirstVector (fun j _ => j < i) st.tree) :
    ∃ st', convTree ext a x s st (ot, i) = .ok st'
      ∧ Growing (s.head hs.ne).getFirstVector (fun j _ => j < i + 1) st'.tree := by
  classical
  obtain ⟨tw, htw⟩ := ha.obstacle ot hot
  unfold convTree
  simp only [htw, bind, Except.bind]
  by_cases h0 : tw ≤ 1e-6
  · rw [if_pos h0]
    exact ⟨st, rfl, hst.mono (fun j _ h => by omega)⟩
  · rw [if_neg h0]
    have hr : ot.components[ot.rootIdx]? = some (ot.components[ot.rootIdx]'hh.root) := List.getElem?_eq_getElem hh.root
    generalize ot.components[ot.rootIdx]'hh.root = root at hr
    have hroot : ot.getComponent ot.rootIdx = .ok root := by
      unfold ObstacleTree.getComponent; rw [hr]
    obtain ⟨w, hw, hw1⟩ := ha.weight ot hot root (List.mem_of_getElem? hr)
    obtain ⟨R, hR, hRon, hRs, hgp⟩ := ha.position ot hot root hr
    obtain ⟨s2, hseq, hp2, hs2⟩ := ha.sequence ot hot root hr
    obtain ⟨cont, e1, ⟨e2, e3⟩, e4, e5⟩ := reduction_ok hs hp2 hRon (by rw [hRs]; exact hgp) (by rw [hRs]; exact hs2)
      has hw1
    have hseq' : evaluateDynamicsSequence root.referencePoint (a.default.getD a.initial) = .ok (some s2) := hseq
    rw [hroot]
    simp only
    rw [hw, hR]
    simp only
    rw [hseq']
    simp only
    rw [e1]
    simp only
    have hnot : ¬ (fun j (_ : ℕ) => j < i) i ot.rootIdx := by simp
    have hst' : Growing (s.head hs.ne).getFirstVector (Before i ot.rootIdx 0) st.tree :=
      hst.mono (fun j _ h => Or.inl h)
    obtain ⟨t1, b1, b2⟩ := hst'.add (i := i) (c := ot.rootIdx) (p := .num (-10))
      (hst.ids.fresh hnot (Or.inl rfl)) (fun l => hst.ids.fresh hnot (Or.inr (Or.inl ⟨l, rfl⟩)))
      (Or.inr ⟨rfl, Or.inl rfl⟩) hst.rooted.root_mem hst.rooted.root_level e2 e4
      (by have : (cont.length : ℤ) < 100 := by exact_mod_cast e5
          linarith) hst.root e3
    rw [b1]
    simp only [orRaise]
    obtain ⟨st', f1, f2⟩ := foldlM_zipIdx_total (f := convComponent a x i ot tw (some s2))
      (fun c (s' : ConvState d) => Growing (s.head hs.ne).getFirstVector (Before i ot.rootIdx c) s'.tree)
      ot.components 0 (if w > 1e-6 then
            (⟨t1, st.nodes ++ [.pair (.num i) ot.rootIdx], st.weights ++ [w * tw]⟩ : ConvState d)
          else ⟨t1, st.nodes, st.weights⟩) (by
        have ht : (if w > 1e-6 then
            (⟨t1, st.nodes ++ [.pair (.num i) ot.rootIdx], st.weights ++ [w * tw]⟩ : ConvState d)
          else ⟨t1, st.nodes, st.weights⟩).tree = t1 := by split_ifs <;> rfl
        rw [ht]
        exact b2) (by
        intro c hc s' hs'
        have := convComponent_ok ha hot hh (tw := tw) hr hp2 hs2 (c := 0 + c) (o := ot.components[c])
          (by rw [zero_add]; exact List.getElem?_eq_getElem hc) hs'
        exact this)
    refine ⟨st', f1, f2.mono ?_⟩
    rintro j c' (h | ⟨h, _⟩) <;> omega

/-- The tree of convergence directions exists. -/
lemma convergenceTree_exists {u : Vec d → Vec d} {ext : Ext d k} (has : ArgsortSpec ext.argsort) {a : Avoider d}
    {x : Vec d} {s : RotSeq (Vec d)} (hs : Proper s) (ha : Turning u (s.head hs.ne).getFirstVector a x)
    (hh : ∀ t ∈ a.trees, ShortHierarchy t) :
    ∃ st, ConvergenceTree ext a x s st := by
  obtain ⟨t, a1, a2, a3, a4, a5, _⟩ := fromSequence_proper (.num (-10)) (.num (-1))
    ⟨by intro i j h; simp only [interId] at h; injection h, by intro i h; simp [interId] at h,
      by intro i h; simp [interId] at h, by simp⟩ hs
  obtain ⟨st, f1, _⟩ := foldlM_zipIdx_total (f := convTree ext a x s)
    (fun i (s' : ConvState d) => Growing (s.head hs.ne).getFirstVector (fun j _ => j < i) s'.tree)
    a.trees 0 ⟨t, [], []⟩ (by
      refine ⟨a2, ?_, ?_⟩
      · rw [← a5]
        exact (dir_eq a2 a2.root_mem).1
      · intro n hn
        change n ∈ t.nodes at hn
        rw [a4] at hn
        simp only [List.cons_append, List.nil_append, List.mem_cons, List.mem_append,
          List.mem_map, List.not_mem_nil, or_false] at hn
        rcases hn with rfl | ⟨j, _, rfl⟩ | rfl
        · exact Or.inl (Or.inl ⟨_, rfl⟩)
        · exact Or.inl (Or.inr ⟨j, rfl⟩)
        · exact Or.inl (Or.inl ⟨_, rfl⟩)) (by
      intro i hi s' hs'
      exact convTree_ok has hs ha (List.getElem_mem hi) (hh _ (List.getElem_mem hi)) hs')
  exact ⟨st, t, a1, f1⟩

end Verif
