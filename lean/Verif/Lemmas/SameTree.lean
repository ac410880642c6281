import Verif.Lemmas.RotationalSequence

/-! # Two trees that differ in the directions of a closed set of nodes only -/

open scoped RealInnerProductSpace
open Verif.Spec

set_option linter.unusedSectionVars false

namespace Verif.Rotational

variable {d k : ℕ} [h2 : Fact (2 ≤ d)] {I : Type} [DecidableEq I]

/-- The trees have the same shape, and the same directions outside of `B`; the children of a node of `B` are
in `B`. -/
structure Same (B : Set I) (t t' : Tree I d) : Prop where
  nodes : t'.nodes = t.nodes
  edges : t'.edges = t.edges
  level : t'.level = t.level
  root : t'.root = t.root
  dir : ∀ n, n ∉ B → t'.dir n = t.dir n
  closed : ∀ a b, IsParent t a b → a ∈ B → b ∈ B

lemma Same.addNode {B : Set I} {t t' : Tree I d} {r : I} (hs : Same B t t') (h : RootedTree t r)
    (h' : RootedTree t' r) (n p : I) (v v' : Vec d) (hv : v ≠ 0) (hv' : v' ≠ 0) (hn : n ∉ t.nodes)
    (hp : p ∈ t.nodes) (l : ℤ) (hl : t.level p = some l) (hlt : l + 1 < 100) (hB : p ∈ B → n ∈ B)
    (hvv : n ∉ B → v' = v) :
    ∃ t1 t1', t.addNode n v (some p) = (t1, .ok ()) ∧ t'.addNode n v' (some p) = (t1', .ok ())
      ∧ Same B t1 t1' ∧ RootedTree t1 r ∧ RootedTree t1' r ∧ t1.nodes = t.nodes ++ [n]
      ∧ t1.level n = some (l + 1) := by
  have he := addNode_parent t n p v hv hn hp (fun he => hn (h.edge_snd _ _ he))
    (fun c he => hn (h.edge_fst _ _ he)) l hl hlt
  have hn' : n ∉ t'.nodes := by rw [hs.nodes]; exact hn
  have hp' : p ∈ t'.nodes := by rw [hs.nodes]; exact hp
  have hl' : t'.level p = some l := by rw [hs.level]; exact hl
  have he' := addNode_parent t' n p v' hv' hn' hp' (fun he => hn' (h'.edge_snd _ _ he))
    (fun c he => hn' (h'.edge_fst _ _ he)) l hl' hlt
  have hr := addNode_rooted t r h n p v hv hn hp l hl hlt
  have hr' := addNode_rooted t' r h' n p v' hv' hn' hp' l hl' hlt
  rw [he] at hr
  rw [he'] at hr'
  refine ⟨_, _, he, he', ⟨?_, ?_, ?_, hs.root, ?_, ?_⟩, hr, hr', rfl, by simp⟩
  · simp only [hs.nodes]
  · simp only [hs.edges]
  · simp only [hs.level]
  · intro m hm
    by_cases hmn : m = n
    · subst hmn
      simp [hvv hm]
    · simp [hmn, hs.dir m hm]
  · intro a b hab ha
    simp only [IsParent, List.mem_append, List.mem_singleton, Prod.mk.injEq] at hab
    rcases hab with hab | ⟨rfl, rfl⟩
    · exact hs.closed a b hab ha
    · exact hB ha

lemma Same.addSequenceLoop {B : Set I} (inter : I → ℕ → I) (n : I) (hinj : Function.Injective (inter n))
    (s s' : RotSeq (Vec d)) (hlen : s'.length = s.length) (hs : ∀ q ∈ s, ‖q.base.b0‖ = 1)
    (hs' : ∀ q ∈ s', ‖q.base.b0‖ = 1) (ii : ℕ) (p : I)
    (hB : (∀ i, inter n i ∈ B) ∨ (s' = s ∧ p ∉ B ∧ ∀ i, inter n i ∉ B))
    (t t' : Tree I d) (r : I) (hst : Same B t t') (h : RootedTree t r) (h' : RootedTree t' r)
    (hp : p ∈ t.nodes) (hnew : ∀ k, ii ≤ k → inter n k ∉ t.nodes)
    (l : ℤ) (hl : t.level p = some l) (hlt : l + s.length < 100) :
    ∃ t1 t1' p1, Tree.addSequenceLoop inter n s ii p t = (t1, .ok p1)
      ∧ Tree.addSequenceLoop inter n s' ii p t' = (t1', .ok p1)
      ∧ Same B t1 t1' ∧ RootedTree t1 r ∧ RootedTree t1' r ∧ p1 ∈ t1.nodes
      ∧ t1.level p1 = some (l + s.length)
      ∧ t1.nodes = t.nodes ++ (List.range' ii s.length).map (inter n) := by
  induction s generalizing s' ii p t t' l with
  | nil =>
    have : s' = [] := List.length_eq_zero_iff.mp (by rw [hlen]; rfl)
    subst this
    exact ⟨t, t', p, rfl, rfl, hst, h, h', hp, by simpa using hl, by simp⟩
  | cons q s ih =>
    cases s' with
    | nil => simp at hlen
    | cons q' s' =>
      have ne : ∀ q : Rot (Vec d), ‖q.base.b0‖ = 1 → q.base.b0 ≠ 0 := by
        intro q hq h0; rw [h0] at hq; simp at hq
      rw [List.length_cons] at hlt
      push_cast at hlt
      obtain ⟨t1, t1', a1, a2, a3, a4, a5, a6, a7⟩ := hst.addNode h h' (inter n ii) p q.base.b0 q'.base.b0
        (ne _ (hs q List.mem_cons_self)) (ne _ (hs' q' List.mem_cons_self)) (hnew ii (le_refl _)) hp l hl
        (by omega)
        (fun hpB => hB.elim (fun hx => hx ii) (fun hx => absurd hpB hx.2.1))
        (fun hnB => hB.elim (fun hx => absurd (hx ii) hnB) (fun hx => by
          have := hx.1
          injection this with e1 _
          rw [e1]))
      obtain ⟨t2, t2', p2, b1, b2, b3, b4, b5, b6, b7, b8⟩ := ih s' (by simpa using hlen)
        (fun x hx => hs x (List.mem_cons_of_mem _ hx)) (fun x hx => hs' x (List.mem_cons_of_mem _ hx))
        (ii + 1) (inter n ii) (hB.imp id (fun hx => ⟨by have := hx.1; injection this, hx.2.2 ii, hx.2.2⟩)) t1 t1' a3 a4 a5
        (by rw [a6]; simp)
        (by
          intro k hk
          rw [a6, List.mem_append, List.mem_singleton, not_or]
          exact ⟨hnew k (by omega), fun e => by have := hinj e; omega⟩)
        (l + 1) a7 (by omega)
      refine ⟨t2, t2', p2, ?_, ?_, b3, b4, b5, b6, ?_, ?_⟩
      · unfold Tree.addSequenceLoop
        rw [a1]; exact b1
      · unfold Tree.addSequenceLoop
        rw [a2]; exact b2
      · rw [b7, List.length_cons]; push_cast; congr 1; ring
      · rw [b8, a6, List.append_assoc, List.length_cons, List.range'_succ, List.map_cons]
        rfl

lemma Same.addSequence {B : Set I} (inter : I → ℕ → I) (n p : I) (s s' : RotSeq (Vec d)) (hne : s ≠ [])
    (hne' : s' ≠ []) (hlen : s'.length = s.length) (hs : UnitVectors s)
    (hs' : UnitVectors s') (t t' : Tree I d) (r : I)
    (hB : (n ∈ B ∧ ∀ i, inter n i ∈ B) ∨ (s' = s ∧ n ∉ B ∧ ∀ i, inter n i ∉ B)) (hpB : p ∉ B)
    (hst : Same B t t') (h : RootedTree t r) (h' : RootedTree t' r)
    (hp : p ∈ t.nodes) (hf : FreshIds inter t.nodes n) (l : ℤ) (hl : t.level p = some l)
    (hlt : l + s.length < 100) (hclose : allclose (s.head hne).base.b0 (dirOf t p))
    (hclose' : allclose (s'.head hne').base.b0 (dirOf t p)) :
    ∃ t1 t1', t.addSequence inter n s p true = (t1, .ok ())
      ∧ t'.addSequence inter n s' p true = (t1', .ok ())
      ∧ Same B t1 t1' ∧ RootedTree t1 r ∧ RootedTree t1' r := by
  cases s with
  | nil => exact absurd rfl hne
  | cons q s =>
  cases s' with
  | nil => exact absurd rfl hne'
  | cons q' s' =>
    rw [List.length_cons] at hlt
    push_cast at hlt
    have hp' : p ∈ t'.nodes := by rw [hst.nodes]; exact hp
    have hd : t'.dir p = t.dir p := hst.dir p hpB
    obtain ⟨t1, t1', p1, b1, b2, b3, b4, b5, b6, b7, b8⟩ := Same.addSequenceLoop (B := B) inter n hf.inj s s'
      (by simpa using hlen) (fun x hx => (hs x (List.mem_cons_of_mem _ hx)).1)
      (fun x hx => (hs' x (List.mem_cons_of_mem _ hx)).1) 1 p
      (hB.imp (fun hx => hx.2) (fun hx => ⟨by have := hx.1; injection this, hpB, hx.2.2⟩))
      t t' r hst h h' hp (fun k _ => hf.new k) l hl (by omega)
    have hend := (hs _ (List.getLast_mem hne)).2
    have hend' := (hs' _ (List.getLast_mem hne')).2
    have hpn : p1 ∈ B → n ∈ B := by
      intro hx
      rcases hB with hB | hB
      · exact hB.1
      · exfalso
        have hmem := b6
        by_cases hempty : s = []
        · subst hempty
          have : s' = [] := List.length_eq_zero_iff.mp (by simpa using hlen)
          subst this
          simp only [Tree.addSequenceLoop, Prod.mk.injEq, Except.ok.injEq] at b1
          rw [← b1.2] at hx
          exact hpB hx
        · have key : ∀ (s : RotSeq (Vec d)) ii p (t t1 : Tree I d) p1, p ∉ B →
              Tree.addSequenceLoop inter n s ii p t = (t1, .ok p1) → p1 ∉ B := by
            intro s
            induction s with
            | nil =>
              intro ii p t t1 p1 hp he
              simp only [Tree.addSequenceLoop, Prod.mk.injEq, Except.ok.injEq] at he
              rw [← he.2]; exact hp
            | cons q s ih =>
              intro ii p t t1 p1 hp he
              unfold Tree.addSequenceLoop at he
              split at he
              · cases he
              · exact ih _ _ _ _ _ (hB.2.2 ii) he
          exact key _ _ _ _ _ _ hpB b1 hx
    obtain ⟨t2, t2', a1, a2, a3, a4, a5, a6, a7⟩ := b3.addNode b4 b5 n p1
      ((q :: s).getLast hne).getSecondVector ((q' :: s').getLast hne').getSecondVector
      (by intro h0; rw [h0] at hend; simp at hend) (by intro h0; rw [h0] at hend'; simp at hend')
      (by
        rw [b8, List.mem_append, not_or]
        refine ⟨hf.end_new, ?_⟩
        intro hm
        obtain ⟨k, _, hk⟩ := List.mem_map.mp hm
        exact hf.ne k hk)
      b6 _ b7 (by omega) hpn
      (fun hnB => by
        rcases hB with hB | hB
        · exact absurd hB.1 hnB
        · simp only [hB.1])
    refine ⟨t2, t2', ?_, ?_, a3, a4, a5⟩
    · unfold Tree.addSequence
      simp only [if_true, (dir_eq h hp).1]
      rw [if_pos (by simpa using hclose)]
      simp only [List.drop_succ_cons, List.drop_zero, b1, endVector_of_ne _ hne, a1]
    · unfold Tree.addSequence
      simp only [if_true, hd, (dir_eq h hp).1]
      rw [if_pos (by simpa using hclose')]
      simp only [List.drop_succ_cons, List.drop_zero, b2, endVector_of_ne _ hne', a2]

/-- A zero weight on `B` makes the directions in `B` irrelevant. -/
lemma Same.reduce {B : Set I} {t t' : Tree I d} {r : I} (hst : Same B t t') (h : RootedTree t r)
    (h' : RootedTree t' r) (hg : GoodDirections t) (hg' : GoodDirections t')
    (argsort : List ℤ → List ℕ) (has : ArgsortSpec argsort) (st : NodeState I d) (ns : List I) (ws : List ℝ)
    (hlen : ns.length = ws.length) (hnd : ns.Nodup) (hns : ∀ n ∈ ns, n ∈ t.nodes) (hw : ∀ w ∈ ws, 0 ≤ w)
    (hle : ws.sum ≤ 1) (h0 : ∀ n ∈ B, givenWeight (ns.zip ws) n = 0) :
    t'.reduceWeightedToSequence argsort st ns ws = t.reduceWeightedToSequence argsort st ns ws := by
  classical
  have hr := C20_root_total t r h ns ws hlen hnd hns
  refine (C23_no_influence t t' r h h' hg.inner hg'.inner hst.nodes hst.edges hst.level argsort has st st ns ws hlen hns hw
    ?_ ?_).1
  · intro n hn _
    refine le_trans (branchWeight_le_root h _ (fun p hp => hw _ (zip_fst_mem hp).2) hn) ?_
    rw [hr]; exact hle
  · intro n hn hb
    apply hst.dir
    intro hB
    apply hb
    have hcl : ∀ m, Descendant t n m → m ∈ B := by
      intro m hm
      induction hm with
      | single hm => exact hst.closed _ _ hm hB
      | tail _ hm ih => exact hst.closed _ _ hm ih
    unfold branchWeight
    apply Finset.sum_eq_zero
    intro m hm
    apply h0
    rcases (Finset.mem_filter.mp hm).2 with rfl | hm
    · exact hB
    · exact hcl m hm

end Verif.Rotational
