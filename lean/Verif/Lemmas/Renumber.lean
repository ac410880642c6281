import Verif.Lemmas.OrderWeights

/-!
# Helper lemmas: the obstacles in another order have other numbers
-/

open scoped RealInnerProductSpace

namespace Verif
open Spec

/-- A list with the indices `0, …, n - 1` in another order, as a permutation of the numbers. -/
lemma exists_index_perm {M : List ℕ} {n : ℕ} (h : M.Perm (List.range n)) :
    ∃ τ : Equiv.Perm ℕ, ∀ i (hi : i < M.length), τ M[i] = i := by
  have hnd : M.Nodup := h.nodup_iff.mpr List.nodup_range
  have hlen : M.length = n := by rw [h.length_eq, List.length_range]
  have hmem : ∀ i, i ∈ M ↔ i < n := fun i => by rw [h.mem_iff, List.mem_range]
  refine ⟨⟨fun i => if i < n then M.idxOf i else i, fun j => if hj : j < n then M[j]'(by omega) else j, ?_, ?_⟩, ?_⟩
  · intro i
    by_cases hi : i < n
    · have h1 : M.idxOf i < M.length := List.idxOf_lt_length_iff.mpr ((hmem i).mpr hi)
      simp only [if_pos hi]
      rw [dif_pos (by omega)]
      exact List.getElem_idxOf h1
    · simp only [if_neg hi]; rw [dif_neg hi]
  · intro j
    by_cases hj : j < n
    · simp only [dif_pos hj]
      rw [if_pos ((hmem _).mp (List.getElem_mem _))]
      exact hnd.idxOf_getElem _ _
    · simp only [dif_neg hj]; rw [if_neg hj]
  · intro i hi
    change (if M[i] < n then M.idxOf M[i] else M[i]) = i
    rw [if_pos ((hmem _).mp (List.getElem_mem _))]
    exact hnd.idxOf_getElem _ _

/-- A permutation of the natural numbers on the integers; negative numbers stay. -/
def onInt (τ : Equiv.Perm ℕ) : Equiv.Perm ℤ where
  toFun z := if 0 ≤ z then (τ z.toNat : ℤ) else z
  invFun z := if 0 ≤ z then (τ.symm z.toNat : ℤ) else z
  left_inv z := by
    by_cases h : 0 ≤ z
    · simp [h]
    · simp [h]
  right_inv z := by
    by_cases h : 0 ≤ z
    · simp [h]
    · simp [h]

lemma onInt_nat (τ : Equiv.Perm ℕ) (i : ℕ) : onInt τ i = τ i := by
  simp [onInt]

lemma onInt_neg (τ : Equiv.Perm ℕ) {z : ℤ} (h : z < 0) : onInt τ z = z := by
  simp [onInt, not_le.mpr h]

lemma zipIdx_renumber {α : Type*} {l l' : List α} (h : l'.Perm l) :
    ∃ τ : Equiv.Perm ℕ, l'.zipIdx.Perm (l.zipIdx.map (fun p => (p.1, τ p.2))) := by
  obtain ⟨E, h1, h2⟩ := exists_perm_map (Prod.fst : α × ℕ → α) l' l.zipIdx (by rw [List.zipIdx_map_fst]; exact h)
  have h3 : (E.map Prod.snd).Perm (List.range l.length) := by
    have := h1.map Prod.snd
    rwa [List.zipIdx_map_snd, ← List.range_eq_range'] at this
  obtain ⟨τ, hτ⟩ := exists_index_perm h3
  refine ⟨τ, ?_⟩
  have e : l'.zipIdx = E.map (fun p => (p.1, τ p.2)) := by
    apply List.ext_getElem
    · simp [← h2]
    · intro i h4 h5
      simp only [List.getElem_zipIdx, List.getElem_map, zero_add]
      have := hτ i (by simpa using h5)
      rw [List.getElem_map] at this
      rw [this]
      subst h2
      simp
  rw [e]
  exact h1.map _

section
variable {d k : ℕ} [Fact (2 ≤ d)]
set_option linter.unusedSectionVars false

lemma renameFun_fixed {σ : ℤ → ℤ} {n : NodeId} (h : σ (ixOf n) = ixOf n) : renameFun σ n = n := by
  induction n with
  | num z => simpa [renameFun, ixOf] using h
  | pair a i ih => simp only [renameFun]; rw [ih h]
  | key o c l => simpa [renameFun, ixOf] using h

/-- A tree all nodes of which keep their names. -/
lemma treeIso_fixed {f : NodeId ≃ NodeId} {t : Tree NodeId d} {r : NodeId} (h : RootedTree t r)
    (hf : ∀ n ∈ t.nodes, f n = n) : TreeIso f t t := by
  have hr : f r = r := hf r (List.mem_of_mem_head? h.root_first)
  have hout : ∀ n, n ∉ t.nodes → f n ∉ t.nodes := by
    intro n hn hfn
    have := hf _ hfn
    rw [f.injective this] at hfn
    exact hn hfn
  refine ⟨?_, ?_, ?_, ?_, ?_⟩
  · apply List.Perm.of_eq
    conv_lhs => rw [← List.map_id t.nodes]
    exact List.map_congr_left (fun n hn => (hf n hn).symm)
  · apply List.Perm.of_eq
    conv_lhs => rw [← List.map_id t.edges]
    refine List.map_congr_left (fun e he => ?_)
    obtain ⟨p, c⟩ := e
    simp only [id, Prod.map]
    rw [hf p (h.edge_fst p c he), hf c (h.edge_snd p c he)]
  · intro n
    by_cases hn : n ∈ t.nodes
    · rw [hf n hn]
    · rw [(h.no_attr n hn).1, (h.no_attr _ (hout n hn)).1]
  · intro n
    by_cases hn : n ∈ t.nodes
    · rw [hf n hn]
    · rw [(h.no_attr n hn).2, (h.no_attr _ (hout n hn)).2]
  · rw [h.root_idx]; simp [hr]

/-- Only the given node is added. -/
lemma addNode_nodes {n r : NodeId} {v : Vec d} {p : NodeId} {t t' : Tree NodeId d} (h : RootedTree t r)
    (hok : orRaise (t.addNode n v (some p)) = .ok t') : ∀ m ∈ t'.nodes, m ∈ t.nodes ∨ m = n := by
  obtain ⟨h1, h2⟩ := orRaise_ok.mp hok
  subst h1
  intro m hm
  rw [(C17_add_node_effect t r h n p v h2).1, List.mem_append, List.mem_singleton] at hm
  exact hm

lemma addSequenceLoop_nodes {n r : NodeId} (s : RotSeq (Vec d)) :
    ∀ {ii : ℕ} {p p' : NodeId} {t t' : Tree NodeId d}, RootedTree t r →
      Tree.addSequenceLoop interId n s ii p t = (t', .ok p') → ∀ m ∈ t'.nodes, m ∈ t.nodes ∨ ixOf m = ixOf n := by
  induction s with
  | nil =>
    intro ii p p' t t' h hok
    unfold Tree.addSequenceLoop at hok
    cases hok
    exact fun m hm => Or.inl hm
  | cons q s ih =>
    intro ii p p' t t' h hok m hm
    unfold Tree.addSequenceLoop at hok
    split at hok
    · cases hok
    · rename_i t1 h1
      have hf := addNode_full (t' := t1) h (by rw [h1]; rfl)
      rcases ih hf.1 hok m hm with h2 | h2
      · rcases addNode_nodes (t' := t1) h (by rw [h1]; rfl) m h2 with h3 | rfl
        · exact Or.inl h3
        · exact Or.inr rfl
      · exact Or.inr h2

lemma addSequence_nodes {n r p : NodeId} {s : RotSeq (Vec d)} {t t' : Tree NodeId d} (h : RootedTree t r)
    (hok : t.addSequence interId n s p true = (t', .ok ())) : ∀ m ∈ t'.nodes, m ∈ t.nodes ∨ ixOf m = ixOf n := by
  classical
  unfold Tree.addSequence at hok
  simp only [if_true] at hok
  cases s with
  | nil => cases hok
  | cons q s =>
    simp only at hok
    cases hd : t.dir p with
    | none => rw [hd] at hok; cases hok
    | some v =>
      rw [hd] at hok
      simp only at hok
      split_ifs at hok with hc
      · cases h1 : Tree.addSequenceLoop interId n (List.drop 1 (q :: s)) 1 p t with
        | mk t1 e1 =>
          rw [h1] at hok
          cases e1 with
          | error e => cases hok
          | ok p1 =>
            simp only at hok
            obtain ⟨a1, a2⟩ := addSequenceLoop_grows _ h h1
            cases he : RotSeq.getEndVector (q :: s) with
            | error e => rw [he] at hok; cases hok
            | ok w =>
              rw [he] at hok
              simp only at hok
              intro m hm
              rcases addNode_nodes (t' := t') a1 (by rw [hok]; rfl) m hm with h3 | rfl
              · exact addSequenceLoop_nodes _ h h1 m h3
              · exact Or.inr rfl
      · cases hok

lemma setRoot_nodes {n : NodeId} {v : Vec d} {t : Tree NodeId d}
    (h : (Tree.empty : Tree NodeId d).setRoot n v = .ok t) : t.nodes = [n] := by
  unfold Tree.setRoot at h
  split at h
  · cases h
  · cases h
    simp [Tree.setRootOrientation, Tree.setAttr, Tree.empty, Tree.touch]

lemma fromSequence_nodes {s : RotSeq (Vec d)} {t : Tree NodeId d}
    (h : Tree.fromSequence interId (.num (-10)) (.num (-1)) s = .ok t) :
    ∀ m ∈ t.nodes, ixOf m = -10 ∨ ixOf m = -1 := by
  unfold Tree.fromSequence at h
  cases s with
  | nil => cases h
  | cons q s =>
    simp only at h
    cases h1 : (Tree.empty : Tree NodeId d).setRoot (.num (-10)) q.base.b0 with
    | error e => rw [h1] at h; cases h
    | ok t0 =>
      rw [h1] at h
      simp only at h
      cases h2 : t0.addSequence interId (.num (-1)) (q :: s) (.num (-10)) true with
      | mk t1 e =>
        rw [h2] at h
        cases e with
        | error e => cases h
        | ok u =>
          cases h
          intro m hm
          rcases addSequence_nodes (C17_set_root _ _ _ h1) h2 m hm with h3 | h3
          · left
            rw [setRoot_nodes h1, List.mem_singleton] at h3
            rw [h3]; rfl
          · exact Or.inr h3

/-- What holds for the data of all passes of a loop. -/
lemma foldRun_all {P D : Type} {run : P → Tree NodeId d → Except PyErr (Tree NodeId d × D)} {r : NodeId}
    {Q : D → Prop} (l : List P)
    (hrun : ∀ p ∈ l, ∀ t t1 D, RootedTree t r → run p t = .ok (t1, D) → RootedTree t1 r ∧ Q D) :
    ∀ {t t1 : Tree NodeId d} {Ds : List D}, RootedTree t r → foldRun run t l = .ok (t1, Ds) → ∀ D ∈ Ds, Q D := by
  induction l with
  | nil => intro t t1 Ds _ h; cases h; simp
  | cons p l ih =>
    intro t t1 Ds h0 h
    unfold foldRun at h
    cases e1 : run p t with
    | error e => rw [e1] at h; cases h
    | ok w =>
      obtain ⟨t2, D⟩ := w
      rw [e1] at h
      simp only at h
      cases e2 : foldRun run t2 l with
      | error e => rw [e2] at h; cases h
      | ok w =>
        obtain ⟨t3, Ds3⟩ := w
        rw [e2] at h
        cases h
        obtain ⟨g1, g2⟩ := hrun p List.mem_cons_self t t2 D h0 e1
        intro E hE
        rcases List.mem_cons.mp hE with rfl | hE
        · exact g2
        · exact ih (fun p hp => hrun p (List.mem_cons_of_mem _ hp)) g1 e2 E hE

end
end Verif
