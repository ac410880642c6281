import Verif.Spec.Tree
import Verif.Lemmas.FromDirections

/-! # Helper lemmas: structure of direction trees -/

open Verif.Spec

set_option linter.unusedSectionVars false

namespace Verif

variable {I : Type} [DecidableEq I] {d : ℕ}

namespace Tree

lemma mem_successors {t : Tree I d} {n c : I} : c ∈ t.successors n ↔ IsParent t n c := by
  unfold successors IsParent
  simp only [List.mem_map, List.mem_filter, decide_eq_true_eq]
  constructor
  · rintro ⟨⟨a, b⟩, ⟨h1, h2⟩, h3⟩
    simp only at h2 h3; subst h2; subst h3; exact h1
  · intro h; exact ⟨(n, c), ⟨h, rfl⟩, rfl⟩

lemma mem_predecessors {t : Tree I d} {n p : I} : p ∈ t.predecessors n ↔ IsParent t p n := by
  unfold predecessors IsParent
  simp only [List.mem_map, List.mem_filter, decide_eq_true_eq]
  constructor
  · rintro ⟨⟨a, b⟩, ⟨h1, h2⟩, h3⟩
    simp only at h2 h3; subst h2; subst h3; exact h1
  · intro h; exact ⟨(p, n), ⟨h, rfl⟩, rfl⟩

end Tree

section Rooted
variable {t : Tree I d} {r : I}

lemma snd_inj_of_nodup {α β : Type*} {l : List (α × β)} (h : (l.map Prod.snd).Nodup) {a b : α}
    {c : β} (h1 : (a, c) ∈ l) (h2 : (b, c) ∈ l) : a = b := by
  have := List.inj_on_of_nodup_map h h1 h2 rfl
  exact congrArg Prod.fst this

namespace Spec.RootedTree

lemma parent_unique (h : RootedTree t r) {a b c : I} (h1 : IsParent t a c)
    (h2 : IsParent t b c) : a = b := snd_inj_of_nodup h.one_parent h1 h2

lemma successors_nodup (h : RootedTree t r) (n : I) : (t.successors n).Nodup := by
  unfold Tree.successors
  exact h.one_parent.sublist (List.filter_sublist.map _)

lemma predecessors_eq (h : RootedTree t r) {p c : I} (hp : IsParent t p c) :
    t.predecessors c = [p] := by
  have hn : (t.predecessors c).Nodup := by
    unfold Tree.predecessors
    rw [List.nodup_map_iff_inj_on]
    · rintro ⟨a, b⟩ h1 ⟨a', b'⟩ h2 h3
      simp only [List.mem_filter, decide_eq_true_eq] at h1 h2
      simp only at h3
      rw [h3, h1.2, h2.2]
    · exact (List.Nodup.of_map _ h.one_parent).filter _
  have hall : ∀ q ∈ t.predecessors c, q = p := fun q hq =>
    h.parent_unique (Tree.mem_predecessors.mp hq) hp
  have hmem : p ∈ t.predecessors c := Tree.mem_predecessors.mpr hp
  match hl : t.predecessors c with
  | [] => rw [hl] at hmem; simp at hmem
  | [a] => rw [hl] at hall; rw [hall a (by simp)]
  | a :: b :: rest =>
    rw [hl] at hall hn
    have e1 := hall a (by simp)
    have e2 := hall b (by simp)
    rw [e1, e2] at hn; simp at hn

lemma predecessors_root (h : RootedTree t r) : t.predecessors r = [] := by
  apply List.eq_nil_iff_forall_not_mem.mpr
  intro p hp; exact h.root_no_parent p (Tree.mem_predecessors.mp hp)

lemma root_mem (h : RootedTree t r) : r ∈ t.nodes := List.mem_of_head? h.root_first

/-- The level of a node, as an integer. -/
def lev (t : Tree I d) (n : I) : ℤ := (t.level n).getD 0

lemma level_eq (h : RootedTree t r) {n : I} (hn : n ∈ t.nodes) : t.level n = some (lev t n) := by
  obtain ⟨l, hl, _⟩ := h.level_bound n hn
  simp [lev, hl]

lemma lev_child (h : RootedTree t r) {p c : I} (hp : IsParent t p c) :
    lev t c = lev t p + 1 := by
  obtain ⟨l, h1, h2⟩ := h.child_level p c hp
  simp [lev, h1, h2]

lemma lev_root (h : RootedTree t r) : lev t r = 0 := by simp [lev, h.root_level]

lemma lev_desc (h : RootedTree t r) {a b : I} (hd : Descendant t a b) : lev t a < lev t b := by
  induction hd with
  | single h1 => rw [h.lev_child h1]; omega
  | tail _ h1 ih => rw [h.lev_child h1]; omega

lemma desc_irrefl (h : RootedTree t r) (a : I) : ¬ Descendant t a a :=
  fun hd => lt_irrefl _ (h.lev_desc hd)

lemma desc_mem_right (h : RootedTree t r) {a b : I} (hd : Descendant t a b) : b ∈ t.nodes := by
  cases hd with
  | single h1 => exact h.edge_snd _ _ h1
  | tail _ h1 => exact h.edge_snd _ _ h1

lemma desc_mem_left (h : RootedTree t r) {a b : I} (hd : Descendant t a b) : a ∈ t.nodes := by
  induction hd with
  | single h1 => exact h.edge_fst _ _ h1
  | tail _ _ ih => exact ih

/-- The parent of a descendant of `a` is `a` or a descendant of `a`. -/
lemma desc_parent (h : RootedTree t r) {a p c : I} (hd : Descendant t a c)
    (hp : IsParent t p c) : p = a ∨ Descendant t a p := by
  cases hd with
  | single h1 => left; exact h.parent_unique hp h1
  | tail h0 h1 => right; rw [h.parent_unique hp h1]; exact h0

lemma desc_comparable (h : RootedTree t r) {a b c : I} (ha : Descendant t a c)
    (hb : Descendant t b c) : a = b ∨ Descendant t a b ∨ Descendant t b a := by
  induction ha with
  | single h1 =>
    rcases h.desc_parent hb h1 with e | e
    · left; exact e
    · right; right; exact e
  | tail h0 h1 ih =>
    rcases h.desc_parent hb h1 with e | e
    · right; left; rw [← e]; exact h0
    · exact ih e

lemma desc_same_level (h : RootedTree t r) {a b c : I} (ha : Descendant t a c)
    (hb : Descendant t b c) (hl : lev t a = lev t b) : a = b := by
  rcases h.desc_comparable ha hb with e | e | e
  · exact e
  · have := h.lev_desc e; omega
  · have := h.lev_desc e; omega

lemma root_desc (h : RootedTree t r) {n : I} (hn : n ∈ t.nodes) (hne : n ≠ r) :
    Descendant t r n := by
  obtain ⟨k, hk⟩ : ∃ k, t.nodes.idxOf n < k := ⟨_, Nat.lt_succ_self _⟩
  induction k generalizing n with
  | zero => omega
  | succ k ih =>
    obtain ⟨p, hp⟩ := h.has_parent n hn hne
    have hlt := h.parent_before p n hp
    by_cases hpr : p = r
    · subst hpr; exact .single hp
    · exact .tail (ih (h.edge_fst _ _ hp) hpr (by omega)) hp

end Spec.RootedTree

/-! ### `get_all_childs_children` -/

lemma childsLoop_spec (h : RootedTree t r) (n : I) :
    ∀ (fuel : ℕ) (list : List I) (ii : ℕ),
      list.Nodup → ii ≤ list.length →
      (∀ m ∈ list, Descendant t n m) →
      (∀ m ∈ t.successors n, m ∈ list) →
      (∀ (j : ℕ) (hj : j < list.length), j < ii → ∀ m ∈ t.successors list[j], m ∈ list) →
      (∀ m ∈ list, IsParent t n m ∨ ∃ (j : ℕ) (hj : j < list.length), j < ii ∧
        IsParent t list[j] m) →
      t.nodes.length + 1 ≤ fuel + ii →
      ∃ out, Tree.childsLoop t.successors fuel list ii = some out ∧ out.Nodup
        ∧ ∀ m, m ∈ out ↔ Descendant t n m := by
  intro fuel
  induction fuel with
  | zero =>
    intro list ii hnd hii hdesc _ _ _ hf
    have hsub : list ⊆ t.nodes := fun m hm => h.desc_mem_right (hdesc m hm)
    have : list.length ≤ t.nodes.length := (hnd.subperm hsub).length_le
    omega
  | succ fuel ih =>
    intro list ii hnd hii hdesc hsucc hclosed hpar hf
    unfold Tree.childsLoop
    split_ifs with hlt
    · have hdi : Descendant t n list[ii] := hdesc _ (List.getElem_mem _)
      apply ih
      · rw [List.nodup_append]
        refine ⟨hnd, h.successors_nodup _, ?_⟩
        intro a ha b hb hab
        subst hab
        have hb' := Tree.mem_successors.mp hb
        rcases hpar a ha with hp | ⟨j, hj, hji, hp⟩
        · have := h.parent_unique hp hb'
          rw [← this] at hdi
          exact h.desc_irrefl _ hdi
        · have := h.parent_unique hp hb'
          have := (List.Nodup.getElem_inj_iff hnd).mp this
          omega
      · rw [List.length_append]; omega
      · intro m hm
        rcases List.mem_append.mp hm with hm | hm
        · exact hdesc m hm
        · exact hdi.tail (Tree.mem_successors.mp hm)
      · intro m hm; exact List.mem_append_left _ (hsucc m hm)
      · intro j hj hji m hm
        by_cases hjl : j < ii
        · rw [List.getElem_append_left (by omega)] at hm
          exact List.mem_append_left _ (hclosed j (by omega) hjl m hm)
        · have hje : j = ii := by omega
          subst hje
          rw [List.getElem_append_left hlt] at hm
          exact List.mem_append_right _ hm
      · intro m hm
        rcases List.mem_append.mp hm with hm | hm
        · rcases hpar m hm with hp | ⟨j, hj, hji, hp⟩
          · left; exact hp
          · right
            exact ⟨j, by rw [List.length_append]; omega, by omega,
              by rw [List.getElem_append_left hj]; exact hp⟩
        · right
          exact ⟨ii, by rw [List.length_append]; omega, by omega,
            by rw [List.getElem_append_left hlt]; exact Tree.mem_successors.mp hm⟩
      · omega
    · refine ⟨list, rfl, hnd, fun m => ⟨hdesc m, fun hm => ?_⟩⟩
      have hii' : ii = list.length := by omega
      induction hm with
      | single h1 => exact hsucc _ (Tree.mem_successors.mpr h1)
      | tail _ h1 ih2 =>
        obtain ⟨j, hj, hje⟩ := List.getElem_of_mem ih2
        apply hclosed j hj (by omega)
        rw [hje]; exact Tree.mem_successors.mpr h1

lemma getAllChildsChildren_spec (h : RootedTree t r) (n : I) :
    ∃ out, t.getAllChildsChildren n = some out ∧ out.Nodup ∧ ∀ m, m ∈ out ↔ Descendant t n m := by
  unfold Tree.getAllChildsChildren
  apply childsLoop_spec h n
  · exact h.successors_nodup n
  · omega
  · intro m hm; exact .single (Tree.mem_successors.mp hm)
  · intro m hm; exact hm
  · intro j hj hj0; omega
  · intro m hm; left; exact Tree.mem_successors.mp hm
  · omega

end Rooted
end Verif
