import Verif.Lemmas.TreeSort

/-! # Helper lemmas: branch weights and partial rotations of a direction tree -/

open Verif.Spec
open scoped RealInnerProductSpace

set_option linter.unusedSectionVars false

namespace Verif

open Spec.RootedTree (lev)

variable {I : Type} [DecidableEq I] {d : ℕ} {t : Tree I d} {r : I}

/-! ### Assigning the weights -/

lemma assign_fold (t : Tree I d) (l : List (I × ℝ)) (hl : ∀ p ∈ l, p.1 ∈ t.nodes)
    (st : NodeState I d) :
    ∃ st', l.foldlM (fun (st : NodeState I d) p =>
        if p.1 ∈ t.nodes then
          (.ok { st with weight := Function.update st.weight p.1 p.2 } : Except PyErr _)
        else .error .keyError) st = .ok st'
      ∧ st'.orient = st.orient ∧ st'.part = st.part ∧ st'.partDir = st.partDir
      ∧ ∀ n, st'.weight n = if n ∈ l.map Prod.fst then givenWeight l n else st.weight n := by
  induction l generalizing st with
  | nil => exact ⟨st, rfl, rfl, rfl, rfl, by simp⟩
  | cons p l ih =>
    obtain ⟨st', h1, h2, h3, h4, h5⟩ := ih (fun q hq => hl q (List.mem_cons_of_mem _ hq))
      { st with weight := Function.update st.weight p.1 p.2 }
    refine ⟨st', ?_, h2, h3, h4, fun n => ?_⟩
    · rw [List.foldlM_cons, if_pos (hl p List.mem_cons_self)]; exact h1
    · rw [h5 n]
      obtain ⟨m, w⟩ := p
      simp only [List.map_cons, List.mem_cons, givenWeight]
      by_cases hn : n ∈ l.map Prod.fst
      · simp [hn]
      · by_cases hm : n = m
        · subst hm; simp [hn]
        · simp [hn, hm]

lemma givenWeight_not_mem (l : List (I × ℝ)) (n : I) (h : n ∉ l.map Prod.fst) :
    givenWeight l n = 0 := by
  induction l with
  | nil => rfl
  | cons p l ih =>
    obtain ⟨m, w⟩ := p
    simp only [List.map_cons, List.mem_cons, not_or] at h
    simp [givenWeight, h.1, h.2]

lemma assignWeights_ok (t : Tree I d) (st : NodeState I d) (ns : List I) (ws : List ℝ)
    (h : ∀ p ∈ ns.zip ws, p.1 ∈ t.nodes) :
    ∃ st', t.assignWeights st ns ws = .ok st' ∧ st'.orient = st.orient ∧ st'.part = st.part
      ∧ st'.partDir = st.partDir ∧ ∀ n, st'.weight n = givenWeight (ns.zip ws) n := by
  obtain ⟨st', h1, h2, h3, h4, h5⟩ := assign_fold t (ns.zip ws) h { st with weight := fun _ => 0 }
  refine ⟨st', h1, h2, h3, h4, fun n => ?_⟩
  rw [h5 n]
  split_ifs with hn
  · rfl
  · exact (givenWeight_not_mem _ _ hn).symm

lemma assign_fold_error (t : Tree I d) (l : List (I × ℝ)) (p : I × ℝ) (hp : p ∈ l)
    (hn : p.1 ∉ t.nodes) (st : NodeState I d) :
    l.foldlM (fun (st : NodeState I d) p =>
        if p.1 ∈ t.nodes then
          (.ok { st with weight := Function.update st.weight p.1 p.2 } : Except PyErr _)
        else .error .keyError) st = .error .keyError := by
  induction l generalizing st with
  | nil => simp at hp
  | cons q l ih =>
    rw [List.foldlM_cons]
    by_cases hq : q.1 ∈ t.nodes
    · rw [if_pos hq]
      refine ih ?_ _
      rcases List.mem_cons.mp hp with e | e
      · rw [e] at hn; exact absurd hq hn
      · exact e
    · rw [if_neg hq]; rfl

/-! ### Branch weights -/

open Classical in
/-- A node and its descendants. -/
noncomputable def branch (t : Tree I d) (n : I) : Finset I :=
  t.nodes.toFinset.filter (fun m => m = n ∨ Descendant t n m)

lemma mem_branch (h : RootedTree t r) {n m : I} (hn : n ∈ t.nodes) :
    m ∈ branch t n ↔ m = n ∨ Descendant t n m := by
  unfold branch
  simp only [Finset.mem_filter, List.mem_toFinset, and_iff_right_iff_imp]
  rintro (rfl | hd)
  · exact hn
  · exact h.desc_mem_right hd

lemma desc_iff_child {n m : I} : Descendant t n m ↔
    ∃ c, IsParent t n c ∧ (m = c ∨ Descendant t c m) := by
  constructor
  · intro hd
    obtain ⟨c, h1, h2⟩ := Relation.TransGen.head'_iff.mp hd
    refine ⟨c, h1, ?_⟩
    rcases Relation.reflTransGen_iff_eq_or_transGen.mp h2 with e | e
    · exact Or.inl e
    · exact Or.inr e
  · rintro ⟨c, h1, rfl | h2⟩
    · exact .single h1
    · exact .head h1 h2

lemma branch_sum (h : RootedTree t r) (g : I → ℝ) {n : I} (hn : n ∈ t.nodes) :
    ∑ m ∈ branch t n, g m = g n + ∑ c ∈ (t.successors n).toFinset, ∑ m ∈ branch t c, g m := by
  have hc : ∀ c ∈ (t.successors n).toFinset, IsParent t n c := by
    intro c hc; exact Tree.mem_successors.mp (List.mem_toFinset.mp hc)
  rw [← Finset.sum_biUnion]
  · have hnot : n ∉ (t.successors n).toFinset.biUnion (branch t) := by
      intro hm
      obtain ⟨c, h1, h2⟩ := Finset.mem_biUnion.mp hm
      have hp := hc c h1
      rcases (mem_branch h (h.edge_snd _ _ hp)).mp h2 with e | e
      · exact h.desc_irrefl n (.single (by rw [← e] at hp; exact hp))
      · exact h.desc_irrefl n (.head hp e)
    rw [← Finset.sum_insert hnot]
    congr 1
    ext m
    rw [mem_branch h hn, Finset.mem_insert, Finset.mem_biUnion, desc_iff_child]
    constructor
    · rintro (e | ⟨c, h1, h2⟩)
      · exact Or.inl e
      · exact Or.inr ⟨c, List.mem_toFinset.mpr (Tree.mem_successors.mpr h1),
          (mem_branch h (h.edge_snd _ _ h1)).mpr h2⟩
    · rintro (e | ⟨c, h1, h2⟩)
      · exact Or.inl e
      · exact Or.inr ⟨c, hc c h1, (mem_branch h (h.edge_snd _ _ (hc c h1))).mp h2⟩
  · intro c hc1 c' hc2 hne
    have hp := hc c hc1
    have hp' := hc c' hc2
    rw [Function.onFun, Finset.disjoint_left]
    intro m hm hm'
    have e1 := (mem_branch h (h.edge_snd _ _ hp)).mp hm
    have e2 := (mem_branch h (h.edge_snd _ _ hp')).mp hm'
    have hlev : lev t c = lev t c' := by rw [h.lev_child hp, h.lev_child hp']
    rcases e1 with e1 | e1
    · rcases e2 with e2 | e2
      · exact hne (e1.symm.trans e2)
      · have := h.lev_desc e2; rw [e1] at this; omega
    · rcases e2 with e2 | e2
      · have := h.lev_desc e1; rw [e2] at this; omega
      · exact hne (h.desc_same_level e1 e2 hlev)

lemma branchWeight_eq (h : RootedTree t r) (given : List (I × ℝ)) {n : I} (hn : n ∈ t.nodes) :
    branchWeight t given n = givenWeight given n
      + ∑ c ∈ (t.successors n).toFinset, branchWeight t given c :=
  branch_sum h (givenWeight given) hn

lemma branchWeight_nonneg (t : Tree I d) (given : List (I × ℝ))
    (hw : ∀ p ∈ given, 0 ≤ p.2) (n : I) : 0 ≤ branchWeight t given n := by
  apply Finset.sum_nonneg
  intro m _
  induction given with
  | nil => exact le_refl 0
  | cons p l ih =>
    obtain ⟨a, w⟩ := p
    simp only [givenWeight]
    split_ifs
    · exact ih (fun q hq => hw q (List.mem_cons_of_mem _ hq))
    · exact hw (a, w) List.mem_cons_self
    · exact le_refl 0

lemma branchWeight_child_le (h : RootedTree t r) (given : List (I × ℝ))
    (hw : ∀ p ∈ given, 0 ≤ p.2) {p c : I} (hp : IsParent t p c) :
    branchWeight t given c ≤ branchWeight t given p := by
  apply Finset.sum_le_sum_of_subset_of_nonneg
  · intro m hm
    rcases (mem_branch h (h.edge_snd _ _ hp)).mp hm with e | e
    · exact (mem_branch h (h.edge_fst _ _ hp)).mpr (Or.inr (by rw [e]; exact .single hp))
    · exact (mem_branch h (h.edge_fst _ _ hp)).mpr (Or.inr (.head hp e))
  · intro m _ _
    have := branchWeight_nonneg t given hw
    clear this
    induction given with
    | nil => exact le_refl 0
    | cons q l ih =>
      obtain ⟨a, w⟩ := q
      simp only [givenWeight]
      split_ifs
      · exact ih (fun q hq => hw q (List.mem_cons_of_mem _ hq))
      · exact hw (a, w) List.mem_cons_self
      · exact le_refl 0

/-! ### `rotate_array` on the bases of a set of nodes -/

lemma rotateParts_eq (ds : List I) (hnd : ds.Nodup) (part : I → Option (Rot (Vec d)))
    (q : I → Rot (Vec d)) (hq : ∀ m ∈ ds, part m = some (q m)) (hon : ∀ m ∈ ds, (q m).base.ON)
    (b : Base (Vec d)) (a : ℝ) :
    Tree.rotateParts part ds b a = .ok (fun m =>
      if m ∈ ds then some ⟨(q m).base.map (planeRot b a), (q m).angle⟩ else part m) := by
  unfold Tree.rotateParts
  induction ds generalizing part with
  | nil => simp [pure, Except.pure]
  | cons n ds ih =>
    rw [List.foldlM_cons]
    simp only [hq n List.mem_cons_self, rotateBase_eq (hon n List.mem_cons_self)]
    have hn : n ∉ ds := (List.nodup_cons.mp hnd).1
    have := ih (List.nodup_cons.mp hnd).2
      (Function.update part n (some ⟨(q n).base.map (planeRot b a), (q n).angle⟩))
      (by
        intro m hm
        have hne : m ≠ n := by rintro rfl; exact hn hm
        rw [Function.update_of_ne hne]; exact hq m (List.mem_cons_of_mem _ hm))
      (fun m hm => hon m (List.mem_cons_of_mem _ hm))
    change (List.foldlM _ _ _ : Except PyErr _) = _
    rw [this]
    congr 1
    funext m
    by_cases hm : m = n
    · subst hm; simp [hn]
    · simp [hm]

/-! ### The loop of `update_partial_rotations` -/

section Loop
variable (t) (W : I → ℝ) (O : I → Rot (Vec d))

open Classical in
/-- One pass of the loop of `update_partial_rotations`, without the error cases. -/
noncomputable def pStep (q : I → Rot (Vec d)) (n : I) : I → Rot (Vec d) := fun m =>
  if m = n then ⟨(O n).base, (O n).angle * W n⟩
  else if 0 < W n ∧ W n < 1 ∧ Descendant t n m then
    ⟨(q m).base.map (planeRot (O n).base ((O n).angle * W n - (O n).angle)), (q m).angle⟩
  else q m

/-- The weights after the nodes in `S` have been processed. -/
def WInv (g : I → ℝ) (S : List I) (w : I → ℝ) : Prop :=
  ∀ x, w x = g x + ∑ c ∈ (t.successors x).toFinset.filter (· ∈ S), W c

variable {t W O}

lemma WInv.step (h : RootedTree t r) {g : I → ℝ} {S : List I} {w : I → ℝ}
    (hw : WInv t W g S w)
    {n : I} (hrec : W n = g n + ∑ c ∈ (t.successors n).toFinset, W c)
    (hn : n ∉ S) (hdesc : ∀ m, Descendant t n m → m ∈ S) :
    w n = W n ∧
    WInv t W g (n :: S) ((t.predecessors n).foldl (fun w p => Function.update w p (w p + w n)) w)
    ∧ ((t.predecessors n).foldl (fun w p => Function.update w p (w p + w n)) w) n = W n := by
  have e1 : w n = W n := by
    rw [hw n, hrec]
    congr 1
    apply Finset.sum_congr _ (fun _ _ => rfl)
    rw [Finset.filter_eq_self]
    intro c hc
    exact hdesc c (.single (Tree.mem_successors.mp (List.mem_toFinset.mp hc)))
  refine ⟨e1, ?_⟩
  have hnotchild : ∀ x, ¬ IsParent t x n →
      (t.successors x).toFinset.filter (· ∈ n :: S) = (t.successors x).toFinset.filter (· ∈ S) := by
    intro x hx
    ext c
    simp only [Finset.mem_filter, List.mem_toFinset, List.mem_cons, and_congr_right_iff]
    intro hc
    constructor
    · rintro (rfl | e)
      · exact absurd (Tree.mem_successors.mp hc) hx
      · exact e
    · exact Or.inr
  by_cases hp : ∃ p, IsParent t p n
  · obtain ⟨p, hp⟩ := hp
    have hpn : p ≠ n := by
      rintro rfl; exact h.desc_irrefl _ (.single hp)
    rw [h.predecessors_eq hp]
    simp only [List.foldl_cons, List.foldl_nil]
    refine ⟨fun x => ?_, by rw [Function.update_of_ne hpn.symm]; exact e1⟩
    by_cases hx : x = p
    · subst hx
      rw [Function.update_self, e1, hw x]
      have : (t.successors x).toFinset.filter (· ∈ n :: S)
          = insert n ((t.successors x).toFinset.filter (· ∈ S)) := by
        ext c
        simp only [Finset.mem_filter, List.mem_toFinset, List.mem_cons, Finset.mem_insert]
        constructor
        · rintro ⟨h1, rfl | h2⟩
          · exact Or.inl rfl
          · exact Or.inr ⟨h1, h2⟩
        · rintro (rfl | ⟨h1, h2⟩)
          · exact ⟨Tree.mem_successors.mpr hp, Or.inl rfl⟩
          · exact ⟨h1, Or.inr h2⟩
      rw [this, Finset.sum_insert (by simp [hn])]
      ring
    · rw [Function.update_of_ne hx, hw x, hnotchild x]
      intro hxn; exact hx (h.parent_unique hxn hp)
  · push Not at hp
    have : t.predecessors n = [] := by
      apply List.eq_nil_iff_forall_not_mem.mpr
      intro p hp'; exact hp p (Tree.mem_predecessors.mp hp')
    rw [this]
    refine ⟨fun x => ?_, e1⟩
    rw [hnotchild x (hp x)]; exact hw x

/-- The state after the nodes in `S` have been processed. -/
structure PartInv (t : Tree I d) (W : I → ℝ) (O : I → Rot (Vec d)) (g : I → ℝ) (S : List I)
    (st : NodeState I d) (q : I → Rot (Vec d)) : Prop where
  weights : WInv t W g S st.weight
  orient : ∀ n ∈ t.nodes, st.orient n = some (O n)
  part : ∀ m ∈ S, st.part m = some (q m)
  on : ∀ m ∈ S, (q m).base.ON

lemma PartInv.step (h : RootedTree t r) {g : I → ℝ} {S : List I} {st : NodeState I d}
    {q : I → Rot (Vec d)} (hi : PartInv t W O g S st q) (hon : ∀ n ∈ t.nodes, (O n).base.ON)
    {n : I} (hnn : n ∈ t.nodes) (hrec : W n = g n + ∑ c ∈ (t.successors n).toFinset, W c)
    (hn : n ∉ S) (hdesc : ∀ m, Descendant t n m → m ∈ S) :
    ∃ st', t.partialStep st n = .ok st' ∧ PartInv t W O g (n :: S) st' (pStep t W O q n) := by
  obtain ⟨-, hw, hwn⟩ := hi.weights.step h hrec hn hdesc
  set w' := (t.predecessors n).foldl (fun w p => Function.update w p (w p + w n)) st.weight with hw'
  obtain ⟨ds, hds, hnd, hmem⟩ := getAllChildsChildren_spec h n
  have hnds : n ∉ ds := fun hh => h.desc_irrefl n ((hmem n).mp hh)
  have hon' : ∀ m ∈ n :: S, (pStep t W O q n m).base.ON := by
    intro m hm
    unfold pStep
    split_ifs with h1 h3
    · exact hon n hnn
    · have : m ∈ S := hdesc m h3.2.2
      exact (hon n hnn).planeRot (hi.on m this) _
    · rcases List.mem_cons.mp hm with e | e
      · exact absurd e h1
      · exact hi.on m e
  by_cases hcond : W n ≤ 0 ∨ W n ≥ 1
  · refine ⟨⟨w', st.orient, st.partDir,
      Function.update st.part n (some ⟨(O n).base, (O n).angle * W n⟩)⟩,
      ?_, hw, hi.orient, ?_, hon'⟩
    · unfold Tree.partialStep
      simp only [hi.orient n hnn, ← hw', hwn, if_pos hcond]
    · intro m hm
      by_cases hmn : m = n
      · subst hmn; simp [pStep]
      · have : m ∈ S := by
          rcases List.mem_cons.mp hm with e | e
          · exact absurd e hmn
          · exact e
        have hc : ¬ (0 < W n ∧ W n < 1 ∧ Descendant t n m) := by
          rintro ⟨h1, h3, _⟩; rcases hcond with e | e <;> linarith
        simp only [Function.update_of_ne hmn, pStep, if_neg hmn, if_neg hc]
        exact hi.part m this
  · have hcond' := hcond
    push Not at hcond'
    set part1 := Function.update st.part n (some ⟨(O n).base, (O n).angle * W n⟩) with hp1
    have hrot := rotateParts_eq ds hnd part1 q
      (by
        intro m hm
        have hne : m ≠ n := by rintro rfl; exact hnds hm
        rw [hp1, Function.update_of_ne hne]
        exact hi.part m (hdesc m ((hmem m).mp hm)))
      (fun m hm => hi.on m (hdesc m ((hmem m).mp hm)))
      (O n).base ((O n).angle * W n - (O n).angle)
    refine ⟨⟨w', st.orient, st.partDir, fun m => if m ∈ ds then
        some ⟨(q m).base.map (planeRot (O n).base ((O n).angle * W n - (O n).angle)), (q m).angle⟩
        else part1 m⟩, ?_, hw, hi.orient, ?_, hon'⟩
    · unfold Tree.partialStep
      simp only [hi.orient n hnn, ← hw', hwn, if_neg hcond, hds, ← hp1, hrot]
    · intro m hm
      by_cases hmn : m = n
      · subst hmn; simp [pStep, hnds, hp1]
      · have hmS : m ∈ S := by
          rcases List.mem_cons.mp hm with e | e
          · exact absurd e hmn
          · exact e
        by_cases hmd : m ∈ ds
        · have : 0 < W n ∧ W n < 1 ∧ Descendant t n m := ⟨hcond'.1, hcond'.2, (hmem m).mp hmd⟩
          simp [pStep, hmn, hmd, this]
        · have : ¬ (0 < W n ∧ W n < 1 ∧ Descendant t n m) := fun hh => hmd ((hmem m).mpr hh.2.2)
          simp only [hmd, if_false, pStep, if_neg hmn, if_neg this, hp1, Function.update_of_ne hmn]
          exact hi.part m hmS

lemma partial_fold (h : RootedTree t r) {g : I → ℝ} (hon : ∀ n ∈ t.nodes, (O n).base.ON)
    (hrec : ∀ n ∈ t.nodes, W n = g n + ∑ c ∈ (t.successors n).toFinset, W c)
    (L : List I) (hL : ∀ n ∈ L, n ∈ t.nodes) (S : List I) (hnd : L.Nodup)
    (hdis : ∀ n ∈ L, n ∉ S)
    (hord : ∀ pre n post, L = pre ++ n :: post → ∀ m, Descendant t n m → m ∈ S ∨ m ∈ pre)
    (st : NodeState I d) (q : I → Rot (Vec d)) (hi : PartInv t W O g S st q) :
    ∃ st', L.foldlM (Tree.partialStep t) st = .ok st'
      ∧ PartInv t W O g (L.reverse ++ S) st' (L.foldl (pStep t W O) q) := by
  induction L generalizing S st q with
  | nil => exact ⟨st, rfl, by simpa using hi⟩
  | cons n L ih =>
    obtain ⟨st1, h1, h3⟩ := hi.step h hon (hL n List.mem_cons_self) (hrec n (hL n List.mem_cons_self))
      (hdis n List.mem_cons_self)
      (by
        intro m hm
        rcases hord [] n L rfl m hm with e | e
        · exact e
        · simp at e)
    obtain ⟨st', h4, h5⟩ := ih (fun m hm => hL m (List.mem_cons_of_mem _ hm)) (n :: S)
      (List.nodup_cons.mp hnd).2
      (by
        intro m hm hms
        rcases List.mem_cons.mp hms with e | e
        · rw [e] at hm; exact (List.nodup_cons.mp hnd).1 hm
        · exact hdis m (List.mem_cons_of_mem _ hm) e)
      (by
        intro pre m post hl x hx
        rcases hord (n :: pre) m post (by rw [hl]; rfl) x hx with e | e
        · exact Or.inl (List.mem_cons_of_mem _ e)
        · rcases List.mem_cons.mp e with e | e
          · left; rw [e]; exact List.mem_cons_self
          · exact Or.inr e)
      st1 _ h3
    refine ⟨st', ?_, ?_⟩
    · rw [List.foldlM_cons, h1]; exact h4
    · rw [List.foldl_cons, List.reverse_cons, List.append_assoc]; exact h5

lemma Ascending.reverse_order (h : RootedTree t r) {sorted : List I} (hs : Ascending t sorted)
    (pre : List I) (n : I) (post : List I) (hl : sorted.reverse = pre ++ n :: post) (m : I)
    (hm : Descendant t n m) : m ∈ pre := by
  have hmem : m ∈ sorted.reverse := by
    rw [List.mem_reverse]; exact hs.mem_iff.mpr (h.desc_mem_right hm)
  have hp : sorted.reverse.Pairwise (fun a b => lev t b ≤ lev t a) :=
    List.pairwise_reverse.mpr hs.asc
  rw [hl] at hmem hp
  have hlt := h.lev_desc hm
  rcases List.mem_append.mp hmem with e | e
  · exact e
  · exfalso
    rcases List.mem_cons.mp e with e | e
    · rw [e] at hlt; omega
    · have := (List.pairwise_append.mp hp).2.1
      rw [List.pairwise_cons] at this
      have := this.1 m e
      omega

/-- The partial rotations without the error cases. -/
noncomputable def partOf (t : Tree I d) (W : I → ℝ) (O : I → Rot (Vec d)) (sorted : List I) :
    I → Rot (Vec d) := sorted.reverse.foldl (pStep t W O) O

variable [h2 : Fact (2 ≤ d)]

/-- `update_partial_rotations` always succeeds on a tree without opposite neighbours, and
computes branch weights. -/
lemma updatePartialRotations_spec (h : RootedTree t r) (hd : Defined t) (st : NodeState I d)
    (ns : List I) (ws : List ℝ) (hns : ∀ p ∈ ns.zip ws, p.1 ∈ t.nodes)
    {sorted : List I} (hs : Ascending t sorted) :
    ∃ st', t.updatePartialRotations st ns ws sorted = .ok st'
      ∧ (∀ n, n ∈ t.nodes → st'.weight n = branchWeight t (ns.zip ws) n)
      ∧ (∀ n, n ∈ t.nodes → st'.part n =
          some (partOf t (branchWeight t (ns.zip ws)) (orientOf t r) sorted n))
      ∧ (∀ n, n ∈ t.nodes →
          (partOf t (branchWeight t (ns.zip ws)) (orientOf t r) sorted n).base.ON) := by
  obtain ⟨s1, a1, a2, a3, a4, a5⟩ := assignWeights_ok t st ns ws hns
  obtain ⟨s2, b1, b2, b3, b4⟩ := evaluateAllOrientations_spec h hd s1 hs
  have hO := orientOf_isOrient h hd
  have hrec : ∀ n ∈ t.nodes, branchWeight t (ns.zip ws) n = givenWeight (ns.zip ws) n
      + ∑ c ∈ (t.successors n).toFinset, branchWeight t (ns.zip ws) c :=
    fun n hn => branchWeight_eq h _ hn
  obtain ⟨s3, c1, c2⟩ := partial_fold (W := branchWeight t (ns.zip ws)) (O := orientOf t r)
    (g := givenWeight (ns.zip ws)) h (fun n hn => hO.on h hn) hrec sorted.reverse
    (fun n hn => hs.mem_iff.mp (List.mem_reverse.mp hn)) [] (List.nodup_reverse.mpr (hs.nodup h))
    (by simp) (fun pre n post hl m hm => Or.inr (hs.reverse_order h pre n post hl m hm)) s2
    (orientOf t r)
    ⟨fun x => by simp [b2, a5], b4, by simp, by simp⟩
  refine ⟨s3, ?_, ?_, ?_, ?_⟩
  · unfold Tree.updatePartialRotations
    rw [a1]; simp only [bind, Except.bind]; rw [b1]; exact c1
  · intro n hn
    rw [c2.weights n, hrec n hn]
    congr 1
    apply Finset.sum_congr _ (fun _ _ => rfl)
    rw [Finset.filter_eq_self]
    intro c hc
    have := h.edge_snd _ _ (Tree.mem_successors.mp (List.mem_toFinset.mp hc))
    simp [hs.mem_iff, this]
  · intro n hn
    exact c2.part n (by simp [hs.mem_iff, hn])
  · intro n hn
    exact c2.on n (by simp [hs.mem_iff, hn])

end Loop
end Verif
