import Verif.Lemmas.TreeCongr

/-! # Helper lemmas: full weight on one node of a tree whose directions are not in general position -/

open Verif.Spec
open scoped RealInnerProductSpace

set_option linter.unusedSectionVars false

namespace Verif

open Spec.RootedTree (lev)

variable {I : Type} [DecidableEq I] {d : ℕ}

lemma orientStep_fold_opposite [Fact (2 ≤ d)] {t : Tree I d} {r : I} (h : RootedTree t r) (es : List (I × I))
    (hes : ∀ e ∈ es, IsParent t e.1 e.2) (st : NodeState I d) (done : List I)
    (hdone : ∀ n ∈ done, st.partDir n = some (dirOf t n))
    (hord : ∀ pre e post, es = pre ++ e :: post → e.1 ∈ done ∨ e.1 ∈ pre.map Prod.snd)
    (hbad : ∃ e ∈ es, fromDirections (dirOf t e.1) (dirOf t e.2) = none) :
    es.foldlM (Tree.orientStep t) st = .error .breakpoint := by
  induction es generalizing st done with
  | nil => obtain ⟨_, h1, _⟩ := hbad; cases h1
  | cons e es ih =>
    have h1 : e.1 ∈ done := by
      rcases hord [] e es rfl with h | h
      · exact h
      · simp at h
    have hp : IsParent t e.1 e.2 := hes e List.mem_cons_self
    rw [List.foldlM_cons]
    cases ho : fromDirections (dirOf t e.1) (dirOf t e.2) with
    | none =>
      have hstep : Tree.orientStep t st e = .error .breakpoint := by
        unfold Tree.orientStep
        rw [hdone _ h1, (dir_eq h (h.edge_snd _ _ hp)).1]
        simp only [ho]
      rw [hstep]; rfl
    | some o =>
      have hstep : Tree.orientStep t st e = .ok { st with
          orient := Function.update st.orient e.2 (some o)
          partDir := Function.update st.partDir e.2 (some (dirOf t e.2)) } := by
        unfold Tree.orientStep
        rw [hdone _ h1, (dir_eq h (h.edge_snd _ _ hp)).1]
        simp only [ho]
      rw [hstep]
      refine ih (fun e' he' => hes e' (List.mem_cons_of_mem _ he')) _ (e.2 :: done) ?_ ?_ ?_
      · intro n hn
        by_cases hne : n = e.2
        · subst hne; simp
        · simp only [Function.update_of_ne hne]
          rcases List.mem_cons.mp hn with h | h
          · exact absurd h hne
          · exact hdone n h
      · intro pre e' post hl
        rcases hord (e :: pre) e' post (by rw [hl]; rfl) with h | h
        · left; exact List.mem_cons_of_mem _ h
        · rw [List.map_cons, List.mem_cons] at h
          rcases h with h | h
          · left; rw [h]; exact List.mem_cons_self
          · right; exact h
      · obtain ⟨e', he', hn⟩ := hbad
        rcases List.mem_cons.mp he' with rfl | he'
        · rw [ho] at hn; cases hn
        · exact ⟨e', he', hn⟩

/-- If the rotation between two neighbouring directions is not defined, nothing is reduced. -/
lemma reduce_undefined [Fact (2 ≤ d)] {t : Tree I d} {r : I} (h : RootedTree t r)
    {argsort : List ℤ → List ℕ} (has : ArgsortSpec argsort) (st : NodeState I d) (ns : List I) (ws : List ℝ)
    (hlen : ns.length = ws.length) (hns : ∀ n ∈ ns, n ∈ t.nodes) {p c : I} (hp : IsParent t p c)
    (hnone : fromDirections (dirOf t p) (dirOf t c) = none) :
    t.reduceWeightedToSequence argsort st ns ws = .error .breakpoint := by
  obtain ⟨sorted, h1, hs⟩ := getNodesAscending_spec h has
  unfold Tree.reduceWeightedToSequence
  rw [if_neg (by simp [hlen]), h1]
  have hassign : ∃ st1, t.assignWeights st ns ws = .ok st1 := by
    unfold Tree.assignWeights
    have : ∀ (l : List (I × ℝ)) (s : NodeState I d), (∀ q ∈ l, q.1 ∈ t.nodes) → ∃ s',
        l.foldlM (fun (st : NodeState I d) q =>
          if q.1 ∈ t.nodes then
            (.ok { st with weight := Function.update st.weight q.1 q.2 } : Except PyErr _)
          else .error .keyError) s = .ok s' := by
      intro l
      induction l with
      | nil => intro s _; exact ⟨s, rfl⟩
      | cons q l ih =>
        intro s hl
        rw [List.foldlM_cons, if_pos (hl q List.mem_cons_self)]
        exact ih _ (fun q' hq' => hl q' (List.mem_cons_of_mem _ hq'))
    exact this _ _ (fun q hq => hns _ (zip_fst_mem hq).1)
  obtain ⟨st1, h2⟩ := hassign
  have horient : t.evaluateAllOrientations st1 sorted = .error .breakpoint := by
    obtain ⟨rest, rfl⟩ := hs.eq_cons h
    have hr := dir_eq h h.root_mem
    unfold Tree.evaluateAllOrientations
    simp only [hr.1, fromDirections_self hr.2]
    refine orientStep_fold_opposite h (visitEdges t t.nodes) (fun e he => (mem_visitEdges.mp he).2) _ [r] ?_ ?_
      ⟨(p, c), mem_visitEdges.mpr ⟨h.edge_fst _ _ hp, hp⟩, hnone⟩
    · intro n hn
      rw [List.mem_singleton] at hn
      subst hn
      simp
    · intro pre e post hl
      rcases visitEdges_order h pre post e hl with h | h
      · left; simp [h]
      · right; exact h
  simp only [bind, Except.bind]
  unfold Tree.updatePartialRotations
  simp only [bind, Except.bind, h2, horient]


/-- A successful reduction shows that all rotations are defined. -/
lemma defined_of_mean [Fact (2 ≤ d)] {t : Tree I d} {r : I} (h : RootedTree t r)
    {argsort : List ℤ → List ℕ} (has : ArgsortSpec argsort) {st : NodeState I d} {ns : List I} {ws : List ℝ}
    (hlen : ns.length = ws.length) (hns : ∀ n ∈ ns, n ∈ t.nodes) {v : Vec d}
    (hok : t.getWeightedMean argsort st ns ws = .ok v) : Defined t := by
  intro p c hp
  cases ho : fromDirections (dirOf t p) (dirOf t c) with
  | some o => exact ⟨o, rfl⟩
  | none =>
    unfold Tree.getWeightedMean at hok
    rw [reduce_undefined h has st ns ws hlen hns hp ho] at hok
    cases hok

variable [h2 : Fact (2 ≤ d)] {t : Tree I d} {r : I}

open Classical in
/-- `evaluate_graph_summing` if every level has a single weighted node. -/
lemma graphSumming_single (h : RootedTree t r) {W : I → ℝ} {sorted : List I} (hs : Ascending t sorted)
    {q : I → Rot (Vec d)} (hon : ∀ m ∈ t.nodes, (q m).base.ON) (hang : ∀ m ∈ t.nodes, 0 ≤ (q m).angle)
    (st : NodeState I d) (hweight : ∀ n ∈ t.nodes, st.weight n = W n)
    (hpart : ∀ n ∈ t.nodes, st.part n = some (q n)) (L : ℕ)
    (hK : ∀ l : ℤ, (∃ n ∈ t.nodes, lev t n = l ∧ W n ≠ 0) ↔ 0 ≤ l ∧ l < (L + 1 : ℕ))
    (hids : ∀ j < L + 1, ∃ a ∈ t.nodes, idsAt t W sorted (j : ℤ) = [a]) {n : I}
    (hn : idsAt t W sorted (L : ℤ) = [n]) :
    ∃ seq : List (Rot (Vec d)), t.evaluateGraphSumming st sorted
      = .ok (seq ++ [levelRot q [n] (q n).base.b0]) := by
  set p0 : PState I d := ⟨q, [], none⟩ with hp0
  have hq : ∀ k ≤ L + 1, (levelsUpTo t W sorted p0 k).q = q := fun k hk =>
    levelsUpTo_single q hon hang k (fun j hj => hids j (by omega))
  have honall : ∀ i, ∀ m ∈ t.nodes, ((levelsUpTo t W sorted p0 i).q m).base.ON := by
    intro i m hm
    by_cases hiL : i ≤ L + 1
    · rw [hq i hiL]; exact hon m hm
    · obtain ⟨k, rfl⟩ := Nat.exists_eq_add_of_le (not_le.mp hiL).le
      rw [levelsUpTo_const h hs p0 (L + 1) hK, hq _ (le_refl _)]
      exact hon m hm
  obtain ⟨k, hk, hkn⟩ := levelSet_eq h hs
  have hLk : L + 1 ≤ k := by
    obtain ⟨n, h1, h3, _⟩ := (hK L).mpr ⟨by positivity, by push_cast; omega⟩
    have := hkn n h1
    rw [h3] at this; omega
  obtain ⟨j, hj⟩ := Nat.exists_eq_add_of_le hLk
  obtain ⟨s, h1, h3⟩ := foldlM_rel h hs hweight
    { part := st.part, seq := RotSeq.createEmpty, last := none } p0 ⟨hpart, rfl, rfl⟩ k
    (fun i _ m hm => honall i m hm)
  have hfin : levelsUpTo t W sorted p0 k = pureLevel t W sorted (levelsUpTo t W sorted p0 L) L := by
    rw [hj, levelsUpTo_const h hs p0 (L + 1) hK, levelsUpTo_succ]
  rw [hfin] at h3
  have hlast : s.last = some (levelRot q [n] (q n).base.b0) := by
    rw [h3.last]
    unfold pureLevel
    rw [hn]
    simp only [hq L (by omega)]
    split_ifs <;> rfl
  refine ⟨s.seq, ?_⟩
  unfold Tree.evaluateGraphSumming
  rw [hk, h1]
  simp only [bind, Except.bind]
  rw [hlast]
  rfl

open Classical in
lemma partOf_angle (W : I → ℝ) (O : I → Rot (Vec d)) (sorted : List I) (m : I) :
    (partOf t W O sorted m).angle = if m ∈ sorted then (O m).angle * W m else (O m).angle := by
  have key : ∀ (l : List I) (q : I → Rot (Vec d)), (l.foldl (pStep t W O) q m).angle
      = if m ∈ l then (O m).angle * W m else (q m).angle := by
    intro l
    induction l with
    | nil => intro q; simp
    | cons n l ih =>
      intro q
      rw [List.foldl_cons, ih]
      by_cases hm : m ∈ l
      · rw [if_pos hm, if_pos (List.mem_cons_of_mem _ hm)]
      · rw [if_neg hm]
        by_cases hmn : m = n
        · subst hmn
          rw [if_pos List.mem_cons_self]
          simp [pStep]
        · rw [if_neg (by simp [hmn, hm])]
          unfold pStep
          rw [if_neg hmn]
          split_ifs <;> rfl
  unfold partOf
  rw [key]
  simp only [List.mem_reverse]

/-- Full weight on one node: the direction of its parent, rotated as stored for this node. -/
lemma one_hot_defined (h : RootedTree t r) (hd : Defined t) {argsort : List ℤ → List ℕ}
    (has : ArgsortSpec argsort) (st : NodeState I d) (n : I) (hn : n ∈ t.nodes) :
    t.getWeightedMean argsort st [n] [1] = .ok (planeRot (orientOf t r n).base (orientOf t r n).angle
      (orientOf t r n).base.b0) := by
  classical
  set W := branchWeight t ([n].zip [(1 : ℝ)]) with hW
  have hWv : ∀ m, W m = if n = m ∨ Descendant t m n then 1 else 0 := fun m =>
    branchWeight_one n m hn
  have hWz : ∀ m, W m ≠ 0 ↔ n = m ∨ Descendant t m n := by
    intro m; rw [hWv m]; split_ifs with e <;> simp [e]
  have ha : Args t r [n] [1] := by
    refine ⟨rfl, by simpa using hn, by simp, ?_⟩
    intro m _ _
    rw [← hW, hWv m]; split_ifs <;> norm_num
  have hgw := ha.good h
  obtain ⟨L, hL⟩ := exists_deepest h hgw (by
    rw [← hW, hWz]
    by_cases hr : n = r
    · exact Or.inl hr
    · exact Or.inr (h.root_desc hn hr))
  rw [← hW] at hL
  have hlevn : lev t n = (L : ℤ) := by
    have h1 := ((hL (lev t n)).mp ⟨n, hn, rfl, (hWz n).mpr (Or.inl rfl)⟩).2
    obtain ⟨m, _, hm1, hm2⟩ := (hL L).mpr ⟨by positivity, by push_cast; omega⟩
    rcases (hWz m).mp hm2 with e | e
    · rw [e]; exact hm1
    · have := h.lev_desc e
      push_cast at h1; omega
  obtain ⟨sorted, hs1, hs⟩ := getNodesAscending_spec h has
  obtain ⟨st', u1, u2, u3, u4⟩ := updatePartialRotations_spec h hd st [n] [1] ha.zip_known hs
  rw [← hW] at u2 u3 u4
  have hO := orientOf_isOrient h hd
  set q := partOf t W (orientOf t r) sorted with hq
  have hqm : ∀ m ∈ t.nodes, (q m).angle = (orientOf t r m).angle * W m := fun m hm => by
    rw [hq, partOf_angle, if_pos (hs.mem_iff.mpr hm)]
  have hsingle : ∀ j < L + 1, ∃ a ∈ t.nodes, idsAt t W sorted (j : ℤ) = [a] := by
    intro j hj
    obtain ⟨a, ha1, ha2, ha3⟩ := (hL j).mpr ⟨by positivity, by exact_mod_cast hj⟩
    refine ⟨a, ha1, ?_⟩
    have hmem : ∀ x, x ∈ idsAt t W sorted (j : ℤ) ↔ x = a := by
      intro x
      rw [mem_idsAt h hs]
      constructor
      · rintro ⟨hx1, hx2, hx3⟩
        have hx := (hWz x).mp hx3
        have ha := (hWz a).mp ha3
        rcases hx with e | e
        · rcases ha with e' | e'
          · rw [← e, e']
          · have := h.lev_desc e'; rw [e] at this; omega
        · rcases ha with e' | e'
          · have := h.lev_desc e; rw [e'] at this; omega
          · exact h.desc_same_level e e' (by omega)
      · rintro rfl; exact ⟨ha1, ha2, ha3⟩
    have hnd := idsAt_nodup (W := W) h hs (j : ℤ)
    apply List.perm_singleton.mp
    rw [List.perm_ext_iff_of_nodup hnd (by simp)]
    intro x; rw [hmem]; simp
  have hang : ∀ m ∈ t.nodes, 0 ≤ (q m).angle := by
    intro m hm
    rw [hqm m hm]
    exact mul_nonneg (hO.angle_nonneg h hm) (hgw.nonneg m)
  have hidsL : idsAt t W sorted (L : ℤ) = [n] := by
    obtain ⟨a, _, e⟩ := hsingle L (by omega)
    have : n ∈ idsAt t W sorted (L : ℤ) :=
      (mem_idsAt h hs).mpr ⟨hn, hlevn, (hWz n).mpr (Or.inl rfl)⟩
    rw [e, List.mem_singleton] at this
    rw [e, this]
  have hqn : q n = orientOf t r n := by
    have e1 : (q n).base = (orientOf t r n).base :=
      partOf_zero_one (by
        intro m; rw [hWv m]; split_ifs
        · exact Or.inr rfl
        · exact Or.inl rfl) sorted n
    have e2 : (q n).angle = (orientOf t r n).angle := by
      rw [hqm n hn, hWv n, if_pos (Or.inl rfl), mul_one]
    exact Rot.ext e1 e2
  obtain ⟨seq, hseq⟩ := graphSumming_single h hs u4 hang st' u2 u3 L hL hsingle hidsL
  unfold Tree.getWeightedMean Tree.reduceWeightedToSequence
  rw [if_neg (by simp), hs1]
  simp only [bind, Except.bind, u1, hseq]
  rw [endVector_append, second_eq, ← hqn]
  have e3 : (levelRot q [n] (q n).base.b0).base.b0 = (q n).base.b0 := rfl
  rw [e3, levelRot_single q n (u4 n hn) (hang n hn)]

end Verif
