import Verif.Model.GmmGraph
import Verif.Props.Boundaries
import Verif.Props.Hull

/-!
# C56: the graph built from a learned mixture of Gaussians
-/

namespace Verif

namespace Spec

/-- `pref` is a descending argsort of the rows of the weights without the diagonal: row `c` lists all
Gaussians, those with a larger weight first. -/
def IsPreference (n : ℕ) (w : ℕ → ℕ → ℝ) (pref : ℕ → ℕ → ℕ) : Prop :=
  ∀ c < n, ((List.range n).map (pref c)).Perm (List.range n)
    ∧ ∀ k l, k < l → l < n →
      (if c = pref c l then -1 else w c (pref c l)) ≤ (if c = pref c k then -1 else w c (pref c k))

/-- A graph in which `root` is the only Gaussian without a parent, everybody reaches the root, and
`get_children` is the inverse of `get_parent`. -/
structure TreeWithRoot (n : ℕ) (root : ℕ) (g : MultiBoundary) : Prop where
  size : g.nObstacles = n
  root_lt : root < n
  root_parent : g.getParent root = .ok (-1)
  one_parent : ∀ i < n, i ≠ root → ∃ p : ℕ, p < n ∧ g.getParent i = .ok (p : ℤ)
  reaches : ∀ i < n, AncestorOrSelf g root i
  children : ∀ p < n, ∃ cs : List ℤ, g.getChildren p = .ok cs ∧ cs.Nodup
    ∧ ∀ x : ℤ, x ∈ cs ↔ ∃ i : ℕ, x = i ∧ i < n ∧ g.getParent i = .ok (p : ℤ)

end Spec

namespace GmmGraph

open MultiBoundary

/-- The invariant of the construction. -/
structure Inv (n root : ℕ) (g : MultiBoundary) : Prop where
  forest : Forest g
  size : g.parents.length = n
  root_lt : root < n
  root_parent : g.parents[root]? = some (-1)
  reach : ∀ i : ℕ, i < n → g.parents[i]? ≠ some (-1) → Spec.AncestorOrSelf g root i
  total : g.children.flatten.length + g.parents.count (-1) = n

lemma Inv.reach' {n root : ℕ} {g : MultiBoundary} (h : Inv n root g) {i : ℕ}
    (hi : i = root ∨ (i < n ∧ g.parents[i]? ≠ some (-1))) : Spec.AncestorOrSelf g root i := by
  rcases hi with rfl | ⟨h1, h2⟩
  · exact .refl
  · exact h.reach i h1 h2

lemma initial_inv {n root : ℕ} (h : root < n) : Inv n root (initial n) := by
  have hp : ∀ i < n, (initial n).parents[i]? = some (-1) := by
    intro i hi
    simp [initial, hi]
  refine ⟨⟨by simp [initial], ?_, ?_, ?_⟩, by simp [initial], h, hp root h, ?_, ?_⟩
  · intro i p hip
    left
    simp [initial, List.getElem?_replicate] at hip
    exact hip.2.symm
  · intro q c hc
    simp only [initial, List.getElem?_replicate] at hc
    split at hc
    · simp only [Option.some.injEq] at hc
      subst hc
      refine ⟨List.nodup_nil, fun x => ?_⟩
      simp only [List.not_mem_nil, false_iff]
      rintro ⟨i, -, hi⟩
      simp [initial, List.getElem?_replicate] at hi
    · cases hc
  · intro i hi
    exact ⟨0, .root (hp i (by simpa [initial] using hi))⟩
  · intro i hi hne
    exact absurd (hp i hi) hne
  · simp [initial]

lemma mem_assigned {n root : ℕ} {g : MultiBoundary} (h : Inv n root g) {i : ℕ} (hi : i < n) :
    (i : ℤ) ∈ assigned g root ↔ i = root ∨ g.parents[i]? ≠ some (-1) := by
  unfold assigned
  rw [List.mem_cons, Nat.cast_inj, List.mem_flatten]
  apply or_congr Iff.rfl
  constructor
  · rintro ⟨l, hl, hil⟩
    obtain ⟨q, hq, hql⟩ := List.mem_iff_getElem.mp hl
    have := ((h.forest.child q l (List.getElem?_eq_some_iff.mpr ⟨hq, hql⟩)).2 i).mp hil
    obtain ⟨j, hj, hp⟩ := this
    rw [Nat.cast_inj] at hj
    subst hj
    rw [hp]
    simp
  · intro hne
    obtain ⟨p, hp⟩ : ∃ p, g.parents[i]? = some p :=
      ⟨_, List.getElem?_eq_some_iff.mpr ⟨by rw [h.size]; exact hi, rfl⟩⟩
    rcases h.forest.parent i p hp with rfl | ⟨q, rfl, hq⟩
    · exact absurd hp hne
    · have hq' : q < g.children.length := by rw [h.forest.len]; exact hq
      refine ⟨g.children[q], List.getElem_mem hq', ?_⟩
      exact ((h.forest.child q _ (List.getElem?_eq_some_iff.mpr ⟨hq', rfl⟩)).2 i).mpr ⟨i, rfl, hp⟩

lemma no_ancestor {n root : ℕ} {g : MultiBoundary} (h : Inv n root g) {c p : ℕ}
    (hc : g.parents[c]? = some (-1)) (hcr : c ≠ root) (hp : Spec.AncestorOrSelf g root p) :
    ¬ Spec.AncestorOrSelf g c p := by
  intro hcp
  unfold Spec.AncestorOrSelf at hp hcp
  have hdet : ∀ {x y z : ℕ}, g.getParent x = .ok (y : ℤ) → g.getParent x = .ok (z : ℤ) → y = z := by
    intro x y z h1 h2
    rw [h1] at h2
    simpa using h2
  have hend : ∀ {x : ℕ}, g.parents[x]? = some (-1) → ∀ y : ℕ, ¬ g.getParent x = .ok (y : ℤ) := by
    intro x hx y hy
    rw [getParent_iff, hx] at hy
    simp at hy
  have hend' : ∀ {x y : ℕ}, g.parents[x]? = some (-1) →
      Relation.ReflTransGen (fun x y : ℕ => g.getParent x = .ok (y : ℤ)) x y → x = y := by
    intro x y hx hxy
    rcases Relation.ReflTransGen.cases_head hxy with h1 | ⟨z, h1, _⟩
    · exact h1
    · exact absurd h1 (hend hx z)
  have hru : Relator.RightUnique (fun x y : ℕ => g.getParent x = .ok (y : ℤ)) :=
    fun a b c h1 h2 => hdet h1 h2
  rcases Relation.ReflTransGen.total_of_right_unique hru hp hcp with h1 | h1
  · exact hcr (hend' h.root_parent h1).symm
  · exact hcr (hend' hc h1)

lemma count_set {l : List ℤ} {c : ℕ} {p : ℕ} (h : l[c]? = some (-1)) :
    (l.set c (p : ℤ)).count (-1) + 1 = l.count (-1) := by
  obtain ⟨hc, hv⟩ := List.getElem?_eq_some_iff.mp h
  rw [List.count_set hc]
  have hpos : 0 < l.count (-1) := by
    rw [List.count_pos_iff, ← hv]
    exact List.getElem_mem hc
  rw [hv]
  have : ((p : ℤ) == -1) = false := by
    rw [beq_eq_false_iff_ne]; omega
  rw [this]
  simp
  omega

lemma flatten_set {l : List (List ℤ)} {p : ℕ} (hp : p < l.length) (x : ℤ) :
    (l.set p (l.getD p [] ++ [x])).flatten.length = l.flatten.length + 1 := by
  induction l generalizing p with
  | nil => simp at hp
  | cons a l ih =>
    cases p with
    | zero => simp; omega
    | succ p =>
      have := ih (p := p) (by simpa using hp)
      simp only [List.getD_cons_succ, List.set_cons_succ, List.flatten_cons, List.length_append]
      omega

lemma extend_inv {n root : ℕ} {g : MultiBoundary} (h : Inv n root g) {c p : ℕ} (hc : c < n)
    (hcn : (c : ℤ) ∉ assigned g root) (hp : p < n) (hpa : (p : ℤ) ∈ assigned g root) :
    ∃ g', g.extendGraph c p = (g', .ok ()) ∧ Inv n root g'
      ∧ g'.parents = g.parents.set c p := by
  rw [mem_assigned h hc] at hcn
  rw [mem_assigned h hp] at hpa
  push Not at hcn
  obtain ⟨hcr, hcp⟩ := hcn
  have hpr := h.reach' (i := p) (by
    rcases hpa with h1 | h1
    · exact .inl h1
    · exact .inr ⟨hp, h1⟩)
  have hanc := no_ancestor h hcp hcr hpr
  refine ⟨_, extend_eq h.forest.len (by rw [h.size]; exact hc) (by rw [h.size]; exact hp), ?_, rfl⟩
  have hpget : ∀ i : ℕ, i ≠ c → (g.parents.set c (p : ℤ))[i]? = g.parents[i]? := by
    intro i hi
    rw [List.getElem?_set_ne (Ne.symm hi)]
  have hself : (g.parents.set c (p : ℤ))[c]? = some (p : ℤ) := by
    rw [List.getElem?_set_self (by rw [h.size]; exact hc)]
  have hmono : ∀ {i : ℕ}, Spec.AncestorOrSelf g root i → Spec.AncestorOrSelf
      ⟨g.parents.set c p, g.children.set p (g.children.getD p [] ++ [(c : ℤ)])⟩ root i := by
    intro i hi
    unfold Spec.AncestorOrSelf at hi ⊢
    refine Relation.ReflTransGen.mono ?_ _ _ hi
    intro x y hxy
    rw [getParent_iff] at hxy ⊢
    have hx : x ≠ c := by
      rintro rfl
      rw [hcp] at hxy
      simp at hxy
    exact (hpget x hx).trans hxy
  refine ⟨forest_extend h.forest hcp (by rw [h.size]; exact hp) hanc, ?_, h.root_lt, ?_, ?_, ?_⟩
  · simp [h.size]
  · exact (hpget root (Ne.symm hcr)).trans h.root_parent
  · intro i hi hne
    by_cases hic : i = c
    · subst hic
      exact Relation.ReflTransGen.head (getParent_iff.mpr hself) (hmono hpr)
    · simp only [hpget i hic] at hne
      exact hmono (h.reach i hi hne)
  · have h1 := count_set (p := p) hcp
    have h2 := flatten_set (l := g.children) (p := p) (by rw [h.forest.len, h.size]; exact hp) (c : ℤ)
    have h3 := h.total
    simp only
    omega

lemma mem_unassigned {n root : ℕ} {g : MultiBoundary} {c : ℕ} :
    c ∈ unassigned n g root ↔ c < n ∧ (c : ℤ) ∉ assigned g root := by
  unfold unassigned
  rw [List.mem_filter, List.mem_range, decide_eq_true_eq]

lemma mem_candidates {n root : ℕ} {g : MultiBoundary} {pref : ℕ → ℕ → ℕ} {k : ℕ} {pc : ℕ × ℕ} :
    pc ∈ candidates n pref g root k ↔ pc.2 < n ∧ (pc.2 : ℤ) ∉ assigned g root ∧ pc.1 = pref pc.2 k
      ∧ (pc.1 : ℤ) ∈ assigned g root := by
  unfold candidates
  rw [List.mem_map]
  constructor
  · rintro ⟨c, hc, rfl⟩
    rw [List.mem_filter, mem_unassigned, decide_eq_true_eq] at hc
    exact ⟨hc.1.1, hc.1.2, rfl, hc.2⟩
  · rintro ⟨h1, h2, h3, h4⟩
    refine ⟨pc.2, ?_, by rw [← h3]⟩
    rw [List.mem_filter, mem_unassigned, decide_eq_true_eq, ← h3]
    exact ⟨⟨h1, h2⟩, h4⟩

lemma candidates_nodup {n root : ℕ} {g : MultiBoundary} {pref : ℕ → ℕ → ℕ} {k : ℕ} :
    ((candidates n pref g root k).map Prod.snd).Nodup := by
  unfold candidates
  rw [List.map_map]
  have : (Prod.snd ∘ fun c => (pref c k, c)) = id := rfl
  rw [this, List.map_id]
  exact (List.nodup_range.filter _).filter _

lemma extendAll_inv {n root : ℕ} : ∀ (l : List (ℕ × ℕ)) {g : MultiBoundary}, Inv n root g →
    (∀ pc ∈ l, pc.2 < n ∧ (pc.2 : ℤ) ∉ assigned g root ∧ pc.1 < n ∧ (pc.1 : ℤ) ∈ assigned g root) →
    (l.map Prod.snd).Nodup →
    ∃ g', extendAll l g = (g', .ok ()) ∧ Inv n root g'
      ∧ g'.parents.count (-1) + l.length = g.parents.count (-1)
      ∧ ∀ i : ℕ, g'.parents[i]? = match l.find? (fun pc => pc.2 = i) with
        | none => g.parents[i]?
        | some pc => some (pc.1 : ℤ)
  | [], g, h, _, _ => ⟨g, rfl, h, by simp, fun i => rfl⟩
  | (p, c) :: l, g, h, hl, hnd => by
    have hpc := hl (p, c) List.mem_cons_self
    obtain ⟨g1, he, hinv, hpar⟩ := extend_inv h hpc.1 hpc.2.1 hpc.2.2.1 hpc.2.2.2
    rw [List.map_cons, List.nodup_cons] at hnd
    have hcm : g.parents[c]? = some (-1) := by
      have := hpc.2.1
      rw [mem_assigned h hpc.1] at this
      push Not at this
      exact this.2
    have hkeep : ∀ i : ℕ, i < n → i ≠ c →
        ((i : ℤ) ∈ assigned g1 root ↔ (i : ℤ) ∈ assigned g root) := by
      intro i hi hic
      rw [mem_assigned h hi, mem_assigned hinv hi, hpar, List.getElem?_set_ne (Ne.symm hic)]
    have hcin : (c : ℤ) ∈ assigned g1 root := by
      rw [mem_assigned hinv hpc.1, hpar, List.getElem?_set_self (by rw [h.size]; exact hpc.1)]
      right; simp
    obtain ⟨g2, he2, hinv2, hcount, hget⟩ := extendAll_inv l hinv (by
      intro pc hpcl
      obtain ⟨h1, h2, h3, h4⟩ := hl pc (List.mem_cons_of_mem _ hpcl)
      have hne : pc.2 ≠ c := by
        intro heq
        exact hnd.1 (List.mem_map.mpr ⟨pc, hpcl, heq⟩)
      refine ⟨h1, by rw [hkeep _ h1 hne]; exact h2, h3, ?_⟩
      by_cases hpe : pc.1 = c
      · rw [hpe]; exact hcin
      · rw [hkeep _ h3 hpe]; exact h4) hnd.2
    refine ⟨g2, ?_, hinv2, ?_, ?_⟩
    · unfold extendAll
      rw [he]
      exact he2
    · have := count_set (p := p) hcm
      rw [hpar] at hcount
      rw [List.length_cons]
      simp only at hcount
      omega
    · intro i
      rw [hget i, List.find?_cons]
      by_cases hic : c = i
      · have hnone : l.find? (fun pc => decide (pc.2 = i)) = none := by
          rw [List.find?_eq_none]
          intro x hx
          rw [decide_eq_true_eq]
          intro heq
          exact hnd.1 (List.mem_map.mpr ⟨x, hx, by rw [heq, hic]⟩)
        rw [hnone]
        simp only [hic, decide_true]
        rw [hpar, hic, List.getElem?_set_self (by rw [h.size, ← hic]; exact hpc.1)]
      · simp only [hic, decide_false]
        rw [hpar, List.getElem?_set_ne hic]

lemma critical_mem (w : ℕ → ℕ → ℝ) (k : ℕ) : ∀ (rest : List ℕ) (first : ℕ),
    critical w k first rest ∈ first :: rest
  | [], first => by simp [critical]
  | c :: rest, first => by
    classical
    unfold critical
    rw [List.foldl_cons]
    have := critical_mem w k rest (if withoutSelf w first k < withoutSelf w c k then c else first)
    unfold critical at this
    rw [List.mem_cons] at this ⊢
    rcases this with h | h
    · rw [h]
      split
      · right; exact List.mem_cons_self
      · left; rfl
    · right; exact List.mem_cons_of_mem _ h

lemma pref_facts {n : ℕ} {w : ℕ → ℕ → ℝ} {pref : ℕ → ℕ → ℕ} (hp : Spec.IsPreference n w pref)
    (hw : ∀ i j, 0 ≤ w i j) {c : ℕ} (hc : c < n) :
    (∀ k < n, pref c k < n) ∧ ∀ j < n, j ≠ c → ∃ k < n - 1, pref c k = j := by
  obtain ⟨hperm, hsort⟩ := hp c hc
  have hlt : ∀ k < n, pref c k < n := by
    intro k hk
    rw [← List.mem_range, ← hperm.mem_iff]
    exact List.mem_map_of_mem (List.mem_range.mpr hk)
  have hsurj : ∀ j < n, ∃ k < n, pref c k = j := by
    intro j hj
    have := (hperm.mem_iff (a := j)).mpr (List.mem_range.mpr hj)
    obtain ⟨k, hk, hkj⟩ := List.mem_map.mp this
    exact ⟨k, List.mem_range.mp hk, hkj⟩
  refine ⟨hlt, ?_⟩
  intro j hj hjc
  obtain ⟨k, hk, hkj⟩ := hsurj j hj
  obtain ⟨l, hl, hlc⟩ := hsurj c hc
  by_cases hkn : k < n - 1
  · exact ⟨k, hkn, hkj⟩
  · exfalso
    have hkl : l < k := by
      have : l ≠ k := by
        rintro rfl
        exact hjc (hkj.symm.trans hlc)
      omega
    have := hsort l k hkl hk
    rw [hlc, hkj, if_pos rfl, if_neg (Ne.symm hjc)] at this
    linarith [hw c j]

lemma all_assigned {n root : ℕ} {g : MultiBoundary} (h : Inv n root g)
    (hall : ∀ c < n, (c : ℤ) ∈ assigned g root) : g.parents.count (-1) = 1 := by
  have h1 := count_set (p := 0) h.root_parent
  have h2 : (g.parents.set root ((0 : ℕ) : ℤ)).count (-1) = 0 := by
    rw [List.count_eq_zero]
    intro hm
    obtain ⟨i, hi, hv⟩ := List.mem_iff_getElem.mp hm
    have hin : i < n := by rw [← h.size]; simpa using hi
    have hv' := List.getElem?_eq_some_iff.mpr ⟨hi, hv⟩
    by_cases hir : i = root
    · rw [hir, List.getElem?_set_self (by rw [h.size]; exact h.root_lt)] at hv'
      simp at hv'
    · rw [List.getElem?_set_ne (Ne.symm hir)] at hv'
      have := hall i hin
      rw [mem_assigned h hin] at this
      rcases this with h3 | h3
      · exact hir h3
      · exact h3 hv'
  omega

lemma assigned_all {n root : ℕ} {g : MultiBoundary} (h : Inv n root g)
    (hone : g.parents.count (-1) ≤ 1) {i : ℕ} (hir : i ≠ root) :
    g.parents[i]? ≠ some (-1) := by
  intro hi
  have h1 := count_set (p := 0) h.root_parent
  have h2 : 0 < (g.parents.set root ((0 : ℕ) : ℤ)).count (-1) := by
    rw [List.count_pos_iff, List.mem_iff_getElem?]
    exact ⟨i, by rw [List.getElem?_set_ne (Ne.symm hir)]; exact hi⟩
  omega

lemma pass_inv {n root : ℕ} {g : MultiBoundary} (h : Inv n root g) {w : ℕ → ℕ → ℝ}
    {pref : ℕ → ℕ → ℕ} (hp : Spec.IsPreference n w pref) (hw : ∀ i j, 0 ≤ w i j)
    (hun : (assigned g root).length ≠ n) :
    ∃ g', pass n w pref root g = (g', .ok ()) ∧ Inv n root g'
      ∧ g'.parents.count (-1) < g.parents.count (-1) := by
  -- some Gaussian is not assigned
  have hex : ∃ c < n, (c : ℤ) ∉ assigned g root := by
    by_contra hall
    push Not at hall
    apply hun
    have h1 := all_assigned h hall
    have := h.total
    unfold assigned
    rw [List.length_cons]
    omega
  obtain ⟨c, hc, hcn⟩ := hex
  have hcr : root ≠ c := by
    rintro rfl
    exact hcn (by simp [assigned])
  obtain ⟨hlt, hsurj⟩ := pref_facts hp hw hc
  obtain ⟨k0, hk0, hk0r⟩ := hsurj root h.root_lt hcr
  unfold pass
  cases hf : (List.range (n - 1)).find? (fun k => decide (candidates n pref g root k ≠ [])) with
  | none =>
    exfalso
    rw [List.find?_eq_none] at hf
    have := hf k0 (List.mem_range.mpr hk0)
    rw [decide_eq_true_eq, not_not] at this
    have hmem : (root, c) ∈ candidates n pref g root k0 :=
      mem_candidates.mpr ⟨hc, hcn, hk0r.symm, by simp [assigned]⟩
    rw [this] at hmem
    cases hmem
  | some k =>
    simp only
    have hkn : k < n - 1 := List.mem_range.mp (List.mem_of_find?_eq_some hf)
    have hne := List.find?_some hf
    rw [decide_eq_true_eq] at hne
    have hcand : ∀ pc ∈ candidates n pref g root k,
        pc.2 < n ∧ (pc.2 : ℤ) ∉ assigned g root ∧ pc.1 < n ∧ (pc.1 : ℤ) ∈ assigned g root := by
      intro pc hpc
      obtain ⟨h1, h2, h3, h4⟩ := mem_candidates.mp hpc
      refine ⟨h1, h2, ?_, h4⟩
      rw [h3]
      exact (pref_facts hp hw h1).1 k (by omega)
    have hall : ∃ g', extendAll (candidates n pref g root k) g = (g', .ok ()) ∧ Inv n root g'
        ∧ g'.parents.count (-1) < g.parents.count (-1) := by
      obtain ⟨g', h1, h2, h3, -⟩ := extendAll_inv _ h hcand candidates_nodup
      refine ⟨g', h1, h2, ?_⟩
      have : 0 < (candidates n pref g root k).length := List.length_pos_of_ne_nil hne
      omega
    unfold assign
    split
    · rename_i heq; exact absurd heq hne
    · rename_i pc heq; rw [heq] at hall; exact hall
    · rename_i pc pc' l heq
      split
      · rw [heq] at hall; exact hall
      · set q := critical w k pc.2 ((pc' :: l).map Prod.snd) with hq
        have hqm : q ∈ (candidates n pref g root k).map Prod.snd := by
          rw [heq, List.map_cons]
          exact critical_mem w k _ _
        obtain ⟨x, hx, hxq⟩ := List.mem_map.mp hqm
        obtain ⟨h1, h2, h3, h4⟩ := hcand x hx
        have h5 := (mem_candidates.mp hx).2.2.1
        rw [hxq] at h1 h2 h5
        rw [h5] at h3 h4
        obtain ⟨g', e1, e2, e3⟩ := extend_inv h h1 h2 h3 h4
        refine ⟨g', e1, e2, ?_⟩
        rw [e3]
        have hqm : g.parents[q]? = some (-1) := by
          rw [mem_assigned h h1] at h2
          push Not at h2
          exact h2.2
        have := count_set (p := pref q k) hqm
        omega

lemma loop_inv {n root : ℕ} {w : ℕ → ℕ → ℝ} {pref : ℕ → ℕ → ℕ} (hp : Spec.IsPreference n w pref)
    (hw : ∀ i j, 0 ≤ w i j) : ∀ (rounds : ℕ) {g : MultiBoundary}, Inv n root g →
    g.parents.count (-1) ≤ rounds →
    ∃ g', loop n w pref root rounds g = (g', .ok ()) ∧ Inv n root g' ∧ g'.parents.count (-1) = 1
  | 0, g, h, hc => by
    exfalso
    have : 0 < g.parents.count (-1) := by
      rw [List.count_pos_iff, List.mem_iff_getElem?]
      exact ⟨root, h.root_parent⟩
    omega
  | rounds + 1, g, h, hc => by
    unfold loop
    by_cases hlen : (assigned g root).length = n
    · rw [if_pos hlen]
      refine ⟨g, rfl, h, ?_⟩
      unfold assigned at hlen
      rw [List.length_cons] at hlen
      have := h.total
      omega
    · rw [if_neg hlen]
      obtain ⟨g1, e1, hinv, hlt⟩ := pass_inv h hp hw hlen
      rw [e1]
      simp only
      exact loop_inv hp hw rounds hinv (by omega)

lemma tree_of_inv {n root : ℕ} {g : MultiBoundary} (h : Inv n root g)
    (hone : g.parents.count (-1) = 1) : Spec.TreeWithRoot n root g := by
  have hne : ∀ i, i ≠ root → g.parents[i]? ≠ some (-1) := fun i hi => assigned_all h hone.le hi
  refine ⟨h.size, h.root_lt, getParent_iff.mpr h.root_parent, ?_, ?_, ?_⟩
  · intro i hi hir
    have hi' : i < g.parents.length := by rw [h.size]; exact hi
    have hv : g.parents[i]? = some g.parents[i] := List.getElem?_eq_some_iff.mpr ⟨hi', rfl⟩
    rcases h.forest.parent i _ hv with h1 | ⟨q, h1, h2⟩
    · rw [h1] at hv; exact absurd hv (hne i hir)
    · refine ⟨q, by rw [← h.size]; exact h2, getParent_iff.mpr ?_⟩
      rw [hv, h1]
  · intro i hi
    by_cases hir : i = root
    · rw [hir]; exact .refl
    · exact h.reach i hi (hne i hir)
  · intro p hp
    have hp' : p < g.children.length := by rw [h.forest.len, h.size]; exact hp
    have hv : g.children[p]? = some g.children[p] := List.getElem?_eq_some_iff.mpr ⟨hp', rfl⟩
    obtain ⟨h1, h2⟩ := h.forest.child p _ hv
    refine ⟨_, getChildren_iff.mpr hv, h1, fun x => (h2 x).trans ?_⟩
    constructor
    · rintro ⟨i, e, hi⟩
      exact ⟨i, e, by rw [← h.size]; exact (List.getElem?_eq_some_iff.mp hi).1, getParent_iff.mpr hi⟩
    · rintro ⟨i, e, -, hi⟩
      exact ⟨i, e, getParent_iff.mp hi⟩

/-- **C56 (part)** For up to 100 Gaussians the construction ends, and the result is a tree: the root is
a Gaussian whose end point is closest to the attractor, every other one has exactly one parent and
reaches the root.  Missing: more than 100 Gaussians, see `C56_debugger`. -/
theorem C56_tree_partial {d : ℕ} (ends : List (Vec d)) (attractor : Vec d) (w : ℕ → ℕ → ℝ)
    (pref : ℕ → ℕ → ℕ) (h1 : ends ≠ []) (h100 : ends.length ≤ 100) (hw : ∀ i j, 0 ≤ w i j)
    (hp : Spec.IsPreference ends.length w pref) :
    ∃ root g, create ends attractor w pref = .ok (root, g)
      ∧ Spec.TreeWithRoot ends.length root g
      ∧ ∃ hr : root < ends.length, ∀ e ∈ ends, ‖ends[root] - attractor‖ ≤ ‖e - attractor‖ := by
  obtain ⟨root, hroot, hlt, hmin, -⟩ := argmin_spec
    (l := ends.map (fun e => ‖e - attractor‖)) (by simpa using h1)
  rw [List.length_map] at hlt
  obtain ⟨g, e1, hinv, hone⟩ := loop_inv hp hw 100 (initial_inv hlt) (by
    simp [initial]; exact h100)
  refine ⟨root, g, ?_, tree_of_inv hinv hone, hlt, ?_⟩
  · unfold create
    rw [hroot]
    change (match loop ends.length w pref root 100 (initial ends.length) with
      | (_, .error e) => .error e
      | (g, .ok ()) => .ok (root, g) : Except PyErr (ℕ × MultiBoundary)) = _
    rw [e1]
  · intro e he
    have := hmin _ (List.mem_map_of_mem he)
    simpa using this

/-- **C56** Without Gaussians the call raises `ValueError`. -/
theorem C56_empty {d : ℕ} (attractor : Vec d) (w : ℕ → ℕ → ℝ) (pref : ℕ → ℕ → ℕ) :
    create [] attractor w pref = .error .valueError := rfl

/-- The preferences of the chain `0 ← 1 ← 2 ← ...`. -/
lemma chain_pass {n m : ℕ} (hm : m + 1 < n) {g : MultiBoundary} (h : Inv n 0 g) {w : ℕ → ℕ → ℝ}
    {pref : ℕ → ℕ → ℕ} (hpref : ∀ c, 0 < c → c < n → pref c 0 = c - 1)
    (hg : ∀ i < n, g.parents[i]? ≠ some (-1) ↔ 0 < i ∧ i ≤ m) :
    ∃ g', pass n w pref 0 g = (g', .ok ()) ∧ Inv n 0 g'
      ∧ ∀ i < n, g'.parents[i]? ≠ some (-1) ↔ 0 < i ∧ i ≤ m + 1 := by
  have hass : ∀ i < n, (i : ℤ) ∈ assigned g 0 ↔ i ≤ m := by
    intro i hi
    rw [mem_assigned h hi, hg i hi]
    omega
  have hcand : ∀ pc : ℕ × ℕ, pc ∈ candidates n pref g 0 0 ↔ pc = (m, m + 1) := by
    intro pc
    rw [mem_candidates]
    constructor
    · rintro ⟨h1, h2, h3, h4⟩
      rw [hass _ h1] at h2
      rw [hpref _ (by omega) h1] at h3
      rw [hass _ (by omega)] at h4
      ext <;> simp <;> omega
    · rintro rfl
      refine ⟨hm, ?_, (hpref _ (by omega) hm).symm, ?_⟩
      · rw [hass _ hm]; omega
      · rw [hass _ (by omega)]
  have hlist : candidates n pref g 0 0 = [(m, m + 1)] := by
    have hnd : (candidates n pref g 0 0).Nodup := List.Nodup.of_map _ candidates_nodup
    rw [← List.perm_singleton]
    rw [List.perm_ext_iff_of_nodup hnd (List.nodup_singleton _)]
    intro a
    rw [hcand, List.mem_singleton]
  have hfind : (List.range (n - 1)).find? (fun k => decide (candidates n pref g 0 k ≠ []))
      = some 0 := by
    obtain ⟨q, hq⟩ : ∃ q, n - 1 = q + 1 := ⟨n - 2, by omega⟩
    rw [hq, List.range_succ_eq_map, List.find?_cons]
    simp [hlist]
  obtain ⟨g', e1, e2, -, e4⟩ := extendAll_inv [(m, m + 1)] h (by
    intro pc hpc
    rw [List.mem_singleton] at hpc
    subst hpc
    refine ⟨hm, ?_, by omega, ?_⟩
    · rw [hass _ hm]; omega
    · rw [hass _ (by omega)]) (by simp)
  refine ⟨g', ?_, e2, ?_⟩
  · unfold pass
    rw [hfind]
    simp only [hlist]
    exact e1
  · intro i hi
    rw [e4 i, List.find?_singleton]
    by_cases him : m + 1 = i
    · simp [him]
      omega
    · simp only [him, decide_false, Bool.false_eq_true, if_false]
      rw [hg i hi]
      omega

/-- **C56 (violated)** With more than 100 Gaussians the call can stop in the debugger: here every
Gaussian prefers the one before it, so that each round attaches one Gaussian. -/
theorem C56_debugger {d : ℕ} (ends : List (Vec d)) (attractor : Vec d) (w : ℕ → ℕ → ℝ)
    (pref : ℕ → ℕ → ℕ) (hn : 100 < ends.length)
    (hroot : Hull.argmin (ends.map (fun e => ‖e - attractor‖)) = .ok 0)
    (hpref : ∀ c, 0 < c → c < ends.length → pref c 0 = c - 1) :
    create ends attractor w pref = .error .breakpoint := by
  have key : ∀ (rounds m : ℕ) (g : MultiBoundary), rounds + m ≤ ends.length - 1 →
      Inv ends.length 0 g →
      (∀ i < ends.length, g.parents[i]? ≠ some (-1) ↔ 0 < i ∧ i ≤ m) →
      (loop ends.length w pref 0 rounds g).2 = .error .breakpoint := by
    intro rounds
    induction rounds with
    | zero => intro m g _ _ _; rfl
    | succ rounds ih =>
      intro m g hle hinv hg
      unfold loop
      have hlen : (assigned g 0).length ≠ ends.length := by
        intro hlen
        unfold assigned at hlen
        rw [List.length_cons] at hlen
        have h1 := hinv.total
        have h2 := assigned_all hinv (by omega) (i := m + 1) (by omega)
        rw [hg _ (by omega)] at h2
        omega
      rw [if_neg hlen]
      obtain ⟨g', e1, e2, e3⟩ := chain_pass (m := m) (by omega) hinv (w := w) hpref hg
      rw [e1]
      simp only
      exact ih (m + 1) g' (by omega) e2 e3
  have h := key 100 0 (initial ends.length) (by omega) (initial_inv (by omega)) (by
    intro i hi
    simp [initial, hi]
    omega)
  unfold create
  rw [hroot]
  change (match loop ends.length w pref 0 100 (initial ends.length) with
      | (_, .error e) => .error e
      | (g, .ok ()) => .ok (0, g) : Except PyErr (ℕ × MultiBoundary)) = _
  rcases hl : loop ends.length w pref 0 100 (initial ends.length) with ⟨g, r⟩
  rw [hl] at h
  simp only at h
  rw [h]

lemma preference_exists (n : ℕ) (w : ℕ → ℕ → ℝ) : ∃ pref, Spec.IsPreference n w pref := by
  classical
  let key : ℕ → ℕ → ℝ := fun c j => if c = j then -1 else w c j
  let sorted : ℕ → List ℕ := fun c =>
    (List.range n).mergeSort (fun i j => decide (key c j ≤ key c i))
  refine ⟨fun c k => (sorted c).getD k 0, ?_⟩
  intro c hc
  have hperm : (sorted c).Perm (List.range n) := List.mergeSort_perm _ _
  have hlen : (sorted c).length = n := by rw [hperm.length_eq, List.length_range]
  have hmap : (List.range n).map (fun k => (sorted c).getD k 0) = sorted c := by
    apply List.ext_getElem
    · simp [hlen]
    · intro i h1 h2
      simp [h2]
  refine ⟨by rw [hmap]; exact hperm, ?_⟩
  intro k l hkl hl
  have hs := List.pairwise_mergeSort (le := fun i j => decide (key c j ≤ key c i))
    (fun a b c => by simp only [decide_eq_true_eq]; intro h1 h2; linarith)
    (fun a b => by simp only [Bool.or_eq_true, decide_eq_true_eq]; exact le_total _ _)
    (List.range n)
  have := List.pairwise_iff_getElem.mp hs k l (by change k < (sorted c).length; omega)
    (by change l < (sorted c).length; omega) hkl
  rw [decide_eq_true_eq] at this
  have hk' : (sorted c).getD k 0 = (sorted c)[k]'(by omega) := by
    simp [show k < (sorted c).length by omega]
  have hl' : (sorted c).getD l 0 = (sorted c)[l]'(by omega) := by
    simp [show l < (sorted c).length by omega]
  simp only
  rw [hk', hl']
  exact this

/-- One-dimensional end points `0, 1, 2, ...` -/
noncomputable def line (n : ℕ) : List (Vec 1) :=
  (List.range n).map (fun i : ℕ => (EuclideanSpace.single 0 (i : ℝ) : Vec 1))

/-- The hypotheses of `C56_tree_partial` can be met: three Gaussians on a line. -/
example : ∃ pref root g, create (line 3) 0 (fun i j => 1 / (1 + |(i : ℝ) - j|)) pref = .ok (root, g)
    ∧ Spec.TreeWithRoot 3 root g := by
  obtain ⟨pref, hp⟩ := preference_exists 3 (fun i j => 1 / (1 + |(i : ℝ) - j|))
  have hl : (line 3).length = 3 := by simp [line]
  obtain ⟨root, g, h1, h2, -⟩ := C56_tree_partial (line 3) 0
    (fun i j => 1 / (1 + |(i : ℝ) - j|)) pref (by simp [line]) (by simp [line])
    (fun i j => by positivity) (by rw [hl]; exact hp)
  exact ⟨pref, root, g, h1, by simpa [line] using h2⟩

/-- The hypotheses of `C56_debugger` can be met: 101 Gaussians on a line, the weight of each end point
concentrated on the Gaussian before it. -/
example : ∃ pref, Spec.IsPreference 101 (fun i j => if j + 1 = i then 1 else 0) pref
    ∧ create (line 101) 0 (fun i j => if j + 1 = i then 1 else 0) pref = .error .breakpoint := by
  obtain ⟨pref, hp⟩ := preference_exists 101 (fun i j => if j + 1 = i then 1 else 0)
  refine ⟨pref, hp, C56_debugger _ _ _ _ (by simp [line]) ?_ ?_⟩
  · obtain ⟨i, h1, h2, h3, h4⟩ := argmin_spec (l := (line 101).map (fun e => ‖e - (0 : Vec 1)‖))
      (by simp [line])
    rw [h1]
    congr 1
    by_contra hi
    have := h4 0 (by omega)
    simp [line] at this
    linarith [Nat.cast_nonneg (α := ℝ) i]
  · intro c h0 hc
    simp only [line, List.length_map, List.length_range] at hc
    obtain ⟨hperm, hsort⟩ := hp c hc
    have := (hperm.mem_iff (a := c - 1)).mpr (List.mem_range.mpr (by omega))
    obtain ⟨k, hk, hkj⟩ := List.mem_map.mp this
    rw [List.mem_range] at hk
    rcases Nat.eq_zero_or_pos k with h | h
    · rw [← h]; exact hkj
    · have h2 := hsort 0 k h hk
      simp only at h2
      rw [hkj, if_neg (by omega), if_pos (by omega : c - 1 + 1 = c)] at h2
      split at h2
      · norm_num at h2
      · split at h2
        · omega
        · norm_num at h2

/-! ### The order of attachment -/

/-- Weights of four Gaussians with root 0: 2 and 3 prefer each other, then the root; 1 prefers 2,
then 3. -/
noncomputable def w4 : ℕ → ℕ → ℝ
  | 1, 2 => 3
  | 1, 3 => 2
  | 1, 0 => 1
  | 2, 3 => 3
  | 2, 0 => 2
  | 2, 1 => 0
  | 3, 2 => 3
  | 3, 0 => 1
  | 3, 1 => 1/2
  | 0, j => 3 - j
  | _, _ => 0

/-- The preferences that belong to `w4`. -/
def p4 : ℕ → ℕ → ℕ
  | 0, 0 => 1
  | 0, 1 => 2
  | 0, 2 => 3
  | 1, 0 => 2
  | 1, 1 => 3
  | 1, 2 => 0
  | 2, 0 => 3
  | 2, 1 => 0
  | 2, 2 => 1
  | 3, 0 => 2
  | 3, 1 => 0
  | 3, 2 => 1
  | c, _ => c

/-- **C56 (violated)** If no Gaussian can get its preferred parent, the one that is attached first is not
the one with the largest weight at its parent: here 2 and 3 compete for the root, the weight of 2 is
larger, and 3 is attached (2 then becomes its child). -/
theorem C56_wrong_order : Spec.IsPreference 4 w4 p4 ∧ w4 3 0 < w4 2 0
    ∧ candidates 4 p4 (initial 4) 0 0 = [] ∧ candidates 4 p4 (initial 4) 0 1 = [(0, 2), (0, 3)]
    ∧ (pass 4 w4 p4 0 (initial 4)).1.getParent 3 = .ok 0
    ∧ (pass 4 w4 p4 0 (initial 4)).1.getParent 2 = .ok (-1) := by
  have h0 : candidates 4 p4 (initial 4) 0 0 = [] := by decide
  have h1 : candidates 4 p4 (initial 4) 0 1 = [(0, 2), (0, 3)] := by decide
  have hpass : pass 4 w4 p4 0 (initial 4) = (⟨[-1, -1, -1, 0], [[3], [], [], []]⟩, .ok ()) := by
    unfold pass
    have hf : (List.range (4 - 1)).find? (fun k => decide (candidates 4 p4 (initial 4) 0 k ≠ []))
        = some 1 := by
      decide
    rw [hf]
    simp only [h1]
    have hc : critical w4 1 2 [3] = 3 := by
      unfold critical
      simp [withoutSelf, w4]
    unfold assign
    simp only [List.map_cons, List.map_nil, hc]
    rw [if_neg (by norm_num)]
    rfl
  refine ⟨?_, by norm_num [w4], h0, h1, ?_, ?_⟩
  · intro c hc
    refine ⟨?_, ?_⟩
    · interval_cases c <;> decide
    · intro k l hkl hl
      interval_cases c <;> interval_cases l <;> interval_cases k <;> norm_num [p4, w4]
  · rw [hpass]; rfl
  · rw [hpass]; rfl

end GmmGraph
end Verif
