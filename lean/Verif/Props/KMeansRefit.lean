import Verif.Props.KMeansHierarchy

/-!
# C55: the hierarchy after later fits
-/

namespace Verif.KMeans

variable {d n : ℕ}

/-! ### Helpers -/

lemma level_addNode (g : Graph n) (i : Fin n) (lv : ℕ) (k : Fin n) :
    (g.addNode i lv).level k = if k = i then some lv else g.level k := by
  obtain ⟨nodes, edges⟩ := g
  unfold Graph.addNode Graph.level
  by_cases hm : i ∈ nodes.map Prod.fst
  · rw [if_pos hm]
    simp only
    induction nodes with
    | nil => simp at hm
    | cons e l ih =>
      rw [List.map_cons]
      by_cases he : e.1 = i
      · by_cases hk : k = i
        · subst hk
          simp [he]
        · have h1 : ¬ i = k := fun h => hk h.symm
          have h2 : ¬ e.1 = k := fun h => hk (h.symm.trans he)
          rw [if_pos he, List.find?_cons_of_neg (by simpa using h1), List.find?_cons_of_neg (by simpa using h2)]
          by_cases hm2 : i ∈ l.map Prod.fst
          · exact ih hm2
          · rw [if_neg hk]
            congr 2
            rw [List.map_congr_left (g := id)]
            · simp
            · intro e' he'
              have : e'.1 ≠ i := fun h => hm2 (h ▸ List.mem_map_of_mem he')
              simp [this]
      · have hm2 : i ∈ l.map Prod.fst := by
          rw [List.map_cons] at hm
          rcases List.mem_cons.mp hm with h | h
          · exact absurd h.symm he
          · exact h
        rw [if_neg he]
        by_cases hk : e.1 = k
        · rw [List.find?_cons_of_pos (by simpa using hk), List.find?_cons_of_pos (by simpa using hk),
            if_neg (fun h => he (hk.trans h))]
        · rw [List.find?_cons_of_neg (by simpa using hk), List.find?_cons_of_neg (by simpa using hk)]
          exact ih hm2
  · rw [if_neg hm]
    simp only
    rw [List.find?_append]
    by_cases hk : k = i
    · subst hk
      have : nodes.find? (fun e => e.1 = k) = none := by
        rw [List.find?_eq_none]
        intro e he h
        exact hm (by simp only [decide_eq_true_eq] at h; exact h ▸ List.mem_map_of_mem he)
      rw [this]
      simp
    · have h1 : ¬ i = k := fun h => hk h.symm
      rw [if_neg hk]
      simp [h1]

lemma mem_successors {g : Graph n} {i k : Fin n} : k ∈ g.successors i ↔ (i, k) ∈ g.edges := by
  unfold Graph.successors
  simp only [List.mem_map, List.mem_filter, decide_eq_true_eq]
  constructor
  · rintro ⟨⟨a, b⟩, ⟨h, rfl⟩, rfl⟩
    exact h
  · intro h
    exact ⟨(i, k), ⟨h, rfl⟩, rfl⟩

lemma edges_addNode (g : Graph n) (i : Fin n) (lv : ℕ) : (g.addNode i lv).edges = g.edges := by
  unfold Graph.addNode
  split_ifs <;> rfl

lemma mem_addEdge (g : Graph n) (i j : Fin n) (e : Fin n × Fin n) :
    e ∈ (g.addEdge i j).edges ↔ e ∈ g.edges ∨ e = (i, j) := by
  unfold Graph.addEdge
  split_ifs with h
  · constructor
    · exact Or.inl
    · rintro (h1 | rfl)
      · exact h1
      · exact h
  · simp

lemma level_addEdge (g : Graph n) (i j k : Fin n) : (g.addEdge i j).level k = g.level k := by
  unfold Graph.addEdge
  split_ifs <;> rfl

lemma hierarchyLoop_any (centers : Fin n → Vec d) (g0 : Graph n) : ∀ (rest l : List (Fin n)) (p : Fin n)
    (s r : Graph n × List ℝ), (l ++ [p] ++ rest).Nodup →
    (∀ j (h : j < (l ++ [p]).length), s.1.level (l ++ [p])[j] = some j) →
    (∀ e, e ∈ s.1.edges ↔ e ∈ g0.edges ∨ ∃ j, ∃ h : j + 1 < (l ++ [p]).length, e = ((l ++ [p])[j + 1], (l ++ [p])[j])) →
    hierarchyLoop centers s p rest = .ok r →
    (∀ j (h : j < (l ++ [p] ++ rest).length), r.1.level (l ++ [p] ++ rest)[j] = some j)
    ∧ (∀ e, e ∈ r.1.edges ↔ e ∈ g0.edges
      ∨ ∃ j, ∃ h : j + 1 < (l ++ [p] ++ rest).length, e = ((l ++ [p] ++ rest)[j + 1], (l ++ [p] ++ rest)[j]))
  | [], l, p, s, r, _, hlev, hedge, hr => by
    unfold hierarchyLoop at hr
    cases hr
    simp only [List.append_nil]
    exact ⟨hlev, hedge⟩
  | a :: rest, l, p, s, r, hl, hlev, hedge, hr => by
    unfold hierarchyLoop at hr
    cases hst : hierarchyStep centers s p a with
    | error e => rw [hst] at hr; cases hr
    | ok s' =>
      rw [hst] at hr
      simp only at hr
      unfold hierarchyStep at hst
      split_ifs at hst with h0
      have hlp : s.1.level p = some l.length := by
        have := hlev l.length (by simp)
        simpa using this
      rw [hlp] at hst
      simp only [Except.ok.injEq] at hst
      have hs' : s'.1 = (s.1.addNode a (l.length + 1)).addEdge a p := by rw [← hst]
      have hcat : l ++ [p] ++ a :: rest = (l ++ [p]) ++ [a] ++ rest := by simp
      have ha : a ∉ l ++ [p] := by
        intro h
        rw [hcat] at hl
        exact (List.nodup_append.mp (List.nodup_append.mp hl).1).2.2 a h a (by simp) rfl
      have ih := hierarchyLoop_any centers g0 rest (l ++ [p]) a s' r (by rw [← hcat]; exact hl) ?_ ?_ hr
      · simp only [hcat]
        exact ih
      · intro j hj
        rw [hs', level_addEdge, level_addNode]
        by_cases hjl : j < (l ++ [p]).length
        · rw [List.getElem_append_left hjl, if_neg, hlev j hjl]
          intro h
          exact ha (h ▸ List.getElem_mem hjl)
        · have : j = (l ++ [p]).length := by
            simp only [List.length_append, List.length_cons, List.length_nil] at hj hjl ⊢
            omega
          subst this
          simp
      · intro e
        have e1 : ∀ k (hk : k < (l ++ [p]).length), (l ++ [p] ++ [a])[k]'(by
            rw [List.length_append]; omega) = (l ++ [p])[k] := fun k hk => List.getElem_append_left hk
        rw [hs', mem_addEdge, edges_addNode, hedge]
        constructor
        · rintro ((h | ⟨j, hj, rfl⟩) | rfl)
          · exact Or.inl h
          · refine Or.inr ⟨j, by simp only [List.length_append] at hj ⊢; omega, ?_⟩
            rw [e1 _ hj, e1 j (by omega)]
          · refine Or.inr ⟨l.length, by simp, ?_⟩
            simp
        · rintro (h | ⟨j, hj, rfl⟩)
          · exact Or.inl (Or.inl h)
          · by_cases hjl : j + 1 < (l ++ [p]).length
            · refine Or.inl (Or.inr ⟨j, hjl, ?_⟩)
              rw [e1 _ hjl, e1 j (by omega)]
            · right
              have : j = l.length := by
                simp only [List.length_append, List.length_cons, List.length_nil] at hj hjl
                omega
              subst this
              simp

lemma fitHierarchy_any {ascending order : List (Fin n)} (ho : ascending.reverse = order)
    (hp : ascending.Perm (List.finRange n)) {before g : Graph n}
    {centers : Fin n → Vec d} {attractor : Vec d} {ds : List ℝ}
    (hfit : fitHierarchy before centers attractor ascending = .ok (g, ds)) :
    (∀ j (h : j < order.length), g.level order[j] = some j)
    ∧ (∀ i k, k ∈ g.successors i ↔ k ∈ before.successors i
      ∨ ∃ j, ∃ h : j + 1 < order.length, i = order[j + 1] ∧ k = order[j]) := by
  have hnd : order.Nodup := by
    rw [← ho, List.nodup_reverse]
    exact hp.nodup_iff.mpr (List.nodup_finRange n)
  unfold fitHierarchy at hfit
  rw [ho] at hfit
  cases order with
  | nil => simp at hfit
  | cons root rest =>
    simp only at hfit
    split_ifs at hfit with h0
    obtain ⟨hlev, hedge⟩ := hierarchyLoop_any centers before rest [] root _ _ (by simpa using hnd)
      (by
        intro j hj
        have hj0 : j = 0 := by simpa using hj
        subst hj0
        simp [level_addNode])
      (by
        intro e
        rw [edges_addNode]
        constructor
        · exact Or.inl
        · rintro (h | ⟨j, hj, -⟩)
          · exact h
          · simp at hj) hfit
    simp only [List.nil_append, List.cons_append] at hlev hedge
    refine ⟨hlev, fun i k => ?_⟩
    rw [mem_successors, mem_successors, hedge]
    simp only [Prod.mk.injEq]

/-! ### C55 -/

/-- C55: every fit, whatever was learned before, orders the clusters by their mean sequence value: the `j`-th cluster of
the new order has level `j`, and the cluster before it is among its parents.  The only other parents are those it had
before this fit. -/
theorem C55_any_fit (samples : List (Fin n × ℝ)) (centers : Fin n → Vec d) (attractor : Vec d)
    (ascending : List (Fin n)) (hs : IsArgsort (averageSequence samples) ascending)
    (before g : Graph n) (ds : List ℝ)
    (hfit : fitHierarchy before centers attractor ascending = .ok (g, ds)) :
    ∃ order : List (Fin n), order.Perm (List.finRange n)
      ∧ order.Pairwise (fun i j => averageSequence samples j ≤ averageSequence samples i)
      ∧ (∀ j (h : j < order.length), g.level order[j] = some j)
      ∧ (∀ i k, k ∈ g.successors i ↔ k ∈ before.successors i
        ∨ ∃ j, ∃ h : j + 1 < order.length, i = order[j + 1] ∧ k = order[j]) := by
  refine ⟨ascending.reverse, (List.reverse_perm _).trans hs.1, ?_, fitHierarchy_any rfl hs.1 hfit⟩
  rw [List.pairwise_reverse]
  exact hs.2

/-- C55: a fit that finds the same order of the clusters again keeps the chain: the parents and the levels stay the
same. -/
theorem C55_same_order (samples : List (Fin n × ℝ)) (centers centers' : Fin n → Vec d) (attractor attractor' : Vec d)
    (ascending : List (Fin n)) (hs : IsArgsort (averageSequence samples) ascending)
    (before g : Graph n) (ds ds' : List ℝ)
    (hfirst : fitHierarchy {} centers attractor ascending = .ok (before, ds))
    (hfit : fitHierarchy before centers' attractor' ascending = .ok (g, ds')) (i k : Fin n) :
    (k ∈ g.successors i ↔ k ∈ before.successors i) ∧ g.level i = before.level i := by
  obtain ⟨l1, s1⟩ := fitHierarchy_any rfl hs.1 hfirst
  obtain ⟨l2, s2⟩ := fitHierarchy_any rfl hs.1 hfit
  constructor
  · rw [s2, s1]
    tauto
  · have hi : i ∈ ascending.reverse := by
      rw [List.mem_reverse]
      exact hs.1.mem_iff.mpr (List.mem_finRange i)
    obtain ⟨j, hj, rfl⟩ := List.mem_iff_getElem.mp hi
    rw [l1 j hj, l2 j hj]

/-- Case: two clusters with the mean sequence values 0 and 1, fitted twice. -/
example : ∃ g1 ds1 g2 ds2, fitHierarchy {} (fun i : Fin 2 => if i = 0 then (!₂[3, 0] : Vec 2) else !₂[1, 0]) 0 [0, 1]
      = .ok (g1, ds1)
    ∧ fitHierarchy g1 (fun i : Fin 2 => if i = 0 then (!₂[3, 0] : Vec 2) else !₂[1, 0]) 0 [0, 1] = .ok (g2, ds2)
    ∧ IsArgsort (averageSequence [((0 : Fin 2), 0), (1, 1)]) [0, 1] := by
  have h1 : (!₂[1, 0] : Vec 2) ≠ 0 := by
    intro h; have := congrFun (congrArg (fun x : Vec 2 => x.ofLp) h) 0; simp at this
  have h2 : (!₂[3, 0] : Vec 2) ≠ !₂[1, 0] := by
    intro h; have := congrFun (congrArg (fun x : Vec 2 => x.ofLp) h) 0; simp at this
  refine ⟨⟨[(1, 0), (0, 1)], [(0, 1)]⟩, [‖(!₂[1, 0] : Vec 2)‖ * 2.0, ‖(!₂[3, 0] : Vec 2) - !₂[1, 0]‖],
    ⟨[(1, 0), (0, 1)], [(0, 1)]⟩, [‖(!₂[1, 0] : Vec 2)‖ * 2.0, ‖(!₂[3, 0] : Vec 2) - !₂[1, 0]‖], ?_, ?_, ?_, ?_⟩
  · simp [fitHierarchy, hierarchyLoop, hierarchyStep, h1, sub_eq_zero, h2, Graph.addNode, Graph.addEdge, Graph.level]
  · simp [fitHierarchy, hierarchyLoop, hierarchyStep, h1, sub_eq_zero, h2, Graph.addNode, Graph.addEdge, Graph.level]
  · have : List.finRange 2 = [0, 1] := by decide
    rw [this]
  · simp [averageSequence]

end Verif.KMeans
