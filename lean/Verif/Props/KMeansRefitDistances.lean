import Verif.Props.KMeansRefit
import Verif.Props.KMeansCreate

/-!
# C147: the distances between the clusters after later fits
-/

namespace Verif.KMeans

variable {d n : ℕ}

/-- The graphs a learner can have: the empty one, and the result of a fit of such a graph. -/
inductive FittedGraph (d : ℕ) : Graph n → Prop
  | new : FittedGraph d {}
  | fit (before g : Graph n) (centers : Fin n → Vec d) (attractor : Vec d) (ascending : List (Fin n)) (ds : List ℝ) :
    FittedGraph d before → ascending.Perm (List.finRange n) →
    fitHierarchy before centers attractor ascending = .ok (g, ds) → FittedGraph d g

/-! ### Helpers -/

lemma keys_addNode (g : Graph n) (i : Fin n) (lv : ℕ) (h : (g.nodes.map Prod.fst).Nodup) :
    ((g.addNode i lv).nodes.map Prod.fst).Nodup := by
  unfold Graph.addNode
  split_ifs with hm
  · simp only [List.map_map]
    rw [List.map_congr_left (g := Prod.fst)]
    · exact h
    · intro e _
      by_cases he : e.1 = i <;> simp [he]
  · simp only [List.map_append, List.map_cons, List.map_nil]
    rw [List.nodup_append]
    refine ⟨h, by simp, ?_⟩
    intro a ha b hb hab
    rw [List.mem_singleton] at hb
    exact hm (hb ▸ hab ▸ ha)

lemma keys_addEdge (g : Graph n) (i j : Fin n) : (g.addEdge i j).nodes = g.nodes := by
  unfold Graph.addEdge
  split_ifs <;> rfl

lemma edges_addEdge_prefix (g : Graph n) (i j : Fin n) : g.edges <+: (g.addEdge i j).edges := by
  unfold Graph.addEdge
  split_ifs
  · exact List.prefix_rfl
  · exact List.prefix_append _ _

lemma hierarchyLoop_grows (centers : Fin n → Vec d) : ∀ (rest : List (Fin n)) (p : Fin n) (s r : Graph n × List ℝ),
    hierarchyLoop centers s p rest = .ok r →
    s.1.edges <+: r.1.edges ∧ ((s.1.nodes.map Prod.fst).Nodup → (r.1.nodes.map Prod.fst).Nodup)
  | [], p, s, r, hr => by
    unfold hierarchyLoop at hr
    cases hr
    exact ⟨List.prefix_rfl, id⟩
  | a :: rest, p, s, r, hr => by
    unfold hierarchyLoop at hr
    cases hst : hierarchyStep centers s p a with
    | error e => rw [hst] at hr; cases hr
    | ok s' =>
      rw [hst] at hr
      simp only at hr
      unfold hierarchyStep at hst
      split_ifs at hst with h0
      cases hl : s.1.level p with
      | none => rw [hl] at hst; cases hst
      | some lv =>
        rw [hl] at hst
        simp only [Except.ok.injEq] at hst
        have hs' : s'.1 = (s.1.addNode a (lv + 1)).addEdge a p := by rw [← hst]
        obtain ⟨i1, i2⟩ := hierarchyLoop_grows centers rest a s' r hr
        rw [hs'] at i1 i2
        constructor
        · refine List.IsPrefix.trans ?_ i1
          have := edges_addEdge_prefix (s.1.addNode a (lv + 1)) a p
          rwa [edges_addNode] at this
        · intro h
          refine i2 ?_
          rw [keys_addEdge]
          exact keys_addNode _ _ _ h

lemma fitHierarchy_grows {ascending : List (Fin n)} {before g : Graph n} {centers : Fin n → Vec d} {attractor : Vec d}
    {ds : List ℝ} (hfit : fitHierarchy before centers attractor ascending = .ok (g, ds)) :
    before.edges <+: g.edges ∧ ((before.nodes.map Prod.fst).Nodup → (g.nodes.map Prod.fst).Nodup) := by
  unfold fitHierarchy at hfit
  cases hr : ascending.reverse with
  | nil => rw [hr] at hfit; simp at hfit
  | cons root rest =>
    rw [hr] at hfit
    simp only at hfit
    split_ifs at hfit with h0
    obtain ⟨i1, i2⟩ := hierarchyLoop_grows centers rest root _ _ hfit
    rw [edges_addNode] at i1
    exact ⟨i1, fun h => i2 (keys_addNode _ _ _ h)⟩

lemma fitted_keys {g : Graph n} (h : FittedGraph d g) : (g.nodes.map Prod.fst).Nodup := by
  induction h with
  | new => simp
  | fit before g centers attractor ascending ds _ _ hfit ih => exact (fitHierarchy_grows hfit).2 ih

lemma level_of_mem {g : Graph n} (h : (g.nodes.map Prod.fst).Nodup) {e : Fin n × ℕ} (he : e ∈ g.nodes) :
    g.level e.1 = some e.2 := by
  obtain ⟨nodes, edges⟩ := g
  unfold Graph.level
  simp only at h he ⊢
  induction nodes with
  | nil => simp at he
  | cons a l ih =>
    rw [List.map_cons, List.nodup_cons] at h
    by_cases ha : a.1 = e.1
    · rw [List.find?_cons_of_pos (by simpa using ha)]
      rcases List.mem_cons.mp he with rfl | he
      · rfl
      · exact absurd (ha ▸ List.mem_map_of_mem he) h.1
    · rw [List.find?_cons_of_neg (by simpa using ha)]
      rcases List.mem_cons.mp he with rfl | he
      · exact absurd rfl ha
      · exact ih h.2 he

/-! ### C147 -/

/-- C147: the distances after any history of fits.  The clusters are ordered by the last fit; the entry of the first one
is its distance to the attractor.  The entry of any other cluster is the distance to the cluster before it only if no
earlier fit gave it a parent; otherwise it is the distance to its oldest parent. -/
theorem C147_any_fit (value : Fin n → ℝ) (centers : Fin n → Vec d) (attractor : Vec d) (ascending : List (Fin n))
    (hs : IsArgsort value ascending) (before g : Graph n) (hb : FittedGraph d before) (ds : List ℝ)
    (hfit : fitHierarchy before centers attractor ascending = .ok (g, ds)) :
    ∃ (order : List (Fin n)) (l : List ℝ) (hl : l.length = g.nodes.length),
      order.Perm (List.finRange n) ∧ order.Pairwise (fun i j => value j ≤ value i)
      ∧ neighbourDistances g centers attractor = .ok l
      ∧ ∀ k (hk : k < g.nodes.length),
        (∀ h : 0 < order.length, g.nodes[k].1 = order[0] → l[k] = dist (centers g.nodes[k].1) attractor)
        ∧ ∀ j (h : j + 1 < order.length), g.nodes[k].1 = order[j + 1] →
          (before.successors order[j + 1] = [] → l[k] = dist (centers order[j + 1]) (centers order[j]))
          ∧ ∀ s rest, before.successors order[j + 1] = s :: rest →
            l[k] = dist (centers order[j + 1]) (centers s) := by
  obtain ⟨hlev, hsucc⟩ := fitHierarchy_any rfl hs.1 hfit
  obtain ⟨hpre, hkeys⟩ := fitHierarchy_grows hfit
  have hk := hkeys (fitted_keys hb)
  set o := ascending.reverse with hodef
  have hp : o.Perm (List.finRange n) := (List.reverse_perm _).trans hs.1
  have hnd : o.Nodup := hp.nodup_iff.mpr (List.nodup_finRange n)
  obtain ⟨t, ht⟩ := hpre
  have hap : ∀ i, ∃ u, g.successors i = before.successors i ++ u := by
    intro i
    refine ⟨(t.filter (fun e => e.1 = i)).map Prod.snd, ?_⟩
    unfold Graph.successors
    rw [← ht, List.filter_append, List.map_append]
  -- the position used for the cluster with number `j + 1`
  have hpos : ∀ j (h : j + 1 < o.length), ∃ s tail, g.successors o[j + 1] = s :: tail
      ∧ (before.successors o[j + 1] = [] → s = o[j]) ∧ ∀ s' rest, before.successors o[j + 1] = s' :: rest → s = s' := by
    intro j h
    obtain ⟨u, hu⟩ := hap o[j + 1]
    have hmem : o[j] ∈ g.successors o[j + 1] := (hsucc _ _).mpr (Or.inr ⟨j, h, rfl, rfl⟩)
    cases hg : g.successors o[j + 1] with
    | nil => rw [hg] at hmem; simp at hmem
    | cons s rest =>
      refine ⟨s, rest, rfl, ?_, ?_⟩
      · intro hnil
        have : s ∈ g.successors o[j + 1] := by rw [hg]; exact List.mem_cons_self
        rcases (hsucc _ _).mp this with h1 | ⟨j', h', e1, e2⟩
        · rw [hnil] at h1; simp at h1
        · have := (List.Nodup.getElem_inj_iff hnd).mp e1
          have : j' = j := by omega
          subst this
          exact e2
      · intro s' rest' hb'
        rw [hg, hb'] at hu
        simp only [List.cons_append, List.cons.injEq] at hu
        exact hu.1
  let pos : Fin n × ℕ → Vec d := fun e =>
    if e.2 = 0 then attractor else centers ((g.successors e.1).headD e.1)
  have hok : ∀ e ∈ g.nodes, successorPosition g centers attractor e = .ok (pos e) := by
    intro e he
    unfold successorPosition
    by_cases h0 : e.2 = 0
    · simp [h0, pos]
    · rw [if_neg h0]
      have hlv := level_of_mem hk he
      have hmem : e.1 ∈ o := hp.mem_iff.mpr (List.mem_finRange _)
      obtain ⟨j, hj, hje⟩ := List.mem_iff_getElem.mp hmem
      have h2 := hlev j hj
      rw [hje, hlv] at h2
      have hj2 : e.2 = j := by simpa using h2
      obtain ⟨m, rfl⟩ : ∃ m, j = m + 1 := ⟨j - 1, by omega⟩
      obtain ⟨s, tail, e1, -, -⟩ := hpos m hj
      rw [hje] at e1
      rw [e1]
      simp [pos, h0, e1]
  have hloop : ∀ ns : List (Fin n × ℕ), (∀ e ∈ ns, successorPosition g centers attractor e = .ok (pos e)) →
      neighbourLoop g centers attractor ns = .ok (ns.map fun e => ‖centers e.1 - pos e‖) := by
    intro ns
    induction ns with
    | nil => intro _; rfl
    | cons e rest ih =>
      intro h
      rw [neighbourLoop, h e List.mem_cons_self, ih (fun e he => h e (List.mem_cons_of_mem _ he))]
      rfl
  refine ⟨o, g.nodes.map fun e => ‖centers e.1 - pos e‖, by simp, hp, ?_, hloop g.nodes hok, ?_⟩
  · rw [hodef, List.pairwise_reverse]
    exact hs.2
  · intro k hkk
    have hlv := level_of_mem hk (List.getElem_mem hkk)
    constructor
    · intro h he
      have h2 := hlev 0 h
      rw [← he, hlv] at h2
      have h3 : (g.nodes[k]).2 = 0 := by simpa using h2
      simp [pos, h3, dist_eq_norm]
    · intro j h he
      have h2 := hlev (j + 1) h
      rw [← he, hlv] at h2
      have h3 : (g.nodes[k]).2 = j + 1 := by simpa using h2
      obtain ⟨s, tail, e1, e2, e3⟩ := hpos j h
      have h4 : pos g.nodes[k] = centers s := by
        simp only [pos, h3, Nat.add_one_ne_zero, if_false, he]
        rw [e1]
        rfl
      rw [List.getElem_map, h4, he, ← dist_eq_norm]
      exact ⟨fun hn => by rw [e2 hn], fun s' rest hb' => by rw [e3 s' rest hb']⟩

/-- C147, violated after a second fit: three clusters are first passed in the order 2, 1, 0 and then in the order
1, 2, 0.  The distances are still those of the first order: the one of cluster 1 is the distance to cluster 0, although
the next cluster on the way is cluster 2. -/
theorem C147_refit_fails (centers : Fin 3 → Vec d) (attractor : Vec d) (hc : Function.Injective centers)
    (ha : ∀ i, centers i ≠ attractor) :
    ∃ g1 ds1 g2 ds2, fitHierarchy {} centers attractor [2, 1, 0] = .ok (g1, ds1)
      ∧ fitHierarchy g1 centers attractor [1, 2, 0] = .ok (g2, ds2)
      ∧ neighbourDistances g2 centers attractor
        = .ok [dist (centers 0) attractor, dist (centers 1) (centers 0), dist (centers 2) (centers 1)]
      ∧ ds2 = [2 * dist (centers 0) attractor, dist (centers 2) (centers 0), dist (centers 1) (centers 2)] := by
  have h0 : centers 0 ≠ attractor := ha 0
  have h10 : centers 1 ≠ centers 0 := fun h => absurd (hc h) (by decide)
  have h21 : centers 2 ≠ centers 1 := fun h => absurd (hc h) (by decide)
  have h20 : centers 2 ≠ centers 0 := fun h => absurd (hc h) (by decide)
  refine ⟨⟨[(0, 0), (1, 1), (2, 2)], [(1, 0), (2, 1)]⟩,
    [‖centers 0 - attractor‖ * 2.0, ‖centers 1 - centers 0‖, ‖centers 2 - centers 1‖],
    ⟨[(0, 0), (1, 2), (2, 1)], [(1, 0), (2, 1), (2, 0), (1, 2)]⟩, _, ?_, ?_, ?_, rfl⟩
  · simp [fitHierarchy, hierarchyLoop, hierarchyStep, h0, sub_eq_zero, h10, h21, Graph.addNode, Graph.addEdge,
      Graph.level]
  · simp [fitHierarchy, hierarchyLoop, hierarchyStep, h0, sub_eq_zero, h20, h21.symm, Graph.addNode, Graph.addEdge,
      Graph.level, dist_eq_norm]
    norm_num
    ring
  · simp [neighbourDistances, neighbourLoop, successorPosition, Graph.successors, dist_eq_norm]
    rfl

/-- `C147_any_fit` and `C147_refit_fails` apply: clusters at `(1, 0)`, `(2, 0)`, `(4, 0)`, the attractor in the origin. -/
example : ∃ (before g : Graph 3) (ds : List ℝ), FittedGraph 2 before
    ∧ fitHierarchy before (fun i : Fin 3 => (!₂[2 ^ (i : ℕ), 0] : Vec 2)) 0 [1, 2, 0] = .ok (g, ds) := by
  have hfst : ∀ x y : ℝ, (!₂[x, 0] : Vec 2) = !₂[y, 0] → x = y := fun x y h => by
    have := congrFun (congrArg (fun v : Vec 2 => v.ofLp) h) 0
    simpa using this
  obtain ⟨g1, ds1, g2, ds2, h1, h2, -, -⟩ := C147_refit_fails (fun i : Fin 3 => (!₂[2 ^ (i : ℕ), 0] : Vec 2)) 0
    (by
      intro i j h
      have := hfst _ _ h
      fin_cases i <;> fin_cases j <;> simp at this ⊢ <;> norm_num at this)
    (by
      intro i h
      have := congrFun (congrArg (fun v : Vec 2 => v.ofLp) h) 0
      simp at this)
  exact ⟨g1, g2, ds2, .fit {} g1 _ 0 _ ds1 .new (by decide) h1, h2⟩

end Verif.KMeans
