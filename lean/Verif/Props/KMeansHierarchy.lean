import Verif.Props.KMeansObstacle

/-!
# C54, C55, C81: Hierarchy, radius and weights of the clusters
-/

open scoped RealInnerProductSpace

namespace Verif.KMeans

open Verif.Projected (floatMax)

set_option linter.unusedSectionVars false

variable {d n : ℕ}

/-! ### C55 -/

/-- The graph of a chain: each element points to the one before it. -/
def chainGraph (l : List (Fin n)) : Graph n := ⟨l.zipIdx, l.tail.zip l.dropLast⟩

/-- The distances along a chain. -/
noncomputable def chainDistances (centers : Fin n → Vec d) (l : List (Fin n)) : List ℝ :=
  (l.tail.zip l.dropLast).map (fun e => ‖centers e.1 - centers e.2‖)

lemma level_chain {l : List (Fin n)} (hl : l.Nodup) (j : ℕ) (hj : j < l.length) :
    (chainGraph l).level l[j] = some j := by
  unfold Graph.level chainGraph
  have h1 : l.zipIdx.find? (fun e => e.1 = l[j]) = some (l[j], j) := by
    rw [List.find?_eq_some_iff_getElem]
    refine ⟨by simp, j, by simpa using hj, by simp, ?_⟩
    intro k hk
    simp only [List.getElem_zipIdx, Bool.not_eq_eq_eq_not, Bool.not_true, decide_eq_false_iff_not]
    intro h2
    have := (hl.getElem_inj_iff (hi := by omega) (hj := hj)).mp h2
    omega
  rw [h1]
  rfl

lemma chain_snoc (l : List (Fin n)) (p a : Fin n) :
    (chainGraph (l ++ [p] ++ [a])).nodes = (chainGraph (l ++ [p])).nodes ++ [(a, l.length + 1)]
    ∧ (chainGraph (l ++ [p] ++ [a])).edges = (chainGraph (l ++ [p])).edges ++ [(a, p)] := by
  constructor
  · simp [chainGraph, List.zipIdx_append]
  · unfold chainGraph
    simp only
    have h1 : (l ++ [p] ++ [a]).tail = (l ++ [p]).tail ++ [a] := by
      cases l <;> simp
    have h2 : (l ++ [p] ++ [a]).dropLast = (l ++ [p]).dropLast ++ [p] := by
      simp
    rw [h1, h2, List.zip_append (by simp)]
    rfl

lemma distances_snoc (centers : Fin n → Vec d) (l : List (Fin n)) (p a : Fin n) :
    chainDistances centers (l ++ [p] ++ [a])
      = chainDistances centers (l ++ [p]) ++ [‖centers a - centers p‖] := by
  have h := (chain_snoc l p a).2
  unfold chainGraph at h
  simp only at h
  unfold chainDistances
  rw [h, List.map_append]
  rfl

lemma hierarchyStep_chain (centers : Fin n → Vec d) (l : List (Fin n)) (p a : Fin n)
    (ds : List ℝ) (hl : (l ++ [p] ++ [a]).Nodup) (hne : centers a ≠ centers p) :
    hierarchyStep centers (chainGraph (l ++ [p]), ds) p a
      = .ok (chainGraph (l ++ [p] ++ [a]), ds ++ [‖centers a - centers p‖]) := by
  have hl' : (l ++ [p]).Nodup := (List.nodup_append.mp hl).1
  have ha : a ∉ l ++ [p] := by
    intro h
    exact (List.nodup_append.mp hl).2.2 a h a (by simp) rfl
  unfold hierarchyStep
  rw [if_neg (by rw [norm_eq_zero, sub_eq_zero]; exact hne)]
  have hlev : (chainGraph (l ++ [p])).level p = some l.length := by
    have := level_chain hl' l.length (by simp)
    simpa using this
  simp only [hlev]
  have h1 : (chainGraph (l ++ [p])).addNode a (l.length + 1)
      = ⟨(chainGraph (l ++ [p])).nodes ++ [(a, l.length + 1)], (chainGraph (l ++ [p])).edges⟩ := by
    unfold Graph.addNode
    rw [if_neg]
    simp only [chainGraph, List.zipIdx_map_fst]
    exact ha
  rw [h1]
  have h2 : (⟨(chainGraph (l ++ [p])).nodes ++ [(a, l.length + 1)],
      (chainGraph (l ++ [p])).edges⟩ : Graph n).addEdge a p
      = ⟨(chainGraph (l ++ [p])).nodes ++ [(a, l.length + 1)],
        (chainGraph (l ++ [p])).edges ++ [(a, p)]⟩ := by
    unfold Graph.addEdge
    rw [if_neg]
    intro h3
    have h4 := (List.of_mem_zip h3).1
    exact ha (List.mem_of_mem_tail h4)
  rw [h2, ← (chain_snoc l p a).1, ← (chain_snoc l p a).2]

lemma hierarchyLoop_chain (centers : Fin n → Vec d) : ∀ (rest l : List (Fin n)) (p : Fin n)
    (ds : List ℝ), (l ++ [p] ++ rest).Nodup →
    ((p :: rest).IsChain (fun a b => centers b ≠ centers a) →
      hierarchyLoop centers (chainGraph (l ++ [p]), ds) p rest
        = .ok (chainGraph (l ++ [p] ++ rest), ds ++ chainDistances centers (p :: rest)))
    ∧ (¬ (p :: rest).IsChain (fun a b => centers b ≠ centers a) →
      hierarchyLoop centers (chainGraph (l ++ [p]), ds) p rest = .error .valueError)
  | [], l, p, ds, hl => by
    constructor
    · intro _; simp [hierarchyLoop, chainDistances]
    · intro h; exact absurd (List.isChain_singleton _) h
  | a :: rest, l, p, ds, hl => by
    have hl' : (l ++ [p] ++ [a]).Nodup := by
      have : l ++ [p] ++ a :: rest = (l ++ [p] ++ [a]) ++ rest := by simp
      rw [this] at hl
      exact (List.nodup_append.mp hl).1
    have hl2 : ((l ++ [p]) ++ [a] ++ rest).Nodup := by simpa using hl
    by_cases hne : centers a ≠ centers p
    · have ih := hierarchyLoop_chain centers rest (l ++ [p]) a (ds ++ [‖centers a - centers p‖]) hl2
      constructor
      · intro hc
        rw [List.isChain_cons_cons] at hc
        unfold hierarchyLoop
        rw [hierarchyStep_chain centers l p a ds hl' hne]
        simp only
        rw [ih.1 hc.2]
        simp [chainDistances]
      · intro hc
        unfold hierarchyLoop
        rw [hierarchyStep_chain centers l p a ds hl' hne]
        simp only
        exact ih.2 (fun h => hc (List.isChain_cons_cons.mpr ⟨hne, h⟩))
    · constructor
      · intro hc
        exact absurd (List.isChain_cons_cons.mp hc).1 hne
      · intro _
        unfold hierarchyLoop hierarchyStep
        rw [not_not] at hne
        rw [if_pos (by rw [hne, sub_self, norm_zero])]

lemma fitHierarchy_eq (centers : Fin n → Vec d) (attractor : Vec d) {ascending : List (Fin n)}
    (hp : ascending.Perm (List.finRange n)) {root : Fin n} {rest : List (Fin n)}
    (hr : ascending.reverse = root :: rest) :
    (centers root ≠ attractor → (root :: rest).IsChain (fun a b => centers b ≠ centers a) →
      fitHierarchy {} centers attractor ascending
        = .ok (chainGraph (root :: rest),
            (‖centers root - attractor‖ * 2.0) :: chainDistances centers (root :: rest)))
    ∧ (centers root = attractor →
      fitHierarchy {} centers attractor ascending = .error .notImplemented)
    ∧ (centers root ≠ attractor → ¬ (root :: rest).IsChain (fun a b => centers b ≠ centers a) →
      fitHierarchy {} centers attractor ascending = .error .valueError) := by
  have hnd : (root :: rest).Nodup := by
    rw [← hr, List.nodup_reverse]
    exact hp.nodup_iff.mpr (List.nodup_finRange n)
  have h0 : ({} : Graph n).addNode root 0 = chainGraph ([] ++ [root]) := by
    unfold Graph.addNode chainGraph
    simp
  refine ⟨?_, ?_, ?_⟩
  · intro h1 h2
    unfold fitHierarchy
    rw [hr]
    simp only
    rw [if_neg (by rw [norm_eq_zero, sub_eq_zero]; exact h1), h0]
    have := (hierarchyLoop_chain centers rest [] root [‖centers root - attractor‖ * 2.0]
      (by simpa using hnd)).1 h2
    rw [this]
    simp
  · intro h1
    unfold fitHierarchy
    rw [hr]
    simp only
    rw [if_pos (by rw [h1, sub_self, norm_zero])]
  · intro h1 h2
    unfold fitHierarchy
    rw [hr]
    simp only
    rw [if_neg (by rw [norm_eq_zero, sub_eq_zero]; exact h1), h0]
    exact (hierarchyLoop_chain centers rest [] root [‖centers root - attractor‖ * 2.0]
      (by simpa using hnd)).2 h2

lemma filter_fst_single {α β : Type*} [DecidableEq α] : ∀ {l : List (α × β)} {a : α} {b : β},
    (l.map Prod.fst).Nodup → (a, b) ∈ l → l.filter (fun e => e.1 = a) = [(a, b)]
  | [], _, _, _, h => by simp at h
  | e :: l, a, b, hn, h => by
    rw [List.map_cons, List.nodup_cons] at hn
    rw [List.mem_cons] at h
    rcases h with h | h
    · subst h
      rw [List.filter_cons_of_pos (by simp), List.filter_eq_nil_iff.mpr]
      intro x hx
      simp only [decide_eq_true_eq]
      intro h2
      exact hn.1 (List.mem_map.mpr ⟨x, hx, h2⟩)
    · rw [List.filter_cons_of_neg, filter_fst_single hn.2 h]
      simp only [decide_eq_true_eq]
      intro h2
      exact hn.1 (List.mem_map.mpr ⟨(a, b), h, h2.symm⟩)

lemma filter_snd_single {α β : Type*} [DecidableEq β] : ∀ {l : List (α × β)} {a : α} {b : β},
    (l.map Prod.snd).Nodup → (a, b) ∈ l → l.filter (fun e => e.2 = b) = [(a, b)]
  | [], _, _, _, h => by simp at h
  | e :: l, a, b, hn, h => by
    rw [List.map_cons, List.nodup_cons] at hn
    rw [List.mem_cons] at h
    rcases h with h | h
    · subst h
      rw [List.filter_cons_of_pos (by simp), List.filter_eq_nil_iff.mpr]
      intro x hx
      simp only [decide_eq_true_eq]
      intro h2
      exact hn.1 (List.mem_map.mpr ⟨x, hx, h2⟩)
    · rw [List.filter_cons_of_neg, filter_snd_single hn.2 h]
      simp only [decide_eq_true_eq]
      intro h2
      exact hn.1 (List.mem_map.mpr ⟨(a, b), h, h2.symm⟩)

lemma chain_edges {l : List (Fin n)} (hl : l.Nodup) :
    (∀ j (h : j + 1 < l.length), (chainGraph l).successors l[j + 1] = [l[j]])
    ∧ (∀ h : 0 < l.length, (chainGraph l).successors l[0] = [])
    ∧ (∀ j (h : j + 1 < l.length), (chainGraph l).predecessors l[j] = [l[j + 1]])
    ∧ (∀ j (h : j + 1 = l.length), (chainGraph l).predecessors l[j] = []) := by
  have hlen : l.tail.length = l.dropLast.length := by simp
  have hf : ((chainGraph l).edges.map Prod.fst) = l.tail := by
    unfold chainGraph; simp only; rw [List.map_fst_zip hlen.le]
  have hs : ((chainGraph l).edges.map Prod.snd) = l.dropLast := by
    unfold chainGraph; simp only; rw [List.map_snd_zip hlen.ge]
  have hfn : ((chainGraph l).edges.map Prod.fst).Nodup := by rw [hf]; exact hl.tail
  have hsn : ((chainGraph l).edges.map Prod.snd).Nodup := by
    rw [hs]; exact hl.sublist (List.dropLast_sublist l)
  have hmem : ∀ j (h : j + 1 < l.length), (l[j + 1], l[j]) ∈ (chainGraph l).edges := by
    intro j h
    unfold chainGraph
    simp only
    rw [List.mem_iff_getElem]
    refine ⟨j, by simp; omega, ?_⟩
    simp
  refine ⟨?_, ?_, ?_, ?_⟩
  · intro j h
    unfold Graph.successors
    rw [filter_fst_single hfn (hmem j h)]
    rfl
  · intro h
    unfold Graph.successors
    rw [List.filter_eq_nil_iff.mpr]
    · rfl
    · intro e he
      simp only [decide_eq_true_eq]
      intro h2
      have h3 : l[0] ∈ l.tail := by rw [← hf, ← h2]; exact List.mem_map_of_mem he
      cases l with
      | nil => simp at h
      | cons a l => exact (List.nodup_cons.mp hl).1 (by simpa using h3)
  · intro j h
    unfold Graph.predecessors
    rw [filter_snd_single hsn (hmem j h)]
    rfl
  · intro j h
    unfold Graph.predecessors
    rw [List.filter_eq_nil_iff.mpr]
    · rfl
    · intro e he
      simp only [decide_eq_true_eq]
      intro h2
      have h3 : l[j] ∈ l.dropLast := by rw [← hs, ← h2]; exact List.mem_map_of_mem he
      rw [List.mem_iff_getElem] at h3
      obtain ⟨k, hk, h4⟩ := h3
      rw [List.getElem_dropLast] at h4
      have := (hl.getElem_inj_iff).mp h4
      simp at hk
      omega

/-- `ascending` is a result of `np.argsort` on the given values. -/
def IsArgsort (value : Fin n → ℝ) (ascending : List (Fin n)) : Prop :=
  ascending.Perm (List.finRange n) ∧ ascending.Pairwise (fun i j => value i ≤ value j)

/-- **C55** The hierarchy of a first fit is a chain through all clusters in descending order of
their mean sequence value: the `j`-th cluster has level `j`, its only parent is the cluster before
it, its only child the one after it.  Missing: later fits (`C55_any_fit`; violated there, `C55_refit`). -/
theorem C55_chain_partial (samples : List (Fin n × ℝ)) (centers : Fin n → Vec d) (attractor : Vec d)
    (ascending : List (Fin n)) (hs : IsArgsort (averageSequence samples) ascending)
    (g : Graph n) (ds : List ℝ)
    (hfit : fitHierarchy {} centers attractor ascending = .ok (g, ds)) :
    ∃ order : List (Fin n), order.Perm (List.finRange n)
      ∧ order.Pairwise (fun i j => averageSequence samples j ≤ averageSequence samples i)
      ∧ (∀ j (h : j < order.length), g.level order[j] = some j)
      ∧ (∀ h : 0 < order.length, g.successors order[0] = [])
      ∧ (∀ j (h : j + 1 < order.length), g.successors order[j + 1] = [order[j]])
      ∧ (∀ j (h : j + 1 < order.length), g.predecessors order[j] = [order[j + 1]])
      ∧ (∀ j (h : j + 1 = order.length), g.predecessors order[j] = []) := by
  cases hr : ascending.reverse with
  | nil => unfold fitHierarchy at hfit; rw [hr] at hfit; simp at hfit
  | cons root rest =>
    have heq := fitHierarchy_eq centers attractor hs.1 hr
    have hg : g = chainGraph (root :: rest) := by
      by_cases h1 : centers root = attractor
      · rw [heq.2.1 h1] at hfit; cases hfit
      · by_cases h2 : (root :: rest).IsChain (fun a b => centers b ≠ centers a)
        · rw [heq.1 h1 h2] at hfit; cases hfit; rfl
        · rw [heq.2.2 h1 h2] at hfit; cases hfit
    have hp : (root :: rest).Perm (List.finRange n) := by
      rw [← hr]; exact (List.reverse_perm _).trans hs.1
    have hnd : (root :: rest).Nodup := hp.nodup_iff.mpr (List.nodup_finRange n)
    obtain ⟨e1, e2, e3, e4⟩ := chain_edges hnd
    refine ⟨root :: rest, hp, ?_, ?_, ?_, ?_, ?_, ?_⟩
    · rw [← hr, List.pairwise_reverse]; exact hs.2
    · intro j h; rw [hg]; exact level_chain hnd j h
    · intro h; rw [hg]; exact e2 h
    · intro j h; rw [hg]; exact e1 j h
    · intro j h; rw [hg]; exact e3 j h
    · intro j h; rw [hg]; exact e4 j h

/-- **C55** The fit succeeds if no two centres coincide and no centre is the attractor. -/
theorem C55_fit_succeeds (value : Fin n → ℝ) (centers : Fin n → Vec d) (attractor : Vec d)
    (ascending : List (Fin n)) (hs : IsArgsort value ascending) (hn : 0 < n)
    (hinj : Function.Injective centers) (ha : ∀ i, centers i ≠ attractor) :
    ∃ g ds, fitHierarchy {} centers attractor ascending = .ok (g, ds) := by
  cases hr : ascending.reverse with
  | nil =>
    have h1 := hs.1.length_eq
    rw [List.reverse_eq_nil_iff] at hr
    rw [hr] at h1
    simp at h1
    omega
  | cons root rest =>
    refine ⟨_, _, (fitHierarchy_eq centers attractor hs.1 hr).1 (ha root) ?_⟩
    have hnd : (root :: rest).Nodup := by
      rw [← hr, List.nodup_reverse]
      exact hs.1.nodup_iff.mpr (List.nodup_finRange n)
    exact (List.Pairwise.imp (fun h h2 => h (hinj h2).symm) hnd).isChain

/-- **C55** The two errors: the centre of the first cluster is the attractor, or two consecutive
centres coincide. -/
theorem C55_fit_errors (value : Fin n → ℝ) (centers : Fin n → Vec d) (attractor : Vec d)
    (ascending : List (Fin n)) (hs : IsArgsort value ascending) (root : Fin n)
    (rest : List (Fin n)) (hr : ascending.reverse = root :: rest) :
    (fitHierarchy {} centers attractor ascending = .error .notImplemented
      ↔ centers root = attractor)
    ∧ (fitHierarchy {} centers attractor ascending = .error .valueError
      ↔ centers root ≠ attractor ∧ ∃ j, ∃ h : j + 1 < (root :: rest).length,
          centers (root :: rest)[j + 1] = centers (root :: rest)[j]) := by
  have heq := fitHierarchy_eq centers attractor hs.1 hr
  have hch : (¬ (root :: rest).IsChain (fun a b => centers b ≠ centers a))
      ↔ ∃ j, ∃ h : j + 1 < (root :: rest).length,
          centers (root :: rest)[j + 1] = centers (root :: rest)[j] := by
    rw [List.isChain_iff_getElem]
    push Not
    rfl
  by_cases h1 : centers root = attractor
  · rw [heq.2.1 h1]
    refine ⟨⟨fun _ => h1, fun _ => rfl⟩, ⟨fun h => by simp at h, fun h => absurd h1 h.1⟩⟩
  · by_cases h2 : (root :: rest).IsChain (fun a b => centers b ≠ centers a)
    · rw [heq.1 h1 h2]
      refine ⟨⟨fun h => by simp at h, fun h => absurd h h1⟩,
        ⟨fun h => by simp at h, fun h => absurd h2 (hch.mpr h.2)⟩⟩
    · rw [heq.2.2 h1 h2]
      refine ⟨⟨fun h => by simp at h, fun h => absurd h h1⟩,
        ⟨fun _ => ⟨h1, hch.mp h2⟩, fun _ => rfl⟩⟩

/-- **C55 (violated for a second fit)** `fit` does not empty the graph: after a second fit with the
opposite order each of two clusters is the parent of the other. -/
theorem C55_refit (centers : Fin 2 → Vec d) (attractor : Vec d) (hne : centers 0 ≠ centers 1)
    (ha : ∀ i, centers i ≠ attractor) :
    ∃ (g1 g2 : Graph 2) (ds1 ds2 : List ℝ),
      fitHierarchy {} centers attractor [1, 0] = .ok (g1, ds1)
      ∧ fitHierarchy g1 centers attractor [0, 1] = .ok (g2, ds2)
      ∧ g2.successors 0 = [1] ∧ g2.successors 1 = [0] := by
  refine ⟨⟨[(0, 0), (1, 1)], [(1, 0)]⟩, ⟨[(0, 1), (1, 0)], [(1, 0), (0, 1)]⟩,
    [‖centers 0 - attractor‖ * 2.0, ‖centers 1 - centers 0‖],
    [‖centers 1 - attractor‖ * 2.0, ‖centers 0 - centers 1‖], ?_, ?_, by decide, by decide⟩
  · unfold fitHierarchy
    simp only [List.reverse_cons, List.reverse_nil, List.nil_append, List.cons_append]
    rw [if_neg (by rw [norm_eq_zero, sub_eq_zero]; exact ha 0)]
    unfold hierarchyLoop hierarchyStep
    rw [if_neg (by rw [norm_eq_zero, sub_eq_zero]; exact hne.symm)]
    simp [Graph.addNode, Graph.addEdge, Graph.level, hierarchyLoop]
  · unfold fitHierarchy
    simp only [List.reverse_cons, List.reverse_nil, List.nil_append, List.cons_append]
    rw [if_neg (by rw [norm_eq_zero, sub_eq_zero]; exact ha 1)]
    unfold hierarchyLoop hierarchyStep
    rw [if_neg (by rw [norm_eq_zero, sub_eq_zero]; exact hne)]
    simp [Graph.addNode, Graph.addEdge, Graph.level, hierarchyLoop]

/-! ### C81: the radius of the regions -/

lemma npMax_ok {l : List ℝ} {m : ℝ} (h : npMax l = .ok m) : ∀ x ∈ l, x ≤ m := by
  unfold npMax at h
  cases h1 : l.max? with
  | none => rw [h1] at h; cases h
  | some k =>
    rw [h1] at h
    cases h
    exact (List.max?_eq_some_iff.mp h1).2

lemma mapM_option_mem {α β : Type*} {f : α → Option β} : ∀ {l : List α} {l' : List β} {p : α},
    l.mapM f = some l' → p ∈ l → ∃ v ∈ l', f p = some v
  | [], _, _, _, h => by simp at h
  | a :: l, l', p, hm, hp => by
    rw [List.mapM_cons] at hm
    simp only [Option.bind_eq_bind, Option.bind_eq_some_iff] at hm
    obtain ⟨b, hb, l2, hl2, h3⟩ := hm
    cases h3
    rcases List.mem_cons.mp hp with h | h
    · exact ⟨b, List.mem_cons_self, h ▸ hb⟩
    · obtain ⟨v, hv, h4⟩ := mapM_option_mem hl2 h
      exact ⟨v, List.mem_cons_of_mem _ hv, h4⟩

/-- **C81** The region radius of a fit is large enough: every point of the demonstration lies in
the region of a cluster, the attractor lies in the ball of the first cluster, and the balls of
consecutive clusters overlap (so that each is a neighbour of the other).  The factor has to be more
than one half; the default is `0.7`. -/
theorem C81_radius (radiusFactor : ℝ) (hf : 1 / 2 < radiusFactor) (value : Fin n → ℝ)
    (centers : Fin n → Vec d) (attractor : Vec d) (ascending : List (Fin n))
    (hs : IsArgsort value ascending) (g : Graph n) (ds : List ℝ)
    (hfit : fitHierarchy {} centers attractor ascending = .ok (g, ds))
    (positions : List (Vec d)) (r : ℝ)
    (hr : regionRadius radiusFactor ds centers positions = .ok r) :
    (∀ p ∈ positions, ∃ k, p ∈ Spec.Cell centers r k)
    ∧ (∀ k, g.level k = some 0 → ‖attractor - centers k‖ < r)
    ∧ (∀ k p, p ∈ g.successors k → ‖centers k - centers p‖ < 2 * r) := by
  cases hrev : ascending.reverse with
  | nil => unfold fitHierarchy at hfit; rw [hrev] at hfit; simp at hfit
  | cons root rest =>
    have heq := fitHierarchy_eq centers attractor hs.1 hrev
    have hch : centers root ≠ attractor
        ∧ (root :: rest).IsChain (fun a b => centers b ≠ centers a) := by
      by_cases h1 : centers root = attractor
      · rw [heq.2.1 h1] at hfit; cases hfit
      · by_cases h2 : (root :: rest).IsChain (fun a b => centers b ≠ centers a)
        · exact ⟨h1, h2⟩
        · rw [heq.2.2 h1 h2] at hfit; cases hfit
    rw [heq.1 hch.1 hch.2] at hfit
    cases hfit
    have hp : (root :: rest).Perm (List.finRange n) := by
      rw [← hrev]; exact (List.reverse_perm _).trans hs.1
    have hnd : (root :: rest).Nodup := hp.nodup_iff.mpr (List.nodup_finRange n)
    unfold regionRadius at hr
    cases hm : npMax (‖centers root - attractor‖ * 2.0 :: chainDistances centers (root :: rest)) with
    | error e => rw [hm] at hr; cases hr
    | ok m =>
      rw [hm] at hr
      simp only at hr
      cases hfar : farthestData centers positions with
      | error e => rw [hfar] at hr; cases hr
      | ok f =>
        rw [hfar] at hr
        simp only [Except.ok.injEq] at hr
        have hr1 : 2 * radiusFactor * f ≤ r := hr ▸ le_max_left _ _
        have hr2 : radiusFactor * m ≤ r := hr ▸ le_max_right _ _
        have hmm := npMax_ok hm
        refine ⟨?_, ?_, ?_⟩
        · intro p hpos
          unfold farthestData at hfar
          cases hmap : positions.mapM
              (fun p => ((List.finRange n).map (fun i => ‖centers i - p‖)).min?) with
          | none => rw [hmap] at hfar; cases hfar
          | some l =>
            rw [hmap] at hfar
            simp only at hfar
            have hff := npMax_ok hfar
            obtain ⟨v, hv1, hv2⟩ := mapM_option_mem hmap hpos
            have hmin := List.min?_eq_some_iff.mp hv2
            obtain ⟨k, -, hk⟩ := List.mem_map.mp hmin.1
            have hk0 : 0 ≤ v := by rw [← hk]; positivity
            have hv3 := hff v hv1
            refine ⟨k, ?_, ?_⟩
            · rw [norm_sub_rev, hk]
              nlinarith
            · intro j
              rw [norm_sub_rev, hk, norm_sub_rev]
              exact hmin.2 _ (List.mem_map_of_mem (List.mem_finRange j))
        · intro k hk
          have hkr : k = root := by
            have hkm : k ∈ root :: rest := hp.mem_iff.mpr (List.mem_finRange k)
            obtain ⟨j, hj, hj2⟩ := List.mem_iff_getElem.mp hkm
            have h3 := level_chain hnd j hj
            rw [hj2, hk] at h3
            cases h3
            exact hj2.symm
          have h1 := hmm _ List.mem_cons_self
          have h2 : 0 < ‖centers root - attractor‖ := by
            rw [norm_pos_iff, sub_ne_zero]; exact hch.1
          rw [hkr, norm_sub_rev]
          norm_num at h1
          nlinarith
        · intro k p hkp
          unfold Graph.successors at hkp
          rw [List.mem_map] at hkp
          obtain ⟨e, he, he2⟩ := hkp
          rw [List.mem_filter, decide_eq_true_eq] at he
          have h1 : ‖centers e.1 - centers e.2‖ ∈ chainDistances centers (root :: rest) :=
            List.mem_map.mpr ⟨e, he.1, rfl⟩
          have h2 := hmm _ (List.mem_cons_of_mem _ h1)
          rw [he.2, he2] at h2
          have h3 := hmm _ List.mem_cons_self
          have h4 : 0 < ‖centers root - attractor‖ := by
            rw [norm_pos_iff, sub_ne_zero]; exact hch.1
          norm_num at h3
          nlinarith

/-! ### C54 -/

lemma transitionWeight_mem (own other position : Vec d) (h : own ≠ other) {f : ℝ} (hf : 0 < f) :
    0 ≤ transitionWeight own other position f ∧ transitionWeight own other position f ≤ 1 := by
  have h0 : 0 < ‖own - other‖ := by rwa [norm_pos_iff, sub_ne_zero]
  have h1 : own - (0.5 : ℝ) • (own + other) = (1 / 2 : ℝ) • (own - other) := by
    ext k; simp; ring
  have h2 : ⟪(1 / ‖own - other‖) • (own - other), own - (0.5 : ℝ) • (own + other)⟫
      = ‖own - other‖ / 2 := by
    rw [h1, inner_smul_left, inner_smul_right, real_inner_self_eq_norm_sq]
    simp only [conj_trivial]
    field_simp
  unfold transitionWeight
  simp only [h2]
  refine ⟨le_max_right _ _, max_le ?_ zero_le_one⟩
  have : 0 ≤ max ⟪(1 / ‖own - other‖) • (own - other), position - (0.5 : ℝ) • (own + other)⟫ 0
      / (‖own - other‖ / 2 * f) := by positivity
  linarith

lemma cutoffFactor_mem (gamma cutoff : ℝ) :
    0 ≤ cutoffFactor gamma cutoff ∧ cutoffFactor gamma cutoff < 1 := by
  unfold cutoffFactor
  have h : 0 ≤ max (gamma - cutoff) 0 := le_max_right _ _
  constructor
  · have : 1 / (1 + max (gamma - cutoff) 0) ≤ 1 := by
      rw [div_le_one (by linarith)]; linarith
    linarith
  · have : 0 < 1 / (1 + max (gamma - cutoff) 0) := by positivity
    linarith

lemma pairWeights_spec {label parent : Fin n} (hne : label ≠ parent) (w : ℝ) :
    pairWeights label parent w label = 1 - w ∧ pairWeights label parent w parent = w
      ∧ (∀ i, i ≠ label → i ≠ parent → pairWeights label parent w i = 0)
      ∧ ∑ i, pairWeights label parent w i = 1 := by
  classical
  have hs : ∑ i, Function.update (fun _ => (0 : ℝ)) parent w i = w := by
    rw [Finset.sum_update_of_mem (Finset.mem_univ _)]; simp
  refine ⟨?_, ?_, ?_, ?_⟩
  · unfold pairWeights; rw [Function.update_self, hs]
  · unfold pairWeights; rw [Function.update_of_ne hne.symm, Function.update_self]
  · intro i h1 h2
    unfold pairWeights; rw [Function.update_of_ne h1, Function.update_of_ne h2]
  · unfold pairWeights
    rw [hs, Finset.sum_update_of_mem (Finset.mem_univ _),
      Finset.sum_update_of_mem (by simp [hne.symm])]
    simp

/-- **C54** Whenever `_predict_sequence_weights` returns, the weights are in the unit interval, sum
to one, and only the cluster of the position and a neighbour in the hierarchy have a weight. -/
theorem C54_weights [NeZero d] (g : Graph n) (o : Obs n d) (last : Fin n) (position : Vec d)
    (parentFactor gammaCutoff : ℝ) (hf : 0 < parentFactor) (w : Fin n → ℝ)
    (h : sequenceWeights g o last position parentFactor gammaCutoff = .ok w) :
    (∀ i, 0 ≤ w i ∧ w i ≤ 1) ∧ ∑ i, w i = 1
      ∧ ∀ i, w i ≠ 0 → i = o.index ∨ g.predecessors o.index = [i] := by
  classical
  have key : ∀ parent x, o.index ≠ parent → 0 ≤ x → x ≤ 1 → g.predecessors o.index = [parent] →
      (∀ i, 0 ≤ pairWeights o.index parent x i ∧ pairWeights o.index parent x i ≤ 1)
      ∧ ∑ i, pairWeights o.index parent x i = 1
      ∧ ∀ i, pairWeights o.index parent x i ≠ 0 → i = o.index ∨ g.predecessors o.index = [i] := by
    intro parent x hne h0 h1 hp
    obtain ⟨e1, e2, e3, e4⟩ := pairWeights_spec hne x
    refine ⟨?_, e4, ?_⟩
    · intro i
      by_cases hi : i = o.index
      · rw [hi, e1]; constructor <;> linarith
      · by_cases hi2 : i = parent
        · rw [hi2, e2]; exact ⟨h0, h1⟩
        · rw [e3 i hi hi2]; norm_num
    · intro i hi
      by_cases h2 : i = o.index
      · exact Or.inl h2
      · by_cases h3 : i = parent
        · right; rw [h3]; exact hp
        · exact absurd (e3 i h2 h3) hi
  unfold sequenceWeights at h
  split at h
  · cases h
  · cases h
    refine ⟨?_, ?_, ?_⟩
    · intro i
      by_cases hi : i = o.index
      · rw [hi]; simp
      · rw [Pi.single_eq_of_ne hi]; norm_num
    · simp
    · intro i hi
      left
      by_contra h2
      exact hi (Pi.single_eq_of_ne h2 _)
  · rename_i parent hp
    by_cases h1 : ‖o.center - o.centers parent‖ = 0
    · rw [if_pos h1] at h; cases h
    · rw [if_neg h1] at h
      have hne : o.center ≠ o.centers parent := by
        intro h2; apply h1; rw [h2, sub_self, norm_zero]
      have hidx : o.index ≠ parent := by
        intro h2; apply hne; rw [← h2]; rfl
      obtain ⟨t0, t1⟩ := transitionWeight_mem o.center (o.centers parent) position hne hf
      simp only at h
      by_cases h2 : transitionWeight o.center (o.centers parent) position parentFactor > 0
      · rw [if_pos h2] at h
        split at h
        · cases h
        · cases h
        · rename_i gamma _
          cases h
          obtain ⟨c0, c1⟩ := cutoffFactor_mem gamma gammaCutoff
          exact key parent _ hidx (by positivity) (by nlinarith) hp
      · rw [if_neg h2] at h
        cases h
        exact key parent _ hidx t0 t1 hp

lemma getGamma_total [NeZero d] (o : Obs n d)
    (hg : Spec.GoodClusters o.centers o.radius o.index) (hb : o.isBoundary = true) (last k : Fin n)
    (x : Vec d) : ∃ g, o.getGamma last x true (.cluster k) = .ok (some g) := by
  by_cases hc : x = o.center
  · refine ⟨floatMax, ?_⟩
    unfold Obs.getGamma
    simp [hc, hb]
  obtain ⟨u, s, P, h, h2, h4, h5, h5', h6, h7, -⟩ := getGamma_ray o hg last x hc (.cluster k)
  by_cases h8 : ‖x - o.center‖ = s
  · exact ⟨_, h6 h8⟩
  · have hsP : s < P := by
      rcases lt_or_gt_of_ne h8 with h9 | h9
      · exact (h5 h9).2
      · rw [h5' h9]; exact h9
    obtain ⟨w, hw, -⟩ := surfaceWeights_ok (exists_distance_pos h hg hsP)
    rw [h7 h8 hb, gammaBoundary_gap (Or.inl rfl) hw]
    exact ⟨_, rfl⟩

/-- **C54** After a (first) fit `_predict_sequence_weights` returns for every position. -/
theorem C54_total [NeZero d] (value : Fin n → ℝ) (centers : Fin n → Vec d) (attractor : Vec d)
    (ascending : List (Fin n)) (hs : IsArgsort value ascending) (g : Graph n) (ds : List ℝ)
    (hfit : fitHierarchy {} centers attractor ascending = .ok (g, ds))
    (o : Obs n d) (hb : o.isBoundary = true)
    (hgood : Spec.GoodClusters o.centers o.radius o.index) (last : Fin n) (position : Vec d)
    (parentFactor gammaCutoff : ℝ) :
    ∃ w, sequenceWeights g o last position parentFactor gammaCutoff = .ok w := by
  have hpred : g.predecessors o.index = [] ∨ ∃ p, g.predecessors o.index = [p] ∧ p ≠ o.index := by
    cases hrev : ascending.reverse with
    | nil => unfold fitHierarchy at hfit; rw [hrev] at hfit; simp at hfit
    | cons root rest =>
      have heq := fitHierarchy_eq centers attractor hs.1 hrev
      have hg : g = chainGraph (root :: rest) := by
        by_cases h1 : centers root = attractor
        · rw [heq.2.1 h1] at hfit; cases hfit
        · by_cases h2 : (root :: rest).IsChain (fun a b => centers b ≠ centers a)
          · rw [heq.1 h1 h2] at hfit; cases hfit; rfl
          · rw [heq.2.2 h1 h2] at hfit; cases hfit
      have hp : (root :: rest).Perm (List.finRange n) := by
        rw [← hrev]; exact (List.reverse_perm _).trans hs.1
      have hnd : (root :: rest).Nodup := hp.nodup_iff.mpr (List.nodup_finRange n)
      obtain ⟨-, -, e3, e4⟩ := chain_edges hnd
      obtain ⟨j, hj, hj2⟩ := List.mem_iff_getElem.mp
        (hp.mem_iff.mpr (List.mem_finRange o.index))
      rw [hg, ← hj2]
      by_cases hlast : j + 1 < (root :: rest).length
      · right
        refine ⟨_, e3 j hlast, ?_⟩
        intro h
        have := (hnd.getElem_inj_iff).mp h
        omega
      · left
        exact e4 j (by omega)
  unfold sequenceWeights
  rcases hpred with h | ⟨p, h, hne⟩
  · simp only [h]; exact ⟨_, rfl⟩
  · simp only [h]
    have h1 : ‖o.center - o.centers p‖ ≠ 0 := by
      rw [norm_sub_rev]; exact (hgood.separated p hne).1.ne'
    rw [if_neg h1]
    by_cases h2 : transitionWeight o.center (o.centers p) position parentFactor > 0
    · rw [if_pos h2]
      obtain ⟨g, hg⟩ := getGamma_total o hgood hb last p position
      rw [hg]
      exact ⟨_, rfl⟩
    · rw [if_neg h2]
      exact ⟨_, rfl⟩

/-- **C54 (violated)** The other cluster with a weight is never the parent: it is the child, the
cluster *before* in the demonstration (level one higher, mean sequence value not larger). -/
theorem C54_child [NeZero d] (samples : List (Fin n × ℝ)) (centers : Fin n → Vec d)
    (attractor : Vec d) (ascending : List (Fin n))
    (hs : IsArgsort (averageSequence samples) ascending) (g : Graph n) (ds : List ℝ)
    (hfit : fitHierarchy {} centers attractor ascending = .ok (g, ds))
    (o : Obs n d) (last : Fin n) (position : Vec d)
    (parentFactor gammaCutoff : ℝ) (hf : 0 < parentFactor) (w : Fin n → ℝ)
    (h : sequenceWeights g o last position parentFactor gammaCutoff = .ok w)
    (i : Fin n) (hi : i ≠ o.index) (hw : w i ≠ 0) :
    i ∉ g.successors o.index ∧ o.index ∈ g.successors i
      ∧ averageSequence samples i ≤ averageSequence samples o.index := by
  obtain ⟨order, hp, hsort, -, e2, e1, e3, e4⟩ :=
    C55_chain_partial samples centers attractor ascending hs g ds hfit
  have hnd : order.Nodup := hp.nodup_iff.mpr (List.nodup_finRange n)
  have hpred : g.predecessors o.index = [i] := by
    rcases (C54_weights g o last position parentFactor gammaCutoff hf w h).2.2 i hw with h1 | h1
    · exact absurd h1 hi
    · exact h1
  obtain ⟨j, hj, hj2⟩ := List.mem_iff_getElem.mp (hp.mem_iff.mpr (List.mem_finRange o.index))
  have hlast : j + 1 < order.length := by
    by_contra hc
    have := e4 j (by omega)
    rw [hj2, hpred] at this
    cases this
  have hi2 : i = order[j + 1] := by
    have := e3 j hlast
    rw [hj2, hpred] at this
    simpa using this
  refine ⟨?_, ?_, ?_⟩
  · rw [← hj2, hi2]
    cases j with
    | zero => rw [e2 hj]; simp
    | succ k =>
      rw [e1 k hj, List.mem_singleton]
      intro h2
      have := (hnd.getElem_inj_iff).mp h2
      omega
  · rw [hi2, e1 j hlast, hj2]; simp
  · rw [hi2, ← hj2]
    exact (List.pairwise_iff_getElem.mp hsort) j (j + 1) hj hlast (by omega)

/-- **C54** Away from the wall to the other cluster (by at least the fraction `parent_factor` of the
distance between wall and centre) the whole weight is on the cluster of the position.  Missing: closer to
the wall the rest of the weight is not on the parent but on the child (`C54_child`). -/
theorem C54_own_partial [NeZero d] (g : Graph n) (o : Obs n d) (last : Fin n) (position : Vec d)
    (parentFactor gammaCutoff : ℝ) (hf : 0 < parentFactor) (p : Fin n)
    (hp : g.predecessors o.index = [p]) (hne : o.centers p ≠ o.center)
    (hpos : parentFactor * (‖o.center - o.centers p‖ / 2)
      ≤ ⟪(1 / ‖o.center - o.centers p‖) • (o.center - o.centers p),
          position - (1 / 2 : ℝ) • (o.center + o.centers p)⟫) :
    sequenceWeights g o last position parentFactor gammaCutoff = .ok (Pi.single o.index 1) := by
  classical
  have h0 : 0 < ‖o.center - o.centers p‖ := by rw [norm_pos_iff, sub_ne_zero]; exact hne.symm
  have hidx : o.index ≠ p := by
    intro h2; apply hne; rw [← h2]; rfl
  have h1 : o.center - (0.5 : ℝ) • (o.center + o.centers p)
      = (1 / 2 : ℝ) • (o.center - o.centers p) := by
    ext k; simp; ring
  have h2 : ⟪(1 / ‖o.center - o.centers p‖) • (o.center - o.centers p),
      o.center - (0.5 : ℝ) • (o.center + o.centers p)⟫ = ‖o.center - o.centers p‖ / 2 := by
    rw [h1, inner_smul_left, inner_smul_right, real_inner_self_eq_norm_sq]
    simp only [conj_trivial]
    field_simp
  have h3 : transitionWeight o.center (o.centers p) position parentFactor = 0 := by
    unfold transitionWeight
    simp only [h2]
    apply max_eq_right
    have h4 : (0.5 : ℝ) = 1 / 2 := by norm_num
    rw [h4]
    have h5 : 1 ≤ max ⟪(1 / ‖o.center - o.centers p‖) • (o.center - o.centers p),
        position - (1 / 2 : ℝ) • (o.center + o.centers p)⟫ 0
        / (‖o.center - o.centers p‖ / 2 * parentFactor) := by
      rw [one_le_div (by positivity)]
      exact le_max_of_le_left (by linarith)
    linarith
  unfold sequenceWeights
  simp only [hp]
  rw [if_neg h0.ne', h3, if_neg (lt_irrefl _)]
  congr 1
  obtain ⟨e1, e2, e3, -⟩ := pairWeights_spec hidx (0 : ℝ)
  funext i
  by_cases hi : i = o.index
  · rw [hi, e1]; simp
  · rw [Pi.single_eq_of_ne hi]
    by_cases hi2 : i = p
    · rw [hi2, e2]
    · exact e3 i hi hi2

/-! ### Example -/

/-- The hypotheses can be met: two clusters with three samples are fitted, and the learner returns
weights. -/
example : ∃ (g : Graph 2) (ds : List ℝ) (r : ℝ) (w : Fin 2 → ℝ),
    IsArgsort (averageSequence [((0 : Fin 2), (1 : ℝ)), (1, 0), (1, 0.5)]) [1, 0]
    ∧ fitHierarchy {} twoClusters.centers (EuclideanSpace.single 0 (-1)) [1, 0] = .ok (g, ds)
    ∧ regionRadius 0.7 ds twoClusters.centers [EuclideanSpace.single 0 1] = .ok r
    ∧ sequenceWeights g twoClusters 1 (EuclideanSpace.single 0 0.5) = .ok w := by
  have hs : IsArgsort (averageSequence [((0 : Fin 2), (1 : ℝ)), (1, 0), (1, 0.5)]) [1, 0] := by
    refine ⟨by decide, ?_⟩
    rw [List.pairwise_pair]
    simp [averageSequence]
    norm_num
  have hsep : ∀ a b : ℝ, a ≠ b →
      (EuclideanSpace.single 0 a : Vec 1) ≠ EuclideanSpace.single 0 b := by
    intro a b hab h
    have := congrArg (fun v : Vec 1 => v 0) h
    simp at this
    exact hab this
  have hinj : Function.Injective twoClusters.centers := by
    intro i j h
    by_contra hij
    fin_cases i <;> fin_cases j <;> simp only [twoClusters] at h
    · exact hij rfl
    · exact hsep 0 2 (by norm_num) (by simpa using h)
    · exact hsep 2 0 (by norm_num) (by simpa using h)
    · exact hij rfl
  have ha : ∀ i, twoClusters.centers i ≠ EuclideanSpace.single 0 (-1) := by
    intro i
    fin_cases i <;> simp only [twoClusters]
    · exact hsep _ _ (by norm_num)
    · exact hsep _ _ (by norm_num)
  obtain ⟨g, ds, hfit⟩ := C55_fit_succeeds _ twoClusters.centers (EuclideanSpace.single 0 (-1))
    [1, 0] hs (by norm_num) hinj ha
  obtain ⟨w, hw⟩ := C54_total _ _ _ _ hs g ds hfit twoClusters rfl twoClusters_good 1
    (EuclideanSpace.single 0 0.5) 0.5 2.0
  have hds : ds ≠ [] := by
    have := (fitHierarchy_eq twoClusters.centers (EuclideanSpace.single 0 (-1)) hs.1
      (root := 0) (rest := [1]) rfl).1 (ha 0) (by
        rw [List.isChain_cons_cons]
        exact ⟨fun h => absurd (hinj h) (by decide), List.isChain_singleton _⟩)
    rw [this] at hfit
    cases hfit
    simp
  obtain ⟨m, hm⟩ : ∃ m, npMax ds = .ok m := by
    unfold npMax
    cases h : ds.max? with
    | none => rw [List.max?_eq_none_iff] at h; exact absurd h hds
    | some m => exact ⟨m, rfl⟩
  obtain ⟨f, hf⟩ : ∃ f, farthestData twoClusters.centers [EuclideanSpace.single 0 1] = .ok f := by
    unfold farthestData
    simp [List.finRange, List.ofFn, Fin.foldr_succ, npMax]
  exact ⟨g, ds, _, w, hs, hfit, by unfold regionRadius; rw [hm, hf], hw⟩

end Verif.KMeans
