import Verif.Lemmas.AvoiderOrder
import Verif.Lemmas.BranchSums
import Verif.Props.Avoider

/-! # Helper lemmas: the branches of the tangent tree belong to single obstacles -/

open scoped RealInnerProductSpace

namespace Verif
open Spec

variable {d k : ℕ} [Fact (2 ≤ d)]
set_option linter.unusedSectionVars false

/-- The edges of the tree start at the root or stay with the same obstacle. -/
def OwnEdges (t : Tree NodeId d) : Prop := OwnedEdges ixOf baseId t

lemma addNode_own {t t' : Tree NodeId d} {n p : NodeId} {v : Vec d} (h : RootedTree t baseId)
    (ho : OwnEdges t) (hp : p = baseId ∨ ixOf p = ixOf n)
    (hok : orRaise (t.addNode n v (some p)) = .ok t') : RootedTree t' baseId ∧ OwnEdges t' := by
  obtain ⟨h1, _, _, _, _, h2⟩ := addNode_full h hok
  refine ⟨h1, fun a c hac => ?_⟩
  rcases h2 a c hac with h3 | ⟨rfl, rfl⟩
  · exact ho a c h3
  · exact hp

lemma branchSteps_own {iTree comp : ℕ} {l : List (BranchEntry d × BranchEntry d)}
    {t t' : Tree NodeId d} {v v' : Vec d} {n n' : NodeId} (h : RootedTree t baseId) (ho : OwnEdges t)
    (hn : ixOf n = iTree)
    (hok : l.foldlM (branchStep iTree comp) (t, v, n) = .ok (t', v', n')) :
    RootedTree t' baseId ∧ OwnEdges t' ∧ ixOf n' = iTree := by
  have := foldlM_inv (f := branchStep (d := d) iTree comp)
    (P := fun st => RootedTree st.1 baseId ∧ OwnEdges st.1 ∧ ixOf st.2.2 = iTree)
    (l := l) ?_ ⟨h, ho, hn⟩ hok
  · exact this
  · rintro e ⟨t1, v1, n1⟩ ⟨t2, v2, n2⟩ _ ⟨hr, hpre, hdir⟩ hstep
    unfold branchStep at hstep
    split at hstep
    · cases hstep
    · obtain ⟨t3, h3, h4⟩ := bind_ok.mp hstep
      cases h4
      have := addNode_own hr hpre (Or.inr (by simp only at hdir; rw [hdir]; rfl)) h3
      exact ⟨this.1, this.2, rfl⟩

lemma tangentBranch_own {ext : Ext d k} {x v : Vec d} {comp iTree : ℕ} {ot : ObstacleTree d}
    {radius : ℝ} {t t' : Tree NodeId d} {n : Vec d} (h : RootedTree t baseId) (ho : OwnEdges t)
    (hok : tangentBranch ext x comp v ot iTree radius t = .ok (t', n)) :
    RootedTree t' baseId ∧ OwnEdges t' := by
  classical
  unfold tangentBranch at hok
  obtain ⟨l, hl, hok⟩ := bind_ok.mp hok
  obtain ⟨e0, rest, rfl, he⟩ := computeBranch_head hl
  simp only at hok
  obtain ⟨⟨t1, v1, n1⟩, h1, hok⟩ := bind_ok.mp hok
  obtain ⟨g1, g2, g3⟩ := branchSteps_own h ho rfl h1
  simp only at hok
  obtain ⟨o, _, hok⟩ := bind_ok.mp hok
  split at hok
  · obtain ⟨⟨t2, p2⟩, h2, hok⟩ := bind_ok.mp hok
    simp only at hok
    obtain ⟨w, _, hok⟩ := bind_ok.mp hok
    obtain ⟨t3, h3, hok⟩ := bind_ok.mp hok
    cases hok
    have g : RootedTree t2 baseId ∧ OwnEdges t2 ∧ ixOf p2 = iTree := by
      unfold intermediateNode at h2
      split at h2
      · obtain ⟨w', _, h2⟩ := bind_ok.mp h2
        obtain ⟨t4, h4, h2⟩ := bind_ok.mp h2
        cases h2
        have g := addNode_own g1 g2 (Or.inr (by rw [g3]; rfl)) h4
        exact ⟨g.1, g.2, rfl⟩
      · cases h2; exact ⟨g1, g2, g3⟩
    exact addNode_own g.1 g.2.1 (Or.inr (by rw [g.2.2]; rfl)) h3
  · obtain ⟨t3, h3, hok⟩ := bind_ok.mp hok
    cases hok
    exact addNode_own g1 g2 (Or.inr (by rw [g3]; rfl)) h3

lemma tangentStep_own {ext : Ext d k} {a : Avoider d} {x v : Vec d} {p : ObstacleTree d × ℕ}
    {st st' : TangentState d} (h : RootedTree st.tree baseId) (ho : OwnEdges st.tree)
    (hok : tangentStep ext a x v st p = .ok st') : RootedTree st'.tree baseId ∧ OwnEdges st'.tree := by
  classical
  unfold tangentStep at hok
  simp only at hok
  obtain ⟨⟨gammas, gw, slow⟩, h1, hok⟩ := bind_ok.mp hok
  obtain ⟨occ, h2, hok⟩ := bind_ok.mp hok
  obtain ⟨⟨t', nodes', normals'⟩, h3, hok⟩ := bind_ok.mp hok
  simp only at hok
  cases hok
  unfold populateTangentTree at h3
  obtain ⟨t1, h4, h3⟩ := bind_ok.mp h3
  obtain ⟨radii, h5, h3⟩ := bind_ok.mp h3
  have g1 := addNode_own h ho (Or.inl rfl) h4
  have := foldlM_inv (f := populateStep ext x v p.1 p.2)
    (P := fun s => RootedTree s.1 baseId ∧ OwnEdges s.1) ?_ (by exact g1) h3
  · exact this
  · rintro c ⟨t1, ns1, nm1⟩ ⟨t2, ns2, nm2⟩ _ ⟨a1, a2⟩ hstep
    unfold populateStep at hstep
    simp only at hstep
    split at hstep
    · cases hstep; exact ⟨a1, a2⟩
    · obtain ⟨⟨t3, n3⟩, h3, hstep⟩ := bind_ok.mp hstep
      cases hstep
      exact tangentBranch_own a1 a2 h3

/-- In the prepared tree every edge stays with one obstacle. -/
lemma prepare_own {ext : Ext d k} {a : Avoider d} {x v : Vec d} {pr : Prepared d}
    (h : prepareAvoidance ext a x v = .ok pr) : OwnEdges pr.tree := by
  unfold prepareAvoidance at h
  obtain ⟨t0, h0, h⟩ := bind_ok.mp h
  obtain ⟨st, h1, h⟩ := bind_ok.mp h
  cases h
  have := foldlM_inv (f := tangentStep ext a x v)
    (P := fun s => RootedTree s.tree baseId ∧ OwnEdges s.tree) ?_ ?_ h1
  · exact this.2
  · rintro p st st' _ ⟨a1, a2⟩ hstep
    exact tangentStep_own a1 a2 hstep
  · refine ⟨C17_set_root _ _ _ h0, fun p c hpc => ?_⟩
    exact absurd hpc (setRoot_no_edge h0 p c)

/-! ## The weights of the branches -/

/-- Weights given in pieces, one piece for every obstacle. -/
lemma pieces_le : ∀ (s : ℕ) (L : List (List NodeId)) (M : List (List ℝ)),
    List.Forall₂ (fun l m => l.length = m.length ∧ Nonneg m ∧ m.sum ≤ 1) L M →
    (∀ (j : ℕ) (l : List NodeId), L[j]? = some l → ∀ n ∈ l, ixOf n = ((s + j : ℕ) : ℤ)) → ∀ i : ℤ,
    (((L.flatten.zip M.flatten).filter (fun e => decide (ixOf e.1 = i))).map Prod.snd).sum ≤ 1
  | s, [], [], _, _, i => by simp
  | s, l :: L, m :: M, h, hix, i => by
    obtain ⟨⟨h1, h2, h3⟩, h4⟩ := List.forall₂_cons.mp h
    have hrest := pieces_le (s + 1) L M h4 (fun j l hj n hn => by
      have := hix (j + 1) l (by simpa using hj) n hn
      rw [this]; push_cast; ring) i
    have hl0 := hix 0 l (by simp)
    rw [List.flatten_cons, List.flatten_cons, List.zip_append h1, List.filter_append, List.map_append,
      List.sum_append]
    by_cases hi : i = s
    · have hn : (L.flatten.zip M.flatten).filter (fun e => decide (ixOf e.1 = i)) = [] := by
        rw [List.filter_eq_nil_iff]
        rintro ⟨n, w⟩ he
        have hn := (List.of_mem_zip he).1
        obtain ⟨l', hl', hnl⟩ := List.mem_flatten.mp hn
        obtain ⟨j, hj, rfl⟩ := List.getElem_of_mem hl'
        have := hix (j + 1) L[j] (by simp [hj]) n hnl
        simp only [decide_eq_true_eq]
        rw [this, hi]
        omega
      rw [hn, List.map_nil, List.sum_nil, add_zero]
      have hz : ∀ e ∈ l.zip m, 0 ≤ e.2 := fun e he => h2 _ (List.of_mem_zip he).2
      refine (filter_sum_le hz (fun n => decide (ixOf n = i)) (fun _ => true) (fun _ _ _ => rfl)).trans ?_
      rw [List.filter_true, List.map_snd_zip (by omega)]
      exact h3
    · have hn : (l.zip m).filter (fun e => decide (ixOf e.1 = i)) = [] := by
        rw [List.filter_eq_nil_iff]
        rintro ⟨n, w⟩ he
        have := hl0 n (List.of_mem_zip he).1
        simp only [decide_eq_true_eq]
        rw [this]
        simpa using fun h => hi h.symm
      rw [hn, List.map_nil, List.sum_nil, zero_add]
      exact hrest

open Classical in
/-- The weights of the avoider are good weights for the prepared tree, whatever the number of
contacts: the weight of every branch of a single obstacle is at most one. -/
lemma prepared_weights {ext : Ext d k} {a : Avoider d} {x v : Vec d} {pr : Prepared d}
    (hp : 0 ≤ a.power) (hs : SaneTrees a.trees) (h : prepareAvoidance ext a x v = .ok pr) :
    GoodWeights pr.tree baseId (branchWeight pr.tree (pr.nodes.zip (avoidanceWeights pr.cluster)))
      ∧ branchWeight pr.tree (pr.nodes.zip (avoidanceWeights pr.cluster)) baseId = 1 := by
  obtain ⟨t, Ds, hD, e1, e2, e3, e4, e5, hr, hd, hnd, hsub⟩ := prepare_spec hp
    (fun ot hot o ho => (hs ot hot o ho).gamma_nonneg) h
  obtain ⟨Ds', hD', hnn', -, -, -, c1, c2, c3, c4, -⟩ := prepared_facts hp hs h
  have hown := prepare_own h
  have hnn : ∀ D ∈ Ds, Nonneg D.weights := by
    intro D hDm
    obtain ⟨i, hi, rfl⟩ := List.getElem_of_mem hDm
    have hi' : i < a.trees.zipIdx.length := by rw [hD.length_eq]; exact hi
    have hR := (List.forall₂_iff_get.mp hD).2 i hi' hi
    have := data_weights hp (fun o ho => (hs _ (zipIdx_mem (List.getElem_mem hi')) o ho).gamma_nonneg) hR
    exact this.choose_spec.2.2.1
  have hlen : pr.nodes.length = (avoidanceWeights pr.cluster).length := by
    rw [c4]; simp [avoidanceWeights]
  set z := pr.nodes.zip (avoidanceWeights pr.cluster) with hz
  have hz1 : z.map Prod.fst = pr.nodes := by rw [hz, List.map_fst_zip (by omega)]
  have hzn : (z.map Prod.fst).Nodup := by rw [hz1]; exact hnd
  have hzs : ∀ e ∈ z, e.1 ∈ pr.tree.nodes := fun e he => hsub _ (List.of_mem_zip he).1
  set L := Ds.map TreeData.nodes with hL
  set M := List.zipWith (fun wo (wc : List ℝ) => wc.map (fun w => wo * w))
    (getLimitedWeightsToMaxSum (Ds.map (fun D => D.weights.sum))).1
    (Ds.map (fun D => normalised (D.weights.filter (fun w => w > 0)))) with hM
  have hnL : pr.nodes = L.flatten ++ [baseId] := by rw [e2, hL]; simp [stateOf, List.flatMap]
  have hcM : pr.cluster = M.flatten := e5
  have hos : Nonneg (Ds.map (fun D => D.weights.sum)) := by
    intro w hw
    obtain ⟨D, hD, rfl⟩ := List.mem_map.mp hw
    exact sum_nonneg' (hnn D hD)
  obtain ⟨hll, hin, _⟩ := C28_in_unit _ hos
  have hF : List.Forall₂ (fun (l : List NodeId) (m : List ℝ) => l.length = m.length ∧ Nonneg m ∧ m.sum ≤ 1) L M := by
    rw [List.forall₂_iff_get]
    have hlM : M.length = Ds.length := by rw [hM, List.length_zipWith, hll]; simp
    refine ⟨by rw [hlM]; simp [hL], fun i h1 h2 => ?_⟩
    have hi : i < Ds.length := by simpa [hL] using h1
    have hi' : i < a.trees.zipIdx.length := by rw [hD.length_eq]; exact hi
    have hR := (List.forall₂_iff_get.mp hD).2 i hi' hi
    simp only [List.get_eq_getElem] at hR
    simp only [List.get_eq_getElem, hL, hM, List.getElem_map, List.getElem_zipWith]
    have hwo := hin _ (List.getElem_mem (l := (getLimitedWeightsToMaxSum (Ds.map (fun D => D.weights.sum))).1)
      (n := i) (by rw [hll]; simpa using hi))
    refine ⟨?_, ?_, ?_⟩
    · rw [hR.2.1]
      simp only [List.length_map, normalised]
      exact posIdx_length _
    · intro w hw
      obtain ⟨y, hy, rfl⟩ := List.mem_map.mp hw
      refine mul_nonneg hwo.1 ?_
      have hpos : Nonneg (Ds[i].weights.filter (fun w => w > 0)) := fun w hw =>
        (hnn _ (List.getElem_mem hi)) w (List.mem_filter.mp hw).1
      exact (normalised_inUnit hpos y hy).1
    · rw [List.sum_map_mul_left, List.map_id']
      rcases filter_pos (hnn _ (List.getElem_mem hi)) with h | ⟨h, -⟩
      · rw [h.1, mul_one]; exact hwo.2
      · rw [h]; simp
  have hix : ∀ (j : ℕ) (l : List NodeId), L[j]? = some l → ∀ n ∈ l, ixOf n = ((0 + j : ℕ) : ℤ) := by
    intro j l hj n hn
    rw [hL, List.getElem?_map, Option.map_eq_some_iff] at hj
    obtain ⟨D, hDj, rfl⟩ := hj
    obtain ⟨hi, rfl⟩ := List.getElem?_eq_some_iff.mp hDj
    have hi' : j < a.trees.zipIdx.length := by rw [hD.length_eq]; exact hi
    have hR := (List.forall₂_iff_get.mp hD).2 j hi' hi
    simp only [List.get_eq_getElem] at hR
    rw [hR.2.1] at hn
    obtain ⟨c, -, rfl⟩ := List.mem_map.mp hn
    simp [ixOf]
  have hpieces := pieces_le 0 L M hF hix
  have hz2 : z = L.flatten.zip M.flatten ++ [(baseId, 1 - pr.cluster.sum)] := by
    rw [hz, hnL, avoidanceWeights, hcM, List.zip_append]
    · rfl
    · rw [hnL, avoidanceWeights, hcM] at hlen; simpa using hlen
  have hz0 : ∀ e ∈ L.flatten.zip M.flatten, 0 ≤ e.2 := by
    intro e he
    have := (List.of_mem_zip he).2
    rw [← hcM] at this
    exact (c2 _ this).1
  have hW : ∀ m, m ≠ baseId → branchWeight pr.tree z m
      = (((L.flatten.zip M.flatten).filter (fun e => decide (e.1 = m ∨ Descendant pr.tree m e.1))).map Prod.snd).sum := by
    intro m hm
    rw [branchWeight_filter pr.tree _ hzn hzs, hz2, List.filter_append]
    rw [List.filter_cons_of_neg (l := [])]
    · simp
    · simp only [decide_eq_true_eq]
      rintro (h | h)
      · exact hm h.symm
      · exact (owned_desc hr hown hm h).2 rfl
  have hroot : branchWeight pr.tree z baseId = 1 := by
    rw [branchWeight_filter pr.tree _ hzn hzs, List.filter_eq_self.mpr, hz, List.map_snd_zip (by omega)]
    · unfold avoidanceWeights
      rw [List.sum_append, List.sum_singleton]; ring
    · intro e he
      have hem := hzs e he
      simp only [decide_eq_true_eq]
      by_cases hb : e.1 = baseId
      · exact Or.inl hb
      · exact Or.inr (hr.root_desc hem hb)
  have hnonneg : ∀ m, m ≠ baseId → 0 ≤ branchWeight pr.tree z m := by
    intro m hm
    rw [hW m hm]
    refine sum_nonneg' fun w hw => ?_
    obtain ⟨e, he, rfl⟩ := List.mem_map.mp hw
    exact hz0 e (List.mem_filter.mp he).1
  have hle : ∀ m, m ≠ baseId → branchWeight pr.tree z m ≤ 1 := by
    intro m hm
    rw [hW m hm]
    refine (filter_sum_le hz0 (fun n => decide (n = m ∨ Descendant pr.tree m n))
      (fun n => decide (ixOf n = ixOf m)) ?_).trans (hpieces (ixOf m))
    intro e he h
    simp only [decide_eq_true_eq] at h ⊢
    rcases h with h | h
    · rw [h]
    · exact (owned_desc hr hown hm h).1
  refine ⟨⟨fun m => ?_, fun p c hpc => ?_, fun n hn hnr => Or.inl (hle n hnr)⟩, hroot⟩
  · by_cases hm : m = baseId
    · rw [hm, hroot]; norm_num
    · exact hnonneg m hm
  · have hc : c ≠ baseId := by rintro rfl; exact hr.root_no_parent _ hpc
    by_cases hm : p = baseId
    · rw [hm, hroot]; exact hle c hc
    · rw [hW c hc, hW p hm]
      refine filter_sum_le hz0 (fun n => decide (n = c ∨ Descendant pr.tree c n))
        (fun n => decide (n = p ∨ Descendant pr.tree p n)) ?_
      intro e he h
      simp only [decide_eq_true_eq] at h ⊢
      rcases h with h | h
      · rw [h]; exact Or.inr (Relation.TransGen.single hpc)
      · exact Or.inr (Relation.TransGen.head hpc h)

/-- The mean of the tangent directions is a unit vector, whatever the number of contacts. -/
lemma direction_unit_any {ext : Ext d k} {a : Avoider d} {x v final : Vec d} {pr : Prepared d}
    (hp : 0 ≤ a.power) (hs : SaneTrees a.trees)
    (has : ArgsortSpec ext.argsort) (h : prepareAvoidance ext a x v = .ok pr)
    (hg : InnerDirections pr.tree) (hf : avoidanceDirection ext pr = .ok final) : ‖final‖ = 1 := by
  obtain ⟨hgw, hr1⟩ := prepared_weights hp hs h
  obtain ⟨Ds, _, _, _, _, _, _, _, _, c4, _, c1, _, c2, c3⟩ := prepared_facts hp hs h
  obtain ⟨L, hL⟩ := exists_deepest c1 hgw (by rw [hr1]; norm_num)
  obtain ⟨_, S, R, _, _, _, _, h5, h6, h7⟩ := mean_spec_good c1 hg has NodeState.init
    (by rw [c4]; simp [avoidanceWeights]) c3 hgw rfl L hL
  unfold avoidanceDirection at hf
  rw [hf] at h7
  injection h7 with h7
  rw [h7]
  exact (h5.second_bound h6).2

end Verif
