import Verif.Props.Avoider

/-! # Helper lemmas: the weights of obstacles in contact -/

open scoped RealInnerProductSpace

namespace Verif
open Spec

variable {d k : ℕ} [Fact (2 ≤ d)]
set_option linter.unusedSectionVars false

lemma getComponent_ok {t : ObstacleTree d} {i : ℕ} {o : Obstacle d} :
    t.getComponent i = .ok o ↔ t.components[i]? = some o := by
  unfold ObstacleTree.getComponent
  cases h : t.components[i]? with
  | none => simp
  | some o' => simp

/-- A list of non-negative numbers with sum at most one that contains a one. -/
lemma one_hot {pre post : List ℝ} {w : ℝ} (hn : Nonneg (pre ++ w :: post)) (hw : w = 1)
    (hs : (pre ++ w :: post).sum ≤ 1) : (∀ y ∈ pre, y = 0) ∧ (∀ y ∈ post, y = 0) := by
  rw [List.sum_append, List.sum_cons, hw] at hs
  have h1 : Nonneg pre := fun y hy => hn y (List.mem_append_left _ hy)
  have h2 : Nonneg post := fun y hy => hn y (List.mem_append_right _ (List.mem_cons_of_mem _ hy))
  have s1 := sum_nonneg' h1
  have s2 := sum_nonneg' h2
  constructor
  · intro y hy
    have := le_sum_of_mem h1 hy
    have := h1 y hy
    linarith
  · intro y hy
    have := le_sum_of_mem h2 hy
    have := h2 y hy
    linarith

lemma split_at {α : Type} {l : List α} {i : ℕ} (hi : i < l.length) :
    l = l.take i ++ l[i] :: l.drop (i + 1) := by
  rw [List.getElem_cons_drop, List.take_append_drop]

/-- The weights of an obstacle in contact with exactly one of its components, which is not
occluded: one for this component, zero for the others. -/
lemma contact_weights {ext : Ext d k} {a : Avoider d} {x v : Vec d} {p : ObstacleTree d × ℕ}
    {D : TreeData d} (hp : 0 ≤ a.power) (hg : ∀ o ∈ p.1.components, ∀ y, 0 ≤ o.gamma y)
    (h : DataOf ext a x v p D) {c : ℕ} {o : Obstacle d} (hc : p.1.components[c]? = some o)
    (hcon : o.gamma x ≤ 1)
    (honly : ∀ c' o', p.1.components[c']? = some o' → o'.gamma x ≤ 1 → c' = c)
    (hocc : ∀ occ, computeParentOcclusionWeight x p.1 = .ok occ → occ.getD c 0 = 1) :
    ∃ hcl : c < D.weights.length, D.weights[c] = 1 := by
  classical
  obtain ⟨_, hgam', hlen, _, _, _⟩ := data_weights hp hg h
  obtain ⟨⟨gammas, gw, occ, h1, h2, hw⟩, _, _⟩ := h
  have hcl : c < p.1.components.length := by
    by_contra hcn
    rw [List.getElem?_eq_none (by omega)] at hc; cases hc
  have hco : p.1.components[c] = o := by
    rw [List.getElem?_eq_getElem hcl] at hc; exact Option.some.inj hc
  obtain ⟨g, root, hgam, _, _, _, _, hl, _, _, _, _, _, _, h5⟩ :=
    gammaAndWeights_spec (rw := D.slow.1) (prox := D.slow.2) hp h1
  obtain ⟨hl', _, _⟩ := occlusion_spec h2 hg
  have hg1 : g ≤ 1 := by
    have := (gamma_ok hgam).2 o (by rw [← hco]; exact List.getElem_mem _)
    linarith
  have hgc := h5 hg1 c hcl
  rw [(C30_critical _ 1 false ⟨o.gamma x, List.mem_map.mpr ⟨o, by rw [← hco]; exact List.getElem_mem _,
    rfl⟩, hcon⟩).2 c (by simpa using hcl), getD_map _ _ _ hcl, hco, if_pos hcon] at hgc
  have hfil : ((p.1.components.map (fun o => o.gamma x)).filter (fun y => y ≤ 1)).length = 1 := by
    have hsp := split_at hcl
    have hz1 : ((p.1.components.take c).map (fun o => o.gamma x)).filter (fun y => y ≤ 1) = [] := by
      rw [List.filter_eq_nil_iff]
      intro y hy hy1
      obtain ⟨o', ho', rfl⟩ := List.mem_map.mp hy
      obtain ⟨i, hi, rfl⟩ := List.getElem_of_mem ho'
      rw [List.getElem_take] at hy1
      rw [List.length_take] at hi
      have := honly i _ (List.getElem?_eq_getElem (by omega)) (by simpa using hy1)
      omega
    have hz2 : ((p.1.components.drop (c + 1)).map (fun o => o.gamma x)).filter (fun y => y ≤ 1) = [] := by
      rw [List.filter_eq_nil_iff]
      intro y hy hy1
      obtain ⟨o', ho', rfl⟩ := List.mem_map.mp hy
      obtain ⟨i, hi, rfl⟩ := List.getElem_of_mem ho'
      rw [List.getElem_drop] at hy1
      rw [List.length_drop] at hi
      have := honly (c + 1 + i) _ (List.getElem?_eq_getElem (by omega)) (by simpa using hy1)
      omega
    rw [hsp, List.map_append, List.map_cons, List.filter_append, hz1,
      List.filter_cons_of_pos (by rw [hco]; simpa using hcon), hz2]
    rfl
  rw [hfil] at hgc
  norm_num at hgc
  refine ⟨by omega, ?_⟩
  have ho := hocc occ h2
  rw [getD_eq _ _ (by omega)] at ho
  have hgc' : gw[c]'(by omega) = 1 := by
    have := getD_eq gw c (by omega)
    rw [← this]
    simpa using hgc
  simp only [hw, List.getElem_zipWith, ho, hgc', mul_one]

/-- The positive weights of such an obstacle. -/
lemma one_hot_pos {w : List ℝ} {c : ℕ} (hn : Nonneg w) (hs : w.sum ≤ 1) (hcl : c < w.length)
    (hw : w[c] = 1) : w.sum = 1 ∧ posIdx w = [c]
      ∧ open Classical in normalised (w.filter (fun y => y > 0)) = [1] := by
  classical
  have hsp := split_at hcl
  have hn' := hn
  have hs' := hs
  rw [hsp] at hn' hs'
  obtain ⟨z1, z2⟩ := one_hot hn' hw hs'
  have f1 : (w.take c).filter (fun y => y > 0) = [] := by
    rw [List.filter_eq_nil_iff]; intro y hy h0; rw [z1 y hy] at h0; simp at h0
  have f2 : (w.drop (c + 1)).filter (fun y => y > 0) = [] := by
    rw [List.filter_eq_nil_iff]; intro y hy h0; rw [z2 y hy] at h0; simp at h0
  have hfil : w.filter (fun y => y > 0) = [1] := by
    conv_lhs => rw [hsp]
    rw [List.filter_append, f1, List.filter_cons_of_pos (by rw [hw]; simp), f2, hw]
    rfl
  refine ⟨?_, ?_, ?_⟩
  · have e : ∀ l : List ℝ, (∀ y ∈ l, y = 0) → l.sum = 0 := by
      intro l hl; exact List.sum_eq_zero hl
    rw [hsp, List.sum_append, List.sum_cons, e _ z1, e _ z2, hw]; norm_num
  · have hl := posIdx_length w
    rw [hfil] at hl
    obtain ⟨m, hm⟩ := List.length_eq_one_iff.mp hl
    have hcm : c ∈ posIdx w := by
      unfold posIdx
      rw [List.mem_map]
      refine ⟨(c, w[c]), List.mem_filter.mpr ⟨?_, by simp [hw]⟩, rfl⟩
      have : c < ((List.range w.length).zip w).length := by simp [hcl]
      have e := List.getElem_mem this
      rw [List.getElem_zip, List.getElem_range] at e
      exact e
    rw [hm, List.mem_singleton] at hcm
    rw [hm, hcm]
  · convert show normalised [(1 : ℝ)] = [1] by simp [normalised] using 2

/-- If exactly one component is in contact, its normal is the only one that counts. -/
lemma contact_cluster {ext : Ext d k} {a : Avoider d} {x v : Vec d} {pr : Prepared d}
    (hp : 0 ≤ a.power) (hs : SaneTrees a.trees) (h : prepareAvoidance ext a x v = .ok pr)
    {i : ℕ} {t : ObstacleTree d} (hti : a.trees[i]? = some t)
    {c : ℕ} {o : Obstacle d} (hc : t.components[c]? = some o) (hcon : o.gamma x ≤ 1)
    (honly : ∀ j t' c' o', a.trees[j]? = some t' → t'.components[c']? = some o' → o'.gamma x ≤ 1 →
      j = i ∧ c' = c)
    (hocc : ∀ occ, computeParentOcclusionWeight x t = .ok occ → occ.getD c 0 = 1) :
    pr.cluster.max? = some 1
      ∧ BranchNormal x t c (List.zipWith (fun (n : Vec d) w => w • n) pr.normals pr.cluster).sum := by
  classical
  obtain ⟨Ds, hD, hnn, hnorm, _, hcl, hsum, hin, _⟩ := prepared_facts hp hs h
  have hi : i < a.trees.length := by
    by_contra hcn
    rw [List.getElem?_eq_none (by omega)] at hti; cases hti
  have hti' : a.trees[i] = t := by
    rw [List.getElem?_eq_getElem hi] at hti; exact Option.some.inj hti
  have hlen := hD.length_eq
  rw [List.length_zipIdx] at hlen
  have hiD : i < Ds.length := by omega
  have hdata : DataOf ext a x v (t, i) Ds[i] := by
    have := (List.forall₂_iff_get.mp hD).2 i (by simpa using hi) hiD
    simp only [List.get_eq_getElem, List.getElem_zipIdx, zero_add, hti'] at this
    exact this
  have htm : t ∈ a.trees := by rw [← hti']; exact List.getElem_mem _
  have hgn : ∀ o ∈ t.components, ∀ y, 0 ≤ o.gamma y := fun o ho => (hs t htm o ho).gamma_nonneg
  obtain ⟨hcw, hw1⟩ := contact_weights hp hgn hdata hc hcon
    (fun c' o' ho' hg' => (honly i t c' o' hti ho' hg').2) hocc
  obtain ⟨_, _, _, _, hsw, _⟩ := data_weights hp hgn hdata
  obtain ⟨w1, w2, w3⟩ := one_hot_pos (hnn _ (List.getElem_mem hiD)) hsw hcw hw1
  -- at most one contact
  have hone : AtMostOneContact x a.trees := by
    unfold AtMostOneContact
    rw [List.pairwise_iff_getElem]
    rintro j l hj hl hjl ⟨⟨o1, ho1, hg1⟩, ⟨o2, ho2, hg2⟩⟩
    obtain ⟨c1, hc1, rfl⟩ := List.getElem_of_mem ho1
    obtain ⟨c2, hc2, rfl⟩ := List.getElem_of_mem ho2
    have e1 := (honly j _ c1 _ (List.getElem?_eq_getElem hj) (List.getElem?_eq_getElem hc1) hg1).1
    have e2 := (honly l _ c2 _ (List.getElem?_eq_getElem hl) (List.getElem?_eq_getElem hc2) hg2).1
    omega
  have hle := cluster_le_one hp hs hone h
  -- the limited weight of the obstacle in contact is one
  set os := Ds.map (fun D => D.weights.sum) with hos
  have hosn : Nonneg os := by
    intro w hw
    obtain ⟨D, hD, rfl⟩ := List.mem_map.mp hw
    exact sum_nonneg' (hnn D hD)
  have hosi : i < os.length := by simpa [hos] using hiD
  have hosv : os[i] = 1 := by simp [hos, w1]
  have hlim : (getLimitedWeightsToMaxSum os).1.length = Ds.length := by
    rw [(C28_in_unit os hosn).1]; simp [hos]
  have hli : (getLimitedWeightsToMaxSum os).1[i]'(by omega) = 1 := by
    have hge : ¬ os.sum < 1 := by
      have := le_sum_of_mem hosn (List.getElem_mem hosi)
      rw [hosv] at this; linarith
    have hex : ∃ w ∈ os, w ≥ 1 := ⟨os[i], List.getElem_mem hosi, by rw [hosv]⟩
    have e : (getLimitedWeightsToMaxSum os).1 = indicator (· ≥ 1) os := by
      unfold getLimitedWeightsToMaxSum
      rw [if_neg hge, if_pos hex]
    have := indicator_getD (· ≥ 1) os i hosi
    rw [getD_eq _ _ hosi, hosv, if_pos (le_refl _), getD_eq _ _ (by rw [indicator_length]; exact hosi)] at this
    simp only [e]
    exact this
  set ls := (getLimitedWeightsToMaxSum os).1 with hls
  -- split the lists
  have hDs := split_at hiD
  have hlss := split_at (l := ls) (i := i) (by omega)
  have hpl : (ls.take i).length = (Ds.take i).length := by simp; omega
  have hclu : pr.cluster =
      (List.zipWith (fun wo (wc : List ℝ) => wc.map (fun w => wo * w)) (ls.take i)
        ((Ds.take i).map (fun D => normalised (D.weights.filter (fun w => w > 0))))).flatten
      ++ 1 :: (List.zipWith (fun wo (wc : List ℝ) => wc.map (fun w => wo * w)) (ls.drop (i + 1))
        ((Ds.drop (i + 1)).map (fun D => normalised (D.weights.filter (fun w => w > 0))))).flatten := by
    have e : pr.cluster = (List.zipWith (fun wo (wc : List ℝ) => wc.map (fun w => wo * w)) ls
      (Ds.map (fun D => normalised (D.weights.filter (fun w => w > 0))))).flatten := hcl
    rw [e]
    conv_lhs => rw [hDs, hlss]
    rw [List.map_append, List.zipWith_append (by simpa using hpl), List.flatten_append, List.map_cons,
      List.zipWith_cons_cons, List.flatten_cons, hli]
    have w3' : normalised (Ds[i].weights.filter (fun w => w > 0)) = [1] := by convert w3
    rw [w3']
    simp
  set A := (List.zipWith (fun wo (wc : List ℝ) => wc.map (fun w => wo * w)) (ls.take i)
        ((Ds.take i).map (fun D => normalised (D.weights.filter (fun w => w > 0))))).flatten with hA
  set B := (List.zipWith (fun wo (wc : List ℝ) => wc.map (fun w => wo * w)) (ls.drop (i + 1))
        ((Ds.drop (i + 1)).map (fun D => normalised (D.weights.filter (fun w => w > 0))))).flatten
  have hnc : Nonneg pr.cluster := fun w hw => (hin w hw).1
  have hnc' := hnc
  have hle' := hle
  rw [hclu] at hnc' hle'
  obtain ⟨z1, z2⟩ := one_hot hnc' rfl hle'
  obtain ⟨n, hn, hbn⟩ : ∃ n, Ds[i].normals = [n] ∧ BranchNormal x t c n := by
    have := hdata.2.2
    rw [w2] at this
    obtain ⟨n, l, h1, h2, h3⟩ := List.forall₂_cons_left_iff.mp this
    rw [List.forall₂_nil_left_iff.mp h2] at h3
    exact ⟨n, h3, h1⟩
  have hnor : pr.normals = (Ds.take i).flatMap TreeData.normals
      ++ n :: (Ds.drop (i + 1)).flatMap TreeData.normals := by
    rw [hnorm]
    conv_lhs => rw [hDs]
    rw [List.flatMap_append, List.flatMap_cons, hn]
    rfl
  have hAl : A.length = ((Ds.take i).flatMap TreeData.normals).length := by
    rw [pos_normals_length (List.forall₂_take i hD)]
    rw [hA, List.length_flatten]
    congr 1
    apply List.ext_getElem
    · simp; omega
    · intro j h1 h2
      simp [normalised]
  have hzero : ∀ (ns : List (Vec d)) (ws : List ℝ), (∀ w ∈ ws, w = 0) →
      (List.zipWith (fun (n : Vec d) w => w • n) ns ws).sum = 0 := by
    intro ns
    induction ns with
    | nil => intro ws _; simp
    | cons m ns ih =>
      intro ws hws
      cases ws with
      | nil => simp
      | cons w ws =>
        rw [List.zipWith_cons_cons, List.sum_cons, hws w List.mem_cons_self, zero_smul, zero_add]
        exact ih ws (fun y hy => hws y (List.mem_cons_of_mem _ hy))
  constructor
  · rw [List.max?_eq_some_iff]
    refine ⟨by rw [hclu]; simp, fun w hw => (hin w hw).2⟩
  · rw [hclu, hnor, List.zipWith_append hAl.symm, List.sum_append, List.zipWith_cons_cons,
      List.sum_cons, hzero _ _ z1, hzero _ _ z2, one_smul, zero_add, add_zero]
    exact hbn

end Verif
