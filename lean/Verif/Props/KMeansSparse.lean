import Verif.Props.KMeansHierarchy

/-!
# C82, C83: Removal of sparse clusters, and the weights outside of all clusters
-/

open scoped RealInnerProductSpace

namespace Verif.KMeans

variable {d : ℕ}

/-! ### C82 -/

/-- Every data point carries the label of a closest centre. -/
def LabelsClosest (data : List (Vec d × ℕ)) (centers : List (Vec d)) : Prop :=
  ∀ e ∈ data, ∃ h : e.2 < centers.length, ∀ c ∈ centers, ‖centers[e.2] - e.1‖ ≤ ‖c - e.1‖

/-- Cluster `k` has fewer points than the threshold. -/
def IsSparse (data : List (Vec d × ℕ)) (centers : List (Vec d)) (factor : ℝ) (k : ℕ) : Prop :=
  ((data.countP (fun e => e.2 = k) : ℕ) : ℝ) < factor * data.length / centers.length

lemma closest_spec {centers : List (Vec d)} (h : centers ≠ []) (p : Vec d) :
    ∃ hl : closest centers p < centers.length, ∀ c ∈ centers,
      ‖centers[closest centers p] - p‖ ≤ ‖c - p‖ := by
  classical
  unfold closest
  cases hm : (centers.map (fun c => ‖c - p‖)).min? with
  | none =>
    rw [List.min?_eq_none_iff, List.map_eq_nil_iff] at hm
    exact absurd hm h
  | some m =>
    have h1 := List.min?_eq_some_iff.mp hm
    obtain ⟨c, hc, hcm⟩ := List.mem_map.mp h1.1
    simp only
    have hlt : centers.findIdx (fun c => decide (‖c - p‖ = m)) < centers.length := by
      rw [List.findIdx_lt_length]
      exact ⟨c, hc, by simpa using hcm⟩
    have h2 := List.findIdx_getElem (w := hlt)
    rw [decide_eq_true_eq] at h2
    refine ⟨by convert hlt, ?_⟩
    intro c' hc'
    have h3 := h1.2 _ (List.mem_map_of_mem (f := fun c => ‖c - p‖) hc')
    rw [← h2] at h3
    exact h3

lemma sparseStep_keep {m : ℝ} {s : Sparse d} {ii : ℕ} (h0 : s.delta = 0)
    (h : ¬ ((s.data.countP (fun e => e.2 = ii) : ℕ) : ℝ) < m) : sparseStep m s ii = s := by
  unfold sparseStep
  rw [if_neg h, if_neg (by rw [h0]; simp)]

lemma foldl_keep {m : ℝ} {s : Sparse d} (h0 : s.delta = 0) : ∀ (l : List ℕ),
    (∀ k ∈ l, ¬ ((s.data.countP (fun e => e.2 = k) : ℕ) : ℝ) < m) →
    l.foldl (sparseStep m) s = s
  | [], _ => rfl
  | k :: l, h => by
    rw [List.foldl_cons, sparseStep_keep h0 (h k List.mem_cons_self)]
    exact foldl_keep h0 l (fun j hj => h j (List.mem_cons_of_mem _ hj))

/-- **C82** The data points themselves do not change, and the remaining centres are original
centres in their original order. -/
theorem C82_data (data : List (Vec d × ℕ)) (centers : List (Vec d)) (factor : ℝ) :
    (removeSparse data centers factor).data.map Prod.fst = data.map Prod.fst
      ∧ (removeSparse data centers factor).centers.Sublist centers
      ∧ (removeSparse data centers factor).centers.length
        + (removeSparse data centers factor).delta ≥ centers.length := by
  unfold removeSparse
  generalize factor * (data.length : ℝ) / (centers.length : ℝ) = m
  have key : ∀ (l : List ℕ) (s : Sparse d), s.data.map Prod.fst = data.map Prod.fst →
      s.centers.Sublist centers → s.centers.length + s.delta ≥ centers.length →
      (l.foldl (sparseStep m) s).data.map Prod.fst = data.map Prod.fst
        ∧ (l.foldl (sparseStep m) s).centers.Sublist centers
        ∧ (l.foldl (sparseStep m) s).centers.length + (l.foldl (sparseStep m) s).delta
          ≥ centers.length := by
    intro l
    induction l with
    | nil => intro s h1 h2 h3; exact ⟨h1, h2, h3⟩
    | cons k l ih =>
      intro s h1 h2 h3
      rw [List.foldl_cons]
      apply ih
      · unfold sparseStep
        split
        · rw [← h1, List.map_map]
          apply List.map_congr_left
          intro e _
          simp only [Function.comp]
          split <;> rfl
        · split
          · rw [← h1, List.map_map]
            apply List.map_congr_left
            intro e _
            simp only [Function.comp]
            split <;> rfl
          · exact h1
      · unfold sparseStep
        split
        · exact (List.eraseIdx_sublist _ _).trans h2
        · split
          · exact h2
          · exact h2
      · unfold sparseStep
        split
        · simp only
          have := List.length_eraseIdx (l := s.centers) (i := k - s.delta)
          split at this <;> omega
        · split
          · exact h3
          · exact h3
  exact key _ _ rfl (List.Sublist.refl _) (by simp)

/-- **C82** If no cluster is sparse nothing changes. -/
theorem C82_none (data : List (Vec d × ℕ)) (centers : List (Vec d)) (factor : ℝ)
    (h : ∀ k < centers.length, ¬ IsSparse data centers factor k) :
    removeSparse data centers factor = ⟨data, centers, 0⟩ := by
  unfold removeSparse
  exact foldl_keep rfl _ (fun k hk => h k (List.mem_range.mp hk))

/-- **C82 (part)** If only the last cluster is sparse, its points get the label of the closest
remaining centre and the labels of the other points stay right.  Missing: this fails if another
cluster is sparse, see `C82_wrong_label` and `C82_missing_label`. -/
theorem C82_last_partial (data : List (Vec d × ℕ)) (centers : List (Vec d)) (factor : ℝ) (k : ℕ)
    (hk : centers.length = k + 2) (hl : LabelsClosest data centers)
    (h : ∀ j < k + 1, ¬ IsSparse data centers factor j) :
    LabelsClosest (removeSparse data centers factor).data
      (removeSparse data centers factor).centers := by
  by_cases hs : IsSparse data centers factor (k + 1)
  · have heq : removeSparse data centers factor
        = sparseStep (factor * data.length / centers.length) ⟨data, centers, 0⟩ (k + 1) := by
      unfold removeSparse
      rw [hk, List.range_succ, List.foldl_append, ← hk]
      rw [foldl_keep rfl _ (fun j hj => h j (List.mem_range.mp hj))]
      rfl
    rw [heq]
    unfold sparseStep
    have hs' := hs
    unfold IsSparse at hs'
    simp only [if_pos hs', Nat.sub_zero]
    have hlen : (centers.eraseIdx (k + 1)).length = k + 1 := by
      rw [List.length_eraseIdx_of_lt (by omega)]; omega
    have hne : centers.eraseIdx (k + 1) ≠ [] := by
      intro h0; rw [h0] at hlen; simp at hlen
    intro e he
    obtain ⟨e0, he0, rfl⟩ := List.mem_map.mp he
    by_cases hlab : e0.2 = k + 1
    · simp only [if_pos hlab]
      exact closest_spec hne e0.1
    · simp only [if_neg hlab]
      obtain ⟨h1, h2⟩ := hl e0 he0
      refine ⟨by omega, ?_⟩
      intro c hc
      rw [List.getElem_eraseIdx_of_lt (h' := by omega)]
      exact h2 c (List.mem_of_mem_eraseIdx hc)
  · rw [C82_none data centers factor (by
      intro j hj
      by_cases hj2 : j = k + 1
      · rw [hj2]; exact hs
      · exact h j (by omega))]
    exact hl

/-- One-dimensional points. -/
noncomputable def pt (a : ℝ) : Vec 1 := EuclideanSpace.single 0 a

lemma pt_norm (a b : ℝ) : ‖pt a - pt b‖ = |a - b| := norm_line a b

lemma closest_pair (a b : Vec d) (p : Vec d) :
    (‖a - p‖ ≤ ‖b - p‖ → closest [a, b] p = 0) ∧ (‖b - p‖ < ‖a - p‖ → closest [a, b] p = 1) := by
  constructor
  · intro h
    unfold closest
    simp [List.min?, h, List.findIdx_cons]
  · intro h
    unfold closest
    simp [List.min?, min_eq_right h.le, List.findIdx_cons, h.ne']

lemma closest_single (a p : Vec d) : closest [a] p = 0 := by
  unfold closest
  simp [List.min?, List.findIdx_cons]

/-- **C82 (violated)** A point of a removed cluster can end up with a wrong label: it is given the
label of the closest remaining cluster, and the later passes of the loop shift this label again. -/
theorem C82_wrong_label :
    LabelsClosest (List.replicate 10 (pt 0, 1) ++ List.replicate 10 (pt 3, 2) ++ [(pt 2, 0)])
      [pt 2, pt 0, pt 3]
    ∧ (removeSparse (List.replicate 10 (pt 0, 1) ++ List.replicate 10 (pt 3, 2) ++ [(pt 2, 0)])
        [pt 2, pt 0, pt 3]).centers = [pt 0, pt 3]
    ∧ (pt 2, 0) ∈ (removeSparse
        (List.replicate 10 (pt 0, 1) ++ List.replicate 10 (pt 3, 2) ++ [(pt 2, 0)])
        [pt 2, pt 0, pt 3]).data
    ∧ ‖pt 3 - pt 2‖ < ‖pt 0 - pt 2‖ := by
  have hlast : ‖pt 3 - pt 2‖ < ‖pt 0 - pt 2‖ := by rw [pt_norm, pt_norm]; norm_num
  have hc : closest [pt 0, pt 3] (pt 2) = 1 := (closest_pair _ _ _).2 hlast
  have heq : removeSparse
      (List.replicate 10 (pt 0, 1) ++ List.replicate 10 (pt 3, 2) ++ [(pt 2, 0)])
      [pt 2, pt 0, pt 3]
      = ⟨List.replicate 10 (pt 0, 0) ++ List.replicate 10 (pt 3, 1) ++ [(pt 2, 0)],
          [pt 0, pt 3], 1⟩ := by
    unfold removeSparse
    have hm : (0.2 : ℝ) * ((List.replicate 10 (pt 0, 1) ++ List.replicate 10 (pt 3, 2)
        ++ [(pt 2, 0)]).length : ℕ) / ([pt 2, pt 0, pt 3].length : ℕ) = 1.4 := by
      simp; norm_num
    rw [hm]
    have hr : List.range [pt 2, pt 0, pt 3].length = [0, 1, 2] := rfl
    rw [hr]
    simp only [List.foldl_cons, List.foldl_nil]
    have s0 : sparseStep 1.4 ⟨List.replicate 10 (pt 0, 1) ++ List.replicate 10 (pt 3, 2)
        ++ [(pt 2, 0)], [pt 2, pt 0, pt 3], 0⟩ 0
        = ⟨List.replicate 10 (pt 0, 1) ++ List.replicate 10 (pt 3, 2) ++ [(pt 2, 1)],
          [pt 0, pt 3], 1⟩ := by
      unfold sparseStep
      rw [if_pos (by simp; norm_num)]
      simp [hc]
    have s1 : sparseStep 1.4 ⟨List.replicate 10 (pt 0, 1) ++ List.replicate 10 (pt 3, 2)
        ++ [(pt 2, 1)], [pt 0, pt 3], 1⟩ 1
        = ⟨List.replicate 10 (pt 0, 0) ++ List.replicate 10 (pt 3, 2) ++ [(pt 2, 0)],
          [pt 0, pt 3], 1⟩ := by
      unfold sparseStep
      rw [if_neg (by simp; norm_num),
        if_pos (by simp)]
      simp
    have s2 : sparseStep 1.4 ⟨List.replicate 10 (pt 0, 0) ++ List.replicate 10 (pt 3, 2)
        ++ [(pt 2, 0)], [pt 0, pt 3], 1⟩ 2
        = ⟨List.replicate 10 (pt 0, 0) ++ List.replicate 10 (pt 3, 1) ++ [(pt 2, 0)],
          [pt 0, pt 3], 1⟩ := by
      unfold sparseStep
      rw [if_neg (by simp; norm_num),
        if_pos (by simp)]
      simp
    rw [s0, s1, s2]
  rw [heq]
  refine ⟨?_, rfl, by simp, hlast⟩
  intro e he
  simp only [List.mem_append, List.mem_replicate, List.mem_singleton] at he
  rcases he with (⟨-, rfl⟩ | ⟨-, rfl⟩) | rfl <;> refine ⟨by simp, ?_⟩ <;> intro c hc <;>
    simp only [List.getElem_cons_zero, List.getElem_cons_succ, sub_self, norm_zero] <;> positivity

/-- **C82 (violated)** A point can end up with a label that does not exist: cluster 1 is removed and
its point labelled with its neighbour (now number 1), then this neighbour is removed as well. -/
theorem C82_missing_label :
    LabelsClosest (List.replicate 20 (pt 0, 0) ++ [(pt 5, 1), (pt 6, 2)]) [pt 0, pt 5, pt 6]
    ∧ (removeSparse (List.replicate 20 (pt 0, 0) ++ [(pt 5, 1), (pt 6, 2)])
        [pt 0, pt 5, pt 6]).centers = [pt 0]
    ∧ (pt 5, 1) ∈ (removeSparse (List.replicate 20 (pt 0, 0) ++ [(pt 5, 1), (pt 6, 2)])
        [pt 0, pt 5, pt 6]).data := by
  have hc : closest [pt 0, pt 6] (pt 5) = 1 :=
    (closest_pair _ _ _).2 (by rw [pt_norm, pt_norm]; norm_num)
  have heq : removeSparse (List.replicate 20 (pt 0, 0) ++ [(pt 5, 1), (pt 6, 2)])
      [pt 0, pt 5, pt 6]
      = ⟨List.replicate 20 (pt 0, 0) ++ [(pt 5, 1), (pt 6, 0)], [pt 0], 2⟩ := by
    unfold removeSparse
    have hm : (0.2 : ℝ) * ((List.replicate 20 (pt 0, 0) ++ [(pt 5, 1), (pt 6, 2)]).length : ℕ)
        / ([pt 0, pt 5, pt 6].length : ℕ) = 22 / 15 := by
      simp; norm_num
    rw [hm]
    have hr : List.range [pt 0, pt 5, pt 6].length = [0, 1, 2] := rfl
    rw [hr]
    simp only [List.foldl_cons, List.foldl_nil]
    have s0 : sparseStep (22 / 15) ⟨List.replicate 20 (pt 0, 0) ++ [(pt 5, 1), (pt 6, 2)],
        [pt 0, pt 5, pt 6], 0⟩ 0
        = ⟨List.replicate 20 (pt 0, 0) ++ [(pt 5, 1), (pt 6, 2)], [pt 0, pt 5, pt 6], 0⟩ := by
      apply sparseStep_keep rfl
      simp
      norm_num
    have s1 : sparseStep (22 / 15) ⟨List.replicate 20 (pt 0, 0) ++ [(pt 5, 1), (pt 6, 2)],
        [pt 0, pt 5, pt 6], 0⟩ 1
        = ⟨List.replicate 20 (pt 0, 0) ++ [(pt 5, 1), (pt 6, 2)], [pt 0, pt 6], 1⟩ := by
      unfold sparseStep
      rw [if_pos (by simp; norm_num)]
      simp [hc]
    have s2 : sparseStep (22 / 15) ⟨List.replicate 20 (pt 0, 0) ++ [(pt 5, 1), (pt 6, 2)],
        [pt 0, pt 6], 1⟩ 2
        = ⟨List.replicate 20 (pt 0, 0) ++ [(pt 5, 1), (pt 6, 0)], [pt 0], 2⟩ := by
      unfold sparseStep
      rw [if_pos (by simp; norm_num)]
      simp [closest_single]
    rw [s0, s1, s2]
  rw [heq]
  refine ⟨?_, rfl, by simp⟩
  intro e he
  simp only [List.mem_append, List.mem_replicate, List.mem_cons, List.not_mem_nil, or_false] at he
  rcases he with ⟨-, rfl⟩ | rfl | rfl <;> refine ⟨by simp, ?_⟩ <;> intro c hc <;>
    simp only [List.getElem_cons_zero, List.getElem_cons_succ, sub_self, norm_zero] <;> positivity

/-! ### C83 -/

/-- **C83** Far away from all clusters the velocity outside is used as it is. -/
theorem C83_far (centers : List (Vec d)) (r : ℝ) (v p : Vec d) (cutOff : ℝ)
    (h : ∀ c ∈ centers, r * cutOff ≤ ‖p - c‖) : outsideWeights centers r v p cutOff = none := by
  unfold outsideWeights
  rw [if_pos]
  rw [List.filter_eq_nil_iff]
  intro c hc
  simp [h c hc]

/-- **C83** The weights of the clusters are never negative. -/
theorem C83_clusters_nonneg (ws : List ℝ) (h : ∀ w ∈ ws, 0 ≤ w) :
    ∀ w ∈ (allWeights ws).dropLast, 0 ≤ w := by
  have hs : 0 ≤ ws.sum := List.sum_nonneg h
  unfold allWeights
  intro w hw
  split at hw
  · rw [List.dropLast_concat, List.mem_map] at hw
    obtain ⟨a, ha, rfl⟩ := hw
    exact div_nonneg (h a ha) hs
  · rw [List.map_append, List.map_singleton, List.dropLast_concat, List.mem_map] at hw
    obtain ⟨a, ha, rfl⟩ := hw
    exact div_nonneg (h a ha) (by norm_num)

/-- **C83 (violated)** Outside of all balls, near at least one of them, the weights given to the
directional sum are not a convex combination: the weight of the velocity outside is never positive,
and the weights sum to one only if the weights of the clusters sum to more than ten, otherwise to
one tenth. -/
theorem C83_weights (centers : List (Vec d)) (r : ℝ) (v p : Vec d) (cutOff : ℝ)
    (hout : ∀ c ∈ centers, r < ‖p - c‖) (ws : List ℝ)
    (h : outsideWeights centers r v p cutOff = some ws) :
    ws.getLast?.all (fun w => decide (w ≤ 0)) = true
    ∧ (ws.sum = 1 ∨ ws.sum = 1 / 10) := by
  classical
  unfold outsideWeights at h
  simp only at h
  split at h
  · cases h
  split at h
  · cases h
  split at h
  · cases h
  rename_i hrel hw hnz
  simp only [Option.some.injEq] at h
  set pow : Vec d → ℝ := fun c => outsideDot p v c - Real.cos Real.pi with hpow
  set weight : Vec d → ℝ := fun c => (r * cutOff - r) / (‖p - c‖ - r) with hweight
  set nz := (centers.filter (fun c => decide (‖p - c‖ < r * cutOff))).filter
    (fun c => decide (pow c > 0)) with hnzdef
  set l := nz.map (fun c => weight c ^ (pow c / (1 - Real.cos Real.pi))) with hl
  have hws : ws = allWeights l := by
    rw [← h]
  have hge : ∀ x ∈ l, 1 ≤ x := by
    intro x hx
    obtain ⟨c, hc, rfl⟩ := List.mem_map.mp hx
    rw [hnzdef, List.mem_filter, List.mem_filter, decide_eq_true_eq, decide_eq_true_eq] at hc
    obtain ⟨⟨hc1, hc2⟩, hc3⟩ := hc
    have h1 : 1 ≤ weight c := by
      rw [hweight]
      simp only
      rw [one_le_div (by linarith [hout c hc1])]
      linarith
    apply Real.one_le_rpow h1
    apply div_nonneg hc3.le
    rw [Real.cos_pi]; norm_num
  have hne : l ≠ [] := by
    rw [hl]
    intro h0
    rw [List.map_eq_nil_iff] at h0
    apply hnz
    convert h0 using 1
  have hsum : 1 ≤ l.sum := by
    obtain ⟨a, t, hat⟩ := List.exists_cons_of_ne_nil hne
    have h1 := hge a (by rw [hat]; simp)
    have h2 : 0 ≤ t.sum := List.sum_nonneg (fun x hx => by
      have := hge x (by rw [hat]; exact List.mem_cons_of_mem _ hx)
      linarith)
    rw [hat, List.sum_cons]
    linarith
  rw [hws]
  unfold allWeights
  by_cases hten : l.sum > 10
  · rw [if_pos hten]
    refine ⟨by simp, Or.inl ?_⟩
    rw [List.sum_append, List.sum_singleton, add_zero]
    have : (l.map (fun w => w / l.sum)).sum = l.sum / l.sum := by
      simp only [div_eq_mul_inv]
      rw [List.sum_map_mul_right, List.map_id']
    rw [this, div_self (by linarith)]
  · rw [if_neg hten]
    refine ⟨?_, Or.inr ?_⟩
    · simp only [List.map_append, List.map_singleton, List.getLast?_append,
        List.getLast?_singleton]
      simp
      linarith
    · have : ((l ++ [1 - l.sum]).map (fun w => w / 10)).sum = (l ++ [1 - l.sum]).sum / 10 := by
        simp only [div_eq_mul_inv]
        rw [List.sum_map_mul_right, List.map_id']
      rw [this, List.sum_append, List.sum_singleton]
      ring

/-- The hypotheses can be met: one cluster of radius one at the origin, the position at distance
two, the velocity towards the cluster. -/
example : ∃ ws, outsideWeights [pt 0] 1 (pt (-1)) (pt 2) 4 = some ws := by
  have h1 : ‖pt 2 - pt 0‖ = 2 := by rw [pt_norm]; norm_num
  have h2 : outsideDot (pt 2) (pt (-1)) (pt 0) = 1 := by
    have h3 : ‖pt 0 - pt 2‖ = 2 := by rw [pt_norm]; norm_num
    have h4 : ‖pt (-1)‖ = 1 := by
      have := pt_norm (-1) 0
      have h0 : pt 0 = 0 := by ext i; fin_cases i; simp [pt]
      rw [h0, sub_zero] at this
      rw [this]; norm_num
    unfold outsideDot
    rw [h3, h4]
    simp [pt, PiLp.inner_apply]
  unfold outsideWeights
  have hf : [pt 0].filter (fun c => decide (‖pt 2 - c‖ < 1 * 4)) = [pt 0] := by
    simp [h1]; norm_num
  have hg : [pt 0].filter (fun c => decide (outsideDot (pt 2) (pt (-1)) c - Real.cos Real.pi > 0))
      = [pt 0] := by
    simp [h2]
  simp only [hf, hg]
  rw [if_neg (by simp), if_neg, if_neg (by simp)]
  · exact ⟨_, rfl⟩
  · intro h3
    have := h3 (pt 0) (by simp)
    rw [h1] at this
    norm_num at this

end Verif.KMeans
