import Verif.Props.Avoider
import Verif.Lemmas.TreeTwoLevel
import Verif.Spec.AvoiderMean
import Verif.Lemmas.Sphere

/-! # Helper lemmas: the tangent tree for obstacles with one component -/

open scoped RealInnerProductSpace

namespace Verif
open Spec

variable {d k : ℕ} [Fact (2 ≤ d)]
set_option linter.unusedSectionVars false

/-- Nodes, edges and directions of `t` are those of `t'`. -/
structure Grows (t t' : Tree NodeId d) : Prop where
  nodes : ∀ m ∈ t.nodes, m ∈ t'.nodes
  edges : ∀ p c, IsParent t p c → IsParent t' p c
  dirs : ∀ m ∈ t.nodes, dirOf t' m = dirOf t m

lemma Grows.trans {a b c : Tree NodeId d} (h : Grows a b) (h' : Grows b c) : Grows a c :=
  ⟨fun m hm => h'.nodes m (h.nodes m hm), fun p q hp => h'.edges p q (h.edges p q hp),
    fun m hm => (h'.dirs m (h.nodes m hm)).trans (h.dirs m hm)⟩

lemma Grows.refl (a : Tree NodeId d) : Grows a a := ⟨fun _ h => h, fun _ _ h => h, fun _ _ => rfl⟩

lemma addNode_full {t t' : Tree NodeId d} {r n p : NodeId} {v : Vec d} (h : RootedTree t r)
    (hok : orRaise (t.addNode n v (some p)) = .ok t') :
    RootedTree t' r ∧ Grows t t' ∧ n ∉ t.nodes ∧ IsParent t' p n ∧ dirOf t' n = unit v
      ∧ ∀ a c, IsParent t' a c → IsParent t a c ∨ (a = p ∧ c = n) := by
  have hg := addNode_grows h hok
  obtain ⟨h1, h2⟩ := orRaise_ok.mp hok
  subst h1
  have he := C17_add_node_effect t r h n p v h2
  refine ⟨hg.1, ⟨?_, ?_, ?_⟩, hg.2.2.1, ?_, ?_, ?_⟩
  · intro m hm; rw [he.1]; exact List.mem_append_left _ hm
  · intro a c hac
    unfold IsParent at hac ⊢
    rw [he.2.1]; exact List.mem_append_left _ hac
  · intro m hm
    unfold dirOf
    rw [(he.2.2.2.1 m (by rintro rfl; exact hg.2.2.1 hm)).1]
  · unfold IsParent; rw [he.2.1]; simp
  · unfold dirOf; rw [he.2.2.1]; rfl
  · intro a c hac
    unfold IsParent at hac ⊢
    rw [he.2.1, List.mem_append, List.mem_singleton] at hac
    rcases hac with hac | hac
    · exact Or.inl hac
    · cases hac; exact Or.inr ⟨rfl, rfl⟩

lemma weights_single {g : ℝ} : ∃ y, computeWeightsFromDistances [g] 1 false = [y] ∧ y ≠ 0 := by
  classical
  have hl := (weightsFromDistances_nonneg [g] 1).1
  obtain ⟨y, hy⟩ := List.length_eq_one_iff.mp hl
  refine ⟨y, hy, ?_⟩
  by_cases hg : g ≤ 1
  · have := (C30_critical [g] 1 false ⟨g, by simp, hg⟩).1
    rw [hy] at this
    simp at this
    rw [this]; norm_num
  · unfold computeWeightsFromDistances at hy
    simp only [Bool.false_eq_true, false_and, if_false] at hy
    rw [if_neg (by simp [indicator, hg])] at hy
    simp at hy
    rw [← hy]
    push Not at hg
    exact inv_ne_zero (by linarith)

/-- The weight of an obstacle with one component is its rotation weight. -/
lemma gammaAndWeights_single {ext : Ext d k} {power : ℝ} {x v : Vec d} {ot : ObstacleTree d}
    {o : Obstacle d} (h0 : ot.rootIdx = 0) (hc : ot.components = [o]) {gammas gw : List ℝ}
    {slow : ℝ × ℝ} (h : computeGammaAndWeights ext power x ot v = .ok (gammas, gw, slow)) :
    ∃ w, getRotationWeight ext.angleOf (o.normal x) (o.reference x) v (o.gamma x) (power := power)
        = .ok w ∧ gw = [w] ∧ (gammas = [o.gamma x] ∨ gammas = [1])
      ∧ slow = (w, ⟪(1 / ‖v‖) • v, o.reference x⟫) := by
  classical
  unfold computeGammaAndWeights at h
  simp only at h
  obtain ⟨root, hroot, h⟩ := bind_ok.mp h
  obtain ⟨g, hg, h⟩ := bind_ok.mp h
  obtain ⟨w, hw, h⟩ := bind_ok.mp h
  have hr : root = o := by
    have : ot.getComponent ot.rootIdx = .ok o := by
      unfold ObstacleTree.getComponent; rw [h0, hc]; rfl
    rw [this] at hroot; cases hroot; rfl
  rw [hr] at hw h
  have hgo : g = o.gamma x := by
    unfold ObstacleTree.gamma at hg
    rw [hc] at hg
    simp at hg
    exact hg.symm
  rw [hgo] at hw
  refine ⟨w, hw, ?_⟩
  obtain ⟨y, hy, hy0⟩ := weights_single (g := o.gamma x)
  rw [hc] at h
  simp only [List.map_cons, List.map_nil, hy] at h
  split_ifs at h with h1 h2
  · cases h
    rcases h2 with h2 | h2
    · simp at h2; exact absurd h2 hy0
    · rw [h2]; exact ⟨rfl, Or.inr rfl, rfl⟩
  · cases h
    simp only [List.sum_cons, List.sum_nil, add_zero]
    rw [div_self hy0, one_mul]
    exact ⟨rfl, Or.inl trivial, trivial⟩

lemma branch_single {x : Vec d} {ot : ObstacleTree d} {o : Obstacle d} (h0 : ot.rootIdx = 0)
    (hc : ot.components = [o]) {l : List (BranchEntry d)} (h : computeBranch x 0 ot = .ok l) :
    ∃ n, l = [⟨0, n, o.reference x⟩] ∧ SurfaceNormal o x n := by
  classical
  unfold computeBranch at h
  obtain ⟨o', ho', h⟩ := bind_ok.mp h
  have hr : o' = o := by
    have : ot.getComponent 0 = .ok o := by
      unfold ObstacleTree.getComponent; rw [hc]; rfl
    rw [this] at ho'; cases ho'; rfl
  subst hr
  simp only at h
  split at h
  · cases h
  · rename_i s hs
    obtain ⟨n, hn, h⟩ := bind_ok.mp h
    obtain ⟨rest, hrest, h⟩ := bind_ok.mp h
    cases h
    have : rest = [] := by
      unfold branchLoop at hrest
      rw [if_pos h0.symm] at hrest
      cases hrest; rfl
    subst this
    refine ⟨n, rfl, s, ?_, ?_, ?_⟩
    · rw [← neg_one_smul ℝ]; exact hs
    · intro hcub
      unfold getNormalAtDistance at hn
      rw [if_neg (by rw [hcub]; simp)] at hn
      cases hn; rfl
    · intro hcub
      unfold getNormalAtDistance at hn
      rw [if_pos hcub] at hn
      simp only at hn
      split_ifs at hn with hz
      all_goals
        cases hn
        exact ⟨_, rfl⟩

lemma setRoot_no_edge {r : NodeId} {v : Vec d} {t : Tree NodeId d}
    (h : (Tree.empty : Tree NodeId d).setRoot r v = .ok t) (m c : NodeId) : ¬ IsParent t m c := by
  classical
  unfold Tree.setRoot at h
  split at h
  · cases h
  · cases h
    simp [IsParent, Tree.setRootOrientation, Tree.setAttr, Tree.touch, Tree.empty]

/-- The data of one obstacle with a single component: weight and tangent. -/
def SingleData (ext : Ext d k) (a : Avoider d) (x v : Vec d) (p : ObstacleTree d × ℕ)
    (D : ℝ × Vec d) : Prop :=
  ∃ o, p.1.components = [o]
    ∧ getRotationWeight ext.angleOf (o.normal x) (o.reference x) v (o.gamma x) (power := a.power) = .ok D.1
    ∧ (0 < D.1 → TangentOf ext a.convergenceRadius o x v D.2) ∧ (D.1 ≤ 0 → D.2 = unit v)

/-- The nodes of the contributing obstacles. -/
noncomputable def leafIds (l : List ((ObstacleTree d × ℕ) × (ℝ × Vec d))) : List NodeId :=
  open Classical in (l.filter (fun e => 0 < e.2.1)).map (fun e => NodeId.key e.1.2 0 0)

/-- The leaves of the tangent tree hang below nodes with the direction of the root. -/
def Hangs (t : Tree NodeId d) (v : Vec d) (e : (ObstacleTree d × ℕ) × (ℝ × Vec d)) : Prop :=
  0 < e.2.1 → IsParent t (.key e.1.2 (-1) (-1)) (.key e.1.2 0 0)
    ∧ IsParent t baseId (.key e.1.2 (-1) (-1)) ∧ dirOf t (.key e.1.2 (-1) (-1)) = unit v
    ∧ dirOf t (.key e.1.2 0 0) = e.2.2

lemma Hangs.grows {t t' : Tree NodeId d} {v : Vec d} {e : (ObstacleTree d × ℕ) × (ℝ × Vec d)}
    (hr : RootedTree t baseId) (h : Hangs t v e) (hg : Grows t t') : Hangs t' v e := by
  intro hw
  obtain ⟨h1, h2, h3, h4⟩ := h hw
  exact ⟨hg.edges _ _ h1, hg.edges _ _ h2, (hg.dirs _ (hr.edge_snd _ _ h2)).trans h3,
    (hg.dirs _ (hr.edge_snd _ _ h1)).trans h4⟩

lemma single_step {ext : Ext d k} {a : Avoider d} {x v : Vec d} {p : ObstacleTree d × ℕ}
    {o : Obstacle d} {st st' : TangentState d} (hpow : 0 ≤ a.power) (h0 : p.1.rootIdx = 0)
    (hc : p.1.components = [o]) (hout : 1 ≤ o.gamma x) (hrad : a.convergenceRadius ≤ Real.pi * 0.5)
    (hr : RootedTree st.tree baseId) (h : tangentStep ext a x v st p = .ok st') :
    ∃ D, SingleData ext a x v p D ∧ 0 ≤ D.1 ∧ RootedTree st'.tree baseId ∧ Grows st.tree st'.tree
      ∧ st'.nodes = st.nodes ++ leafIds [(p, D)] ∧ st'.influence = st.influence ++ [D.1]
      ∧ st'.componentWeights = st.componentWeights ++ [open Classical in if 0 < D.1 then [1] else []]
      ∧ Hangs st'.tree v (p, D)
      ∧ dirOf st'.tree (.key p.2 (-1) (-1)) = unit v
      ∧ ∀ m c, IsParent st'.tree m c → IsParent st.tree m c
        ∨ (m = baseId ∧ c = .key p.2 (-1) (-1))
        ∨ (0 < D.1 ∧ m = .key p.2 (-1) (-1) ∧ c = .key p.2 0 0) := by
  classical
  unfold tangentStep at h
  simp only at h
  obtain ⟨⟨gammas, gw, slow⟩, h1, h⟩ := bind_ok.mp h
  obtain ⟨occ, h2, h⟩ := bind_ok.mp h
  obtain ⟨⟨t', nodes', normals'⟩, h3, h⟩ := bind_ok.mp h
  simp only at h
  cases h
  obtain ⟨w, hw, rfl, hgam, _⟩ := gammaAndWeights_single h0 hc h1
  have hocc : occ = [1] := by
    unfold computeParentOcclusionWeight at h2
    rw [hc] at h2
    simp [h0] at h2
    cases h2
    rfl
  subst hocc
  simp only [List.zipWith_cons_cons, List.zipWith_nil_right, mul_one, List.sum_cons, List.sum_nil,
    add_zero] at h3 ⊢
  obtain ⟨w', hw', hw0, _⟩ := C32_range_partial ext.angleOf (o.normal x) (o.reference x) v (o.gamma x)
    (Real.pi * 0.5) a.power (Real.pi * 0.5) hpow
  rw [hw] at hw'
  cases hw'
  unfold populateTangentTree at h3
  obtain ⟨t1, h4, h3⟩ := bind_ok.mp h3
  obtain ⟨radii, h5, h3⟩ := bind_ok.mp h3
  have hradii : radii = [a.convergenceRadius] := by
    have hge : ∃ g, 1 ≤ g ∧ gammas = [g] := by
      rcases hgam with e | e
      · exact ⟨_, hout, e⟩
      · exact ⟨1, le_refl _, e⟩
    obtain ⟨g, hg1, rfl⟩ := hge
    unfold computeConvergenceRadiuses at h5
    rw [hc] at h5
    simp only [List.zip_cons_cons, List.zip_nil_right] at h5
    split at h5
    · cases h5; rfl
    · simp only [List.mapM_cons, List.mapM_nil, if_neg (not_lt.mpr hg1)] at h5
      cases h5; rfl
  subst hradii
  have g1 := addNode_full hr h4
  rw [hc] at h3
  simp only [List.length_cons, List.length_nil, zero_add, List.range_one, List.zip_cons_cons,
    List.zip_nil_right, List.foldlM_cons, List.foldlM_nil] at h3
  obtain ⟨⟨t2, ns2, nm2⟩, h6, h3⟩ := bind_ok.mp h3
  cases h3
  unfold populateStep at h6
  simp only at h6
  by_cases hwp : w ≤ 0
  · rw [if_pos hwp] at h6
    cases h6
    have hnp : ¬ 0 < w := not_lt.mpr hwp
    refine ⟨(w, unit v), ⟨o, hc, hw, fun hh => absurd hh hnp, fun _ => rfl⟩, hw0, g1.1, g1.2.1, ?_, rfl, ?_, ?_, ?_, ?_⟩
    · simp [leafIds, hnp]
    · simp [hnp, normalised]
    · intro hh; exact absurd hh hnp
    · exact g1.2.2.2.2.1
    · intro m c hmc
      rcases g1.2.2.2.2.2 m c hmc with hmc | hmc
      · exact Or.inl hmc
      · exact Or.inr (Or.inl hmc)
  · rw [if_neg hwp] at h6
    obtain ⟨⟨t3, n3⟩, h7, h6⟩ := bind_ok.mp h6
    cases h6
    push Not at hwp
    unfold tangentBranch at h7
    obtain ⟨entries, he, h7⟩ := bind_ok.mp h7
    obtain ⟨n, rfl, hn⟩ := branch_single h0 hc he
    simp only [List.zip_nil_right, List.reverse_nil, List.foldlM_nil] at h7
    obtain ⟨⟨ta, va, na⟩, ha, h7⟩ := bind_ok.mp h7
    cases ha
    simp only at h7
    obtain ⟨o', ho', h7⟩ := bind_ok.mp h7
    have hr' : o' = o := by
      have : p.1.getComponent 0 = .ok o := by
        unfold ObstacleTree.getComponent; rw [hc]; rfl
      rw [this] at ho'; cases ho'; rfl
    subst hr'
    have fin : ∀ τ, orRaise (t1.addNode (.key p.2 0 0) τ (some (.key p.2 (-1) (-1)))) = .ok t3 →
        ((o'.tailEffect = true ∨ ⟪n, v⟫ < 0) →
          projectedTangent ext v n (o'.reference x) a.convergenceRadius = .ok τ) →
        (¬ (o'.tailEffect = true ∨ ⟪n, v⟫ < 0) → τ = v) →
        ∃ D, SingleData ext a x v p D ∧ 0 ≤ D.1 ∧ RootedTree t3 baseId ∧ Grows st.tree t3
          ∧ st.nodes ++ [.key p.2 ((0 : ℕ) : ℤ) ((0 : ℕ) : ℤ)] = st.nodes ++ leafIds [(p, D)]
          ∧ st.influence ++ [w] = st.influence ++ [D.1]
          ∧ st.componentWeights ++ [normalised (List.filter (fun w => w > 0) [w])]
            = st.componentWeights ++ [if 0 < D.1 then [1] else []] ∧ Hangs t3 v (p, D)
          ∧ dirOf t3 (.key p.2 (-1) (-1)) = unit v
          ∧ ∀ m c, IsParent t3 m c → IsParent st.tree m c
            ∨ (m = baseId ∧ c = .key p.2 (-1) (-1))
            ∨ (0 < D.1 ∧ m = .key p.2 (-1) (-1) ∧ c = .key p.2 0 0) := by
      intro τ hadd hτ1 hτ2
      have g2 := addNode_full g1.1 hadd
      have hmd : dirOf t3 (.key p.2 (-1) (-1)) = unit v := by
        rw [g2.2.1.dirs _ (g1.1.edge_snd _ _ g1.2.2.2.1), g1.2.2.2.2.1]
      refine ⟨(w, unit τ), ⟨o', hc, hw, fun _ => ⟨n, τ, hn, hτ1, hτ2, rfl⟩,
        fun hh => absurd hh (not_le.mpr hwp)⟩, hw0, g2.1, g1.2.1.trans g2.2.1, ?_, rfl, ?_, ?_, hmd, ?_⟩
      · simp [leafIds, hwp]
      · simp [hwp, normalised, ne_of_gt hwp]
      · intro _
        exact ⟨g2.2.2.2.1, g2.2.1.edges _ _ g1.2.2.2.1, hmd, g2.2.2.2.2.1⟩
      · intro m c hmc
        rcases g2.2.2.2.2.2 m c hmc with hmc | hmc
        · rcases g1.2.2.2.2.2 m c hmc with hmc | hmc
          · exact Or.inl hmc
          · exact Or.inr (Or.inl hmc)
        · exact Or.inr (Or.inr ⟨hwp, hmc⟩)
    by_cases htail : o'.tailEffect = true ∨ ⟪n, v⟫ < 0
    · rw [if_pos htail] at h7
      obtain ⟨⟨t4, par⟩, h8, h7⟩ := bind_ok.mp h7
      unfold intermediateNode at h8
      rw [if_neg (not_lt.mpr hrad)] at h8
      cases h8
      simp only at h7
      obtain ⟨τ, hτ, h7⟩ := bind_ok.mp h7
      obtain ⟨t5, h9, h7⟩ := bind_ok.mp h7
      cases h7
      exact fin τ h9 (fun _ => hτ) (fun hh => absurd htail hh)
    · rw [if_neg htail] at h7
      obtain ⟨t5, h9, h7⟩ := bind_ok.mp h7
      cases h7
      exact fin v h9 (fun hh => absurd hh htail) (fun _ => rfl)

/-- The outcome of the preparation for obstacles with one component. -/
lemma single_prepare {ext : Ext d k} {a : Avoider d} {x v : Vec d} {pr : Prepared d}
    (hpow : 0 ≤ a.power)
    (hs : ∀ t ∈ a.trees, t.rootIdx = 0 ∧ ∃ o, t.components = [o] ∧ 1 ≤ o.gamma x)
    (hrad : a.convergenceRadius ≤ Real.pi * 0.5) (h : prepareAvoidance ext a x v = .ok pr) :
    ∃ Ds : List (ℝ × Vec d), List.Forall₂ (SingleData ext a x v) a.trees.zipIdx Ds
      ∧ (∀ D ∈ Ds, 0 ≤ D.1) ∧ RootedTree pr.tree baseId ∧ dirOf pr.tree baseId = unit v ∧ v ≠ 0
      ∧ pr.nodes = leafIds (a.trees.zipIdx.zip Ds) ++ [baseId]
      ∧ pr.cluster = clusterWeights (Ds.map Prod.fst)
          (Ds.map (fun D => open Classical in if 0 < D.1 then [1] else []))
      ∧ (∀ e ∈ a.trees.zipIdx.zip Ds, Hangs pr.tree v e)
      ∧ ∀ m c, IsParent pr.tree m c → dirOf pr.tree m = unit v ∧ (dirOf pr.tree c = unit v
        ∨ ∃ t o, t ∈ a.trees ∧ t.components = [o]
          ∧ TangentOf ext a.convergenceRadius o x v (dirOf pr.tree c)) := by
  classical
  unfold prepareAvoidance at h
  obtain ⟨t0, h0, h⟩ := bind_ok.mp h
  obtain ⟨st, h1, h⟩ := bind_ok.mp h
  cases h
  have hd := dirOf_setRoot h0
  have := foldlM_prefix (f := tangentStep ext a x v) (l := a.trees.zipIdx)
    (P := fun pre st => ∃ Ds : List (ℝ × Vec d), List.Forall₂ (SingleData ext a x v) pre Ds
      ∧ (∀ D ∈ Ds, 0 ≤ D.1) ∧ RootedTree st.tree baseId ∧ dirOf st.tree baseId = unit v
      ∧ st.nodes = leafIds (pre.zip Ds) ∧ st.influence = Ds.map Prod.fst
      ∧ st.componentWeights = Ds.map (fun D => if 0 < D.1 then [1] else [])
      ∧ (∀ e ∈ pre.zip Ds, Hangs st.tree v e)
      ∧ ∀ m c, IsParent st.tree m c → dirOf st.tree m = unit v ∧ (dirOf st.tree c = unit v
        ∨ ∃ t o, t ∈ a.trees ∧ t.components = [o]
          ∧ TangentOf ext a.convergenceRadius o x v (dirOf st.tree c))) ?_ ?_ h1
  · obtain ⟨Ds, a1, a2, a3, a4, a5, a6, a7, a8, a9⟩ := this
    refine ⟨Ds, a1, a2, a3, a4, hd.2.1, ?_, ?_, a8, a9⟩
    · simp only [a5]
    · simp only [a6, a7]
  · rintro pre p st st' hmem ⟨Ds, a1, a2, a3, a4, a5, a6, a7, a8, a9⟩ hstep
    have hot : p.1 ∈ a.trees := zipIdx_mem hmem
    obtain ⟨b0, o, bo, bout⟩ := hs _ hot
    obtain ⟨D, c1, c2, c3, c4, c5, c6, c7, c8, c9, c10⟩ := single_step hpow b0 bo bout hrad a3 hstep
    have hz : (pre ++ [p]).zip (Ds ++ [D]) = pre.zip Ds ++ [(p, D)] := by
      rw [List.zip_append a1.length_eq]; rfl
    refine ⟨Ds ++ [D], forall₂_snoc a1 c1, ?_, c3, ?_, ?_, ?_, ?_, ?_, ?_⟩
    · intro D' hD'
      rw [List.mem_append, List.mem_singleton] at hD'
      rcases hD' with hD' | rfl
      · exact a2 _ hD'
      · exact c2
    · rw [c4.dirs _ a3.root_mem, a4]
    · rw [c5, a5, hz]; simp [leafIds]
    · rw [c6, a6]; simp
    · rw [c7, a7]; simp
    · intro e he
      rw [hz, List.mem_append, List.mem_singleton] at he
      rcases he with he | rfl
      · exact (a8 e he).grows a3 c4
      · exact c8
    · intro m c hmc
      rcases c10 m c hmc with hmc | ⟨rfl, rfl⟩ | ⟨hw, rfl, rfl⟩
      · rw [c4.dirs _ (a3.edge_fst _ _ hmc), c4.dirs _ (a3.edge_snd _ _ hmc)]
        exact a9 m c hmc
      · exact ⟨by rw [c4.dirs _ a3.root_mem, a4], Or.inl c9⟩
      · refine ⟨c9, Or.inr ⟨p.1, o, hot, bo, ?_⟩⟩
        obtain ⟨o', ho', _, ht, _⟩ := c1
        rw [bo] at ho'
        cases ho'
        rw [(c8 hw).2.2.2]
        exact ht hw
  · refine ⟨[], .nil, by simp, C17_set_root _ _ _ h0, hd.2.2, ?_, rfl, rfl, by simp, ?_⟩
    · simp [leafIds]
    · intro m c hmc
      exact absurd hmc (setRoot_no_edge h0 m c)

/-! ### The sum over the leaves -/

/-- The parent of a leaf. -/
def midOf : NodeId → NodeId
  | .key j _ _ => .key j (-1) (-1)
  | n => n

lemma star_sum (f : NodeId → Vec d) (g : Vec d → Vec d) (u : Vec d) (hg : g u = 0) :
    ∀ (L : List ((ObstacleTree d × ℕ) × (ℝ × Vec d))) (lim : List ℝ), L.length = lim.length →
    (∀ e ∈ L, 0 < e.2.1 → f (.key e.1.2 0 0) = g e.2.2) →
    (∀ e ∈ L, e.2.1 ≤ 0 → e.2.2 = u) →
    (leafIds L).length = ((List.zipWith (fun wo wc => wc.map (fun w => wo * w)) lim
      (L.map (fun e => open Classical in if 0 < e.2.1 then [(1 : ℝ)] else []))).flatten).length
    ∧ (((leafIds L).zip ((List.zipWith (fun wo wc => wc.map (fun w => wo * w)) lim
      (L.map (fun e => open Classical in if 0 < e.2.1 then [(1 : ℝ)] else []))).flatten)).map
        (fun p => p.2 • f p.1)).sum
      = (List.zipWith (fun w (e : (ObstacleTree d × ℕ) × (ℝ × Vec d)) => w • g e.2.2) lim L).sum
    ∧ ∀ w ∈ (List.zipWith (fun wo wc => wc.map (fun w => wo * w)) lim
      (L.map (fun e => open Classical in if 0 < e.2.1 then [(1 : ℝ)] else []))).flatten, w ∈ lim
  | [], lim, h, _, _ => by
    have : lim = [] := by simpa using h.symm
    subst this
    simp [leafIds]
  | e :: L, [], h, _, _ => by simp at h
  | e :: L, l :: lim, h, h1, h2 => by
    classical
    obtain ⟨i1, i2, i3⟩ := star_sum f g u hg L lim (by simpa using h)
      (fun e he => h1 e (List.mem_cons_of_mem _ he)) (fun e he => h2 e (List.mem_cons_of_mem _ he))
    by_cases hw : 0 < e.2.1
    · have e1 : leafIds (e :: L) = .key e.1.2 0 0 :: leafIds L := by
        unfold leafIds; rw [List.filter_cons_of_pos (by simpa using hw)]; rfl
      simp only [List.map_cons, if_pos hw, List.zipWith_cons_cons, List.map_nil, List.flatten_cons,
        mul_one, List.cons_append, List.nil_append, e1, List.length_cons, List.zip_cons_cons,
        List.sum_cons]
      refine ⟨by rw [i1], ?_, ?_⟩
      · rw [i2, h1 e (by simp) hw]
      · intro w hwm
        rw [List.mem_cons] at hwm ⊢
        rcases hwm with rfl | hwm
        · exact Or.inl rfl
        · exact Or.inr (i3 w hwm)
    · have e1 : leafIds (e :: L) = leafIds L := by
        unfold leafIds; rw [List.filter_cons_of_neg (by simpa using hw)]
      simp only [List.map_cons, if_neg hw, List.zipWith_cons_cons, List.map_nil, List.flatten_cons,
        List.nil_append, e1, List.sum_cons]
      refine ⟨i1, ?_, fun w hwm => List.mem_cons_of_mem _ (i3 w hwm)⟩
      rw [i2, h2 e (by simp) (not_lt.mp hw), hg, smul_zero, zero_add]

end Verif

namespace Verif
open Spec

/-- A sum with a single weight. -/
lemma zipWith_one_hot {V : Type*} [AddCommGroup V] [Module ℝ V] (f : V → V) :
    ∀ (ws : List ℝ) (τs : List V) (i : ℕ) (τ : V), ws[i]? = some 1 → τs[i]? = some τ →
    (∀ j w, j ≠ i → ws[j]? = some w → w = 0) →
    (List.zipWith (fun w τ => w • f τ) ws τs).sum = f τ
  | [], _, i, _, h, _, _ => by simp at h
  | _ :: _, [], i, _, _, h, _ => by simp at h
  | w :: ws, t :: ts, 0, τ, h1, h2, h3 => by
    simp only [List.getElem?_cons_zero, Option.some.injEq] at h1 h2
    subst h1 h2
    rw [List.zipWith_cons_cons, List.sum_cons, one_smul]
    have hz : ∀ y ∈ List.zipWith (fun w τ => w • f τ) ws ts, y = 0 := by
      intro y hy
      obtain ⟨j, hj, rfl⟩ := List.getElem_of_mem hy
      rw [List.length_zipWith] at hj
      rw [List.getElem_zipWith]
      have := h3 (j + 1) ws[j] (by omega) (by simp)
      rw [this, zero_smul]
    rw [List.sum_eq_zero hz, add_zero]
  | w :: ws, t :: ts, i + 1, τ, h1, h2, h3 => by
    simp only [List.getElem?_cons_succ] at h1 h2
    rw [List.zipWith_cons_cons, List.sum_cons,
      zipWith_one_hot f ws ts i τ h1 h2 (fun j w hj hw => h3 (j + 1) w (by omega) (by simpa using hw)),
      h3 0 w (by omega) rfl, zero_smul, zero_add]

end Verif

namespace Verif
open Spec

open Classical in
lemma filter_length_match {α β : Type*} (P : α → Prop) (Q : β → Prop) :
    ∀ (l : List α) (m : List β), l.length = m.length →
    (∀ (i : ℕ) x y, l[i]? = some x → m[i]? = some y → (P x ↔ Q y)) →
    (l.filter (fun x => P x)).length = (m.filter (fun y => Q y)).length
  | [], [], _, _ => rfl
  | [], _ :: _, h, _ => by simp at h
  | _ :: _, [], h, _ => by simp at h
  | x :: l, y :: m, h, hi => by
    have ih := filter_length_match P Q l m (by simpa using h)
      (fun i x y h1 h2 => hi (i + 1) x y (by simpa using h1) (by simpa using h2))
    have h0 := hi 0 x y rfl rfl
    by_cases hx : P x
    · rw [List.filter_cons_of_pos (by simpa using hx), List.filter_cons_of_pos (by simpa using h0.mp hx),
        List.length_cons, List.length_cons, ih]
    · rw [List.filter_cons_of_neg (by simpa using hx),
        List.filter_cons_of_neg (by simpa using fun hy => hx (h0.mpr hy)), ih]

/-- The norm of a weighted sum of bounded vectors. -/
lemma zipWith_norm_le {V W : Type*} [NormedAddCommGroup V] [NormedSpace ℝ V] (f : W → V) (α : ℝ)
    (hα : 0 ≤ α) :
    ∀ (ws : List ℝ) (τs : List W), (∀ w ∈ ws, 0 ≤ w) → (∀ τ ∈ τs, ‖f τ‖ ≤ α) →
    ‖(List.zipWith (fun w τ => w • f τ) ws τs).sum‖ ≤ α * ws.sum
  | [], _, _, _ => by simp
  | w :: ws, [], h, _ => by
    simp only [List.zipWith_nil_right, List.sum_nil, norm_zero]
    exact mul_nonneg hα (List.sum_nonneg h)
  | w :: ws, t :: ts, h1, h2 => by
    rw [List.zipWith_cons_cons, List.sum_cons, List.sum_cons, mul_add]
    refine (norm_add_le _ _).trans (add_le_add ?_ (zipWith_norm_le f α hα ws ts
      (fun w hw => h1 w (List.mem_cons_of_mem _ hw)) (fun t ht => h2 t (List.mem_cons_of_mem _ ht))))
    rw [norm_smul, Real.norm_eq_abs, abs_of_nonneg (h1 w (by simp)), mul_comm]
    exact mul_le_mul_of_nonneg_right (h2 t (by simp)) (h1 w (by simp))

lemma zipWith_inner_zero {V W : Type*} [NormedAddCommGroup V] [InnerProductSpace ℝ V] (f : W → V)
    (u : V) (hf : ∀ τ, inner ℝ u (f τ) = 0) :
    ∀ (ws : List ℝ) (τs : List W),
    inner ℝ u (List.zipWith (fun w τ => w • f τ) ws τs).sum = 0
  | [], _ => by simp
  | w :: ws, [] => by simp
  | w :: ws, t :: ts => by
    rw [List.zipWith_cons_cons, List.sum_cons, inner_add_right, real_inner_smul_right, hf, mul_zero,
      zipWith_inner_zero f u hf ws ts, add_zero]

end Verif

namespace Verif
open Spec

/-- The data of an obstacle with one component in contact. -/
lemma contact_data {d k : ℕ} [Fact (2 ≤ d)] {ext : Ext d k} {a : Avoider d} {x v : Vec d}
    {p : ObstacleTree d × ℕ} {o : Obstacle d} {D : TreeData d} (hpow : 0 ≤ a.power)
    (h0 : p.1.rootIdx = 0) (hc : p.1.components = [o]) (hg : o.gamma x ≤ 1)
    (h : DataOf ext a x v p D) :
    D.weights = [1] ∧ D.slow = (1, ⟪(1 / ‖v‖) • v, o.reference x⟫)
      ∧ ∃ n, D.normals = [n] ∧ SurfaceNormal o x n := by
  classical
  obtain ⟨⟨gammas, gw, occ, h1, h2, h3⟩, _, h4⟩ := h
  obtain ⟨w, hw, rfl, _, hslow⟩ := gammaAndWeights_single h0 hc h1
  have hocc : occ = [1] := by
    unfold computeParentOcclusionWeight at h2
    rw [hc] at h2
    simp [h0] at h2
    cases h2
    rfl
  subst hocc
  obtain ⟨w', e1, _, _, e2, _⟩ := C32_range_partial ext.angleOf (o.normal x) (o.reference x) v
    (o.gamma x) (Real.pi * 0.5) a.power (Real.pi * 0.5) hpow
  rw [hw] at e1
  cases e1
  have hw1 := e2 hg
  subst hw1
  have hD : D.weights = [1] := by rw [h3]; simp
  refine ⟨hD, hslow, ?_⟩
  have hpos : posIdx [(1 : ℝ)] = [0] := by
    unfold posIdx
    simp
  rw [hD, hpos] at h4
  generalize hnm : D.normals = nm at h4
  cases h4 with
  | cons hb hnil =>
    cases hnil
    obtain ⟨e0, rest, hbr, rfl⟩ := hb
    obtain ⟨n, hl, hn⟩ := branch_single h0 hc hbr
    cases hl
    exact ⟨_, rfl, hn⟩

end Verif
