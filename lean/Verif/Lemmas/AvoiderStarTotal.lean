import Verif.Lemmas.AvoiderStar
import Verif.Lemmas.RotationalAvoider

/-! # Helper lemmas: the tangent tree is built for obstacles with one component -/

open scoped RealInnerProductSpace

namespace Verif
open Spec

variable {d k : ℕ} [Fact (2 ≤ d)]
set_option linter.unusedSectionVars false

/-- The nodes belong to the obstacles before `i`. -/
structure IdsBefore (i : ℕ) (t : Tree NodeId d) : Prop where
  rooted : RootedTree t baseId
  ids : ∀ m ∈ t.nodes, m = baseId ∨ ∃ (j : ℕ) (c l : ℤ), j < i ∧ m = .key j c l

lemma IdsBefore.fresh {i : ℕ} {t : Tree NodeId d} (h : IdsBefore i t) (c l : ℤ) :
    NodeId.key i c l ∉ t.nodes := by
  intro hm
  rcases h.ids _ hm with h | ⟨j, c, l, hj, h⟩
  · injection h with h; omega
  · injection h with h; omega

lemma total_step {ext : Ext d k} {a : Avoider d} (hp : 0 ≤ a.power)
    (hrad : a.convergenceRadius ≤ Real.pi * 0.5) {x v : Vec d} (hv : v ≠ 0) {t : ObstacleTree d}
    {o : Obstacle d} (h0 : t.rootIdx = 0) (hc : t.components = [o]) (hout : 1 ≤ o.gamma x)
    (hT : HasTangent ext a.convergenceRadius o x v) {st : TangentState d} {i : ℕ}
    (hst : IdsBefore i st.tree) :
    ∃ st', tangentStep ext a x v st (t, i) = .ok st' ∧ IdsBefore (i + 1) st'.tree := by
  classical
  have hcomp : t.getComponent 0 = .ok o := by unfold ObstacleTree.getComponent; rw [hc]; rfl
  have hgw : ∃ g y slow, 1 ≤ g ∧ computeGammaAndWeights ext a.power x t v = .ok ([g], [y], slow) := by
    obtain ⟨w, hw, _⟩ := C32_range_partial ext.angleOf (o.normal x)
      (o.reference x) v (o.gamma x) (Real.pi * 0.5) a.power (Real.pi * 0.5) hp
    have hgam : t.gamma x = .ok (o.gamma x) := by
      unfold ObstacleTree.gamma; rw [hc]; simp
    obtain ⟨y, hy, hy0⟩ := weights_single (g := o.gamma x)
    have hv' : ¬ ‖v‖ = 0 := norm_ne_zero_iff.mpr hv
    by_cases hcond : [y].sum = 0 ∨ w = 0
    · refine ⟨1, 0, (w, ⟪(1 / ‖v‖) • v, o.reference x⟫), le_refl _, ?_⟩
      unfold computeGammaAndWeights
      simp only
      rw [h0]
      refine bind_ok.mpr ⟨o, hcomp, bind_ok.mpr ⟨_, hgam, bind_ok.mpr ⟨w, hw, ?_⟩⟩⟩
      rw [if_neg hv', hc]
      simp only [List.map_cons, List.map_nil, hy]
      rw [if_pos hcond]
    · refine ⟨o.gamma x, y / [y].sum * w, (w, ⟪(1 / ‖v‖) • v, o.reference x⟫), hout, ?_⟩
      unfold computeGammaAndWeights
      simp only
      rw [h0]
      refine bind_ok.mpr ⟨o, hcomp, bind_ok.mpr ⟨_, hgam, bind_ok.mpr ⟨w, hw, ?_⟩⟩⟩
      rw [if_neg hv', hc]
      simp only [List.map_cons, List.map_nil, hy]
      rw [if_neg hcond]
  obtain ⟨g, y, slow, hg1, h1⟩ := hgw
  have hocc : computeParentOcclusionWeight x t = .ok [1] := by
    unfold computeParentOcclusionWeight
    rw [hc]
    simp [h0]
  -- first node
  obtain ⟨t1, b1, b2, b3, b4, b5, b6, _⟩ := addNode_step_ne st.tree baseId hst.rooted
    (.key i (-1) (-1)) baseId v hv (hst.fresh _ _) hst.rooted.root_mem 0 hst.rooted.root_level
    (by norm_num)
  have hU1 : IdsBefore (i + 1) t1 := by
    refine ⟨b2, ?_⟩
    intro m hm
    rw [b3, List.mem_append, List.mem_singleton] at hm
    rcases hm with hm | rfl
    · rcases hst.ids m hm with h | ⟨j, c, l, hj, h⟩
      · exact Or.inl h
      · exact Or.inr ⟨j, c, l, by omega, h⟩
    · exact Or.inr ⟨i, _, _, by omega, rfl⟩
  -- radii
  have hrr : computeConvergenceRadiuses a.convergenceRadius a.gammaMaximumRepulsion x
      (t.components.zip [g]) = .ok [a.convergenceRadius] := by
    unfold computeConvergenceRadiuses
    rw [hc]
    simp only [List.zip_cons_cons, List.zip_nil_right]
    split
    · rfl
    · simp only [List.mapM_cons, List.mapM_nil, if_neg (not_lt.mpr hg1)]
      rfl
  -- the branch
  obtain ⟨hcub, s, hs, hproj⟩ := hT
  have hbranch : computeBranch x 0 t = .ok [⟨0, o.normal s, o.reference x⟩] := by
    unfold computeBranch
    refine bind_ok.mpr ⟨o, hcomp, ?_⟩
    simp only
    have hs' : o.intersection (if o.gamma x > 1 then o.referencePoint else x)
        ((-1 : ℝ) • o.reference x) = some s := by rw [neg_one_smul]; exact hs
    rw [hs']
    simp only
    refine bind_ok.mpr ⟨o.normal s, ?_, bind_ok.mpr ⟨[], ?_, rfl⟩⟩
    · unfold getNormalAtDistance
      rw [if_neg (by rw [hcub]; simp)]
    · unfold branchLoop
      rw [if_pos h0.symm]
  have hbr : ∃ t2 n, tangentBranch ext x 0 v t i a.convergenceRadius t1 = .ok (t2, n)
      ∧ IdsBefore (i + 1) t2 := by
    have hk : NodeId.key (i : ℤ) ((0 : ℕ) : ℤ) ((0 : ℕ) : ℤ) ∉ t1.nodes := by
      rw [b3, List.mem_append, List.mem_singleton, not_or]
      exact ⟨hst.fresh _ _, by intro h; injection h with h1 h2; omega⟩
    have leaf : ∀ τ : Vec d, τ ≠ 0 → ∃ t2, orRaise (t1.addNode (.key i ((0 : ℕ) : ℤ) ((0 : ℕ) : ℤ)) τ
        (some (.key i (-1) (-1)))) = .ok t2 ∧ IdsBefore (i + 1) t2 := by
      intro τ hτ
      obtain ⟨t2, c1, c2, c3, _⟩ := addNode_step_ne t1 baseId b2
        (.key i ((0 : ℕ) : ℤ) ((0 : ℕ) : ℤ)) (.key i (-1) (-1)) τ hτ hk (by rw [b3]; simp) _ b4
        (by norm_num)
      refine ⟨t2, c1, c2, ?_⟩
      intro m hm
      rw [c3, List.mem_append, List.mem_singleton] at hm
      rcases hm with hm | rfl
      · exact hU1.ids m hm
      · exact Or.inr ⟨i, _, _, by omega, rfl⟩
    by_cases htail : o.tailEffect = true ∨ ⟪o.normal s, v⟫ < 0
    · obtain ⟨τ, hτ, hτ0⟩ := hproj htail
      obtain ⟨t2, c1, c2⟩ := leaf τ hτ0
      refine ⟨t2, o.normal s, ?_, c2⟩
      unfold tangentBranch
      rw [hbranch]
      refine bind_ok.mpr ⟨_, rfl, ?_⟩
      simp only
      refine bind_ok.mpr ⟨(t1, v, NodeId.key i (-1) (-1)), rfl, ?_⟩
      simp only
      refine bind_ok.mpr ⟨o, hcomp, ?_⟩
      rw [if_pos htail]
      refine bind_ok.mpr ⟨(t1, NodeId.key i (-1) (-1)), ?_, ?_⟩
      · unfold intermediateNode
        rw [if_neg (not_lt.mpr hrad)]
      · exact bind_ok.mpr ⟨τ, hτ, bind_ok.mpr ⟨t2, c1, rfl⟩⟩
    · obtain ⟨t2, c1, c2⟩ := leaf v hv
      refine ⟨t2, o.normal s, ?_, c2⟩
      unfold tangentBranch
      rw [hbranch]
      refine bind_ok.mpr ⟨_, rfl, ?_⟩
      simp only
      refine bind_ok.mpr ⟨(t1, v, NodeId.key i (-1) (-1)), rfl, ?_⟩
      simp only
      refine bind_ok.mpr ⟨o, hcomp, ?_⟩
      rw [if_neg htail]
      exact bind_ok.mpr ⟨t2, c1, rfl⟩
  obtain ⟨t2, n, hb, hU⟩ := hbr
  have hpop : ∃ t3 ns nm, populateTangentTree ext a x v t i [y * 1] [g]
      (st.tree, st.nodes, st.normals) = .ok (t3, ns, nm) ∧ IdsBefore (i + 1) t3 := by
    have hlist : (List.range t.components.length).zip ([y * 1].zip [a.convergenceRadius])
        = [(0, y * 1, a.convergenceRadius)] := by rw [hc]; rfl
    unfold populateTangentTree
    by_cases hy : y * 1 ≤ 0
    · refine ⟨t1, st.nodes, st.normals, bind_ok.mpr ⟨t1, b1, bind_ok.mpr ⟨_, hrr, ?_⟩⟩, hU1⟩
      rw [hlist, List.foldlM_cons]
      refine bind_ok.mpr ⟨_, if_pos hy, rfl⟩
    · refine ⟨t2, st.nodes ++ [.key i ((0 : ℕ) : ℤ) ((0 : ℕ) : ℤ)], st.normals ++ [n],
        bind_ok.mpr ⟨t1, b1, bind_ok.mpr ⟨_, hrr, ?_⟩⟩, hU⟩
      rw [hlist, List.foldlM_cons]
      refine bind_ok.mpr ⟨_, ?_, rfl⟩
      unfold populateStep
      simp only
      rw [if_neg hy]
      exact bind_ok.mpr ⟨_, hb, rfl⟩
  obtain ⟨t3, ns, nm, hpop, hU3⟩ := hpop
  refine ⟨⟨t3, ns, nm, st.slow ++ [slow], st.influence ++ [[y * 1].sum],
    st.componentWeights ++ [normalised ([y * 1].filter (fun w => w > 0))]⟩, ?_, hU3⟩
  unfold tangentStep
  exact bind_ok.mpr ⟨_, h1, bind_ok.mpr ⟨_, hocc, bind_ok.mpr ⟨_, hpop, rfl⟩⟩⟩

/-- The preparation succeeds. -/
lemma total_prepare {ext : Ext d k} {a : Avoider d} (hp : 0 ≤ a.power)
    (hrad : a.convergenceRadius ≤ Real.pi * 0.5) {x v : Vec d} (hv : ‖v‖ = 1)
    (hs : SingleOutside x a.trees)
    (hT : ∀ t ∈ a.trees, ∀ o, t.components = [o] → HasTangent ext a.convergenceRadius o x v) :
    ∃ pr, prepareAvoidance ext a x v = .ok pr := by
  have hv0 : v ≠ 0 := by rintro rfl; simp at hv
  obtain ⟨t0, a1, a2, a3, a4, a5⟩ := from_sequence_root baseId v hv
  have h0 : IdsBefore 0 t0 := by
    refine ⟨a2, ?_⟩
    intro m hm
    rw [a3, List.mem_singleton] at hm
    exact Or.inl hm
  have hf : ∀ (ts : List (ObstacleTree d)) (i : ℕ) (st : TangentState d), (∀ t ∈ ts, t ∈ a.trees) →
      IdsBefore i st.tree → ∃ st', (ts.zipIdx i).foldlM (tangentStep ext a x v) st = .ok st' := by
    intro ts
    induction ts with
    | nil => intro i st _ h; exact ⟨st, rfl⟩
    | cons t ts ih =>
      intro i st hts h
      have ht := hts t List.mem_cons_self
      obtain ⟨b0, o, bo, bout⟩ := hs t ht
      obtain ⟨st1, h1, h2⟩ := total_step (ext := ext) hp hrad hv0 b0 bo bout (hT t ht o bo) h
      obtain ⟨st2, h3⟩ := ih (i + 1) st1 (fun t ht => hts t (List.mem_cons_of_mem _ ht)) h2
      refine ⟨st2, ?_⟩
      rw [List.zipIdx_cons, List.foldlM_cons]
      exact bind_ok.mpr ⟨st1, h1, h3⟩
  obtain ⟨st, h1⟩ := hf a.trees 0 ⟨t0, [], [], [], [], []⟩ (fun _ h => h) h0
  exact ⟨⟨st.tree, st.nodes ++ [.key (-1) (-1) (-1)], st.normals, st.slow,
    clusterWeights st.influence st.componentWeights⟩,
    bind_ok.mpr ⟨t0, a1, bind_ok.mpr ⟨st, h1, rfl⟩⟩⟩

end Verif
