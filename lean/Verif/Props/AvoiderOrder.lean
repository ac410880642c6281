import Verif.Props.Convergence
import Verif.Lemmas.Renumber
import Verif.Lemmas.AvoiderMean
import Verif.Lemmas.AvoiderBranches
import Verif.Spec.Order

/-!
# C138: the order of the obstacles does not matter
-/

open scoped RealInnerProductSpace

namespace Verif
open Spec

variable {d k : ℕ} [Fact (2 ≤ d)]
set_option linter.unusedSectionVars false

section Order
variable {ext : Ext d k} {a : Avoider d} {x : Vec d} {l : List (ObstacleTree d)}

/-- The same avoider with another list of obstacles. -/
def withTrees (a : Avoider d) (l : List (ObstacleTree d)) : Avoider d := { a with trees := l }

lemma withTrees_parentChain (ot : ObstacleTree d) (i c : ℕ) : ∀ (fuel pp iObs : ℕ) (pred : NodeId) (point : Vec d)
    (t : Tree NodeId d), parentChain (withTrees a l) ot i c fuel pp iObs pred point t
      = parentChain a ot i c fuel pp iObs pred point t := by
  intro fuel
  induction fuel with
  | zero => intros; rfl
  | succ fuel ih =>
    intro pp iObs pred point t
    unfold parentChain
    simp only [ih]
    rfl

lemma withTrees_convTree (s : RotSeq (Vec d)) : convTree ext (withTrees a l) x s = convTree ext a x s := by
  have h : ∀ i ot tw conv, convComponent (withTrees a l) x i ot tw conv = convComponent a x i ot tw conv := by
    intro i ot tw conv
    funext st c
    unfold convComponent
    simp only [withTrees_parentChain]
    rfl
  funext st p
  unfold convTree
  simp only [h]
  rfl

lemma withTrees_tangentStep (v : Vec d) : tangentStep ext (withTrees a l) x v = tangentStep ext a x v := rfl

lemma zipIdx_idx_nodup {α : Type*} (l : List α) : (l.zipIdx.map (fun p => (p.2 : ℤ))).Nodup := by
  have : l.zipIdx.map (fun p => (p.2 : ℤ)) = (List.range l.length).map (fun n : ℕ => (n : ℤ)) := by
    rw [List.range_eq_range', ← List.zipIdx_map_snd, List.map_map]; rfl
  rw [this]
  exact List.nodup_range.map Nat.cast_injective

lemma neg_not_idx {α : Type*} (l : List α) {z : ℤ} (hz : z < 0) : z ∉ l.zipIdx.map (fun p => (p.2 : ℤ)) := by
  intro h
  obtain ⟨p, _, hp⟩ := List.mem_map.mp h
  omega

/-- The sequence of convergence directions in another order of the obstacles. -/
lemma convergence_order {τ : Equiv.Perm ℕ} (hp : l.zipIdx.Perm (a.trees.zipIdx.map (fun p => (p.1, τ p.2))))
    (has : ArgsortSpec ext.argsort)
    {s conv : RotSeq (Vec d)} (hgood : ∀ st, ConvergenceTree ext a x s st → InnerDirections st.tree)
    (h : computeConvergenceSequence ext a x s = .ok conv) :
    computeConvergenceSequence ext (withTrees a l) x s = .ok conv := by
  classical
  unfold computeConvergenceSequence at h
  obtain ⟨t0, h0, h⟩ := bind_ok.mp h
  obtain ⟨st, h1, h⟩ := bind_ok.mp h
  have hst : ConvergenceTree ext a x s st := ⟨t0, h0, h1⟩
  have hg := hgood st hst
  obtain ⟨r0, m0, -⟩ := fromSequence_facts h0
  obtain ⟨inv, -⟩ := convFold r0 h1
  obtain ⟨t1, Ds, e1, rfl⟩ := (convFold_iff _ r0).mp h1
  set f := renameId (onInt τ) with hf
  have hneg : ∀ n, ixOf n < 0 → f n = n := fun n hn => renameFun_fixed (onInt_neg τ hn)
  have hiso : TreeIso f t0 t0 := treeIso_fixed r0 (fun n hn => hneg n (by
    rcases fromSequence_nodes h0 n hn with h | h <;> rw [h] <;> norm_num))
  have hfr : f convBase = convBase := hneg _ (by decide)
  obtain ⟨t1', Ds', c1, c2, c3, c4, c5⟩ := foldRun_perm (f := f) (r := convBase) (ix := ixOf)
    (idx := fun p : ObstacleTree d × ℕ => (p.2 : ℤ)) (run := convRun ext a x s) (φ := fun p => (p.1, τ p.2))
    (ψ := fun D => (D.1.map f, D.2)) (l := a.trees.zipIdx) (l' := l.zipIdx)
    (fun p _ t t1 D ht hok => convRun_runs (σ := onInt τ) (i := p.2) (j := τ p.2) (onInt_nat τ p.2)
      (onInt_neg τ (by norm_num)) ht hok)
    (zipIdx_idx_nodup _) (neg_not_idx _ (by decide)) hp r0 (by rw [hfr]; exact r0) hiso e1
  rw [hfr] at c5
  have hlen : ∀ D ∈ Ds, D.1.length = D.2.length := by
    refine foldRun_all (r := convBase) (Q := fun D : List NodeId × List ℝ => D.1.length = D.2.length)
      a.trees.zipIdx (fun p hp t t2 D ht hok => ?_) r0 e1
    have hok' := convRun_ok.mp hok
    have i0 : ConvInv a x t ⟨t, [], []⟩ := ⟨ht, Grows.refl _, rfl, List.nodup_nil, by simp, by simp⟩
    have := (convTree_inv i0 (by
      have := List.mem_zipIdx' hp
      rw [this.2]; exact List.getElem?_eq_getElem _) hok').1
    exact ⟨this.rooted, this.len⟩
  have hlen' : ∀ D ∈ Ds', D.1.length = D.2.length := by
    intro D hD
    obtain ⟨E, hE, rfl⟩ := List.mem_map.mp (c2.mem_iff.mp hD)
    simp only [List.length_map]
    exact hlen E hE
  have hfm : ∀ Ds : List (List NodeId × List ℝ), (∀ D ∈ Ds, D.1.length = D.2.length) →
      (Ds.flatMap Prod.fst).length = (Ds.flatMap Prod.snd).length := by
    intro Ds h
    rw [List.length_flatMap, List.length_flatMap]
    congr 1
    exact List.map_congr_left h
  simp only [List.nil_append] at inv hg h hst
  obtain ⟨-, hargs, htot⟩ := convergence_args hst
  obtain ⟨n1, n2⟩ := conv_nodes inv m0
  simp only at hargs htot n1 n2
  have hl1 := hargs.len
  have hl2 : (Ds'.flatMap Prod.fst ++ [NodeId.num (-1)]).length
      = (convergenceWeights (Ds'.flatMap Prod.snd)).length := by
    rw [convergenceWeights_eq]
    simp only [List.length_append, List.length_map, List.length_singleton]
    rw [hfm _ hlen']
  have gw := hargs.good c4
  have gr := ne_of_gt (lt_of_lt_of_le one_pos htot)
  have hd := inner_defined c4 hg
  unfold computeConvergenceSequence
  refine bind_ok.mpr ⟨t0, h0, ?_⟩
  rw [withTrees_convTree]
  refine bind_ok.mpr ⟨_, (convFold_iff _ r0).mpr ⟨t1', Ds', c1, rfl⟩, ?_⟩
  simp only [List.nil_append]
  rw [← h]
  have hgiven : ((Ds'.flatMap Prod.fst).zip (Ds'.flatMap Prod.snd)).Perm
      (((Ds.flatMap Prod.fst).zip (Ds.flatMap Prod.snd)).map (Prod.map f id)) := by
    rw [zip_flatMap _ _ _ hlen', zip_flatMap _ _ _ hlen]
    refine (c2.flatMap_right _).trans ?_
    rw [List.flatMap_map, List.map_flatMap]
    apply List.Perm.of_eq
    congr 1
    funext D
    simp only
    rw [List.zip_map_left]
  refine c3.reduce_eq c4 (by rw [hfr]; exact c5) hd (inner_exact c4 hg) has _ _ hl1 n2
    hl2 n1 ?_ gw gr
  exact convergenceGiven_perm (hfm _ hlen) (hfm _ hlen') (hneg _ (by decide)).symm hgiven

/-- Nodes, normals and positive weights of one obstacle match. -/
lemma tangentRun_matching {v : Vec d} (hp : 0 ≤ a.power) {p : ObstacleTree d × ℕ}
    (hg : ∀ o ∈ p.1.components, ∀ y, 0 ≤ o.gamma y) {t t1 : Tree NodeId d} {D : TreeData d} (h : RootedTree t baseId)
    (hok : tangentRun ext a x v p t = .ok (t1, D)) : RootedTree t1 baseId ∧ Matching D := by
  classical
  have h1 : tangentStep ext a x v (stateOf t []) p = .ok (stateOf t1 ([] ++ [D])) :=
    tangentStep_iff.mpr ⟨t1, D, hok, rfl⟩
  obtain ⟨t2, D2, e1, ⟨-, e2, e3⟩, e4, -⟩ := tangentStep_spec hp hg h (by simp) (by simp) h1
  simp only [stateOf, List.nil_append, List.flatMap_cons, List.flatMap_nil, List.append_nil, List.map_cons,
    List.map_nil, TangentState.mk.injEq, List.cons.injEq, and_true] at e1
  obtain ⟨rfl, f1, f2, -, -, f3⟩ := e1
  refine ⟨e4, ?_⟩
  have hl : (D.weights.filter (fun w => w > 0)).length = (D2.weights.filter (fun w => w > 0)).length := by
    have := congrArg List.length f3
    simpa [normalised] using this
  have hi := posIdx_length D2.weights
  refine ⟨?_, ?_⟩
  · rw [f1, e2, List.length_map, hi, ← hl]
  · rw [f2, ← e3.length_eq, hi, ← hl]

/-- The preparation of the avoidance in another order of the obstacles. -/
lemma prepare_order {τ : Equiv.Perm ℕ} (hp : l.zipIdx.Perm (a.trees.zipIdx.map (fun p => (p.1, τ p.2))))
    (has : ArgsortSpec ext.argsort) (hpow : 0 ≤ a.power) (hs : SaneTrees a.trees)
    {v : Vec d} {pr : Prepared d} (h : prepareAvoidance ext a x v = .ok pr) (hg : InnerDirections pr.tree)
    {final : Vec d} (hfin : avoidanceDirection ext pr = .ok final) :
    ∃ pr', prepareAvoidance ext (withTrees a l) x v = .ok pr' ∧ avoidanceDirection ext pr' = .ok final
      ∧ ∀ m rel w, slowDown m rel final pr = .ok w → slowDown m rel final pr' = .ok w := by
  classical
  obtain ⟨gw, gr⟩ := prepared_weights hpow hs h
  obtain ⟨-, -, -, -, -, -, -, -, -, c4, -, g1, -, g2, g3⟩ := prepared_facts hpow hs h
  have hl : pr.nodes.length = (avoidanceWeights pr.cluster).length := by rw [c4]; simp [avoidanceWeights]
  clear c4
  unfold prepareAvoidance at h
  obtain ⟨t0, h0, h⟩ := bind_ok.mp h
  obtain ⟨st, h1, h⟩ := bind_ok.mp h
  cases h
  have r0 : RootedTree t0 baseId := C17_set_root _ _ _ h0
  obtain ⟨t1, Ds, e1, rfl⟩ := (tangentFold_iff (Ds := []) _).mp h1
  rw [List.nil_append] at *
  set f := renameId (onInt τ) with hf
  have hneg : ∀ n, ixOf n < 0 → f n = n := fun n hn => renameFun_fixed (onInt_neg τ hn)
  have hiso : TreeIso f t0 t0 := treeIso_fixed r0 (fun n hn => hneg n (by
    rw [setRoot_nodes h0, List.mem_singleton] at hn
    rw [hn]; decide))
  have hfr : f baseId = baseId := hneg _ (by decide)
  obtain ⟨t1', Ds', c1, c2, c3, c4, c5⟩ := foldRun_perm (f := f) (r := baseId) (ix := ixOf)
    (idx := fun p : ObstacleTree d × ℕ => (p.2 : ℤ)) (run := tangentRun ext a x v) (φ := fun p => (p.1, τ p.2))
    (ψ := TreeData.rename f) (l := a.trees.zipIdx) (l' := l.zipIdx)
    (fun p _ t t1 D ht hok => tangentRun_runs (σ := onInt τ) (i := p.2) (j := τ p.2) (onInt_nat τ p.2)
      (onInt_neg τ (by norm_num)) ht hok)
    (zipIdx_idx_nodup _) (neg_not_idx _ (by decide)) hp r0 (by rw [hfr]; exact r0) hiso e1
  rw [hfr] at c5
  have hm : ∀ D ∈ Ds, Matching D :=
    foldRun_all (r := baseId) a.trees.zipIdx (fun p hp t t2 D ht hok =>
      tangentRun_matching hpow (fun o ho => (hs _ (zipIdx_mem hp) o ho).gamma_nonneg) ht hok) r0 e1
  have hm' := perm_matching c2 hm
  simp only [cluster_eq] at gw gr hl hfin g1 g2 g3 hg ⊢
  have hd := inner_defined c4 hg
  have hl' : ∀ D ∈ Ds', D.nodes.length = (clusterOf (limited (Ds'.map (fun D => D.weights.sum))) D).length :=
    fun D hD => (clusterOf_length _ (hm' D hD)).1
  have hl2 : (Ds'.flatMap TreeData.nodes ++ [baseId]).length
      = (avoidanceWeights (Ds'.flatMap (clusterOf (limited (Ds'.map (fun D => D.weights.sum)))))).length := by
    unfold avoidanceWeights
    rw [List.length_append, List.length_append, List.length_flatMap, List.length_flatMap]
    rw [List.map_congr_left hl']; rfl
  have hred := c3.reduce_eq c4 (by rw [hfr]; exact c5) hd (inner_exact c4 hg) has
    (NodeState.init) (NodeState.init) hl g3 hl2 g2 (perm_avoidanceGiven c2 hm hfr) gw (fun h0 => one_ne_zero (gr.symm.trans h0))
  refine ⟨_, bind_ok.mpr ⟨t0, h0, bind_ok.mpr ⟨_, (tangentFold_iff (Ds := []) _).mpr ⟨t1', Ds', c1, rfl⟩, rfl⟩⟩, ?_, ?_⟩
  · simp only [List.nil_append, cluster_eq]
    rw [← hfin]
    unfold avoidanceDirection Tree.getWeightedMean
    simp only [stateOf]
    simp only [stateOf] at hred
    rw [hred]
  · intro m rel w hw
    simp only [List.nil_append, cluster_eq]
    unfold slowDown at hw ⊢
    simp only at hw ⊢
    rw [perm_max? (perm_cluster c2)]
    split at hw
    · exact hw
    · rename_i mx hmx
      obtain ⟨p1, q1, hw⟩ := bind_ok.mp hw
      obtain ⟨p2, q2, hw⟩ := bind_ok.mp hw
      have hslow : (Ds'.map TreeData.slow).Perm (Ds.map TreeData.slow) := by
        have := c2.map TreeData.slow
        rw [List.map_map] at this
        exact this
      refine bind_ok.mpr ⟨p1, ?_, bind_ok.mpr ⟨p2, slowfactor_perm hslow q2, hw⟩⟩
      rw [← q1]
      congr 1
      exact perm_averaged c2 hm

end Order

/-- C138 (partial): the velocity of the avoider is the same for every order of the obstacles.

Missing: trees of directions with opposite neighbouring directions, or with inner nodes nearly equal to their parents
(where the code replaces a rotation by the identity). -/
theorem C138_partial (ext : Ext d k) (a : Avoider d) (x w : Vec d) (l : List (ObstacleTree d)) (hl : l.Perm a.trees)
    (has : ArgsortSpec ext.argsort) (hpow : 0 ≤ a.power) (hs : SaneTrees a.trees)
    (hconv : ∀ s st, evaluateDynamicsSequence x a.initial = .ok (some s) → ConvergenceTree ext a x s st →
      InnerDirections st.tree)
    (hgood : ∀ pr, PreparedFor ext a x pr → InnerDirections pr.tree)
    (h : a.evaluate ext x = .ok w) : ({ a with trees := l } : Avoider d).evaluate ext x = .ok w := by
  change (withTrees a l).evaluate ext x = .ok w
  obtain ⟨τ, hτ⟩ := zipIdx_renumber hl
  unfold Avoider.evaluate evaluateSequence at h ⊢
  obtain ⟨s, h1, h⟩ := bind_ok.mp h
  refine bind_ok.mpr ⟨s, h1, ?_⟩
  cases s with
  | none => exact h
  | some s =>
    simp only at h ⊢
    by_cases hne : a.trees = []
    · have hl' : l = [] := (hne ▸ hl).eq_nil
      rw [if_pos hne] at h
      rw [if_pos (show (withTrees a l).trees = [] from hl')]
      exact h
    · have hl' : l ≠ [] := fun e => hne (by rw [e] at hl; exact hl.symm.eq_nil)
      rw [if_neg hne] at h
      rw [if_neg (show ¬ (withTrees a l).trees = [] from hl')]
      obtain ⟨rel, e1, h⟩ := bind_ok.mp h
      obtain ⟨conv, e2, h⟩ := bind_ok.mp h
      obtain ⟨v, e3, h⟩ := bind_ok.mp h
      obtain ⟨pr, e4, h⟩ := bind_ok.mp h
      obtain ⟨final, e5, h⟩ := bind_ok.mp h
      obtain ⟨pr', f1, f2, f3⟩ := prepare_order hτ has hpow hs e4 (hgood pr ⟨s, conv, v, h1, e2, e3, e4⟩) e5
      exact bind_ok.mpr ⟨rel, relativeVelocity_perm x hl.symm e1, bind_ok.mpr ⟨conv,
        convergence_order hτ has (fun st hst => hconv s st h1 hst) e2, bind_ok.mpr ⟨v, e3,
          bind_ok.mpr ⟨pr', f1, bind_ok.mpr ⟨final, f2, f3 _ _ _ h⟩⟩⟩⟩⟩

/-- C138: the velocity of the surroundings is the same for every order of the obstacles, without further
hypotheses; it is also defined for the same positions. -/
theorem C138_relative {d : ℕ} (x : Vec d) (l l' : List (ObstacleTree d)) (h : l.Perm l') (w : Vec d) :
    relativeVelocity x l = .ok w ↔ relativeVelocity x l' = .ok w :=
  ⟨relativeVelocity_perm x h, relativeVelocity_perm x h.symm⟩

end Verif
