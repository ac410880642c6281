import Verif.Model.Avoider
import Verif.Lemmas.Monad
import Verif.Props.TreeMean
import Verif.Props.Weights
import Verif.Props.Weights2
import Verif.Props.Weights3

/-!
# Helper lemmas about the evaluation pipeline of `MultiObstacleAvoider`
-/

open scoped RealInnerProductSpace

namespace Verif
open Spec

variable {d k : ℕ} [Fact (2 ≤ d)]
set_option linter.unusedSectionVars false

lemma orRaise_ok {α : Type} {x : α × Except PyErr Unit} {a : α} :
    orRaise x = .ok a ↔ x.1 = a ∧ x.2 = .ok () := by
  obtain ⟨a', r⟩ := x
  cases r with
  | error e => constructor
               · intro h; cases h
               · rintro ⟨_, h⟩; cases h
  | ok u => constructor
            · intro h; cases h; exact ⟨rfl, rfl⟩
            · rintro ⟨h, _⟩; cases h; rfl

/-- A successful `add_node` on a rooted tree. -/
lemma addNode_grows {t t' : Tree NodeId d} {r n p : NodeId} {v : Vec d} (h : RootedTree t r)
    (hok : orRaise (t.addNode n v (some p)) = .ok t') :
    RootedTree t' r ∧ t'.nodes = t.nodes ++ [n] ∧ n ∉ t.nodes ∧ dirOf t' r = dirOf t r := by
  obtain ⟨h1, h2⟩ := orRaise_ok.mp hok
  subst h1
  have hr := C17_add_node t r h n p v h2
  have hn := ((C17_add_node_ok_iff t r h n p v).mp h2).2.1
  have he := C17_add_node_effect t r h n p v h2
  refine ⟨hr, he.1, hn, ?_⟩
  have hrn : r ≠ n := by
    rintro rfl
    exact hn (List.mem_of_mem_head? h.root_first)
  unfold dirOf
  rw [(he.2.2.2.1 r hrn).1]

/-- The tree after the loop over the parents. -/
lemma branchSteps_grow {iTree comp : ℕ} {l : List (BranchEntry d × BranchEntry d)}
    {t t' : Tree NodeId d} {v v' : Vec d} {n n' r : NodeId} (h : RootedTree t r)
    (hok : l.foldlM (branchStep iTree comp) (t, v, n) = .ok (t', v', n')) :
    RootedTree t' r ∧ t.nodes <+: t'.nodes ∧ dirOf t' r = dirOf t r := by
  have := foldlM_inv (f := branchStep (d := d) iTree comp)
    (P := fun st => RootedTree st.1 r ∧ t.nodes <+: st.1.nodes ∧ dirOf st.1 r = dirOf t r)
    (l := l) ?_ ⟨h, List.prefix_rfl, rfl⟩ hok
  · exact this
  · rintro e ⟨t1, v1, n1⟩ ⟨t2, v2, n2⟩ _ ⟨hr, hpre, hdir⟩ hstep
    unfold branchStep at hstep
    split at hstep
    · cases hstep
    · obtain ⟨t3, h3, h4⟩ := bind_ok.mp hstep
      cases h4
      have := addNode_grows hr h3
      exact ⟨this.1, by rw [this.2.1]; exact hpre.trans (List.prefix_append _ _),
        by rw [this.2.2.2]; exact hdir⟩

lemma computeBranch_head {x : Vec d} {comp : ℕ} {ot : ObstacleTree d} {l : List (BranchEntry d)}
    (h : computeBranch x comp ot = .ok l) :
    ∃ e0 rest, l = e0 :: rest ∧ e0.idx = comp := by
  classical
  unfold computeBranch at h
  obtain ⟨o, _, h⟩ := bind_ok.mp h
  simp only at h
  split at h
  · cases h
  · obtain ⟨n, _, h⟩ := bind_ok.mp h
    obtain ⟨rest, _, h⟩ := bind_ok.mp h
    cases h
    exact ⟨_, _, rfl, rfl⟩

/-- The tree and the normal after `_simple_tangent_branch_update`. -/
lemma tangentBranch_spec {ext : Ext d k} {x v : Vec d} {comp iTree : ℕ} {ot : ObstacleTree d}
    {radius : ℝ} {t t' : Tree NodeId d} {n : Vec d} {r : NodeId} (h : RootedTree t r)
    (hok : tangentBranch ext x comp v ot iTree radius t = .ok (t', n)) :
    RootedTree t' r ∧ t.nodes <+: t'.nodes ∧ dirOf t' r = dirOf t r
    ∧ NodeId.key iTree comp comp ∈ t'.nodes ∧ NodeId.key iTree comp comp ∉ t.nodes
    ∧ ∃ e0 rest, computeBranch x comp ot = .ok (e0 :: rest) ∧ n = e0.normal := by
  classical
  unfold tangentBranch at hok
  obtain ⟨l, hl, hok⟩ := bind_ok.mp hok
  obtain ⟨e0, rest, rfl, he⟩ := computeBranch_head hl
  simp only at hok
  obtain ⟨⟨t1, v1, n1⟩, h1, hok⟩ := bind_ok.mp hok
  have g1 := branchSteps_grow h h1
  simp only at hok
  obtain ⟨o, _, hok⟩ := bind_ok.mp hok
  have fin : ∀ {t2 t3 : Tree NodeId d} {w : Vec d} {p : NodeId}, RootedTree t2 r →
      t1.nodes <+: t2.nodes → dirOf t2 r = dirOf t1 r →
      orRaise (t2.addNode (.key iTree comp e0.idx) w (some p)) = .ok t3 →
      RootedTree t3 r ∧ t.nodes <+: t3.nodes ∧ dirOf t3 r = dirOf t r
        ∧ NodeId.key iTree comp comp ∈ t3.nodes ∧ NodeId.key iTree comp comp ∉ t.nodes := by
    intro t2 t3 w p hr hp hd hadd
    have g := addNode_grows hr hadd
    rw [he] at g
    refine ⟨g.1, ?_, by rw [g.2.2.2, hd, g1.2.2], ?_, ?_⟩
    · rw [g.2.1]; exact (g1.2.1.trans hp).trans (List.prefix_append _ _)
    · rw [g.2.1]; simp
    · intro hm; exact g.2.2.1 ((g1.2.1.trans hp).subset hm)
  split at hok
  · obtain ⟨⟨t2, p2⟩, h2, hok⟩ := bind_ok.mp hok
    simp only at hok
    obtain ⟨w, _, hok⟩ := bind_ok.mp hok
    obtain ⟨t3, h3, hok⟩ := bind_ok.mp hok
    cases hok
    have g2 : RootedTree t2 r ∧ t1.nodes <+: t2.nodes ∧ dirOf t2 r = dirOf t1 r := by
      unfold intermediateNode at h2
      split at h2
      · obtain ⟨w', _, h2⟩ := bind_ok.mp h2
        obtain ⟨t4, h4, h2⟩ := bind_ok.mp h2
        cases h2
        have g := addNode_grows g1.1 h4
        exact ⟨g.1, by rw [g.2.1]; exact List.prefix_append _ _, g.2.2.2⟩
      · cases h2; exact ⟨g1.1, List.prefix_rfl, rfl⟩
    obtain ⟨a1, a2, a3, a4, a5⟩ := fin g2.1 g2.2.1 g2.2.2 h3
    exact ⟨a1, a2, a3, a4, a5, e0, rest, hl, rfl⟩
  · obtain ⟨t3, h3, hok⟩ := bind_ok.mp hok
    cases hok
    obtain ⟨a1, a2, a3, a4, a5⟩ := fin g1.1 List.prefix_rfl rfl h3
    exact ⟨a1, a2, a3, a4, a5, e0, rest, hl, rfl⟩

/-- The normal of component `c` used by the avoider. -/
def BranchNormal (x : Vec d) (ot : ObstacleTree d) (c : ℕ) (n : Vec d) : Prop :=
  ∃ e0 rest, computeBranch x c ot = .ok (e0 :: rest) ∧ n = e0.normal

open Classical in
/-- The entries with positive weight. -/
noncomputable def posEntries (l : List (ℕ × ℝ × ℝ)) : List (ℕ × ℝ × ℝ) :=
  l.filter (fun c => 0 < c.2.1)

lemma populate_spec {ext : Ext d k} {x v : Vec d} {ot : ObstacleTree d} {iTree : ℕ}
    {l : List (ℕ × ℝ × ℝ)} {t t' : Tree NodeId d} {nodes nodes' : List NodeId}
    {normals normals' : List (Vec d)} {r : NodeId} (h : RootedTree t r)
    (hn : nodes.Nodup) (hsub : ∀ m ∈ nodes, m ∈ t.nodes ∧ m ≠ r)
    (hr : ∀ i : ℕ, r ≠ NodeId.key iTree i i)
    (hok : l.foldlM (populateStep ext x v ot iTree) (t, nodes, normals)
      = .ok (t', nodes', normals')) :
    RootedTree t' r ∧ t.nodes <+: t'.nodes ∧ dirOf t' r = dirOf t r
    ∧ nodes'.Nodup ∧ (∀ m ∈ nodes', m ∈ t'.nodes ∧ m ≠ r)
    ∧ nodes' = nodes ++ (posEntries l).map (fun c => NodeId.key iTree c.1 c.1)
    ∧ ∃ new, normals' = normals ++ new
      ∧ List.Forall₂ (fun c n => BranchNormal x ot c.1 n) (posEntries l) new := by
  classical
  have := foldlM_prefix (f := populateStep ext x v ot iTree)
    (P := fun pre st => RootedTree st.1 r ∧ t.nodes <+: st.1.nodes ∧ dirOf st.1 r = dirOf t r
      ∧ st.2.1.Nodup ∧ (∀ m ∈ st.2.1, m ∈ st.1.nodes ∧ m ≠ r)
      ∧ st.2.1 = nodes ++ (posEntries pre).map (fun c => NodeId.key iTree c.1 c.1)
      ∧ ∃ new, st.2.2 = normals ++ new
        ∧ List.Forall₂ (fun c n => BranchNormal x ot c.1 n) (posEntries pre) new)
    (l := l) ?_ ?_ hok
  · exact this
  · rintro pre c ⟨t1, ns1, nm1⟩ ⟨t2, ns2, nm2⟩ _ ⟨a1, a2, a3, a4, a5, a6, new, a7, a8⟩ hstep
    simp only at a1 a2 a3 a4 a5 a6 a7
    unfold populateStep at hstep
    simp only at hstep
    by_cases hc : c.2.1 ≤ 0
    · rw [if_pos hc] at hstep
      cases hstep
      have : posEntries (pre ++ [c]) = posEntries pre := by
        simp [posEntries, hc]
      rw [this]
      exact ⟨a1, a2, a3, a4, a5, a6, new, a7, a8⟩
    · rw [if_neg hc] at hstep
      obtain ⟨⟨t3, n3⟩, h3, hstep⟩ := bind_ok.mp hstep
      cases hstep
      have g := tangentBranch_spec a1 h3
      have hpos : posEntries (pre ++ [c]) = posEntries pre ++ [c] := by
        simp [posEntries, not_le.mp hc]
      rw [hpos]
      refine ⟨g.1, a2.trans g.2.1, by rw [g.2.2.1]; exact a3, ?_, ?_, ?_, new ++ [n3], ?_, ?_⟩
      · simp only
        rw [List.nodup_append]
        refine ⟨a4, by simp, ?_⟩
        rintro m hm _ hm' rfl
        rw [List.mem_singleton] at hm'
        subst hm'
        exact g.2.2.2.2.1 (a5 _ hm).1
      · intro m hm
        simp only at hm
        rw [List.mem_append, List.mem_singleton] at hm
        rcases hm with hm | rfl
        · exact ⟨g.2.1.subset (a5 m hm).1, (a5 m hm).2⟩
        · exact ⟨g.2.2.2.1, (hr c.1).symm⟩
      · simp only [a6, List.map_append, List.append_assoc, List.map_cons, List.map_nil]
      · simp only [a7, List.append_assoc]
      · exact forall₂_snoc a8 g.2.2.2.2.2
  · refine ⟨h, List.prefix_rfl, rfl, hn, hsub, ?_, [], ?_, ?_⟩
    · simp [posEntries]
    · simp
    · simp [posEntries]


lemma weightsFromDistances_nonneg (ds : List ℝ) (m : ℝ) :
    (computeWeightsFromDistances ds m false).length = ds.length
      ∧ Nonneg (computeWeightsFromDistances ds m false) := by
  classical
  unfold computeWeightsFromDistances
  simp only [Bool.false_eq_true, false_and, if_false]
  by_cases h : (indicator (· ≤ m) ds).sum ≠ 0
  · rw [if_pos h]
    exact ⟨by rw [length_normalised, indicator_length],
      fun w hw => (normalised_inUnit (indicator_nonneg _ _) w hw).1⟩
  · rw [if_neg h]
    refine ⟨by simp, ?_⟩
    have hall : ∀ x ∈ ds, m < x := by
      intro x hx
      by_contra hle
      exact h (indicator_sum_ne.mpr ⟨x, hx, not_lt.mp hle⟩)
    intro w hw
    rw [List.mem_map] at hw
    obtain ⟨x, hx, rfl⟩ := hw
    exact (one_div_pos.mpr (sub_pos.mpr (hall x hx))).le

lemma gamma_ok {ot : ObstacleTree d} {x : Vec d} {g : ℝ} (h : ot.gamma x = .ok g) :
    (∃ o ∈ ot.components, o.gamma x = g) ∧ ∀ o ∈ ot.components, g ≤ o.gamma x := by
  unfold ObstacleTree.gamma at h
  split at h
  · cases h
  · rename_i g' hg
    cases h
    rw [List.min?_eq_some_iff] at hg
    constructor
    · obtain ⟨o, ho, hh⟩ := List.mem_map.mp hg.1
      exact ⟨o, ho, hh⟩
    · intro o ho
      exact hg.2 _ (List.mem_map_of_mem ho)

lemma sum_map_div_mul (l : List ℝ) (c e : ℝ) :
    (l.map (fun w => w / c * e)).sum = l.sum / c * e := by
  induction l with
  | nil => simp
  | cons a l ih => simp only [List.map_cons, List.sum_cons, ih]; ring

/-- What `compute_gamma_and_weights` returns. -/
lemma gammaAndWeights_spec {ext : Ext d k} {power : ℝ} {x v : Vec d} {ot : ObstacleTree d}
    {gammas gw : List ℝ} {rw prox : ℝ} (hp : 0 ≤ power)
    (h : computeGammaAndWeights ext power x ot v = .ok (gammas, gw, rw, prox)) :
    ∃ g root, ot.gamma x = .ok g ∧ ot.getComponent ot.rootIdx = .ok root
      ∧ v ≠ 0 ∧ prox = ⟪unit v, root.reference x⟫
      ∧ gammas.length = ot.components.length ∧ gw.length = ot.components.length
      ∧ Nonneg gw ∧ gw.sum ≤ rw ∧ 0 ≤ rw ∧ rw ≤ 1 ∧ (g ≤ 1 → rw = 1) ∧ (1 < g → rw ≤ 1 / g)
      ∧ (g ≤ 1 → ∀ i, i < ot.components.length → gw.getD i 0 =
          (computeWeightsFromDistances (ot.components.map (fun o => o.gamma x)) 1 false).getD i 0) := by
  classical
  unfold computeGammaAndWeights at h
  simp only at h
  obtain ⟨root, hroot, h⟩ := bind_ok.mp h
  obtain ⟨g, hg, h⟩ := bind_ok.mp h
  obtain ⟨rw', hrw, h⟩ := bind_ok.mp h
  obtain ⟨w, hw, hw0, hw1, hwg, hwl⟩ := C32_range_partial ext.angleOf (root.normal x)
    (root.reference x) v g (Real.pi * 0.5) power (Real.pi * 0.5) hp
  have hww : w = rw' := by rw [hw] at hrw; injection hrw
  subst hww
  have hl := weightsFromDistances_nonneg (ot.components.map (fun o => o.gamma x)) 1
  generalize hgw : computeWeightsFromDistances (ot.components.map (fun o => o.gamma x)) 1 false
    = ws at h hl
  rw [List.length_map] at hl
  split_ifs at h with h1 h2
  · cases h
    refine ⟨g, root, hg, hroot, fun h0 => h1 (by rw [h0, norm_zero]), rfl, by simp [hl.1],
      by simp [hl.1], ?_, ?_, hw0, hw1, hwg, hwl, ?_⟩
    · intro y hy
      obtain ⟨z, _, rfl⟩ := List.mem_map.mp hy
      exact le_rfl
    · simpa using hw0
    · intro hg1 i hi
      exfalso
      obtain ⟨o, ho, hoe⟩ := (gamma_ok hg).1
      have hs := (C30_critical (ot.components.map (fun o => o.gamma x)) 1 false
        ⟨g, List.mem_map.mpr ⟨o, ho, hoe⟩, hg1⟩).1
      rw [hgw] at hs
      rcases h2 with h2 | h2
      · rw [h2] at hs; norm_num at hs
      · rw [hwg hg1] at h2; norm_num at h2
  · cases h
    push Not at h2
    have hs0 : 0 ≤ ws.sum := sum_nonneg' hl.2
    refine ⟨g, root, hg, hroot, fun h0 => h1 (by rw [h0, norm_zero]), rfl, by simp,
      by simp [hl.1], ?_, ?_, hw0, hw1, hwg, hwl, ?_⟩
    · intro y hy
      obtain ⟨z, hz, rfl⟩ := List.mem_map.mp hy
      exact mul_nonneg (div_nonneg (hl.2 z hz) hs0) hw0
    · rw [sum_map_div_mul, div_self h2.1, one_mul]
    · intro hg1 i hi
      obtain ⟨o, ho, hoe⟩ := (gamma_ok hg).1
      have hs := (C30_critical (ot.components.map (fun o => o.gamma x)) 1 false
        ⟨g, List.mem_map.mpr ⟨o, ho, hoe⟩, hg1⟩).1
      rw [hgw] at hs
      rw [hwg hg1, getD_map _ _ _ (by omega), getD_eq _ _ (by omega), hs]
      ring

/-- What `compute_parent_occlusion_weight` returns. -/
lemma occlusion_spec {x : Vec d} {ot : ObstacleTree d} {occ : List ℝ}
    (h : computeParentOcclusionWeight x ot = .ok occ)
    (hg : ∀ o ∈ ot.components, ∀ y, 0 ≤ o.gamma y) :
    occ.length = ot.components.length ∧ (∀ w ∈ occ, 0 ≤ w ∧ w ≤ 1)
      ∧ (ot.rootIdx < occ.length → occ.getD ot.rootIdx 0 = 1) := by
  unfold computeParentOcclusionWeight at h
  have h2 := mapM_ok.mp h
  have hlen := h2.length_eq
  rw [List.length_zipIdx] at hlen
  refine ⟨hlen.symm, ?_, ?_⟩
  · intro w hw
    obtain ⟨i, hi, rfl⟩ := List.getElem_of_mem hw
    have hi' : i < ot.components.zipIdx.length := by simpa [hlen] using hi
    have := (List.forall₂_iff_get.mp h2).2 i hi' hi
    simp only [List.get_eq_getElem] at this
    split_ifs at this with hroot
    · injection this with this; rw [← this]; norm_num
    · split at this
      · cases this
      · rename_i p hp
        obtain ⟨parent, hpar, this⟩ := bind_ok.mp this
        refine (C38_parent_occlusion x _ (some parent) ?_).2.1 _ this
        intro q hq y
        cases hq
        unfold ObstacleTree.getComponent at hpar
        split at hpar
        · cases hpar
        · rename_i o ho
          cases hpar
          exact hg _ (List.mem_of_getElem? ho) y
  · intro hi
    have hi' : ot.rootIdx < ot.components.zipIdx.length := by simpa [hlen] using hi
    have := (List.forall₂_iff_get.mp h2).2 ot.rootIdx hi' hi
    simp only [List.get_eq_getElem, List.getElem_zipIdx, zero_add, if_true] at this
    injection this with this
    rw [getD_eq _ _ hi, ← this]


open Classical in
/-- The indices of the positive weights. -/
noncomputable def posIdx (w : List ℝ) : List ℕ :=
  (((List.range w.length).zip w).filter (fun c => 0 < c.2)).map Prod.fst

lemma posEntries_map_fst {n : ℕ} {w radii : List ℝ} (hw : w.length = n) (hr : radii.length = n) :
    (posEntries ((List.range n).zip (w.zip radii))).map Prod.fst = posIdx w := by
  classical
  subst hw
  have h1 : ((List.range w.length).zip (w.zip radii)).map (fun c => (c.1, c.2.1))
      = (List.range w.length).zip w := by
    apply List.ext_getElem
    · simp [hr]
    · intro i h1 h2
      simp
  unfold posIdx posEntries
  rw [← h1, List.filter_map, List.map_map]
  rfl

lemma posIdx_length (w : List ℝ) :
    open Classical in (posIdx w).length = (w.filter (fun x => x > 0)).length := by
  classical
  have h1 : ((List.range w.length).zip w).map Prod.snd = w := by
    rw [List.map_snd_zip]; simp
  unfold posIdx
  rw [List.length_map]
  conv_rhs => rw [← h1, List.filter_map, List.length_map]
  rfl

lemma radii_length {r : ℝ} {gm : Option ℝ} {x : Vec d} {cs : List (Obstacle d × ℝ)} {inside : ℝ}
    {out : List ℝ} (h : computeConvergenceRadiuses r gm x cs inside = .ok out) :
    out.length = cs.length := by
  classical
  unfold computeConvergenceRadiuses at h
  split at h
  · cases h; simp
  · split at h
    · cases h
    · rename_i l hl
      cases h
      have : ∀ {α β : Type} {f : α → Option β} (l : List α) (out : List β),
          l.mapM f = some out → out.length = l.length := by
        intro α β f l
        induction l with
        | nil => intro out h; cases h; rfl
        | cons a l ih =>
          intro out h
          rw [List.mapM_cons] at h
          cases hf : f a with
          | none => rw [hf] at h; cases h
          | some b =>
            rw [hf] at h
            cases hm : l.mapM f with
            | none => rw [hm] at h; cases h
            | some bs =>
              rw [hm] at h
              cases h
              simp [ih bs hm]
      exact this _ _ hl

/-- What one obstacle tree contributes. -/
structure TreeData (d : ℕ) where
  nodes : List NodeId
  normals : List (Vec d)
  slow : ℝ × ℝ
  weights : List ℝ

/-- The contribution of obstacle tree `p.1` with number `p.2`. -/
def DataOf (ext : Ext d k) (a : Avoider d) (x v : Vec d) (p : ObstacleTree d × ℕ)
    (D : TreeData d) : Prop :=
  (∃ gammas gw occ, computeGammaAndWeights ext a.power x p.1 v = .ok (gammas, gw, D.slow)
    ∧ computeParentOcclusionWeight x p.1 = .ok occ ∧ D.weights = List.zipWith (· * ·) gw occ)
  ∧ D.nodes = (posIdx D.weights).map (fun c : ℕ => NodeId.key p.2 c c)
  ∧ List.Forall₂ (BranchNormal x p.1) (posIdx D.weights) D.normals

open Classical in
/-- The state after the trees with data `Ds`. -/
noncomputable def stateOf (t : Tree NodeId d) (Ds : List (TreeData d)) : TangentState d where
  tree := t
  nodes := Ds.flatMap TreeData.nodes
  normals := Ds.flatMap TreeData.normals
  slow := Ds.map TreeData.slow
  influence := Ds.map (fun D => D.weights.sum)
  componentWeights := Ds.map (fun D => normalised (D.weights.filter (fun w => w > 0)))

abbrev baseId : NodeId := .key (-1) (-1) (-1)

lemma tangentStep_spec {ext : Ext d k} {a : Avoider d} {x v : Vec d} {p : ObstacleTree d × ℕ}
    {t : Tree NodeId d} {Ds : List (TreeData d)} {st' : TangentState d} (hp : 0 ≤ a.power)
    (hg : ∀ o ∈ p.1.components, ∀ y, 0 ≤ o.gamma y)
    (hr : RootedTree t baseId) (hn : (Ds.flatMap TreeData.nodes).Nodup)
    (hsub : ∀ m ∈ Ds.flatMap TreeData.nodes, m ∈ t.nodes ∧ m ≠ baseId)
    (h : tangentStep ext a x v (stateOf t Ds) p = .ok st') :
    ∃ t' D, st' = stateOf t' (Ds ++ [D]) ∧ DataOf ext a x v p D ∧ RootedTree t' baseId
      ∧ dirOf t' baseId = dirOf t baseId
      ∧ ((Ds ++ [D]).flatMap TreeData.nodes).Nodup
      ∧ ∀ m ∈ (Ds ++ [D]).flatMap TreeData.nodes, m ∈ t'.nodes ∧ m ≠ baseId := by
  classical
  unfold tangentStep at h
  simp only at h
  obtain ⟨⟨gammas, gw, slow⟩, h1, h⟩ := bind_ok.mp h
  obtain ⟨occ, h2, h⟩ := bind_ok.mp h
  obtain ⟨⟨t', nodes', normals'⟩, h3, h⟩ := bind_ok.mp h
  simp only at h
  cases h
  obtain ⟨g, root, _, _, _, _, hl1, hl2, _⟩ := gammaAndWeights_spec (rw := slow.1) (prox := slow.2) hp h1
  obtain ⟨hl3, _⟩ := occlusion_spec h2 hg
  set w := List.zipWith (· * ·) gw occ with hw
  have hlw : w.length = p.1.components.length := by rw [hw, List.length_zipWith]; omega
  unfold populateTangentTree at h3
  obtain ⟨t1, h4, h3⟩ := bind_ok.mp h3
  obtain ⟨radii, h5, h3⟩ := bind_ok.mp h3
  have hlr := radii_length h5
  rw [List.length_zip, hl1, min_self] at hlr
  have g1 := addNode_grows hr h4
  have hsub1 : ∀ m ∈ Ds.flatMap TreeData.nodes, m ∈ t1.nodes ∧ m ≠ baseId := by
    intro m hm
    refine ⟨?_, (hsub m hm).2⟩
    rw [g1.2.1]
    exact List.mem_append_left _ (hsub m hm).1
  have hkey : ∀ i : ℕ, baseId ≠ NodeId.key p.2 i i := by
    intro i hi
    unfold baseId at hi
    injection hi with h1 h2 h3
    omega
  obtain ⟨a1, a2, a3, a4, a5, a6, new, a7, a8⟩ := populate_spec (nodes := (stateOf t Ds).nodes)
    (normals := (stateOf t Ds).normals) g1.1 hn hsub1 hkey h3
  have hpe := posEntries_map_fst (n := p.1.components.length) hlw hlr
  have hnodes : (posEntries ((List.range p.1.components.length).zip (w.zip radii))).map
      (fun c => NodeId.key p.2 c.1 c.1) = (posIdx w).map (fun c : ℕ => NodeId.key p.2 c c) := by
    rw [← hpe, List.map_map]; rfl
  refine ⟨t', ⟨(posIdx w).map (fun c : ℕ => NodeId.key p.2 c c), new, slow, w⟩, ?_, ?_, a1, ?_, ?_, ?_⟩
  · rw [hnodes] at a6
    simp only [stateOf, a6, a7, List.flatMap_append, List.map_append, List.flatMap_cons,
      List.flatMap_nil, List.append_nil, List.map_cons, List.map_nil]
  · refine ⟨⟨gammas, gw, occ, h1, h2, rfl⟩, rfl, ?_⟩
    simp only
    rw [← hpe, List.forall₂_map_left_iff]
    exact a8
  · rw [a3, g1.2.2.2]
  · rw [hnodes] at a6
    rw [a6] at a4
    simpa [stateOf] using a4
  · rw [hnodes] at a6
    rw [a6] at a5
    simpa [stateOf] using a5

lemma dirOf_setRoot {r : NodeId} {v : Vec d} {t : Tree NodeId d}
    (h : (Tree.empty : Tree NodeId d).setRoot r v = .ok t) : t.nodes = [r] ∧ v ≠ 0 ∧ dirOf t r = unit v := by
  classical
  unfold Tree.setRoot at h
  split at h
  · cases h
  · rename_i o ho
    cases h
    have hb : o.base.b0 = unit v ∧ v ≠ 0 := by
      have := fromDirections_some ho
      exact ⟨this.2.2.2.1, this.1⟩
    refine ⟨by simp [Tree.setRootOrientation, Tree.setAttr, Tree.touch, Tree.empty], hb.2, ?_⟩
    simp [dirOf, Tree.setRootOrientation, Tree.setAttr, hb.1]

/-- The outcome of the preparation, tree by tree. -/
lemma prepare_spec {ext : Ext d k} {a : Avoider d} {x v : Vec d} {pr : Prepared d}
    (hp : 0 ≤ a.power) (hg : ∀ ot ∈ a.trees, ∀ o ∈ ot.components, ∀ y, 0 ≤ o.gamma y)
    (h : prepareAvoidance ext a x v = .ok pr) :
    ∃ t Ds, List.Forall₂ (DataOf ext a x v) a.trees.zipIdx Ds
      ∧ pr.tree = t ∧ pr.nodes = (stateOf t Ds).nodes ++ [baseId]
      ∧ pr.normals = (stateOf t Ds).normals ∧ pr.slow = (stateOf t Ds).slow
      ∧ pr.cluster = clusterWeights (stateOf t Ds).influence (stateOf t Ds).componentWeights
      ∧ RootedTree pr.tree baseId ∧ dirOf pr.tree baseId = unit v
      ∧ pr.nodes.Nodup ∧ (∀ m ∈ pr.nodes, m ∈ pr.tree.nodes) := by
  classical
  unfold prepareAvoidance at h
  obtain ⟨t0, h0, h⟩ := bind_ok.mp h
  obtain ⟨st, h1, h⟩ := bind_ok.mp h
  cases h
  have := foldlM_prefix (f := tangentStep ext a x v) (l := a.trees.zipIdx)
    (P := fun pre st => ∃ t Ds, st = stateOf t Ds ∧ List.Forall₂ (DataOf ext a x v) pre Ds
      ∧ RootedTree t baseId ∧ dirOf t baseId = unit v ∧ (Ds.flatMap TreeData.nodes).Nodup
      ∧ ∀ m ∈ Ds.flatMap TreeData.nodes, m ∈ t.nodes ∧ m ≠ baseId) ?_ ?_ h1
  · obtain ⟨t, Ds, rfl, hD, hr, hd, hn, hs⟩ := this
    refine ⟨t, Ds, hD, rfl, rfl, rfl, rfl, rfl, hr, hd, ?_, ?_⟩
    · simp only [stateOf]
      rw [List.nodup_append]
      refine ⟨hn, by simp, ?_⟩
      rintro m hm _ hm' rfl
      rw [List.mem_singleton] at hm'
      exact (hs m hm).2 hm'
    · intro m hm
      simp only [stateOf] at hm
      rw [List.mem_append, List.mem_singleton] at hm
      rcases hm with hm | rfl
      · exact (hs m hm).1
      · exact List.mem_of_mem_head? hr.root_first
  · rintro pre p _ st' hmem ⟨t, Ds, rfl, hD, hr, hd, hn, hs⟩ hstep
    have hot : p.1 ∈ a.trees := by
      obtain ⟨i, hi, he⟩ := List.getElem_of_mem hmem
      rw [List.getElem_zipIdx] at he
      rw [← he]
      exact List.getElem_mem _
    obtain ⟨t', D, rfl, hD', hr', hd', hn', hs'⟩ := tangentStep_spec hp (hg _ hot) hr hn hs hstep
    exact ⟨t', Ds ++ [D], rfl, forall₂_snoc hD hD', hr', hd'.trans hd, hn', hs'⟩
  · have hd := dirOf_setRoot h0
    refine ⟨t0, [], rfl, .nil, C17_set_root _ _ _ h0, hd.2.2, by simp, by simp⟩

end Verif
