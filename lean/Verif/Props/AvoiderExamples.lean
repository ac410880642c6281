import Verif.Props.AvoiderConvergence

/-!
# Complete runs of the avoider: the theorems C41, C42, C61 and C62 are not vacuous

Unit discs at the origin and a motion with constant velocity; the attractor is inside of the
discs.
-/

open scoped RealInnerProductSpace

namespace Verif
open Spec

instance : Fact (2 ≤ 2) := ⟨le_refl 2⟩

/-- The unit disc (the unit ball) without tail effect; the intersection of a ray with the circle is the usual
formula. -/
noncomputable def disc {d : ℕ} : Obstacle d where
  gamma p := ‖p‖
  normal p := (1 / ‖p‖) • p
  reference p := (-(1 / ‖p‖)) • p
  referencePoint := 0
  center := 0
  intersection s v := open Classical in
    if v = 0 ∨ ⟪s, v⟫ ^ 2 - ‖v‖ ^ 2 * (‖s‖ ^ 2 - 1) < 0 then none
    else some (s + ((-⟪s, v⟫ + √(⟪s, v⟫ ^ 2 - ‖v‖ ^ 2 * (‖s‖ ^ 2 - 1))) / ‖v‖ ^ 2) • v)
  tailEffect := false
  isBoundary := false

/-- A static obstacle with the disc as its only component. -/
noncomputable def discTree {d : ℕ} : ObstacleTree d where
  components := [disc]
  rootIdx := 0
  parentIdx := fun _ => none
  position := 0

lemma disc_sane {d : ℕ} : SaneObstacle (disc (d := d)) where
  gamma_nonneg := fun y => norm_nonneg y
  normal_le := by
    intro y
    change ‖(1 / ‖y‖) • y‖ ≤ 1
    rw [norm_smul, Real.norm_of_nonneg (by positivity)]
    by_cases h : ‖y‖ = 0
    · rw [h]; norm_num
    · rw [one_div, inv_mul_cancel₀ h]
  reference_le := by
    intro y
    change ‖(-(1 / ‖y‖)) • y‖ ≤ 1
    rw [norm_smul, norm_neg, Real.norm_of_nonneg (by positivity)]
    by_cases h : ‖y‖ = 0
    · rw [h]; norm_num
    · rw [one_div, inv_mul_cancel₀ h]

/-- The external functions in the plane: signed angles, and the far intersection of a ray with the
interval `[-r, r]`. -/
noncomputable def planeExt (argsort : List ℤ → List ℕ) : Ext 2 1 where
  angleOf n v := !₂[Real.arccos ⟪n, v⟫ * SignType.sign (n 0 * v 1 - n 1 * v 0)]
  vectorOf n a := Real.cos (a 0) • n + Real.sin (a 0) • !₂[-(n 1), n 0]
  circleFar _ v r := open Classical in
    if v 0 > 0 then some !₂[r] else if v 0 < 0 then some !₂[-r] else none
  argsort := argsort

/-- `n` discs at the origin, the constant velocity `v`, and the attractor `(0, 1/2)`. -/
noncomputable def discAvoider (v : Vec 2) (n : ℕ) : Avoider 2 where
  initial := { evaluate := fun _ => v, attractorPosition := some !₂[0, 1 / 2] }
  convergence := convergenceWithoutSingularity (fun _ => v) (fun _ => v)
  trees := List.replicate n discTree

variable {d k : ℕ} [Fact (2 ≤ d)]

/-- All directions of the tree are `u`, and its nodes belong to the obstacles before `i`. -/
structure Uniform {d : ℕ} (u : Vec d) (i : ℕ) (t : Tree NodeId d) : Prop where
  rooted : RootedTree t baseId
  dirs : ∀ m ∈ t.nodes, dirOf t m = u
  ids : ∀ m ∈ t.nodes, m = baseId ∨ ∃ (j : ℕ) (c l : ℤ), j < i ∧ m = .key j c l

lemma Uniform.good {u : Vec d} {i : ℕ} {t : Tree NodeId d} (h : Uniform u i t) (hu : ‖u‖ = 1) :
    GoodDirections t := by
  intro a c hac
  rw [h.dirs a (h.rooted.edge_fst _ _ hac), h.dirs c (h.rooted.edge_snd _ _ hac)]
  refine ⟨?_, Or.inl rfl⟩
  rintro ⟨c, hc, h1⟩
  have h2 : (1 + c) • u = 0 := by rw [add_smul, one_smul]; nth_rw 1 [h1]; rw [neg_smul]; simp
  rw [smul_eq_zero] at h2
  rcases h2 with h2 | h2
  · linarith
  · rw [h2] at hu; simp at hu

/-- Adding two nodes with the direction `u`. -/
lemma Uniform.add {u : Vec d} (hu : ‖u‖ = 1) {t : Tree NodeId d} {r : NodeId}
    {n p : NodeId} (hr : RootedTree t r) (hd : ∀ m ∈ t.nodes, dirOf t m = u) (hn : n ∉ t.nodes)
    (hp : p ∈ t.nodes) {l : ℤ} (hl : t.level p = some l) (hlt : l + 1 < 100) :
    ∃ t', orRaise (t.addNode n u (some p)) = .ok t' ∧ RootedTree t' r
      ∧ t'.nodes = t.nodes ++ [n] ∧ t'.level n = some (l + 1) ∧ ∀ m ∈ t'.nodes, dirOf t' m = u := by
  obtain ⟨t', a1, a2, a3, a4, a5, a6, _⟩ := addNode_step t r hr n p u hu hn hp l hl hlt
  refine ⟨t', by rw [a1]; rfl, a2, a3, a4, ?_⟩
  intro m hm
  rw [a3, List.mem_append, List.mem_singleton] at hm
  rcases hm with hm | rfl
  · unfold dirOf
    rw [(a6 m hm).1]; exact hd m hm
  · unfold dirOf; rw [a5]; rfl

lemma disc_branch {r : ℝ} (hr : 0 < r) {e : Vec d} (he : ‖e‖ = 1) :
    computeBranch (r • e) 0 discTree = .ok [⟨0, e, -e⟩] := by
  classical
  have hr0 : 0 < r := hr
  have hx : ‖r • e‖ = r := by rw [norm_smul, he, mul_one, Real.norm_of_nonneg hr0.le]
  have href : disc.reference (r • e) = -e := by
    change (-(1 / ‖r • e‖)) • (r • e) = -e
    rw [hx, smul_smul, neg_mul, one_div_mul_cancel (ne_of_gt hr0), neg_one_smul]
  have hne : e ≠ 0 := by rintro rfl; simp at he
  have hnorm : disc.normal e = e := by
    change (1 / ‖e‖) • e = e
    rw [he]; simp
  have hint : disc.intersection (if disc.gamma (r • e) > 1 then disc.referencePoint else r • e)
      ((-1 : ℝ) • disc.reference (r • e)) = some e := by
    have hg : disc.gamma (r • e) = r := hx
    rw [href, hg, smul_neg, neg_one_smul, neg_neg]
    by_cases h1 : r > 1
    · rw [if_pos h1]
      change (if e = 0 ∨ _ < (0 : ℝ) then none else some _) = _
      simp [disc, hne, he]
    · rw [if_neg h1]
      change (if e = 0 ∨ _ < (0 : ℝ) then none else some _) = _
      have hin : ⟪r • e, e⟫ = r := by rw [inner_smul_left, real_inner_self_eq_norm_sq, he]; simp
      rw [hin, hx, he, if_neg (by rintro (h | h); exacts [hne h, by nlinarith])]
      have : √(r ^ 2 - 1 ^ 2 * (r ^ 2 - 1)) = 1 := by rw [Real.sqrt_eq_one]; ring
      rw [this, ← add_smul]
      norm_num
  unfold computeBranch
  refine bind_ok.mpr ⟨disc, rfl, ?_⟩
  simp only
  rw [hint, href]
  refine bind_ok.mpr ⟨e, ?_, bind_ok.mpr ⟨[], ?_, rfl⟩⟩
  · unfold getNormalAtDistance
    rw [if_neg (by simp [disc]), hnorm]
  · simp [branchLoop, discTree]

/-- One obstacle is processed without an exception when the motion does not point towards it. -/
lemma disc_step {ext : Ext d k} {a : Avoider d} (hp : 0 ≤ a.power)
    (hrad : a.convergenceRadius ≤ Real.pi) (hgm : ∀ gm ∈ a.gammaMaximumRepulsion, gm < 1)
    {r : ℝ} (hr : 0 < r) {e u : Vec d} (he : ‖e‖ = 1) (hu : ‖u‖ = 1) (heu : 0 ≤ ⟪e, u⟫)
    {st : TangentState d} {i : ℕ} (hst : Uniform u i st.tree) :
    ∃ st', tangentStep ext a (r • e) u st (discTree, i) = .ok st' ∧ Uniform u (i + 1) st'.tree := by
  classical
  have hr0 : 0 < r := hr
  have hx : ‖r • e‖ = r := by rw [norm_smul, he, mul_one, Real.norm_of_nonneg hr0.le]
  have hgw : ∃ gw slow, computeGammaAndWeights ext a.power (r • e) discTree u = .ok ([r], gw, slow)
      ∨ computeGammaAndWeights ext a.power (r • e) discTree u = .ok ([1], gw, slow) := by
    obtain ⟨w, hw, _⟩ := C32_range_partial ext.angleOf (disc.normal (r • e))
      (disc.reference (r • e)) u r (Real.pi * 0.5) a.power (Real.pi * 0.5) hp
    have hrun : computeGammaAndWeights ext a.power (r • e) discTree u =
        (do
          let rw ← getRotationWeight ext.angleOf (disc.normal (r • e)) (disc.reference (r • e)) u
            ‖r • e‖ (power := a.power)
          if ‖u‖ = 0 then .error .nan
          else
            let gw := computeWeightsFromDistances [‖r • e‖] 1 false
            let proximity := ⟪(1 / ‖u‖) • u, disc.reference (r • e)⟫
            if gw.sum = 0 ∨ rw = 0 then
              .ok (gw.map (fun _ => 1), gw.map (fun _ => 0), rw, proximity)
            else .ok ([‖r • e‖], gw.map (fun w => w / gw.sum * rw), rw, proximity)) := rfl
    rw [hrun, hx, hw]
    change ∃ gw slow, (if ‖u‖ = 0 then _ else _) = _ ∨ (if ‖u‖ = 0 then _ else _) = _
    rw [if_neg (by rw [hu]; norm_num)]
    have hlen := (weightsFromDistances_nonneg [r] 1).1
    obtain ⟨y, hy⟩ := List.length_eq_one_iff.mp hlen
    split_ifs with hc
    · exact ⟨_, _, Or.inr (by rw [hy]; rfl)⟩
    · exact ⟨_, _, Or.inl rfl⟩
  have hgw' : ∃ g gw slow, (g = r ∨ g = 1) ∧
      computeGammaAndWeights ext a.power (r • e) discTree u = .ok ([g], gw, slow) := by
    obtain ⟨gw, slow, h | h⟩ := hgw
    · exact ⟨r, gw, slow, Or.inl rfl, h⟩
    · exact ⟨1, gw, slow, Or.inr rfl, h⟩
  obtain ⟨g, gw, slow, hg1, h1⟩ := hgw'
  have hocc : computeParentOcclusionWeight (r • e) discTree = .ok [1] := rfl
  obtain ⟨_, _, _, _, _, _, _, hl2, _⟩ := gammaAndWeights_spec (rw := slow.1) (prox := slow.2) hp h1
  obtain ⟨y, rfl⟩ := List.length_eq_one_iff.mp (show gw.length = 1 from hl2)
  -- first node
  obtain ⟨t1, b1, b2, b3, b4, b5⟩ := Uniform.add (n := .key i (-1) (-1)) (p := baseId) hu
    hst.rooted hst.dirs (by
      intro hm
      rcases hst.ids _ hm with h | ⟨j, c, l, hj, h⟩
      · injection h with h; omega
      · injection h with h; omega) hst.rooted.root_mem hst.rooted.root_level (by norm_num)
  -- radii
  obtain ⟨radii, hrr, hrl, _⟩ := C37_radii a.convergenceRadius a.gammaMaximumRepulsion (r • e)
    (discTree.components.zip [g]) hrad hgm (by
      intro c hc hc1
      simp only [discTree, List.zip_cons_cons, List.zip_nil_left, List.mem_singleton] at hc
      rw [hc] at hc1 ⊢
      simp only at hc1 ⊢
      refine ⟨e, ?_, ?_, ?_⟩
      · have h0 : r • e ≠ 0 := by rw [← norm_pos_iff, hx]; exact hr0
        change (if r • e - 0 = 0 ∨ _ < (0 : ℝ) then none else some _) = _
        have hc0 : (disc : Obstacle d).center = 0 := rfl
        rw [hc0, sub_zero, inner_zero_left, norm_zero, hx,
          if_neg (by rintro (h | h); exacts [h0 h, by nlinarith [sq_nonneg r]])]
        have : √((0 : ℝ) ^ 2 - r ^ 2 * (0 ^ 2 - 1)) = r := by
          rw [show (0 : ℝ) ^ 2 - r ^ 2 * (0 ^ 2 - 1) = r ^ 2 by ring, Real.sqrt_sq hr0.le]
        rw [this, smul_smul]
        change some (0 + _) = _
        rw [zero_add]
        congr 1
        rw [show (-0 + r) / r ^ 2 * r = 1 by field_simp; ring, one_smul]
      · change ‖r • e - 0‖ ≤ ‖e - 0‖
        rw [sub_zero, sub_zero, hx, he]
        rcases hg1 with h | h <;> rw [h] at hc1 <;> linarith
      · intro h
        rw [show e = 0 from h, norm_zero] at he
        norm_num at he)
  obtain ⟨ρ, rfl⟩ := List.length_eq_one_iff.mp (show radii.length = 1 from hrl)
  -- the branch
  have hbr : ∃ t2 n, tangentBranch ext (r • e) 0 u discTree i ρ t1 = .ok (t2, n)
      ∧ Uniform u (i + 1) t2 := by
    have hk : NodeId.key (i : ℤ) ((0 : ℕ) : ℤ) ((0 : ℕ) : ℤ) ∉ t1.nodes := by
      rw [b3, List.mem_append, List.mem_singleton, not_or]
      constructor
      · intro hm
        rcases hst.ids _ hm with h | ⟨j, c, l, hj, h⟩
        · injection h with h; omega
        · injection h with h; omega
      · intro h; injection h with h1 h2; omega
    obtain ⟨t2, c1, c2, c3, c4, c5⟩ := Uniform.add
      (n := .key i ((0 : ℕ) : ℤ) ((0 : ℕ) : ℤ)) (p := .key i (-1) (-1)) hu b2 b5 hk (by rw [b3]; simp) b4
      (by norm_num)
    refine ⟨t2, e, ?_, c2, c5, ?_⟩
    · unfold tangentBranch
      rw [disc_branch hr he]
      refine bind_ok.mpr ⟨_, rfl, ?_⟩
      simp only
      refine bind_ok.mpr ⟨(t1, u, NodeId.key i (-1) (-1)), rfl, ?_⟩
      simp only
      refine bind_ok.mpr ⟨disc, rfl, ?_⟩
      rw [if_neg (by
        rintro (h | h)
        · cases h
        · exact absurd h (not_lt.mpr heu))]
      exact bind_ok.mpr ⟨t2, c1, rfl⟩
    · intro m hm
      rw [c3, b3, List.mem_append, List.mem_append, List.mem_singleton, List.mem_singleton] at hm
      rcases hm with (hm | rfl) | rfl
      · rcases hst.ids m hm with h | ⟨j, c, l, hj, h⟩
        · exact Or.inl h
        · exact Or.inr ⟨j, c, l, by omega, h⟩
      · exact Or.inr ⟨i, _, _, by omega, rfl⟩
      · exact Or.inr ⟨i, _, _, by omega, rfl⟩
  obtain ⟨t2, n, hb, hU⟩ := hbr
  have hU1 : Uniform u (i + 1) t1 := by
    refine ⟨b2, b5, ?_⟩
    intro m hm
    rw [b3, List.mem_append, List.mem_singleton] at hm
    rcases hm with hm | rfl
    · rcases hst.ids m hm with h | ⟨j, c, l, hj, h⟩
      · exact Or.inl h
      · exact Or.inr ⟨j, c, l, by omega, h⟩
    · exact Or.inr ⟨i, _, _, by omega, rfl⟩
  have hpop : ∃ t3 ns nm, populateTangentTree ext a (r • e) u discTree i [y * 1] [g]
      (st.tree, st.nodes, st.normals) = .ok (t3, ns, nm) ∧ Uniform u (i + 1) t3 := by
    unfold populateTangentTree
    by_cases hy : y * 1 ≤ 0
    · refine ⟨t1, st.nodes, st.normals, bind_ok.mpr ⟨t1, b1, bind_ok.mpr ⟨_, hrr, ?_⟩⟩, hU1⟩
      change List.foldlM _ _ [(0, y * 1, ρ)] = _
      rw [List.foldlM_cons]
      refine bind_ok.mpr ⟨_, if_pos hy, rfl⟩
    · refine ⟨t2, st.nodes ++ [.key i ((0 : ℕ) : ℤ) ((0 : ℕ) : ℤ)], st.normals ++ [n],
        bind_ok.mpr ⟨t1, b1, bind_ok.mpr ⟨_, hrr, ?_⟩⟩, hU⟩
      change List.foldlM _ _ [(0, y * 1, ρ)] = _
      rw [List.foldlM_cons]
      refine bind_ok.mpr ⟨_, ?_, rfl⟩
      unfold populateStep
      simp only
      rw [if_neg hy]
      exact bind_ok.mpr ⟨_, hb, rfl⟩
  obtain ⟨t3, ns, nm, hpop, hU3⟩ := hpop
  refine ⟨⟨t3, ns, nm, st.slow ++ [slow], st.influence ++ [[y * 1].sum],
    st.componentWeights ++ [normalised ([y * 1].filter (fun w => w > 0))]⟩, ?_, hU3⟩
  unfold tangentStep
  exact bind_ok.mpr ⟨_, h1, bind_ok.mpr ⟨_, hocc, bind_ok.mpr ⟨_, hpop, rfl⟩⟩⟩

/-- The preparation succeeds for any number of discs. -/
lemma disc_prepare {ext : Ext d k} {a : Avoider d} (hp : 0 ≤ a.power)
    (hrad : a.convergenceRadius ≤ Real.pi) (hgm : ∀ gm ∈ a.gammaMaximumRepulsion, gm < 1)
    (ht : ∀ t ∈ a.trees, t = discTree)
    {r : ℝ} (hr : 0 < r) {e u : Vec d} (he : ‖e‖ = 1) (hu : ‖u‖ = 1) (heu : 0 ≤ ⟪e, u⟫) :
    ∃ pr, prepareAvoidance ext a (r • e) u = .ok pr ∧ Uniform u a.trees.length pr.tree := by
  obtain ⟨t0, a1, a2, a3, a4, a5⟩ := from_sequence_root (d := d) baseId u hu
  have h0 : Uniform u 0 t0 := by
    refine ⟨a2, ?_, ?_⟩
    · intro m hm
      rw [a3, List.mem_singleton] at hm
      subst hm
      unfold dirOf; rw [a5]; rfl
    · intro m hm
      rw [a3, List.mem_singleton] at hm
      exact Or.inl hm
  have hf : ∀ (ts : List (ObstacleTree d)) (i : ℕ) (st : TangentState d), (∀ t ∈ ts, t = discTree) →
      Uniform u i st.tree → ∃ st', (ts.zipIdx i).foldlM (tangentStep ext a (r • e) u) st = .ok st'
        ∧ Uniform u (i + ts.length) st'.tree := by
    intro ts
    induction ts with
    | nil => intro i st _ h; exact ⟨st, rfl, h⟩
    | cons t ts ih =>
      intro i st hts h
      obtain ⟨st1, h1, h2⟩ := disc_step (ext := ext) hp hrad hgm hr he hu heu h
      obtain ⟨st2, h3, h4⟩ := ih (i + 1) st1 (fun t ht => hts t (List.mem_cons_of_mem _ ht)) h2
      refine ⟨st2, ?_, by rw [List.length_cons]; convert h4 using 1; omega⟩
      rw [List.zipIdx_cons, List.foldlM_cons, hts t List.mem_cons_self]
      exact bind_ok.mpr ⟨st1, h1, h3⟩
  obtain ⟨st, h1, h2⟩ := hf a.trees 0 ⟨t0, [], [], [], [], []⟩ ht h0
  rw [zero_add] at h2
  exact ⟨⟨st.tree, st.nodes ++ [.key (-1) (-1) (-1)], st.normals, st.slow,
    clusterWeights st.influence st.componentWeights⟩,
    bind_ok.mpr ⟨t0, a1, bind_ok.mpr ⟨st, h1, rfl⟩⟩, h2⟩

/-- A whole evaluation with one disc. -/
lemma disc_evaluate (argsort : List ℤ → List ℕ) (has : ArgsortSpec argsort) {r : ℝ} (hr : 1 ≤ r)
    {e v : Vec 2} (he : ‖e‖ = 1) (hv : 1e-8 < ‖v‖) (hev : 0 ≤ ⟪e, v⟫)
    (href : 1e-8 < ‖referenceDirection (r • e) (discAvoider v 1).initial none‖)
    (hopp : ¬ Opposite (referenceDirection (r • e) (discAvoider v 1).initial none) v)
    (hdist : Distinguishable [referenceDirection (r • e) (discAvoider v 1).initial none, v]) :
    ∃ w pr, (discAvoider v 1).evaluate (planeExt argsort) (r • e) = .ok w
      ∧ PreparedFor (planeExt argsort) (discAvoider v 1) (r • e) pr
      ∧ prepareAvoidance (planeExt argsort) (discAvoider v 1) (r • e) (unit v) = .ok pr
      ∧ (∀ pr, PreparedFor (planeExt argsort) (discAvoider v 1) (r • e) pr
        → GoodDirections pr.tree) := by
  classical
  set a := discAvoider v 1 with ha
  set ext := planeExt argsort with hext
  have h0 : (0 : ℝ) < 1e-8 := by norm_num
  have hv0 : v ≠ 0 := norm_pos_iff.mp (h0.trans hv)
  have hr0 : referenceDirection (r • e) a.initial none ≠ 0 := norm_pos_iff.mp (h0.trans href)
  have hpow : (0 : ℝ) ≤ a.power := by rw [ha]; norm_num [discAvoider]
  have hs : SaneTrees a.trees := by
    intro t ht o ho
    have : t = discTree := by simpa [ha, discAvoider] using ht
    subst this
    have : o = disc := by simpa [discTree] using ho
    subst this
    exact disc_sane
  have htree : a.trees = [discTree] := rfl
  have hstatic : ∀ t ∈ a.trees, Static t := by
    intro t ht
    rw [htree, List.mem_singleton] at ht
    subst ht; exact ⟨rfl, rfl⟩
  have hone : AtMostOneContact (r • e) a.trees := by
    rw [htree]; exact List.pairwise_singleton _ _
  have hseq : ∃ s, evaluateDynamicsSequence (r • e) a.initial = .ok (some s) := by
    cases hs : evaluateDynamicsSequence (r • e) a.initial with
    | error er =>
      rcases ((C16_error_iff (r • e) a.initial none rfl er).mp hs).2.2.2 with h | h | h
      · linarith
      · exact absurd hv (not_lt.mpr h)
      · exact absurd h hopp
    | ok s =>
      cases s with
      | none =>
        rcases (C16_none_iff (r • e) a.initial none rfl).mp hs with h | h
        · exact absurd h hr0
        · exact absurd h hv0
      | some s => exact ⟨s, rfl⟩
  obtain ⟨s, hs1⟩ := hseq
  have hin : ∀ t ∈ a.trees, InContact (!₂[0, 1 / 2] : Vec 2) t := by
    intro t ht
    rw [htree, List.mem_singleton] at ht
    subst ht
    refine ⟨disc, by simp [discTree], ?_⟩
    change ‖(!₂[0, 1 / 2] : Vec 2)‖ ≤ 1
    simp [EuclideanSpace.norm_eq, Fin.sum_univ_two]
    norm_num
  obtain ⟨conv, hc1, hc2⟩ := C62_attractor_inside ext a (r • e) _ rfl rfl hin has hdist s hs1
  have hu : ‖unit v‖ = 1 := unit_norm hv0
  have heu : 0 ≤ ⟪e, unit v⟫ := by
    unfold unit; rw [inner_smul_right]; positivity
  obtain ⟨pr, hpr, hU⟩ := disc_prepare (ext := ext) (a := a) hpow
    (by change Real.pi * 0.5 ≤ Real.pi; linarith [Real.pi_pos])
    (by intro gm hgm; have : gm = 0.8 := by simpa [ha, discAvoider] using hgm.symm
        rw [this]; norm_num)
    (by intro t ht; rw [htree, List.mem_singleton] at ht; exact ht) (lt_of_lt_of_le one_pos hr) he hu heu
  have hPF : PreparedFor ext a (r • e) pr := ⟨s, conv, _, hs1, hc1, hc2, hpr⟩
  have huniq : ∀ pr', PreparedFor ext a (r • e) pr' → pr' = pr := by
    rintro pr' ⟨s', conv', u', e1, e2, e3, e4⟩
    rw [hs1] at e1; cases e1
    rw [hc1] at e2; cases e2
    rw [hc2] at e3; cases e3
    have e4' : prepareAvoidance ext a (r • e) (unit v) = .ok pr' := e4
    rw [hpr] at e4'; cases e4'; rfl
  have hgd := hU.good hu
  obtain ⟨hcv, hl⟩ := C42_convex_partial ext a (r • e) (unit v) pr hpow hs hone hpr
  obtain ⟨Ds, hD, _, hnorm, hslow, _, _, hin', _, _, _, c1, _, c2, c3⟩ := prepared_facts hpow hs hpr
  obtain ⟨final, hf, hf1⟩ := C22_unit_convex pr.tree baseId c1 hgd.inner ext.argsort has NodeState.init
    pr.nodes (avoidanceWeights pr.cluster) hl.symm c2 c3 hcv.1 (by rw [hcv.2]; norm_num)
    (le_of_eq hcv.2)
  have hrel := C60_static (r • e) a.trees hstatic (by
    intro t ht; rw [htree, List.mem_singleton] at ht; subst ht; simp [discTree])
  have hle := cluster_le_one hpow hs hone hpr
  have hslw : ∃ w, slowDown (a.magnitude (r • e)) 0 final pr = .ok w := by
    unfold slowDown
    cases hm : pr.cluster.max? with
    | none => exact ⟨_, rfl⟩
    | some m =>
      obtain ⟨p', hp', _⟩ := C35_scaling_range final
        (List.zipWith (fun (n : Vec 2) w => w • n) pr.normals pr.cluster).sum (1 / m) 0.8 3
        (le_of_eq hf1)
        ((averaged_le (by rw [hnorm]; exact normals_le hs hD) (fun w hw => (hin' w hw).1)).trans hle)
        (by norm_num) (by norm_num)
      have hsne : pr.slow ≠ [] := by
        rw [hslow]
        intro h0
        have := hD.length_eq
        rw [List.map_eq_nil_iff.mp h0, List.length_zipIdx] at this
        rw [htree] at this; simp at this
      obtain ⟨c', hc', _⟩ := C36_slowfactor pr.slow 0.2 hsne (by norm_num)
        (by rw [hslow]; exact slow_le hpow hs hD)
      exact ⟨_, bind_ok.mpr ⟨p', hp', bind_ok.mpr ⟨c', hc', if_neg (by rw [hf1]; norm_num)⟩⟩⟩
  obtain ⟨w, hw⟩ := hslw
  refine ⟨w, pr, ?_, hPF, hpr, ?_⟩
  · unfold Avoider.evaluate evaluateSequence
    refine bind_ok.mpr ⟨_, hs1, ?_⟩
    simp only
    rw [if_neg (by rw [htree]; simp)]
    exact bind_ok.mpr ⟨0, hrel, bind_ok.mpr ⟨conv, hc1, bind_ok.mpr ⟨_, hc2,
      bind_ok.mpr ⟨pr, hpr, bind_ok.mpr ⟨final, hf, hw⟩⟩⟩⟩⟩
  · intro pr' h'
    rw [huniq pr' h']; exact hgd

lemma e_norm : ‖(!₂[1, 0] : Vec 2)‖ = 1 := by
  simp [EuclideanSpace.norm_eq, Fin.sum_univ_two]

lemma discs_sane (v : Vec 2) (n : ℕ) : SaneTrees (discAvoider v n).trees := by
  intro t ht o ho
  have : t = discTree := by
    simp only [discAvoider] at ht; exact List.eq_of_mem_replicate ht
  subst this
  have : o = disc := by simpa [discTree] using ho
  subst this
  exact disc_sane

lemma discs_static (v : Vec 2) (n : ℕ) : ∀ t ∈ (discAvoider v n).trees, Static t := by
  intro t ht
  have : t = discTree := by
    simp only [discAvoider] at ht; exact List.eq_of_mem_replicate ht
  subst this
  exact ⟨rfl, rfl⟩

/-- Sliding along the disc: at `(1, 0)` with the velocity `(0, 1/2)`. -/
lemma slide_run (argsort : List ℤ → List ℕ) (has : ArgsortSpec argsort) :
    ∃ w pr, (discAvoider !₂[0, 1 / 2] 1).evaluate (planeExt argsort) ((1 : ℝ) • !₂[1, 0]) = .ok w
      ∧ PreparedFor (planeExt argsort) (discAvoider !₂[0, 1 / 2] 1) ((1 : ℝ) • !₂[1, 0]) pr
      ∧ prepareAvoidance (planeExt argsort) (discAvoider !₂[0, 1 / 2] 1) ((1 : ℝ) • !₂[1, 0])
          (unit !₂[0, 1 / 2]) = .ok pr
      ∧ (∀ pr, PreparedFor (planeExt argsort) (discAvoider !₂[0, 1 / 2] 1) ((1 : ℝ) • !₂[1, 0]) pr
        → GoodDirections pr.tree) := by
  have href : referenceDirection ((1 : ℝ) • !₂[1, 0]) (discAvoider !₂[0, 1 / 2] 1).initial none
      = !₂[-1, 1 / 2] := by
    ext i; fin_cases i <;> simp [referenceDirection, discAvoider]
  have hn1 : 1 ≤ ‖(!₂[-1, 1 / 2] : Vec 2)‖ := by
    rw [EuclideanSpace.norm_eq, Fin.sum_univ_two]
    apply Real.le_sqrt_of_sq_le; simp
  have hn2 : ‖(!₂[-1, 1 / 2] : Vec 2)‖ ≤ 2 := by
    rw [EuclideanSpace.norm_eq, Fin.sum_univ_two]
    apply Real.sqrt_le_iff.mpr; norm_num
  have hv : ‖(!₂[0, 1 / 2] : Vec 2)‖ = 1 / 2 := by
    simp [EuclideanSpace.norm_eq, Fin.sum_univ_two]
  refine disc_evaluate argsort has (le_refl _) e_norm (by rw [hv]; norm_num) ?_ ?_ ?_ ?_
  · simp [PiLp.inner_apply, Fin.sum_univ_two]
  · rw [href]; linarith
  · rw [href]
    rintro ⟨c, hc, h⟩
    have := congrArg (fun w : Vec 2 => w 1) h
    simp at this
    linarith
  · rw [href]
    refine List.isChain_cons_cons.mpr ⟨Or.inr ?_, List.isChain_singleton _⟩
    intro h
    have h0 := h 0
    unfold isclose at h0
    simp only [PiLp.smul_apply, smul_eq_mul, Matrix.cons_val_zero, mul_zero, sub_zero, abs_zero,
      add_zero, mul_neg, mul_one, abs_neg] at h0
    rw [abs_of_nonneg (by positivity)] at h0
    have : 1 / 2 ≤ 1 / ‖(!₂[-1, 1 / 2] : Vec 2)‖ :=
      one_div_le_one_div_of_le (by linarith) hn2
    norm_num at h0 this
    linarith

/-- C41, C61 and C62 are not vacuous: a disc, a position on its surface and a tangential velocity
meet all hypotheses, and the obstacle influences the motion. -/
example : ∃ (ext : Ext 2 1) (a : Avoider 2) (x w c : Vec 2) (s : RotSeq (Vec 2)), 0 ≤ a.power
    ∧ SaneTrees a.trees ∧ AtMostOneContact x a.trees ∧ (∀ t ∈ a.trees, Static t)
    ∧ ArgsortSpec ext.argsort ∧ a.trees ≠ [] ∧ 0 ≤ a.magnitude x
    ∧ (∀ pr, PreparedFor ext a x pr → pr.cluster ≠ [])
    ∧ (∀ pr, PreparedFor ext a x pr → GoodDirections pr.tree) ∧ a.evaluate ext x = .ok w
    ∧ (∃ t o, a.trees[0]? = some t ∧ t.components[0]? = some o ∧ o.gamma x ≤ 1
      ∧ (∀ (j : ℕ) (t' : ObstacleTree 2) (c' : ℕ) (o' : Obstacle 2), a.trees[j]? = some t' →
        t'.components[c']? = some o' → o'.gamma x ≤ 1 → j = 0 ∧ c' = 0) ∧ 0 = t.rootIdx)
    ∧ a.initial.attractorPosition = some c ∧ (∀ t ∈ a.trees, InContact c t)
    ∧ evaluateDynamicsSequence x a.initial = .ok (some s) := by
  obtain ⟨argsort, has⟩ := argsort_exists
  obtain ⟨w, pr, h1, hPF, h2, h3⟩ := slide_run argsort has
  have hp : (0 : ℝ) ≤ (discAvoider !₂[0, 1 / 2] 1).power := by norm_num [discAvoider]
  obtain ⟨s, hs⟩ := hPF
  have honly : ∀ (j : ℕ) (t' : ObstacleTree 2) (c' : ℕ) (o' : Obstacle 2),
      (discAvoider !₂[0, 1 / 2] 1).trees[j]? = some t' → t'.components[c']? = some o' →
      o'.gamma ((1 : ℝ) • !₂[1, 0]) ≤ 1 → j = 0 ∧ c' = 0 := by
    intro j t' c' o' hj hc _
    have hj' : j = 0 := by
      by_contra hne
      rw [List.getElem?_eq_none (by simp [discAvoider]; omega)] at hj; cases hj
    subst hj'
    have : t' = discTree := by simpa [discAvoider] using hj.symm
    subst this
    refine ⟨rfl, ?_⟩
    by_contra hne
    rw [List.getElem?_eq_none (by simp [discTree]; omega)] at hc; cases hc
  have hcon : disc.gamma ((1 : ℝ) • !₂[1, 0]) ≤ 1 := by
    change ‖(1 : ℝ) • (!₂[1, 0] : Vec 2)‖ ≤ 1
    rw [one_smul, e_norm]
  refine ⟨planeExt argsort, discAvoider !₂[0, 1 / 2] 1, (1 : ℝ) • !₂[1, 0], w, !₂[0, 1 / 2], s, hp,
    discs_sane _ _, List.pairwise_singleton _ _, discs_static _ _, has, by simp [discAvoider],
    norm_nonneg _, ?_, h3, h1, ⟨discTree, disc, rfl, rfl, hcon, honly, rfl⟩, rfl, ?_, hs.choose_spec.choose_spec.1⟩
  · rintro pr' ⟨_, _, u, _, _, _, hprep⟩ hnil
    have := (contact_cluster hp (discs_sane _ 1) hprep (i := 0) (t := discTree) rfl (c := 0)
      (o := disc) rfl hcon honly (by intro occ hocc; cases hocc; rfl)).1
    rw [hnil] at this; cases this
  · intro t ht
    have : t = discTree := by simpa [discAvoider] using ht
    subst this
    refine ⟨disc, by simp [discTree], ?_⟩
    change ‖(!₂[0, 1 / 2] : Vec 2)‖ ≤ 1
    simp [EuclideanSpace.norm_eq, Fin.sum_univ_two]
    norm_num

/-- C42 is not vacuous: one disc (convex weights) and two discs in contact. -/
example : ∃ (ext : Ext 2 1) (a b : Avoider 2) (x v : Vec 2) (pr qr : Prepared 2), 0 ≤ a.power
    ∧ SaneTrees a.trees ∧ AtMostOneContact x a.trees ∧ prepareAvoidance ext a x v = .ok pr
    ∧ 0 ≤ b.power ∧ SaneTrees b.trees
    ∧ (∀ t ∈ b.trees, t.rootIdx = 0 ∧ t.components.length = 1)
    ∧ (open Classical in 2 = (b.trees.filter (fun t => InContact x t)).length)
    ∧ prepareAvoidance ext b x v = .ok qr := by
  classical
  obtain ⟨argsort, has⟩ := argsort_exists
  have hu : ‖(!₂[0, 1] : Vec 2)‖ = 1 := by simp [EuclideanSpace.norm_eq, Fin.sum_univ_two]
  have key : ∀ n : ℕ, ∃ pr, prepareAvoidance (planeExt argsort) (discAvoider !₂[0, 1] n)
      ((1 : ℝ) • !₂[1, 0]) !₂[0, 1] = .ok pr := by
    intro n
    obtain ⟨pr, h, _⟩ := disc_prepare (ext := planeExt argsort) (a := discAvoider !₂[0, 1] n)
      (by norm_num [discAvoider]) (by change Real.pi * 0.5 ≤ Real.pi; linarith [Real.pi_pos])
      (by intro gm hgm; have : gm = 0.8 := by simpa [discAvoider] using hgm.symm
          rw [this]; norm_num)
      (by intro t ht; simp only [discAvoider] at ht; exact List.eq_of_mem_replicate ht)
      one_pos e_norm hu (by simp [PiLp.inner_apply, Fin.sum_univ_two])
    exact ⟨pr, h⟩
  obtain ⟨pr, hpr⟩ := key 1
  obtain ⟨qr, hqr⟩ := key 2
  refine ⟨planeExt argsort, discAvoider !₂[0, 1] 1, discAvoider !₂[0, 1] 2, (1 : ℝ) • !₂[1, 0],
    !₂[0, 1], pr, qr, by norm_num [discAvoider], discs_sane _ _, List.pairwise_singleton _ _, hpr,
    by norm_num [discAvoider], discs_sane _ _, ?_, ?_, hqr⟩
  · intro t ht
    have : t = discTree := by simp only [discAvoider] at ht; exact List.eq_of_mem_replicate ht
    subst this
    exact ⟨rfl, rfl⟩
  · have : InContact ((1 : ℝ) • (!₂[1, 0] : Vec 2)) discTree := by
      refine ⟨disc, by simp [discTree], ?_⟩
      change ‖(1 : ℝ) • (!₂[1, 0] : Vec 2)‖ ≤ 1
      rw [one_smul, e_norm]
    have h2 : (discAvoider !₂[0, 1] 2).trees = [discTree, discTree] := rfl
    rw [h2]
    simp only [List.filter_cons, List.filter_nil, decide_eq_true this, if_true, List.length_cons,
      List.length_nil]

/-- Moving away from a disc with a speed of one half: no obstacle has an influence. -/
lemma away_run (argsort : List ℤ → List ℕ) (has : ArgsortSpec argsort) :
    ∃ w pr, (discAvoider !₂[1 / 2, 0] 1).evaluate (planeExt argsort) ((2 : ℝ) • !₂[1, 0]) = .ok w
      ∧ PreparedFor (planeExt argsort) (discAvoider !₂[1 / 2, 0] 1) ((2 : ℝ) • !₂[1, 0]) pr ∧ pr.cluster = []
      ∧ (∀ pr, PreparedFor (planeExt argsort) (discAvoider !₂[1 / 2, 0] 1) ((2 : ℝ) • !₂[1, 0]) pr
        → GoodDirections pr.tree) := by
  classical
  have href : referenceDirection ((2 : ℝ) • !₂[1, 0]) (discAvoider !₂[1 / 2, 0] 1).initial none
      = !₂[-2, 1 / 2] := by
    ext i; fin_cases i <;> simp [referenceDirection, discAvoider]
  have hn1 : 1 ≤ ‖(!₂[-2, 1 / 2] : Vec 2)‖ := by
    rw [EuclideanSpace.norm_eq, Fin.sum_univ_two]
    apply Real.le_sqrt_of_sq_le; norm_num
  have hv : ‖(!₂[1 / 2, 0] : Vec 2)‖ = 1 / 2 := by
    simp [EuclideanSpace.norm_eq, Fin.sum_univ_two]
  have hx : ‖(2 : ℝ) • (!₂[1, 0] : Vec 2)‖ = 2 := by
    rw [norm_smul, e_norm]; norm_num
  obtain ⟨w, pr, h1, hPF, h2, h3⟩ := disc_evaluate argsort has (r := 2) (e := !₂[1, 0])
    (v := !₂[1 / 2, 0]) (by norm_num) e_norm (by rw [hv]; norm_num)
    (by simp [PiLp.inner_apply, Fin.sum_univ_two]) (by rw [href]; linarith)
    (by
      rw [href]
      rintro ⟨c, hc, h⟩
      have := congrArg (fun w : Vec 2 => w 1) h
      simp at this
      linarith)
    (by
      rw [href]
      refine List.isChain_cons_cons.mpr ⟨Or.inr ?_, List.isChain_singleton _⟩
      intro h
      have h0 := h 0
      unfold isclose at h0
      rw [hv] at h0
      simp only [PiLp.smul_apply, smul_eq_mul, Matrix.cons_val_zero] at h0
      have hneg : 1 / ‖(!₂[-2, 1 / 2] : Vec 2)‖ * -2 ≤ 0 := by
        have : 0 ≤ 1 / ‖(!₂[-2, 1 / 2] : Vec 2)‖ := by positivity
        linarith
      have := neg_le_of_abs_le h0
      norm_num at this
      have h1 : 0 ≤ ‖(!₂[-2, 1 / 2] : Vec 2)‖⁻¹ := inv_nonneg.mpr (norm_nonneg _)
      have : ‖(!₂[-2, 1 / 2] : Vec 2)‖⁻¹ * 2 + 1 ≤ 1001 / 100000000 := by
        simpa [one_div] using this
      simp only [one_div] at this h1
      linarith)
  have hp : (0 : ℝ) ≤ (discAvoider !₂[1 / 2, 0] 1).power := by norm_num [discAvoider]
  have hunit : unit (!₂[1 / 2, 0] : Vec 2) = !₂[1, 0] := by
    unfold unit; rw [hv]; ext i; fin_cases i <;> simp
  have hnone : pr.cluster = [] := by
    obtain ⟨Ds, hD, _, _, _, _, hsum, _, _, _, hpos, _⟩ := prepared_facts hp (discs_sane _ 1) h2
    obtain ⟨D, rfl⟩ : ∃ D, Ds = [D] := List.length_eq_one_iff.mp hD.length_eq.symm
    have hd := (List.forall₂_cons.mp hD).1
    obtain ⟨⟨gammas, gw, occ, g1, g2, g3⟩, _⟩ := hd
    have hrot : getRotationWeight (planeExt argsort).angleOf (disc.normal ((2 : ℝ) • !₂[1, 0]))
        (disc.reference ((2 : ℝ) • !₂[1, 0])) (unit !₂[1 / 2, 0]) ‖(2 : ℝ) • (!₂[1, 0] : Vec 2)‖
        (power := 0.3) = .ok 0 := by
      have hr : disc.reference ((2 : ℝ) • !₂[1, 0]) = (-1 : ℝ) • !₂[1, 0] := by
        change (-(1 / ‖(2 : ℝ) • (!₂[1, 0] : Vec 2)‖)) • ((2 : ℝ) • (!₂[1, 0] : Vec 2)) = _
        rw [hx, smul_smul]; norm_num
      have hnn : disc.normal ((2 : ℝ) • !₂[1, 0]) = !₂[1, 0] := by
        change (1 / ‖(2 : ℝ) • (!₂[1, 0] : Vec 2)‖) • ((2 : ℝ) • (!₂[1, 0] : Vec 2)) = _
        rw [hx, smul_smul]; norm_num
      have hu' : unit (!₂[1 / 2, 0] : Vec 2) = (-1 : ℝ) • ((-1 : ℝ) • !₂[1, 0]) := by
        rw [hunit, smul_smul]; norm_num
      rw [hr, hnn, hu', hx]
      refine C32_aligned_zero _ _ _ 2 _ _ _ (by norm_num) (by norm_num) ?_ ?_
      · rw [smul_smul]
        have : Real.cos (Real.pi * 0.5) = 0 := by
          rw [show Real.pi * 0.5 = Real.pi / 2 by ring]; exact Real.cos_pi_div_two
        rw [this]
        norm_num [PiLp.inner_apply, Fin.sum_univ_two]
      · rw [smul_smul]
        have : (planeExt argsort).angleOf !₂[1, 0] (((-1 : ℝ) * -1) • !₂[1, 0]) = 0 := by
          norm_num
          ext i
          fin_cases i
          simp [planeExt, PiLp.inner_apply, Fin.sum_univ_two]
        rw [this, norm_zero, min_self]
        have := Real.pi_pos
        norm_num
        linarith
    have hgw : gw.sum = 0 := by
      have hrun : computeGammaAndWeights (planeExt argsort) (discAvoider !₂[1 / 2, 0] 1).power
          ((2 : ℝ) • !₂[1, 0]) discTree (unit !₂[1 / 2, 0]) =
          (do
            let rw ← getRotationWeight (planeExt argsort).angleOf (disc.normal ((2 : ℝ) • !₂[1, 0]))
              (disc.reference ((2 : ℝ) • !₂[1, 0])) (unit !₂[1 / 2, 0])
              ‖(2 : ℝ) • (!₂[1, 0] : Vec 2)‖ (power := 0.3)
            if ‖(unit !₂[1 / 2, 0] : Vec 2)‖ = 0 then .error .nan
            else
              let gw := computeWeightsFromDistances [‖(2 : ℝ) • (!₂[1, 0] : Vec 2)‖] 1 false
              let proximity := ⟪(1 / ‖(unit !₂[1 / 2, 0] : Vec 2)‖) • (unit !₂[1 / 2, 0] : Vec 2),
                disc.reference ((2 : ℝ) • !₂[1, 0])⟫
              if gw.sum = 0 ∨ rw = 0 then
                .ok (gw.map (fun _ => 1), gw.map (fun _ => 0), rw, proximity)
              else .ok ([‖(2 : ℝ) • (!₂[1, 0] : Vec 2)‖], gw.map (fun w => w / gw.sum * rw), rw,
                proximity)) := rfl
      have g1' : computeGammaAndWeights (planeExt argsort) (discAvoider !₂[1 / 2, 0] 1).power
          ((2 : ℝ) • !₂[1, 0]) discTree (unit !₂[1 / 2, 0]) = .ok (gammas, gw, D.slow) := g1
      rw [hrun, hrot] at g1'
      change (if ‖(unit !₂[1 / 2, 0] : Vec 2)‖ = 0 then _ else _) = _ at g1'
      rw [if_neg (by rw [hunit, e_norm]; norm_num)] at g1'
      simp only [or_true, if_true] at g1'
      have := congrArg Prod.fst (congrArg Prod.snd (Except.ok.inj g1'))
      simp only at this
      rw [← this]
      simp
    have hw0 : D.weights.sum = 0 := by
      obtain ⟨g, _, hl, hnn, hs1, _⟩ := data_weights hp
        (fun o ho => (discs_sane !₂[1 / 2, 0] 1 discTree (by simp [discAvoider]) o ho).gamma_nonneg)
        (List.forall₂_cons.mp hD).1
      obtain ⟨_, _, _, _, _, _, _, hlg, hng, hsg, _⟩ := gammaAndWeights_spec (rw := D.slow.1)
        (prox := D.slow.2) hp g1
      have hocc : occ = [1] := by
        have : computeParentOcclusionWeight ((2 : ℝ) • !₂[1, 0]) discTree = .ok [1] := rfl
        have g2' : computeParentOcclusionWeight ((2 : ℝ) • !₂[1, 0]) discTree = .ok occ := g2
        rw [this] at g2'; cases g2'; rfl
      obtain ⟨y, rfl⟩ := List.length_eq_one_iff.mp (show gw.length = 1 from hlg)
      rw [g3, hocc]
      simpa using hgw
    by_contra hne
    have := hpos hne
    rw [hsum] at this
    simp only [List.map_cons, List.map_nil, hw0] at this
    rw [C28_unchanged [0] (by simp)] at this
    simp at this
  exact ⟨w, pr, h1, hPF, hnone, h3⟩

/-- C41, negative result: moving away from a disc with a speed of one half, the avoider returns a
unit vector; the speed is not bounded by the speed of the initial dynamics. -/
theorem C41_exceeds : ∃ (ext : Ext 2 1) (a : Avoider 2) (x w : Vec 2), SaneTrees a.trees
    ∧ (∀ t ∈ a.trees, Static t) ∧ (∀ t ∈ a.trees, ¬ InContact x t) ∧ ArgsortSpec ext.argsort
    ∧ a.evaluate ext x = .ok w ∧ a.magnitude x = 1 / 2 ∧ ‖w‖ = 1 := by
  obtain ⟨argsort, has⟩ := argsort_exists
  obtain ⟨w, pr, h1, hPF, hnone, h3⟩ := away_run argsort has
  have hv : ‖(!₂[1 / 2, 0] : Vec 2)‖ = 1 / 2 := by
    simp [EuclideanSpace.norm_eq, Fin.sum_univ_two]
  have hx : ‖(2 : ℝ) • (!₂[1, 0] : Vec 2)‖ = 2 := by
    rw [norm_smul, e_norm]; norm_num
  have hp : (0 : ℝ) ≤ (discAvoider !₂[1 / 2, 0] 1).power := by norm_num [discAvoider]
  have hone : AtMostOneContact ((2 : ℝ) • !₂[1, 0]) (discAvoider !₂[1 / 2, 0] 1).trees :=
    List.pairwise_singleton _ _
  refine ⟨planeExt argsort, discAvoider !₂[1 / 2, 0] 1, (2 : ℝ) • !₂[1, 0], w, discs_sane _ _,
    discs_static _ _, ?_, has, h1, hv, ?_⟩
  · rintro t ht ⟨o, ho, hg⟩
    have : t = discTree := by simpa [discAvoider] using ht
    subst this
    have : o = disc := by simpa [discTree] using ho
    subst this
    have hg' : ‖(2 : ℝ) • (!₂[1, 0] : Vec 2)‖ ≤ 1 := hg
    rw [hx] at hg'
    norm_num at hg'
  · exact C41_unit_speed (planeExt argsort) _ _ w hp (discs_sane _ _) hone (discs_static _ _) has
      (by simp [discAvoider]) pr hPF hnone (h3 pr hPF).inner h1

end Verif
