import Verif.Lemmas.TreeOneHot
import Verif.Lemmas.BallAvoider
import Verif.Props.TreeReduce

/-!
# C21 for directions within the tolerance of `np.allclose`
-/

open Verif.Spec
open scoped RealInnerProductSpace

set_option linter.unusedSectionVars false

namespace Verif

variable {I : Type} [DecidableEq I] {d : ℕ}

/-- A rotation by the angle between two directions, in any plane, ends twice their distance away at most. -/
lemma rotated_near {B : Base (Vec d)} (hB : B.ON) {u v : Vec d} (hb : B.b0 = u) (hv : ‖v‖ = 1) :
    ‖planeRot B (InnerProductGeometry.angle u v) B.b0 - v‖ ≤ 2 * ‖u - v‖ := by
  have hu : ‖u‖ = 1 := by rw [← hb]; exact hB.norm_fst
  set w := planeRot B (InnerProductGeometry.angle u v) B.b0 with hw
  have hwn : ‖w‖ = 1 := by rw [hw, planeRot_norm hB, hB.norm_fst]
  have hcos : Real.cos (InnerProductGeometry.angle u v) = ⟪u, v⟫ := by
    rw [InnerProductGeometry.cos_angle, hu, hv]; simp
  have hin : ⟪w, u⟫ = ⟪u, v⟫ := by
    rw [hw, planeRot_b0 hB, inner_add_left, inner_smul_left, inner_smul_left, ← hb]
    simp only [conj_trivial]
    rw [hB.i00, hB.i10, mul_one, mul_zero, add_zero, hb, hcos]
  have heq : ‖w - u‖ = ‖u - v‖ := by
    have h1 : ‖w - u‖ ^ 2 = ‖u - v‖ ^ 2 := by
      rw [norm_sub_sq_real, norm_sub_sq_real, hwn, hu, hv, hin]
    exact (pow_left_inj₀ (norm_nonneg _) (norm_nonneg _) two_ne_zero).mp h1
  calc ‖w - v‖ = ‖(w - u) + (u - v)‖ := by rw [sub_add_sub_cancel]
    _ ≤ ‖w - u‖ + ‖u - v‖ := norm_add_le _ _
    _ = 2 * ‖u - v‖ := by rw [heq]; ring

/-- C21 for all trees: whenever full weight on a node `n` gives a result at all, the result is a unit vector at
most twice the tolerance of `np.allclose` away from the direction stored for `n`; all other nodes are arbitrary. -/
theorem C21_near [Fact (2 ≤ d)] (t : Tree I d) (r : I) (h : RootedTree t r) (argsort : List ℤ → List ℕ)
    (has : ArgsortSpec argsort) (st : NodeState I d) (ns : List I) (ws : List ℝ) (hl : ns.length = ws.length)
    (hnd : ns.Nodup) (hns : ∀ n ∈ ns, n ∈ t.nodes) (n : I) (h1 : (n, (1 : ℝ)) ∈ ns.zip ws)
    (h0 : ∀ p ∈ ns.zip ws, p.1 ≠ n → p.2 = 0) (v : Vec d) (hn : t.dir n = some v) (w : Vec d)
    (hok : t.getWeightedMean argsort st ns ws = .ok w) :
    ‖w‖ = 1 ∧ ‖w - v‖ ≤ 2 * closeness d := by
  have hd := defined_of_mean h has hl hns hok
  have hmem : n ∈ t.nodes := hns n (List.of_mem_zip h1).1
  have hO := orientOf_isOrient h hd
  have hw : t.getWeightedMean argsort st ns ws = t.getWeightedMean argsort st [n] [1] := by
    unfold Tree.getWeightedMean
    rw [one_hot_reduce argsort t st ns ws hl hnd hns n h1 h0]
  rw [hw, one_hot_defined h hd has st n hmem] at hok
  have hok := Except.ok.inj hok
  have hon := hO.on h hmem
  have hvn : dirOf t n = v := by simp [dirOf, hn]
  have hv1 := (dir_eq h hmem).2
  refine ⟨by rw [← hok, planeRot_norm hon, hon.norm_fst], ?_⟩
  have hc0 : 0 ≤ closeness d := by unfold closeness; positivity
  by_cases hr : n = r
  · subst hr
    rw [← hok, hO.root, planeRot_zero]
    simp only [hvn, sub_self, norm_zero]
    positivity
  obtain ⟨p, hp⟩ := h.has_parent n hmem hr
  have hpn := (dir_eq h (h.edge_fst _ _ hp)).2
  by_cases hc : allclose (dirOf t p) (dirOf t n)
  · have := rotated_near hon (hO.b0 h hp) hv1
    rw [← hO.angle hp, hok, hvn] at this
    have h3 := allclose_norm hv1 hc
    rw [hvn] at h3
    linarith
  · have := fromDirections_far_maps (hO.child p n hp)
      (by rw [unit_of_norm_one hpn, unit_of_norm_one hv1]; exact hc)
    rw [← planeRot_b0 hon, hok, unit_of_norm_one hv1, hvn] at this
    rw [this, sub_self, norm_zero]
    positivity

/-- C21: full weight on a node gives a result if no direction of the tree is opposite to its parent. -/
theorem C21_defined [Fact (2 ≤ d)] (t : Tree I d) (r : I) (h : RootedTree t r)
    (hop : ∀ p c, IsParent t p c → ¬ Opposite (dirOf t p) (dirOf t c)) (argsort : List ℤ → List ℕ)
    (has : ArgsortSpec argsort) (st : NodeState I d) (ns : List I) (ws : List ℝ) (hl : ns.length = ws.length)
    (hnd : ns.Nodup) (hns : ∀ n ∈ ns, n ∈ t.nodes) (n : I) (h1 : (n, (1 : ℝ)) ∈ ns.zip ws)
    (h0 : ∀ p ∈ ns.zip ws, p.1 ≠ n → p.2 = 0) :
    ∃ w, t.getWeightedMean argsort st ns ws = .ok w := by
  have hd : Defined t := by
    intro p c hp
    have hpn := (dir_eq h (h.edge_fst _ _ hp)).2
    have hcn := (dir_eq h (h.edge_snd _ _ hp)).2
    have hp0 : dirOf t p ≠ 0 := by intro h0; rw [h0] at hpn; simp at hpn
    have hc0 : dirOf t c ≠ 0 := by intro h0; rw [h0] at hcn; simp at hcn
    by_cases hc : allclose (unit (dirOf t p)) (unit (dirOf t c))
    · exact ⟨_, fromDirections_close hp0 hc0 hc⟩
    · exact ⟨_, fromDirections_far hp0 hc0 hc (hop p c hp)⟩
  have hw : t.getWeightedMean argsort st ns ws = t.getWeightedMean argsort st [n] [1] := by
    unfold Tree.getWeightedMean
    rw [one_hot_reduce argsort t st ns ws hl hnd hns n h1 h0]
  rw [hw]
  exact ⟨_, one_hot_defined h hd has st n (hns n (List.of_mem_zip h1).1)⟩

/-- A direction within the tolerance of the third axis. -/
noncomputable def nearE2 : Vec 3 := !₂[0, Real.sin 1e-9, Real.cos 1e-9]

lemma nearE2_norm : ‖nearE2‖ = 1 := by
  rw [EuclideanSpace.norm_eq, nearE2]
  simp [Fin.sum_univ_three]

/-- The example tree with a fourth node whose direction is within the tolerance of the one of its parent. -/
noncomputable def nearTree : Tree ℕ 3 := (exTree.addNode 3 nearE2 (some 2)).1

lemma nearTree_ok : (exTree.addNode 3 nearE2 (some 2)).2 = .ok () :=
  (addNode_ok_iff exTree 0 exTree_rooted 3 2 nearE2).mpr
    ⟨fun h => by have := nearE2_norm; rw [h] at this; simp at this, by simp [exTree], by simp [exTree], 2,
      by simp [exTree], by norm_num⟩

lemma nearTree_rooted : RootedTree nearTree 0 :=
  C17_add_node exTree 0 exTree_rooted 3 2 nearE2 nearTree_ok

lemma nearTree_facts : nearTree.nodes = exTree.nodes ++ [3] ∧ IsParent nearTree 2 3
    ∧ nearTree.dir 3 = some nearE2 ∧ (∀ m, m ≠ 3 → nearTree.dir m = exTree.dir m)
    ∧ ∀ p c, IsParent nearTree p c → IsParent exTree p c ∨ (p = 2 ∧ c = 3) := by
  obtain ⟨h1, h2, h3, h4, _⟩ := C17_add_node_effect exTree 0 exTree_rooted 3 2 nearE2 nearTree_ok
  refine ⟨h1, ?_, ?_, fun m hm => (h4 m hm).1, ?_⟩
  · unfold IsParent nearTree; rw [h2]; simp
  · unfold nearTree
    rw [h3, unit_of_norm_one nearE2_norm]
  · intro p c hp
    unfold IsParent nearTree at hp
    rw [h2] at hp
    rcases List.mem_append.mp hp with hp | hp
    · exact Or.inl hp
    · simp only [List.mem_singleton, Prod.mk.injEq] at hp
      exact Or.inr hp

lemma tiny_sin : 0 < Real.sin 1e-9 ∧ Real.sin 1e-9 ≤ 1e-9 :=
  ⟨Real.sin_pos_of_pos_of_lt_pi (by norm_num) (by linarith [Real.pi_gt_three]), Real.sin_le (by norm_num)⟩

lemma tiny_cos : 1 - 1e-9 ≤ Real.cos 1e-9 := by
  have := Real.one_sub_sq_div_two_le_cos (x := 1e-9)
  norm_num at this ⊢; linarith

lemma nearE2_close : allclose (e3 2) nearE2 ∧ e3 2 ≠ nearE2 := by
  obtain ⟨s0, s1⟩ := tiny_sin
  have c0 := tiny_cos
  have c1 := Real.cos_le_one 1e-9
  constructor
  · intro i
    unfold isclose
    fin_cases i
    · simp [e3, nearE2]; norm_num
    · simp only [e3, nearE2]
      simp
      rw [abs_of_pos (by norm_num at s0 ⊢; exact s0)]
      norm_num at s0 s1 ⊢
      linarith
    · simp only [e3, nearE2]
      simp
      rw [abs_of_nonneg (by norm_num at c1 ⊢; linarith)]
      norm_num at c0 ⊢
      linarith [abs_nonneg (Real.cos (1 / 1000000000))]
  · intro he
    have := congrArg (fun v : Vec 3 => v 1) he
    simp [e3, nearE2] at this
    norm_num at s0 this
    linarith

lemma nearE2_inner : ⟪e3 2, nearE2⟫ = Real.cos 1e-9 := by
  simp [e3, nearE2, PiLp.inner_apply, Fin.sum_univ_three]

lemma nearTree_not_opposite (p c : ℕ) (hp : IsParent nearTree p c) :
    ¬ Opposite (dirOf nearTree p) (dirOf nearTree c) := by
  obtain ⟨_, _, h3, h4, h5⟩ := nearTree_facts
  rcases h5 p c hp with h | ⟨rfl, rfl⟩
  · have hp3 : p ≠ 3 := by rintro rfl; simp [IsParent, exTree] at h
    have hc3 : c ≠ 3 := by rintro rfl; simp [IsParent, exTree] at h
    have e1 : dirOf nearTree p = dirOf exTree p := by unfold dirOf; rw [h4 p hp3]
    have e2 : dirOf nearTree c = dirOf exTree c := by unfold dirOf; rw [h4 c hc3]
    rw [e1, e2]
    exact (exTree_good p c h).1
  · have e1 : dirOf nearTree 2 = e3 2 := by unfold dirOf; rw [h4 2 (by norm_num)]; simp [exTree]
    have e2 : dirOf nearTree 3 = nearE2 := by unfold dirOf; rw [h3]; rfl
    rw [e1, e2]
    intro ho
    have hn : ‖e3 2‖ = 1 := by simp [e3]
    have hu : e3 2 ≠ 0 := e3_ne_zero 2
    have hv : nearE2 ≠ 0 := fun h => by have := nearE2_norm; rw [h] at this; simp at this
    have := (opposite_iff_inner hu hv).mp ho
    rw [unit_of_norm_one hn, unit_of_norm_one nearE2_norm, nearE2_inner] at this
    have c0 := tiny_cos
    norm_num at this c0
    linarith

/-- C21, negative result: within the tolerance of `np.allclose` the stored direction itself is not returned: the
rotation goes into another plane. -/
theorem C21_tolerance (argsort : List ℤ → List ℕ) (has : ArgsortSpec argsort) (st : NodeState ℕ 3) :
    ∃ w, nearTree.getWeightedMean argsort st [3] [1] = .ok w ∧ nearTree.dir 3 = some nearE2 ∧ w ≠ nearE2 := by
  obtain ⟨h1, h2, h3, h4, h5⟩ := nearTree_facts
  have hd : Defined nearTree := by
    obtain ⟨w, hw⟩ := C21_defined nearTree 0 nearTree_rooted nearTree_not_opposite argsort has st [3] [1] rfl
      (by simp) (by rw [h1]; simp) 3 (by simp) (by simp)
    exact defined_of_mean nearTree_rooted has rfl (by rw [h1]; simp) hw
  have hmem : 3 ∈ nearTree.nodes := by rw [h1]; simp
  refine ⟨_, one_hot_defined nearTree_rooted hd has st 3 hmem, h3, ?_⟩
  have hO := orientOf_isOrient nearTree_rooted hd
  have e1 : dirOf nearTree 2 = e3 2 := by unfold dirOf; rw [h4 2 (by norm_num)]; simp [exTree]
  have e2 : dirOf nearTree 3 = nearE2 := by unfold dirOf; rw [h3]; rfl
  have hn : ‖e3 2‖ = 1 := by simp [e3]
  have hu : e3 2 ≠ 0 := e3_ne_zero 2
  have hv : nearE2 ≠ 0 := fun h => by have := nearE2_norm; rw [h] at this; simp at this
  have hc := hO.child 2 3 h2
  rw [e1, e2, fromDirections_close hu hv (by
    rw [unit_of_norm_one hn, unit_of_norm_one nearE2_norm]; exact nearE2_close.1)] at hc
  have hc := Option.some.inj hc
  rw [planeRot_b0 (hO.on nearTree_rooted hmem), ← hc]
  simp only [unit_of_norm_one hn]
  intro he
  have h0 := congrArg (fun v : Vec 3 => v 0) he
  have hs : Real.sin (InnerProductGeometry.angle (e3 2) nearE2) = 0 := by
    have hp : parallelPerp (e3 2) 0 = 1 := by
      unfold parallelPerp
      rw [if_pos (by simp [e3, i0, i1])]
      simp [i0]
    have h2 : (e3 2 : Vec 3) 0 = 0 := by simp [e3]
    have h3 : nearE2 0 = 0 := by simp [nearE2]
    simp only [PiLp.add_apply, PiLp.smul_apply, hp, h2, h3, smul_eq_mul, mul_zero, mul_one, zero_add] at h0
    exact h0
  have hcos : Real.cos (InnerProductGeometry.angle (e3 2) nearE2) = Real.cos 1e-9 := by
    rw [InnerProductGeometry.cos_angle, hn, nearE2_norm, nearE2_inner]; simp
  have a1 := Real.sin_sq_add_cos_sq (InnerProductGeometry.angle (e3 2) nearE2)
  have a2 := Real.sin_sq_add_cos_sq 1e-9
  rw [hs, hcos] at a1
  have := tiny_sin.1
  nlinarith

/-- The hypotheses of C21_near and C21_defined are met by a tree with two directions within the tolerance. -/
example : RootedTree nearTree 0 ∧ (∃ a, ArgsortSpec a)
    ∧ (∀ p c, IsParent nearTree p c → ¬ Opposite (dirOf nearTree p) (dirOf nearTree c))
    ∧ IsParent nearTree 2 3 ∧ allclose (e3 2) nearE2 ∧ e3 2 ≠ nearE2 :=
  ⟨nearTree_rooted, argsort_exists, nearTree_not_opposite, nearTree_facts.2.1, nearE2_close⟩

end Verif
