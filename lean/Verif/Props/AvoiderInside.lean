import Verif.Props.AvoiderComponents
import Verif.Props.NoAttractor

/-!
# C61 inside of a component

The reference point of a component decides whether its parent can hide it.
-/

open scoped RealInnerProductSpace

namespace Verif
open Spec

/-- A motion with the constant direction `u`, without attractor, and one obstacle. -/
noncomputable def straightPast (t : ObstacleTree 2) (u : Vec 2) : Avoider 2 where
  initial := { evaluate := fun _ => u, attractorPosition := none }
  convergence := convergenceWithoutSingularity (fun _ => u) (fun _ => u)
  trees := [t]

/-- The root is the unit disc around `(3/2, 0)`, its child the unit disc around the origin, whose reference point is its
centre, outside of the root. -/
noncomputable def loose : ObstacleTree 2 where
  components := [roundX (3 / 2) (3 / 2), roundX 0 0]
  rootIdx := 0
  parentIdx := fun i => if i = 1 then some 0 else none
  position := 0

lemma two_sane (t : ObstacleTree 2) (c0 r0 c1 r1 : ℝ) (u : Vec 2) (ht : t.components = [roundX c0 r0, roundX c1 r1]) :
    SaneTrees (straightPast t u).trees := by
  intro t' ht' o ho
  have : t' = t := by simpa [straightPast] using ht'
  subst this
  rw [ht] at ho
  simp only [List.mem_cons, List.not_mem_nil, or_false] at ho
  rcases ho with rfl | rfl <;> exact round_sane _ _

lemma two_hierarchy {t : ObstacleTree 2} {o0 o1 : Obstacle 2} (ht : t.components = [o0, o1]) (hr : t.rootIdx = 0)
    (h0 : t.parentIdx 0 = none) (h1 : t.parentIdx 1 = some 0) : Hierarchy t := by
  have e0 : ParentsEnd t 0 0 := .stop (by rw [ht]; simp) h0
  refine ⟨by rw [hr, ht]; simp, ?_⟩
  intro c hc
  rw [ht] at hc
  match c with
  | 0 => exact ⟨0, by norm_num, e0⟩
  | 1 => exact ⟨1, by norm_num, .step (by rw [ht]; simp) h1 e0⟩
  | n + 2 => simp at hc

/-- C61, negative result: a component whose reference point is not inside of its parent can be hidden by the parent: the
position is inside of the component and outside of its parent, and the avoider moves with full speed deeper into the
component. -/
theorem C61_shadowed : ∃ (ext : Ext 2 1) (a : Avoider 2) (x w s : Vec 2) (t : ObstacleTree 2) (parent o : Obstacle 2),
    SaneTrees a.trees ∧ (∀ t ∈ a.trees, Static t) ∧ ArgsortSpec ext.argsort ∧ a.trees = [t]
    ∧ t.components = [parent, o] ∧ t.rootIdx = 0 ∧ t.parentIdx 1 = some 0
    ∧ 1 < parent.gamma x ∧ o.gamma x < 1
    ∧ o.intersection x ((-1 : ℝ) • o.reference x) = some s ∧ a.magnitude x = 1
    ∧ a.evaluate ext x = .ok w ∧ ⟪w, o.normal s⟫ = -1 := by
  classical
  obtain ⟨argsort, has⟩ := argsort_exists
  set u : Vec 2 := !₂[-1, 0] with hu_def
  have hu : ‖u‖ = 1 := by rw [hu_def, axis_norm]; norm_num
  set x : Vec 2 := !₂[1 / 4, 0] with hx
  set a := straightPast loose u with ha
  have hg0 : (roundX (3 / 2) (3 / 2)).gamma x = 5 / 4 := by
    rw [hx, round_gamma]; norm_num [abs_of_neg]
  have hg1 : (roundX 0 0).gamma x = 1 / 4 := by
    rw [hx, round_gamma]; norm_num [abs_of_pos]
  have hsane : SaneTrees a.trees := two_sane loose _ _ _ _ u rfl
  have hstatic : ∀ t ∈ a.trees, Static t := by
    intro t ht
    have : t = loose := by simpa [ha, straightPast] using ht
    subst this
    exact ⟨rfl, rfl⟩
  have hint : (roundX 0 0).intersection x ((-1 : ℝ) • (roundX 0 0).reference x) = some !₂[1, 0] := by
    rw [hx, round_reference (by norm_num), axis_smul, round_intersection (t := 3 / 4) (by norm_num) (by norm_num)]
    norm_num
  obtain ⟨slow, hw⟩ := two_weights argsort a.power (t := loose) rfl rfl (x := x) (u := u) (by rw [hg0]; norm_num)
    (by rw [hg1]; norm_num) hu
  rw [hg0, hg1] at hw
  have hocc : computeParentOcclusionWeight x loose = .ok [1, 0] := by
    unfold computeParentOcclusionWeight
    change List.mapM _ [(roundX (3 / 2) (3 / 2), 0), (roundX 0 0, 1)] = _
    refine mapM_ok.mpr (List.Forall₂.cons ?_ (List.Forall₂.cons ?_ List.Forall₂.nil))
    · exact if_pos rfl
    · rw [if_neg (by decide)]
      have hp : loose.parentIdx 1 = some 0 := rfl
      simp only [hp]
      refine bind_ok.mpr ⟨roundX (3 / 2) (3 / 2), rfl, ?_⟩
      unfold parentOcclusionWeight
      have hlt : (roundX 0 0).gamma x < 1 := by rw [hg1]; norm_num
      simp only [hlt, if_true, hint]
      have e1 : x - (roundX 0 0).referencePoint = !₂[1 / 4, 0] := by
        change x - !₂[0, 0] = _
        rw [hx, axis_sub, sub_zero]
      have e2 : (roundX (3 / 2) (3 / 2)).referencePoint - (roundX 0 0).referencePoint = !₂[3 / 2, 0] := by
        change (!₂[3 / 2, 0] : Vec 2) - !₂[0, 0] = _
        rw [axis_sub, sub_zero]
      rw [e1, e2, axis_norm, axis_norm, axis_inner, round_gamma]
      rw [if_neg (by norm_num [abs_of_neg]), if_neg (by norm_num), if_pos (by norm_num [abs_of_pos])]
  obtain ⟨t0, a1, a2, a3, a4, a5⟩ := from_sequence_root (d := 2) baseId u hu
  have hdir0 : ∀ m ∈ t0.nodes, dirOf t0 m = u := by
    intro m hm
    rw [a3, List.mem_singleton] at hm
    subst hm
    unfold dirOf; rw [a5]; rfl
  obtain ⟨t1, b1, b2, b3, b4, b5⟩ := Uniform.add (n := .key ((0 : ℕ) : ℤ) (-1) (-1)) (p := baseId) hu a2 hdir0 (by
      rw [a3, List.mem_singleton]; decide) a2.root_mem a2.root_level (by norm_num)
  obtain ⟨radii, hrr, hrl, _⟩ := C37_radii a.convergenceRadius a.gammaMaximumRepulsion x
    (loose.components.zip [5 / 4, 1 / 4])
    (by change Real.pi * 0.5 ≤ Real.pi; linarith [Real.pi_pos])
    (by intro gm hgm; have : gm = 0.8 := by simpa [ha, straightPast] using hgm.symm
        rw [this]; norm_num)
    (by
      intro c hc hc1
      simp only [loose, List.zip_cons_cons, List.zip_nil_left, List.mem_cons, List.not_mem_nil, or_false] at hc
      rcases hc with rfl | rfl
      · norm_num at hc1
      · exact round_inside (by norm_num) (by norm_num))
  obtain ⟨ρ, σ, rfl⟩ := List.length_eq_two.mp (show radii.length = 2 from hrl)
  have hpop : populateTangentTree (planeExt argsort) a x u loose 0 [0 * 1, 1 * 0] [5 / 4, 1 / 4] (t0, [], [])
      = .ok (t1, [], []) := by
    unfold populateTangentTree
    refine bind_ok.mpr ⟨t1, b1, bind_ok.mpr ⟨_, hrr, ?_⟩⟩
    change List.foldlM _ _ [(0, (0 * 1 : ℝ), ρ), (1, (1 * 0 : ℝ), σ)] = _
    rw [List.foldlM_cons]
    refine bind_ok.mpr ⟨_, if_pos (by norm_num), ?_⟩
    rw [List.foldlM_cons]
    exact bind_ok.mpr ⟨_, if_pos (by norm_num), rfl⟩
  set st : TangentState 2 := ⟨t1, [], [], [] ++ [slow], [] ++ [[(0 * 1 : ℝ), 1 * 0].sum],
    [] ++ [normalised ([(0 * 1 : ℝ), 1 * 0].filter (fun w => w > 0))]⟩ with hst
  have hstep : tangentStep (planeExt argsort) a x u ⟨t0, [], [], [], [], []⟩ (loose, 0) = .ok st := by
    unfold tangentStep
    exact bind_ok.mpr ⟨_, hw, bind_ok.mpr ⟨_, hocc, bind_ok.mpr ⟨_, hpop, rfl⟩⟩⟩
  have hpr : prepareAvoidance (planeExt argsort) a x u = .ok ⟨t1, [baseId], [], [slow], []⟩ := by
    refine bind_ok.mpr ⟨t0, a1, bind_ok.mpr ⟨st, ?_, ?_⟩⟩
    · change List.foldlM _ _ [(loose, 0)] = _
      rw [List.foldlM_cons]
      exact bind_ok.mpr ⟨_, hstep, rfl⟩
    · have hcl : clusterWeights st.influence st.componentWeights = [] := by
        have hz : normalised ([(0 * 1 : ℝ), 1 * 0].filter (fun w => w > 0)) = [] := by
          rw [List.filter_eq_nil_iff.mpr (by intro w hw; simp at hw; rw [hw]; simp)]
          rfl
        change clusterWeights _ ([] ++ [normalised _]) = _
        rw [hz]
        unfold clusterWeights
        cases (getLimitedWeightsToMaxSum st.influence).1 with
        | nil => rfl
        | cons y l => simp
      rw [hcl]
      rfl
  obtain ⟨s, conv, e1, e2, e3⟩ := C113_straight_partial (planeExt argsort) has (fun _ => a.convergence) [loose]
    a.initial (fun _ => u) u a rfl rfl (fun _ => ⟨by change 1e-8 < ‖u‖; rw [hu]; norm_num, unit_of_norm_one hu⟩)
    (fun _ => ⟨by rw [hu]; norm_num, unit_of_norm_one hu⟩) rfl (by
      intro t ht
      have : t = loose := by simpa using ht
      subst this
      exact two_hierarchy rfl rfl rfl rfl) x
  have hgood : GoodDirections t1 := (Uniform.good (i := 1) ⟨b2, b5, by
    intro m hm
    rw [b3, a3] at hm
    simp only [List.mem_append, List.mem_singleton] at hm
    rcases hm with rfl | rfl
    · exact Or.inl rfl
    · exact Or.inr ⟨0, _, _, by omega, rfl⟩⟩ hu)
  have hmean : t1.getWeightedMean argsort NodeState.init [baseId] [1] = .ok u := by
    refine C21_full_weight t1 baseId b2 hgood argsort has _ baseId u ?_
    have hm : baseId ∈ t1.nodes := b2.root_mem
    have := b5 _ hm
    obtain ⟨v, hv, _⟩ := b2.unit_dir _ hm
    unfold dirOf at this
    rw [hv] at this ⊢
    rw [← this]; rfl
  have hrel := C60_static x a.trees hstatic (by
    intro t ht
    have : t = loose := by simpa [ha, straightPast] using ht
    subst this
    simp [loose])
  refine ⟨planeExt argsort, a, x, u, !₂[1, 0], loose, roundX (3 / 2) (3 / 2), roundX 0 0, hsane, hstatic, has, rfl, rfl,
    rfl, rfl, by rw [hg0]; norm_num, by rw [hg1]; norm_num, hint, hu, ?_, ?_⟩
  · unfold Avoider.evaluate evaluateSequence
    refine bind_ok.mpr ⟨_, e1, ?_⟩
    simp only
    rw [if_neg (by simp [ha, straightPast])]
    refine bind_ok.mpr ⟨0, hrel, bind_ok.mpr ⟨conv, e2, bind_ok.mpr ⟨_, e3, bind_ok.mpr ⟨_, hpr,
      bind_ok.mpr ⟨u, ?_, ?_⟩⟩⟩⟩⟩
    · unfold avoidanceDirection avoidanceWeights
      simp only [List.sum_nil, sub_zero, List.nil_append]
      exact hmean
    · unfold slowDown
      simp
  · rw [round_normal (by norm_num), hu_def, axis_inner]; norm_num

/-- The child of the body is attached to the root. -/
lemma body_attached : AttachedTo (roundX 0 (-3 / 4)) (roundX (-3 / 2) (-3 / 2)) where
  inside := by
    change (roundX (-3 / 2) (-3 / 2)).gamma !₂[-3 / 4, 0] < 1
    rw [round_gamma]; norm_num [abs_of_pos]
  convex := by
    have : {y | (roundX (-3 / 2) (-3 / 2)).gamma y < 1} = Metric.ball (!₂[-3 / 2, 0] : Vec 2) 1 := by
      ext y
      rw [Metric.mem_ball, dist_eq_norm]; rfl
    rw [this]
    exact convex_ball _ _
  outward := by
    classical
    intro y hy hg
    set c : Vec 2 := !₂[0, 0] with hc
    set r : Vec 2 := !₂[-3 / 4, 0] with hr
    have hyr : y - r ≠ 0 := sub_ne_zero.mpr hy
    have hn : 0 < ‖r - y‖ := by rw [norm_sub_rev]; exact norm_pos_iff.mpr hyr
    have hgy : ‖y - c‖ < 1 := hg
    have hdir : (-1 : ℝ) • (roundX 0 (-3 / 4)).reference y = (1 / ‖r - y‖) • (y - r) := by
      change (-1 : ℝ) • ((1 / ‖r - y‖) • (r - y)) = _
      rw [smul_comm, neg_one_smul, neg_sub]
    rw [hdir]
    set v := (1 / ‖r - y‖) • (y - r) with hv
    have hv1 : ‖v‖ = 1 := by
      rw [hv, norm_smul, Real.norm_of_nonneg (by positivity), norm_sub_rev y r, one_div_mul_cancel hn.ne']
    have hv0 : v ≠ 0 := by intro h; rw [h] at hv1; simp at hv1
    have hD : ⟪y - c, v⟫ ^ 2 ≤ ⟪y - c, v⟫ ^ 2 - ‖v‖ ^ 2 * (‖y - c‖ ^ 2 - 1) := by
      rw [hv1]; nlinarith [norm_nonneg (y - c)]
    have hint : (roundX 0 (-3 / 4)).intersection y v = some (y +
        (if 0 ≤ (-⟪y - c, v⟫ - √(⟪y - c, v⟫ ^ 2 - ‖v‖ ^ 2 * (‖y - c‖ ^ 2 - 1))) / ‖v‖ ^ 2
          then (-⟪y - c, v⟫ - √(⟪y - c, v⟫ ^ 2 - ‖v‖ ^ 2 * (‖y - c‖ ^ 2 - 1))) / ‖v‖ ^ 2
          else (-⟪y - c, v⟫ + √(⟪y - c, v⟫ ^ 2 - ‖v‖ ^ 2 * (‖y - c‖ ^ 2 - 1))) / ‖v‖ ^ 2) • v) := by
      unfold roundX roundAt
      simp only
      rw [if_neg]
      rintro (h | h)
      · exact hv0 h
      · exact absurd h (not_lt.mpr ((sq_nonneg _).trans hD))
    have hpos : ∀ t : ℝ, 0 ≤ t → ∃ s : ℝ, 0 ≤ s ∧ y + t • v = y + s • (y - r) := fun t ht =>
      ⟨t * (1 / ‖r - y‖), by positivity, by rw [hv, smul_smul]⟩
    obtain ⟨s, hs, he⟩ := hpos _ (show 0 ≤ (if 0 ≤ (-⟪y - c, v⟫ - √(⟪y - c, v⟫ ^ 2 - ‖v‖ ^ 2 * (‖y - c‖ ^ 2 - 1)))
        / ‖v‖ ^ 2 then (-⟪y - c, v⟫ - √(⟪y - c, v⟫ ^ 2 - ‖v‖ ^ 2 * (‖y - c‖ ^ 2 - 1))) / ‖v‖ ^ 2
        else (-⟪y - c, v⟫ + √(⟪y - c, v⟫ ^ 2 - ‖v‖ ^ 2 * (‖y - c‖ ^ 2 - 1))) / ‖v‖ ^ 2) by
      split_ifs with h
      · exact h
      · have := Real.abs_le_sqrt hD
        have := le_abs_self ⟪y - c, v⟫
        exact div_nonneg (by linarith) (by positivity))
    exact ⟨s, hs, by rw [hint, he]; rfl⟩

/-- `C61_inside_partial` and `C61_moving_inside_partial` are not vacuous: inside of the child of the body, attached to the
root, the motion is defined. -/
example : ∃ (argsort : List ℤ → List ℕ) (w : Vec 2),
    (straightPast body !₂[0, 1]).evaluate (planeExt argsort) !₂[1 / 2, 0] = .ok w
      ∧ -1e-3 ≤ ⟪w, (!₂[1, 0] : Vec 2)⟫
      ∧ -1e-3 ≤ ⟪w - movedVelocity !₂[1 / 2, 0] 1 body, (!₂[1, 0] : Vec 2)⟫ := by
  classical
  obtain ⟨argsort, has⟩ := argsort_exists
  set u : Vec 2 := !₂[0, 1] with hu_def
  have hu : ‖u‖ = 1 := by simp [hu_def, EuclideanSpace.norm_eq, Fin.sum_univ_two]
  set a := straightPast body u with ha
  set x : Vec 2 := !₂[1 / 2, 0] with hx
  have hsane : SaneTrees a.trees := two_sane body _ _ _ _ u rfl
  have hstatic : ∀ t ∈ a.trees, Static t := by
    intro t ht
    have : t = body := by simpa [ha, straightPast] using ht
    subst this
    exact ⟨rfl, rfl⟩
  have hpow : (0 : ℝ) ≤ a.power := by norm_num [ha, straightPast]
  obtain ⟨s, conv, e1, e2, e3⟩ := C113_straight_partial (planeExt argsort) has (fun _ => a.convergence) [body]
    a.initial (fun _ => u) u a rfl rfl (fun _ => ⟨by change 1e-8 < ‖u‖; rw [hu]; norm_num, unit_of_norm_one hu⟩)
    (fun _ => ⟨by rw [hu]; norm_num, unit_of_norm_one hu⟩) rfl (by
      intro t ht
      have : t = body := by simpa using ht
      subst this
      exact two_hierarchy rfl rfl rfl rfl) x
  obtain ⟨pr, hpr, hU⟩ := body_prepare argsort (a := a) rfl
    (by change Real.pi * 0.5 ≤ Real.pi; linarith [Real.pi_pos])
    (by intro gm hgm; have : gm = 0.8 := by simpa [ha, straightPast] using hgm.symm
        rw [this]; norm_num) (p := 1 / 2) (by norm_num) (by norm_num) hu (by
      simp [hu_def, PiLp.inner_apply, Fin.sum_univ_two])
  have hrel := C60_static x a.trees hstatic (by
    intro t ht
    have : t = body := by simpa [ha, straightPast] using ht
    subst this
    simp [body])
  obtain ⟨⟨w, hw⟩, _⟩ := run_of_prepared hpow hsane (List.pairwise_singleton _ _) has (by simp [ha, straightPast]) e1 e2
    e3 hpr hrel (hU.good hu).inner
  have hin : (roundX 0 (-3 / 4)).gamma x < 1 := by rw [hx, round_gamma]; norm_num [abs_of_pos]
  have honly : ∀ (j : ℕ) (t' : ObstacleTree 2) (c' : ℕ) (o' : Obstacle 2), a.trees[j]? = some t' →
      t'.components[c']? = some o' → o'.gamma x ≤ 1 → j = 0 ∧ c' = 1 := by
    intro j t' c' o' hj hc hg
    have hj' : j = 0 := by
      by_contra hne
      rw [List.getElem?_eq_none (by simp [ha, straightPast]; omega)] at hj; cases hj
    subst hj'
    have : t' = body := by simpa [ha, straightPast] using hj.symm
    subst this
    refine ⟨rfl, ?_⟩
    match c' with
    | 0 =>
      have : o' = roundX (-3 / 2) (-3 / 2) := by simpa [body] using hc.symm
      rw [this, hx, round_gamma] at hg
      norm_num [abs_of_pos] at hg
    | 1 => rfl
    | n + 2 => rw [List.getElem?_eq_none (by simp [body])] at hc; cases hc
  have hatt : 1 = body.rootIdx ∨ ∃ p parent, body.parentIdx 1 = some p ∧ body.components[p]? = some parent ∧ p ≠ 1
      ∧ AttachedTo (roundX 0 (-3 / 4)) parent :=
    Or.inr ⟨0, _, rfl, rfl, by norm_num, body_attached⟩
  have hmag : a.magnitude x = 1 := hu
  have hs1 := body_outward (p := 1 / 2) (by norm_num) (by norm_num)
  refine ⟨argsort, w, hw, ?_, ?_⟩
  · rcases C61_inside_partial (planeExt argsort) a x w hpow hsane hstatic has (by rw [hmag]; norm_num) 0 body rfl 1 _ rfl
      hin hatt honly hw with rfl | ⟨s, h1, h2⟩
    · rw [inner_zero_left]; norm_num
    · rw [hs1] at h1
      cases h1
      rw [hmag, round_normal (by norm_num), mul_one] at h2
      exact h2
  · obtain ⟨s, h1, h2⟩ := C61_moving_inside_partial (planeExt argsort) a x w hpow hsane has (by rw [hmag]; norm_num) 0 body
      rfl 1 _ rfl hin hatt honly (moves_plain rfl (by
        intro h
        have : ‖u‖ = 0 := by rw [show u = 0 from h, norm_zero]
        rw [hu] at this; norm_num at this) (by simp [ha, straightPast])) hw
    rw [hs1] at h1
    cases h1
    rw [hmag, round_normal (by norm_num), mul_one] at h2
    exact h2

end Verif
