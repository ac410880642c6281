import Verif.Lemmas.Contact
import Verif.Lemmas.TreeOneHot

/-!
# C61: no penetration in contact; C42: the weights for several contacts
-/

open scoped RealInnerProductSpace

namespace Verif
open Spec

variable {d k : ℕ} [Fact (2 ≤ d)]
set_option linter.unusedSectionVars false

/-- Convex weights which contain a one. -/
lemma exists_one_hot {α : Type} {ns : List α} {ws : List ℝ} (hl : ns.length = ws.length)
    (hc : Convex ws) (h1 : (1 : ℝ) ∈ ws) :
    ∃ n, (n, (1 : ℝ)) ∈ ns.zip ws ∧ ∀ p ∈ ns.zip ws, p.1 ≠ n → p.2 = 0 := by
  obtain ⟨i, hi, hw⟩ := List.getElem_of_mem h1
  have hin : i < ns.length := by omega
  have hsp := split_at hi
  have hoh := one_hot (pre := ws.take i) (post := ws.drop (i + 1)) (w := ws[i]) (by rw [← hsp]; exact hc.1) hw
    (by rw [← hsp, hc.2])
  refine ⟨ns[i], ?_, ?_⟩
  · rw [List.mem_iff_getElem]
    exact ⟨i, by rw [List.length_zip]; omega, by rw [List.getElem_zip, hw]⟩
  · rintro p hp hne
    obtain ⟨j, hj, rfl⟩ := List.getElem_of_mem hp
    rw [List.length_zip] at hj
    rw [List.getElem_zip] at hne ⊢
    have hjw : j < ws.length := by omega
    simp only at hne ⊢
    have hji : j ≠ i := by rintro rfl; exact hne rfl
    rcases Nat.lt_or_gt_of_ne hji with h | h
    · refine hoh.1 _ ?_
      rw [List.mem_take_iff_getElem]
      exact ⟨j, by omega, rfl⟩
    · refine hoh.2 _ ?_
      rw [List.mem_drop_iff_getElem]
      exact ⟨j - (i + 1), by omega, by congr 1; omega⟩

/-- In contact with exactly one component the direction is a unit vector, whatever the directions in the tree. -/
lemma contact_unit {ext : Ext d k} {a : Avoider d} {x v final : Vec d} {pr : Prepared d}
    (hp : 0 ≤ a.power) (hs : SaneTrees a.trees) (hone : AtMostOneContact x a.trees)
    (has : ArgsortSpec ext.argsort) (h : prepareAvoidance ext a x v = .ok pr)
    (hmax : pr.cluster.max? = some 1) (hf : avoidanceDirection ext pr = .ok final) : ‖final‖ = 1 := by
  obtain ⟨hc, hl⟩ := C42_convex_partial ext a x v pr hp hs hone h
  obtain ⟨Ds, _, _, _, _, _, _, _, _, _, _, c1, _, c2, c3⟩ := prepared_facts hp hs h
  have h1 : (1 : ℝ) ∈ avoidanceWeights pr.cluster :=
    List.mem_append_left _ (List.max?_mem hmax)
  obtain ⟨n, hn, hz⟩ := exists_one_hot hl.symm hc h1
  unfold avoidanceDirection at hf
  have hd := defined_of_mean c1 has hl.symm c3 hf
  have hmem := c3 n (List.of_mem_zip hn).1
  have hw : pr.tree.getWeightedMean ext.argsort NodeState.init pr.nodes (avoidanceWeights pr.cluster)
      = pr.tree.getWeightedMean ext.argsort NodeState.init [n] [1] := by
    unfold Tree.getWeightedMean
    rw [one_hot_reduce ext.argsort pr.tree NodeState.init pr.nodes _ hl.symm c2 c3 n hn hz]
  rw [hw, one_hot_defined c1 hd has NodeState.init n hmem] at hf
  have hon := (orientOf_isOrient c1 hd).on c1 hmem
  rw [← Except.ok.inj hf, planeRot_norm hon, hon.norm_fst]

/-- In contact with exactly one component, the returned velocity minus the relative velocity of the
obstacles does not point into the obstacle. -/
lemma contact_core {ext : Ext d k} {a : Avoider d} {x w : Vec d} (hp : 0 ≤ a.power)
    (hs : SaneTrees a.trees) (has : ArgsortSpec ext.argsort) (hmag : 0 ≤ a.magnitude x)
    {i : ℕ} {t : ObstacleTree d} (hti : a.trees[i]? = some t)
    {c : ℕ} {o : Obstacle d} (hc : t.components[c]? = some o) (hcon : o.gamma x ≤ 1)
    (honly : ∀ j t' c' o', a.trees[j]? = some t' → t'.components[c']? = some o' → o'.gamma x ≤ 1 →
      j = i ∧ c' = c)
    (hocc : c = t.rootIdx ∨
      ∀ occ, computeParentOcclusionWeight x t = .ok occ → occ.getD c 0 = 1)
    (h : a.evaluate ext x = .ok w) :
    (w = 0 ∧ evaluateDynamicsSequence x a.initial = .ok none)
    ∨ ∃ rel s, relativeVelocity x a.trees = .ok rel
      ∧ o.intersection x ((-1 : ℝ) • o.reference x) = some s
      ∧ -1e-3 * a.magnitude x ≤ ⟪w - rel, o.normal s⟫ := by
  classical
  have hne : a.trees ≠ [] := by rintro h0; rw [h0] at hti; cases hti
  have htm : t ∈ a.trees := List.mem_of_getElem? hti
  have hocc' : ∀ occ, computeParentOcclusionWeight x t = .ok occ → occ.getD c 0 = 1 := by
    rcases hocc with rfl | h'
    · intro occ hoc
      have := occlusion_spec hoc (fun o ho => (hs t htm o ho).gamma_nonneg)
      refine this.2.2 ?_
      rw [this.1]
      by_contra hcn
      rw [List.getElem?_eq_none (by omega)] at hc; cases hc
    · exact h'
  rcases evaluate_run hne h with ⟨rfl, hz⟩ | ⟨pr, rel, final, hpr, hrel, hf, hsl⟩
  · exact Or.inl ⟨rfl, hz⟩
  right
  obtain ⟨s, conv, u, _, _, _, hprep⟩ := hpr
  obtain ⟨hmax, hbn⟩ := contact_cluster hp hs hprep hti hc hcon honly hocc'
  have hone : AtMostOneContact x a.trees := by
    unfold AtMostOneContact
    rw [List.pairwise_iff_getElem]
    rintro j l hj hl hjl ⟨⟨o1, ho1, hg1⟩, ⟨o2, ho2, hg2⟩⟩
    obtain ⟨c1, hc1, rfl⟩ := List.getElem_of_mem ho1
    obtain ⟨c2, hc2, rfl⟩ := List.getElem_of_mem ho2
    have e1 := (honly j _ c1 _ (List.getElem?_eq_getElem hj) (List.getElem?_eq_getElem hc1) hg1).1
    have e2 := (honly l _ c2 _ (List.getElem?_eq_getElem hl) (List.getElem?_eq_getElem hc2) hg2).1
    omega
  have hu := contact_unit hp hs hone has hprep hmax hf
  obtain ⟨Ds, hD, _, hnorm, hslow, _⟩ := prepared_facts hp hs hprep
  obtain ⟨o', _, ho', y, hy, hyi⟩ := branchNormal_eq hbn
  rw [hc] at ho'
  cases ho'
  refine ⟨rel, y, hrel, hyi hcon, ?_⟩
  unfold slowDown at hsl
  rw [hmax] at hsl
  simp only at hsl
  rw [hy] at hsl
  obtain ⟨prox, h1, hsl⟩ := bind_ok.mp hsl
  obtain ⟨cf, h2, hsl⟩ := bind_ok.mp hsl
  rw [if_neg (by rw [hu]; norm_num)] at hsl
  cases hsl
  have hsne : pr.slow ≠ [] := by
    rw [hslow]
    intro h0
    have := hD.length_eq
    rw [List.map_eq_nil_iff.mp h0, List.length_zipIdx] at this
    exact hne (List.length_eq_zero_iff.mp this)
  obtain ⟨c', hc', c0, c1, _⟩ := C36_slowfactor pr.slow 0.2 hsne (by norm_num)
    (by rw [hslow]; exact slow_le hp hs hD)
  rw [h2] at hc'
  injection hc' with hc'
  subst hc'
  obtain ⟨p', hp', p0, p1⟩ := C35_scaling_range final (o.normal y) (1 / 1) 0.8 3 (le_of_eq hu)
    ((hs t htm o (List.mem_of_getElem? hc)).normal_le y) (by norm_num) (by norm_num)
  rw [h1] at hp'
  injection hp' with hp'
  subst hp'
  rw [add_sub_cancel_right, inner_smul_left, hu, div_one]
  simp only [conj_trivial]
  by_cases hdot : ⟪final, o.normal y⟫ < -1e-3
  · have := (C35_scaling_cases final (o.normal y) (1 / 1) 0.8 3).2 (le_of_eq hu) (by norm_num) hdot
    rw [h1] at this
    injection this with this
    rw [this, min_eq_right c0]
    norm_num
    positivity
  · push Not at hdot
    have m0 : 0 ≤ min cf prox := le_min c0 p0
    have m1 : min cf prox ≤ 1 := min_le_of_left_le c1
    have : -1e-3 * (a.magnitude x * min cf prox) ≤ a.magnitude x * min cf prox * ⟪final, o.normal y⟫ := by
      nlinarith [mul_nonneg hmag m0]
    nlinarith [mul_nonneg hmag (sub_nonneg.mpr m1)]

/-- C61 (partial): on the surface (or inside) of exactly one component `o` of one static obstacle,
if this component is not occluded by its parent (in particular for the root component), the velocity
returned by the avoider does not point into the obstacle, up to a thousandth of the nominal speed.
The normal is taken at the surface point in the direction away from the reference point, as the
avoider does.

Missing for the full property: several components in contact at the same time, occluded components,
and moving obstacles. -/
theorem C61_no_penetration_partial (ext : Ext d k) (a : Avoider d) (x w : Vec d) (hp : 0 ≤ a.power)
    (hs : SaneTrees a.trees) (hstatic : ∀ t ∈ a.trees, Static t) (has : ArgsortSpec ext.argsort)
    (hmag : 0 ≤ a.magnitude x)
    (i : ℕ) (t : ObstacleTree d) (hti : a.trees[i]? = some t)
    (c : ℕ) (o : Obstacle d) (hc : t.components[c]? = some o) (hcon : o.gamma x ≤ 1)
    (honly : ∀ j t' c' o', a.trees[j]? = some t' → t'.components[c']? = some o' → o'.gamma x ≤ 1 →
      j = i ∧ c' = c)
    (hocc : c = t.rootIdx ∨
      ∀ occ, computeParentOcclusionWeight x t = .ok occ → occ.getD c 0 = 1)
    (h : a.evaluate ext x = .ok w) :
    w = 0 ∨ ∃ s, o.intersection x ((-1 : ℝ) • o.reference x) = some s
      ∧ -1e-3 * a.magnitude x ≤ ⟪w, o.normal s⟫ := by
  rcases contact_core hp hs has hmag hti hc hcon honly hocc h with ⟨rfl, _⟩ | ⟨rel, s, h1, h2, h3⟩
  · exact Or.inl rfl
  · rw [relative_static hstatic h1, sub_zero] at h3
    exact Or.inr ⟨s, h2, h3⟩

/-- A moving dynamics has a sequence. -/
lemma moves_sequence {dyn : Dynamics d} {x : Vec d} (h : MovesAt dyn x) :
    evaluateDynamicsSequence x dyn ≠ .ok none := by
  intro h0
  cases hown : dyn.ownSequence with
  | some f =>
    rw [C16_own_sequence x dyn none f hown] at h0
    exact h.2 f hown h0
  | none =>
    obtain ⟨hmove, hatt⟩ := h.1 hown
    rcases (C16_none_iff x dyn none hown).mp h0 with h0 | h0
    · unfold referenceDirection at h0
      cases hA : dyn.attractorPosition with
      | none => rw [hA] at h0; exact hmove h0
      | some c => rw [hA] at h0; exact hatt (by rw [hA, sub_eq_zero.mp h0])
    · exact hmove h0

/-- A dynamics without an own sequence. -/
lemma moves_plain {dyn : Dynamics d} {x : Vec d} (hown : dyn.ownSequence = none) (hmove : dyn.evaluate x ≠ 0)
    (hatt : dyn.attractorPosition ≠ some x) : MovesAt dyn x :=
  ⟨fun _ => ⟨hmove, hatt⟩, fun f hf => by rw [hown] at hf; cases hf⟩

/-- C61 (partial): moving obstacles in the plane.  In contact with exactly one component, the
velocity returned by the avoider, seen from the surface of the obstacle (which moves with its linear
velocity, its rotation and its deformation), does not point into the obstacle, up to a thousandth
of the nominal speed, unless the initial dynamics is at rest.

Missing: several components in contact, occluded components, more dimensions (see `C61_space_partial`), and rest of
the initial dynamics (see `C61_rest_overrun`). -/
theorem C61_moving_partial (ext : Ext 2 k) (a : Avoider 2) (x w : Vec 2) (hp : 0 ≤ a.power)
    (hs : SaneTrees a.trees) (has : ArgsortSpec ext.argsort)
    (hmag : 0 ≤ a.magnitude x)
    (i : ℕ) (t : ObstacleTree 2) (hti : a.trees[i]? = some t)
    (c : ℕ) (o : Obstacle 2) (hc : t.components[c]? = some o) (hcon : o.gamma x ≤ 1)
    (honly : ∀ j t' c' o', a.trees[j]? = some t' → t'.components[c']? = some o' → o'.gamma x ≤ 1 →
      j = i ∧ c' = c)
    (hocc : c = t.rootIdx ∨
      ∀ occ, computeParentOcclusionWeight x t = .ok occ → occ.getD c 0 = 1)
    (hmove : MovesAt a.initial x)
    (h : a.evaluate ext x = .ok w) :
    ∃ s, o.intersection x ((-1 : ℝ) • o.reference x) = some s
      ∧ -1e-3 * a.magnitude x ≤ ⟪w - movedVelocity x 1 t, o.normal s⟫ := by
  rcases contact_core hp hs has hmag hti hc hcon honly hocc h with ⟨_, h0⟩ | ⟨rel, s, h1, h2, h3⟩
  · exact absurd h0 (moves_sequence hmove)
  · refine ⟨s, h2, ?_⟩
    have hi : i < a.trees.length := by
      by_contra hn
      rw [List.getElem?_eq_none (by omega)] at hti; cases hti
    have ht : a.trees[i] = t := by
      rw [List.getElem?_eq_getElem hi] at hti; exact Option.some.inj hti
    have h1' := h1
    unfold relativeVelocity at h1'
    obtain ⟨gs, hgs, _⟩ := bind_ok.mp h1'
    have := C60_contact x a.trees gs hgs i hi (by rw [ht]; exact ⟨o, List.mem_of_getElem? hc, hcon⟩) (by
      rintro j hj hne ⟨o', ho', hg'⟩
      obtain ⟨c', hc', rfl⟩ := List.getElem_of_mem ho'
      exact hne (honly j _ c' _ (List.getElem?_eq_getElem hj) (List.getElem?_eq_getElem hc') hg').1)
    rw [h1, ht] at this
    rw [← Except.ok.inj this]
    exact h3

/-- On the surface of a component and outside of all others it is not shadowed by its parent. -/
lemma surface_not_shadowed {x : Vec d} {t : ObstacleTree d} {c : ℕ} {o : Obstacle d}
    (hc : t.components[c]? = some o) (hon : OnSurface o x) (hnear : c = t.rootIdx ∨ NearFirst o x)
    (honly : ∀ c' o', t.components[c']? = some o' → o'.gamma x ≤ 1 → c' = c) :
    ∀ occ, computeParentOcclusionWeight x t = .ok occ → occ.getD c 0 = 1 := by
  intro occ h
  unfold computeParentOcclusionWeight at h
  have h2 := mapM_ok.mp h
  have hlen := h2.length_eq
  rw [List.length_zipIdx] at hlen
  have hcl : c < t.components.length := by
    by_contra hn
    rw [List.getElem?_eq_none (by omega)] at hc; cases hc
  have hi : c < occ.length := by omega
  have := (List.forall₂_iff_get.mp h2).2 c (by rw [List.length_zipIdx]; exact hcl) hi
  have ho : t.components[c] = o := by
    rw [List.getElem?_eq_getElem hcl] at hc; exact Option.some.inj hc
  simp only [List.get_eq_getElem, List.getElem_zipIdx, Nat.zero_add, ho] at this
  rw [List.getD_eq_getElem?_getD, List.getElem?_eq_getElem hi, Option.getD_some]
  split_ifs at this with hroot
  · injection this with this; exact this.symm
  · split at this
    · cases this
    · rename_i p hp
      obtain ⟨parent, hpar, this⟩ := bind_ok.mp this
      have hg : 1 ≤ parent.gamma x := by
        unfold ObstacleTree.getComponent at hpar
        split at hpar
        · cases hpar
        · rename_i q hq
          injection hpar with hpar
          subst hpar
          by_contra hlt
          push Not at hlt
          have := honly p _ hq hlt.le
          subst this
          rw [hc] at hq
          cases hq
          rw [hon.gamma] at hlt
          exact lt_irrefl _ hlt
      unfold parentOcclusionWeight at this
      have hin : o.intersection x (o.reference x) = some x := by
        rcases hnear with h | h
        · exact absurd h hroot
        · exact h
      simp only [hon.gamma, lt_irrefl, if_false, hin] at this
      rw [if_pos hg] at this
      injection this with this
      exact this.symm

/-- Inside of a component and outside of all others the component is not shadowed by a parent to which it is
attached. -/
lemma inside_not_shadowed {x : Vec d} {t : ObstacleTree d} {c : ℕ} {o : Obstacle d}
    (hc : t.components[c]? = some o) (hin : o.gamma x < 1)
    (hatt : c = t.rootIdx ∨ ∃ p parent, t.parentIdx c = some p ∧ t.components[p]? = some parent ∧ p ≠ c
      ∧ AttachedTo o parent)
    (honly : ∀ c' o', t.components[c']? = some o' → o'.gamma x ≤ 1 → c' = c) :
    ∀ occ, computeParentOcclusionWeight x t = .ok occ → occ.getD c 0 = 1 := by
  intro occ h
  unfold computeParentOcclusionWeight at h
  have h2 := mapM_ok.mp h
  have hlen := h2.length_eq
  rw [List.length_zipIdx] at hlen
  have hcl : c < t.components.length := by
    by_contra hn
    rw [List.getElem?_eq_none (by omega)] at hc; cases hc
  have hi : c < occ.length := by omega
  have := (List.forall₂_iff_get.mp h2).2 c (by rw [List.length_zipIdx]; exact hcl) hi
  have ho : t.components[c] = o := by
    rw [List.getElem?_eq_getElem hcl] at hc; exact Option.some.inj hc
  simp only [List.get_eq_getElem, List.getElem_zipIdx, Nat.zero_add, ho] at this
  rw [List.getD_eq_getElem?_getD, List.getElem?_eq_getElem hi, Option.getD_some]
  rcases hatt with hroot | ⟨p, parent, hp, hpar, hne, hA⟩
  · rw [if_pos hroot] at this
    injection this with this; exact this.symm
  · split_ifs at this with hroot
    · injection this with this; exact this.symm
    · simp only [hp] at this
      obtain ⟨parent', hpar', this⟩ := bind_ok.mp this
      have : parent' = parent := by
        unfold ObstacleTree.getComponent at hpar'
        rw [hpar] at hpar'
        exact (Except.ok.inj hpar').symm
      subst this
      rename_i this
      have hout : 1 < parent'.gamma x := by
        by_contra hle
        exact hne (honly p _ hpar (not_lt.mp hle))
      have hxr : x ≠ o.referencePoint := by
        rintro rfl
        exact absurd hA.inside (not_lt.mpr hout.le)
      obtain ⟨s, hs, hint⟩ := hA.outward x hxr hin
      have hg : 1 ≤ parent'.gamma (x + s • (x - o.referencePoint)) := by
        by_contra hlt
        push Not at hlt
        have := hA.convex (show o.referencePoint ∈ _ from hA.inside)
          (show x + s • (x - o.referencePoint) ∈ {y | parent'.gamma y < 1} from hlt)
          (a := s / (1 + s)) (b := 1 / (1 + s)) (by positivity) (by positivity) (by field_simp; ring)
        have he : (s / (1 + s)) • o.referencePoint + (1 / (1 + s)) • (x + s • (x - o.referencePoint)) = x := by
          have : 1 + s ≠ 0 := by positivity
          have e1 : (1 / (1 + s)) • (x + s • (x - o.referencePoint))
              = x - (s / (1 + s)) • o.referencePoint := by
            have e2 : (1 / (1 + s)) • (x + s • (x - o.referencePoint))
                = ((1 / (1 + s)) * (1 + s)) • x - ((1 / (1 + s)) * s) • o.referencePoint := by module
            rw [e2, one_div_mul_cancel this, one_smul]
            congr 2
            ring
          rw [e1]; abel
        rw [he] at this
        exact absurd this (not_lt.mpr hout.le)
      unfold parentOcclusionWeight at this
      simp only [hin, if_true, hint] at this
      rw [if_pos hg] at this
      injection this with this
      exact this.symm

/-- C61 (partial): inside of exactly one component (root, or attached to its parent) of one static obstacle the
returned velocity does not point further into the obstacle, up to a thousandth of the nominal speed.  The normal is
taken at the surface point in the direction away from the reference point, as the avoider does.

Missing: several components in contact (violated, `C61_two_contacts`), and components whose reference point is not
inside of the parent (violated, `C61_shadowed`). -/
theorem C61_inside_partial (ext : Ext d k) (a : Avoider d) (x w : Vec d) (hp : 0 ≤ a.power)
    (hs : SaneTrees a.trees) (hstatic : ∀ t ∈ a.trees, Static t) (has : ArgsortSpec ext.argsort)
    (hmag : 0 ≤ a.magnitude x)
    (i : ℕ) (t : ObstacleTree d) (hti : a.trees[i]? = some t)
    (c : ℕ) (o : Obstacle d) (hc : t.components[c]? = some o) (hin : o.gamma x < 1)
    (hatt : c = t.rootIdx ∨ ∃ p parent, t.parentIdx c = some p ∧ t.components[p]? = some parent ∧ p ≠ c
      ∧ AttachedTo o parent)
    (honly : ∀ j t' c' o', a.trees[j]? = some t' → t'.components[c']? = some o' → o'.gamma x ≤ 1 →
      j = i ∧ c' = c)
    (h : a.evaluate ext x = .ok w) :
    w = 0 ∨ ∃ s, o.intersection x ((-1 : ℝ) • o.reference x) = some s
      ∧ -1e-3 * a.magnitude x ≤ ⟪w, o.normal s⟫ :=
  C61_no_penetration_partial ext a x w hp hs hstatic has hmag i t hti c o hc hin.le honly
    (Or.inr (inside_not_shadowed hc hin hatt (fun c' o' h1 h2 => (honly i t c' o' hti h1 h2).2))) h

/-- C61 (partial): the same for moving, rotating and deforming obstacles in the plane.

Missing: as for `C61_inside_partial`, and rest of the initial dynamics (violated, `C61_rest_overrun`). -/
theorem C61_moving_inside_partial (ext : Ext 2 k) (a : Avoider 2) (x w : Vec 2) (hp : 0 ≤ a.power)
    (hs : SaneTrees a.trees) (has : ArgsortSpec ext.argsort) (hmag : 0 ≤ a.magnitude x)
    (i : ℕ) (t : ObstacleTree 2) (hti : a.trees[i]? = some t)
    (c : ℕ) (o : Obstacle 2) (hc : t.components[c]? = some o) (hin : o.gamma x < 1)
    (hatt : c = t.rootIdx ∨ ∃ p parent, t.parentIdx c = some p ∧ t.components[p]? = some parent ∧ p ≠ c
      ∧ AttachedTo o parent)
    (honly : ∀ j t' c' o', a.trees[j]? = some t' → t'.components[c']? = some o' → o'.gamma x ≤ 1 →
      j = i ∧ c' = c)
    (hmove : MovesAt a.initial x)
    (h : a.evaluate ext x = .ok w) :
    ∃ s, o.intersection x ((-1 : ℝ) • o.reference x) = some s
      ∧ -1e-3 * a.magnitude x ≤ ⟪w - movedVelocity x 1 t, o.normal s⟫ :=
  C61_moving_partial ext a x w hp hs has hmag i t hti c o hc hin.le honly
    (Or.inr (inside_not_shadowed hc hin hatt (fun c' o' h1 h2 => (honly i t c' o' hti h1 h2).2))) hmove h

/-- C61 (partial): no penetration.  On the surface of exactly one component of one obstacle (any component of
the obstacle, whatever its parent and the other obstacles; for components with a parent the external intersection of
rays starts at the position) the returned velocity does not point into the
obstacle, up to a thousandth of the nominal speed; static obstacles.

Missing: several components in contact (violated, `C61_two_contacts`), and positions inside of a component
shadowed by its parent. -/
theorem C61_surface_partial (ext : Ext d k) (a : Avoider d) (x w : Vec d) (hp : 0 ≤ a.power)
    (hs : SaneTrees a.trees) (hstatic : ∀ t ∈ a.trees, Static t) (has : ArgsortSpec ext.argsort)
    (hmag : 0 ≤ a.magnitude x)
    (i : ℕ) (t : ObstacleTree d) (hti : a.trees[i]? = some t)
    (c : ℕ) (o : Obstacle d) (hc : t.components[c]? = some o) (hon : OnSurface o x)
    (hnear : c = t.rootIdx ∨ NearFirst o x)
    (honly : ∀ j t' c' o', a.trees[j]? = some t' → t'.components[c']? = some o' → o'.gamma x ≤ 1 →
      j = i ∧ c' = c)
    (h : a.evaluate ext x = .ok w) :
    -1e-3 * a.magnitude x ≤ ⟪w, o.normal x⟫ := by
  rcases C61_no_penetration_partial ext a x w hp hs hstatic has hmag i t hti c o hc hon.gamma.le honly
    (Or.inr (surface_not_shadowed hc hon hnear (fun c' o' h1 h2 => (honly i t c' o' hti h1 h2).2))) h with
    rfl | ⟨s, h1, h2⟩
  · rw [inner_zero_left]; nlinarith
  · rw [hon.outward] at h1
    injection h1 with h1
    rw [← h1] at h2; exact h2

/-- C61 (partial): the same for moving, rotating and deforming obstacles in the plane.  Seen from the surface of
the obstacle the velocity does not point into it.

Missing: as for `C61_surface_partial`, and rest of the initial dynamics (violated, `C61_rest_overrun`). -/
theorem C61_moving_surface_partial (ext : Ext 2 k) (a : Avoider 2) (x w : Vec 2) (hp : 0 ≤ a.power)
    (hs : SaneTrees a.trees) (has : ArgsortSpec ext.argsort) (hmag : 0 ≤ a.magnitude x)
    (i : ℕ) (t : ObstacleTree 2) (hti : a.trees[i]? = some t)
    (c : ℕ) (o : Obstacle 2) (hc : t.components[c]? = some o) (hon : OnSurface o x)
    (hnear : c = t.rootIdx ∨ NearFirst o x)
    (honly : ∀ j t' c' o', a.trees[j]? = some t' → t'.components[c']? = some o' → o'.gamma x ≤ 1 →
      j = i ∧ c' = c)
    (hmove : MovesAt a.initial x)
    (h : a.evaluate ext x = .ok w) :
    -1e-3 * a.magnitude x ≤ ⟪w - movedVelocity x 1 t, o.normal x⟫ := by
  obtain ⟨s, h1, h2⟩ := C61_moving_partial ext a x w hp hs has hmag i t hti c o hc hon.gamma.le honly
    (Or.inr (surface_not_shadowed hc hon hnear (fun c' o' h1 h2 => (honly i t c' o' hti h1 h2).2))) hmove h
  rw [hon.outward] at h1
  injection h1 with h1
  rw [← h1] at h2; exact h2

lemma space_core {ext : Ext d k} {a : Avoider d} {x w : Vec d} (h3 : 3 ≤ d) (hp : 0 ≤ a.power)
    (hs : SaneTrees a.trees) (has : ArgsortSpec ext.argsort) (hmag : 0 ≤ a.magnitude x)
    {i : ℕ} {t : ObstacleTree d} (hti : a.trees[i]? = some t)
    {c : ℕ} {o : Obstacle d} (hc : t.components[c]? = some o) (hcon : o.gamma x ≤ 1)
    (honly : ∀ j t' c' o', a.trees[j]? = some t' → t'.components[c']? = some o' → o'.gamma x ≤ 1 →
      j = i ∧ c' = c)
    (hocc : ∀ occ, computeParentOcclusionWeight x t = .ok occ → occ.getD c 0 = 1)
    (hmove : MovesAt a.initial x)
    (h : a.evaluate ext x = .ok w) :
    ¬ Rotating t ∧ ∃ s, o.intersection x ((-1 : ℝ) • o.reference x) = some s
      ∧ -1e-3 * a.magnitude x ≤ ⟪w - driftVelocity x t, o.normal s⟫ := by
  rcases contact_core hp hs has hmag hti hc hcon honly (Or.inr hocc) h with ⟨_, h0⟩ | ⟨rel, s, h1, h2, hin⟩
  · exact absurd h0 (moves_sequence hmove)
  · have hi : i < a.trees.length := by
      by_contra hn
      rw [List.getElem?_eq_none (by omega)] at hti; cases hti
    have ht : a.trees[i] = t := by
      rw [List.getElem?_eq_getElem hi] at hti; exact Option.some.inj hti
    have h1' := h1
    unfold relativeVelocity at h1'
    obtain ⟨gs, hgs, _⟩ := bind_ok.mp h1'
    have hci : InContact x a.trees[i] := by rw [ht]; exact ⟨o, List.mem_of_getElem? hc, hcon⟩
    have hcj : ∀ j (hj : j < a.trees.length), j ≠ i → ¬ InContact x a.trees[j] := by
      rintro j hj hne ⟨o', ho', hg'⟩
      obtain ⟨c', hc', rfl⟩ := List.getElem_of_mem ho'
      exact hne (honly j _ c' _ (List.getElem?_eq_getElem hj) (List.getElem?_eq_getElem hc') hg').1
    have hrot : ¬ Rotating t := by
      intro hr
      have := C60_rotating_raises x a.trees gs h3 hgs i hi hci hcj (by rw [ht]; exact hr)
      rw [h1] at this
      cases this
    refine ⟨hrot, s, h2, ?_⟩
    have := C60_contact_drift x a.trees gs hgs i hi hci hcj (by rw [ht]; exact hrot)
    rw [h1, ht] at this
    rw [← Except.ok.inj this]
    exact hin

/-- C61 (partial): the same for moving obstacles in three and more dimensions.  If the avoider returns a velocity
and the initial dynamics is not at rest, then the obstacle in contact does not rotate, and seen from its surface, which
moves with the translation and the expansion of the obstacle, the velocity does not point into it.

Missing: as for `C61_moving_surface_partial`, and obstacles which rotate: for them the evaluation raises
(`C60_rotating_raises`). -/
theorem C61_space_partial (ext : Ext d k) (a : Avoider d) (x w : Vec d) (h3 : 3 ≤ d) (hp : 0 ≤ a.power)
    (hs : SaneTrees a.trees) (has : ArgsortSpec ext.argsort) (hmag : 0 ≤ a.magnitude x)
    (i : ℕ) (t : ObstacleTree d) (hti : a.trees[i]? = some t)
    (c : ℕ) (o : Obstacle d) (hc : t.components[c]? = some o) (hon : OnSurface o x)
    (hnear : c = t.rootIdx ∨ NearFirst o x)
    (honly : ∀ j t' c' o', a.trees[j]? = some t' → t'.components[c']? = some o' → o'.gamma x ≤ 1 →
      j = i ∧ c' = c)
    (hmove : MovesAt a.initial x)
    (h : a.evaluate ext x = .ok w) :
    ¬ Rotating t ∧ -1e-3 * a.magnitude x ≤ ⟪w - driftVelocity x t, o.normal x⟫ := by
  obtain ⟨h1, s, h2, h4⟩ := space_core h3 hp hs has hmag hti hc hon.gamma.le honly
    (surface_not_shadowed hc hon hnear (fun c' o' h1 h2 => (honly i t c' o' hti h1 h2).2)) hmove h
  rw [hon.outward] at h2
  injection h2 with h2
  subst h2
  exact ⟨h1, h4⟩

/-- C61 (partial): the same inside of a component (root, or attached to its parent), in three and more dimensions.

Missing: as for `C61_space_partial` and `C61_inside_partial`. -/
theorem C61_space_inside_partial (ext : Ext d k) (a : Avoider d) (x w : Vec d) (h3 : 3 ≤ d) (hp : 0 ≤ a.power)
    (hs : SaneTrees a.trees) (has : ArgsortSpec ext.argsort) (hmag : 0 ≤ a.magnitude x)
    (i : ℕ) (t : ObstacleTree d) (hti : a.trees[i]? = some t)
    (c : ℕ) (o : Obstacle d) (hc : t.components[c]? = some o) (hin : o.gamma x < 1)
    (hatt : c = t.rootIdx ∨ ∃ p parent, t.parentIdx c = some p ∧ t.components[p]? = some parent ∧ p ≠ c
      ∧ AttachedTo o parent)
    (honly : ∀ j t' c' o', a.trees[j]? = some t' → t'.components[c']? = some o' → o'.gamma x ≤ 1 →
      j = i ∧ c' = c)
    (hmove : MovesAt a.initial x)
    (h : a.evaluate ext x = .ok w) :
    ¬ Rotating t ∧ ∃ s, o.intersection x ((-1 : ℝ) • o.reference x) = some s
      ∧ -1e-3 * a.magnitude x ≤ ⟪w - driftVelocity x t, o.normal s⟫ :=
  space_core h3 hp hs has hmag hti hc hin.le honly
    (inside_not_shadowed hc hin hatt (fun c' o' h1 h2 => (honly i t c' o' hti h1 h2).2)) hmove h

/-- C42, negative result: for obstacles with one component each, the weight of the initial velocity
is one minus the number of obstacles in contact, that is, negative if there are two or more. -/
theorem C42_two_contacts (ext : Ext d k) (a : Avoider d) (x v : Vec d) (pr : Prepared d)
    (hp : 0 ≤ a.power) (hs : SaneTrees a.trees)
    (hsingle : ∀ t ∈ a.trees, t.rootIdx = 0 ∧ t.components.length = 1)
    (m : ℕ) (hm : m = open Classical in (a.trees.filter (fun t => InContact x t)).length)
    (hm1 : 1 ≤ m) (h : prepareAvoidance ext a x v = .ok pr) :
    (avoidanceWeights pr.cluster).getLast? = some (1 - (m : ℝ)) := by
  classical
  obtain ⟨Ds, hD, hnn, _, _, _, hsum, _⟩ := prepared_facts hp hs h
  have key : ∀ p ∈ a.trees.zipIdx, ∀ D, DataOf ext a x v p D →
      (D.weights.sum ≥ 1 ↔ InContact x p.1) := by
    intro p hpm D hDp
    have hpt := zipIdx_mem hpm
    have hgn : ∀ o ∈ p.1.components, ∀ y, 0 ≤ o.gamma y :=
      fun o ho => (hs _ hpt o ho).gamma_nonneg
    obtain ⟨g, hg, _, hDn, hD1, h4⟩ := data_weights hp hgn hDp
    constructor
    · intro h1
      have hg1 : g ≤ 1 := by
        by_contra hc
        push Not at hc
        have := h4 hc
        linarith
      obtain ⟨⟨o, ho, hog⟩, _⟩ := gamma_ok hg
      exact ⟨o, ho, by rw [hog]; exact hg1⟩
    · rintro ⟨o, ho, hog⟩
      obtain ⟨h0, hl1⟩ := hsingle _ hpt
      obtain ⟨c, hcl, rfl⟩ := List.getElem_of_mem ho
      have hc0 : c = 0 := by omega
      subst hc0
      obtain ⟨hcw, hw⟩ := contact_weights hp hgn hDp (List.getElem?_eq_getElem hcl) hog
        (by
          intro c' o' hc' _
          by_contra hne
          rw [List.getElem?_eq_none (by omega)] at hc'; cases hc')
        (by
          intro occ hocc
          have := occlusion_spec hocc hgn
          have h2 := this.2.2
          rw [h0] at h2
          exact h2 (by omega))
      rw [(one_hot_pos hDn hD1 hcw hw).1]
  have hcount : ∀ (l : List (ObstacleTree d × ℕ)) (Ds : List (TreeData d)),
      List.Forall₂ (DataOf ext a x v) l Ds → (∀ p ∈ l, p ∈ a.trees.zipIdx) →
      ((Ds.map (fun D => D.weights.sum)).filter (fun w => w ≥ 1)).length
        = ((l.map Prod.fst).filter (fun t => InContact x t)).length := by
    intro l Ds hl
    induction hl with
    | nil => intro _; rfl
    | @cons p D l Ds hpD _ ih =>
      intro hmem
      have := key p (hmem p List.mem_cons_self) D hpD
      have ih := ih (fun q hq => hmem q (List.mem_cons_of_mem _ hq))
      rw [List.map_cons, List.map_cons]
      by_cases hcon : InContact x p.1
      · rw [List.filter_cons_of_pos (by simpa using this.mpr hcon),
          List.filter_cons_of_pos (by simpa using hcon), List.length_cons, List.length_cons, ih]
      · rw [List.filter_cons_of_neg (by simpa using fun h' => hcon (this.mp h')),
          List.filter_cons_of_neg (by simpa using hcon), ih]
  have hc := hcount _ _ hD (fun p hp => hp)
  rw [List.zipIdx_map_fst] at hc
  have hm' : m = ((Ds.map (fun D => D.weights.sum)).filter (fun w => w ≥ 1)).length := by
    rw [hc, hm]
  have hos : Nonneg (Ds.map (fun D => D.weights.sum)) := by
    intro w hw
    obtain ⟨D, hD, rfl⟩ := List.mem_map.mp hw
    exact sum_nonneg' (hnn D hD)
  have := (C28_sum_saturated _ hos (by rw [hm'] at hm1; convert hm1)).1
  unfold avoidanceWeights
  rw [List.getLast?_append_of_ne_nil _ (by simp), hsum, this]
  simp only [List.getLast?_singleton, Option.some.injEq]
  rw [hm']

end Verif
