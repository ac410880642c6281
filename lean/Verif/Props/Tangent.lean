import Verif.Spec.DirectionSpace
import Verif.Lemmas.Sphere
import Verif.Props.AvoiderDirection
import Mathlib.Topology.Order.IntermediateValue
import Mathlib.Analysis.InnerProductSpace.PiL2

/-!
# C114: the tangent of an obstacle
-/

open scoped RealInnerProductSpace

namespace Verif
open Spec

/-! ### Geometry -/

section geometry
variable {V : Type*} [NormedAddCommGroup V] [InnerProductSpace ℝ V]

lemma tangent_opposite {u v : V} (hu : ‖u‖ = 1) (hv : v ≠ 0)
    (h : InnerProductGeometry.angle u v < Real.pi) : ¬ Opposite u v := by
  rintro ⟨c, hc, rfl⟩
  have h0 : u ≠ 0 := by intro h0; rw [h0] at hu; simp at hu
  rw [InnerProductGeometry.angle_smul_right_of_neg _ _ (by linarith),
    InnerProductGeometry.angle_self_neg_of_nonzero h0] at h
  exact lt_irrefl _ h

lemma tangent_log_norm {u v : V} (hu : ‖u‖ = 1) (hv : ‖v‖ = 1)
    (h : InnerProductGeometry.angle u v < Real.pi) :
    ‖sphereLog u v‖ = InnerProductGeometry.angle u v := by
  have h0 : v ≠ 0 := by intro h0; rw [h0] at hv; simp at hv
  refine le_antisymm (star_log_facts hu v).2 ?_
  have h1 := star_exp_log hu hv (tangent_opposite hu h0 h)
  have h2 := star_exp_angle hu (star_log_facts hu v).1
  rwa [h1] at h2

lemma tangent_exp_angle {u w : V} (hu : ‖u‖ = 1) (hw : ⟪u, w⟫ = 0) (h : ‖w‖ ≤ Real.pi) :
    InnerProductGeometry.angle u (sphereExp u w) = ‖w‖ := by
  unfold InnerProductGeometry.angle
  rw [star_exp_inner hu hw, hu, star_exp_unit hu hw, mul_one, div_one,
    Real.arccos_cos (norm_nonneg _) h]

lemma tangent_log_exp {u w : V} (hu : ‖u‖ = 1) (hw : ⟪u, w⟫ = 0) (h : ‖w‖ < Real.pi) :
    sphereLog u (sphereExp u w) = w := by
  by_cases hw0 : w = 0
  · rw [hw0, star_exp_zero, star_log_self]
  have hp : 0 < ‖w‖ := norm_pos_iff.mpr hw0
  unfold sphereLog
  rw [tangent_exp_angle hu hw h.le, star_exp_inner hu hw]
  have : sphereExp u w - Real.cos ‖w‖ • u = (Real.sin ‖w‖ / ‖w‖) • w := by
    unfold sphereExp unit
    rw [smul_smul, add_sub_cancel_left, mul_one_div]
  have hs : 0 < Real.sin ‖w‖ / ‖w‖ := div_pos (Real.sin_pos_of_pos_of_lt_pi hp h) hp
  rw [this]
  unfold unit
  rw [norm_smul, Real.norm_eq_abs, abs_of_pos hs, smul_smul, smul_smul,
    show ‖w‖ * (1 / (Real.sin ‖w‖ / ‖w‖ * ‖w‖)) * (Real.sin ‖w‖ / ‖w‖) = 1 by
      have := (Real.sin_pos_of_pos_of_lt_pi hp h).ne'
      field_simp, one_smul]

lemma tangent_angle_neg (u v : V) :
    InnerProductGeometry.angle u (-v) = InnerProductGeometry.angle (-u) v := by
  rw [InnerProductGeometry.angle_neg_right, InnerProductGeometry.angle_neg_left]

/-- A line through a point of the ball meets the sphere beyond this point. -/
lemma tangent_crossing {s v : V} {r : ℝ} (hv : v ≠ 0) (h1 : ‖s + v‖ ≤ r) :
    ∃ t : ℝ, 1 ≤ t ∧ ‖s + t • v‖ = r := by
  have hvp : 0 < ‖v‖ := norm_pos_iff.mpr hv
  have hr : 0 ≤ r := (norm_nonneg _).trans h1
  set T : ℝ := 1 + 2 * r / ‖v‖ with hT
  have hT1 : 1 ≤ T := by have : 0 ≤ 2 * r / ‖v‖ := by positivity
                         linarith
  have hc : ContinuousOn (fun t : ℝ => ‖s + t • v‖) (Set.Icc 1 T) := by fun_prop
  have hfar : r ≤ ‖s + T • v‖ := by
    have e : s + T • v = (s + v) + (2 * r / ‖v‖) • v := by rw [hT, add_smul, one_smul]; abel
    have e2 : ‖(2 * r / ‖v‖) • v‖ = 2 * r := by
      rw [norm_smul, Real.norm_eq_abs, abs_of_nonneg (by positivity)]; field_simp
    have e3 : ‖(2 * r / ‖v‖) • v‖ ≤ ‖s + T • v‖ + ‖s + v‖ := by
      have : (2 * r / ‖v‖) • v = (s + T • v) - (s + v) := by rw [e]; abel
      rw [this]; exact norm_sub_le _ _
    linarith
  obtain ⟨t, ⟨ht1, _⟩, ht2⟩ := intermediate_value_Icc hT1 hc ⟨by simpa using h1, hfar⟩
  exact ⟨t, ht1, ht2⟩

end geometry

section tangent
variable {d k : ℕ}

/-- The common part of both branches of `projectedTangent`. -/
lemma tangent_find {ext : Ext d k} (hE : DirectionSpace ext) {m ref v : Vec d} {R : ℝ}
    (hm : ‖m‖ = 1) (href : ‖ref‖ = 1) (hv : ‖v‖ = 1)
    (h1 : InnerProductGeometry.angle m ref < Real.pi) (hR : R < Real.pi)
    (h2 : InnerProductGeometry.angle m v ≤ R) (hne : v ≠ ref) :
    ‖ext.angleOf m v - ext.angleOf m ref‖ ≠ 0 ∧
    ∃ s, ext.circleFar (ext.angleOf m ref) (ext.angleOf m v - ext.angleOf m ref) R = some s
      ∧ TangentAt m ref v (ext.vectorOf m s) R := by
  obtain ⟨E, e1, e2, e3⟩ := hE.chart m hm
  have hv0 : v ≠ 0 := by intro h0; rw [h0] at hv; simp at hv
  have hr0 : ref ≠ 0 := by intro h0; rw [h0] at href; simp at href
  have h2' := lt_of_le_of_lt h2 hR
  have ov := tangent_opposite hm hv0 h2'
  have oref := tangent_opposite hm hr0 h1
  have ev := e2 v hv ov
  have eref := e2 ref href oref
  have hnv : ‖ext.angleOf m v‖ = InnerProductGeometry.angle m v := by
    rw [← E.norm_map, ev, tangent_log_norm hm hv h2']
  have hdiff : ext.angleOf m v - ext.angleOf m ref ≠ 0 := by
    intro h0
    apply hne
    rw [← star_exp_log hm hv ov, ← star_exp_log hm href oref, ← ev, ← eref, sub_eq_zero.mp h0]
  have hcross := tangent_crossing (s := ext.angleOf m ref) (r := R) hdiff
    (by rw [add_sub_cancel, hnv]; exact h2)
  obtain ⟨t₀, ht₀, hc₀⟩ := hcross
  refine ⟨norm_ne_zero_iff.mpr hdiff, ?_⟩
  obtain ⟨s, hs⟩ := Option.ne_none_iff_exists'.mp (hE.circle_some _ _ R hdiff ⟨t₀, hc₀⟩)
  obtain ⟨t, ht, hn, hmax⟩ := hE.circle _ _ R s hdiff
    ((InnerProductGeometry.angle_nonneg _ _).trans h2) hs
  refine ⟨s, hs, ?_⟩
  have hnE : ‖E s‖ = R := by rw [E.norm_map, hn]
  rw [e3]
  refine ⟨star_exp_unit hm (e1 s), ?_, t, ht₀.trans (hmax t₀ hc₀), ?_⟩
  · rw [tangent_exp_angle hm (e1 s) (by rw [hnE]; exact hR.le), hnE]
  · rw [tangent_log_exp hm (e1 s) (by rw [hnE]; exact hR), ht, map_add, map_smul, map_sub, ev, eref]

/-- The switch of the base, in terms of angles. -/
lemma tangent_switch {n v : Vec d} {r : ℝ} (hn : ‖n‖ = 1) (hv : ‖v‖ = 1) (h0 : 0 ≤ r)
    (hpi : r ≤ Real.pi) :
    ⟪v, (-1 : ℝ) • n⟫ > Real.cos r ↔ InnerProductGeometry.angle (-n) v < r := by
  have : ⟪v, (-1 : ℝ) • n⟫ = Real.cos (InnerProductGeometry.angle (-n) v) := by
    rw [InnerProductGeometry.cos_angle, norm_neg, hn, hv, neg_one_smul, real_inner_comm]; simp
  rw [this, gt_iff_lt]
  exact Real.strictAntiOn_cos.lt_iff_gt ⟨h0, hpi⟩
    ⟨InnerProductGeometry.angle_nonneg _ _, InnerProductGeometry.angle_le_pi _ _⟩

/-- C114: the tangent always exists.  If the velocity points towards the obstacle, inside of the cone
with the angle `r` around the inward normal, the tangent has exactly the angle `r` to the inward normal
and lies on the line from the reference direction through the velocity, beyond it.  Otherwise it is
mirrored: the angle to the outward normal is `π - r`, and the line starts at the opposite of the
reference direction. -/
theorem C114_tangent (ext : Ext d k) (hE : DirectionSpace ext) (n ref v : Vec d) (r : ℝ)
    (hn : ‖n‖ = 1) (href : ‖ref‖ = 1) (hv : ‖v‖ = 1) (h0 : 0 < r) (hpi : r < Real.pi)
    (hvis : InnerProductGeometry.angle (-n) ref < Real.pi) (hne : v ≠ ref) (hne' : v ≠ -ref) :
    ∃ τ, projectedTangent ext v n ref r = .ok τ
      ∧ (InnerProductGeometry.angle (-n) v < r → TangentAt (-n) ref v τ r)
      ∧ (r ≤ InnerProductGeometry.angle (-n) v → TangentAt n (-ref) v τ (Real.pi - r)) := by
  classical
  unfold projectedTangent
  by_cases h : InnerProductGeometry.angle (-n) v < r
  · obtain ⟨f1, s, f2, f3⟩ := tangent_find hE (R := r) (by rwa [norm_neg]) href hv hvis hpi h.le hne
    rw [if_pos ((tangent_switch hn hv h0.le hpi.le).mpr h)]
    simp only [neg_one_smul]
    rw [if_neg f1, f2]
    exact ⟨_, rfl, fun _ => f3, fun h' => absurd h (not_lt.mpr h')⟩
  · have hle := not_lt.mp h
    obtain ⟨f1, s, f2, f3⟩ := tangent_find hE (m := n) (ref := -ref) (R := Real.pi - r) hn
      (by rwa [norm_neg]) hv (by rwa [tangent_angle_neg]) (by linarith)
      (by rw [InnerProductGeometry.angle_neg_left] at hle; linarith) hne'
    rw [if_neg (fun h' => h ((tangent_switch hn hv h0.le hpi.le).mp h'))]
    simp only [neg_one_smul]
    rw [if_neg f1, f2]
    exact ⟨_, rfl, fun h' => absurd h' h, fun _ => f3⟩

/-- C114: the tangent of a radius `r` has exactly the angle `r` to the inward normal, whichever the
side; for `r = π / 2` it is perpendicular to the normal, and for larger radii it points away from the
obstacle. -/
theorem C114_angle (ext : Ext d k) (hE : DirectionSpace ext) (n ref v τ : Vec d) (r : ℝ)
    (hn : ‖n‖ = 1) (href : ‖ref‖ = 1) (hv : ‖v‖ = 1) (h0 : 0 < r) (hpi : r < Real.pi)
    (hvis : InnerProductGeometry.angle (-n) ref < Real.pi) (hne : v ≠ ref) (hne' : v ≠ -ref)
    (h : projectedTangent ext v n ref r = .ok τ) :
    ‖τ‖ = 1 ∧ InnerProductGeometry.angle (-n) τ = r ∧ ⟪n, τ⟫ = -Real.cos r := by
  obtain ⟨τ', h1, h2, h3⟩ := C114_tangent ext hE n ref v r hn href hv h0 hpi hvis hne hne'
  rw [h] at h1; cases h1
  have key : ‖τ‖ = 1 ∧ InnerProductGeometry.angle (-n) τ = r := by
    by_cases hc : InnerProductGeometry.angle (-n) v < r
    · exact ⟨(h2 hc).1, (h2 hc).2.1⟩
    · have := h3 (not_lt.mp hc)
      refine ⟨this.1, ?_⟩
      rw [InnerProductGeometry.angle_neg_left, this.2.1]; ring
  refine ⟨key.1, key.2, ?_⟩
  have := InnerProductGeometry.cos_angle (-n) τ
  rw [key.2, norm_neg, hn, key.1, inner_neg_left] at this
  simp only [mul_one, div_one] at this
  linarith

/-- C114: the velocity which points exactly along the reference direction into the cone (or exactly
against it, outside of the cone) is returned as it is: no side of the obstacle is preferred. -/
theorem C114_head_on (ext : Ext d k) (n ref : Vec d) (r : ℝ) (hn : ‖n‖ = 1) (href : ‖ref‖ = 1)
    (h0 : 0 < r) (hpi : r < Real.pi) :
    (InnerProductGeometry.angle (-n) ref < r → projectedTangent ext ref n ref r = .ok ref)
    ∧ (r ≤ InnerProductGeometry.angle n ref → projectedTangent ext (-ref) n ref r = .ok (-ref)) := by
  classical
  constructor
  · intro h
    unfold projectedTangent
    rw [if_pos ((tangent_switch hn href h0.le hpi.le).mpr h)]
    simp
  · intro h
    have hc : ¬ InnerProductGeometry.angle (-n) (-ref) < r := by
      rw [InnerProductGeometry.angle_neg_neg]; exact not_lt.mpr h
    unfold projectedTangent
    rw [if_neg (fun h' => hc ((tangent_switch hn (by rwa [norm_neg]) h0.le hpi.le).mp h'))]
    simp

/-- Distance in the direction space between the velocity and the tangent. -/
lemma tangent_close {m ref v τ : Vec d} {R : ℝ} (hm : ‖m‖ = 1) (href : ‖ref‖ = 1) (hv : ‖v‖ = 1)
    (hR : R < Real.pi) (h1 : InnerProductGeometry.angle m ref < R)
    (h2 : InnerProductGeometry.angle m v ≤ R) (h : TangentAt m ref v τ R) :
    ‖sphereLog m τ - sphereLog m v‖ ≤ (R - InnerProductGeometry.angle m v)
      * ((R + InnerProductGeometry.angle m ref) / (R - InnerProductGeometry.angle m ref)) := by
  obtain ⟨h3, h4, t, ht, h5⟩ := h
  have ea := tangent_log_norm hm href (h1.trans hR)
  have eb := tangent_log_norm hm hv (h2.trans_lt hR)
  have et := tangent_log_norm hm h3 (by rw [h4]; exact hR)
  rw [h4] at et
  set a := sphereLog m ref
  set b := sphereLog m v
  set c := sphereLog m τ
  rw [← ea, ← eb]
  rw [← ea] at h1
  have htp : 0 < t := by linarith
  have hb : b = (1 - 1 / t) • a + (1 / t) • c := by
    rw [h5, smul_add, smul_smul, one_div_mul_cancel htp.ne', sub_smul, one_smul, one_smul]; abel
  have hs0 : 0 ≤ 1 - 1 / t := by
    have : 1 / t ≤ 1 := by rw [div_le_one htp]; exact ht
    linarith
  have hnb : ‖b‖ ≤ (1 - 1 / t) * ‖a‖ + (1 / t) * R := by
    rw [hb, ← et]
    refine (norm_add_le _ _).trans ?_
    rw [norm_smul, norm_smul, Real.norm_eq_abs, Real.norm_eq_abs, abs_of_nonneg hs0,
      abs_of_nonneg (by positivity)]
  have hcb : c - b = (1 - 1 / t) • (c - a) := by
    rw [hb]
    module
  have hpos : 0 < R - ‖a‖ := by linarith
  have hk : 1 - 1 / t ≤ (R - ‖b‖) / (R - ‖a‖) := by
    rw [le_div_iff₀ hpos]; nlinarith
  rw [hcb, norm_smul, Real.norm_eq_abs, abs_of_nonneg hs0]
  calc (1 - 1 / t) * ‖c - a‖ ≤ (R - ‖b‖) / (R - ‖a‖) * (R + ‖a‖) := by
        refine mul_le_mul hk ?_ (norm_nonneg _) (hs0.trans hk)
        rw [← et]; exact norm_sub_le _ _
    _ = _ := by ring

/-- C114: the switch between the two bases is continuous, with a bound.  If the angle between the
velocity and the inward normal is close to the radius `r`, on either side, the tangent is close to the
velocity (distances in the direction space); on the cone itself the tangent is the velocity. -/
theorem C114_switch (ext : Ext d k) (hE : DirectionSpace ext) (n ref v τ : Vec d) (r : ℝ)
    (hn : ‖n‖ = 1) (href : ‖ref‖ = 1) (hv : ‖v‖ = 1) (hpi : r < Real.pi)
    (hvis : InnerProductGeometry.angle (-n) ref < r)
    (hvis' : InnerProductGeometry.angle (-n) ref < Real.pi - r) (hne : v ≠ ref) (hne' : v ≠ -ref)
    (h : projectedTangent ext v n ref r = .ok τ) :
    (InnerProductGeometry.angle (-n) v ≤ r → ‖sphereLog (-n) τ - sphereLog (-n) v‖
        ≤ (r - InnerProductGeometry.angle (-n) v)
          * ((r + InnerProductGeometry.angle (-n) ref) / (r - InnerProductGeometry.angle (-n) ref)))
    ∧ (r ≤ InnerProductGeometry.angle (-n) v → ‖sphereLog n τ - sphereLog n v‖
        ≤ (InnerProductGeometry.angle (-n) v - r)
          * ((Real.pi - r + InnerProductGeometry.angle (-n) ref)
            / (Real.pi - r - InnerProductGeometry.angle (-n) ref)))
    ∧ (InnerProductGeometry.angle (-n) v = r → τ = v) := by
  have h0 : 0 < r := (InnerProductGeometry.angle_nonneg _ _).trans_lt hvis
  obtain ⟨τ', h1, h2, h3⟩ := C114_tangent ext hE n ref v r hn href hv h0 hpi (hvis.trans hpi) hne hne'
  rw [h] at h1; cases h1
  have hn' : ‖-n‖ = 1 := by rwa [norm_neg]
  have far : r ≤ InnerProductGeometry.angle (-n) v → ‖sphereLog n τ - sphereLog n v‖
        ≤ (InnerProductGeometry.angle (-n) v - r)
          * ((Real.pi - r + InnerProductGeometry.angle (-n) ref)
            / (Real.pi - r - InnerProductGeometry.angle (-n) ref)) := by
    intro hc
    have := tangent_close (m := n) (ref := -ref) hn (by rwa [norm_neg]) hv (by linarith)
      (by rwa [tangent_angle_neg]) (by rw [InnerProductGeometry.angle_neg_left] at hc; linarith) (h3 hc)
    rw [tangent_angle_neg] at this
    have e : Real.pi - r - InnerProductGeometry.angle n v = InnerProductGeometry.angle (-n) v - r := by
      rw [InnerProductGeometry.angle_neg_left]; ring
    rwa [e] at this
  have equal : InnerProductGeometry.angle (-n) v = r → τ = v := by
    intro hc
    have hfar := far hc.ge
    rw [hc, sub_self, zero_mul] at hfar
    have hlog := sub_eq_zero.mp (norm_le_zero_iff.mp hfar)
    have hT := h3 hc.ge
    have hτ0 : τ ≠ 0 := by intro h0; rw [h0] at hT; simpa using hT.1
    have hv0 : v ≠ 0 := by intro h0; rw [h0] at hv; simp at hv
    have a1 : InnerProductGeometry.angle n v = Real.pi - r := by
      rw [InnerProductGeometry.angle_neg_left] at hc; linarith
    rw [← star_exp_log hn hT.1 (tangent_opposite hn hτ0 (by rw [hT.2.1]; linarith)),
      ← star_exp_log hn hv (tangent_opposite hn hv0 (by rw [a1]; linarith)), hlog]
  refine ⟨?_, far, equal⟩
  intro hc
  rcases hc.lt_or_eq with hlt | heq
  · exact tangent_close hn' href hv hpi hvis hc (h2 hlt)
  · rw [equal heq, heq]; simp

/-- C114: an obstacle always has a tangent: it is enough that the ray from its reference point (or from
the position) meets its surface. -/
theorem C114_has_tangent (ext : Ext d k) (hE : DirectionSpace ext) (o : Obstacle d) (x v s : Vec d)
    (r : ℝ) (hv : ‖v‖ = 1) (h0 : 0 < r) (hpi : r < Real.pi) (hc : o.isCuboid = false)
    (hs : o.intersection (open Classical in if 1 < o.gamma x then o.referencePoint else x)
      (-o.reference x) = some s)
    (hn : ‖o.normal s‖ = 1) (href : ‖o.reference x‖ = 1)
    (hvis : InnerProductGeometry.angle (-o.normal s) (o.reference x) < Real.pi)
    (hne : v ≠ o.reference x) (hne' : v ≠ -o.reference x) : HasTangent ext r o x v := by
  refine ⟨hc, s, hs, fun _ => ?_⟩
  obtain ⟨τ, h1, _, _⟩ := C114_tangent ext hE _ _ v r hn href hv h0 hpi hvis hne hne'
  refine ⟨τ, h1, ?_⟩
  have h2 := (C114_angle ext hE _ _ v τ r hn href hv h0 hpi hvis hne hne' h1).1
  intro h3; rw [h3] at h2; simp at h2

/-- C114: on the surface of exactly one obstacle the direction of the avoider never points into this
obstacle by more than the convergence radius allows: for the radius `π / 2`, it is tangential or away
from the obstacle.  A motion which points away from an obstacle without tail effect is not changed; any
other has exactly the angle of the radius to the inward normal, on the side of the motion. -/
theorem C114_contact [Fact (2 ≤ d)] (ext : Ext d k) (hE : DirectionSpace ext) (a : Avoider d) (x v w : Vec d)
    (pr : Prepared d) (hpow : 0 ≤ a.power) (has : ArgsortSpec ext.argsort) (h0 : 0 < a.convergenceRadius)
    (hrad : a.convergenceRadius ≤ Real.pi * 0.5) (hv : ‖v‖ = 1) (hs : SingleOutside x a.trees)
    (hgood : GoodTangents ext a.convergenceRadius x v a.trees)
    (hnz : ∀ t ∈ a.trees, ∀ o, t.components = [o] → ∀ τ, TangentOf ext a.convergenceRadius o x v τ → τ ≠ 0)
    (h : prepareAvoidance ext a x v = .ok pr) (hw : avoidanceDirection ext pr = .ok w)
    (i : ℕ) (t : ObstacleTree d) (o : Obstacle d) (ht : a.trees[i]? = some t)
    (ho : t.components = [o]) (hcontact : o.gamma x = 1)
    (honly : ∀ (j : ℕ) t' o', j ≠ i → a.trees[j]? = some t' → t'.components = [o'] → 1 < o'.gamma x)
    (href : ‖o.reference x‖ = 1)
    (hn : ∀ n, SurfaceNormal o x n → ‖n‖ = 1
      ∧ InnerProductGeometry.angle (-n) (o.reference x) < Real.pi)
    (hne : v ≠ o.reference x) (hne' : v ≠ -o.reference x) :
    ‖w‖ = 1 ∧ ∃ n, SurfaceNormal o x n ∧ -Real.cos a.convergenceRadius ≤ ⟪n, w⟫
      ∧ (a.convergenceRadius = Real.pi / 2 → 0 ≤ ⟪n, w⟫)
      ∧ (o.tailEffect = true ∨ ⟪n, v⟫ < 0 → InnerProductGeometry.angle (-n) w = a.convergenceRadius
        ∧ (InnerProductGeometry.angle (-n) v < a.convergenceRadius →
            TangentAt (-n) (o.reference x) v w a.convergenceRadius)
        ∧ (a.convergenceRadius ≤ InnerProductGeometry.angle (-n) v →
            TangentAt n (-o.reference x) v w (Real.pi - a.convergenceRadius)))
      ∧ (o.tailEffect = false → 0 ≤ ⟪n, v⟫ → w = v) := by
  obtain ⟨n, τ, h1, h2, h3, h4⟩ := C108_contact ext a x v w pr hpow has hrad hs hgood hnz h hw i t o ht ho
    hcontact honly
  obtain ⟨n1, n2⟩ := hn n h1
  have hpp := Real.pi_pos
  have hpi : a.convergenceRadius < Real.pi := by linarith
  have hcos : 0 ≤ Real.cos a.convergenceRadius :=
    Real.cos_nonneg_of_mem_Icc ⟨by linarith, by linarith⟩
  by_cases hc : o.tailEffect = true ∨ ⟪n, v⟫ < 0
  · obtain ⟨τ', g1, g2, g3⟩ := C114_tangent ext hE n _ v _ n1 href hv h0 hpi n2 hne hne'
    rw [h2 hc] at g1; cases g1
    obtain ⟨k1, k2, k3⟩ := C114_angle ext hE n _ v τ _ n1 href hv h0 hpi n2 hne hne' (h2 hc)
    rw [unit_of_norm_one k1] at h4
    subst h4
    refine ⟨k1, n, h1, k3.ge, ?_, fun _ => ⟨k2, g2, g3⟩, ?_⟩
    · intro hr; rw [k3, hr]; simp
    · intro ht0 hv0
      rcases hc with hc | hc
      · rw [ht0] at hc; cases hc
      · linarith
  · rw [h3 hc, unit_of_norm_one hv] at h4
    subst h4
    push Not at hc
    refine ⟨hv, n, h1, by linarith [hc.2], fun _ => hc.2, ?_, fun _ _ => rfl⟩
    rintro (h5 | h5)
    · exact absurd h5 hc.1
    · exact absurd h5 (not_lt.mpr hc.2)

end tangent

end Verif
