import Verif.Props.RotationalAvoider

/-! # The rotational avoider with a convergence radius of `pi` -/

open scoped RealInnerProductSpace
open Verif.Spec

set_option linter.unusedSectionVars false

namespace Verif.Rotational

variable {d k : ℕ} [h2 : Fact (2 ≤ d)]

lemma orthogonal_not_allclose {u v : Vec d} (hd : d ≤ 10 ^ 15) (hu : ‖u‖ = 1) (hv : ‖v‖ = 1)
    (h : ⟪u, v⟫ = 0) : ¬ allclose u v := by
  intro hc
  have hi : ∀ i, ‖(u - v) i‖ ^ 2 ≤ 2e-16 + 2e-10 * ‖v i‖ ^ 2 := by
    intro i
    have := hc i
    unfold isclose at this
    rw [Real.norm_eq_abs, Real.norm_eq_abs]
    have h0 := abs_nonneg (v i)
    have h1 := abs_nonneg (u i - v i)
    calc |(u - v) i| ^ 2 = |u i - v i| ^ 2 := rfl
      _ ≤ (1e-8 + 1e-5 * |v i|) ^ 2 := by
        refine pow_le_pow_left₀ h1 ?_ 2
        norm_num at this ⊢
        linarith
      _ ≤ 2e-16 + 2e-10 * |v i| ^ 2 := by
        nlinarith [sq_nonneg ((1e-8 : ℝ) - 1e-5 * |v i|)]
  have hs : ‖u - v‖ ^ 2 ≤ ∑ i : Fin d, ((2e-16 : ℝ) + 2e-10 * ‖v i‖ ^ 2) := by
    rw [EuclideanSpace.norm_sq_eq]
    exact Finset.sum_le_sum (fun i _ => hi i)
  rw [Finset.sum_add_distrib, ← Finset.mul_sum, ← EuclideanSpace.norm_sq_eq, hv,
    norm_sub_sq_real, hu, hv, h] at hs
  simp only [Finset.sum_const, Finset.card_univ, Fintype.card_fin, nsmul_eq_mul] at hs
  have h5 : (d : ℝ) ≤ 1e15 := by
    have : ((d : ℕ) : ℝ) ≤ ((10 ^ 15 : ℕ) : ℝ) := Nat.cast_le.mpr hd
    norm_num at this ⊢; exact this
  have h6 : (d : ℝ) * 2e-16 ≤ 1e15 * 2e-16 := by gcongr
  norm_num at hs h6
  linarith

lemma orthogonal_neighbours {u v : Vec d} (hd : d ≤ 10 ^ 15) (hu : ‖u‖ = 1) (hv : ‖v‖ = 1)
    (h : ⟪u, v⟫ = 0) : Neighbours u v := by
  refine ⟨?_, Or.inr (orthogonal_not_allclose hd hu hv h)⟩
  rintro ⟨c, hc, he⟩
  rw [he, real_inner_smul_right, real_inner_self_eq_norm_sq, hu] at h
  linarith

/-- An angle of `pi` to a unit vector: the opposite direction. -/
lemma unit_of_angle_pi {u v : Vec d} (hu : ‖u‖ = 1) (h : InnerProductGeometry.angle u v = Real.pi) :
    unit v = -u := by
  obtain ⟨h0, r, hr, rfl⟩ := InnerProductGeometry.angle_eq_pi_iff.mp h
  unfold unit
  rw [norm_smul, hu, mul_one, Real.norm_of_nonpos hr.le, smul_smul, ← neg_one_smul ℝ u]
  congr 1
  have := hr.ne
  field_simp

lemma inner_of_angle {u v : Vec d} (h : InnerProductGeometry.angle u v = Real.pi / 2) : ⟪u, v⟫ = 0 :=
  InnerProductGeometry.inner_eq_zero_iff_angle_eq_pi_div_two u v |>.mpr h

/-- The intersection with a circle always exists (the start is inside of it). -/
lemma tangentConvergence_exists {ext : Ext d k} (hk : 0 < k)
    (hc : ∀ s v r, v ≠ 0 → ∃ a, ext.circleFar s v r = some a) (c r : Vec k) (R : ℝ) :
    ∃ a, tangentConvergence ext c r R = .ok a := by
  unfold tangentConvergence
  by_cases h : ‖c - r‖ = 0
  · rw [if_pos h, dif_pos hk]
    exact ⟨_, rfl⟩
  · rw [if_neg h]
    obtain ⟨a, ha⟩ := hc r (c - r) R (norm_ne_zero_iff.mp h)
    rw [ha]
    exact ⟨_, rfl⟩

/-- With a radius of `pi` the tangent is opposite to the first column of the base. -/
lemma pseudoTangent_pi {ext : Ext d k} (he : SaneAngles ext) (hk : 0 < k)
    (hcirc : ∀ s v r, v ≠ 0 → ∃ a, ext.circleFar s v r = some a) {s : Avoider d} {conv ref : Vec d}
    {b : NullBase d} (hb : b.normal ≠ 0) (hc : conv ≠ 0) (hR : s.convergenceRadius = Real.pi) :
    ∃ t, pseudoTangent ext s conv ref b = .ok t ∧ t ≠ 0 ∧ unit t = -b.first := by
  unfold pseudoTangent
  by_cases h : ‖ext.toAngle b conv‖ ≥ s.convergenceRadius ∧ s.tailRotation = false
  · rw [if_pos h]
    refine ⟨conv, rfl, hc, ?_⟩
    have h1 := h.1
    rw [he.toAngle_norm b conv hb hc, hR] at h1
    exact unit_of_angle_pi (first_norm hb)
      (le_antisymm (InnerProductGeometry.angle_le_pi _ _) h1)
  · rw [if_neg h]
    obtain ⟨a, ha⟩ := tangentConvergence_exists hk hcirc (ext.toAngle b conv) (ext.toAngle b ref)
      s.convergenceRadius
    rw [ha]
    refine ⟨_, rfl, ?_, ?_⟩
    · intro h0
      have := he.ofAngle_unit b a hb
      rw [h0, norm_zero] at this
      norm_num at this
    · have hn := tangentConvergence_norm he (by rw [hR]; exact Real.pi_pos.le) ha
      refine unit_of_angle_pi (first_norm hb) ?_
      rw [he.ofAngle_angle b a hb (by rw [hn, hR]), hn, hR]

/-- With a radius of `pi`, in contact, the direction is opposite to the first column of the base. -/
lemma convergenceSumming_pi {ext : Ext d k} (he : SaneAngles ext) (hk : 0 < k) (hd : d ≤ 10 ^ 15)
    (hcirc : ∀ s v r, v ≠ 0 → ∃ a, ext.circleFar s v r = some a) {s : Avoider d}
    {conv ref nonlinear : Vec d} {b : NullBase d} (hb : b.normal ≠ 0) (hc : conv ≠ 0) (hn : nonlinear ≠ 0)
    (hR : s.convergenceRadius = Real.pi) (n1 : Neighbours (unit conv) (unit nonlinear))
    (n2 : Neighbours (unit conv) b.first) :
    convergenceSumming ext s conv ref b 1 nonlinear Real.pi = .ok (-b.first) := by
  obtain ⟨t, ht, ht0, htu⟩ := pseudoTangent_pi he hk hcirc (ref := ref) hb hc hR
  have hpi := Real.pi_pos
  have hhalf : Real.pi * 0.5 = Real.pi / 2 := by ring
  obtain ⟨a, ha⟩ := tangentConvergence_exists hk hcirc (ext.toAngle b conv) (ext.toAngle b ref)
    (Real.pi * 0.5)
  have hi : intermediateDirection ext conv ref b = .ok (ext.ofAngle b a) := by
    unfold intermediateDirection
    rw [ha]
  have han := tangentConvergence_norm he (by rw [hhalf]; positivity) ha
  have hiu := he.ofAngle_unit b a hb
  have hang : ⟪b.first, ext.ofAngle b a⟫ = 0 := by
    refine inner_of_angle ?_
    rw [he.ofAngle_angle b a hb (by rw [han, hhalf]; linarith), han, hhalf]
  have hf : b.first ≠ 0 := by
    intro h0; have := first_norm hb; rw [h0] at this; simp at this
  have hadm : Admissible ext conv ref t nonlinear b Real.pi := by
    refine ⟨n1, n2, ?_, ?_⟩
    · intro h; rw [hhalf] at h; linarith
    · intro _ i hi'
      rw [hi] at hi'
      injection hi' with hi'
      rw [← hi', htu]
      refine ⟨orthogonal_neighbours hd (first_norm hb) hiu hang,
        orthogonal_neighbours hd hiu (by rw [norm_neg, first_norm hb]) ?_⟩
      rw [inner_neg_right, real_inner_comm, hang, neg_zero]
  have htree : ∃ tr, summingTree ext conv ref t nonlinear b Real.pi = .ok tr := by
    obtain ⟨t0, a1, a2, a3, a4, a5, a6⟩ := setRoot_ok (d := d) (NodeId.num (-1)) conv hc
    obtain ⟨t1, b1, b2, b3, b4, b5, b6, b7⟩ := addNode_step_ne t0 _ a2 (.num 0) (.num (-1)) nonlinear hn
      (by rw [a3]; simp) (by rw [a3]; simp) 0 a4 (by norm_num)
    obtain ⟨t2, c1, c2, c3, c4, c5, c6, c7⟩ := addNode_step_ne t1 _ b2 (.num 1) (.num (-1)) b.first hf
      (by rw [b3, a3]; simp) (by rw [b3, a3]; simp) 0
      (by rw [(b6 _ (by rw [a3]; simp)).2]; exact a4) (by norm_num)
    have n2 : t2.nodes = [.num (-1), .num 0, .num 1] := by rw [c3, b3, a3]; rfl
    have hi0 : ext.ofAngle b a ≠ 0 := by
      intro h0; rw [h0] at hiu; simp at hiu
    obtain ⟨t3, e1, e2, e3, e4, e5, e6, e7⟩ := addNode_step_ne t2 _ c2 (.num 2) (.num 1) _ hi0
      (by rw [n2]; simp) (by rw [n2]; simp) (0 + 1) c4 (by norm_num)
    obtain ⟨t4, f1, f2, f3, f4, f5, f6, f7⟩ := addNode_step_ne t3 _ e2 (.num 3) (.num 2) t ht0
      (by rw [e3, n2]; simp) (by rw [e3]; simp) (0 + 1 + 1) e4 (by norm_num)
    refine ⟨t4, ?_⟩
    unfold summingTree
    simp only [a1, b1, c1, bind, Except.bind]
    rw [if_pos (by rw [hhalf]; linarith), hi]
    simp only [e1, f1]
  obtain ⟨tr, htr⟩ := htree
  unfold convergenceSumming continuationWeight
  rw [continuation_surface (by norm_num) (le_refl _)]
  simp only [bind, Except.bind]
  rw [if_neg (by norm_num), ht]
  simp only [htr]
  obtain ⟨r1, r2, r3, r4, r5, r6⟩ := summingTree_ok he hc hn hb ht0 htr
  have := C21_one_hot tr _ r1 (r6 hadm) ext.argsort he.argsort NodeState.init
    [.num 0, .num 3] [1 - 1, 1] rfl (by simp) (by simp [r2, r3]) (.num 3) (by simp)
    (by simp) (unit t) r5
  rw [this, htu]

/-- `avoid` with `sticky_surface=False` for one close obstacle at rest. -/
lemma avoid_single_free {ext : Ext d k} {s : Avoider d} {o : Obstacle d} {x initial c dir : Vec d}
    (h : CloseTo s.cutOffGamma x o) (hrel : ext.relative x [o] = 0) (hi : initial ≠ 0) (hc : c ≠ 0)
    (hs : convergenceSumming ext s c (alignedFrame o x).1 (alignedFrame o x).2 (usedGamma x o) initial
      s.convergenceRadius = .ok dir) :
    avoidBody ext s ⟨[o], none, none⟩ x initial (some c) false s.convergenceRadius
      = finishAvoid ext false x initial 0 ‖initial‖ [((o, usedGamma x o), 0)] [dir] := by
  unfold avoidBody
  simp only [close_single h, List.map_cons, List.map_nil, hrel, sub_zero]
  rw [if_neg (by simp), if_neg (by simp), if_neg (norm_ne_zero_iff.mpr hi)]
  have hstep : avoidStep ext s ⟨[o], none, none⟩ x initial ⟨some c, s.convergenceRadius, []⟩
      ((o, usedGamma x o), 0) = .ok ⟨some c, s.convergenceRadius, [dir]⟩ := by
    unfold avoidStep convergenceVelocity passRadius
    simp only [bind, Except.bind]
    rw [if_neg (norm_ne_zero_iff.mpr hc), hs]
    simp
  rw [List.foldlM_cons, hstep]
  simp only [bind, Except.bind, List.foldlM_nil, pure, Except.pure]

end Verif.Rotational
