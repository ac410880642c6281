import Verif.Props.AvoiderExamples

/-!
# C61 for a component that is not the root: a body of two discs

The root is the unit disc around `(-3/2, 0)`, its child the unit disc around the origin with the reference
point `(-3/4, 0)` in the intersection; the position `(1, 0)` is on the surface of the child.
-/

open scoped RealInnerProductSpace

namespace Verif
open Spec

/-- A unit disc with centre `c` and reference point `r`; the intersection with a line is the first point of the
surface in the direction of the line, or the last one if there is none. -/
noncomputable def roundAt (c r : Vec 2) : Obstacle 2 where
  gamma p := ‖p - c‖
  normal p := (1 / ‖p - c‖) • (p - c)
  reference p := (1 / ‖r - p‖) • (r - p)
  referencePoint := r
  center := c
  intersection s v := open Classical in
    let D := ⟪s - c, v⟫ ^ 2 - ‖v‖ ^ 2 * (‖s - c‖ ^ 2 - 1)
    if v = 0 ∨ D < 0 then none
    else
      let first := (-⟪s - c, v⟫ - √D) / ‖v‖ ^ 2
      let last := (-⟪s - c, v⟫ + √D) / ‖v‖ ^ 2
      some (s + (if 0 ≤ first then first else last) • v)
  tailEffect := false
  isBoundary := false

/-- On the axis. -/
noncomputable def roundX (c r : ℝ) : Obstacle 2 := roundAt !₂[c, 0] !₂[r, 0]

lemma axis_norm (a : ℝ) : ‖(!₂[a, 0] : Vec 2)‖ = |a| := by
  rw [EuclideanSpace.norm_eq, Fin.sum_univ_two]
  simp [Real.sqrt_sq_eq_abs]

lemma axis_sub (a b : ℝ) : (!₂[a, 0] : Vec 2) - !₂[b, 0] = !₂[a - b, 0] := by
  ext i; fin_cases i <;> simp

lemma axis_smul (t a : ℝ) : t • (!₂[a, 0] : Vec 2) = !₂[t * a, 0] := by
  ext i; fin_cases i <;> simp

lemma axis_add (a b : ℝ) : (!₂[a, 0] : Vec 2) + !₂[b, 0] = !₂[a + b, 0] := by
  ext i; fin_cases i <;> simp

lemma axis_inner (a b : ℝ) : ⟪(!₂[a, 0] : Vec 2), !₂[b, 0]⟫ = a * b := by
  rw [PiLp.inner_apply, Fin.sum_univ_two]
  simp [mul_comm]

lemma round_sane (c r : Vec 2) : SaneObstacle (roundAt c r) where
  gamma_nonneg := fun y => norm_nonneg _
  normal_le := by
    intro y
    change ‖(1 / ‖y - c‖) • (y - c)‖ ≤ 1
    rw [norm_smul, Real.norm_of_nonneg (by positivity)]
    by_cases h : ‖y - c‖ = 0
    · rw [h]; norm_num
    · rw [one_div, inv_mul_cancel₀ h]
  reference_le := by
    intro y
    change ‖(1 / ‖r - y‖) • (r - y)‖ ≤ 1
    rw [norm_smul, Real.norm_of_nonneg (by positivity)]
    by_cases h : ‖r - y‖ = 0
    · rw [h]; norm_num
    · rw [one_div, inv_mul_cancel₀ h]

lemma round_gamma (c r p : ℝ) : (roundX c r).gamma !₂[p, 0] = |p - c| := by
  change ‖(!₂[p, 0] : Vec 2) - !₂[c, 0]‖ = _
  rw [axis_sub, axis_norm]

lemma round_normal {c r p : ℝ} (h : c < p) : (roundX c r).normal !₂[p, 0] = !₂[1, 0] := by
  change (1 / ‖(!₂[p, 0] : Vec 2) - !₂[c, 0]‖) • ((!₂[p, 0] : Vec 2) - !₂[c, 0]) = _
  rw [axis_sub, axis_norm, axis_smul, abs_of_pos (by linarith), one_div_mul_cancel (by linarith)]

lemma round_reference {c r p : ℝ} (h : r < p) : (roundX c r).reference !₂[p, 0] = !₂[-1, 0] := by
  change (1 / ‖(!₂[r, 0] : Vec 2) - !₂[p, 0]‖) • ((!₂[r, 0] : Vec 2) - !₂[p, 0]) = _
  rw [axis_sub, axis_norm, axis_smul, abs_of_neg (by linarith)]
  congr 2
  have : r - p ≠ 0 := by linarith
  field_simp

lemma round_intersection {c r s v t : ℝ} (hv : v ≠ 0)
    (ht : t = if 0 ≤ (-((s - c) * v) - |v|) / v ^ 2 then (-((s - c) * v) - |v|) / v ^ 2
      else (-((s - c) * v) + |v|) / v ^ 2) :
    (roundX c r).intersection !₂[s, 0] !₂[v, 0] = some !₂[s + t * v, 0] := by
  classical
  have hv' : (!₂[v, 0] : Vec 2) ≠ 0 := by
    intro h
    have := congrArg (fun v : Vec 2 => v 0) h
    exact hv (by simpa using this)
  have e1 : ⟪(!₂[s, 0] : Vec 2) - !₂[c, 0], !₂[v, 0]⟫ = (s - c) * v := by rw [axis_sub, axis_inner]
  have e2 : ‖(!₂[v, 0] : Vec 2)‖ ^ 2 = v ^ 2 := by rw [axis_norm, sq_abs]
  have e3 : ‖(!₂[s, 0] : Vec 2) - !₂[c, 0]‖ ^ 2 = (s - c) ^ 2 := by rw [axis_sub, axis_norm, sq_abs]
  have hD : ((s - c) * v) ^ 2 - v ^ 2 * ((s - c) ^ 2 - 1) = v ^ 2 := by ring
  unfold roundX roundAt
  simp only [e1, e2, e3, hD, Real.sqrt_sq_eq_abs]
  rw [if_neg (by
    rintro (h | h)
    · exact hv' h
    · exact absurd h (not_lt.mpr (sq_nonneg v)))]
  rw [← ht, axis_smul, axis_add]

/-- The body of two discs. -/
noncomputable def body : ObstacleTree 2 where
  components := [roundX (-3 / 2) (-3 / 2), roundX 0 (-3 / 4)]
  rootIdx := 0
  parentIdx := fun i => if i = 1 then some 0 else none
  position := 0

/-- The body, the constant velocity `(0, 1/2)` and the attractor `(0, 1/2)`. -/
noncomputable def bodyAvoider : Avoider 2 :=
  { discAvoider !₂[0, 1 / 2] 1 with trees := [body] }

lemma body_on_surface : OnSurface (roundX 0 (-3 / 4)) !₂[1, 0] where
  gamma := by rw [round_gamma]; norm_num
  outward := by
    rw [round_reference (by norm_num), axis_smul, round_intersection (t := 0) (by norm_num) (by norm_num)]
    norm_num

lemma body_near : NearFirst (roundX 0 (-3 / 4)) !₂[1, 0] := by
  unfold NearFirst
  rw [round_reference (by norm_num), round_intersection (t := 0) (by norm_num) (by norm_num)]
  norm_num

/-- What the weights are at a position inside of the child and outside of the root. -/
lemma two_weights (argsort : List ℤ → List ℕ) (power : ℝ) {t : ObstacleTree 2} {o0 o1 : Obstacle 2}
    (ht : t.components = [o0, o1]) (hr : t.rootIdx = 0) {x u : Vec 2} (h0 : 1 < o0.gamma x) (h1 : o1.gamma x ≤ 1)
    (hu : ‖u‖ = 1) :
    ∃ slow, computeGammaAndWeights (planeExt argsort) power x t u
      = .ok ([o0.gamma x, o1.gamma x], [0, 1], slow) := by
  classical
  have hgs : t.components.map (fun o => o.gamma x) = [o0.gamma x, o1.gamma x] := by rw [ht]; rfl
  have hgam : t.gamma x = .ok (o1.gamma x) := by
    unfold ObstacleTree.gamma
    rw [hgs]
    have : min (o0.gamma x) (o1.gamma x) = o1.gamma x := min_eq_right (h1.trans h0.le)
    simp [List.min?, this]
  have hgw : computeWeightsFromDistances [o0.gamma x, o1.gamma x] 1 false = [0, 1] := by
    unfold computeWeightsFromDistances indicator normalised
    simp [h1, not_le.mpr h0]
  unfold computeGammaAndWeights
  simp only [hgs, hgw]
  refine ⟨(1, ⟪(1 / ‖u‖) • u, o0.reference x⟫),
    bind_ok.mpr ⟨o0, ?_, bind_ok.mpr ⟨_, hgam, bind_ok.mpr ⟨1, ?_, ?_⟩⟩⟩⟩
  · unfold ObstacleTree.getComponent; rw [ht, hr]; rfl
  · unfold getRotationWeight
    rw [if_pos h1]
  · rw [if_neg (by rw [hu]; norm_num)]
    rw [if_neg (by norm_num)]
    norm_num

lemma round_inside {c r p : ℝ} (h0 : c < p) (h1 : p < c + 1) : InsideGeometry (!₂[p, 0] : Vec 2) (roundX c r) := by
  have hpc : 0 < p - c := by linarith
  refine ⟨!₂[c + 1 / (p - c) * (p - c), 0], ?_, ?_, ?_⟩
  · change (roundX c r).intersection !₂[c, 0] (!₂[p, 0] - !₂[c, 0]) = _
    rw [axis_sub]
    refine round_intersection (ne_of_gt hpc) ?_
    rw [abs_of_pos hpc, if_neg]
    · field_simp; ring
    · rw [not_le, sub_self, zero_mul]
      exact div_neg_of_neg_of_pos (by linarith) (by positivity)
  · change ‖(!₂[p, 0] : Vec 2) - !₂[c, 0]‖ ≤ ‖_ - (!₂[c, 0] : Vec 2)‖
    rw [axis_sub, axis_sub, axis_norm, axis_norm, one_div_mul_cancel (ne_of_gt hpc), abs_of_pos hpc]
    norm_num; linarith
  · intro h
    have := congrArg (fun v : Vec 2 => v 0) h
    rw [one_div_mul_cancel (ne_of_gt hpc)] at this
    change c + 1 = c at this
    linarith

lemma body_outward {p : ℝ} (h0 : 0 < p) (h1 : p ≤ 1) : (roundX 0 (-3 / 4)).intersection !₂[p, 0]
    ((-1 : ℝ) • (roundX 0 (-3 / 4)).reference !₂[p, 0]) = some !₂[1, 0] := by
  rw [round_reference (by linarith), axis_smul, round_intersection (t := 1 - p) (by norm_num)]
  · norm_num
  · rw [if_neg (by norm_num; linarith)]
    norm_num
    ring

lemma body_branch {p : ℝ} (h0 : 0 < p) (h1 : p ≤ 1) : computeBranch !₂[p, 0] 1 body
    = .ok [⟨1, !₂[1, 0], !₂[-1, 0]⟩, ⟨0, !₂[1, 0], !₂[-1, 0]⟩] := by
  classical
  have hn : ∀ s D, getNormalAtDistance (roundX 0 (-3 / 4)) s D = .ok ((roundX 0 (-3 / 4)).normal s) := by
    intro s D
    unfold getNormalAtDistance
    rw [if_neg (by simp [roundX, roundAt])]
  have hn' : ∀ s D, getNormalAtDistance (roundX (-3 / 2) (-3 / 2)) s D
      = .ok ((roundX (-3 / 2) (-3 / 2)).normal s) := by
    intro s D
    unfold getNormalAtDistance
    rw [if_neg (by simp [roundX, roundAt])]
  unfold computeBranch
  refine bind_ok.mpr ⟨roundX 0 (-3 / 4), rfl, ?_⟩
  simp only
  have hg : ¬ (roundX 0 (-3 / 4)).gamma !₂[p, 0] > 1 := by
    rw [round_gamma, sub_zero, abs_of_pos h0]; exact not_lt.mpr h1
  simp only [if_neg hg]
  rw [body_outward h0 h1]
  refine bind_ok.mpr ⟨_, hn _ _, bind_ok.mpr ⟨[⟨0, !₂[1, 0], !₂[-1, 0]⟩], ?_, ?_⟩⟩
  · unfold branchLoop
    rw [if_neg (by decide)]
    refine bind_ok.mpr ⟨roundX 0 (-3 / 4), rfl, ?_⟩
    have hp : body.parentIdx 1 = some 0 := rfl
    rw [hp]
    refine bind_ok.mpr ⟨roundX (-3 / 2) (-3 / 2), rfl, ?_⟩
    rw [if_neg (by norm_num)]
    have hr : (roundX 0 (-3 / 4)).referencePoint = !₂[-3 / 4, 0] := rfl
    rw [hr, axis_sub, round_intersection (t := 1 / 7) (by norm_num) (by norm_num [abs_of_pos])]
    refine bind_ok.mpr ⟨_, hn' _ _, bind_ok.mpr ⟨[], ?_, ?_⟩⟩
    · unfold branchLoop
      exact if_pos rfl
    · rw [round_normal (by norm_num), round_reference (by norm_num)]
  · rw [round_normal (by norm_num), round_reference (by linarith)]

lemma body_weights (argsort : List ℤ → List ℕ) (power : ℝ) {p : ℝ} (hp0 : 0 < p) (hp1 : p ≤ 1) {u : Vec 2}
    (hu : ‖u‖ = 1) :
    ∃ slow, computeGammaAndWeights (planeExt argsort) power !₂[p, 0] body u
      = .ok ([p + 3 / 2, p], [0, 1], slow) := by
  have h0 : (roundX (-3 / 2) (-3 / 2)).gamma !₂[p, 0] = p + 3 / 2 := by
    rw [round_gamma, abs_of_pos (by linarith)]; ring
  have h1 : (roundX 0 (-3 / 4)).gamma !₂[p, 0] = p := by rw [round_gamma, sub_zero, abs_of_pos hp0]
  obtain ⟨slow, h⟩ := two_weights argsort power (t := body) rfl rfl (x := !₂[p, 0]) (u := u) (by rw [h0]; linarith)
    (by rw [h1]; exact hp1) hu
  rw [h0, h1] at h
  exact ⟨slow, h⟩

lemma body_occlusion {p : ℝ} (h0 : 0 < p) (h1 : p ≤ 1) : computeParentOcclusionWeight !₂[p, 0] body = .ok [1, 1] := by
  classical
  unfold computeParentOcclusionWeight
  change List.mapM _ [(roundX (-3 / 2) (-3 / 2), 0), (roundX 0 (-3 / 4), 1)] = _
  refine mapM_ok.mpr (List.Forall₂.cons ?_ (List.Forall₂.cons ?_ List.Forall₂.nil))
  · exact if_pos rfl
  · rw [if_neg (by decide)]
    have hp : body.parentIdx 1 = some 0 := rfl
    simp only [hp]
    refine bind_ok.mpr ⟨roundX (-3 / 2) (-3 / 2), rfl, ?_⟩
    have hg : (roundX 0 (-3 / 4)).gamma !₂[p, 0] = p := by rw [round_gamma, sub_zero, abs_of_pos h0]
    have hs : (roundX 0 (-3 / 4)).intersection !₂[p, 0] (if (roundX 0 (-3 / 4)).gamma !₂[p, 0] < 1
        then (-1 : ℝ) • (roundX 0 (-3 / 4)).reference !₂[p, 0] else (roundX 0 (-3 / 4)).reference !₂[p, 0])
        = some !₂[1, 0] := by
      rw [hg]
      split_ifs with h
      · exact body_outward h0 h1
      · have : p = 1 := le_antisymm h1 (not_lt.mp h)
        rw [this]; exact body_near
    unfold parentOcclusionWeight
    simp only [hs]
    rw [if_pos (by rw [round_gamma]; norm_num [abs_of_pos])]

/-- The preparation at `(p, 0)`: all directions of the tree are the velocity. -/
lemma body_prepare (argsort : List ℤ → List ℕ) {a : Avoider 2} (hat : a.trees = [body])
    (hrad : a.convergenceRadius ≤ Real.pi) (hgmr : ∀ gm ∈ a.gammaMaximumRepulsion, gm < 1) {p : ℝ} (hp0 : 0 < p)
    (hp1 : p ≤ 1) {u : Vec 2} (hu : ‖u‖ = 1) (heu : 0 ≤ ⟪(!₂[1, 0] : Vec 2), u⟫) :
    ∃ pr, prepareAvoidance (planeExt argsort) a !₂[p, 0] u = .ok pr
      ∧ Uniform u 1 pr.tree := by
  classical
  obtain ⟨t0, a1, a2, a3, a4, a5⟩ := from_sequence_root (d := 2) baseId u hu
  have hdir0 : ∀ m ∈ t0.nodes, dirOf t0 m = u := by
    intro m hm
    rw [a3, List.mem_singleton] at hm
    subst hm
    unfold dirOf; rw [a5]; rfl
  obtain ⟨t1, b1, b2, b3, b4, b5⟩ := Uniform.add (n := .key ((0 : ℕ) : ℤ) (-1) (-1)) (p := baseId) hu a2 hdir0 (by
      rw [a3, List.mem_singleton]; decide) a2.root_mem a2.root_level (by norm_num)
  obtain ⟨t2, c1, c2, c3, c4, c5⟩ := Uniform.add (n := .key ((0 : ℕ) : ℤ) ((1 : ℕ) : ℤ) ((0 : ℕ) : ℤ))
    (p := .key ((0 : ℕ) : ℤ) (-1) (-1)) hu b2 b5 (by
      rw [b3, a3]; decide) (by rw [b3]; simp) b4 (by norm_num)
  obtain ⟨t3, d1, d2, d3, d4, d5⟩ := Uniform.add (n := .key ((0 : ℕ) : ℤ) ((1 : ℕ) : ℤ) ((1 : ℕ) : ℤ))
    (p := .key ((0 : ℕ) : ℤ) ((1 : ℕ) : ℤ) ((0 : ℕ) : ℤ)) hu c2 c5 (by
      rw [c3, b3, a3]; decide) (by rw [c3]; simp) c4 (by norm_num)
  obtain ⟨slow, hw⟩ := body_weights argsort a.power hp0 hp1 hu
  obtain ⟨radii, hrr, hrl, _⟩ := C37_radii a.convergenceRadius a.gammaMaximumRepulsion
    !₂[p, 0] (body.components.zip [p + 3 / 2, p]) hrad hgmr
    (by
      intro c hc hc1
      simp only [body, List.zip_cons_cons, List.zip_nil_left, List.mem_cons, List.not_mem_nil, or_false] at hc
      rcases hc with rfl | rfl
      · simp only at hc1; linarith
      · exact round_inside hp0 (by simpa using hc1))
  obtain ⟨ρ, σ, rfl⟩ := List.length_eq_two.mp (show radii.length = 2 from hrl)
  have hbr : tangentBranch (planeExt argsort) !₂[p, 0] 1 u body 0 σ t1 = .ok (t3, !₂[1, 0]) := by
    have hnorm : ‖(!₂[-1, 0] : Vec 2)‖ = 1 := by rw [axis_norm]; norm_num
    unfold tangentBranch
    refine bind_ok.mpr ⟨_, body_branch hp0 hp1, ?_⟩
    simp only
    refine bind_ok.mpr ⟨(t2, u, NodeId.key ((0 : ℕ) : ℤ) ((1 : ℕ) : ℤ) ((0 : ℕ) : ℤ)), ?_, ?_⟩
    · change List.foldlM _ _ [((⟨1, !₂[1, 0], !₂[-1, 0]⟩ : BranchEntry 2), (⟨0, !₂[1, 0], !₂[-1, 0]⟩ : BranchEntry 2))] = _
      rw [List.foldlM_cons]
      refine bind_ok.mpr ⟨(t2, u, NodeId.key ((0 : ℕ) : ℤ) ((1 : ℕ) : ℤ) ((0 : ℕ) : ℤ)), ?_, rfl⟩
      unfold branchStep
      simp only [fromDirections_self hnorm]
      have hrot : (⟨⟨!₂[-1, 0], parallelPerp !₂[-1, 0]⟩, 0⟩ : Rot (Vec 2)).rotate u = u := by
        unfold Rot.rotate
        rw [rotateDirection_eq, mul_zero, planeRot_zero]
      rw [hrot]
      exact bind_ok.mpr ⟨t2, c1, rfl⟩
    · simp only
      refine bind_ok.mpr ⟨roundX 0 (-3 / 4), rfl, ?_⟩
      rw [if_neg (by
        rintro (h | h)
        · cases h
        · exact absurd h (not_lt.mpr heu))]
      exact bind_ok.mpr ⟨t3, d1, rfl⟩
  have hpop : populateTangentTree (planeExt argsort) a !₂[p, 0] u body 0 [0 * 1, 1 * 1] [p + 3 / 2, p]
      (t0, [], []) = .ok (t3, [] ++ [.key ((0 : ℕ) : ℤ) ((1 : ℕ) : ℤ) ((1 : ℕ) : ℤ)], [] ++ [!₂[1, 0]]) := by
    unfold populateTangentTree
    refine bind_ok.mpr ⟨t1, b1, bind_ok.mpr ⟨_, hrr, ?_⟩⟩
    change List.foldlM _ _ [(0, (0 * 1 : ℝ), ρ), (1, (1 * 1 : ℝ), σ)] = _
    rw [List.foldlM_cons]
    refine bind_ok.mpr ⟨_, if_pos (by norm_num), ?_⟩
    rw [List.foldlM_cons]
    refine bind_ok.mpr ⟨_, ?_, rfl⟩
    unfold populateStep
    simp only
    rw [if_neg (by norm_num)]
    exact bind_ok.mpr ⟨_, hbr, rfl⟩
  have hstep : tangentStep (planeExt argsort) a !₂[p, 0] u ⟨t0, [], [], [], [], []⟩ (body, 0)
      = .ok ⟨t3, [] ++ [.key ((0 : ℕ) : ℤ) ((1 : ℕ) : ℤ) ((1 : ℕ) : ℤ)], [] ++ [!₂[1, 0]], [] ++ [slow],
        [] ++ [[(0 * 1 : ℝ), 1 * 1].sum], [] ++ [normalised ([(0 * 1 : ℝ), 1 * 1].filter (fun w => w > 0))]⟩ := by
    unfold tangentStep
    exact bind_ok.mpr ⟨_, hw, bind_ok.mpr ⟨_, body_occlusion hp0 hp1, bind_ok.mpr ⟨_, hpop, rfl⟩⟩⟩
  refine ⟨_, bind_ok.mpr ⟨t0, a1, bind_ok.mpr ⟨_, (?_ : _ = Except.ok (⟨t3, [] ++ [.key ((0 : ℕ) : ℤ) ((1 : ℕ) : ℤ) ((1 : ℕ) : ℤ)],
    [] ++ [!₂[1, 0]], [] ++ [slow], [] ++ [[(0 * 1 : ℝ), 1 * 1].sum],
    [] ++ [normalised ([(0 * 1 : ℝ), 1 * 1].filter (fun w => w > 0))]⟩ : TangentState 2)), rfl⟩⟩, d2, d5, ?_⟩
  · rw [hat]
    change List.foldlM _ _ [(body, 0)] = _
    rw [List.foldlM_cons]
    exact bind_ok.mpr ⟨_, hstep, rfl⟩
  · intro m hm
    change m ∈ t3.nodes at hm
    rw [d3, c3, b3, a3] at hm
    simp only [List.mem_append, List.mem_singleton] at hm
    rcases hm with ((rfl | rfl) | rfl) | rfl
    · exact Or.inl rfl
    · exact Or.inr ⟨0, _, _, by omega, rfl⟩
    · exact Or.inr ⟨0, _, _, by omega, rfl⟩
    · exact Or.inr ⟨0, _, _, by omega, rfl⟩

/-- A run of the avoider from what is prepared for it. -/
lemma run_of_prepared {d k : ℕ} [Fact (2 ≤ d)] {ext : Ext d k} {a : Avoider d} {x u : Vec d} (hpow : 0 ≤ a.power)
    (hs : SaneTrees a.trees) (hone : AtMostOneContact x a.trees) (has : ArgsortSpec ext.argsort)
    (hne : a.trees ≠ []) {s conv : RotSeq (Vec d)} {rel : Vec d} {pr : Prepared d}
    (hs1 : evaluateDynamicsSequence x a.initial = .ok (some s)) (hc1 : computeConvergenceSequence ext a x s = .ok conv)
    (hc2 : conv.getEndVector = .ok u) (hpr : prepareAvoidance ext a x u = .ok pr)
    (hrel : relativeVelocity x a.trees = .ok rel) (hgd : InnerDirections pr.tree) :
    (∃ w, a.evaluate ext x = .ok w) ∧ ∀ pr', PreparedFor ext a x pr' → pr' = pr := by
  classical
  constructor
  · obtain ⟨hcv, hl⟩ := C42_convex_partial ext a x u pr hpow hs hone hpr
    obtain ⟨Ds, hD, _, hnorm, hslow, _, _, hin', _, _, _, c1, _, c2, c3⟩ := prepared_facts hpow hs hpr
    obtain ⟨final, hf, hf1⟩ := C22_unit_convex pr.tree baseId c1 hgd ext.argsort has NodeState.init
      pr.nodes (avoidanceWeights pr.cluster) hl.symm c2 c3 hcv.1 (by rw [hcv.2]; norm_num)
      (le_of_eq hcv.2)
    have hle := cluster_le_one hpow hs hone hpr
    have hslw : ∃ w, slowDown (a.magnitude x) rel final pr = .ok w := by
      unfold slowDown
      cases hm : pr.cluster.max? with
      | none => exact ⟨_, rfl⟩
      | some m =>
        obtain ⟨p', hp', _⟩ := C35_scaling_range final
          (List.zipWith (fun (n : Vec d) w => w • n) pr.normals pr.cluster).sum (1 / m) 0.8 3
          (le_of_eq hf1)
          ((averaged_le (by rw [hnorm]; exact normals_le hs hD) (fun w hw => (hin' w hw).1)).trans hle)
          (by norm_num) (by norm_num)
        have hsne : pr.slow ≠ [] := by
          rw [hslow]
          intro h0
          have := hD.length_eq
          rw [List.map_eq_nil_iff.mp h0, List.length_zipIdx] at this
          exact hne (List.length_eq_zero_iff.mp this)
        obtain ⟨c', hc', _⟩ := C36_slowfactor pr.slow 0.2 hsne (by norm_num)
          (by rw [hslow]; exact slow_le hpow hs hD)
        exact ⟨_, bind_ok.mpr ⟨p', hp', bind_ok.mpr ⟨c', hc', if_neg (by rw [hf1]; norm_num)⟩⟩⟩
    obtain ⟨w, hw⟩ := hslw
    refine ⟨w, ?_⟩
    unfold Avoider.evaluate evaluateSequence
    refine bind_ok.mpr ⟨_, hs1, ?_⟩
    simp only
    rw [if_neg hne]
    exact bind_ok.mpr ⟨rel, hrel, bind_ok.mpr ⟨conv, hc1, bind_ok.mpr ⟨_, hc2,
      bind_ok.mpr ⟨pr, hpr, bind_ok.mpr ⟨final, hf, hw⟩⟩⟩⟩⟩
  · rintro pr' ⟨s', conv', u', e1, e2, e3, e4⟩
    rw [hs1] at e1; cases e1
    rw [hc1] at e2; cases e2
    rw [hc2] at e3; cases e3
    rw [hpr] at e4; cases e4; rfl

/-- `C61_surface_partial` and `C61_moving_surface_partial`: the motion at `(1, 0)`, on the surface of the child,
is defined and does not point into it. -/
example : ∃ (argsort : List ℤ → List ℕ) (w : Vec 2),
    bodyAvoider.evaluate (planeExt argsort) !₂[1, 0] = .ok w
      ∧ -1e-3 * (1 / 2) ≤ ⟪w, (!₂[1, 0] : Vec 2)⟫
      ∧ -1e-3 * (1 / 2) ≤ ⟪w - movedVelocity !₂[1, 0] 1 body, (!₂[1, 0] : Vec 2)⟫ := by
  classical
  obtain ⟨argsort, has⟩ := argsort_exists
  obtain ⟨_, _, _, ⟨s, _, _, hs1, _⟩, _⟩ := slide_run argsort has
  rw [one_smul] at hs1
  have hs1' : evaluateDynamicsSequence !₂[1, 0] bodyAvoider.initial = .ok (some s) := hs1
  have hn : ‖(!₂[0, 1 / 2] : Vec 2)‖ = 1 / 2 := by
    simp [EuclideanSpace.norm_eq, Fin.sum_univ_two]
  have hv0 : (!₂[0, 1 / 2] : Vec 2) ≠ 0 := by
    intro h; rw [h, norm_zero] at hn; norm_num at hn
  have hsane : SaneTrees bodyAvoider.trees := by
    intro t ht o ho
    have : t = body := by simpa [bodyAvoider] using ht
    subst this
    simp only [body, List.mem_cons, List.not_mem_nil, or_false] at ho
    rcases ho with rfl | rfl <;> exact round_sane _ _
  have hstatic : ∀ t ∈ bodyAvoider.trees, Static t := by
    intro t ht
    have : t = body := by simpa [bodyAvoider] using ht
    subst this
    exact ⟨rfl, rfl⟩
  have hone : AtMostOneContact !₂[1, 0] bodyAvoider.trees := List.pairwise_singleton _ _
  have hpow : (0 : ℝ) ≤ bodyAvoider.power := by norm_num [bodyAvoider, discAvoider]
  have hin : ∀ t ∈ bodyAvoider.trees, InContact (!₂[0, 1 / 2] : Vec 2) t := by
    intro t ht
    have : t = body := by simpa [bodyAvoider] using ht
    subst this
    refine ⟨roundX 0 (-3 / 4), by simp [body], ?_⟩
    change ‖(!₂[0, 1 / 2] : Vec 2) - !₂[0, 0]‖ ≤ 1
    have : (!₂[0, 1 / 2] : Vec 2) - !₂[0, 0] = !₂[0, 1 / 2] := by ext i; fin_cases i <;> simp
    rw [this, hn]; norm_num
  have hdist : Distinguishable [referenceDirection !₂[1, 0] bodyAvoider.initial none,
      bodyAvoider.initial.evaluate !₂[1, 0]] := by
    have href : referenceDirection !₂[1, 0] bodyAvoider.initial none = !₂[-1, 1 / 2] := by
      ext i; fin_cases i <;> simp [referenceDirection, bodyAvoider, discAvoider]
    have hn2 : ‖(!₂[-1, 1 / 2] : Vec 2)‖ ≤ 2 := by
      rw [EuclideanSpace.norm_eq, Fin.sum_univ_two]
      apply Real.sqrt_le_iff.mpr; norm_num
    have hn1 : 1 ≤ ‖(!₂[-1, 1 / 2] : Vec 2)‖ := by
      rw [EuclideanSpace.norm_eq, Fin.sum_univ_two]
      apply Real.le_sqrt_of_sq_le; simp
    rw [href]
    refine List.isChain_cons_cons.mpr ⟨Or.inr ?_, List.isChain_singleton _⟩
    intro h
    have h0 := h 0
    unfold isclose at h0
    simp only [bodyAvoider, discAvoider, PiLp.smul_apply, smul_eq_mul, Matrix.cons_val_zero, mul_zero, sub_zero,
      abs_zero, add_zero, mul_neg, mul_one, abs_neg] at h0
    rw [abs_of_nonneg (by positivity)] at h0
    have : 1 / 2 ≤ 1 / ‖(!₂[-1, 1 / 2] : Vec 2)‖ := one_div_le_one_div_of_le (by linarith) hn2
    norm_num at h0 this
    linarith
  obtain ⟨conv, hc1, hc2⟩ := C62_attractor_inside (planeExt argsort) bodyAvoider !₂[1, 0] _ rfl rfl hin has hdist s hs1'
  have hu : ‖unit (!₂[0, 1 / 2] : Vec 2)‖ = 1 := unit_norm hv0
  obtain ⟨pr, hpr, hU⟩ := body_prepare argsort (a := bodyAvoider) rfl
    (by change Real.pi * 0.5 ≤ Real.pi; linarith [Real.pi_pos])
    (by intro gm hgm; have : gm = 0.8 := by simpa [bodyAvoider, discAvoider] using hgm.symm
        rw [this]; norm_num) one_pos le_rfl hu (by
    unfold unit; rw [inner_smul_right]; simp [PiLp.inner_apply, Fin.sum_univ_two])
  have hrel := C60_static !₂[1, 0] bodyAvoider.trees hstatic (by
    intro t ht
    have : t = body := by simpa [bodyAvoider] using ht
    subst this
    simp [body])
  obtain ⟨⟨w, hw⟩, huniq⟩ := run_of_prepared hpow hsane hone has (by simp [bodyAvoider]) hs1' hc1 hc2 hpr hrel
    (hU.good hu).inner
  have hgood : ∀ pr', PreparedFor (planeExt argsort) bodyAvoider !₂[1, 0] pr' → GoodDirections pr'.tree := by
    intro pr' h'
    rw [huniq pr' h']; exact hU.good hu
  have hmag : bodyAvoider.magnitude !₂[1, 0] = 1 / 2 := hn
  have hnormal : (roundX 0 (-3 / 4)).normal !₂[1, 0] = !₂[1, 0] := round_normal (by norm_num)
  have honly : ∀ (j : ℕ) (t' : ObstacleTree 2) (c' : ℕ) (o' : Obstacle 2), bodyAvoider.trees[j]? = some t' →
      t'.components[c']? = some o' → o'.gamma !₂[1, 0] ≤ 1 → j = 0 ∧ c' = 1 := by
    intro j t' c' o' hj hc hg
    have hj' : j = 0 := by
      by_contra hne
      rw [List.getElem?_eq_none (by simp [bodyAvoider]; omega)] at hj; cases hj
    subst hj'
    have : t' = body := by simpa [bodyAvoider] using hj.symm
    subst this
    refine ⟨rfl, ?_⟩
    match c' with
    | 0 =>
      have : o' = roundX (-3 / 2) (-3 / 2) := by simpa [body] using hc.symm
      rw [this, round_gamma] at hg
      norm_num [abs_of_pos] at hg
    | 1 => rfl
    | n + 2 => rw [List.getElem?_eq_none (by simp [body])] at hc; cases hc
  refine ⟨argsort, w, hw, ?_, ?_⟩
  · have := C61_surface_partial (planeExt argsort) bodyAvoider !₂[1, 0] w hpow hsane hstatic has
      (by rw [hmag]; norm_num) 0 body rfl 1 _ rfl body_on_surface (Or.inr body_near) honly hw
    rw [hmag, hnormal] at this
    exact this
  · have := C61_moving_surface_partial (planeExt argsort) bodyAvoider !₂[1, 0] w hpow hsane has
      (by rw [hmag]; norm_num) 0 body rfl 1 _ rfl body_on_surface (Or.inr body_near) honly (moves_plain rfl hv0 (by
        intro h
        have := congrArg (fun v : Vec 2 => v 0) (Option.some.inj h)
        simp at this)) hw
    rw [hmag, hnormal] at this
    exact this

end Verif
