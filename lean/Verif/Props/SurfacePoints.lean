import Verif.Model.SurfacePoints
import Verif.Props.KMeansObstacle
import Mathlib.Geometry.Euclidean.Angle.Unoriented.Basic

/-!
# C145: the sampled surface of a cluster
-/

open scoped RealInnerProductSpace

namespace Verif.KMeans

variable {n d : ℕ}

lemma circlePoint_eq (a : ℝ) : (circlePoint a : Vec 2) = !₂[Real.cos a, Real.sin a] := by
  ext i
  fin_cases i <;> simp [circlePoint]

lemma circle_norm (a : ℝ) : ‖(!₂[Real.cos a, Real.sin a] : Vec 2)‖ = 1 := by
  rw [EuclideanSpace.norm_eq]
  simp [Fin.sum_univ_two, Real.cos_sq_add_sin_sq]

lemma surfacePoint_eq (o : Obs n 2) (hg : Spec.GoodClusters o.centers o.radius o.index) (a : ℝ) :
    ∃ s : ℝ, 0 < s ∧ (o.getPointOnSurface (circlePoint a + o.centers o.index) true).1
        = o.centers o.index + s • !₂[Real.cos a, Real.sin a]
      ∧ (∀ t : ℝ, 0 ≤ t → (o.centers o.index + t • !₂[Real.cos a, Real.sin a] ∈ Spec.Cell o.centers o.radius o.index ↔ t ≤ s))
      := by
  have e : circlePoint a + o.centers o.index - o.center = !₂[Real.cos a, Real.sin a] := by
    rw [circlePoint_eq]; unfold Obs.center; abel
  obtain ⟨s, hs, h1, h2⟩ := C80_surface o hg (circlePoint a + o.centers o.index) (by
    intro h
    have := sub_eq_zero.mpr h
    rw [e] at this
    have h3 := circle_norm a
    rw [this, norm_zero] at h3
    norm_num at h3)
  rw [e, circle_norm, div_one] at h1
  refine ⟨s, hs, h1, fun t ht => ?_⟩
  have := h2 t ht
  rwa [e, circle_norm, div_one] at this

/-- C145: `n_points` points are returned.  They lie on the surface, seen from the centre in the directions of the
equally spaced angles from 0 to 2π: the ray in this direction is inside up to the point and outside beyond it. -/
theorem C145_points (o : Obs n 2) (hg : Spec.GoodClusters o.centers o.radius o.index) (nPoints : ℕ) :
    ∃ L, o.evaluateSurfacePoints nPoints = .ok L ∧ L.length = nPoints
      ∧ ∀ i, i < nPoints → ∃ s : ℝ, 0 < s ∧
        L[i]? = some (o.centers o.index + s • !₂[Real.cos (2 * Real.pi * i / (nPoints - 1)),
          Real.sin (2 * Real.pi * i / (nPoints - 1))])
        ∧ ∀ t : ℝ, 0 ≤ t → (o.centers o.index + t • !₂[Real.cos (2 * Real.pi * i / (nPoints - 1)),
          Real.sin (2 * Real.pi * i / (nPoints - 1))] ∈ Spec.Cell o.centers o.radius o.index ↔ t ≤ s) := by
  refine ⟨_, by unfold Obs.evaluateSurfacePoints; rw [if_neg (by simp)], by simp, ?_⟩
  intro i hi
  have e : linspaceAngle nPoints i = 2 * Real.pi * i / (nPoints - 1) := by unfold linspaceAngle; ring
  obtain ⟨s, hs, h1, h2⟩ := surfacePoint_eq o hg (linspaceAngle nPoints i)
  refine ⟨s, hs, ?_, ?_⟩
  · rw [List.getElem?_map, List.getElem?_range hi, Option.map_some, h1, e]
  · rw [← e]; exact h2

/-- C145: the points belong to the region, but not to its interior; there gamma is one if no wall is transparent. -/
theorem C145_surface (o : Obs n 2) (hg : Spec.GoodClusters o.centers o.radius o.index) (nPoints : ℕ) (L : List (Vec 2))
    (h : o.evaluateSurfacePoints nPoints = .ok L) (p : Vec 2) (hp : p ∈ L) :
    p ∈ Spec.Cell o.centers o.radius o.index ∧ p ∉ Spec.OpenCell o.centers o.radius o.index
      ∧ ∀ last : Fin n, o.successor = [] → o.getGamma last p true .unset = .ok (some 1) := by
  unfold Obs.evaluateSurfacePoints at h
  rw [if_neg (by simp)] at h
  have h := Except.ok.inj h
  rw [← h, List.mem_map] at hp
  obtain ⟨i, -, rfl⟩ := hp
  obtain ⟨s, hs, h1, h2⟩ := surfacePoint_eq o hg (linspaceAngle nPoints i)
  set u : Vec 2 := !₂[Real.cos (linspaceAngle nPoints i), Real.sin (linspaceAngle nPoints i)] with hu
  have hu1 : ‖u‖ = 1 := circle_norm _
  rw [h1]
  have hc : o.centers o.index + s • u ∈ Spec.Cell o.centers o.radius o.index := (h2 s hs.le).mpr le_rfl
  have hopen : o.centers o.index + s • u ∉ Spec.OpenCell o.centers o.radius o.index := by
    rintro ⟨g1, g2⟩
    rw [add_sub_cancel_left] at g1
    have hopen' : ∃ e : ℝ, 0 < e ∧ ∀ t, s ≤ t → t < s + e → o.centers o.index + t • u ∈ Spec.Cell o.centers o.radius o.index := by
      have hcont : ∀ j, Continuous fun t : ℝ => ‖o.centers o.index + t • u - o.centers j‖ := fun j => by fun_prop
      have hset : {t : ℝ | ‖o.centers o.index + t • u - o.centers o.index‖ < o.radius
          ∧ ∀ j, j ≠ o.index → ‖o.centers o.index + t • u - o.centers o.index‖ < ‖o.centers o.index + t • u - o.centers j‖}
          ∈ nhds s := by
        refine Filter.inter_mem ?_ ?_
        · exact ((hcont o.index).continuousAt).eventually_lt continuousAt_const (by rw [add_sub_cancel_left]; exact g1)
        · show ∀ᶠ t in nhds s, ∀ j, j ≠ o.index → _
          rw [Filter.eventually_all]
          intro j
          by_cases hj : j = o.index
          · exact Filter.Eventually.of_forall fun t hne => absurd hj hne
          · refine (((hcont o.index).continuousAt).eventually_lt ((hcont j).continuousAt) (g2 j hj)).mono ?_
            intro t ht _; exact ht
      obtain ⟨e, he, hball⟩ := Metric.mem_nhds_iff.mp hset
      refine ⟨e, he, fun t h3 h4 => ?_⟩
      have ht : t ∈ Metric.ball s e := by
        rw [Metric.mem_ball, Real.dist_eq, abs_of_nonneg (by linarith)]; linarith
      obtain ⟨k1, k2⟩ := hball ht
      refine ⟨k1.le, fun j => ?_⟩
      by_cases hj : j = o.index
      · rw [hj]
      · exact (k2 j hj).le
    obtain ⟨e, he, h3⟩ := hopen'
    have := (h2 (s + e / 2) (by linarith)).mp (h3 _ (by linarith) (by linarith))
    linarith
  exact ⟨hc, hopen, fun last hsucc => C80_gamma_surface o hg last hsucc _ hc hopen⟩

/-- C145: the curve is closed: the last point is the first one. -/
theorem C145_closed (o : Obs n 2) (hg : Spec.GoodClusters o.centers o.radius o.index) (nPoints : ℕ) (hn : 2 ≤ nPoints)
    (L : List (Vec 2)) (h : o.evaluateSurfacePoints nPoints = .ok L) : L[0]? = L[nPoints - 1]? ∧ L[0]? ≠ none := by
  unfold Obs.evaluateSurfacePoints at h
  rw [if_neg (by simp)] at h
  have h := Except.ok.inj h
  have hn' : (2 : ℝ) ≤ nPoints := by exact_mod_cast hn
  have e0 : linspaceAngle nPoints 0 = 0 := by simp [linspaceAngle]
  have e1 : linspaceAngle nPoints (nPoints - 1) = 2 * Real.pi := by
    unfold linspaceAngle
    rw [Nat.cast_sub (by omega), Nat.cast_one]
    have : (nPoints : ℝ) - 1 ≠ 0 := by linarith
    field_simp
  have e : (circlePoint (2 * Real.pi) : Vec 2) = circlePoint 0 := by simp [circlePoint]
  subst h
  rw [List.getElem?_map, List.getElem?_map, List.getElem?_range (by omega), List.getElem?_range (by omega)]
  simp only [Option.map_some, e0, e1, e]
  exact ⟨trivial, by simp⟩

/-- C145: the points go all around.  From the centre every direction is seen within the angle `π / (n_points - 1)` of
one of the points. -/
theorem C145_around (o : Obs n 2) (hg : Spec.GoodClusters o.centers o.radius o.index) (nPoints : ℕ) (hn : 2 ≤ nPoints)
    (L : List (Vec 2)) (h : o.evaluateSurfacePoints nPoints = .ok L) (v : Vec 2) (hv : v ≠ 0) :
    ∃ p ∈ L, InnerProductGeometry.angle v (p - o.centers o.index) ≤ Real.pi / (nPoints - 1) := by
  obtain ⟨L', h1, -, h3⟩ := C145_points o hg nPoints
  have := Except.ok.inj (h1.symm.trans h)
  subst this
  have hpi := Real.pi_pos
  have hn' : (2 : ℝ) ≤ nPoints := by exact_mod_cast hn
  have hm : (0 : ℝ) < nPoints - 1 := by linarith
  -- the angle of the direction
  obtain ⟨θ, r, hr, h0, h2π, hvθ⟩ : ∃ θ r : ℝ, 0 < r ∧ 0 ≤ θ ∧ θ ≤ 2 * Real.pi ∧ v = r • !₂[Real.cos θ, Real.sin θ] := by
    set z : ℂ := ⟨v 0, v 1⟩ with hz
    have hz0 : z ≠ 0 := by
      intro h0
      apply hv
      have h4 := congrArg Complex.re h0
      have h5 := congrArg Complex.im h0
      ext i
      fin_cases i
      · simpa using h4
      · simpa using h5
    have hn0 : 0 < ‖z‖ := norm_pos_iff.mpr hz0
    have hc : v 0 = ‖z‖ * Real.cos z.arg := by rw [Complex.norm_mul_cos_arg]
    have hs : v 1 = ‖z‖ * Real.sin z.arg := by rw [Complex.norm_mul_sin_arg]
    by_cases ha : 0 ≤ z.arg
    · refine ⟨z.arg, ‖z‖, hn0, ha, by linarith [Complex.arg_le_pi z], ?_⟩
      ext i; fin_cases i <;> simp [hc, hs]
    · refine ⟨z.arg + 2 * Real.pi, ‖z‖, hn0, by linarith [Complex.neg_pi_lt_arg z], by linarith, ?_⟩
      ext i; fin_cases i <;> simp [hc, hs]
  -- the closest sample
  set y := θ * (nPoints - 1) / (2 * Real.pi) with hy
  have hy0 : 0 ≤ y := by positivity
  have hy1 : y ≤ nPoints - 1 := by
    rw [hy, div_le_iff₀ (by positivity)]
    nlinarith
  obtain ⟨i, hi, hid⟩ : ∃ i : ℕ, i < nPoints ∧ |y - i| ≤ 1 / 2 := by
    refine ⟨⌊y + 1 / 2⌋₊, ?_, ?_⟩
    · rw [Nat.floor_lt (by linarith)]
      linarith
    · have g1 := Nat.floor_le (show 0 ≤ y + 1 / 2 by linarith)
      have g2 := Nat.lt_floor_add_one (y + 1 / 2)
      rw [abs_le]; constructor <;> linarith
  obtain ⟨s, hs, hL, -⟩ := h3 i hi
  refine ⟨_, List.mem_of_getElem? hL, ?_⟩
  set φ := 2 * Real.pi * i / ((nPoints : ℝ) - 1) with hφ
  have hd : |θ - φ| ≤ Real.pi / (nPoints - 1) := by
    have e : θ - φ = (y - i) * (2 * Real.pi / (nPoints - 1)) := by
      rw [hy, hφ]; field_simp
    rw [e, abs_mul, abs_of_pos (show 0 < 2 * Real.pi / ((nPoints : ℝ) - 1) by positivity)]
    calc |y - i| * (2 * Real.pi / (nPoints - 1)) ≤ 1 / 2 * (2 * Real.pi / (nPoints - 1)) := by gcongr
      _ = Real.pi / (nPoints - 1) := by ring
  have hdpi : |θ - φ| ≤ Real.pi := hd.trans (by rw [div_le_iff₀ hm]; nlinarith)
  rw [add_sub_cancel_left, hvθ, InnerProductGeometry.angle_smul_left_of_pos _ _ hr,
    InnerProductGeometry.angle_smul_right_of_pos _ _ hs]
  refine le_trans (le_of_eq ?_) hd
  unfold InnerProductGeometry.angle
  rw [circle_norm, circle_norm, mul_one, div_one]
  have : ⟪(!₂[Real.cos θ, Real.sin θ] : Vec 2), !₂[Real.cos φ, Real.sin φ]⟫ = Real.cos |θ - φ| := by
    rw [Real.cos_abs, Real.cos_sub]
    simp [PiLp.inner_apply, Fin.sum_univ_two]
    ring
  rw [this, Real.arccos_cos (abs_nonneg _) hdpi]

/-- C145: in other dimensions the call is rejected. -/
theorem C145_dimension [NeZero d] (o : Obs n d) (hd : d ≠ 2) (nPoints : ℕ) :
    o.evaluateSurfacePoints nPoints = .error .notImplemented := by
  unfold Obs.evaluateSurfacePoints
  rw [if_pos hd]

/-- Two clusters in the plane. -/
noncomputable def planeClusters : Obs 2 2 :=
  { centers := fun i => if i = 0 then 0 else !₂[2, 0], radius := 2, index := 0 }

/-- They are clusters as k-means returns them, and the wall between them cuts the circle. -/
example : Spec.GoodClusters planeClusters.centers planeClusters.radius planeClusters.index
    ∧ planeClusters.successor = [] ∧ planeClusters.Relevant 1 := by
  have h : ‖(!₂[2, 0] : Vec 2)‖ = 2 := by
    rw [EuclideanSpace.norm_eq]; simp [Fin.sum_univ_two]
  refine ⟨⟨by norm_num [planeClusters], ?_⟩, rfl, by decide, ?_⟩
  · intro j hj
    fin_cases j
    · exact absurd rfl hj
    · simp only [planeClusters]; simp [h]; norm_num
  · simp only [planeClusters]; simp [h]

end Verif.KMeans
