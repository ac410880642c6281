import Verif.Model.Segments
import Verif.Props.TreeMean
import Verif.Lemmas.Monad

/-!
# C52, C74, C75: segments and the weights of a followed path
-/

open scoped RealInnerProductSpace
open Verif.Spec

set_option linter.unusedSectionVars false

namespace Verif
open Segments

variable {d : ℕ}

/-! ## C74: one segment -/

lemma segment_create_ok {a b : Vec d} {s : Segment d} (h : Segment.create a b = .ok s) :
    a ≠ b ∧ s = ⟨a, b, unit (b - a), ‖b - a‖⟩ := by
  unfold Segment.create at h
  simp only at h
  by_cases h0 : ‖b - a‖ = 0
  · rw [if_pos h0] at h; cases h
  · rw [if_neg h0] at h
    refine ⟨fun e => h0 (by rw [e]; simp), (Except.ok.inj h).symm⟩

/-- C74: a segment can be made from any two different points, and from these only. -/
theorem C74_create (a b : Vec d) :
    (a = b → Segment.create a b = .error .valueError) ∧ (a ≠ b → ∃ s, Segment.create a b = .ok s) := by
  unfold Segment.create
  simp only
  refine ⟨fun h => by rw [if_pos (by rw [h]; simp)], fun h => ?_⟩
  rw [if_neg (norm_ne_zero_iff.mpr (sub_ne_zero.mpr h.symm))]
  exact ⟨_, rfl⟩

lemma decompose (u w : Vec d) (hu : ‖u‖ = 1) (t : ℝ) :
    ‖w - t • u‖ ^ 2 = ‖w - ⟪w, u⟫ • u‖ ^ 2 + (⟪w, u⟫ - t) ^ 2 := by
  have h1 : ⟪u, u⟫ = 1 := by rw [real_inner_self_eq_norm_sq, hu]; norm_num
  simp only [← real_inner_self_eq_norm_sq, inner_sub_left, inner_sub_right, real_inner_smul_left,
    inner_smul_right, h1, real_inner_comm u w]
  ring

lemma clamp_nearest {L t u : ℝ} (hL : 0 ≤ L) (h0 : 0 ≤ u) (h1 : u ≤ L) :
    |t - min L (max t 0)| ≤ |t - u| := by
  rcases le_total t 0 with h | h
  · rw [max_eq_right h, min_eq_right hL, abs_of_nonpos (by linarith), abs_of_nonpos (by linarith)]
    linarith
  · rw [max_eq_left h]
    rcases le_total t L with h2 | h2
    · rw [min_eq_right h2, sub_self, abs_zero]; exact abs_nonneg _
    · rw [min_eq_left h2, abs_of_nonneg (by linarith), abs_of_nonneg (by linarith)]; linarith

/-- C74: `get_distance` is the distance to the nearest point of the segment. -/
theorem C74_distance (a b : Vec d) (s : Segment d) (h : Segment.create a b = .ok s) (p : Vec d) :
    IsLeast {r | ∃ y ∈ segment ℝ a b, r = ‖p - y‖} (s.getDistance p) := by
  obtain ⟨hne, rfl⟩ := segment_create_ok h
  have hb : b - a ≠ 0 := sub_ne_zero.mpr hne.symm
  have hL : 0 < ‖b - a‖ := norm_pos_iff.mpr hb
  unfold Segment.getDistance
  simp only
  set u := unit (b - a) with hu
  have hu1 : ‖u‖ = 1 := unit_norm hb
  set t := ⟪p - a, u⟫ with ht
  set m := min ‖b - a‖ (max t 0) with hm
  have hm0 : 0 ≤ m := le_min hL.le (le_max_right _ _)
  have hm1 : m ≤ ‖b - a‖ := min_le_left _ _
  have hpt : ∀ c : ℝ, a + (c * ‖b - a‖) • u = a + c • (b - a) := by
    intro c; rw [mul_smul, hu, norm_smul_unit]
  constructor
  · refine ⟨a + m • u, ?_, rfl⟩
    rw [segment_eq_image']
    refine ⟨m / ‖b - a‖, ⟨by positivity, by rw [div_le_one hL]; exact hm1⟩, ?_⟩
    simp only
    rw [← hpt, div_mul_cancel₀ _ hL.ne']
  · rintro r ⟨y, hy, rfl⟩
    rw [segment_eq_image'] at hy
    obtain ⟨c, ⟨hc0, hc1⟩, rfl⟩ := hy
    simp only
    rw [← hpt]
    have e : ∀ x : ℝ, p - (a + x • u) = (p - a) - x • u := fun x => by abel
    rw [e, e]
    apply le_of_sq_le_sq _ (norm_nonneg _)
    rw [decompose u _ hu1 m, decompose u _ hu1 (c * ‖b - a‖), ← ht]
    have := clamp_nearest (t := t) (u := c * ‖b - a‖) hL.le (by positivity)
      (by nlinarith)
    have h2 := sq_le_sq.mpr this
    linarith

/-- C74: the distance vanishes exactly on the segment. -/
theorem C74_distance_zero (a b : Vec d) (s : Segment d) (h : Segment.create a b = .ok s) (p : Vec d) :
    0 ≤ s.getDistance p ∧ (s.getDistance p = 0 ↔ p ∈ segment ℝ a b) := by
  obtain ⟨⟨y, hy, he⟩, hl⟩ := C74_distance a b s h p
  refine ⟨by rw [he]; exact norm_nonneg _, fun h0 => ?_, fun hp => ?_⟩
  · rw [h0] at he
    have : p = y := sub_eq_zero.mp (norm_eq_zero.mp he.symm)
    rw [this]; exact hy
  · have := hl ⟨p, hp, rfl⟩
    rw [sub_self, norm_zero] at this
    exact le_antisymm this (by rw [he]; exact norm_nonneg _)

/-- C74: the dynamics of a segment are a unit vector that points forward and towards the line
through the segment; on this line they follow the segment. -/
theorem C74_evaluate (a b : Vec d) (s : Segment d) (h : Segment.create a b = .ok s) (p : Vec d) :
    ‖s.evaluate p‖ = 1 ∧ 0 < ⟪s.evaluate p, b - a⟫
    ∧ (∀ q : Vec d, (∃ t : ℝ, q = a + t • (b - a)) → ⟪p - q, b - a⟫ = 0 →
        (p ≠ q → 0 < ⟪s.evaluate p, q - p⟫) ∧ (p = q → s.evaluate p = unit (b - a))) := by
  obtain ⟨hne, rfl⟩ := segment_create_ok h
  have hb : b - a ≠ 0 := sub_ne_zero.mpr hne.symm
  have hL : 0 < ‖b - a‖ := norm_pos_iff.mpr hb
  have hu1 : ‖unit (b - a)‖ = 1 := unit_norm hb
  have huu : ⟪unit (b - a), unit (b - a)⟫ = 1 := by
    rw [real_inner_self_eq_norm_sq, hu1]; norm_num
  have hba : b - a = ‖b - a‖ • unit (b - a) := (norm_smul_unit _).symm
  unfold Segment.evaluate
  simp only
  generalize hudef : unit (b - a) = u at *
  set q := a + ⟪p - a, u⟫ • u with hq
  have hperp : ⟪q - p, u⟫ = 0 := by
    rw [hq, show a + ⟪p - a, u⟫ • u - p = ⟪p - a, u⟫ • u - (p - a) by abel, inner_sub_left,
      real_inner_smul_left, huu]; ring
  set v := perpendicularFactor • (q - p) + u with hv
  have hvu : ⟪v, u⟫ = 1 := by
    rw [hv, inner_add_left, real_inner_smul_left, hperp, huu]; ring
  have hv0 : v ≠ 0 := by intro h0; rw [h0, inner_zero_left] at hvu; norm_num at hvu
  have hvn : 0 < ‖v‖ := norm_pos_iff.mpr hv0
  refine ⟨unit_norm hv0, ?_, ?_⟩
  · rw [hba, real_inner_smul_left, inner_smul_right, hvu]; positivity
  · rintro q' ⟨t, rfl⟩ horth
    have hqq : a + t • (b - a) = q := by
      rw [hba, inner_smul_right] at horth
      have h1 : ⟪p - (a + t • ‖b - a‖ • u), u⟫ = 0 := by
        rcases mul_eq_zero.mp horth with h | h
        · exact absurd h hL.ne'
        · exact h
      rw [show p - (a + t • ‖b - a‖ • u) = (p - a) - (t * ‖b - a‖) • u by rw [smul_smul]; abel,
        inner_sub_left, real_inner_smul_left, huu] at h1
      rw [hba, smul_smul, hq]
      congr 2
      linarith
    rw [hqq]
    refine ⟨fun hpq => ?_, fun hpq => ?_⟩
    · have hn : 0 < ‖q - p‖ := norm_pos_iff.mpr (sub_ne_zero.mpr hpq.symm)
      rw [real_inner_smul_left, hv, inner_add_left, real_inner_smul_left,
        real_inner_self_eq_norm_sq, real_inner_comm, hperp, add_zero, ← hv]
      unfold perpendicularFactor
      positivity
    · rw [hv, hpq, sub_self, smul_zero, zero_add, hu1]; simp

/-- C74 is not vacuous. -/
example : ∃ s, Segment.create (0 : Vec 3) (e3 0) = .ok s :=
  (C74_create 0 (e3 0)).2 (e3_ne_zero 0).symm

/-! ## C75: a path from points -/

/-- C75: between two points further apart than twice the margin, the segment starts one margin
after the first point, ends one margin before the second, and has the direction from the first to
the second. -/
theorem C75_between (margin : ℝ) (a b : Vec d) (hm : 0 ≤ margin) (h : 2 * margin < ‖b - a‖) :
    segmentBetween margin a b = .ok ⟨a + margin • unit (b - a), b - margin • unit (b - a),
      unit (b - a), ‖b - a‖ - 2 * margin⟩ := by
  have h0 : 0 < ‖b - a‖ := by linarith
  unfold segmentBetween
  simp only
  rw [if_neg h0.ne', show (1 / ‖b - a‖) • (b - a) = unit (b - a) from rfl]
  have hb : b - a ≠ 0 := norm_pos_iff.mp h0
  have e : b - margin • unit (b - a) - (a + margin • unit (b - a))
      = (‖b - a‖ - 2 * margin) • unit (b - a) := by
    rw [sub_smul, norm_smul_unit, two_mul, add_smul]; abel
  have hc : 0 < ‖b - a‖ - 2 * margin := by linarith
  have hn : ‖(‖b - a‖ - 2 * margin) • unit (b - a)‖ = ‖b - a‖ - 2 * margin := by
    rw [norm_smul, unit_norm hb, mul_one, Real.norm_eq_abs, abs_of_pos hc]
  unfold Segment.create
  simp only
  rw [e, hn, if_neg hc.ne', smul_smul, one_div, inv_mul_cancel₀ hc.ne', one_smul]

/-- C75: violated by the code for points closer than twice the margin (default: closer than one):
the segment leads *backwards*, from near the second point to near the first. -/
theorem C75_backwards (margin : ℝ) (a b : Vec d) (hab : a ≠ b) (h : ‖b - a‖ < 2 * margin) :
    ∃ s, segmentBetween margin a b = .ok s ∧ s.direction = -unit (b - a) := by
  have hb : b - a ≠ 0 := sub_ne_zero.mpr hab.symm
  have h0 : 0 < ‖b - a‖ := norm_pos_iff.mpr hb
  unfold segmentBetween
  simp only
  rw [if_neg h0.ne', show (1 / ‖b - a‖) • (b - a) = unit (b - a) from rfl]
  have e : b - margin • unit (b - a) - (a + margin • unit (b - a))
      = -((2 * margin - ‖b - a‖) • unit (b - a)) := by
    rw [sub_smul, norm_smul_unit, two_mul, add_smul]; abel
  have hc : 0 < 2 * margin - ‖b - a‖ := by linarith
  have hn : ‖-((2 * margin - ‖b - a‖) • unit (b - a))‖ = 2 * margin - ‖b - a‖ := by
    rw [norm_neg, norm_smul, unit_norm hb, mul_one, Real.norm_eq_abs, abs_of_pos hc]
  unfold Segment.create
  simp only
  rw [e, hn, if_neg hc.ne']
  refine ⟨_, rfl, ?_⟩
  simp only
  rw [smul_neg, smul_smul, one_div, inv_mul_cancel₀ hc.ne', one_smul]

/-- C75: violated by the code: at exactly twice the margin no path is created. -/
theorem C75_equal_fails (margin : ℝ) (a b : Vec d) (h : ‖b - a‖ = 2 * margin) :
    segmentBetween margin a b = .error .valueError := by
  unfold segmentBetween
  simp only
  by_cases h0 : ‖b - a‖ = 0
  · rw [if_pos h0]
  rw [if_neg h0, show (1 / ‖b - a‖) • (b - a) = unit (b - a) from rfl]
  refine (C74_create _ _).1 ?_
  have : b - a = (2 * margin) • unit (b - a) := by rw [← h, norm_smul_unit]
  have h2 : b = a + (2 * margin) • unit (b - a) := by rw [← this]; abel
  rw [two_mul, add_smul] at h2
  generalize unit (b - a) = u at *
  rw [h2]; abel

/-- C75: a path along at least two points whose neighbours are further apart than twice the margin
has one segment for each pair of neighbours, in their order and direction, and its attractor lies
one margin before the last point.

Missing: neighbours which are closer, for which it fails (`C75_backwards`, `C75_equal_fails`). -/
theorem C75_path_partial (margin : ℝ) (hm : 0 ≤ margin) (points : List (Vec d))
    (hlen : 2 ≤ points.length)
    (hfar : ∀ i, ∀ a b, points[i]? = some a → points[i + 1]? = some b → 2 * margin < ‖b - a‖) :
    ∃ p, createFromPoints points margin = .ok p
      ∧ p.segments.length + 1 = points.length
      ∧ (∀ i a b, points[i]? = some a → points[i + 1]? = some b →
          ∃ s, p.segments[i]? = some s ∧ s.start = a + margin • unit (b - a)
            ∧ s.finish = b - margin • unit (b - a) ∧ s.direction = unit (b - a))
      ∧ p.segments.getLast? = some p.last ∧ p.attractor = p.last.finish := by
  have hall : ∀ e ∈ points.zip (points.drop 1), segmentBetween margin e.1 e.2
      = .ok ⟨e.1 + margin • unit (e.2 - e.1), e.2 - margin • unit (e.2 - e.1),
          unit (e.2 - e.1), ‖e.2 - e.1‖ - 2 * margin⟩ := by
    rintro ⟨a, b⟩ he
    obtain ⟨i, hi⟩ := List.mem_iff_getElem?.mp he
    rw [List.getElem?_zip_eq_some] at hi
    simp only [List.getElem?_drop] at hi
    exact C75_between margin a b hm (hfar i a b hi.1 (by rw [add_comm]; exact hi.2))
  have hmap : ∀ l : List (Vec d × Vec d), (∀ e ∈ l, segmentBetween margin e.1 e.2
      = .ok ⟨e.1 + margin • unit (e.2 - e.1), e.2 - margin • unit (e.2 - e.1),
          unit (e.2 - e.1), ‖e.2 - e.1‖ - 2 * margin⟩) →
      l.mapM (fun e => segmentBetween margin e.1 e.2)
        = .ok (l.map fun e => ⟨e.1 + margin • unit (e.2 - e.1), e.2 - margin • unit (e.2 - e.1),
          unit (e.2 - e.1), ‖e.2 - e.1‖ - 2 * margin⟩) := by
    intro l
    induction l with
    | nil => intro _; rfl
    | cons e l ih =>
      intro h
      rw [List.mapM_cons, h e (by simp), ih (fun x hx => h x (by simp [hx]))]; rfl
  unfold createFromPoints
  rw [hmap _ hall]
  set segs := (points.zip (points.drop 1)).map fun e : Vec d × Vec d =>
    (⟨e.1 + margin • unit (e.2 - e.1), e.2 - margin • unit (e.2 - e.1),
      unit (e.2 - e.1), ‖e.2 - e.1‖ - 2 * margin⟩ : Segment d) with hsegs
  have hsl : segs.length + 1 = points.length := by
    rw [hsegs]; simp; omega
  have hne : segs ≠ [] := by
    intro h0; rw [h0] at hsl; simp at hsl; omega
  change ∃ p, Path.create segs = .ok p ∧ _
  unfold Path.create
  rw [List.getLast?_eq_some_getLast hne]
  refine ⟨_, rfl, hsl, ?_, List.getLast?_eq_some_getLast hne, rfl⟩
  intro i a b ha hb
  refine ⟨⟨a + margin • unit (b - a), b - margin • unit (b - a), unit (b - a),
    ‖b - a‖ - 2 * margin⟩, ?_, rfl, rfl, rfl⟩
  · simp only [hsegs, List.getElem?_map]
    have : (points.zip (points.drop 1))[i]? = some (a, b) := by
      rw [List.getElem?_zip_eq_some]
      simp only [List.getElem?_drop]
      exact ⟨ha, by rw [add_comm]; exact hb⟩
    rw [this]; rfl

/-- C75: with fewer than two points there is no path. -/
theorem C75_too_few (margin : ℝ) (points : List (Vec d)) (h : points.length ≤ 1) :
    createFromPoints points margin = .error .indexError := by
  rcases points with _ | ⟨a, _ | ⟨b, l⟩⟩
  · rfl
  · rfl
  · simp at h

/-- C75 is not vacuous: a path with a corner. -/
example : ∃ points : List (Vec 3), 2 ≤ points.length
    ∧ ∀ i, ∀ a b, points[i]? = some a → points[i + 1]? = some b → 2 * (1 / 4 : ℝ) < ‖b - a‖ := by
  refine ⟨[0, e3 0, 0], by simp, ?_⟩
  intro i a b ha hb
  have h1 : ‖e3 0‖ = 1 := by simp [e3]
  match i with
  | 0 =>
    simp at ha hb; subst ha hb; rw [sub_zero, h1]; norm_num
  | 1 =>
    simp at ha hb; subst ha hb; rw [zero_sub, norm_neg, h1]; norm_num
  | i + 2 => simp at hb

/-! ## C52: weights -/

lemma getWeights_on (p : Path d) (x : Vec d) (h : ∃ s ∈ p.segments, s.getDistance x = 0) :
    p.getWeights x = (p.segments.map fun s =>
      open Classical in if s.getDistance x = 0 then (1 : ℝ) else 0) ++ [0] := by
  classical
  unfold Path.getWeights
  simp only
  rw [if_pos]
  · rw [List.map_map]
    congr 1
  · obtain ⟨s, hs, h0⟩ := h
    exact ⟨_, List.mem_map.mpr ⟨s, hs, rfl⟩, h0⟩

/-- The weight of a segment at distance `x` before normalisation. -/
noncomputable def rawWeight (dot x : ℝ) : ℝ := (3 / x) ^ 2 * min 1 (1 + dot)

lemma getWeights_off (p : Path d) (x : Vec d) (h : ∀ s ∈ p.segments, s.getDistance x ≠ 0)
    (raw : List ℝ) (hraw : raw = p.segments.map fun s =>
      rawWeight ⟪p.globalDynamics x, p.last.direction⟫ (s.getDistance x)) :
    p.getWeights x = open Classical in
      if raw.sum < 1 then raw ++ [1 - raw.sum] else raw.map (fun w => w / raw.sum) ++ [0] := by
  classical
  unfold Path.getWeights
  simp only
  rw [if_neg]
  · set dot := ⟪p.globalDynamics x, p.last.direction⟫
    have e : (if dot < 0 then (List.map (fun x => (3 / x) ^ 2)
        (List.map (fun s => Segment.getDistance s x) p.segments)).map (fun w => w * (1 + dot))
        else List.map (fun x => (3 / x) ^ 2)
        (List.map (fun s => Segment.getDistance s x) p.segments)) = raw := by
      rw [hraw]
      unfold rawWeight
      split_ifs with hd
      · rw [min_eq_right (by linarith)]; simp [Function.comp_def]
      · rw [min_eq_left (by linarith)]; simp [Function.comp_def]
    rw [e]
  · rintro ⟨y, hy, h0⟩
    obtain ⟨s, hs, rfl⟩ := List.mem_map.mp hy
    exact h s hs h0

lemma globalDynamics_norm_le (p : Path d) (x : Vec d) : ‖p.globalDynamics x‖ ≤ 1 := by
  unfold Path.globalDynamics
  simp only
  split_ifs with h
  · rw [h]; exact zero_le_one
  · exact (unit_norm (norm_ne_zero_iff.mp h)).le

/-- A path built from proper segments. -/
def ProperPath (p : Path d) : Prop :=
  (∀ s ∈ p.segments, ∃ a b, Segment.create a b = .ok s) ∧ Path.create p.segments = .ok p

lemma ProperPath.last {p : Path d} (h : ProperPath p) :
    p.segments.getLast? = some p.last ∧ p.attractor = p.last.finish := by
  have := h.2
  unfold Path.create at this
  cases hl : p.segments.getLast? with
  | none => rw [hl] at this; cases this
  | some l =>
    rw [hl] at this
    have := Except.ok.inj this
    rw [← this]; exact ⟨rfl, rfl⟩

lemma ProperPath.dot {p : Path d} (h : ProperPath p) (x : Vec d) :
    -1 ≤ ⟪p.globalDynamics x, p.last.direction⟫ := by
  have hl : p.last ∈ p.segments := List.mem_of_getLast? h.last.1
  obtain ⟨a, b, hs⟩ := h.1 _ hl
  obtain ⟨hne, hs⟩ := segment_create_ok hs
  have h1 : ‖p.last.direction‖ = 1 := by rw [hs]; exact unit_norm (sub_ne_zero.mpr hne.symm)
  have := abs_real_inner_le_norm (p.globalDynamics x) p.last.direction
  rw [h1, mul_one] at this
  have h2 := globalDynamics_norm_le p x
  have := (abs_le.mp (this.trans h2)).1
  exact this

lemma rawWeight_nonneg {p : Path d} (h : ProperPath p) (x : Vec d) (y : ℝ) :
    0 ≤ rawWeight ⟪p.globalDynamics x, p.last.direction⟫ y := by
  unfold rawWeight
  have := h.dot x
  exact mul_nonneg (sq_nonneg _) (le_min zero_le_one (by linarith))

/-- C52: one weight for each segment and one for the direct way; all weights are in `[0, 1]`. -/
theorem C52_range (p : Path d) (h : ProperPath p) (x : Vec d) :
    (p.getWeights x).length = p.segments.length + 1 ∧ ∀ w ∈ p.getWeights x, 0 ≤ w ∧ w ≤ 1 := by
  classical
  by_cases hz : ∃ s ∈ p.segments, s.getDistance x = 0
  · rw [getWeights_on p x hz]
    refine ⟨by simp, ?_⟩
    intro w hw
    rcases List.mem_append.mp hw with hw | hw
    · obtain ⟨s, _, rfl⟩ := List.mem_map.mp hw
      split_ifs <;> norm_num
    · simp at hw; subst hw; norm_num
  · push Not at hz
    rw [getWeights_off p x hz _ rfl]
    set raw := p.segments.map fun s =>
      rawWeight ⟪p.globalDynamics x, p.last.direction⟫ (s.getDistance x) with hraw
    have hn : ∀ w ∈ raw, 0 ≤ w := by
      intro w hw
      obtain ⟨s, _, rfl⟩ := List.mem_map.mp hw
      exact rawWeight_nonneg h x _
    have hle : ∀ w ∈ raw, w ≤ raw.sum := fun w hw => List.single_le_sum hn w hw
    have hs := List.sum_nonneg hn
    split_ifs with h1
    · refine ⟨by simp [hraw], ?_⟩
      intro w hw
      rcases List.mem_append.mp hw with hw | hw
      · exact ⟨hn w hw, (hle w hw).trans h1.le⟩
      · simp at hw; subst hw; constructor <;> linarith
    · refine ⟨by simp [hraw], ?_⟩
      intro w hw
      rcases List.mem_append.mp hw with hw | hw
      · obtain ⟨v, hv, rfl⟩ := List.mem_map.mp hw
        exact ⟨div_nonneg (hn v hv) hs, div_le_one_of_le₀ (hle v hv) hs⟩
      · simp at hw; subst hw; norm_num

/-- C52: away from all segments the weights have sum one. -/
theorem C52_sum (p : Path d) (x : Vec d) (hz : ∀ s ∈ p.segments, s.getDistance x ≠ 0) :
    (p.getWeights x).sum = 1 := by
  classical
  rw [getWeights_off p x hz _ rfl]
  split_ifs with h1
  · simp
  · push Not at h1
    rw [List.sum_append]
    simp only [div_eq_mul_inv]
    rw [List.sum_map_mul_right, List.map_id']
    simp only [List.sum_cons, List.sum_nil, add_zero]
    exact mul_inv_cancel₀ (by linarith)

/-- C52: on exactly one segment this segment has full weight and everything else none. -/
theorem C52_on_segment (p : Path d) (x : Vec d) (i : ℕ) (hi : i < p.segments.length)
    (h : ∀ j (hj : j < p.segments.length), p.segments[j].getDistance x = 0 ↔ j = i) :
    (p.getWeights x).sum = 1
    ∧ ∀ j (hj : j < (p.getWeights x).length), (p.getWeights x)[j] = if j = i then 1 else 0 := by
  classical
  have hz : ∃ s ∈ p.segments, s.getDistance x = 0 :=
    ⟨p.segments[i], List.getElem_mem _, (h i hi).mpr rfl⟩
  have hw := getWeights_on p x hz
  have hget : ∀ j (hj : j < (p.getWeights x).length),
      (p.getWeights x)[j] = if j = i then 1 else 0 := by
    intro j hj
    simp only [hw]
    rw [List.getElem_append]
    split_ifs with h1 h2 h2
    · simp only [List.getElem_map]; rw [if_pos ((h j (by simpa using h1)).mpr h2)]
    · simp only [List.getElem_map]; rw [if_neg (fun h3 => h2 ((h j (by simpa using h1)).mp h3))]
    · subst h2; simp at h1; omega
    · simp
  refine ⟨?_, hget⟩
  have hlen : i < (p.getWeights x).length := by rw [hw]; simp; omega
  have e : p.getWeights x = List.ofFn (fun j : Fin (p.getWeights x).length =>
      if j = ⟨i, hlen⟩ then (1 : ℝ) else 0) := by
    apply List.ext_getElem
    · simp
    · intro j h1 h2
      rw [hget j h1]; simp [Fin.ext_iff]
  rw [e, List.sum_ofFn]; simp

/-- C52: violated by the code where segments meet or cross: the sum is the number of segments the
position lies on. -/
theorem C52_sum_on (p : Path d) (x : Vec d) (hz : ∃ s ∈ p.segments, s.getDistance x = 0) :
    (p.getWeights x).sum
      = ((p.segments.filter (fun s => open Classical in decide (s.getDistance x = 0))).length : ℝ) := by
  classical
  rw [getWeights_on p x hz, List.sum_append]
  simp only [List.sum_cons, List.sum_nil, add_zero]
  clear hz
  induction p.segments with
  | nil => simp
  | cons s l ih =>
    rw [List.map_cons, List.sum_cons, ih, List.filter_cons]
    split_ifs with h1 h2 h2
    · simp; ring
    · simp [h1] at h2
    · simp [h1] at h2
    · simp

/-- C52: of two segments the closer one never has the smaller weight. -/
theorem C52_closer (p : Path d) (h : ProperPath p) (x : Vec d) (i j : ℕ)
    (hi : i < p.segments.length) (hj : j < p.segments.length)
    (hij : p.segments[i].getDistance x ≤ p.segments[j].getDistance x) :
    ∃ wi wj, (p.getWeights x)[i]? = some wi ∧ (p.getWeights x)[j]? = some wj ∧ wj ≤ wi := by
  classical
  have hdn : ∀ k (hk : k < p.segments.length), 0 ≤ p.segments[k].getDistance x := by
    intro k hk
    unfold Segment.getDistance; exact norm_nonneg _
  by_cases hz : ∃ s ∈ p.segments, s.getDistance x = 0
  · rw [getWeights_on p x hz]
    refine ⟨if p.segments[i].getDistance x = 0 then 1 else 0,
      if p.segments[j].getDistance x = 0 then 1 else 0, ?_, ?_, ?_⟩
    · rw [List.getElem?_append_left (by simpa using hi)]; simp [hi]
    · rw [List.getElem?_append_left (by simpa using hj)]; simp [hj]
    · by_cases h0 : p.segments[j].getDistance x = 0
      · rw [if_pos h0, if_pos (le_antisymm (h0 ▸ hij) (hdn i hi))]
      · rw [if_neg h0]; split_ifs <;> norm_num
  · push Not at hz
    rw [getWeights_off p x hz _ rfl]
    set dot := ⟪p.globalDynamics x, p.last.direction⟫ with hdot
    set raw := p.segments.map fun s => rawWeight dot (s.getDistance x) with hraw
    have hpos : 0 < p.segments[i].getDistance x :=
      lt_of_le_of_ne (hdn i hi) (Ne.symm (hz _ (List.getElem_mem _)))
    have hposj : 0 < p.segments[j].getDistance x := hpos.trans_le hij
    have key : rawWeight dot (p.segments[j].getDistance x)
        ≤ rawWeight dot (p.segments[i].getDistance x) := by
      unfold rawWeight
      have h1 := h.dot x
      apply mul_le_mul_of_nonneg_right _ (le_min zero_le_one (by linarith))
      apply pow_le_pow_left₀ (by positivity)
      exact div_le_div_of_nonneg_left (by norm_num) hpos hij
    have hn : ∀ w ∈ raw, 0 ≤ w := by
      intro w hw
      obtain ⟨s, _, rfl⟩ := List.mem_map.mp hw
      exact rawWeight_nonneg h x _
    have hs := List.sum_nonneg hn
    split_ifs with h1
    · refine ⟨_, _, ?_, ?_, key⟩
      · rw [List.getElem?_append_left (by simpa [hraw] using hi)]; simp [hraw, hi]
      · rw [List.getElem?_append_left (by simpa [hraw] using hj)]; simp [hraw, hj]
    · refine ⟨_, _, ?_, ?_, div_le_div_of_nonneg_right key hs⟩
      · rw [List.getElem?_append_left (by simpa [hraw] using hi)]; simp [hraw, hi]
      · rw [List.getElem?_append_left (by simpa [hraw] using hj)]; simp [hraw, hj]

/-- A path with one segment. -/
noncomputable def shortPath : Path 3 where
  segments := [⟨0, e3 0, e3 0, 1⟩]
  last := ⟨0, e3 0, e3 0, 1⟩
  attractor := e3 0

/-- C52 is not vacuous: a path with one segment is proper; a position on it; a position off it. -/
lemma shortPath_proper : ProperPath shortPath := by
  have hs : Segment.create (0 : Vec 3) (e3 0) = .ok ⟨0, e3 0, e3 0, 1⟩ := by
    have h1 : ‖e3 0‖ = 1 := by simp [e3]
    unfold Segment.create
    simp only [sub_zero]
    rw [if_neg (by rw [h1]; norm_num), h1]; simp
  refine ⟨?_, rfl⟩
  intro s hs'
  simp [shortPath] at hs'
  exact ⟨0, e3 0, by rw [hs', hs]⟩

example : ProperPath shortPath
    ∧ (∀ j (hj : j < shortPath.segments.length),
        shortPath.segments[j].getDistance 0 = 0 ↔ j = 0)
    ∧ (∀ s ∈ shortPath.segments, s.getDistance (e3 1) ≠ 0) := by
  refine ⟨shortPath_proper, ?_, ?_⟩
  · intro j hj
    have : j = 0 := by simp [shortPath] at hj; exact hj
    subst this
    simp [shortPath, Segment.getDistance]
  · intro s hs
    simp [shortPath] at hs
    subst hs
    have : ⟪e3 1, e3 0⟫ = 0 := (e3_on (by decide : (1 : Fin 3) ≠ 0)).orth
    simp [Segment.getDistance, this, e3_ne_zero]

end Verif
