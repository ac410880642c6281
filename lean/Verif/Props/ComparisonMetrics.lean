import Verif.Props.Comparison

/-!
# C122: the measures of the comparison

Smoothness, deviation from the desired velocity and distance to the desired path of a trajectory.
-/

open scoped RealInnerProductSpace

namespace Verif
open Spec Comparison

variable {d : ℕ}

/-- The arithmetic mean of a list. -/
noncomputable def average (l : List ℝ) : ℝ := l.sum / l.length

lemma cmp_mean_ok {l : List ℝ} {m : ℝ} : Comparison.mean l = .ok m ↔ l ≠ [] ∧ m = average l := by
  unfold Comparison.mean average
  by_cases h : l = []
  · rw [if_pos h]
    exact ⟨fun e => (by cases e), fun e => absurd h e.1⟩
  · rw [if_neg h]
    constructor
    · intro e; cases e; exact ⟨h, rfl⟩
    · rintro ⟨_, rfl⟩; rfl

lemma average_le {l : List ℝ} {b : ℝ} (hl : l ≠ []) (h : ∀ x ∈ l, x ≤ b) : average l ≤ b := by
  unfold average
  have hpos : (0 : ℝ) < l.length := by exact_mod_cast List.length_pos_iff.mpr hl
  rw [div_le_iff₀ hpos]
  have := List.sum_le_card_nsmul l b h
  rw [nsmul_eq_mul] at this
  linarith

lemma le_average {l : List ℝ} {b : ℝ} (hl : l ≠ []) (h : ∀ x ∈ l, b ≤ x) : b ≤ average l := by
  unfold average
  have hpos : (0 : ℝ) < l.length := by exact_mod_cast List.length_pos_iff.mpr hl
  rw [le_div_iff₀ hpos]
  have := List.card_nsmul_le_sum l b h
  rw [nsmul_eq_mul] at this
  linarith

lemma average_const {l : List ℝ} {b : ℝ} (hl : l ≠ []) (h : ∀ x ∈ l, x = b) : average l = b :=
  le_antisymm (average_le hl fun x hx => (h x hx).le) (le_average hl fun x hx => (h x hx).ge)

lemma average_map_mul (l : List ℝ) (b : ℝ) : average (l.map fun x => b * x) = b * average l := by
  unfold average
  rw [List.sum_map_mul_left, List.length_map, mul_div_assoc]
  simp

lemma average_map_sub (l : List ℝ) (hl : l ≠ []) (b : ℝ) : average (l.map fun x => b - x) = b - average l := by
  have hpos : (l.length : ℝ) ≠ 0 := by exact_mod_cast (List.length_pos_iff.mpr hl).ne'
  unfold average
  have : (l.map fun x => b - x).sum = l.length * b - l.sum := by
    clear hl hpos
    induction l with
    | nil => simp
    | cons a l ih => simp only [List.map_cons, List.sum_cons, ih, List.length_cons]; push_cast; ring
  rw [this, List.length_map]
  field_simp

lemma average_eq_zero {l : List ℝ} (hl : l ≠ []) (h : ∀ x ∈ l, 0 ≤ x) : average l = 0 ↔ ∀ x ∈ l, x = 0 := by
  constructor
  · intro e
    have hpos : (l.length : ℝ) ≠ 0 := by exact_mod_cast (List.length_pos_iff.mpr hl).ne'
    have hs : l.sum = 0 := by
      unfold average at e
      rcases div_eq_zero_iff.mp e with e | e
      · exact e
      · exact absurd e hpos
    clear e hpos hl
    induction l with
    | nil => simp
    | cons a l ih =>
      have ha : 0 ≤ a := h a (by simp)
      have hl' : ∀ x ∈ l, 0 ≤ x := fun x hx => h x (by simp [hx])
      have hsl : 0 ≤ l.sum := List.sum_nonneg hl'
      rw [List.sum_cons] at hs
      intro x hx
      rcases List.mem_cons.mp hx with rfl | hx
      · linarith
      · exact ih hl' (by linarith) x hx
  · intro h0
    exact average_const hl h0

lemma normalize_ok {vs out : List (Vec d)} (h : normalizeVelocities vs = .ok out) :
    out ≠ [] ∧ (∀ v ∈ out, ‖v‖ = 1) ∧ out.length ≤ vs.length := by
  classical
  unfold normalizeVelocities at h
  simp only at h
  by_cases hm : (vs.filter fun v => decide (0 < ‖v‖)) = []
  · rw [if_pos hm] at h; cases h
  · rw [if_neg hm] at h
    cases h
    refine ⟨by simpa using hm, ?_, ?_⟩
    · intro v hv
      obtain ⟨w, hw, rfl⟩ := List.mem_map.mp hv
      have hw0 : 0 < ‖w‖ := by simpa using (List.mem_filter.mp hw).2
      exact unit_norm (norm_pos_iff.mp hw0)
    · rw [List.length_map]
      exact List.length_filter_le _ _

lemma mem_zipWith_exists {α β γ : Type*} {g : α → β → γ} {l : List α} {m : List β} {x : γ}
    (h : x ∈ List.zipWith g l m) : ∃ a ∈ l, ∃ b ∈ m, x = g a b := by
  induction l generalizing m with
  | nil => simp at h
  | cons a l ih =>
    cases m with
    | nil => simp at h
    | cons b m =>
      rw [List.zipWith_cons_cons] at h
      rcases List.mem_cons.mp h with rfl | h
      · exact ⟨a, by simp, b, by simp, rfl⟩
      · obtain ⟨a', ha, b', hb, rfl⟩ := ih h
        exact ⟨a', by simp [ha], b', by simp [hb], rfl⟩

lemma inner_range {v w : Vec d} (hv : ‖v‖ ≤ 1) (hw : ‖w‖ ≤ 1) : -1 ≤ ⟪v, w⟫ ∧ ⟪v, w⟫ ≤ 1 := by
  have h := abs_real_inner_le_norm v w
  have h2 : ‖v‖ * ‖w‖ ≤ 1 := mul_le_one₀ hv (norm_nonneg _) hw
  exact abs_le.mp (h.trans h2)

/-- C122: for every trajectory the two directional measures lie between `-1` and `1`, and their values in the table
between `0` and `1`. -/
theorem C122_range (traj : List (Vec d)) (dt : ℝ) (g : Vec d → Vec d) (s : ℝ)
    (h : dotProductAcceleration traj dt = .ok s ∨ dotProductVelocityDeviation traj g dt = .ok s) :
    s ∈ Set.Icc (-1 : ℝ) 1 ∧ nics s ∈ Set.Icc (0 : ℝ) 1 := by
  classical
  have key : -1 ≤ s ∧ s ≤ 1 := by
    rcases h with h | h
    · unfold dotProductAcceleration at h
      obtain ⟨vs, hvs, h⟩ := bind_ok.mp h
      obtain ⟨hne, rfl⟩ := cmp_mean_ok.mp h
      obtain ⟨_, h1, _⟩ := normalize_ok hvs
      have hall : ∀ x ∈ List.zipWith (fun b a => ⟪b, a⟫) vs.tail vs, -1 ≤ x ∧ x ≤ 1 := by
        intro x hx
        obtain ⟨b, hb, a, ha, rfl⟩ := mem_zipWith_exists hx
        exact inner_range (h1 b (List.mem_of_mem_tail hb)).le (h1 a ha).le
      exact ⟨le_average hne fun x hx => (hall x hx).1, average_le hne fun x hx => (hall x hx).2⟩
    · unfold dotProductVelocityDeviation at h
      obtain ⟨vs, hvs, h⟩ := bind_ok.mp h
      obtain ⟨hne, rfl⟩ := cmp_mean_ok.mp h
      obtain ⟨_, h1, _⟩ := normalize_ok hvs
      have hall : ∀ x ∈ List.zipWith (fun v p => ⟪v, if ‖g p‖ = 0 then 0 else (1 / ‖g p‖) • g p⟫) vs traj,
          -1 ≤ x ∧ x ≤ 1 := by
        intro x hx
        obtain ⟨b, hb, a, ha, rfl⟩ := mem_zipWith_exists hx
        refine inner_range (h1 b hb).le ?_
        by_cases h0 : ‖g a‖ = 0
        · rw [if_pos h0]; simp
        · rw [if_neg h0]
          exact (unit_norm (norm_ne_zero_iff.mp h0)).le
      exact ⟨le_average hne fun x hx => (hall x hx).1, average_le hne fun x hx => (hall x hx).2⟩
  refine ⟨key, ?_⟩
  unfold nics
  constructor
  · nlinarith [key.2]
  · nlinarith [key.1]

/-! ## Trajectories of the simulation -/

/-- The velocities of the steps are the unit vectors of the simulated dynamics at the positions but the last. -/
lemma velocities_simulated {f : Vec d → Vec d} {dt margin : ℝ} {c : Option (Vec d → Bool)} {traj : List (Vec d)}
    (hdt : dt ≠ 0) (h : Simulates (fun p => .ok (f p)) dt margin c traj) :
    velocities traj dt = traj.dropLast.map (fun p => unit (f p)) ∧ ∀ p ∈ traj.dropLast, f p ≠ 0 := by
  induction traj with
  | nil => exact ⟨rfl, by simp⟩
  | cons a l ih =>
    cases l with
    | nil => exact ⟨rfl, by simp⟩
    | cons b l =>
      obtain ⟨e, hnz⟩ := ih (by
        intro i p q hp hq
        exact h (i + 1) p q (by simpa using hp) (by simpa using hq))
      obtain ⟨v, hv, hv0, _, rfl, _⟩ := h 0 a b rfl rfl
      cases hv
      constructor
      · have e1 : velocities (a :: (a + dt • unit (f a)) :: l) dt
            = (1 / dt) • ((a + dt • unit (f a)) - a) :: velocities ((a + dt • unit (f a)) :: l) dt := rfl
        rw [e1, e, add_sub_cancel_left, smul_smul, one_div, inv_mul_cancel₀ hdt, one_smul]
        simp
      · intro p hp
        rw [List.dropLast_cons_of_ne_nil (by simp)] at hp
        rcases List.mem_cons.mp hp with rfl | hp
        · exact hv0
        · exact hnz p hp

lemma normalize_units {vs : List (Vec d)} (hne : vs ≠ []) (h : ∀ v ∈ vs, ‖v‖ = 1) : normalizeVelocities vs = .ok vs := by
  classical
  unfold normalizeVelocities
  have e : (vs.filter fun v => decide (0 < ‖v‖)) = vs := by
    rw [List.filter_eq_self]
    intro v hv
    rw [h v hv]
    simp
  simp only [e]
  rw [if_neg hne]
  congr 1
  conv_rhs => rw [← List.map_id vs]
  refine List.map_congr_left fun v hv => ?_
  rw [h v hv]
  simp

lemma normalize_simulated {f : Vec d → Vec d} {dt margin : ℝ} {c : Option (Vec d → Bool)} {traj : List (Vec d)}
    (hdt : dt ≠ 0) (h : Simulates (fun p => .ok (f p)) dt margin c traj) (hn : 2 ≤ traj.length) :
    normalizeVelocities (velocities traj dt) = .ok (traj.dropLast.map fun p => unit (f p)) := by
  obtain ⟨e, hnz⟩ := velocities_simulated hdt h
  rw [e]
  refine normalize_units ?_ ?_
  · have : traj.dropLast.length ≠ 0 := by rw [List.length_dropLast]; omega
    intro h0
    rw [List.map_eq_nil_iff] at h0
    rw [h0] at this
    simp at this
  · intro v hv
    obtain ⟨p, hp, rfl⟩ := List.mem_map.mp hv
    exact unit_norm (hnz p hp)

lemma zipWith_dropLast {α β : Type*} (g : α → α → β) (u : α → α) (l : List α) :
    List.zipWith g (l.dropLast.map u) l = l.dropLast.map fun p => g (u p) p := by
  induction l with
  | nil => rfl
  | cons a l ih =>
    cases l with
    | nil => rfl
    | cons b l =>
      rw [List.dropLast_cons_of_ne_nil (by simp), List.map_cons, List.zipWith_cons_cons, ih, List.map_cons]

lemma dropLast_ne_nil {α : Type*} {l : List α} (hn : 2 ≤ l.length) : l.dropLast ≠ [] := by
  intro h0
  have : l.dropLast.length = 0 := by rw [h0]; rfl
  rw [List.length_dropLast] at this
  omega

/-- C122 (partial): for a trajectory of the simulation the deviation from other dynamics is the mean, over all positions
but the last, of the squared distance between the direction of motion and the velocity of these dynamics; the
directional deviation is the mean of the cosines of the angle between the two.

Missing: trajectories with repeated positions (`C122_shifted`). -/
theorem C122_deviation_partial (f g : Vec d → Vec d) (dt margin : ℝ) (c : Option (Vec d → Bool)) (start : Vec d) (itMax : ℕ)
    (traj : List (Vec d)) (hdt : dt ≠ 0)
    (h : integrateTrajectory (fun p => .ok (f p)) start itMax dt margin c = .ok traj) (hn : 2 ≤ traj.length) :
    meanSquaredVelocityDeviation traj g dt = .ok (average (traj.dropLast.map fun p => ‖unit (f p) - g p‖ ^ 2))
      ∧ ((∀ p, g p ≠ 0) → dotProductVelocityDeviation traj g dt
        = .ok (average (traj.dropLast.map fun p => Real.cos (InnerProductGeometry.angle (f p) (g p))))) := by
  classical
  obtain ⟨_, hs, _⟩ := C121_trajectory_partial _ start itMax dt margin c traj h
  have hnorm := normalize_simulated hdt hs hn
  obtain ⟨_, hnz⟩ := velocities_simulated hdt hs
  have hd := dropLast_ne_nil hn
  constructor
  · unfold meanSquaredVelocityDeviation
    refine bind_ok.mpr ⟨_, hnorm, ?_⟩
    rw [zipWith_dropLast (fun v p => ‖v - g p‖ ^ 2) (fun p => unit (f p))]
    exact cmp_mean_ok.mpr ⟨fun h0 => hd (List.map_eq_nil_iff.mp h0), rfl⟩
  · intro hg
    unfold dotProductVelocityDeviation
    refine bind_ok.mpr ⟨_, hnorm, ?_⟩
    rw [zipWith_dropLast (fun v p => ⟪v, if ‖g p‖ = 0 then 0 else (1 / ‖g p‖) • g p⟫) (fun p => unit (f p))]
    refine cmp_mean_ok.mpr ⟨fun h0 => hd (List.map_eq_nil_iff.mp h0), ?_⟩
    congr 1
    refine List.map_congr_left fun p hp => ?_
    have hg0 : ‖g p‖ ≠ 0 := norm_ne_zero_iff.mpr (hg p)
    have hf0 : ‖f p‖ ≠ 0 := norm_ne_zero_iff.mpr (hnz p hp)
    rw [if_neg hg0, InnerProductGeometry.cos_angle, unit, real_inner_smul_left, real_inner_smul_right]
    field_simp

/-- C122: dynamics which are simulated and compared with themselves have the best directional value; their squared
deviation is the mean squared difference of the speed to one. -/
theorem C122_own (f : Vec d → Vec d) (dt margin : ℝ) (c : Option (Vec d → Bool)) (start : Vec d) (itMax : ℕ)
    (traj : List (Vec d)) (hdt : dt ≠ 0) (hf : ∀ p, f p ≠ 0)
    (h : integrateTrajectory (fun p => .ok (f p)) start itMax dt margin c = .ok traj) (hn : 2 ≤ traj.length) :
    (∃ s, dotProductVelocityDeviation traj f dt = .ok s ∧ nics s = 0)
      ∧ meanSquaredVelocityDeviation traj f dt = .ok (average (traj.dropLast.map fun p => (1 - ‖f p‖) ^ 2)) := by
  obtain ⟨h1, h2⟩ := C122_deviation_partial f f dt margin c start itMax traj hdt h hn
  have hd := dropLast_ne_nil hn
  constructor
  · refine ⟨_, h2 hf, ?_⟩
    rw [average_const (b := 1) (fun h0 => hd (List.map_eq_nil_iff.mp h0))]
    · unfold nics; norm_num
    · intro x hx
      obtain ⟨p, _, rfl⟩ := List.mem_map.mp hx
      rw [InnerProductGeometry.angle_self (hf p), Real.cos_zero]
  · rw [h1]
    congr 2
    refine List.map_congr_left fun p _ => ?_
    have hp : ‖f p‖ ≠ 0 := norm_ne_zero_iff.mpr (hf p)
    have e : unit (f p) - f p = (1 / ‖f p‖ - 1) • f p := by rw [sub_smul, one_smul]; rfl
    rw [e, norm_smul, mul_pow, Real.norm_eq_abs, sq_abs]
    field_simp

/-- C122, negative result: hence the squared deviation is positive for dynamics which follow the desired dynamics
exactly, if their speed is not one. -/
theorem C122_speed_counts (f : Vec d → Vec d) (dt margin : ℝ) (c : Option (Vec d → Bool)) (start : Vec d) (itMax : ℕ)
    (traj : List (Vec d)) (hdt : dt ≠ 0) (hf : ∀ p, f p ≠ 0) (hspeed : ∀ p, ‖f p‖ ≠ 1)
    (h : integrateTrajectory (fun p => .ok (f p)) start itMax dt margin c = .ok traj) (hn : 2 ≤ traj.length) :
    ∃ e, meanSquaredVelocityDeviation traj f dt = .ok e ∧ 0 < e := by
  refine ⟨_, (C122_own f dt margin c start itMax traj hdt hf h hn).2, ?_⟩
  have hd := dropLast_ne_nil hn
  have hne : (traj.dropLast.map fun p => (1 - ‖f p‖) ^ 2) ≠ [] := fun h0 => hd (List.map_eq_nil_iff.mp h0)
  have hnn : ∀ x ∈ traj.dropLast.map fun p => (1 - ‖f p‖) ^ 2, 0 ≤ x := by
    intro x hx
    obtain ⟨p, _, rfl⟩ := List.mem_map.mp hx
    positivity
  refine lt_of_le_of_ne (le_average hne hnn) fun h0 => ?_
  obtain ⟨p, hp⟩ := List.exists_mem_of_ne_nil _ hd
  have := (average_eq_zero hne hnn).mp h0.symm _ (List.mem_map.mpr ⟨p, hp, rfl⟩)
  exact hspeed p (by nlinarith [pow_eq_zero_iff (two_ne_zero) |>.mp this])

lemma velocities_zip (l : List (Vec d)) (dt : ℝ) (h : ∀ v ∈ l, ‖v‖ = 1) :
    (velocities l dt).map (fun a => ‖a‖ ^ 2)
      = (List.zipWith (fun b a => ⟪b, a⟫) l.tail l).map fun s => 4 / dt ^ 2 * nics s := by
  induction l with
  | nil => rfl
  | cons a l ih =>
    cases l with
    | nil => rfl
    | cons b l =>
      have e1 : velocities (a :: b :: l) dt = (1 / dt) • (b - a) :: velocities (b :: l) dt := rfl
      have e2 : List.zipWith (fun b a => ⟪b, a⟫) (a :: b :: l).tail (a :: b :: l)
          = ⟪b, a⟫ :: List.zipWith (fun b a => ⟪b, a⟫) (b :: l).tail (b :: l) := rfl
      rw [e1, e2, List.map_cons, List.map_cons, ih fun v hv => h v (by simp [hv])]
      congr 1
      have ha : ‖a‖ = 1 := h a (by simp)
      have hb : ‖b‖ = 1 := h b (by simp)
      rw [norm_smul, mul_pow, norm_sub_sq_real, ha, hb, Real.norm_eq_abs, sq_abs, nics]
      ring

lemma average_nics {l : List ℝ} (hl : l ≠ []) (k : ℝ) : average (l.map fun s => k * nics s) = k * nics (average l) := by
  have e : (l.map fun s => k * nics s) = (l.map fun s => 1 - s).map fun x => (k * 0.5) * x := by
    rw [List.map_map]
    refine List.map_congr_left fun s _ => ?_
    simp only [nics, Function.comp]
    ring
  rw [e, average_map_mul, average_map_sub l hl, nics]
  ring

lemma zip_cos {f : Vec d → Vec d} (m : List (Vec d)) (h : ∀ p ∈ m, f p ≠ 0) :
    List.zipWith (fun b a => ⟪b, a⟫) (m.map fun p => unit (f p)).tail (m.map fun p => unit (f p))
      = (List.zip m m.tail).map fun p => Real.cos (InnerProductGeometry.angle (f p.1) (f p.2)) := by
  induction m with
  | nil => rfl
  | cons a m ih =>
    cases m with
    | nil => rfl
    | cons b m =>
      have ih' := ih fun p hp => h p (by simp [hp])
      simp only [List.map_cons, List.tail_cons, List.zipWith_cons_cons, List.zip_cons_cons] at ih' ⊢
      rw [ih']
      congr 1
      have ha : ‖f a‖ ≠ 0 := norm_ne_zero_iff.mpr (h a (by simp))
      have hb : ‖f b‖ ≠ 0 := norm_ne_zero_iff.mpr (h b (by simp))
      rw [InnerProductGeometry.cos_angle, unit, unit, real_inner_smul_left, real_inner_smul_right, real_inner_comm]
      field_simp

/-- C122: for a trajectory of the simulation the two measures of smoothness agree: the mean squared acceleration is the
value of the directional measure in the table, times four over the square of the time step. -/
theorem C122_smoothness (f : Vec d → Vec d) (dt margin : ℝ) (c : Option (Vec d → Bool)) (start : Vec d) (itMax : ℕ)
    (traj : List (Vec d)) (hdt : dt ≠ 0)
    (h : integrateTrajectory (fun p => .ok (f p)) start itMax dt margin c = .ok traj) (hn : 3 ≤ traj.length) :
    ∃ s, dotProductAcceleration traj dt = .ok s ∧ meanSquaredAcceleration traj dt = .ok (4 / dt ^ 2 * nics s)
      ∧ s = average ((List.zip traj.dropLast traj.dropLast.tail).map fun p =>
        Real.cos (InnerProductGeometry.angle (f p.1) (f p.2))) := by
  classical
  obtain ⟨_, hs, _⟩ := C121_trajectory_partial _ start itMax dt margin c traj h
  have hnorm := normalize_simulated hdt hs (by omega)
  obtain ⟨hvel, hnz⟩ := velocities_simulated hdt hs
  set us : List (Vec d) := traj.dropLast.map fun p => unit (f p) with hus
  have hunit : ∀ v ∈ us, ‖v‖ = 1 := by
    intro v hv
    obtain ⟨p, hp, rfl⟩ := List.mem_map.mp hv
    exact unit_norm (hnz p hp)
  have hne : List.zipWith (fun b a => ⟪b, a⟫) us.tail us ≠ [] := by
    intro h0
    have : (List.zipWith (fun b a => ⟪b, a⟫) us.tail us).length = 0 := by rw [h0]; rfl
    rw [List.length_zipWith, List.length_tail, hus, List.length_map, List.length_dropLast] at this
    omega
  refine ⟨average (List.zipWith (fun b a => ⟪b, a⟫) us.tail us), ?_, ?_, ?_⟩
  · unfold dotProductAcceleration
    exact bind_ok.mpr ⟨us, hnorm, cmp_mean_ok.mpr ⟨hne, rfl⟩⟩
  · unfold meanSquaredAcceleration
    rw [hvel, velocities_zip us dt hunit]
    exact cmp_mean_ok.mpr ⟨fun h0 => hne (List.map_eq_nil_iff.mp h0), (average_nics hne _).symm⟩
  · rw [hus, zip_cos _ hnz]

/-- C122 (partial): in the newer version of the measure (`evaluation_trajectories_with_std.py`) the error to the
circular path is the mean of `|dist² - radius²|`; it is zero exactly for trajectories on the circle.

Missing: the other version (`C122_path_cancels`). -/
theorem C122_path_partial (traj : List (Vec d)) (centre : Vec d) (radius : ℝ) (hr : 0 ≤ radius) (hne : traj ≠ []) :
    ∃ e, meanSquaredErrorToPathStd traj centre radius = .ok e ∧ 0 ≤ e
      ∧ e = average (traj.map fun p => |dist p centre ^ 2 - radius ^ 2|)
      ∧ (e = 0 ↔ ∀ p ∈ traj, dist p centre = radius) := by
  have hne' : (traj.map fun p => |‖p - centre‖ ^ 2 - radius ^ 2|) ≠ [] := fun h0 => hne (List.map_eq_nil_iff.mp h0)
  have hnn : ∀ x ∈ traj.map fun p => |‖p - centre‖ ^ 2 - radius ^ 2|, 0 ≤ x := by
    intro x hx
    obtain ⟨p, _, rfl⟩ := List.mem_map.mp hx
    positivity
  refine ⟨_, cmp_mean_ok.mpr ⟨hne', rfl⟩, le_average hne' hnn, by simp only [dist_eq_norm], ?_⟩
  rw [average_eq_zero hne' hnn]
  constructor
  · intro h p hp
    have := h _ (List.mem_map.mpr ⟨p, hp, rfl⟩)
    rw [abs_eq_zero, sub_eq_zero] at this
    rw [dist_eq_norm]
    exact (pow_left_inj₀ (norm_nonneg _) hr two_ne_zero).mp this
  · intro h x hx
    obtain ⟨p, hp, rfl⟩ := List.mem_map.mp hx
    rw [← dist_eq_norm, h p hp, sub_self, abs_zero]

/-- C122, negative result: in `evaluation_trajectories.py` the errors inside and outside of the circle cancel.  A
trajectory which never touches the circle has the error zero, and a trajectory inside has a negative error. -/
theorem C122_path_cancels :
    (∃ traj : List (Vec 2), (∀ p ∈ traj, dist p 0 ≠ (5 : ℝ)) ∧ meanSquaredErrorToPath traj 0 5 = .ok 0)
      ∧ ∀ (traj : List (Vec 2)) (centre : Vec 2) (radius : ℝ), 0 ≤ radius → traj ≠ [] → (∀ p ∈ traj, dist p centre < radius) →
        ∃ e, meanSquaredErrorToPath traj centre radius = .ok e ∧ e < 0 := by
  constructor
  · refine ⟨[!₂[1, 0], !₂[7, 0]], ?_, ?_⟩
    · intro p hp
      have h1 : dist (!₂[1, 0] : Vec 2) 0 = 1 := by rw [dist_zero_right]; simp [EuclideanSpace.norm_eq]
      have h7 : dist (!₂[7, 0] : Vec 2) 0 = 7 := by rw [dist_zero_right]; simp [EuclideanSpace.norm_eq]
      rcases List.mem_pair.mp hp with rfl | rfl
      · rw [h1]; norm_num
      · rw [h7]; norm_num
    · refine cmp_mean_ok.mpr ⟨by simp, ?_⟩
      have h1 : ‖(!₂[1, 0] : Vec 2)‖ = 1 := by simp [EuclideanSpace.norm_eq]
      have h7 : ‖(!₂[7, 0] : Vec 2)‖ = 7 := by simp [EuclideanSpace.norm_eq]
      simp only [average, List.map_cons, List.map_nil, sub_zero, h1, h7, List.sum_cons, List.sum_nil]
      norm_num
  · intro traj centre radius hr hne h
    have hne' : (traj.map fun p => ‖p - centre‖ ^ 2 - radius ^ 2) ≠ [] := fun h0 => hne (List.map_eq_nil_iff.mp h0)
    refine ⟨_, cmp_mean_ok.mpr ⟨hne', rfl⟩, ?_⟩
    have hneg : ∀ x ∈ traj.map fun p => ‖p - centre‖ ^ 2 - radius ^ 2, x < 0 := by
      intro x hx
      obtain ⟨p, hp, rfl⟩ := List.mem_map.mp hx
      have := h p hp
      rw [dist_eq_norm] at this
      have h2 := pow_lt_pow_left₀ this (norm_nonneg _) two_ne_zero
      linarith
    refine lt_of_le_of_ne (average_le hne' fun x hx => (hneg x hx).le) fun h0 => ?_
    have e := average_map_mul (traj.map fun p => ‖p - centre‖ ^ 2 - radius ^ 2) (-1)
    rw [h0, mul_zero] at e
    obtain ⟨x, hx⟩ := List.exists_mem_of_ne_nil _ hne'
    have := (average_eq_zero (by simpa using hne) (by
      intro y hy
      obtain ⟨z, hz, rfl⟩ := List.mem_map.mp hy
      linarith [hneg z hz])).mp e _ (List.mem_map.mpr ⟨x, hx, rfl⟩)
    linarith [hneg x hx]

/-- C122, negative result: after a step without motion the velocities are compared with the dynamics at the wrong
positions.  The motion below follows the dynamics exactly (it turns left at `p 0 = 1`), waits at the start for one
step, and is reported to deviate. -/
theorem C122_shifted : ∃ (g : Vec 2 → Vec 2) (traj : List (Vec 2)) (s : ℝ), (∀ p, ‖g p‖ = 1)
    ∧ (∀ (i : ℕ) (p q : Vec 2), traj[i]? = some p → traj[i + 1]? = some q → q = p ∨ q = p + (1 : ℝ) • g p)
    ∧ dotProductVelocityDeviation traj g 1 = .ok s ∧ s < 1 := by
  classical
  have hx : ‖(!₂[1, 0] : Vec 2)‖ = 1 := by simp [EuclideanSpace.norm_eq]
  have hy : ‖(!₂[0, 1] : Vec 2)‖ = 1 := by simp [EuclideanSpace.norm_eq]
  have hxy : ⟪(!₂[0, 1] : Vec 2), (!₂[1, 0] : Vec 2)⟫ = 0 := by simp [PiLp.inner_apply, Fin.sum_univ_two]
  have h01 : (!₂[1, 0] : Vec 2) 0 = 1 := rfl
  have h00 : (0 : Vec 2) 0 = 0 := rfl
  set g : Vec 2 → Vec 2 := fun p => if p 0 = 0 then !₂[1, 0] else !₂[0, 1] with hg
  have g0 : g 0 = !₂[1, 0] := by rw [hg]; beta_reduce; rw [if_pos h00]
  have g1 : g !₂[1, 0] = !₂[0, 1] := by rw [hg]; beta_reduce; rw [if_neg (by rw [h01]; norm_num)]
  have e11 : (!₂[1, 1] : Vec 2) = !₂[1, 0] + !₂[0, 1] := by ext i; fin_cases i <;> simp
  have hvel : velocities [(0 : Vec 2), 0, !₂[1, 0], !₂[1, 1]] 1 = [0, !₂[1, 0], !₂[0, 1]] := by
    simp only [velocities, List.tail_cons, List.zipWith_cons_cons, List.zipWith_nil_left, sub_zero, div_one, one_smul,
      e11, add_sub_cancel_left]
  have hnorm : normalizeVelocities [(0 : Vec 2), !₂[1, 0], !₂[0, 1]] = .ok [!₂[1, 0], !₂[0, 1]] := by
    have e : ([(0 : Vec 2), !₂[1, 0], !₂[0, 1]].filter fun v => decide (0 < ‖v‖)) = [!₂[1, 0], !₂[0, 1]] := by
      rw [List.filter_cons_of_neg (by simp), List.filter_cons_of_pos (by rw [hx]; simp),
        List.filter_cons_of_pos (by rw [hy]; simp), List.filter_nil]
    unfold normalizeVelocities
    simp only [e]
    rw [if_neg (by simp), List.map_cons, List.map_cons, hx, hy, List.map_nil]
    simp
  refine ⟨g, [0, 0, !₂[1, 0], !₂[1, 1]], 1 / 2, ?_, ?_, ?_, by norm_num⟩
  · intro p
    rw [hg]
    beta_reduce
    split_ifs
    · exact hx
    · exact hy
  · intro i p q hp hq
    match i with
    | 0 => simp at hp hq; exact Or.inl (by rw [← hp, ← hq])
    | 1 =>
      simp at hp hq
      right
      rw [← hp, ← hq, g0, one_smul, zero_add]
    | 2 =>
      simp at hp hq
      right
      rw [← hp, ← hq, g1, one_smul, e11]
    | i + 3 => simp at hq
  · unfold dotProductVelocityDeviation
    rw [hvel]
    refine bind_ok.mpr ⟨_, hnorm, ?_⟩
    refine cmp_mean_ok.mpr ⟨by simp, ?_⟩
    rw [List.zipWith_cons_cons, List.zipWith_cons_cons, List.zipWith_nil_left, g0, hx, if_neg one_ne_zero, div_one,
      one_smul, real_inner_self_eq_norm_sq, hx, hxy]
    norm_num [average]

/-- C122: error branches.  A trajectory without motion has no direction: `ValueError`; the acceleration needs three
positions, with fewer ones the result is `nan`. -/
theorem C122_short (traj : List (Vec d)) (dt : ℝ) (g : Vec d → Vec d) :
    ((∀ (i : ℕ) (p q : Vec d), traj[i]? = some p → traj[i + 1]? = some q → p = q) →
      dotProductAcceleration traj dt = .error .valueError ∧ dotProductVelocityDeviation traj g dt = .error .valueError
        ∧ meanSquaredVelocityDeviation traj g dt = .error .valueError)
    ∧ (traj.length < 3 → meanSquaredAcceleration traj dt = .error .nan) := by
  classical
  constructor
  · intro h
    have hz : ∀ v ∈ velocities traj dt, v = 0 := by
      intro v hv
      obtain ⟨i, hi, rfl⟩ := List.mem_iff_getElem.mp hv
      unfold velocities at hi ⊢
      rw [List.length_zipWith, List.length_tail] at hi
      rw [List.getElem_zipWith, List.getElem_tail]
      have := h i traj[i] traj[i + 1] (List.getElem?_eq_getElem (by omega)) (List.getElem?_eq_getElem (by omega))
      rw [this, sub_self, smul_zero]
    have hn : normalizeVelocities (velocities traj dt) = .error .valueError := by
      unfold normalizeVelocities
      refine if_pos ?_
      rw [List.filter_eq_nil_iff]
      intro v hv
      rw [hz v hv]
      simp
    refine ⟨?_, ?_, ?_⟩
    · unfold dotProductAcceleration; rw [hn]; rfl
    · unfold dotProductVelocityDeviation; rw [hn]; rfl
    · unfold meanSquaredVelocityDeviation; rw [hn]; rfl
  · intro h
    unfold meanSquaredAcceleration Comparison.mean
    refine if_pos ?_
    match traj, h with
    | [], _ => rfl
    | [a], _ => rfl
    | [a, b], _ => rfl

/-! ## Examples -/

/-- A motion with constant velocity two has three positions after three iterations: the hypotheses of the theorems
about simulated trajectories are met. -/
example : ∃ traj : List (Vec 2), integrateTrajectory (fun p => .ok ((fun _ => !₂[2, 0]) p)) 0 3 0.01 1e-3 none = .ok traj
    ∧ 3 ≤ traj.length ∧ (∀ p : Vec 2, (fun _ => (!₂[2, 0] : Vec 2)) p ≠ 0) ∧ ∀ p : Vec 2, ‖(fun _ => (!₂[2, 0] : Vec 2)) p‖ ≠ 1 := by
  have hn : ‖(!₂[2, 0] : Vec 2)‖ = 2 := by simp [EuclideanSpace.norm_eq]
  obtain ⟨traj, ht⟩ := C121_defined (fun p => .ok ((fun _ : Vec 2 => (!₂[2, 0] : Vec 2)) p)) 0 3 0.01 1e-3 none
    (fun p => ⟨_, rfl⟩) (by norm_num) (by norm_num)
  refine ⟨traj, ht, ?_, fun _ h => ?_, fun _ => by beta_reduce; rw [hn]; norm_num⟩
  · obtain ⟨_, _, _, _, h | ⟨g, _, _, hg, _⟩ | ⟨p, v, hv, hm, _⟩⟩ := C121_trajectory_partial _ 0 3 0.01 1e-3 none traj ht
    · exact h.ge
    · cases hg
    · cases hv
      rw [hn] at hm
      norm_num at hm
  · beta_reduce at h
    rw [h] at hn
    simp at hn

/-- The hypotheses of `C122_path_partial` are met. -/
example : (0 : ℝ) ≤ 2 ∧ [(!₂[2, 0] : Vec 2)] ≠ [] := ⟨by norm_num, by simp⟩

/-- The hypothesis of `C122_short` is met by a motionless trajectory. -/
example : ∀ (i : ℕ) (p q : Vec 2), [(0 : Vec 2), 0][i]? = some p → [(0 : Vec 2), 0][i + 1]? = some q → p = q := by
  intro i p q hp hq
  match i with
  | 0 => simp at hp hq; rw [← hp, ← hq]
  | i + 1 => simp at hq

end Verif
