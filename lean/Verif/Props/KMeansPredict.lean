import Verif.Spec.KMeansPredict
import Verif.Props.KMeansNormal
import Verif.Props.KMeansHierarchy
import Verif.Props.KMeansSparse
import Verif.Lemmas.RotationalPi

/-!
# C110: the prediction of a learned motion
-/

open scoped RealInnerProductSpace

set_option linter.unusedSectionVars false

namespace Verif.KMeans
open Spec Obs
open Verif.Projected (floatMax)

variable {d n k : ℕ} [NeZero d]

/-! ### Gamma of the region of the label -/

lemma getGamma_successor (o : Obs n d) (last s : Fin n) (x : Vec d) (h : o.successor = [s]) :
    o.getGamma last x true .unset = o.getGamma last x true (.cluster s) := by
  unfold Obs.getGamma
  simp only [if_true]
  unfold gammaOnSurface gammaBoundary gammaObstacle
  simp only [h]

lemma region_relevant {l : Learner n d} {i j : Fin n} (hij : j ≠ i)
    (h : ‖l.centers i - l.centers j‖ < 2 * l.radius) : (l.region i).Relevant j := ⟨hij, h⟩

/-- Outside of the region of the closest cluster gamma is less than one. -/
lemma gamma_outside {l : Learner n d} (hl : ChainLearner l) (last i : Fin n) (x : Vec d)
    (hi : ∀ j, ‖x - l.centers i‖ ≤ ‖x - l.centers j‖) (hx : x ∉ Cell l.centers l.radius i) :
    ∃ g, g < 1 ∧ (l.region i).getGamma last x true = .ok (some g) := by
  rcases hl.next i with hn | ⟨j, hn, hij, hd⟩
  · obtain ⟨g, -, h1, h2⟩ := C80_gamma_outside (l.region i) (hl.good i) rfl last .unset
      (Or.inr ⟨rfl, hn⟩) x hx
    exact ⟨g, h1, h2⟩
  · obtain ⟨g, -, h1, h2⟩ := C80_transparent_blocked (l.region i) (hl.good i) rfl last j
      (region_relevant hij hd) x hx (hi j)
    exact ⟨g, h1, (getGamma_successor _ _ _ _ hn).trans h2⟩

/-- Strictly inside gamma is more than one. -/
lemma gamma_inside {l : Learner n d} (hl : ChainLearner l) (last i : Fin n) (x : Vec d)
    (hx : x ∈ OpenCell l.centers l.radius i) :
    ∃ g, 1 < g ∧ (l.region i).getGamma last x true = .ok (some g) := by
  obtain ⟨g, h1, h2⟩ := C80_gamma_inside (l.region i) (hl.good i) rfl last .unset (by
    intro _
    rcases hl.next i with hn | ⟨j, hn, -, -⟩
    · change (l.graph.successors i).length ≤ 1; rw [hn]; simp
    · change (l.graph.successors i).length ≤ 1; rw [hn]; simp) x hx
  exact ⟨g, h1, h2⟩

/-- On the surface gamma is one, except on the wall to the next cluster, where it is huge. -/
lemma gamma_surface {l : Learner n d} (hl : ChainLearner l) (last i : Fin n) (x : Vec d)
    (hx : x ∈ Cell l.centers l.radius i) (hx' : x ∉ OpenCell l.centers l.radius i) :
    ((∀ j, l.graph.successors i = [j] → ‖x - l.centers i‖ ≠ ‖x - l.centers j‖) →
      (l.region i).getGamma last x true = .ok (some 1))
    ∧ (∀ j, l.graph.successors i = [j] → ‖x - l.centers i‖ = ‖x - l.centers j‖ →
      (l.region i).getGamma last x true = .ok (some floatMax)) := by
  rcases hl.next i with hn | ⟨j, hn, hij, hd⟩
  · refine ⟨fun _ => C80_gamma_surface (l.region i) (hl.good i) last hn x hx hx', ?_⟩
    intro j hj
    rw [hn] at hj
    cases hj
  · obtain ⟨h1, h2⟩ := C80_transparent_surface (l.region i) (hl.good i) last j
      (region_relevant hij hd) x hx hx'
    rw [getGamma_successor _ _ _ _ (show (l.region i).successor = [j] from hn)]
    refine ⟨fun h => h2 (h j hn), ?_⟩
    intro j' hj'
    rw [hn] at hj'
    cases hj'
    exact h1

/-! ### Weights -/

/-- The own weight is positive, and it is one on the surface away from the wall to the previous cluster. -/
lemma own_weight {l : Learner n d} (hl : ChainLearner l) (last i : Fin n) (x : Vec d) (w : Fin n → ℝ)
    (h : sequenceWeights l.graph (l.region i) last x = .ok w) : 0 < w i := by
  classical
  unfold sequenceWeights at h
  change (match l.graph.predecessors i with
    | _ :: _ :: _ => _
    | [] => _
    | [parent] => _) = _ at h
  rcases hl.previous i with hp | ⟨p, hp, hpi, hd⟩
  · rw [hp] at h
    simp only [Except.ok.injEq] at h
    rw [← h]
    change (0 : ℝ) < (Pi.single i 1 : Fin n → ℝ) i
    rw [Pi.single_eq_same]
    exact one_pos
  · rw [hp] at h
    simp only at h
    split_ifs at h with h1 h2
    · split at h
      · cases h
      · cases h
      · rename_i gamma hgam
        simp only [Except.ok.injEq] at h
        rw [← h]
        change 0 < pairWeights i p _ i
        rw [(pairWeights_spec (Ne.symm hpi) _).1]
        have ht := transitionWeight_mem (l.region i).center ((l.region i).centers p) x
          (fun he => h1 (by rw [he, sub_self, norm_zero])) (show (0 : ℝ) < 0.5 by norm_num)
        have hc : cutoffFactor gamma 2.0 < 1 := by
          unfold cutoffFactor
          have : (0 : ℝ) < 1 / (1 + max (gamma - 2.0) 0) := by
            have := le_max_right (gamma - 2.0) 0
            positivity
          linarith
        have : transitionWeight (l.region i).center ((l.region i).centers p) x 0.5 * cutoffFactor gamma 2.0
            < 1 := by
          calc _ < transitionWeight (l.region i).center ((l.region i).centers p) x 0.5 * 1 :=
                mul_lt_mul_of_pos_left hc h2
            _ ≤ 1 := by rw [mul_one]; exact ht.2
        linarith
    · simp only [Except.ok.injEq] at h
      rw [← h]
      change 0 < pairWeights i p _ i
      rw [(pairWeights_spec (Ne.symm hpi) _).1]
      linarith

/-- On the surface, away from the wall to the previous cluster, the own weight is one. -/
lemma surface_weight {l : Learner n d} (hl : ChainLearner l) (last i : Fin n) (x : Vec d) (w : Fin n → ℝ)
    (hx : x ∈ Cell l.centers l.radius i) (hx' : x ∉ OpenCell l.centers l.radius i)
    (hw : ∀ p, l.graph.predecessors i = [p] → ‖x - l.centers i‖ ≠ ‖x - l.centers p‖)
    (h : sequenceWeights l.graph (l.region i) last x = .ok w) : w i = 1 := by
  classical
  unfold sequenceWeights at h
  change (match l.graph.predecessors i with
    | _ :: _ :: _ => _
    | [] => _
    | [parent] => _) = _ at h
  rcases hl.previous i with hp | ⟨p, hp, hpi, hd⟩
  · rw [hp] at h
    simp only [Except.ok.injEq] at h
    rw [← h]
    change (Pi.single i 1 : Fin n → ℝ) i = 1
    rw [Pi.single_eq_same]
  · rw [hp] at h
    simp only at h
    have hg := (C80_transparent_surface (l.region i) (hl.good i) last p (region_relevant hpi hd) x hx hx').2
      (hw p hp)
    rw [hg] at h
    split_ifs at h with h1 h2
    · simp only [Except.ok.injEq] at h
      rw [← h]
      change pairWeights i p _ i = 1
      rw [(pairWeights_spec (Ne.symm hpi) _).1]
      unfold cutoffFactor
      norm_num
    · simp only [Except.ok.injEq] at h
      rw [← h]
      change pairWeights i p _ i = 1
      rw [(pairWeights_spec (Ne.symm hpi) _).1]
      have ht := transitionWeight_mem (l.region i).center ((l.region i).centers p) x
          (fun he => h1 (by rw [he, sub_self, norm_zero])) (show (0 : ℝ) < 0.5 by norm_num)
      linarith [ht.1, not_lt.mp h2]

lemma mem_used {w : Fin n → ℝ} {i : Fin n} : i ∈ Learner.used w ↔ 0 < w i := by
  unfold Learner.used
  simp

/-- More than one weight is positive exactly if another one than the own weight is. -/
lemma used_length {w : Fin n → ℝ} {i : Fin n} (hi : 0 < w i) :
    1 < (Learner.used w).length ↔ ∃ j, j ≠ i ∧ 0 < w j := by
  classical
  have hnd : (Learner.used w).Nodup := by
    unfold Learner.used
    exact (List.nodup_finRange n).filter _
  constructor
  · intro h
    match hu : Learner.used w, h with
    | a :: b :: rest, _ =>
      rw [hu] at hnd
      have hab : a ≠ b := by
        intro he
        rw [List.nodup_cons] at hnd
        exact hnd.1 (by rw [he]; exact List.mem_cons_self)
      by_cases ha : a = i
      · exact ⟨b, fun hb => hab (ha.trans hb.symm), mem_used.mp (by rw [hu]; simp)⟩
      · exact ⟨a, ha, mem_used.mp (by rw [hu]; simp)⟩
  · rintro ⟨j, hj, hw⟩
    have h1 := mem_used.mpr hi
    have h2 := mem_used.mpr hw
    match hu : Learner.used w, h1, h2 with
    | [], h1, _ => cases h1
    | [a], h1, h2 =>
      rw [List.mem_singleton] at h1 h2
      exact absurd (h2.trans h1.symm) hj
    | a :: b :: rest, _, _ => simp

lemma used_convex {w : Fin n → ℝ} (h0 : ∀ i, 0 ≤ w i) (h1 : ∑ i, w i = 1) :
    Convex ((Learner.used w).map w) := by
  classical
  constructor
  · intro y hy
    obtain ⟨i, _, rfl⟩ := List.mem_map.mp hy
    exact h0 i
  · rw [← h1, ← List.sum_ofFn, List.ofFn_eq_map]
    unfold Learner.used
    generalize List.finRange n = m
    induction m with
    | nil => rfl
    | cons a m ih =>
      rw [List.map_cons, List.sum_cons, List.filter_cons]
      split_ifs with ha
      · rw [List.map_cons, List.sum_cons, ih]
      · have : w a = 0 := le_antisymm (not_lt.mp (by simpa using ha)) (h0 a)
        rw [ih, this, zero_add]

variable [h2 : Fact (2 ≤ d)]

/-! ### What `predict` computes -/

lemma predict_ok {ext : PredictExt n d k} {l : Learner n d} {last : Fin n} {x v : Vec d}
    (h : l.predict ext last x = .ok v) :
    ∃ gamma, (l.region (ext.label x)).getGamma last x true = .ok (some gamma)
      ∧ ((gamma < 1 ∧ v = l.predictOutside ext x)
        ∨ (1 ≤ gamma ∧ ∃ w p nrm, sequenceWeights l.graph (l.region (ext.label x)) last x = .ok w
          ∧ l.initial ext x (ext.label x) w = .ok p
          ∧ Learner.neededNormal ext (l.region (ext.label x)) x gamma = .ok nrm
          ∧ (Rotational.avoid ext.rot Rotational.create x (some p.1)
            (some ⟨[Learner.asObstacle (l.region (ext.label x)) gamma nrm], none, none⟩) (some p.2) false
            (some (Real.pi * w (ext.label x)))).2 = .ok v)) := by
  unfold Learner.predict at h
  obtain ⟨g, hg, h⟩ := bind_ok.mp h
  cases g with
  | none => cases h
  | some gamma =>
    refine ⟨gamma, hg, ?_⟩
    simp only at h
    split_ifs at h with h1
    · injection h with h
      exact Or.inl ⟨h1, h.symm⟩
    · obtain ⟨w, hw, h⟩ := bind_ok.mp h
      obtain ⟨p, hp, h⟩ := bind_ok.mp h
      obtain ⟨nrm, hn, h⟩ := bind_ok.mp h
      obtain ⟨r, hr, h⟩ := bind_ok.mp h
      split_ifs at h
      injection h with h
      refine Or.inr ⟨not_lt.mp h1, w, p, nrm, hw, hp, hn, ?_⟩
      rw [hr, h]

/-- **C110** Outside of all regions (the closest cluster does not contain the position) the prediction is
always defined and does not depend on the local dynamics; further than four radii from all centres it is the
outside dynamics. -/
theorem C110_outside (ext : PredictExt n d k) (l : Learner n d) (hl : ChainLearner l)
    (he : SanePredict ext l) (last : Fin n) (x : Vec d)
    (hx : x ∉ Cell l.centers l.radius (ext.label x)) :
    l.predict ext last x = .ok (l.predictOutside ext x)
      ∧ ((∀ i, 4 * l.radius ≤ ‖x - l.centers i‖) → l.predict ext last x = .ok (l.outside x))
      ∧ (l.outside x = 0 → l.predict ext last x = .ok 0) := by
  obtain ⟨g, h1, h2⟩ := gamma_outside hl last (ext.label x) x (he.label x) hx
  have key : l.predict ext last x = .ok (l.predictOutside ext x) := by
    unfold Learner.predict
    simp only [h2, bind, Except.bind]
    rw [if_pos h1]
  refine ⟨key, ?_, ?_⟩
  · intro hfar
    rw [key]
    congr 1
    unfold Learner.predictOutside
    simp only
    split_ifs with h3
    · rfl
    · rw [C83_far]
      intro c hc
      rw [List.mem_ofFn] at hc
      obtain ⟨i, rfl⟩ := hc
      have := hfar i
      norm_num
      linarith
  · intro h0
    rw [key]
    congr 1
    unfold Learner.predictOutside
    simp only [h0, norm_zero, if_true]

lemma only_center {n d : ℕ} (centers : Fin n → Vec d) (P : Vec d → Prop) [DecidablePred P] (i : Fin n)
    (hi : P (centers i)) (ho : ∀ j, j ≠ i → ¬ P (centers j)) :
    (List.ofFn centers).filter (fun c => decide (P c)) = [centers i] := by
  rw [List.ofFn_eq_map, List.filter_map]
  have : (List.finRange n).filter ((fun c => decide (P c)) ∘ centers) = [i] := by
    have e : (List.finRange n).filter ((fun c => decide (P c)) ∘ centers) = (List.finRange n).filter (· == i) := by
      refine List.filter_congr ?_
      intro j _
      simp only [Function.comp]
      rw [Bool.eq_iff_iff, decide_eq_true_eq, beq_iff_eq]
      constructor
      · intro h; by_contra hc; exact ho j hc h
      · rintro rfl; exact hi
    rw [e, List.filter_beq, List.count_eq_one_of_mem (List.nodup_finRange n) (List.mem_finRange i)]
    rfl
  rw [this]; rfl

/-- **C110** Outside of all regions, closer than four radii to exactly one centre: the prediction is the mean of the
direction to this centre and the outside velocity, in which the centre counts more the closer it is and the more the
outside velocity points to it; a velocity exactly away from the centre is not changed. -/
theorem C110_outside_near (ext : PredictExt n d k) (l : Learner n d) (hl : ChainLearner l)
    (he : SanePredict ext l) (last : Fin n) (x : Vec d) (hR : 0 < l.radius)
    (hx : x ∉ Cell l.centers l.radius (ext.label x)) (i : Fin n) (hi : ‖x - l.centers i‖ < 4 * l.radius)
    (hother : ∀ j, j ≠ i → 4 * l.radius ≤ ‖x - l.centers j‖) (hv : l.outside x ≠ 0) (g : ℝ)
    (hg : g = (3 * l.radius / (‖x - l.centers i‖ - l.radius))
      ^ ((1 + Real.cos (InnerProductGeometry.angle (l.centers i - x) (l.outside x))) / 2)) :
    (InnerProductGeometry.angle (l.centers i - x) (l.outside x) ≠ Real.pi →
      l.predict ext last x = .ok (ext.rot.mean (l.outside x) (if g ≤ 10 then [g / 10, (1 - g) / 10] else [1, 0])
        [unit (l.centers i - x), l.outside x]))
    ∧ (InnerProductGeometry.angle (l.centers i - x) (l.outside x) = Real.pi →
      l.predict ext last x = .ok (l.outside x)) := by
  classical
  rw [(C110_outside ext l hl he last x hx).1]
  have hout : l.radius < ‖x - l.centers i‖ := by
    by_contra hc
    push Not at hc
    exact hx ⟨(he.label x i).trans hc, he.label x⟩
  have hci : l.centers i - x ≠ 0 := by
    intro h0
    rw [norm_sub_rev, h0, norm_zero] at hout
    linarith
  have hdot : outsideDot x (l.outside x) (l.centers i)
      = Real.cos (InnerProductGeometry.angle (l.centers i - x) (l.outside x)) := by
    unfold outsideDot
    rw [InnerProductGeometry.cos_angle, real_inner_smul_left, real_inner_smul_right]
    field_simp
  have hrel : (List.ofFn l.centers).filter (fun c => decide (‖x - c‖ < l.radius * 4.0)) = [l.centers i] := by
    refine only_center l.centers (fun c => ‖x - c‖ < l.radius * 4.0) i ?_ ?_
    · norm_num; linarith
    · intro j hj
      have := hother j hj
      norm_num; linarith
  have hpos : 0 < ‖x - l.centers i‖ - l.radius := by linarith
  have hwt : (l.radius * 4.0 - l.radius) / (‖x - l.centers i‖ - l.radius)
      = 3 * l.radius / (‖x - l.centers i‖ - l.radius) := by congr 1; norm_num; ring
  have hw0 : 0 < 3 * l.radius / (‖x - l.centers i‖ - l.radius) := by positivity
  have hnv : ‖l.outside x‖ ≠ 0 := norm_ne_zero_iff.mpr hv
  have hang0 := InnerProductGeometry.angle_nonneg (l.centers i - x) (l.outside x)
  have hang1 := InnerProductGeometry.angle_le_pi (l.centers i - x) (l.outside x)
  constructor
  · intro hne
    have hp : 0 < 1 + Real.cos (InnerProductGeometry.angle (l.centers i - x) (l.outside x)) := by
      have : Real.cos Real.pi < Real.cos (InnerProductGeometry.angle (l.centers i - x) (l.outside x)) :=
        Real.cos_lt_cos_of_nonneg_of_le_pi hang0 le_rfl (lt_of_le_of_ne hang1 hne)
      rw [Real.cos_pi] at this
      linarith
    have hnz : [l.centers i].filter (fun c => decide (outsideDot x (l.outside x) c - Real.cos Real.pi > 0))
        = [l.centers i] := by
      rw [List.filter_cons_of_pos, List.filter_nil]
      rw [decide_eq_true_eq, hdot, Real.cos_pi]; linarith
    have hws : outsideWeights (List.ofFn l.centers) l.radius (l.outside x) x
        = some (if g ≤ 10 then [g / 10, (1 - g) / 10] else [1, 0]) := by
      unfold outsideWeights
      simp only [hrel, hnz]
      rw [if_neg (by simp), if_neg, if_neg (by simp)]
      · simp only [List.map_cons, List.map_nil, hwt, hdot, Real.cos_pi]
        have e : (Real.cos (InnerProductGeometry.angle (l.centers i - x) (l.outside x)) - -1) / (1 - -1)
            = (1 + Real.cos (InnerProductGeometry.angle (l.centers i - x) (l.outside x))) / 2 := by ring
        rw [e, ← hg]
        unfold allWeights
        simp only [List.sum_cons, List.sum_nil, add_zero]
        by_cases h10 : g ≤ 10
        · rw [if_neg (not_lt.mpr h10), if_pos h10]; rfl
        · rw [if_pos (not_le.mp h10), if_neg h10]
          have : g ≠ 0 := by intro h; rw [h] at h10; norm_num at h10
          simp [this]
      · simp only [List.mem_singleton, forall_eq, hwt, not_le]
        exact hw0
    unfold Learner.predictOutside
    simp only [hws, hrel, hnz]
    rw [if_neg hnv]
    rfl
  · intro heq
    have hnz : [l.centers i].filter (fun c => decide (outsideDot x (l.outside x) c - Real.cos Real.pi > 0)) = [] := by
      rw [List.filter_cons_of_neg, List.filter_nil]
      rw [decide_eq_true_eq, hdot, heq]; linarith
    have hws : outsideWeights (List.ofFn l.centers) l.radius (l.outside x) x = none := by
      unfold outsideWeights
      simp only [hrel, hnz, if_true]
      split_ifs <;> rfl
    unfold Learner.predictOutside
    simp only [hws]
    rw [if_neg hnv]

/-! ### Inside of the regions -/

omit h2 in
lemma gamma_centre (l : Learner n d) (last i : Fin n) (x : Vec d) (hx : x = l.centers i) :
    (l.region i).getGamma last x true = .ok (some floatMax) := by
  unfold Obs.getGamma
  simp only [if_true]
  rw [if_pos (by rw [hx]; change ‖l.centers i - l.centers i‖ = 0; rw [sub_self, norm_zero])]
  rfl

lemma floatMax_large : (1e6 : ℝ) ≤ floatMax := by
  have h1 : floatMax = 2 ^ 971 * (2 ^ 53 - 1 : ℝ) := by unfold floatMax; rw [mul_sub, ← pow_add, mul_one]
  have h2 : (1 : ℝ) ≤ 2 ^ 971 := one_le_pow₀ (by norm_num)
  rw [h1]
  generalize (2 : ℝ) ^ 971 = a at h2
  norm_num
  linarith

lemma weights_exist {l : Learner n d} (hl : ChainLearner l) (last i : Fin n) (x : Vec d) :
    ∃ w, sequenceWeights l.graph (l.region i) last x = .ok w := by
  unfold sequenceWeights
  rcases hl.previous i with hp | ⟨p, hp, hpi, -⟩
  · exact ⟨_, by simp only [show l.graph.predecessors (l.region i).index = [] from hp]; rfl⟩
  · simp only [show l.graph.predecessors (l.region i).index = [p] from hp]
    have h1 : ‖(l.region i).center - (l.region i).centers p‖ ≠ 0 := by
      rw [norm_sub_rev]; exact ((hl.good i).separated p hpi).1.ne'
    rw [if_neg h1]
    by_cases h2 : transitionWeight (l.region i).center ((l.region i).centers p) x 0.5 > 0
    · rw [if_pos h2]
      obtain ⟨g, hg⟩ := getGamma_total (l.region i) (hl.good i) rfl last p x
      rw [hg]
      exact ⟨_, rfl⟩
    · rw [if_neg h2]
      exact ⟨_, rfl⟩

/-- The first cluster with a positive weight. -/
lemma used_cons {w : Fin n → ℝ} {i : Fin n} (hi : 0 < w i) :
    ∃ j rest, Learner.used w = j :: rest ∧ 0 < w j ∧ ∀ m, m < j → w m ≤ 0 := by
  match hu : Learner.used w with
  | [] =>
    have := mem_used.mpr hi
    rw [hu] at this
    cases this
  | j :: rest =>
    refine ⟨j, rest, rfl, mem_used.mp (by rw [hu]; exact List.mem_cons_self), ?_⟩
    intro m hm
    by_contra hw
    have hmem := mem_used.mpr (not_le.mp hw)
    have hsorted : (Learner.used w).Pairwise (· < ·) := by
      unfold Learner.used
      exact (List.pairwise_lt_finRange n).filter _
    rw [hu] at hmem hsorted
    rcases List.mem_cons.mp hmem with h | h
    · rw [h] at hm; exact lt_irrefl _ hm
    · exact absurd ((List.pairwise_cons.mp hsorted).1 m h) (not_lt.mpr hm.le)

lemma initial_exists {ext : PredictExt n d k} {l : Learner n d} {x : Vec d} {i : Fin n} {w : Fin n → ℝ}
    (hi : 0 < w i) : ∃ p, l.initial ext x i w = .ok p := by
  unfold Learner.initial Learner.averagedLyapunov
  obtain ⟨j, rest, hu, -⟩ := used_cons hi
  rw [hu]
  split_ifs
  · exact ⟨_, rfl⟩
  · exact ⟨_, rfl⟩

/-- With the full own weight the initial velocity is the local one. -/
lemma initial_own {ext : PredictExt n d k} {l : Learner n d} {x : Vec d} {i : Fin n} {w : Fin n → ℝ}
    (hi : 0 < w i) (h : ∀ j, j ≠ i → w j ≤ 0) :
    l.initial ext x i w = .ok ((l.dynamics i).evaluate x, (l.dynamics i).lyapunov x) := by
  unfold Learner.initial
  rw [if_neg]
  intro hc
  obtain ⟨j, hj, hw⟩ := (used_length hi).mp hc
  exact absurd hw (not_lt.mpr (h j hj))

/-- In the transition the initial velocity is a unit vector. -/
lemma initial_unit {ext : PredictExt n d k} (ha : SaneAngles ext.rot) {l : Learner n d} {x : Vec d}
    {i : Fin n} {w : Fin n → ℝ} (hi : 0 < w i) (h0 : ∀ j, 0 ≤ w j) (h1 : ∑ j, w j = 1)
    (hj : ∃ j, j ≠ i ∧ 0 < w j)
    (hlyap : ∀ j, 0 < w j → (∀ m, m < j → w m ≤ 0) → ‖(l.dynamics j).lyapunov x‖ = 1)
    {p : Vec d × Vec d} (hp : l.initial ext x i w = .ok p) : ‖p.1‖ = 1 := by
  unfold Learner.initial at hp
  rw [if_pos ((used_length hi).mpr hj)] at hp
  obtain ⟨ly, h2, hp⟩ := bind_ok.mp hp
  injection hp with hp
  obtain ⟨j, rest, hu, hwj, hfirst⟩ := used_cons hi
  have hconv := used_convex h0 h1
  have hly : ‖ly‖ = 1 := by
    unfold Learner.averagedLyapunov at h2
    rw [hu, List.map_cons] at h2
    simp only at h2
    injection h2 with h2
    rw [← h2]
    rw [hu] at hconv
    exact ha.mean_unit _ _ _ (hlyap j hwj hfirst) hconv (by simp)
  rw [← hp]
  unfold Learner.initialDirection
  exact ha.mean_unit _ _ _ hly hconv (by simp)

lemma region_velocity {ext : PredictExt n d k} {l : Learner n d} (he : SanePredict ext l) (x : Vec d)
    (env : Rotational.Environment d) : Rotational.closeVelocity ext.rot Rotational.create env x = 0 := by
  unfold Rotational.closeVelocity
  exact he.rest _ _

/-- **C110** Strictly inside of a region the speed is the one of the local dynamics, as long as no other
cluster has a weight, and one in the transition from another cluster: the avoidance of the walls turns the
velocity without changing its length. -/
theorem C110_speed (ext : PredictExt n d k) (l : Learner n d) (hl : ChainLearner l)
    (he : SanePredict ext l) (last : Fin n) (x v : Vec d)
    (hx : x ∈ OpenCell l.centers l.radius (ext.label x)) (h : l.predict ext last x = .ok v) :
    ∃ w, sequenceWeights l.graph (l.region (ext.label x)) last x = .ok w
      ∧ ((∀ j, j ≠ ext.label x → w j ≤ 0) → ‖v‖ = ‖(l.dynamics (ext.label x)).evaluate x‖)
      ∧ ((∃ j, j ≠ ext.label x ∧ 0 < w j) →
        (∀ j, 0 < w j → (∀ m, m < j → w m ≤ 0) → ‖(l.dynamics j).lyapunov x‖ = 1) → ‖v‖ = 1) := by
  obtain ⟨gamma, hg, hcase⟩ := predict_ok h
  obtain ⟨g, hg1, hg2⟩ := gamma_inside hl last (ext.label x) x hx
  rw [hg2] at hg
  injection hg with hg
  injection hg with hg
  subst hg
  rcases hcase with ⟨hlt, -⟩ | ⟨-, w, p, nrm, hw, hp, -, hav⟩
  · exact absurd hlt (not_lt.mpr hg1.le)
  have hi := own_weight hl last _ x w hw
  obtain ⟨w1, w2, -⟩ := C54_weights l.graph (l.region (ext.label x)) last x 0.5 2.0 (by norm_num) w hw
  have hspeed := Rotational.C93_full_speed ext.rot he.angles Rotational.create _ x p.1 v _ _
    (region_velocity he x _) (by
      intro o ho
      rw [List.mem_singleton] at ho
      rw [ho]
      exact hg1) hav
  refine ⟨w, hw, ?_, ?_⟩
  · intro hz
    rw [initial_own hi hz] at hp
    injection hp with hp
    rw [hspeed, ← hp]
  · intro hj hlyap
    rw [hspeed]
    exact initial_unit he.angles hi (fun j => (w1 j).1) w2 hj hlyap hp

/-- **C110 (violated)** The motion does not stop at the attractor if the attractor is in the transition
zone of the last region: there the predicted speed is one, although the local velocity is zero. -/
theorem C110_attractor_moves (ext : PredictExt n d k) (l : Learner n d) (hl : ChainLearner l)
    (he : SanePredict ext l) (last : Fin n) (x v : Vec d)
    (hx : x ∈ OpenCell l.centers l.radius (ext.label x)) (w : Fin n → ℝ)
    (hw : sequenceWeights l.graph (l.region (ext.label x)) last x = .ok w)
    (hj : ∃ j, j ≠ ext.label x ∧ 0 < w j)
    (hlyap : ∀ j, 0 < w j → (∀ m, m < j → w m ≤ 0) → ‖(l.dynamics j).lyapunov x‖ = 1)
    (hattr : (l.dynamics (ext.label x)).evaluate x = 0) (h : l.predict ext last x = .ok v) :
    v ≠ (l.dynamics (ext.label x)).evaluate x ∧ ‖v‖ = 1 := by
  obtain ⟨w', hw', -, h2⟩ := C110_speed ext l hl he last x v hx h
  rw [hw] at hw'
  injection hw' with hw'
  subst hw'
  have := h2 hj hlyap
  refine ⟨?_, this⟩
  rw [hattr]
  rintro rfl
  rw [norm_zero] at this
  norm_num at this

/-- **C110** A position is a rest position of the prediction if the local velocity is zero and no other cluster
has a weight. -/
theorem C110_attractor (ext : PredictExt n d k) (l : Learner n d) (hl : ChainLearner l)
    (he : SanePredict ext l) (last : Fin n) (x : Vec d)
    (hx : x ∈ OpenCell l.centers l.radius (ext.label x)) (w : Fin n → ℝ)
    (hw : sequenceWeights l.graph (l.region (ext.label x)) last x = .ok w)
    (hj : ∀ j, j ≠ ext.label x → w j ≤ 0)
    (hattr : (l.dynamics (ext.label x)).evaluate x = 0) : l.predict ext last x = .ok 0 := by
  obtain ⟨g, hg1, hg2⟩ := gamma_inside hl last (ext.label x) x hx
  have hi := own_weight hl last _ x w hw
  obtain ⟨w1, w2, -⟩ := C54_weights l.graph (l.region (ext.label x)) last x 0.5 2.0 (by norm_num) w hw
  have hnrm : ∃ nrm, Learner.neededNormal ext (l.region (ext.label x)) x g = .ok nrm := by
    unfold Learner.neededNormal
    by_cases hc : x = (l.region (ext.label x)).center
    · rw [gamma_centre l last (ext.label x) x hc] at hg2
      injection hg2 with hg2
      injection hg2 with hg2
      rw [if_neg]
      · exact ⟨_, rfl⟩
      · rw [← hg2]
        exact fun h => absurd h.2 (not_lt.mpr floatMax_large)
    · obtain ⟨nrm, hn, -⟩ := C109_side ext.normal he.mean (l.region (ext.label x)) (hl.good _) x hc (Or.inl hx)
      rw [hn]
      split_ifs
      · exact ⟨_, rfl⟩
      · exact ⟨_, rfl⟩
  obtain ⟨nrm, hn⟩ := hnrm
  unfold Learner.predict
  simp only [hg2, bind, Except.bind]
  rw [if_neg (not_lt.mpr hg1.le), hw]
  simp only [initial_own hi hj, hn, hattr]
  have hav : (Rotational.avoid ext.rot Rotational.create x (some (0 : Vec d))
      (some ⟨[Learner.asObstacle (l.region (ext.label x)) g nrm], none, none⟩)
      (some ((l.dynamics (ext.label x)).lyapunov x)) false (some (Real.pi * w (ext.label x)))).2 = .ok 0 := by
    unfold Rotational.avoid Rotational.avoid.run Rotational.avoidBody
    simp only [he.rest, sub_zero, norm_zero, if_true, zero_add, add_zero]
    split_ifs <;> rfl
  rw [hav]
  simp only
  rw [if_neg (by rw [w2]; exact lt_irrefl _)]

/-- **C110** At the centre of a region, on the wall to the next region, and in front of this wall (the mirror
image of the position is beyond this wall and no other one) the prediction is always defined, and it is the
initial velocity: with the full own weight the local velocity. -/
theorem C110_free (ext : PredictExt n d k) (l : Learner n d) (hl : ChainLearner l)
    (last : Fin n) (x : Vec d)
    (hx : x = l.centers (ext.label x) ∨ ∃ j, l.graph.successors (ext.label x) = [j]
      ∧ ((x ∈ Cell l.centers l.radius (ext.label x)
          ∧ ‖x - l.centers (ext.label x)‖ = ‖x - l.centers j‖)
        ∨ (x ∈ OpenCell l.centers l.radius (ext.label x)
          ∧ ∃ y, Mirror l.centers l.radius (ext.label x) x y ∧ ‖y - l.centers (ext.label x)‖ ≤ l.radius
            ∧ ∀ m, m ≠ j → ‖y - l.centers (ext.label x)‖ ≤ ‖y - l.centers m‖))) :
    ∃ w p, sequenceWeights l.graph (l.region (ext.label x)) last x = .ok w
      ∧ l.initial ext x (ext.label x) w = .ok p
      ∧ l.predict ext last x = .ok p.1
      ∧ ((∀ j, j ≠ ext.label x → w j ≤ 0) →
        l.predict ext last x = .ok ((l.dynamics (ext.label x)).evaluate x)) := by
  have hg : (l.region (ext.label x)).getGamma last x true = .ok (some floatMax) := by
    rcases hx with hx | ⟨j, hj, ⟨hx, hd⟩ | ⟨hx, y, hy, hball, hother⟩⟩
    · exact gamma_centre l last _ x hx
    rotate_left
    · by_cases hc : x = l.centers (ext.label x)
      · exact gamma_centre l last _ x hc
      · rw [getGamma_successor _ _ _ _ (show (l.region (ext.label x)).successor = [j] from hj)]
        exact C80_transparent_front (l.region (ext.label x)) (hl.good _) rfl last j x y hc hx hy hball hother
    · have hji : j ≠ ext.label x := by
        rcases hl.next (ext.label x) with hn | ⟨j', hn, hij, -⟩
        · rw [hn] at hj; cases hj
        · rw [hn] at hj; cases hj; exact hij
      refine (gamma_surface hl last (ext.label x) x hx ?_).2 j hj hd
      intro ho
      exact absurd hd (ho.2 j hji).ne
  have hbig := floatMax_large
  obtain ⟨w, hw⟩ := weights_exist hl last (ext.label x) x
  have hi := own_weight hl last _ x w hw
  obtain ⟨w1, w2, -⟩ := C54_weights l.graph (l.region (ext.label x)) last x 0.5 2.0 (by norm_num) w hw
  obtain ⟨p, hp⟩ := initial_exists (ext := ext) (l := l) (x := x) hi
  have key : l.predict ext last x = .ok p.1 := by
    unfold Learner.predict
    simp only [hg, bind, Except.bind]
    rw [if_neg (by linarith), hw]
    simp only [hp]
    have hn : Learner.neededNormal ext (l.region (ext.label x)) x floatMax = .ok 0 := by
      unfold Learner.neededNormal
      rw [if_neg (by intro h; linarith [h.2])]
    simp only [hn]
    rw [(Rotational.C93_fallback ext.rot Rotational.create x p.1 _ _ _ _ ?_).1]
    · simp only
      rw [if_neg (by rw [w2]; exact lt_irrefl _)]
    · intro o ho
      rw [List.mem_singleton] at ho
      rw [ho]
      rintro (⟨-, h⟩ | ⟨h, -⟩)
      · change floatMax < (1e6 : ℝ) at h
        linarith
      · cases h
  refine ⟨w, p, hw, hp, key, ?_⟩
  intro hz
  rw [initial_own hi hz] at hp
  injection hp with hp
  rw [key, ← hp]

/-! ### On the surface -/

/-- The frame of the avoidance for a boundary whose normal points to the centre. -/
lemma surface_frame (o : Obs n d) (x : Vec d) (hx : x ≠ o.center) (hb : o.isBoundary = true) (g : ℝ) :
    Rotational.alignedFrame (Learner.asObstacle o g (unit (o.center - x))) x
      = (-unit (o.center - x), ⟨unit (o.center - x), true⟩) := by
  have h0 : o.center - x ≠ 0 := sub_ne_zero.mpr hx.symm
  have hr : o.referenceDirection x true = unit (o.center - x) := by
    unfold Obs.referenceDirection unit
    simp only [if_true]
    rw [if_neg (norm_ne_zero_iff.mpr h0)]
  have hf : Rotational.obstacleFrame (Learner.asObstacle o g (unit (o.center - x))) x
      = (-unit (o.center - x), ⟨unit (o.center - x), false⟩) := by
    unfold Rotational.obstacleFrame Learner.asObstacle
    simp only [hb, if_true, hr, neg_one_smul]
  unfold Rotational.alignedFrame
  simp only [hf]
  rw [if_pos]
  · simp
  · unfold Rotational.NullBase.first
    simp only [Bool.false_eq_true, if_false, one_smul, unit_norm h0, div_one]
    rw [inner_neg_left, real_inner_self_eq_norm_sq, unit_norm h0]
    norm_num

/-- **C110** The motion does not leave a region through its surface: on the surface, away from the walls to
the next and the previous region, the prediction is defined and points straight to the centre, with the speed
of the local dynamics.

The region has at least as many neighbours as dimensions, none closer than the radius
(`C109_surface_radial`).  Missing: regions with fewer neighbours (see `C110_surface_fails`), local velocities
that point exactly outwards or opposite to the Lyapunov direction, and directions within the tolerance of
`np.allclose`. -/
theorem C110_surface_partial (ext : PredictExt n d k) (l : Learner n d) (hl : ChainLearner l)
    (he : SanePredict ext l) (hk : 0 < k) (hd : d ≤ 10 ^ 15)
    (hcirc : ∀ s v r, v ≠ 0 → ∃ a, ext.rot.circleFar s v r = some a)
    (last i : Fin n) (x : Vec d) (hlab : ext.label x = i)
    (hx : x ∈ Cell l.centers l.radius i) (hx' : x ∉ OpenCell l.centers l.radius i)
    (hnext : ∀ j, l.graph.successors i = [j] → ‖x - l.centers i‖ ≠ ‖x - l.centers j‖)
    (hprev : ∀ j, l.graph.predecessors i = [j] → ‖x - l.centers i‖ ≠ ‖x - l.centers j‖)
    (has : ∀ f, ext.normal.argsort f ≠ []) (hn : d ≤ (l.region i).indRelevant.length)
    (hfar : ∀ j, j ≠ i → l.radius ≤ ‖l.centers j - l.centers i‖)
    (hinit : (l.dynamics i).evaluate x ≠ 0) (hlyap : (l.dynamics i).lyapunov x ≠ 0)
    (n1 : Neighbours (unit ((l.dynamics i).lyapunov x)) (unit ((l.dynamics i).evaluate x)))
    (n2 : Neighbours (unit ((l.dynamics i).lyapunov x)) (unit (x - l.centers i)))
    (n3 : ¬ Opposite ((l.dynamics i).evaluate x) (l.centers i - x)) :
    l.predict ext last x = .ok (‖(l.dynamics i).evaluate x‖ • unit (l.centers i - x)) := by
  have hc : x ≠ (l.region i).center := by
    intro hc
    have hc : x = l.centers i := hc
    refine hx' ⟨?_, ?_⟩
    · rw [hc, sub_self, norm_zero]; exact (hl.good i).radius_pos
    · intro j hj
      rw [hc, sub_self, norm_zero, norm_sub_rev]
      exact ((hl.good i).separated j hj).1
  have h0 : l.centers i - x ≠ 0 := sub_ne_zero.mpr (fun h => hc h.symm)
  have hg := (gamma_surface hl last i x hx hx').1 hnext
  obtain ⟨w, hw⟩ := weights_exist hl last i x
  have hi := surface_weight hl last i x w hx hx' hprev hw
  obtain ⟨w1, w2, -⟩ := C54_weights l.graph (l.region i) last x 0.5 2.0 (by norm_num) w hw
  have hz : ∀ j, j ≠ i → w j ≤ 0 := by
    intro j hj
    by_contra hc
    have h3 : w i + w j ≤ ∑ m, w m := by
      classical
      rw [← Finset.sum_pair (Ne.symm hj)]
      exact Finset.sum_le_univ_sum_of_nonneg (fun m => (w1 m).1)
    rw [w2, hi] at h3
    linarith [not_le.mp hc]
  have hnrm : Learner.neededNormal ext (l.region i) x 1 = .ok (unit (l.centers i - x)) := by
    unfold Learner.neededNormal
    rw [if_pos (by norm_num)]
    exact C109_surface_radial ext.normal (l.region i) (hl.good i) rfl has hn
      (fun j hj => hfar j hj.1) x hx hx'
  set o := Learner.asObstacle (l.region i) 1 (unit (l.centers i - x)) with ho
  have hug : Rotational.usedGamma x o = 1 := by
    unfold Rotational.usedGamma
    rw [if_neg]
    · rfl
    · intro h; exact absurd h.1 (lt_irrefl _)
  set env : Rotational.Environment d := ⟨[o], none, none⟩ with henv
  set s := Rotational.updated (Rotational.create : Rotational.Avoider d) env (some (Real.pi * w i)) with hs
  have hsR : s.convergenceRadius = Real.pi := by
    change Real.pi * w i = Real.pi
    rw [hi, mul_one]
  have hclose : CloseTo s.cutOffGamma x o := by
    left
    refine ⟨le_refl _, ?_⟩
    change (1 : ℝ) < 1e6
    norm_num
  have hfr : Rotational.alignedFrame o x = (-unit (l.centers i - x), ⟨unit (l.centers i - x), true⟩) :=
    surface_frame (l.region i) x hc rfl 1
  have hne : unit (l.centers i - x) ≠ 0 := unit_ne_zero h0
  have hfirst : (⟨unit (l.centers i - x), true⟩ : Rotational.NullBase d).first = -unit (l.centers i - x) := by
    unfold Rotational.NullBase.first
    simp [unit_norm h0]
  have hsum := Rotational.convergenceSumming_pi he.angles hk hd hcirc (s := s)
    (ref := -unit (l.centers i - x)) (b := ⟨unit (l.centers i - x), true⟩) hne hlyap hinit hsR n1 (by
      rw [hfirst]
      have : -unit (l.centers i - x) = unit (x - l.centers i) := by
        unfold unit
        rw [← smul_neg, neg_sub, norm_sub_rev]
      rw [this]
      exact n2)
  rw [hfirst, neg_neg] at hsum
  have hbody := Rotational.avoid_single_free (ext := ext.rot) (s := s) (o := o) (x := x)
    (dir := unit (l.centers i - x)) hclose (he.rest _ _) hinit hlyap (by
      rw [hfr, hug, hsR]; exact hsum)
  have hwt : ext.rot.weights [1] = [1] := by
    obtain ⟨h1, h3⟩ := he.angles.weights_convex [1] (by simp)
    obtain ⟨y, hy⟩ := List.length_eq_one_iff.mp (by simpa using h3)
    rw [hy] at h1 ⊢
    have := h1.2
    simp at this
    rw [this]
  have hmean : ext.rot.mean (unit ((l.dynamics i).evaluate x)) [1] [unit (l.centers i - x)]
      = unit (l.centers i - x) := by
    have := he.angles.mean_one (unit ((l.dynamics i).evaluate x)) [] [] [] (unit (l.centers i - x)) []
      (unit_norm hinit) hne (fun h => n3 (opposite_of_unit hinit h0 h)) rfl rfl
      ⟨by intro y hy; simp at hy; rw [hy]; norm_num, by simp⟩
    simp only [List.nil_append] at this
    rw [this, unit_unit h0]
  have hav : (Rotational.avoid ext.rot Rotational.create x (some ((l.dynamics i).evaluate x))
      (some env) (some ((l.dynamics i).lyapunov x)) false (some (Real.pi * w i))).2
      = .ok (‖(l.dynamics i).evaluate x‖ • unit (l.centers i - x)) := by
    change Rotational.avoidBody ext.rot s env x _ _ false s.convergenceRadius = _
    rw [hbody]
    unfold Rotational.finishAvoid
    have hun : Rotational.unitNormal x ((o, (1 : ℝ)), 0) = unit (l.centers i - x) := by
      change (1 / ‖unit (l.centers i - x)‖) • unit (l.centers i - x) = _
      rw [unit_norm h0, div_one, one_smul]
    simp only [Bool.false_eq_true, if_false, List.map_cons, List.map_nil, hug, hwt, hun]
    change (do
      let v ← computeSafeMagnitude (ext.rot.mean (unit ((l.dynamics i).evaluate x)) [1] [unit (l.centers i - x)])
        ‖(l.dynamics i).evaluate x‖ _ 1
      _) = _
    rw [hmean]
    have hcm : computeSafeMagnitude (unit (l.centers i - x)) ‖(l.dynamics i).evaluate x‖
        (List.zipWith (fun (n : Vec d) (w : ℝ) => w • n) [unit (l.centers i - x)] [1]).sum 1
        = .ok (‖(l.dynamics i).evaluate x‖ • unit (l.centers i - x)) := by
      unfold computeSafeMagnitude
      simp only [List.zipWith_cons_cons, List.zipWith_nil_right, List.sum_cons, List.sum_nil, one_smul,
        add_zero, unit_norm h0, real_inner_self_eq_norm_sq]
      norm_num
    rw [hcm]
    simp only [bind, Except.bind, add_zero, norm_smul, norm_norm, unit_norm h0, mul_one]
    rw [if_neg (norm_ne_zero_iff.mpr hinit), div_self (norm_ne_zero_iff.mpr hinit), one_smul]
  unfold Learner.predict
  rw [hlab]
  simp only [hg, bind, Except.bind]
  rw [if_neg (lt_irrefl _), hw]
  simp only [initial_own (by rw [hi]; exact one_pos) hz, hnrm]
  rw [hav]
  simp only
  rw [if_neg (by rw [w2]; exact lt_irrefl _)]

/-- **C110 (violated)** The prediction is not defined everywhere: on the surface of a region without
neighbours (a learner with a single cluster) it raises `IndexError`. -/
theorem C110_surface_fails (ext : PredictExt n d k) (l : Learner n d) (hl : ChainLearner l)
    (last : Fin n) (x : Vec d)
    (hx : x ∈ Cell l.centers l.radius (ext.label x)) (hx' : x ∉ OpenCell l.centers l.radius (ext.label x))
    (hn : ∀ j, j ≠ ext.label x → 2 * l.radius ≤ ‖l.centers (ext.label x) - l.centers j‖) :
    l.predict ext last x = .error .indexError := by
  have hnone : ∀ j, ¬ (l.region (ext.label x)).Relevant j := by
    intro j hj
    exact absurd hj.2 (not_lt.mpr (hn j hj.1))
  have hs : ∀ j, l.graph.successors (ext.label x) ≠ [j] := by
    intro j hj
    rcases hl.next (ext.label x) with h | ⟨m, h, h1, h3⟩
    · rw [h] at hj; cases hj
    · exact absurd h3 (not_lt.mpr (hn m h1))
  have hg := (gamma_surface hl last _ x hx hx').1 (fun j hj => absurd hj (hs j))
  obtain ⟨w, hw⟩ := weights_exist hl last (ext.label x) x
  have hi := own_weight hl last _ x w hw
  obtain ⟨p, hp⟩ := initial_exists (ext := ext) (l := l) (x := x) hi
  have hnrm : Learner.neededNormal ext (l.region (ext.label x)) x 1 = .error .indexError := by
    unfold Learner.neededNormal
    rw [if_pos (by norm_num)]
    exact C109_surface_fails ext.normal (l.region (ext.label x)) (hl.good _) hnone x hx hx'
  unfold Learner.predict
  simp only [hg, bind, Except.bind]
  rw [if_neg (lt_irrefl _), hw]
  simp only [hp, hnrm]

/-- **C110** A first fit gives such a chain: with a radius factor above one half, every region has at most one
next and one previous region, each sharing a wall with it. -/
theorem C110_fitted (samples : List (Fin n × ℝ)) (radiusFactor : ℝ) (hf : 1 / 2 < radiusFactor)
    (attractor : Vec d) (ascending : List (Fin n)) (hs : IsArgsort (averageSequence samples) ascending)
    (positions : List (Vec d)) (ds : List ℝ) (l : Learner n d)
    (hfit : fitHierarchy {} l.centers attractor ascending = .ok (l.graph, ds))
    (hr : regionRadius radiusFactor ds l.centers positions = .ok l.radius)
    (hgood : ∀ i, GoodClusters l.centers l.radius i) : ChainLearner l := by
  obtain ⟨order, hp, -, -, e2, e1, e3, e4⟩ :=
    C55_chain_partial samples l.centers attractor ascending hs l.graph ds hfit
  obtain ⟨-, -, hclose⟩ := C81_radius radiusFactor hf _ l.centers attractor ascending hs l.graph ds hfit
    positions l.radius hr
  have hnd : order.Nodup := hp.nodup_iff.mpr (List.nodup_finRange n)
  refine ⟨hgood, ?_, ?_⟩
  · intro i
    obtain ⟨j, hj, rfl⟩ := List.mem_iff_getElem.mp (hp.mem_iff.mpr (List.mem_finRange i))
    cases j with
    | zero => exact Or.inl (e2 hj)
    | succ j =>
      refine Or.inr ⟨order[j], e1 j hj, ?_, ?_⟩
      · intro h
        have := (hnd.getElem_inj_iff).mp h
        omega
      · exact hclose _ _ (by rw [e1 j hj]; exact List.mem_singleton_self _)
  · intro i
    obtain ⟨j, hj, rfl⟩ := List.mem_iff_getElem.mp (hp.mem_iff.mpr (List.mem_finRange i))
    by_cases hlast : j + 1 = order.length
    · exact Or.inl (e4 j hlast)
    · have hj' : j + 1 < order.length := by omega
      refine Or.inr ⟨order[j + 1], e3 j hj', ?_, ?_⟩
      · intro h
        have := (hnd.getElem_inj_iff).mp h
        omega
      · rw [norm_sub_rev]
        exact hclose _ _ (by rw [e1 j hj']; exact List.mem_singleton_self _)

omit [NeZero d] h2 in
lemma neg_unit (a b : Vec d) : -unit (a - b) = unit (b - a) := by
  unfold unit
  rw [← smul_neg, neg_sub, norm_sub_rev]

/-- With the lone weight one the mean of one direction is this direction. -/
lemma weights_single {ext : PredictExt n d k} (ha : SaneAngles ext.rot) (g : ℝ) :
    ext.rot.weights [g] = [1] := by
  obtain ⟨h1, h3⟩ := ha.weights_convex [g] (by simp)
  obtain ⟨y, hy⟩ := List.length_eq_one_iff.mp (by simpa using h3)
  rw [hy] at h1 ⊢
  have := h1.2
  simp at this
  rw [this]

/-- **C110** A motion that comes from the previous region is not deflected by the wall behind it: in front of the
wall to the previous cluster `j` (the mirror image of the position is beyond this wall and no other one) the
prediction is the initial velocity, if the angle between the Lyapunov direction and the way back to cluster
`j` is more than `pi` times the own weight, and the angle between the position and this way is less. -/
theorem C110_entry (ext : PredictExt n d k) (l : Learner n d) (hl : ChainLearner l)
    (he : SanePredict ext l) (last i j : Fin n) (x y : Vec d) (hlab : ext.label x = i)
    (hc : x ≠ l.centers i) (hx : x ∈ OpenCell l.centers l.radius i) (hy : Mirror l.centers l.radius i x y)
    (hball : ‖y - l.centers i‖ ≤ l.radius) (hj : ‖y - l.centers j‖ < ‖y - l.centers i‖)
    (hother : ∀ m, m ≠ j → ‖y - l.centers i‖ ≤ ‖y - l.centers m‖)
    (w : Fin n → ℝ) (hw : sequenceWeights l.graph (l.region i) last x = .ok w)
    (p : Vec d × Vec d) (hp : l.initial ext x i w = .ok p) (hp0 : p.2 ≠ 0)
    (hang : Real.pi * w i < InnerProductGeometry.angle (l.centers j - l.centers i) p.2)
    (hpos : InnerProductGeometry.angle (l.centers j - l.centers i) (x - l.centers i) < Real.pi * w i) :
    l.predict ext last x = .ok p.1 := by
  obtain ⟨g, hg1, hg2⟩ := gamma_inside hl last i x hx
  have hi := own_weight hl last i x w hw
  obtain ⟨w1, w2, -⟩ := C54_weights l.graph (l.region i) last x 0.5 2.0 (by norm_num) w hw
  have hcj : l.centers i - l.centers j ≠ 0 := by
    intro h
    rw [sub_eq_zero] at h
    rw [h] at hj
    exact lt_irrefl _ hj
  have hcx : l.centers i - x ≠ 0 := sub_ne_zero.mpr (Ne.symm hc)
  have hnrm : ∃ nrm, Learner.neededNormal ext (l.region i) x g = .ok nrm
      ∧ (g < 1e6 → nrm = unit (l.centers i - l.centers j)) := by
    unfold Learner.neededNormal
    by_cases hlt : g < 1e6
    · rw [if_pos ⟨hg1.le, hlt⟩, C109_wall ext.normal he.mean (l.region i) (hl.good i) rfl x y j hc hx hy hball
        hj hother]
      exact ⟨_, rfl, fun _ => rfl⟩
    · rw [if_neg (fun h => hlt h.2)]
      exact ⟨_, rfl, fun h => absurd h hlt⟩
  obtain ⟨nrm, hn, hnv⟩ := hnrm
  have hside : 0 < ⟪x - l.centers i, l.centers j - l.centers i⟫ := by
    obtain ⟨q, -, hray, -⟩ := hy
    have h5 := sameRay_iff_norm_smul_eq.mp hray
    have h6 : ‖y - l.centers j‖ ^ 2 = ‖y - l.centers i‖ ^ 2
        - 2 * ⟪y - l.centers i, l.centers j - l.centers i⟫ + ‖l.centers j - l.centers i‖ ^ 2 := by
      rw [← norm_sub_sq_real]
      congr 2
      abel
    have h7 : ‖y - l.centers j‖ ^ 2 < ‖y - l.centers i‖ ^ 2 :=
      pow_lt_pow_left₀ hj (norm_nonneg _) (by norm_num)
    have h8 : 0 < ⟪y - l.centers i, l.centers j - l.centers i⟫ := by
      nlinarith [sq_nonneg ‖l.centers j - l.centers i‖]
    have h9 := congrArg (fun v => ⟪v, l.centers j - l.centers i⟫) h5
    simp only [real_inner_smul_left] at h9
    have h10 : 0 < ‖x - l.centers i‖ := norm_pos_iff.mpr (sub_ne_zero.mpr hc)
    have h11 : 0 < ‖y - l.centers i‖ := (norm_nonneg _).trans_lt hj
    by_contra h12
    have := mul_nonpos_of_nonneg_of_nonpos h11.le (not_lt.mp h12)
    have := mul_pos h10 h8
    linarith
  set o := Learner.asObstacle (l.region i) g nrm with ho
  set env : Rotational.Environment d := ⟨[o], none, none⟩ with henv
  have hav : (Rotational.avoid ext.rot Rotational.create x (some p.1)
      (some env) (some p.2) false (some (Real.pi * w i))).2 = .ok p.1 := by
    by_cases hlt : g < 1e6
    rotate_left
    · refine (Rotational.C93_fallback ext.rot Rotational.create x p.1 _ _ _ _ ?_).1
      intro o' ho'
      rw [List.mem_singleton] at ho'
      rw [ho']
      rintro (⟨-, h⟩ | ⟨h, -⟩)
      · exact hlt h
      · cases h
    by_cases hp1 : p.1 = 0
    · rw [hp1]
      unfold Rotational.avoid Rotational.avoid.run Rotational.avoidBody
      simp only [he.rest, sub_zero, norm_zero, if_true, zero_add, add_zero]
      split_ifs <;> rfl
    set s := Rotational.updated (Rotational.create : Rotational.Avoider d) env (some (Real.pi * w i)) with hs
    have hsR : s.convergenceRadius = Real.pi * w i := rfl
    have hug : Rotational.usedGamma x o = g := by
      unfold Rotational.usedGamma
      rw [if_neg]
      · rfl
      · intro h; exact absurd h.2 (by rw [ho]; simp [Learner.asObstacle, Learner.region])
    have hclose : CloseTo s.cutOffGamma x o := Or.inl ⟨hg1.le, hlt⟩
    have hfr : Rotational.alignedFrame o x
        = (-unit (l.centers i - x), ⟨unit (l.centers i - l.centers j), true⟩) := by
      have hr : (l.region i).referenceDirection x true = unit (l.centers i - x) := by
        unfold Obs.referenceDirection unit
        simp only [if_true]
        rw [if_neg]
        · rfl
        · exact norm_ne_zero_iff.mpr hcx
      have hf : Rotational.obstacleFrame o x
          = (-unit (l.centers i - x), ⟨unit (l.centers i - l.centers j), false⟩) := by
        rw [ho, hnv hlt]
        unfold Rotational.obstacleFrame Learner.asObstacle
        simp only [hr, neg_one_smul]
        rfl
      unfold Rotational.alignedFrame
      simp only [hf]
      rw [if_pos]
      · simp
      · unfold Rotational.NullBase.first
        simp only [Bool.false_eq_true, if_false, one_smul, unit_norm hcj, div_one]
        rw [inner_neg_left, neg_lt_zero]
        unfold unit
        rw [real_inner_smul_left, real_inner_smul_right, ← neg_sub x, ← neg_sub (l.centers j),
          inner_neg_neg, norm_neg, norm_neg]
        have h5 : 0 < ‖x - l.centers i‖ := norm_pos_iff.mpr (sub_ne_zero.mpr hc)
        have h6 : 0 < ‖l.centers j - l.centers i‖ := by
          rw [norm_sub_rev]; exact norm_pos_iff.mpr hcj
        positivity
    have hfirst : (⟨unit (l.centers i - l.centers j), true⟩ : Rotational.NullBase d).first
        = unit (l.centers j - l.centers i) := by
      unfold Rotational.NullBase.first
      simp only [if_true, unit_norm hcj, div_one, one_smul, neg_one_smul]
      exact neg_unit _ _
    have hangle : ∀ v : Vec d, v ≠ 0 →
        ‖ext.rot.toAngle ⟨unit (l.centers i - l.centers j), true⟩ v‖
          = InnerProductGeometry.angle (l.centers j - l.centers i) v := by
      intro v hv
      rw [he.angles.toAngle_norm _ v (unit_ne_zero hcj) hv, hfirst]
      unfold unit
      rw [InnerProductGeometry.angle_smul_left_of_pos _ _ (by
        rw [norm_sub_rev]; exact one_div_pos.mpr (norm_pos_iff.mpr hcj))]
    have hsum : Rotational.convergenceSumming ext.rot s p.2 (-unit (l.centers i - x))
        ⟨unit (l.centers i - l.centers j), true⟩ g p.1 s.convergenceRadius = .ok p.1 := by
      unfold Rotational.convergenceSumming Rotational.continuationWeight getSmoothContinuationWeight
      have hg0 : g ≠ 0 := by linarith
      have hw1 : 0 < 1 / g := by positivity
      have hw2 : 1 / g < 1 := by rw [div_lt_one (by linarith)]; exact hg1
      have href : ‖ext.rot.toAngle ⟨unit (l.centers i - l.centers j), true⟩ (-unit (l.centers i - x))‖
          < s.convergenceRadius := by
        rw [neg_unit, hangle _ (unit_ne_zero (sub_ne_zero.mpr hc)), hsR]
        unfold unit
        rw [InnerProductGeometry.angle_smul_right_of_pos _ _
          (one_div_pos.mpr (norm_pos_iff.mpr (sub_ne_zero.mpr hc)))]
        exact hpos
      have hrad : min (s.convergenceRadius
          - ‖ext.rot.toAngle ⟨unit (l.centers i - l.centers j), true⟩ p.2‖) (Real.pi * 0.5) < 0 := by
        refine lt_of_le_of_lt (min_le_left _ _) ?_
        rw [hangle _ hp0, hsR]
        linarith
      simp only [if_neg hg0, if_neg (not_le.mpr hw1), if_neg (not_le.mpr hw2), ge_iff_le,
        if_neg (not_le.mpr href)]
      rw [if_neg hrad.ne, if_pos (div_nonpos_of_nonneg_of_nonpos (norm_nonneg _) hrad.le)]
      simp only [bind, Except.bind, le_refl, if_true]
    have hbody := Rotational.avoid_single_free (ext := ext.rot) (s := s) (o := o) (x := x)
      (dir := p.1) hclose (he.rest _ _) hp1 hp0 (by rw [hfr, hug]; exact hsum)
    change Rotational.avoidBody ext.rot s env x _ _ false s.convergenceRadius = _
    rw [hbody]
    unfold Rotational.finishAvoid
    simp only [Bool.false_eq_true, if_false, List.map_cons, List.map_nil, hug, weights_single he.angles]
    have hmean : ext.rot.mean ((1 / ‖p.1‖) • p.1) [1] [p.1] = unit p.1 := by
      have := he.angles.mean_one (unit p.1) [] [] [] p.1 []
        (unit_norm hp1) hp1 (by
          rintro ⟨c, hc0, hc1⟩
          unfold unit at hc1
          have h6 : 0 < ‖p.1‖ := norm_pos_iff.mpr hp1
          have h7 := congrArg (fun v => ⟪v, p.1⟫) hc1
          simp only [real_inner_smul_left, real_inner_self_eq_norm_sq] at h7
          have h8 : 0 < c * (1 / ‖p.1‖ * ‖p.1‖ ^ 2) := by positivity
          nlinarith [sq_nonneg ‖p.1‖]) rfl rfl
        ⟨by intro y hy; simp at hy; rw [hy]; norm_num, by simp⟩
      simp only [List.nil_append] at this
      exact this
    change (do
      let v ← computeSafeMagnitude (ext.rot.mean ((1 / ‖p.1‖) • p.1) [1] [p.1]) ‖p.1‖ _ g
      _) = _
    rw [hmean]
    obtain ⟨a, a1, a2⟩ := Rotational.safeMagnitude_pos (v := unit p.1) (n := (List.zipWith
      (fun (n : Vec d) (w : ℝ) => w • n) [Rotational.unitNormal x ((o, g), 0)] [1]).sum) (m := ‖p.1‖) (g := g)
      (unit_norm hp1) (by simpa using Rotational.unitNormal_le x ((o, g), 0)) (norm_pos_iff.mpr hp1) hg1
    rw [a2]
    simp only [bind, Except.bind, add_zero, norm_smul, unit_norm hp1, mul_one, Real.norm_of_nonneg a1.le]
    rw [if_neg a1.ne', smul_smul, div_mul_cancel₀ _ a1.ne']
    congr 1
    unfold unit
    rw [smul_smul, mul_one_div_cancel (norm_ne_zero_iff.mpr hp1), one_smul]
  unfold Learner.predict
  rw [hlab]
  simp only [hg2, bind, Except.bind]
  rw [if_neg (not_lt.mpr hg1.le), hw]
  simp only [hp, hn]
  rw [hav]
  simp only
  rw [if_neg (by rw [w2]; exact lt_irrefl _)]

end Verif.KMeans
