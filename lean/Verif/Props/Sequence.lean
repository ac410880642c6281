import Verif.Lemmas.Sequence
import Verif.Spec.Path
import Verif.Props.Rotation

/-!
# Property theorems C10 – C16: rotation sequences

Model: `Verif.Model.Sequence` (vector_rotation.py:182-375, sequenced_dynamics.py).
-/

open scoped RealInnerProductSpace
open Verif.Spec

namespace Verif

section Coordinates
variable {d : ℕ} [h2 : Fact (2 ≤ d)]

/-! ## C10 -/

/-- C10: exactly the lists whose vectors are all longer than `1e-8` and have no
exactly opposite neighbours are accepted. -/
theorem C10_accepts_iff (vs : List (Vec d)) :
    (∃ s, createFromVectorArray vs = .ok s) ↔
      (∀ v ∈ vs, 1e-8 < ‖v‖)
      ∧ ∀ (i : ℕ) (h : i + 1 < vs.length), ¬ Opposite (vs[i]) (vs[i + 1]) := by
  have hclose : ∀ v : Vec d, ¬ isclose ‖v‖ 0 ↔ 1e-8 < ‖v‖ := fun v => by
    rw [isclose_zero (norm_nonneg _), not_le]
  constructor
  · rintro ⟨s, hs⟩
    obtain ⟨h0, h1, _⟩ := createFromVectorArray_ok hs
    refine ⟨fun v hv => (hclose v).mp (h0 v hv), fun i hi ho => ?_⟩
    have hv0 : vs[i] ≠ 0 := ne_zero_of_norm_gt (h0 _ (List.getElem_mem _))
    have hv1 : vs[i + 1] ≠ 0 := ne_zero_of_norm_gt (h0 _ (List.getElem_mem _))
    rw [opposite_iff_inner hv0 hv1, real_inner_comm] at ho
    refine h1 (unit vs[i], unit vs[i + 1]) ?_ ho
    have hi' : i < ((vs.map unit).zip (vs.map unit).tail).length := by simp; omega
    have he : ((vs.map unit).zip (vs.map unit).tail)[i] = (unit vs[i], unit vs[i + 1]) := by
      simp
    rw [← he]; exact List.getElem_mem _
  · rintro ⟨h0, h1⟩
    have h0' : ∀ v ∈ vs, ¬ isclose ‖v‖ 0 := fun v hv => (hclose v).mpr (h0 v hv)
    apply createFromVectorArray_good h0'
    intro p hp hip
    obtain ⟨i, hi, rfl⟩ := List.getElem_of_mem hp
    have hi1 : i + 1 < vs.length := by simp at hi; omega
    have he : ((vs.map unit).zip (vs.map unit).tail)[i] = (unit vs[i], unit vs[i + 1]) := by
      simp
    rw [he] at hip
    have hv0 : vs[i] ≠ 0 := ne_zero_of_norm_gt (h0' _ (List.getElem_mem _))
    have hv1 : vs[i + 1] ≠ 0 := ne_zero_of_norm_gt (h0' _ (List.getElem_mem _))
    apply h1 i hi1
    rw [opposite_iff_inner hv0 hv1, real_inner_comm]; exact hip

/-- C10: every other input raises `ValueError` (and never returns `nan`). -/
theorem C10_rejects (vs : List (Vec d)) (e : PyErr) (h : createFromVectorArray vs = .error e) :
    e = .valueError := by
  by_contra hne
  classical
  have hh := h
  rw [createFromVectorArray_eq] at h
  split_ifs at h with h3 h4
  · injection h with h; exact hne h.symm
  · injection h with h; exact hne h.symm
  · obtain ⟨s, hs⟩ := createFromVectorArray_good (vs := vs)
      (fun v hv hc => h3 ⟨v, hv, hc⟩) (fun p hp hc => h4 ⟨p, hp, hc⟩)
    rw [hs] at hh; cases hh

/-- C10: the returned sequence has one rotation per neighbouring pair; the `i`-th one
has an orthonormal base, starts at the `i`-th direction and has an angle in `[0, π)`,
which is the angle between the neighbours unless they are within tolerance. -/
theorem C10_rotations (vs : List (Vec d)) (s : RotSeq (Vec d))
    (h : createFromVectorArray vs = .ok s) :
    s.length = vs.length - 1 ∧ ∀ (i : ℕ) (hi : i < s.length) (hi1 : i + 1 < vs.length),
      OrthonormalPair (s[i]).base.b0 (s[i]).base.b1
      ∧ (s[i]).getFirstVector = unit (vs[i])
      ∧ 0 ≤ (s[i]).angle ∧ (s[i]).angle < Real.pi
      ∧ (¬ allclose (unit vs[i]) (unit vs[i + 1]) →
          (s[i]).angle = InnerProductGeometry.angle vs[i] vs[i + 1]) := by
  obtain ⟨h1, h2⟩ := createFromVectorArray_entry h
  refine ⟨h1, fun i hi hi1 => ?_⟩
  obtain ⟨a1, a2, a3, a4, a5, a6⟩ := h2 i hi (by omega) hi1
  exact ⟨a1, a2, a3, a4, fun hc => (a6 hc).1⟩

lemma created_allON {vs : List (Vec d)} {s : RotSeq (Vec d)}
    (h : createFromVectorArray vs = .ok s) : AllON s := by
  obtain ⟨h1, h2⟩ := createFromVectorArray_entry h
  intro r hr
  obtain ⟨i, hi, rfl⟩ := List.getElem_of_mem hr
  exact (h2 i hi (by omega) (by omega)).1

/-! ## C11 -/

/-- C11: the `i`-th rotation of a sequence ends at the direction of vector `i+1`. -/
theorem C11_step_ends_at_next (vs : List (Vec d)) (s : RotSeq (Vec d))
    (h : createFromVectorArray vs = .ok s) (hd : Distinguishable vs)
    (i : ℕ) (hi : i < s.length) (hi1 : i + 1 < vs.length) :
    (s[i]).getSecondVector = unit (vs[i + 1]) := by
  obtain ⟨a1, a2, _, _, a5, a6⟩ := (createFromVectorArray_entry h).2 i hi (by omega) hi1
  rw [Rot.getSecondVector, rotateDirection_eq, planeRot_b0 a1]
  by_cases hc : allclose (unit vs[i]) (unit vs[i + 1])
  · have hdi := List.isChain_iff_getElem.mp hd i hi1
    have : unit vs[i] = unit vs[i + 1] := by
      rcases hdi with he | he
      · exact he
      · exact absurd hc he
    rw [a5 hc, a2, this]; simp
  · exact (a6 hc).2

/-- C11: sequences built from vectors are connected. -/
theorem C11_connected (vs : List (Vec d)) (s : RotSeq (Vec d))
    (h : createFromVectorArray vs = .ok s) (hd : Distinguishable vs) : Connected s := by
  have hl := (createFromVectorArray_entry h).1
  refine List.isChain_iff_getElem.mpr (fun i hi => ?_)
  rw [C11_step_ends_at_next vs s h hd i (by omega) (by omega)]
  exact (((createFromVectorArray_entry h).2 (i + 1) hi (by omega) (by omega)).2.1).symm

/-- C11: `get_end_vector` of a sequence built from `v0 … vn` is the direction of
`vn`. -/
theorem C11_end_vector (vs : List (Vec d)) (s : RotSeq (Vec d))
    (h : createFromVectorArray vs = .ok s) (hd : Distinguishable vs) (n : ℕ)
    (hn : vs.length = n + 2) :
    s.getEndVector = .ok (unit (vs[n + 1])) := by
  have hl := (createFromVectorArray_entry h).1
  have hlast : s.getLast? = some (s[n]'(by omega)) := by
    rw [List.getLast?_eq_getElem?]
    rw [List.getElem?_eq_getElem (by omega)]
    congr 2; omega
  rw [RotSeq.getEndVector, hlast]
  have := C11_step_ends_at_next vs s h hd n (by omega) (by omega)
  rw [Rot.getSecondVector] at this
  simp only [Rot.rotate, one_mul, this]

/-- C12 (one-hot weights), also used for C11: weight one on entry `k` sends the first
direction to the direction of vector `k+1`. -/
theorem C12_one_hot (vs : List (Vec d)) (s : RotSeq (Vec d))
    (h : createFromVectorArray vs = .ok s) (hd : Distinguishable vs) (k m : ℕ)
    (hn : vs.length = k + 1 + m + 1) :
    s.rotateWeighted (unit vs[0]) (List.replicate k 0 ++ 1 :: List.replicate m 0)
      = .ok (unit (vs[k + 1])) := by
  have hl := (createFromVectorArray_entry h).1
  rw [rotateWeighted_eq (created_allON h) _ _ (by simp; omega) (by simp), cumulated_onehot,
    pureRotate_ones s k m 1 (by omega) (C11_connected vs s h hd)]
  · congr 1
    rw [← C11_step_ends_at_next vs s h hd k (by omega) (by omega), Rot.rotate, one_mul]; rfl
  · intro r hr
    have h0 : s.head? = some (s[0]'(by omega)) := by
      rw [List.head?_eq_getElem?, List.getElem?_eq_getElem]
    rw [h0] at hr
    have := Option.some.inj hr
    rw [← this]
    exact ((createFromVectorArray_entry h).2 0 (by omega) (by omega) (by omega)).2.1.symm

lemma pureRotate_smul {V : Type*} [NormedAddCommGroup V] [InnerProductSpace ℝ V]
    (s : RotSeq V) (cs : List ℝ) (k : ℝ) (v : V) :
    pureRotate s (k • v) cs = k • pureRotate s v cs := rotateAlong_smul _ _ _

/-- C11: `rotate(v0)` is `|v0|` times the direction of the last vector. -/
theorem C11_rotate_first (vs : List (Vec d)) (s : RotSeq (Vec d))
    (h : createFromVectorArray vs = .ok s) (hd : Distinguishable vs) (n : ℕ)
    (hn : vs.length = n + 2) :
    s.rotate vs[0] = .ok (‖vs[0]‖ • unit (vs[n + 1])) := by
  have hl := (createFromVectorArray_entry h).1
  have hs : s.length = n + 1 := by omega
  have h1 := C12_one_hot vs s h hd n 0 (by omega)
  rw [rotateWeighted_eq (created_allON h) _ _ (by simp; omega) (by simp)] at h1
  simp only [List.replicate_zero] at h1
  unfold RotSeq.rotate
  rw [hs]
  simp only
  rw [rotateWeighted_eq (created_allON h) _ _ (by simp; omega) (by simp)]
  conv_lhs => rw [← norm_smul_unit vs[0]]
  rw [pureRotate_smul]
  have := Except.ok.inj h1
  rw [this]

/-- C10 – C12 are not vacuous: a three-vector list with different lengths. -/
example : ∃ s, createFromVectorArray [e3 0, (2 : ℝ) • e3 1, e3 2] = .ok s
    ∧ Distinguishable [e3 0, (2 : ℝ) • e3 1, e3 2] := by
  have hn : ‖(2 : ℝ) • e3 1‖ = 2 := by simp [e3, norm_smul]
  have hu : (1 / ‖(2 : ℝ) • e3 1‖) • (2 : ℝ) • e3 1 = e3 1 := by rw [hn, smul_smul]; norm_num
  have hu1 : ∀ i, (1 / ‖e3 i‖) • e3 i = e3 i := e3_unit
  have hne : (2 : ℝ) • e3 1 ≠ 0 := smul_ne_zero (by norm_num) (e3_ne_zero _)
  obtain ⟨s, hs⟩ := (C10_accepts_iff [e3 0, (2 : ℝ) • e3 1, e3 2]).mpr (by
    constructor
    · intro v hv
      simp only [List.mem_cons, List.not_mem_nil, or_false] at hv
      rcases hv with rfl | rfl | rfl
      · simp [e3]; norm_num
      · rw [hn]; norm_num
      · simp [e3]; norm_num
    · intro i hi
      have h3 : i < 2 := by simp at hi; omega
      interval_cases i
      · simp only [List.getElem_cons_zero, List.getElem_cons_succ]
        rw [opposite_iff_inner (e3_ne_zero _) hne, unit, unit, hu, hu1, (e3_on (by decide)).orth]
        norm_num
      · simp only [List.getElem_cons_zero, List.getElem_cons_succ]
        rw [opposite_iff_inner hne (e3_ne_zero _), unit, unit, hu, hu1, (e3_on (by decide)).orth]
        norm_num)
  refine ⟨s, hs, ?_⟩
  unfold Distinguishable
  simp only [List.isChain_cons_cons, List.isChain_singleton, and_true]
  rw [hu, hu1, hu1]
  exact ⟨Or.inr (e3_not_allclose (by decide)), Or.inr (e3_not_allclose (by decide))⟩

end Coordinates

/-! ## C12, C13 -/

section Generic
variable {V : Type*} [NormedAddCommGroup V] [InnerProductSpace ℝ V]

/-- C12: for every weight list of the right length `rotate_weighted` is defined and
keeps lengths and dot products. -/
theorem C12_isometry (s : RotSeq V)
    (hs : ∀ r ∈ s, OrthonormalPair r.base.b0 r.base.b1) (ws : List ℝ)
    (hl : s.length = ws.length) (hne : ws ≠ []) :
    ∃ f : V → V, (∀ v, s.rotateWeighted v ws = .ok (f v))
      ∧ (∀ v w, ⟪f v, f w⟫ = ⟪v, w⟫) ∧ (∀ v, ‖f v‖ = ‖v‖) := by
  refine ⟨fun v => pureRotate s v (cumulated ws), fun v => rotateWeighted_eq hs v ws hl hne,
    fun v w => pureRotate_inner hs _ v w, fun v => ?_⟩
  have := pureRotate_inner hs (cumulated ws) v v
  rw [real_inner_self_eq_norm_sq, real_inner_self_eq_norm_sq] at this
  exact (sq_eq_sq₀ (norm_nonneg _) (norm_nonneg _)).mp this

/-- C12: with all weights zero the input is returned. -/
theorem C12_zero_weights (s : RotSeq V)
    (hs : ∀ r ∈ s, OrthonormalPair r.base.b0 r.base.b1) (hne : s ≠ []) (v : V) :
    s.rotateWeighted v (List.replicate s.length 0) = .ok v := by
  have : s.length ≠ 0 := by simpa using hne
  rw [rotateWeighted_eq hs v _ (by simp) (by simpa using this), cumulated_zero,
    pureRotate_zero s _ (fun c hc => List.eq_of_mem_replicate hc)]

/-- C12: wrong numbers of weights never return silently for sequences of at least three
rotations. -/
theorem C12_wrong_length (s : RotSeq V) (ws : List ℝ) (v : V) (h3 : 3 ≤ s.length)
    (hl : s.length ≠ ws.length) :
    s.rotateWeighted v ws = .error .indexError ∨ s.rotateWeighted v ws = .error .valueError := by
  unfold RotSeq.rotateWeighted
  have hlen := cumulated_length ws
  cases hc : cumulated ws with
  | nil => left; rfl
  | cons c0 cs =>
    rw [hc] at hlen
    simp only [List.length_cons] at hlen
    simp only
    rw [if_neg (by omega), if_neg (by omega)]
    by_cases h0 : cs.length = 0
    · rw [if_pos h0]
      left
      split <;> first | omega | rfl
    · rw [if_neg h0]; right; rfl

/-- C13 (partial): if the weights are concentrated on two neighbours `k`, `k+1`, with
shares `1 - c` and `c`, the first vector is moved along the path: it ends on the
`(k+1)`-th rotation, at the fraction `c`.

Missing for the full C13: general weight lists, for which the property fails, see
`C13_not_connected`. -/
theorem C13_neighbouring_weights_partial (s : RotSeq V)
    (hs : ∀ r ∈ s, OrthonormalPair r.base.b0 r.base.b1) (hc : Connected s) (k m : ℕ)
    (hl : s.length = k + 1 + 1 + m) (c : ℝ) :
    s.rotateWeighted (s[0]'(by omega)).getFirstVector
        (List.replicate k 0 ++ (1 - c) :: c :: List.replicate m 0)
      = .ok ((s[k + 1]'(by omega)).rotate (s[k + 1]'(by omega)).getFirstVector c) := by
  rw [rotateWeighted_eq hs _ _ (by simp; omega) (by simp), cumulated_pair,
    pureRotate_ones s (k + 1) m c (by omega) hc]
  · rfl
  · intro r hr
    rw [List.head?_eq_getElem?, List.getElem?_eq_getElem (by omega)] at hr
    rw [← Option.some.inj hr]; rfl

lemma carriedPartial_ON (l : List (Rot V × ℝ)) (h : ∀ p ∈ l, p.1.base.ON) :
    ∀ r ∈ carriedPartial l, r.base.ON := by
  induction l with
  | nil => simp [carriedPartial]
  | cons p l ih =>
    intro r hr
    simp only [carriedPartial, List.mem_cons, List.mem_map] at hr
    have hp := h p List.mem_cons_self
    rcases hr with rfl | ⟨q, hq, rfl⟩
    · exact hp
    · have := ih (fun q hq => h q (List.mem_cons_of_mem _ hq)) q hq
      simp only [rotateDirection_eq]
      exact hp.planeRot this _

/-- C13: the specification `carriedPartial` is what the English property asks for: for
every connected sequence and all fractions the partial rotations are connected. -/
theorem C13_spec_connected (s : RotSeq V)
    (hs : ∀ r ∈ s, OrthonormalPair r.base.b0 r.base.b1) (hc : Connected s) (cs : List ℝ) :
    Connected (carriedPartial (s.zip cs)) := by
  induction s generalizing cs with
  | nil => simp [carriedPartial, Connected]
  | cons r s ih =>
    cases cs with
    | nil => simp [carriedPartial, Connected]
    | cons c cs =>
      have hr : r.base.ON := hs r List.mem_cons_self
      have hs' : ∀ r ∈ s, OrthonormalPair r.base.b0 r.base.b1 :=
        fun q hq => hs q (List.mem_cons_of_mem _ hq)
      have ih' := ih hs' (List.IsChain.of_cons hc) cs
      have hON := carriedPartial_ON (s.zip cs) (AllON.zip hs' cs)
      have conj : ∀ q : Rot V, q.base.ON →
          Rot.getSecondVector ⟨⟨rotateDirection q.base.b0 r.base ((c - 1) * r.angle),
            rotateDirection q.base.b1 r.base ((c - 1) * r.angle)⟩, q.angle⟩
          = rotateDirection q.getSecondVector r.base ((c - 1) * r.angle) := by
        intro q hq
        have h2 := hr.planeRot hq ((c - 1) * r.angle)
        simp only [Rot.getSecondVector, rotateDirection_eq]
        have e1 := planeRot_b0 h2 q.angle
        simp only [Base.map] at e1
        rw [e1, planeRot_b0 hq, planeRot_add_vec, planeRot_smul, planeRot_smul]
      simp only [List.zip_cons_cons, carriedPartial, Connected]
      rw [List.isChain_cons]
      constructor
      · intro q' hq'
        cases s with
        | nil => simp [carriedPartial] at hq'
        | cons q s =>
          cases cs with
          | nil => simp [carriedPartial] at hq'
          | cons c' cs =>
            simp only [List.zip_cons_cons, carriedPartial, List.map_cons, List.head?_cons,
              Option.mem_def, Option.some.injEq] at hq'
            subst hq'
            have h3 := (List.isChain_cons_cons.mp hc).1
            simp only [Rot.getFirstVector] at h3 ⊢
            rw [← h3]
            simp only [Rot.getSecondVector, rotateDirection_eq]
            rw [planeRot_planeRot hr]
            congr 1; ring
      · rw [List.isChain_map]
        have h4 : ∀ a ∈ carriedPartial (s.zip cs), ∀ b ∈ carriedPartial (s.zip cs),
            a.getSecondVector = b.getFirstVector → _ := fun a ha b hb hab => by
          have : Rot.getSecondVector ⟨⟨rotateDirection a.base.b0 r.base ((c - 1) * r.angle),
            rotateDirection a.base.b1 r.base ((c - 1) * r.angle)⟩, a.angle⟩
            = Rot.getFirstVector ⟨⟨rotateDirection b.base.b0 r.base ((c - 1) * r.angle),
            rotateDirection b.base.b1 r.base ((c - 1) * r.angle)⟩, b.angle⟩ := by
            rw [conj a (hON a ha), hab]; rfl
          exact this
        exact List.IsChain.imp_of_mem_imp (fun a b ha hb hab => h4 a ha b hb hab) ih'

end Generic

/-- C13 fails in general: for the connected sequence `e0 → e1 → e2` and the weights
`(0, 1/2)` the code returns `(e0 + e1)/√2` instead of `(e0 + e1)/2 + e2/√2`; the
second rotation, of weight one half, has no effect at all.  (Line 365 rotates the
upper bases by `+angle*(1-c)` instead of `-angle*(1-c)`.) -/
theorem C13_not_connected :
    ∃ (s : RotSeq (Vec 3)) (ws : List ℝ) (v out : Vec 3),
      (∀ r ∈ s, OrthonormalPair r.base.b0 r.base.b1) ∧ Connected s ∧ s.length = ws.length
      ∧ s.head?.map Rot.getFirstVector = some v
      ∧ s.rotateWeighted v ws = .ok out
      ∧ out ≠ applyAll v (carriedPartial (s.zip (cumulated ws)))
      ∧ ⟪e3 2, out⟫ = 0 ∧ ⟪e3 2, applyAll v (carriedPartial (s.zip (cumulated ws)))⟫ ≠ 0 := by
  let r0 : Rot (Vec 3) := ⟨⟨e3 0, e3 1⟩, Real.pi / 2⟩
  let r1 : Rot (Vec 3) := ⟨⟨e3 1, e3 2⟩, Real.pi / 2⟩
  have h0 : r0.base.ON := e3_on (by decide)
  have h1 : r1.base.ON := e3_on (by decide)
  have hs : ∀ r ∈ [r0, r1], OrthonormalPair r.base.b0 r.base.b1 := by
    intro r hr
    simp only [List.mem_cons, List.not_mem_nil, or_false] at hr
    rcases hr with rfl | rfl
    · exact h0
    · exact h1
  have hcum : cumulated [0, 1 / 2] = [1 / 2, 1 / 2] := by simp [cumulated]
  have ip : ∀ i j : Fin 3, ⟪e3 i, e3 j⟫ = if i = j then (1 : ℝ) else 0 := by
    intro i j
    by_cases hij : i = j
    · subst hij; simp [e3]
    · rw [(e3_on hij).orth, if_neg hij]
  have hq : Real.pi / 2 * (1 - 1 / 2) = Real.pi / 4 := by ring
  have hq1 : Real.pi / 2 * (1 / 2) = Real.pi / 4 := by ring
  have hq2 : (1 / 2 - 1) * (Real.pi / 2) = - (Real.pi / 4) := by ring
  have hq3 : 1 * (1 / 2 * (Real.pi / 2)) = Real.pi / 4 := by ring
  have hsq : Real.sqrt 2 * Real.sqrt 2 = 2 := Real.mul_self_sqrt (by norm_num)
  have hout : pureRotate [r0, r1] (e3 0) [1 / 2, 1 / 2]
      = (Real.sqrt 2 / 2) • e3 0 + (Real.sqrt 2 / 2) • e3 1 := by
    simp only [pureRotate, List.zip_cons_cons, List.zip_nil_right, pureBases, List.map_nil,
      List.map_cons, List.zipWith_cons_cons, List.zipWith_nil_right, rotateAlong,
      rotateDirection_eq, Base.map, r0, r1, planeRot, hq, hq1, Real.cos_pi_div_four,
      Real.sin_pi_div_four, inner_add_right, inner_add_left, inner_smul_left, inner_smul_right, ip,
      RCLike.conj_to_real]
    simp
    module
  have hspec : applyAll (e3 0) (carriedPartial ([r0, r1].zip [1 / 2, 1 / 2]))
      = (1 / 2 : ℝ) • e3 0 + (1 / 2 : ℝ) • e3 1 + (Real.sqrt 2 / 2) • e3 2 := by
    simp only [List.zip_cons_cons, List.zip_nil_right, carriedPartial, List.map_nil,
      List.map_cons, applyAll, Rot.rotate,
      rotateDirection_eq, r0, r1, planeRot, hq2, hq3, Real.cos_pi_div_four,
      Real.sin_pi_div_four, Real.cos_neg, Real.sin_neg,
      inner_add_right, inner_add_left, inner_smul_left, inner_smul_right, ip,
      RCLike.conj_to_real]
    simp
    match_scalars
    · linear_combination (Real.sqrt 2 ^ 2 / 8 - Real.sqrt 2 / 4 + 1 / 4) * hsq
    · linear_combination (Real.sqrt 2 ^ 2 / 8 - Real.sqrt 2 / 4 + 1 / 4) * hsq
    · linear_combination (Real.sqrt 2 / 4) * hsq
  refine ⟨[r0, r1], [0, 1 / 2], e3 0, _, hs, ?_, rfl, rfl,
    rotateWeighted_eq hs _ _ rfl (by simp), ?_, ?_, ?_⟩
  · simp only [Connected, List.isChain_cons_cons, List.isChain_singleton, and_true]
    simp only [Rot.getSecondVector, rotateDirection_eq, planeRot_b0 h0, Rot.getFirstVector]
    simp [r0, r1]
  · rw [hcum, hout, hspec]
    intro h
    have := congrArg (fun v => ⟪e3 2, v⟫) h
    simp [inner_add_right, inner_smul_right, ip] at this
    exact e3_ne_zero 2 this
  · rw [hcum, hout]
    simp [inner_add_right, inner_smul_right, ip]
  · rw [hcum, hspec]
    simp [inner_add_right, inner_smul_right, ip]
    exact e3_ne_zero 2

/-- The hypotheses of `C12_isometry` and `C13_neighbouring_weights_partial` are met by a
connected sequence of two rotations by a right angle. -/
example : ∃ s : RotSeq (Vec 3), (∀ r ∈ s, OrthonormalPair r.base.b0 r.base.b1) ∧ Connected s
    ∧ s.length = 0 + 1 + 1 + 0 := by
  refine ⟨[⟨⟨e3 0, e3 1⟩, Real.pi / 2⟩, ⟨⟨e3 1, e3 2⟩, Real.pi / 2⟩], ?_, ?_, rfl⟩
  · intro r hr
    simp only [List.mem_cons, List.not_mem_nil, or_false] at hr
    rcases hr with rfl | rfl
    · exact e3_on (by decide)
    · exact e3_on (by decide)
  · simp only [Connected, List.isChain_cons_cons, List.isChain_singleton, and_true]
    simp only [Rot.getSecondVector, rotateDirection_eq, Rot.getFirstVector]
    have := planeRot_b0 (B := ⟨e3 0, e3 1⟩) (e3_on (by decide)) (Real.pi / 2)
    simp only [Real.cos_pi_div_two, Real.sin_pi_div_two, zero_smul, one_smul, zero_add] at this
    exact this

/-! ## C14 -/

/-- The operations that change a sequence in place. -/
inductive SeqOp (V : Type*) where
  | append (b : Base V) (angle : ℝ)
  | push (b : Base V) (angle : ℝ)

/-- Effect of one operation. -/
def SeqOp.run {V : Type*} [NormedAddCommGroup V] [InnerProductSpace ℝ V] (s : RotSeq V) :
    SeqOp V → RotSeq V
  | .append b a => s.appendFromBaseAndAngle b a
  | .push b a => s.pushRootFromBaseAndAngle b a

/-- The rotations appended by a history, in order. -/
def SeqOp.appended {V : Type*} (ops : List (SeqOp V)) : List (Rot V) :=
  ops.filterMap fun | .append b a => some ⟨b, a⟩ | .push _ _ => none

/-- The rotations pushed by a history, in order. -/
def SeqOp.pushed {V : Type*} (ops : List (SeqOp V)) : List (Rot V) :=
  ops.filterMap fun | .push b a => some ⟨b, a⟩ | .append _ _ => none

/-- C14: after any history of append and push operations the sequence consists of the
pushed rotations (last pushed first), the original rotations, and the appended
rotations in order. -/
theorem C14_history {V : Type*} [NormedAddCommGroup V] [InnerProductSpace ℝ V]
    (s : RotSeq V) (ops : List (SeqOp V)) :
    ops.foldl SeqOp.run s = (SeqOp.pushed ops).reverse ++ s ++ SeqOp.appended ops := by
  induction ops generalizing s with
  | nil => simp [SeqOp.pushed, SeqOp.appended]
  | cons op ops ih =>
    rw [List.foldl_cons, ih]
    cases op <;>
      simp [SeqOp.run, SeqOp.pushed, SeqOp.appended, RotSeq.appendFromBaseAndAngle,
        RotSeq.pushRootFromBaseAndAngle]

section Coordinates14
variable {d : ℕ} [h2 : Fact (2 ≤ d)]

/-- C14: `append_from_direction` on a non-empty sequence keeps all rotations and adds
exactly one, after which the sequence ends at the requested direction.  On the empty
sequence it raises `IndexError`. -/
theorem C14_append_from_direction (s : RotSeq (Vec d)) (v : Vec d) :
    (s = [] → s.appendFromDirection v = .error .indexError)
    ∧ ∀ s', s.appendFromDirection v = .ok s' →
        ∃ r q, s.getLast? = some r ∧ s' = s ++ [q]
        ∧ OrthonormalPair q.base.b0 q.base.b1
        ∧ ((¬ allclose (unit r.base.b1) (unit v) ∨ unit r.base.b1 = unit v) →
            s'.getEndVector = .ok (unit v)) := by
  constructor
  · rintro rfl; rfl
  · intro s' h
    unfold RotSeq.appendFromDirection at h
    cases hl : s.getLast? with
    | none => rw [hl] at h; cases h
    | some r =>
      rw [hl] at h
      simp only at h
      cases hf : fromDirections r.base.b1 v with
      | none => rw [hf] at h; cases h
      | some q =>
        rw [hf] at h
        have hs' : s' = s ++ [q] := (Except.ok.inj h).symm
        obtain ⟨_, _, hon, h0, _⟩ := fromDirections_some hf
        refine ⟨r, q, rfl, hs', hon, fun hc => ?_⟩
        have := (C06_maps_first_to_second _ _ q hf hc).1
        rw [hs', RotSeq.getEndVector]
        simp [h0, this]

/-- C14 (partial): the appended rotation starts where the sequence ended before *only if*
the last rotation is a right angle.  The full property (for every last angle) fails,
because line 308 starts at the second base vector of the last rotation.

Missing: all other angles of the last rotation, for which the property fails
(`C14_append_from_direction_discontinuous`). -/
theorem C14_append_from_direction_continuous_iff_partial (s s' : RotSeq (Vec d)) (r q : Rot (Vec d))
    (v : Vec d) (hr : s.getLast? = some r) (hon : OrthonormalPair r.base.b0 r.base.b1)
    (ha0 : 0 ≤ r.angle) (ha1 : r.angle ≤ Real.pi)
    (h : s.appendFromDirection v = .ok s') (hq : s' = s ++ [q]) :
    s.getEndVector = .ok q.getFirstVector ↔ r.angle = Real.pi / 2 := by
  unfold RotSeq.appendFromDirection at h
  rw [hr] at h
  simp only at h
  cases hf : fromDirections r.base.b1 v with
  | none => rw [hf] at h; cases h
  | some q' =>
    rw [hf] at h
    have hs' : s' = s ++ [q'] := (Except.ok.inj h).symm
    have hqq : q' = q := by rw [hq] at hs'; simpa using hs'.symm
    subst hqq
    obtain ⟨_, _, _, h0, _⟩ := fromDirections_some hf
    rw [RotSeq.getEndVector, hr]
    simp only [Rot.getFirstVector, h0, unit_of_norm_one hon.norm_snd, Rot.rotate, one_mul,
      rotateDirection_eq, planeRot_b0 hon, Except.ok.injEq]
    constructor
    · intro he
      have hc := congrArg (fun w => ⟪r.base.b0, w⟫) he
      simp only [inner_add_right, inner_smul_right, Base.ON.i00 hon, Base.ON.i01 hon] at hc
      have hc : Real.cos r.angle = 0 := by linarith
      have := Real.arccos_cos ha0 ha1
      rw [hc, Real.arccos_zero] at this
      exact this.symm
    · intro he; rw [he]; simp

end Coordinates14

/-- C14 fails for other angles: for `e0 → (e0+e1)/√2` (45°) the rotation appended for
direction `e2` does not start at the end of the sequence. -/
theorem C14_append_from_direction_discontinuous :
    ∃ (s : RotSeq (Vec 3)) (v : Vec 3) (q : Rot (Vec 3)) (e : Vec 3),
      (∀ r ∈ s, OrthonormalPair r.base.b0 r.base.b1)
      ∧ s.appendFromDirection v = .ok (s ++ [q])
      ∧ s.getEndVector = .ok e ∧ q.getFirstVector ≠ e := by
  have hon : OrthonormalPair (e3 0) (e3 1) := e3_on (by decide)
  let r : Rot (Vec 3) := ⟨⟨e3 0, e3 1⟩, Real.pi / 4⟩
  obtain ⟨q, hq⟩ := (C05_from_directions_defined_iff (d := 3) (by norm_num) (e3 1) (e3 2)).mpr
    ⟨e3_ne_zero _, e3_ne_zero _, e3_not_opposite (by decide)⟩
  have happ : RotSeq.appendFromDirection [r] (e3 2) = .ok ([r] ++ [q]) := by
    simp [RotSeq.appendFromDirection, r, hq, RotSeq.appendFromBaseAndAngle]
  refine ⟨[r], e3 2, q, _, ?_, happ, rfl, fun he => ?_⟩
  · intro x hx; simp at hx; subst hx; exact hon
  · have := (C14_append_from_direction_continuous_iff_partial [r] _ r q (e3 2) rfl hon
      (by simp [r]; positivity) (by simp only [r]; linarith [Real.pi_pos]) happ rfl).mp
      (by rw [he]; rfl)
    simp only [r] at this
    linarith [Real.pi_pos]

/-! ## C15 -/

section Generic15
variable {V : Type*} [NormedAddCommGroup V] [InnerProductSpace ℝ V]

/-- C15: `rotate_sequence` keeps the number of rotations and all angles, rotates every
start and end vector, and hence the end vector of the sequence. -/
theorem C15_rotate_sequence (R : Rot V) (hR : OrthonormalPair R.base.b0 R.base.b1) (s : RotSeq V)
    (hs : ∀ r ∈ s, OrthonormalPair r.base.b0 r.base.b1) (f : ℝ) :
    ∃ s', R.rotateSequence s f = some s'
      ∧ s'.map Rot.angle = s.map Rot.angle
      ∧ (∀ r ∈ s', OrthonormalPair r.base.b0 r.base.b1)
      ∧ s'.map Rot.getFirstVector = s.map (fun r => R.rotate r.getFirstVector f)
      ∧ s'.map Rot.getSecondVector = s.map (fun r => R.rotate r.getSecondVector f)
      ∧ ∀ e, s.getEndVector = .ok e → s'.getEndVector = .ok (R.rotate e f) := by
  let g : Rot V → Rot V := fun r => { r with base := r.base.map (planeRot R.base (R.angle * f)) }
  have hg : R.rotateSequence s f = some (s.map g) := by
    unfold Rot.rotateSequence
    apply mapM_some
    intro r hr
    rw [rotateBase_eq (hs r hr)]; rfl
  have hsec : ∀ r ∈ s, (g r).getSecondVector = R.rotate r.getSecondVector f := by
    intro r hr
    have hr' := hs r hr
    have := Base.ON.planeRot hR hr' (R.angle * f)
    simp only [Rot.getSecondVector, Rot.rotate, rotateDirection_eq]
    rw [planeRot_b0 hr', planeRot_add_vec, planeRot_smul, planeRot_smul, mul_comm f]
    exact planeRot_b0 this _
  refine ⟨s.map g, hg, ?_, ?_, ?_, ?_, ?_⟩
  · simp [g, Function.comp_def]
  · intro r hr
    obtain ⟨q, hq, rfl⟩ := List.mem_map.mp hr
    exact Base.ON.planeRot hR (hs q hq) _
  · rw [List.map_map]
    apply List.map_congr_left
    intro r hr
    simp [g, Rot.getFirstVector, Rot.rotate, rotateDirection_eq, Base.map, mul_comm]
  · rw [List.map_map]
    exact List.map_congr_left hsec
  · intro e he
    unfold RotSeq.getEndVector at he ⊢
    rw [List.getLast?_map]
    cases hl : s.getLast? with
    | none => rw [hl] at he; cases he
    | some r =>
      rw [hl] at he
      have he := Except.ok.inj he
      have hr : r ∈ s := List.mem_of_getLast? hl
      have := hsec r hr
      simp only [Option.map_some]
      congr 1
      rw [← he]
      simp only [Rot.getSecondVector, Rot.rotate, one_mul] at this ⊢
      exact this

/-- C15 (partial): `rotate_vector_rotation` carries the rotation along only when the
argument has the same base as the rotating object.  Missing: different bases, for
which the property fails (`C15_rotate_vector_rotation_wrong`). -/
theorem C15_rotate_vector_rotation_partial (R r : Rot V)
    (hr : OrthonormalPair r.base.b0 r.base.b1) (hb : R.base = r.base) (f : ℝ) :
    ∃ r', R.rotateVectorRotation r f = some r' ∧ r'.angle = r.angle
      ∧ r'.getFirstVector = R.rotate r.getFirstVector f
      ∧ r'.getSecondVector = R.rotate r.getSecondVector f := by
  have hr' : r.base.ON := hr
  refine ⟨⟨r.base.map (planeRot r.base (f * R.angle)), r.angle⟩, ?_, rfl, ?_, ?_⟩
  · unfold Rot.rotateVectorRotation
    rw [rotateBase_eq hr]; rfl
  · simp [Rot.getFirstVector, Rot.rotate, rotateDirection_eq, Base.map, hb]
  · have := Base.ON.planeRot hr' hr' (f * R.angle)
    simp only [Rot.getSecondVector, Rot.rotate, rotateDirection_eq, hb]
    rw [planeRot_b0 hr', planeRot_add_vec, planeRot_smul, planeRot_smul]
    exact planeRot_b0 this _

end Generic15

/-- C15 fails for `rotate_vector_rotation` in general: rotating `e1 → e2` by a right
angle in the plane `(e0, e1)` should give a rotation starting at `-e0`; the code
returns one that starts at `e2` (line 203 passes the base of the argument). -/
theorem C15_rotate_vector_rotation_wrong :
    ∃ (R r r' : Rot (Vec 3)), OrthonormalPair R.base.b0 R.base.b1
      ∧ OrthonormalPair r.base.b0 r.base.b1
      ∧ R.rotateVectorRotation r = some r'
      ∧ r'.getFirstVector = e3 2 ∧ R.rotate r.getFirstVector = -(e3 0) := by
  let R : Rot (Vec 3) := ⟨⟨e3 0, e3 1⟩, Real.pi / 2⟩
  let r : Rot (Vec 3) := ⟨⟨e3 1, e3 2⟩, Real.pi / 2⟩
  have hR : R.base.ON := e3_on (by decide)
  have hr : r.base.ON := e3_on (by decide)
  refine ⟨R, r, ⟨r.base.map (planeRot r.base (1 * R.angle)), r.angle⟩, hR, hr, ?_, ?_, ?_⟩
  · unfold Rot.rotateVectorRotation
    rw [rotateBase_eq hr]; rfl
  · simp only [Rot.getFirstVector, Base.map, one_mul]
    rw [planeRot_b0 hr]; simp [R, r]
  · simp only [Rot.rotate, rotateDirection_eq, one_mul, Rot.getFirstVector]
    have := planeRot_b1 hR R.angle
    simp only [R, r, Real.sin_pi_div_two, Real.cos_pi_div_two, zero_smul, add_zero, neg_smul,
      one_smul] at this ⊢
    exact this

/-! ## C16 -/

section Coordinates16
variable {d : ℕ} [h2 : Fact (2 ≤ d)]

/-- The direction at which the dynamics sequence starts: the default dynamics if
given, else the direction towards the attractor if there is one, else the velocity. -/
def referenceDirection (position : Vec d) (dyn : Dynamics d) (default : Option (Dynamics d)) :
    Vec d :=
  match default, dyn.attractorPosition with
  | some dd, _ => dd.evaluate position
  | none, some a => a - position
  | none, none => dyn.evaluate position

open Classical in
lemma evaluateDynamicsSequence_eq (x : Vec d) (dyn : Dynamics d) (dflt : Option (Dynamics d))
    (hown : dyn.ownSequence = none) :
    evaluateDynamicsSequence x dyn dflt =
      if ‖referenceDirection x dyn dflt‖ = 0 ∨ ‖dyn.evaluate x‖ = 0 then .ok none
      else match createFromVectorArray [referenceDirection x dyn dflt, dyn.evaluate x] with
        | .error e => .error e
        | .ok s => .ok (some s) := by
  unfold evaluateDynamicsSequence referenceDirection
  rw [hown]
  cases dflt <;> cases dyn.attractorPosition <;> rfl

/-- C16: a dynamics with an own sequence is asked directly. -/
theorem C16_own_sequence (x : Vec d) (dyn : Dynamics d) (dflt : Option (Dynamics d))
    (f : Vec d → Except PyErr (Option (RotSeq (Vec d)))) (h : dyn.ownSequence = some f) :
    evaluateDynamicsSequence x dyn dflt = f x := by
  unfold evaluateDynamicsSequence; rw [h]

/-- C16: `None` is returned exactly when the reference direction or the velocity is
zero. -/
theorem C16_none_iff (x : Vec d) (dyn : Dynamics d) (dflt : Option (Dynamics d))
    (hown : dyn.ownSequence = none) :
    evaluateDynamicsSequence x dyn dflt = .ok none ↔
      referenceDirection x dyn dflt = 0 ∨ dyn.evaluate x = 0 := by
  classical
  rw [evaluateDynamicsSequence_eq x dyn dflt hown]
  constructor
  · intro h
    split_ifs at h with h1
    · simpa using h1
    · cases hc : createFromVectorArray [referenceDirection x dyn dflt, dyn.evaluate x] with
      | error e => rw [hc] at h; cases h
      | ok s => rw [hc] at h; cases h
  · intro h; rw [if_pos (by simpa using h)]

/-- C16: exactly for non-zero, but opposite or extremely short (`≤ 1e-8`) directions a
`ValueError` is raised; no other exception occurs. -/
theorem C16_error_iff (x : Vec d) (dyn : Dynamics d) (dflt : Option (Dynamics d))
    (hown : dyn.ownSequence = none) (e : PyErr) :
    evaluateDynamicsSequence x dyn dflt = .error e ↔
      e = .valueError ∧ referenceDirection x dyn dflt ≠ 0 ∧ dyn.evaluate x ≠ 0
      ∧ (‖referenceDirection x dyn dflt‖ ≤ 1e-8 ∨ ‖dyn.evaluate x‖ ≤ 1e-8
        ∨ Opposite (referenceDirection x dyn dflt) (dyn.evaluate x)) := by
  classical
  have hacc := C10_accepts_iff [referenceDirection x dyn dflt, dyn.evaluate x]
  rw [evaluateDynamicsSequence_eq x dyn dflt hown]
  have hopp : (∀ (i : ℕ) (h : i + 1 < [referenceDirection x dyn dflt, dyn.evaluate x].length),
      ¬ Opposite ([referenceDirection x dyn dflt, dyn.evaluate x][i])
        ([referenceDirection x dyn dflt, dyn.evaluate x][i + 1]))
      ↔ ¬ Opposite (referenceDirection x dyn dflt) (dyn.evaluate x) := by
    constructor
    · intro h; exact h 0 (by simp)
    · intro h i hi
      have : i = 0 := by simp at hi; omega
      subst this; exact h
  rw [hopp] at hacc
  simp only [List.mem_cons, List.not_mem_nil, or_false, forall_eq_or_imp, forall_eq] at hacc
  constructor
  · intro h
    split_ifs at h with h1
    push Not at h1
    cases hc : createFromVectorArray [referenceDirection x dyn dflt, dyn.evaluate x] with
    | ok s => rw [hc] at h; cases h
    | error e' =>
      rw [hc] at h
      have he : e' = e := by injection h
      subst he
      refine ⟨C10_rejects _ _ hc, by simpa using h1.1, by simpa using h1.2, ?_⟩
      by_contra hcon
      push Not at hcon
      obtain ⟨s, hs⟩ := hacc.mpr ⟨⟨hcon.1, hcon.2.1⟩, hcon.2.2⟩
      rw [hs] at hc; cases hc
  · rintro ⟨rfl, h1, h2, h3⟩
    rw [if_neg (by simp [h1, h2])]
    cases hc : createFromVectorArray [referenceDirection x dyn dflt, dyn.evaluate x] with
    | ok s =>
      obtain ⟨⟨a1, a2⟩, a3⟩ := hacc.mp ⟨s, hc⟩
      rcases h3 with h3 | h3 | h3
      · linarith
      · linarith
      · exact absurd h3 a3
    | error e' => rw [C10_rejects _ _ hc]

/-- C16: otherwise a single rotation is returned, which starts at the reference
direction and ends at the direction of the velocity. -/
theorem C16_rotation (x : Vec d) (dyn : Dynamics d) (dflt : Option (Dynamics d))
    (hown : dyn.ownSequence = none) (s : RotSeq (Vec d))
    (h : evaluateDynamicsSequence x dyn dflt = .ok (some s)) :
    s.length = 1 ∧ s.map Rot.getFirstVector = [unit (referenceDirection x dyn dflt)]
    ∧ (Distinguishable [referenceDirection x dyn dflt, dyn.evaluate x] →
        s.getEndVector = .ok (unit (dyn.evaluate x))) := by
  classical
  rw [evaluateDynamicsSequence_eq x dyn dflt hown] at h
  split_ifs at h with h1
  · cases h
  cases hc : createFromVectorArray [referenceDirection x dyn dflt, dyn.evaluate x] with
  | error e => rw [hc] at h; cases h
  | ok s' =>
    rw [hc] at h
    have hss : s' = s := by injection h with h; injection h
    subst hss
    obtain ⟨hl, hr⟩ := C10_rotations _ _ hc
    have hl : s'.length = 1 := by simpa using hl
    refine ⟨hl, ?_, fun hd => C11_end_vector _ _ hc hd 0 rfl⟩
    obtain ⟨r, rfl⟩ := List.length_eq_one_iff.mp hl
    have := (hr 0 (by simp) (by simp)).2.1
    simpa using this

end Coordinates16

/-- C16 is not vacuous: the constant dynamics `x ↦ e1` with attractor `e0`, evaluated
at the origin. -/
example : ∃ s, evaluateDynamicsSequence (d := 3) 0
    { evaluate := fun _ => e3 1, attractorPosition := some (e3 0) } none = .ok (some s) := by
  rcases hc : evaluateDynamicsSequence (d := 3) 0
    { evaluate := fun _ => e3 1, attractorPosition := some (e3 0) } none with e | o
  · have := (C16_error_iff _ _ _ rfl e).mp hc
    simp only [referenceDirection, sub_zero] at this
    obtain ⟨_, _, _, h | h | h⟩ := this
    · simp [e3] at h; norm_num at h
    · simp [e3] at h; norm_num at h
    · exact absurd h (e3_not_opposite (by decide))
  · cases o with
    | some s => exact ⟨s, rfl⟩
    | none =>
      have := (C16_none_iff _ _ _ rfl).mp hc
      simp only [referenceDirection, sub_zero] at this
      rcases this with h | h
      · exact absurd h (e3_ne_zero _)
      · exact absurd h (e3_ne_zero _)

end Verif
