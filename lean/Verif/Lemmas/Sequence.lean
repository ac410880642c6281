import Verif.Model.Sequence
import Verif.Lemmas.FromDirections

/-! # Helper lemmas: rotation sequences -/

open scoped RealInnerProductSpace
open Verif.Spec

set_option linter.unusedSectionVars false

namespace Verif

section Generic
variable {V : Type*} [NormedAddCommGroup V] [InnerProductSpace ℝ V]

lemma rotateColumn_unit {v : V} (hv : ‖v‖ = 1) (B : Base V) (θ : ℝ) :
    rotateColumn B θ v = some (planeRot B θ v) := by
  rw [rotateColumn_eq v (by intro h; rw [h] at hv; simp at hv), hv]; simp

lemma rotateBase_eq {b : Base V} (hb : b.ON) (A : Base V) (θ : ℝ) :
    Rot.rotateBase A θ b = some (b.map (planeRot A θ)) := by
  unfold Rot.rotateBase
  rw [rotateColumn_unit hb.norm_fst, rotateColumn_unit hb.norm_snd]; rfl

lemma mapM_some {α β : Type*} (f : α → Option β) (g : α → β) (l : List α)
    (h : ∀ a ∈ l, f a = some (g a)) : l.mapM f = some (l.map g) := by
  induction l with
  | nil => rfl
  | cons a l ih =>
    rw [List.mapM_cons, h a List.mem_cons_self,
      ih (fun b hb => h b (List.mem_cons_of_mem _ hb))]; rfl

lemma mapM_some_length {α β : Type*} (f : α → Option β) (l : List α) (out : List β)
    (h : l.mapM f = some out) : out.length = l.length := by
  induction l generalizing out with
  | nil => simp at h; subst h; rfl
  | cons a l ih =>
    rw [List.mapM_cons] at h
    cases hf : f a with
    | none => rw [hf] at h; cases h
    | some b =>
      cases hm : l.mapM f with
      | none => rw [hf, hm] at h; cases h
      | some bs =>
        rw [hf, hm] at h
        have : out = b :: bs := (Option.some.inj h).symm
        rw [this]; simp [ih bs hm]

lemma mapM_some_get {α β : Type*} (f : α → Option β) (l : List α) (out : List β)
    (h : l.mapM f = some out) (i : ℕ) (hi : i < l.length) (hi' : i < out.length) :
    f l[i] = some out[i] := by
  induction l generalizing out i with
  | nil => simp at hi
  | cons a l ih =>
    rw [List.mapM_cons] at h
    cases hf : f a with
    | none => rw [hf] at h; cases h
    | some b =>
      cases hm : l.mapM f with
      | none => rw [hf, hm] at h; cases h
      | some bs =>
        rw [hf, hm] at h
        have : out = b :: bs := (Option.some.inj h).symm
        subst this
        cases i with
        | zero => simpa using hf
        | succ i => simpa using ih bs hm i (by simpa using hi) (by simpa using hi')

/-- The bases of `rotate_weighted` without the error cases. -/
noncomputable def pureBases : List (Rot V × ℝ) → List (Base V)
  | [] => []
  | (r, c) :: rest =>
    r.base :: (pureBases rest).map (fun b => b.map (planeRot r.base (r.angle * (1 - c))))

lemma pureBases_length (l : List (Rot V × ℝ)) : (pureBases l).length = l.length := by
  induction l with
  | nil => rfl
  | cons p l ih => simp [pureBases, ih]

lemma pureBases_ON (l : List (Rot V × ℝ)) (h : ∀ p ∈ l, p.1.base.ON) :
    ∀ b ∈ pureBases l, b.ON := by
  induction l with
  | nil => simp [pureBases]
  | cons p l ih =>
    intro b hb
    simp only [pureBases, List.mem_cons, List.mem_map] at hb
    have hp := h p List.mem_cons_self
    rcases hb with rfl | ⟨b', hb', rfl⟩
    · exact hp
    · exact hp.planeRot (ih (fun q hq => h q (List.mem_cons_of_mem _ hq)) b' hb') _

lemma tempBases_eq (l : List (Rot V × ℝ)) (h : ∀ p ∈ l, p.1.base.ON) :
    tempBases l = some (pureBases l) := by
  induction l with
  | nil => rfl
  | cons p l ih =>
    have hl : ∀ q ∈ l, q.1.base.ON := fun q hq => h q (List.mem_cons_of_mem _ hq)
    obtain ⟨r, c⟩ := p
    rw [tempBases, ih hl]
    simp only [Option.bind_eq_bind, Option.bind_some]
    rw [mapM_some _ (fun b => b.map (planeRot r.base (r.angle * (1 - c)))) _
      (fun b hb => rotateBase_eq (pureBases_ON l hl b hb) _ _)]
    rfl

/-- All rotations of a sequence have an orthonormal base. -/
def AllON (s : RotSeq V) : Prop := ∀ r ∈ s, r.base.ON

lemma AllON.zip {s : RotSeq V} (h : AllON s) (cs : List ℝ) : ∀ p ∈ s.zip cs, p.1.base.ON :=
  fun p hp => h p.1 (List.of_mem_zip hp).1

/-- `rotate_weighted` without the error cases. -/
noncomputable def pureRotate (s : RotSeq V) (v : V) (cs : List ℝ) : V :=
  rotateAlong v ((pureBases (s.zip cs)).zip (List.zipWith (fun r c => r.angle * c) s cs))

lemma rotateCumulated_eq {s : RotSeq V} (h : AllON s) (v : V) (cs : List ℝ) :
    rotateCumulated s v cs = .ok (pureRotate s v cs) := by
  rw [rotateCumulated, tempBases_eq _ (h.zip cs)]; rfl

lemma rotateAlong_inner (l : List (Base V × ℝ)) (h : ∀ p ∈ l, p.1.ON) (v w : V) :
    ⟪rotateAlong v l, rotateAlong w l⟫ = ⟪v, w⟫ := by
  induction l generalizing v w with
  | nil => rfl
  | cons p l ih =>
    obtain ⟨b, a⟩ := p
    simp only [rotateAlong]
    rw [ih (fun q hq => h q (List.mem_cons_of_mem _ hq)), rotateDirection_eq, rotateDirection_eq,
      planeRot_inner (h _ List.mem_cons_self)]

lemma rotateAlong_smul (l : List (Base V × ℝ)) (k : ℝ) (v : V) :
    rotateAlong (k • v) l = k • rotateAlong v l := by
  induction l generalizing v with
  | nil => rfl
  | cons p l ih =>
    obtain ⟨b, a⟩ := p
    simp only [rotateAlong, rotateDirection_eq, planeRot_smul]
    exact ih _

lemma rotateAlong_add (l : List (Base V × ℝ)) (v w : V) :
    rotateAlong (v + w) l = rotateAlong v l + rotateAlong w l := by
  induction l generalizing v w with
  | nil => rfl
  | cons p l ih =>
    obtain ⟨b, a⟩ := p
    simp only [rotateAlong, rotateDirection_eq, planeRot_add_vec]
    exact ih _ _

lemma rotateAlong_zero (l : List (Base V × ℝ)) (h : ∀ p ∈ l, p.2 = 0) (v : V) :
    rotateAlong v l = v := by
  induction l generalizing v with
  | nil => rfl
  | cons p l ih =>
    obtain ⟨b, a⟩ := p
    have : a = 0 := h (b, a) List.mem_cons_self
    simp only [rotateAlong, rotateDirection_eq, this, planeRot_zero]
    exact ih (fun q hq => h q (List.mem_cons_of_mem _ hq)) _

lemma pureRotate_inner {s : RotSeq V} (h : AllON s) (cs : List ℝ) (v w : V) :
    ⟪pureRotate s v cs, pureRotate s w cs⟫ = ⟪v, w⟫ :=
  rotateAlong_inner _ (fun p hp => pureBases_ON _ (h.zip cs) p.1 (List.of_mem_zip hp).1) v w

lemma zipWith_zero_mem (s : RotSeq V) (cs : List ℝ) (h : ∀ c ∈ cs, c = 0) :
    ∀ x ∈ List.zipWith (fun r c => r.angle * c) s cs, x = (0 : ℝ) := by
  induction s generalizing cs with
  | nil => simp
  | cons r s ih =>
    cases cs with
    | nil => simp
    | cons c cs =>
      intro x hx
      simp only [List.zipWith_cons_cons, List.mem_cons] at hx
      rcases hx with rfl | hx
      · rw [h c List.mem_cons_self, mul_zero]
      · exact ih cs (fun c hc => h c (List.mem_cons_of_mem _ hc)) x hx

lemma pureRotate_zero (s : RotSeq V) (cs : List ℝ) (h : ∀ c ∈ cs, c = 0) (v : V) :
    pureRotate s v cs = v :=
  rotateAlong_zero _ (fun p hp => zipWith_zero_mem s cs h p.2 (List.of_mem_zip hp).2) v

lemma Base.map_id (b : Base V) (A : Base V) : b.map (planeRot A 0) = b := by
  simp [Base.map]

lemma pureRotate_one_cons (r : Rot V) (s : RotSeq V) (cs : List ℝ) (v : V) :
    pureRotate (r :: s) v (1 :: cs) = pureRotate s (r.rotate v) cs := by
  simp only [pureRotate, List.zip_cons_cons, pureBases, List.zipWith_cons_cons, rotateAlong,
    sub_self, mul_zero, Base.map_id, List.map_id', mul_one, Rot.rotate, one_mul]

lemma pureRotate_cons_zero (r : Rot V) (s : RotSeq V) (c : ℝ) (cs : List ℝ)
    (h : ∀ c ∈ cs, c = 0) (v : V) :
    pureRotate (r :: s) v (c :: cs) = r.rotate v c := by
  simp only [pureRotate, List.zip_cons_cons, pureBases, List.zipWith_cons_cons, rotateAlong]
  rw [rotateAlong_zero]
  · rw [Rot.rotate, mul_comm]
  · exact fun p hp => zipWith_zero_mem s cs h p.2 (List.of_mem_zip hp).2

/-- Consecutive rotations are connected: each one starts where the previous one ends. -/
def Chained (s : RotSeq V) : Prop :=
  s.IsChain (fun r q => r.getSecondVector = q.getFirstVector)

lemma pureRotate_ones (s : RotSeq V) (k m : ℕ) (c : ℝ) (hlen : s.length = k + 1 + m)
    (hch : Chained s) (v : V) (hv : ∀ r, s.head? = some r → v = r.base.b0) :
    pureRotate s v (List.replicate k 1 ++ c :: List.replicate m 0)
      = (s[k]'(by omega)).rotate (s[k]'(by omega)).base.b0 c := by
  induction k generalizing s v with
  | zero =>
    cases s with
    | nil => simp at hlen; omega
    | cons r s =>
      rw [List.replicate_zero, List.nil_append, pureRotate_cons_zero _ _ _ _ (by simp)]
      rw [hv r rfl]; rfl
  | succ k ih =>
    cases s with
    | nil => simp at hlen; omega
    | cons r s =>
      rw [List.replicate_succ, List.cons_append, pureRotate_one_cons]
      rw [ih s (by simp at hlen; omega)]
      · rfl
      · exact List.IsChain.of_cons hch
      · intro q hq
        cases s with
        | nil => simp at hq
        | cons q' s =>
          simp only [List.head?_cons, Option.some.injEq] at hq
          subst hq
          have := (List.isChain_cons_cons.mp hch).1
          rw [hv r rfl, Rot.rotate, one_mul]
          exact this

/-! ### cumulated weights -/

lemma cumulated_length (ws : List ℝ) : (cumulated ws).length = ws.length := by
  induction ws with
  | nil => rfl
  | cons w ws ih => simp [cumulated, ih]

lemma cumulated_headD (ws : List ℝ) : (cumulated ws).headD 0 = ws.sum := by
  induction ws with
  | nil => rfl
  | cons w ws ih => simp only [cumulated, List.headD_cons, ih, List.sum_cons]

lemma cumulated_zero (m : ℕ) : cumulated (List.replicate m 0) = List.replicate m 0 := by
  induction m with
  | zero => rfl
  | succ m ih =>
    rw [List.replicate_succ, cumulated, cumulated_headD, ih]
    simp

lemma cumulated_onehot (k m : ℕ) (x : ℝ) :
    cumulated (List.replicate k 0 ++ x :: List.replicate m 0)
      = List.replicate k x ++ x :: List.replicate m 0 := by
  induction k with
  | zero =>
    rw [List.replicate_zero, List.nil_append, cumulated, cumulated_headD, cumulated_zero]
    simp
  | succ k ih =>
    rw [List.replicate_succ, List.cons_append, cumulated, ih, ← ih, cumulated_headD]
    simp [ih, List.replicate_succ]

lemma cumulated_pair (k m : ℕ) (c : ℝ) :
    cumulated (List.replicate k 0 ++ (1 - c) :: c :: List.replicate m 0)
      = List.replicate (k + 1) 1 ++ c :: List.replicate m 0 := by
  induction k with
  | zero =>
    have h := cumulated_headD (List.replicate m 0)
    rw [cumulated_zero] at h
    simp only [List.replicate_zero, List.nil_append, cumulated, cumulated_zero, List.headD_cons, h]
    simp
  | succ k ih =>
    rw [List.replicate_succ, List.cons_append, cumulated, ih]
    simp [List.replicate_succ]

lemma rotateWeighted_eq {s : RotSeq V} (h : AllON s) (v : V) (ws : List ℝ)
    (hl : s.length = ws.length) (hne : ws ≠ []) :
    s.rotateWeighted v ws = .ok (pureRotate s v (cumulated ws)) := by
  unfold RotSeq.rotateWeighted
  cases hc : cumulated ws with
  | nil =>
    have := cumulated_length ws; rw [hc] at this
    exact absurd (List.length_eq_zero_iff.mp this.symm) hne
  | cons c0 cs =>
    have := cumulated_length ws; rw [hc] at this
    simp only [List.length_cons] at this
    simp only
    rw [if_pos (by omega), rotateCumulated_eq h]

end Generic

section Coordinates
variable {d : ℕ} [h2 : Fact (2 ≤ d)]

lemma isclose_zero {x : ℝ} (hx : 0 ≤ x) : isclose x 0 ↔ x ≤ 1e-8 := by
  unfold isclose; simp [abs_of_nonneg hx]

lemma ne_zero_of_norm_gt {v : Vec d} (h : ¬ isclose ‖v‖ 0) : v ≠ 0 := by
  rintro rfl; apply h; rw [isclose_zero (norm_nonneg _)]; simp; norm_num

/-- Neighbouring normalised vectors that are not opposite give a valid rotation. -/
lemma neighbourRotation_some {a b : Vec d} (ha : ‖a‖ = 1) (hb : ‖b‖ = 1) (ho : ⟪b, a⟫ ≠ -1) :
    ∃ r, neighbourRotation a b = some r ∧ r.base.ON ∧ r.base.b0 = a ∧ 0 ≤ r.angle
      ∧ r.angle < Real.pi
      ∧ (allclose a b → r.angle = 0)
      ∧ (¬ allclose a b → r.angle = Real.arccos ⟪a, b⟫
          ∧ Real.cos r.angle • r.base.b0 + Real.sin r.angle • r.base.b1 = b) := by
  classical
  unfold neighbourRotation
  by_cases hc : allclose a b
  · rw [if_pos hc]
    exact ⟨_, rfl, ⟨ha, parallelPerp_norm _, parallelPerp_orth _⟩, rfl, le_refl _, Real.pi_pos,
      fun _ => rfl, fun h => absurd hc h⟩
  · rw [if_neg hc]
    have hp := norm_perp_sq ha hb
    have hcomm : ⟪b, a⟫ = ⟪a, b⟫ := real_inner_comm _ _
    simp only [hcomm]
    rw [hcomm] at ho
    have hlb : -1 ≤ ⟪a, b⟫ := by
      have := abs_real_inner_le_norm a b; rw [ha, hb] at this
      have := abs_le.mp this; linarith
    have hub : ⟪a, b⟫ ≤ 1 := by
      have := abs_real_inner_le_norm a b; rw [ha, hb] at this
      have := abs_le.mp this; linarith
    have hne1 : ⟪a, b⟫ ≠ 1 := by
      intro h; apply hc; rw [eq_of_inner_eq_one ha hb h]; exact allclose_refl _
    have hlt : -1 < ⟪a, b⟫ := lt_of_le_of_ne hlb (Ne.symm ho)
    have hlt1 : ⟪a, b⟫ < 1 := lt_of_le_of_ne hub hne1
    have hpos : 0 < ‖b - ⟪a, b⟫ • a‖ ^ 2 := by rw [hp]; nlinarith
    have hn : ‖b - ⟪a, b⟫ • a‖ ≠ 0 := by intro h; rw [h] at hpos; norm_num at hpos
    rw [if_neg hn, max_eq_left hlb]
    have hpn : b - ⟪a, b⟫ • a ≠ 0 := norm_ne_zero_iff.mp hn
    refine ⟨_, rfl, ⟨ha, unit_norm hpn, ?_⟩, rfl, Real.arccos_nonneg _, ?_, fun h => absurd h hc,
      fun _ => ⟨rfl, ?_⟩⟩
    · simp only [inner_smul_right, inner_perp ha, mul_zero]
    · rw [← Real.arccos_neg_one]
      exact Real.arccos_lt_arccos le_rfl hlt hub
    · simp only
      rw [Real.cos_arccos hlb hub, Real.sin_arccos]
      have : Real.sqrt (1 - ⟪a, b⟫ ^ 2) = ‖b - ⟪a, b⟫ • a‖ := by
        rw [← hp, Real.sqrt_sq (norm_nonneg _)]
      rw [this, smul_smul, mul_one_div_cancel hn, one_smul]
      abel

open Classical in
lemma createFromVectorArray_eq (vs : List (Vec d)) :
    createFromVectorArray vs =
      if ∃ v ∈ vs, isclose ‖v‖ 0 then .error .valueError
      else if ∃ p ∈ (vs.map unit).zip (vs.map unit).tail, ⟪p.2, p.1⟫ = -1 then .error .valueError
      else
        match ((vs.map unit).zip (vs.map unit).tail).mapM (fun p => neighbourRotation p.1 p.2) with
        | none => .error .nan
        | some s => .ok s := by
  have hu : (fun v : Vec d => (1 / ‖v‖) • v) = unit := rfl
  unfold createFromVectorArray
  simp only [hu]
  split_ifs <;> rfl

/-- Admissible input of `create_from_vector_array`. -/
lemma createFromVectorArray_ok {vs : List (Vec d)} {s : RotSeq (Vec d)}
    (h : createFromVectorArray vs = .ok s) :
    (∀ v ∈ vs, ¬ isclose ‖v‖ 0)
    ∧ (∀ p ∈ (vs.map unit).zip (vs.map unit).tail, ⟪p.2, p.1⟫ ≠ -1)
    ∧ ((vs.map unit).zip (vs.map unit).tail).mapM (fun p => neighbourRotation p.1 p.2)
      = some s := by
  rw [createFromVectorArray_eq] at h
  split_ifs at h with h3 h4
  refine ⟨fun v hv hc => h3 ⟨v, hv, hc⟩, fun p hp hc => h4 ⟨p, hp, hc⟩, ?_⟩
  revert h
  cases List.mapM (fun p => neighbourRotation p.1 p.2)
    ((vs.map unit).zip (vs.map unit).tail) with
  | none => intro h; cases h
  | some x => intro h; injection h with h; rw [h]

lemma createFromVectorArray_good {vs : List (Vec d)} (h0 : ∀ v ∈ vs, ¬ isclose ‖v‖ 0)
    (h1 : ∀ p ∈ (vs.map unit).zip (vs.map unit).tail, ⟪p.2, p.1⟫ ≠ -1) :
    ∃ s, createFromVectorArray vs = .ok s := by
  classical
  rw [createFromVectorArray_eq]
  rw [if_neg (by rintro ⟨v, hv, hc⟩; exact h0 v hv hc),
    if_neg (by rintro ⟨v, hv, hc⟩; exact h1 v hv hc)]
  have hu : ∀ u ∈ vs.map unit, ‖u‖ = 1 := by
    intro u hu
    obtain ⟨v, hv, rfl⟩ := List.mem_map.mp hu
    exact unit_norm (ne_zero_of_norm_gt (h0 v hv))
  have : ∀ p ∈ (vs.map unit).zip (vs.map unit).tail, ∃ r, neighbourRotation p.1 p.2 = some r := by
    intro p hp
    have := List.of_mem_zip hp
    obtain ⟨r, hr, _⟩ := neighbourRotation_some (hu _ this.1) (hu _ (List.mem_of_mem_tail this.2))
      (h1 p hp)
    exact ⟨r, hr⟩
  rw [mapM_some _ (fun p => (neighbourRotation p.1 p.2).getD ⟨⟨0, 0⟩, 0⟩)]
  · exact ⟨_, rfl⟩
  · intro p hp
    obtain ⟨r, hr⟩ := this p hp
    rw [hr]; rfl

/-- Everything about one entry of a sequence built from vectors. -/
lemma createFromVectorArray_entry {vs : List (Vec d)} {s : RotSeq (Vec d)}
    (h : createFromVectorArray vs = .ok s) :
    s.length = vs.length - 1 ∧ ∀ (i : ℕ) (hi : i < s.length) (hi0 : i < vs.length)
      (hi1 : i + 1 < vs.length),
      (s[i]).base.ON ∧ (s[i]).base.b0 = unit vs[i] ∧ 0 ≤ (s[i]).angle ∧ (s[i]).angle < Real.pi
      ∧ (allclose (unit vs[i]) (unit vs[i + 1]) → (s[i]).angle = 0)
      ∧ (¬ allclose (unit vs[i]) (unit vs[i + 1]) →
          (s[i]).angle = InnerProductGeometry.angle vs[i] vs[i + 1]
          ∧ Real.cos (s[i]).angle • (s[i]).base.b0 + Real.sin (s[i]).angle • (s[i]).base.b1
            = unit vs[i + 1]) := by
  obtain ⟨h0, h1, hm⟩ := createFromVectorArray_ok h
  have hl := mapM_some_length _ _ _ hm
  have hl2 : ((vs.map unit).zip (vs.map unit).tail).length = vs.length - 1 := by simp
  refine ⟨by rw [hl, hl2], fun i hi hi0 hi1 => ?_⟩
  have hi' : i < ((vs.map unit).zip (vs.map unit).tail).length := by rw [← hl]; exact hi
  have hg := mapM_some_get _ _ _ hm i hi' hi
  have he : ((vs.map unit).zip (vs.map unit).tail)[i] = (unit vs[i], unit vs[i + 1]) := by
    simp
  have hmem : (unit vs[i], unit vs[i + 1]) ∈ (vs.map unit).zip (vs.map unit).tail := by
    rw [← he]; exact List.getElem_mem _
  rw [he] at hg
  have hv0 : vs[i] ≠ 0 := ne_zero_of_norm_gt (h0 _ (List.getElem_mem _))
  have hv1 : vs[i + 1] ≠ 0 := ne_zero_of_norm_gt (h0 _ (List.getElem_mem _))
  obtain ⟨r, hr, a1, a2, a3, a4, a5, a6⟩ := neighbourRotation_some (unit_norm hv0) (unit_norm hv1)
    (h1 _ hmem)
  simp only at hg
  rw [hr] at hg
  have hrs : r = s[i] := Option.some.inj hg
  subst hrs
  refine ⟨a1, a2, a3, a4, a5, fun hc => ⟨?_, (a6 hc).2⟩⟩
  rw [(a6 hc).1, inner_unit_unit_eq_cos, Real.arccos_cos (InnerProductGeometry.angle_nonneg _ _)
    (InnerProductGeometry.angle_le_pi _ _)]

end Coordinates
end Verif
