import Verif.Lemmas.Avoider
import Verif.Spec.Avoider

/-!
# C60: the velocity of moving obstacles
-/

open scoped RealInnerProductSpace

namespace Verif
open Spec

variable {d : ℕ}

lemma relativeStep_static {x acc : Vec d} {p : ObstacleTree d × ℝ × ℝ} (h : Static p.1) :
    relativeStep x acc p = .ok acc := by
  unfold relativeStep
  simp only [h.1, h.2]
  split_ifs <;> rfl

/-- C60: static obstacles have no relative velocity. -/
theorem C60_static (x : Vec d) (ts : List (ObstacleTree d)) (hs : ∀ t ∈ ts, Static t)
    (hne : ∀ t ∈ ts, t.components ≠ []) : relativeVelocity x ts = .ok 0 := by
  have hg : ∃ gs, ts.mapM (fun t => t.gamma x) = .ok gs := by
    clear hs
    induction ts with
    | nil => exact ⟨[], rfl⟩
    | cons t ts ih =>
      obtain ⟨gs, hgs⟩ := ih (fun t ht => hne t (List.mem_cons_of_mem _ ht))
      have : ∃ g, t.gamma x = .ok g := by
        unfold ObstacleTree.gamma
        cases hm : (t.components.map (fun o => o.gamma x)).min? with
        | none =>
          rw [List.min?_eq_none_iff, List.map_eq_nil_iff] at hm
          exact absurd hm (hne t List.mem_cons_self)
        | some g => exact ⟨g, rfl⟩
      obtain ⟨g, hg⟩ := this
      refine ⟨g :: gs, ?_⟩
      rw [List.mapM_cons, hg, hgs]; rfl
  obtain ⟨gs, hgs⟩ := hg
  unfold relativeVelocity
  rw [hgs]
  change List.foldlM _ _ _ = _
  have : ∀ l : List (ObstacleTree d × ℝ × ℝ), (∀ p ∈ l, Static p.1) →
      l.foldlM (relativeStep x) 0 = .ok 0 := by
    intro l
    induction l with
    | nil => intro _; rfl
    | cons p l ih =>
      intro h
      rw [List.foldlM_cons, relativeStep_static (h p List.mem_cons_self)]
      exact ih (fun q hq => h q (List.mem_cons_of_mem _ hq))
  apply this
  intro p hp
  exact hs _ (List.of_mem_zip hp).1

lemma relative_static {x w : Vec d} {ts : List (ObstacleTree d)} (hs : ∀ t ∈ ts, Static t)
    (h : relativeVelocity x ts = .ok w) : w = 0 := by
  have hne : ∀ t ∈ ts, t.components ≠ [] := by
    intro t ht hc
    unfold relativeVelocity at h
    obtain ⟨gs, hgs, _⟩ := bind_ok.mp h
    have h2 := mapM_ok.mp hgs
    obtain ⟨i, hi, rfl⟩ := List.getElem_of_mem ht
    have := (List.forall₂_iff_get.mp h2).2 i hi (h2.length_eq ▸ hi)
    simp only [List.get_eq_getElem] at this
    unfold ObstacleTree.gamma at this
    rw [hc] at this
    cases this
  rw [C60_static x ts hs hne] at h
  injection h with h
  exact h.symm


/-- The influence of the rotation of an obstacle. -/
noncomputable def angularInfluence (g : ℝ) : ℝ := Real.exp (-(max g 1 - 1))

lemma crossZ_eq (w : ℝ) (r : Vec 2) : crossZ w r rfl = w • (!₂[-(r 1), r 0] : Vec 2) := by
  ext i
  fin_cases i <;> simp [crossZ]

lemma relativeStep_plane (x acc : Vec 2) (p : ObstacleTree 2 × ℝ × ℝ) (hw : 0 ≤ p.2.2) :
    relativeStep x acc p = .ok (acc + p.2.2 • movedVelocity x (angularInfluence p.2.1) p.1) := by
  obtain ⟨t, g, w⟩ := p
  simp only at hw ⊢
  unfold relativeStep
  simp only
  by_cases h0 : w ≤ 0
  · rw [if_pos h0, le_antisymm h0 hw]; simp
  · rw [if_neg h0]
    have hang : ∀ (y : Vec 2) (z : ℝ), angularVelocity z y = .ok (z • (!₂[-(y 1), y 0] : Vec 2)) := by
      intro y z
      unfold angularVelocity
      rw [dif_pos rfl, crossZ_eq]
    have he : Real.exp (-1 * (max g 1 - 1)) = angularInfluence g := by
      unfold angularInfluence; congr 1; ring
    rw [he]
    unfold movedVelocity
    cases ht : t.twist with
    | none =>
      cases hd : t.deformationRate with
      | none => simp
      | some r => simp only [Option.getD_some, Except.ok.injEq]; simp [mul_smul]
    | some tw =>
      obtain ⟨lin, ang⟩ := tw
      cases ang with
      | none =>
        cases hd : t.deformationRate with
        | none => simp
        | some r =>
          simp only [Option.getD_some, Except.ok.injEq]
          simp [mul_smul, smul_add, add_assoc]
      | some z =>
        simp only [hang]
        cases hd : t.deformationRate with
        | none =>
          simp only [Option.getD_none, Except.ok.injEq]
          simp only [zero_smul, add_zero, smul_add, mul_smul, add_assoc]
        | some r =>
          simp only [Option.getD_some, Except.ok.injEq]
          simp only [smul_add, mul_smul, add_assoc]

lemma sum_indexed {α : Type} {E : Type} [AddCommMonoid E] (f : α → E) (l : List α) (x0 : α) :
    (l.map f).sum = ∑ i ∈ Finset.range l.length, f (l.getD i x0) := by
  induction l with
  | nil => simp
  | cons a l ih =>
    rw [List.map_cons, List.sum_cons, ih, List.length_cons, Finset.sum_range_succ']
    simp [add_comm]

/-- C60: in the plane the relative velocity is the sum of the velocities of the obstacles,
weighted with the weights for their distances. -/
theorem C60_weighted_sum (x : Vec 2) (ts : List (ObstacleTree 2)) (gs : List ℝ)
    (hg : ts.mapM (fun t => t.gamma x) = .ok gs) :
    relativeVelocity x ts = .ok ((ts.zip (gs.zip (computeGammaWeights gs 1))).map
      (fun p => p.2.2 • movedVelocity x (angularInfluence p.2.1) p.1)).sum := by
  unfold relativeVelocity
  rw [hg]
  change List.foldlM _ _ _ = _
  have hw := (C29_sub_probability gs 1 1).2.1
  have : ∀ (l : List (ObstacleTree 2 × ℝ × ℝ)) (acc : Vec 2), (∀ p ∈ l, 0 ≤ p.2.2) →
      l.foldlM (relativeStep x) acc = .ok (acc + (l.map
        (fun p => p.2.2 • movedVelocity x (angularInfluence p.2.1) p.1)).sum) := by
    intro l
    induction l with
    | nil => intro acc _; simp; rfl
    | cons p l ih =>
      intro acc h
      rw [List.foldlM_cons, relativeStep_plane x acc p (h p List.mem_cons_self)]
      change List.foldlM _ _ _ = _
      rw [ih _ (fun q hq => h q (List.mem_cons_of_mem _ hq)), List.map_cons, List.sum_cons, add_assoc]
  rw [this _ _ ?_, zero_add]
  intro p hp
  exact hw _ (List.of_mem_zip (List.of_mem_zip hp).2).2

/-- In contact with exactly one obstacle, this obstacle has all the weight. -/
lemma contact_gamma_weights [Fact (2 ≤ d)] {x : Vec d} {ts : List (ObstacleTree d)} {gs : List ℝ}
    (hg : ts.mapM (fun t => t.gamma x) = .ok gs) {i : ℕ} (hi : i < ts.length)
    (hc : InContact x ts[i]) (hother : ∀ j (hj : j < ts.length), j ≠ i → ¬ InContact x ts[j]) :
    gs.length = ts.length ∧ gs.getD i 0 ≤ 1 ∧ ∀ j < ts.length,
      (computeGammaWeights gs 1).getD j 0 = if j = i then 1 else 0 := by
  classical
  have h2 := mapM_ok.mp hg
  have hlen : gs.length = ts.length := h2.length_eq.symm
  have hgj : ∀ j (hj : j < ts.length), ts[j].gamma x = .ok (gs.getD j 0) := by
    intro j hj
    have := (List.forall₂_iff_get.mp h2).2 j hj (hlen ▸ hj)
    simp only [List.get_eq_getElem] at this
    rw [this, getD_eq _ _ (hlen ▸ hj)]
  have hle : ∀ j (hj : j < ts.length), InContact x ts[j] ↔ gs.getD j 0 ≤ 1 := by
    intro j hj
    obtain ⟨⟨o, ho, ho'⟩, hmin⟩ := gamma_ok (hgj j hj)
    constructor
    · rintro ⟨o', ho1, ho2⟩; exact (hmin o' ho1).trans ho2
    · intro h; exact ⟨o, ho, by rw [ho']; exact h⟩
  have hgi := (hle i hi).mp hc
  have hlt : ∀ j (hj : j < ts.length), j ≠ i → ¬ gs.getD j 0 ≤ 1 :=
    fun j hj hne h => hother j hj hne ((hle j hj).mpr h)
  have hmem : ∃ y ∈ gs, y ≤ 1 := by
    refine ⟨gs.getD i 0, ?_, hgi⟩
    rw [getD_eq _ _ (hlen ▸ hi)]; exact List.getElem_mem _
  obtain ⟨_, hw⟩ := C29_critical gs 1 1 hmem
  have hcount : (gs.filter (fun y => y ≤ 1)).length = 1 := by
    have h1 : 0 < (gs.filter (fun y => y ≤ 1)).length := by
      obtain ⟨y, hy, hy1⟩ := hmem
      exact List.length_pos_of_mem (a := y) (by simp [hy, hy1])
    have h2 : (gs.filter (fun y => y ≤ 1)).length ≤ 1 := by
      have e : gs.filter (fun y => y ≤ 1)
          = ((List.range gs.length).filter (fun j => gs.getD j 0 ≤ 1)).map (fun j => gs.getD j 0) := by
        have : gs = (List.range gs.length).map (fun j => gs.getD j 0) := by
          apply List.ext_getElem
          · simp
          · intro j h1 h2
            rw [List.getElem_map, List.getElem_range, getD_eq _ _ h1]
        conv_lhs => rw [this, List.filter_map]
        rfl
      rw [e, List.length_map]
      have : ((List.range gs.length).filter (fun j => gs.getD j 0 ≤ 1)).toFinset ⊆ {i} := by
        intro j hj
        rw [List.mem_toFinset, List.mem_filter, List.mem_range] at hj
        rw [Finset.mem_singleton]
        by_contra hne
        exact hlt j (hlen ▸ hj.1) hne (by simpa using hj.2)
      have hcard := Finset.card_le_card this
      rw [List.toFinset_card_of_nodup (List.Nodup.filter _ List.nodup_range)] at hcard
      simpa using hcard
    omega
  rw [hcount] at hw
  refine ⟨hlen, hgi, fun j hj => ?_⟩
  rw [hw j (by omega)]
  by_cases hji : j = i
  · subst hji
    rw [if_pos hgi, if_pos rfl]; simp
  · rw [if_neg (hlt j hj hji), if_neg hji]

/-- C60: in the plane, in contact with exactly one obstacle, the relative velocity is the velocity
of this obstacle at the position. -/
theorem C60_contact (x : Vec 2) (ts : List (ObstacleTree 2)) (gs : List ℝ)
    (hg : ts.mapM (fun t => t.gamma x) = .ok gs) (i : ℕ) (hi : i < ts.length)
    (hc : InContact x ts[i]) (hother : ∀ j (hj : j < ts.length), j ≠ i → ¬ InContact x ts[j]) :
    relativeVelocity x ts = .ok (movedVelocity x 1 ts[i]) := by
  classical
  obtain ⟨hlen, hgi, hw⟩ := contact_gamma_weights hg hi hc hother
  have hwl : (computeGammaWeights gs 1).length = gs.length := (C29_sub_probability gs 1 1).1
  rw [C60_weighted_sum x ts gs hg, sum_indexed _ _ (ts[i], (0 : ℝ), (0 : ℝ))]
  have hl : (ts.zip (gs.zip (computeGammaWeights gs 1))).length = ts.length := by
    rw [List.length_zip, List.length_zip, hwl]; omega
  rw [hl]
  congr 1
  have hterm : ∀ j (hj : j < ts.length),
      (ts.zip (gs.zip (computeGammaWeights gs 1))).getD j (ts[i], (0 : ℝ), (0 : ℝ))
        = (ts[j], gs.getD j 0, (computeGammaWeights gs 1).getD j 0) := by
    intro j hj
    rw [List.getD_eq_getElem _ _ (by omega), List.getElem_zip, List.getElem_zip, getD_eq _ _ (by omega),
      getD_eq _ _ (by omega)]
  rw [Finset.sum_eq_single i]
  · rw [hterm i hi]
    simp only
    rw [hw i hi, if_pos rfl, one_smul]
    have : angularInfluence (gs.getD i 0) = 1 := by
      unfold angularInfluence
      rw [max_eq_right hgi]; simp
    rw [this]
  · intro j hj hne
    rw [Finset.mem_range] at hj
    rw [hterm j hj]
    simp only
    rw [hw j hj, if_neg hne, zero_smul]
  · intro h
    exact absurd (Finset.mem_range.mpr hi) h

lemma relative_skip {x : Vec d} (l : List (ObstacleTree d × ℝ × ℝ)) (acc : Vec d) (h : ∀ p ∈ l, p.2.2 ≤ 0) :
    l.foldlM (relativeStep x) acc = .ok acc := by
  induction l with
  | nil => rfl
  | cons p l ih =>
    have : relativeStep x acc p = .ok acc := by
      unfold relativeStep
      simp only [if_pos (h p List.mem_cons_self)]
    rw [List.foldlM_cons, this]
    exact ih (fun q hq => h q (List.mem_cons_of_mem _ hq))

/-- In contact with exactly one obstacle only its contribution counts, in every dimension. -/
lemma relative_contact [Fact (2 ≤ d)] {x : Vec d} {ts : List (ObstacleTree d)} {gs : List ℝ}
    (hg : ts.mapM (fun t => t.gamma x) = .ok gs) {i : ℕ} (hi : i < ts.length)
    (hc : InContact x ts[i]) (hother : ∀ j (hj : j < ts.length), j ≠ i → ¬ InContact x ts[j]) :
    relativeVelocity x ts = relativeStep x 0 (ts[i], gs.getD i 0, 1) := by
  obtain ⟨hlen, hgi, hw⟩ := contact_gamma_weights hg hi hc hother
  have hwl : (computeGammaWeights gs 1).length = gs.length := (C29_sub_probability gs 1 1).1
  set l := ts.zip (gs.zip (computeGammaWeights gs 1)) with hl
  have hll : l.length = ts.length := by
    rw [hl, List.length_zip, List.length_zip, hwl]; omega
  have hget : ∀ j (hj : j < l.length), l[j] = (ts[j]'(by omega), gs.getD j 0, if j = i then 1 else 0) := by
    intro j hj
    have := hw j (by omega)
    rw [getD_eq _ _ (by omega)] at this
    simp only [hl, List.getElem_zip]
    rw [this, getD_eq _ _ (by omega)]
  have hil : i < l.length := by omega
  have hsplit : l = l.take i ++ l[i] :: l.drop (i + 1) := by
    rw [List.getElem_cons_drop, List.take_append_drop]
  unfold relativeVelocity
  rw [hg]
  change List.foldlM _ _ l = _
  rw [hsplit, List.foldlM_append, relative_skip (l.take i) 0 ?_]
  · change List.foldlM _ _ _ = _
    rw [List.foldlM_cons, hget i hil, if_pos rfl]
    cases hst : relativeStep x 0 (ts[i], gs.getD i 0, (1 : ℝ)) with
    | error e => rfl
    | ok acc =>
      change List.foldlM _ _ _ = _
      rw [relative_skip]
      intro p hp
      rw [List.mem_drop_iff_getElem] at hp
      obtain ⟨j, hj, rfl⟩ := hp
      rw [hget _ (by omega), if_neg (by omega)]
  · intro p hp
    rw [List.mem_take_iff_getElem] at hp
    obtain ⟨j, hj, rfl⟩ := hp
    rw [hget _ (by omega), if_neg (by omega)]

/-- C60: in every dimension, in contact with exactly one obstacle which does not rotate, the relative velocity is the
velocity of this obstacle at the position, whatever the other obstacles do. -/
theorem C60_contact_drift [Fact (2 ≤ d)] (x : Vec d) (ts : List (ObstacleTree d)) (gs : List ℝ)
    (hg : ts.mapM (fun t => t.gamma x) = .ok gs) (i : ℕ) (hi : i < ts.length)
    (hc : InContact x ts[i]) (hother : ∀ j (hj : j < ts.length), j ≠ i → ¬ InContact x ts[j])
    (hrot : ¬ Rotating ts[i]) : relativeVelocity x ts = .ok (driftVelocity x ts[i]) := by
  rw [relative_contact hg hi hc hother]
  unfold relativeStep driftVelocity
  simp only
  rw [if_neg (by norm_num)]
  cases ht : ts[i].twist with
  | none => cases hd : ts[i].deformationRate <;> simp
  | some tw =>
    obtain ⟨lin, ang⟩ := tw
    cases ang with
    | none => cases hd : ts[i].deformationRate <;> simp
    | some w => exact absurd ⟨lin, w, ht⟩ hrot

/-- C60, negative result: in three and more dimensions the call raises as soon as the position is in contact with
exactly one obstacle and this obstacle rotates, whatever the other obstacles. -/
theorem C60_rotating_raises [Fact (2 ≤ d)] (x : Vec d) (ts : List (ObstacleTree d)) (gs : List ℝ) (h3 : 3 ≤ d)
    (hg : ts.mapM (fun t => t.gamma x) = .ok gs) (i : ℕ) (hi : i < ts.length)
    (hc : InContact x ts[i]) (hother : ∀ j (hj : j < ts.length), j ≠ i → ¬ InContact x ts[j])
    (hrot : Rotating ts[i]) :
    relativeVelocity x ts = .error (if d = 3 then .valueError else .unboundLocal) := by
  obtain ⟨lin, w, ht⟩ := hrot
  rw [relative_contact hg hi hc hother]
  unfold relativeStep
  simp only [ht]
  rw [if_neg (by norm_num)]
  unfold angularVelocity
  rw [dif_neg (by omega)]
  split_ifs <;> rfl

/-- C60, negative result: in three dimensions the avoider raises `ValueError` as soon as it is in
contact with a rotating obstacle. -/
theorem C60_rotating_3d_raises (x lin : Vec 3) (w : ℝ) (t : ObstacleTree 3)
    (hc : InContact x t) (ht : t.twist = some (lin, some w)) :
    relativeVelocity x [t] = .error .valueError := by
  have hg : ∃ g, t.gamma x = .ok g := by
    unfold ObstacleTree.gamma
    cases hm : (t.components.map (fun o => o.gamma x)).min? with
    | none =>
      rw [List.min?_eq_none_iff, List.map_eq_nil_iff] at hm
      obtain ⟨o, ho, _⟩ := hc
      rw [hm] at ho; cases ho
    | some g => exact ⟨g, rfl⟩
  obtain ⟨g, hg⟩ := hg
  have hg1 : g ≤ 1 := by
    obtain ⟨o, ho, ho1⟩ := hc
    exact ((gamma_ok hg).2 o ho).trans ho1
  have hw : computeGammaWeights [g] 1 1 = [1] := by
    have := C29_critical [g] 1 1 ⟨g, by simp, hg1⟩
    have hl : (computeGammaWeights [g] 1 1).length = 1 := (C29_sub_probability [g] 1 1).1
    obtain ⟨z, hz⟩ := List.length_eq_one_iff.mp hl
    have h1 := this.1
    rw [hz] at h1 ⊢
    simpa using h1
  unfold relativeVelocity
  rw [List.mapM_cons, hg]
  change List.foldlM (relativeStep x) 0 ([t].zip ([g].zip (computeGammaWeights [g] 1 1))) = _
  rw [hw]
  change (relativeStep x 0 (t, g, 1) >>= _) = _
  have : relativeStep x 0 (t, g, 1) = .error .valueError := by
    unfold relativeStep
    simp only [ht]
    rw [if_neg (by norm_num)]
    unfold angularVelocity
    simp
  rw [this]
  rfl

/-- C60 is not vacuous: two moving balls, one of them in contact. -/
example : ∃ (x : Vec 2) (ts : List (ObstacleTree 2)) (gs : List ℝ),
    ts.mapM (fun t => t.gamma x) = .ok gs ∧ ∃ (i : ℕ) (hi : i < ts.length), InContact x ts[i]
      ∧ (∀ j (hj : j < ts.length), j ≠ i → ¬ InContact x ts[j])
      ∧ movedVelocity x 1 ts[i] = !₂[1, 3] := by
  let far : Obstacle 2 := { unitBall 2 with gamma := fun p => ‖p‖ + 7 }
  let t0 : ObstacleTree 2 := ⟨[far], 0, fun _ => none, 0, some (0, none), none⟩
  let t1 : ObstacleTree 2 := ⟨[unitBall 2], 0, fun _ => none, 0, some (!₂[0, 1], some 2), some 1⟩
  have hn : ‖(!₂[1, 0] : Vec 2)‖ = 1 := by simp [EuclideanSpace.norm_eq, Fin.sum_univ_two]
  refine ⟨!₂[1, 0], [t0, t1], [8, 1], ?_, 1, by simp, ?_, ?_, ?_⟩
  · rw [List.mapM_cons, List.mapM_cons]
    simp only [ObstacleTree.gamma, t0, t1, far, unitBall, List.map_cons, List.map_nil, hn]
    norm_num
    rfl
  · exact ⟨unitBall 2, by simp [t1], by simp [unitBall, hn]⟩
  · intro j hj hne
    have : j = 0 := by simp at hj; omega
    subst this
    rintro ⟨o, ho, h⟩
    simp only [List.getElem_cons_zero, t0, List.mem_singleton] at ho
    rw [ho] at h
    simp only [far, hn] at h
    norm_num at h
  · simp only [List.getElem_cons_succ, List.getElem_cons_zero, movedVelocity, t1]
    ext i
    fin_cases i <;> simp
    norm_num

/-- The hypotheses of `C60_contact_drift` and `C60_rotating_raises` are met: in space, a ball in contact which moves and
expands, or rotates. -/
example : ∃ (x : Vec 3) (s t : ObstacleTree 3), InContact x s ∧ InContact x t ∧ ¬ Rotating s ∧ Rotating t
    ∧ (∃ gs, [s].mapM (fun t => t.gamma x) = .ok gs) ∧ (∃ gs, [t].mapM (fun t => t.gamma x) = .ok gs)
    ∧ driftVelocity x s ≠ 0 := by
  have hn : ‖(!₂[1, 0, 0] : Vec 3)‖ = 1 := by simp [EuclideanSpace.norm_eq, Fin.sum_univ_three]
  refine ⟨!₂[1, 0, 0], ⟨[unitBall 3], 0, fun _ => none, 0, some (!₂[0, 0, 1], none), some 1⟩,
    ⟨[unitBall 3], 0, fun _ => none, 0, some (0, some 2), none⟩, ⟨unitBall 3, by simp, by simp [unitBall, hn]⟩,
    ⟨unitBall 3, by simp, by simp [unitBall, hn]⟩, ?_, ⟨0, 2, rfl⟩, ⟨[1], ?_⟩, ⟨[1], ?_⟩, ?_⟩
  · rintro ⟨lin, w, h⟩; simp at h
  · simp [ObstacleTree.gamma, unitBall, hn]
  · simp [ObstacleTree.gamma, unitBall, hn]
  · intro h
    have := congrArg (fun v : Vec 3 => v 2) h
    simp [driftVelocity] at this

end Verif
