import Verif.Spec.RelativeReference
import Verif.Lemmas.Monad
import Verif.Props.Flows

/-!
# C100: relative reference points of boundaries
-/

namespace Verif.RelativeReference

open Verif.Spec

variable {d : ℕ}

/-! ## The weights -/

/-- The factor by which the gap enters. -/
noncomputable def gapFactor (dist surface g : ℝ) : ℝ := (surface / (surface - dist)) ^ passageExponent g

/-- The weight in closed form. -/
noncomputable def closedWeight (dist surface g : ℝ) : ℝ :=
  surface * (gapFactor dist surface g - 1) / (surface * gapFactor dist surface g - dist)

lemma gapFactor_ge {dist surface g : ℝ} (h0 : 0 < dist) (h1 : dist < surface) (hg : 1 ≤ g) :
    1 ≤ gapFactor dist surface g := by
  apply Real.one_le_rpow
  · rw [le_div_iff₀ (by linarith)]; linarith
  · exact le_min (by linarith) (by norm_num)

lemma closedWeight_range {dist surface g : ℝ} (h0 : 0 < dist) (h1 : dist < surface) (hg : 1 ≤ g) :
    0 ≤ closedWeight dist surface g ∧ closedWeight dist surface g < 1 := by
  have hG := gapFactor_ge h0 h1 hg
  have hs : 0 < surface := h0.trans h1
  have h2 : surface ≤ surface * gapFactor dist surface g := le_mul_of_one_le_right hs.le hG
  have hden : 0 < surface * gapFactor dist surface g - dist := by linarith
  unfold closedWeight
  refine ⟨div_nonneg (mul_nonneg hs.le (by linarith)) hden.le, ?_⟩
  rw [div_lt_one hden]
  linarith

lemma boundaryWeight_eq {dist surface g : ℝ} (h0 : 0 < dist) (h1 : dist < surface) (hg : 1 ≤ g) :
    boundaryWeight dist surface g = some (closedWeight dist surface g) := by
  classical
  have hG := gapFactor_ge h0 h1 hg
  have hs : 0 < surface := h0.trans h1
  have h2 : surface ≤ surface * gapFactor dist surface g := le_mul_of_one_le_right hs.le hG
  have hden : 0 < surface * gapFactor dist surface g - dist := by linarith
  unfold boundaryWeight
  rw [if_neg (by linarith), if_pos ⟨h0, h1⟩]
  simp only
  have e : (surface / (surface - dist)) ^ (min ((g - 1) * 3) 5) = gapFactor dist surface g := by
    unfold gapFactor passageExponent
    rw [mul_comm (g - 1) 3]
  rw [e]
  set G := gapFactor dist surface g
  have h3 : (1 : ℝ) - G * (surface / dist) ≠ 0 := by
    have : (1 : ℝ) - G * (surface / dist) = -((surface * G - dist) / dist) := by field_simp; ring
    rw [this]
    exact neg_ne_zero.mpr (div_pos hden h0).ne'
  congr 1
  change _ = surface * (G - 1) / (surface * G - dist)
  have h4 : (surface * G - dist) ≠ 0 := hden.ne'
  have h5 : (1 : ℝ) - G * (surface / dist) = -((surface * G - dist) / dist) := by field_simp; ring
  rw [h5]
  field_simp
  ring

/-- The weight which is entered for one close boundary. -/
noncomputable def entry (ii : ℕ) (dist surface : ℝ) (point : Vec d) (o : Obstacle d × ℕ) : ℝ :=
  open Classical in
  if o.2 = ii ∨ o.1.gamma point < 1 then 0 else closedWeight dist surface (o.1.gamma point)

lemma entry_range {ii : ℕ} {dist surface : ℝ} (h0 : 0 < dist) (h1 : dist < surface) (point : Vec d)
    (o : Obstacle d × ℕ) : 0 ≤ entry ii dist surface point o ∧ entry ii dist surface point o < 1 := by
  classical
  unfold entry
  split
  · exact ⟨le_refl _, zero_lt_one⟩
  · rename_i h
    push Not at h
    exact closedWeight_range h0 h1 h.2

lemma closeWeights_eq {ii : ℕ} {dist surface : ℝ} (h0 : 0 < dist) (h1 : dist < surface) (point : Vec d) :
    ∀ l : List (Obstacle d × ℕ), closeWeights ii dist surface point l
      = .ok (l.map (fun o => some (entry ii dist surface point o))) := by
  classical
  intro l
  induction l with
  | nil => rfl
  | cons a l ih =>
    obtain ⟨o, jj⟩ := a
    unfold closeWeights
    rw [ih]
    by_cases hj : jj = ii
    · rw [if_pos hj]
      have : entry ii dist surface point (o, jj) = 0 := by
        unfold entry; rw [if_pos (Or.inl hj)]
      rw [List.map_cons, this]
      rfl
    · rw [if_neg hj]
      by_cases hg : o.gamma point < 1
      · have : entry ii dist surface point (o, jj) = 0 := by
          unfold entry; rw [if_pos (Or.inr hg)]
        have hb : boundaryWeight dist surface (o.gamma point) = some 0 := by
          unfold boundaryWeight; rw [if_pos hg]
        rw [hb, List.map_cons, this]
        simp only
        rw [if_neg (by norm_num)]
        rfl
      · have he : entry ii dist surface point (o, jj) = closedWeight dist surface (o.gamma point) := by
          unfold entry
          rw [if_neg (by
            rintro (h | h)
            · exact hj h
            · exact hg h)]
        have hr := closedWeight_range h0 h1 (not_lt.mp hg)
        rw [boundaryWeight_eq h0 h1 (not_lt.mp hg), List.map_cons, he]
        simp only
        rw [if_neg (by
          rintro (h | h)
          · linarith [hr.2]
          · linarith [hr.1])]
        rfl

lemma npMax_eq {l : List ℝ} {m : ℝ} (hm : m ∈ l) (hx : ∀ x ∈ l, x ≤ m) : npMax (l.map some) = .ok (some m) := by
  unfold npMax
  rw [if_neg (by simp)]
  have : (l.map some).filterMap id = l := by simp [List.filterMap_map]
  rw [this, List.max?_eq_some_iff.mpr ⟨hm, hx⟩]

lemma exists_max : ∀ {l : List ℝ}, l ≠ [] → ∃ m ∈ l, ∀ x ∈ l, x ≤ m := by
  intro l hl
  cases h : l.max? with
  | none => exact absurd (List.max?_eq_none_iff.mp h) hl
  | some m => exact ⟨m, List.max?_eq_some_iff.mp h⟩

/-! ## The relative reference -/

/-- The relative gamma as a function of the weight, for a reference point in the centre. -/
lemma gamma_of_weight {dist surface w : ℝ} (h0 : 0 < dist) (hw : w < 1) :
    (surface - w * dist) / (dist - w * dist) = 1 + (surface - dist) / dist * (1 / (1 - w)) := by
  have h1 : (1 - w) ≠ 0 := by linarith
  have h2 : dist - w * dist ≠ 0 := by
    have : dist - w * dist = dist * (1 - w) := by ring
    rw [this]; exact mul_ne_zero h0.ne' h1
  field_simp
  ring

lemma gamma_mono {dist surface w w' : ℝ} (h0 : 0 < dist) (h1 : dist < surface) (hw : w' < 1) (h : w ≤ w') :
    (surface - w * dist) / (dist - w * dist) ≤ (surface - w' * dist) / (dist - w' * dist) := by
  rw [gamma_of_weight h0 (by linarith), gamma_of_weight h0 hw]
  have : 1 / (1 - w) ≤ 1 / (1 - w') := one_div_le_one_div_of_le (by linarith) (by linarith)
  have h2 : 0 ≤ (surface - dist) / dist := (div_pos (by linarith) h0).le
  have := mul_le_mul_of_nonneg_left this h2
  linarith

lemma gamma_closed {dist surface g : ℝ} (h0 : 0 < dist) (h1 : dist < surface) (hg : 1 ≤ g) :
    (surface - closedWeight dist surface g * dist) / (dist - closedWeight dist surface g * dist)
      = surface / dist * gapFactor dist surface g := by
  have hG := gapFactor_ge h0 h1 hg
  have hs : 0 < surface := h0.trans h1
  have h2 : surface ≤ surface * gapFactor dist surface g := le_mul_of_one_le_right hs.le hG
  have hden : surface * gapFactor dist surface g - dist ≠ 0 := by linarith
  have hr := closedWeight_range h0 h1 hg
  rw [gamma_of_weight h0 hr.2]
  have e : 1 - closedWeight dist surface g = (surface - dist) / (surface * gapFactor dist surface g - dist) := by
    unfold closedWeight
    field_simp
    ring
  have h3 : surface - dist ≠ 0 := by linarith
  rw [e]
  field_simp
  ring

lemma surface_dist {o : Obstacle d} {position s : Vec d} (h : SurfaceAhead o position s) :
    0 < ‖position - o.center‖ ∧ ‖position - o.center‖ < ‖s - o.center‖ := by
  obtain ⟨l, hl, hs⟩ := h.ahead
  have h0 : 0 < ‖position - o.center‖ := norm_pos_iff.mpr (sub_ne_zero.mpr h.ne)
  refine ⟨h0, ?_⟩
  rw [hs, add_sub_cancel_left, norm_smul, Real.norm_of_nonneg (by linarith)]
  nlinarith

lemma relativeReference_spec {close : List (Obstacle d × ℕ)} {position s : Vec d} {o : Obstacle d} {i : ℕ}
    (hs : SurfaceAhead o position s) (hmem : (o, i) ∈ close) :
    ∃ w, (∃ a ∈ close, w = entry i ‖position - o.center‖ ‖s - o.center‖ s a)
      ∧ (∀ a ∈ close, entry i ‖position - o.center‖ ‖s - o.center‖ s a ≤ w)
      ∧ 0 ≤ w ∧ w < 1
      ∧ ∃ g, relativeReference close position o i = .ok (.set (w • position + (1 - w) • o.referencePoint) g)
        ∧ (o.referencePoint = o.center → g = some ((‖s - o.center‖ - w * ‖position - o.center‖)
          / (‖position - o.center‖ - w * ‖position - o.center‖))) := by
  classical
  obtain ⟨h0, h1⟩ := surface_dist hs
  set dist := ‖position - o.center‖ with hdist
  set surface := ‖s - o.center‖ with hsurf
  obtain ⟨w, hw, hmax⟩ := exists_max (l := close.map (entry i dist surface s))
    (by intro h; rw [List.map_eq_nil_iff] at h; rw [h] at hmem; cases hmem)
  obtain ⟨a, ha, rfl⟩ := List.mem_map.mp hw
  obtain ⟨hr0, hr1⟩ := entry_range (ii := i) h0 h1 s a
  refine ⟨_, ⟨a, ha, rfl⟩, fun b hb => hmax _ (List.mem_map_of_mem hb), hr0, hr1, ?_⟩
  set w := entry i dist surface s a
  have hm : npMax (close.map (fun o => some (entry i dist surface s o))) = .ok (some w) := by
    have : close.map (fun o => some (entry i dist surface s o)) = (close.map (entry i dist surface s)).map some := by
      rw [List.map_map]; rfl
    rw [this]
    exact npMax_eq hw hmax
  have e : relativeReference close position o i = (if w > 1 then .error .breakpoint
      else if dist - ‖w • position + (1 - w) • o.referencePoint - o.center‖ = 0
        then .ok (.set (w • position + (1 - w) • o.referencePoint) none)
        else .ok (.set (w • position + (1 - w) • o.referencePoint)
          (some ((surface - ‖w • position + (1 - w) • o.referencePoint - o.center‖)
            / (dist - ‖w • position + (1 - w) • o.referencePoint - o.center‖))))) := by
    unfold relativeReference
    rw [hs.surface]
    simp only
    rw [← hdist, ← hsurf, closeWeights_eq h0 h1]
    change (npMax (close.map (fun o => some (entry i dist surface s o))) >>= _) = _
    rw [hm]
    rfl
  rw [if_neg (by linarith)] at e
  by_cases hz : dist - ‖w • position + (1 - w) • o.referencePoint - o.center‖ = 0
  · rw [if_pos hz] at e
    refine ⟨_, e, ?_⟩
    intro href
    exfalso
    rw [href] at hz
    have : w • position + (1 - w) • o.center - o.center = w • (position - o.center) := by
      rw [sub_smul, one_smul, smul_sub]; abel
    rw [this, norm_smul, Real.norm_of_nonneg hr0, ← hdist] at hz
    nlinarith
  · rw [if_neg hz] at e
    refine ⟨_, e, ?_⟩
    intro href
    rw [href]
    have : w • position + (1 - w) • o.center - o.center = w • (position - o.center) := by
      rw [sub_smul, one_smul, smul_sub]; abel
    rw [this, norm_smul, Real.norm_of_nonneg hr0, ← hdist]

/-- The close boundaries. -/
lemma mem_close {obstacles : List (Obstacle d)} {position : Vec d} {margin : ℝ} {o : Obstacle d} {j : ℕ} :
    (o, j) ∈ (open Classical in obstacles.zipIdx.filter
        (fun o => decide (margin < o.1.gamma position ∧ o.1.isBoundary = true)))
      ↔ obstacles[j]? = some o ∧ margin < o.gamma position ∧ o.isBoundary = true := by
  classical
  rw [List.mem_filter, List.mk_mem_zipIdx_iff_getElem?]
  simp only [decide_eq_true_eq]

/-- The whole update. -/
lemma update_spec (obstacles : List (Obstacle d)) (position : Vec d) (margin : ℝ) (hmargin : margin ≤ 1)
    (hs : ∀ o ∈ obstacles, InBoundary o position → ∃ s, SurfaceAhead o position s) :
    ∃ out, updateRelativeReferencePoint obstacles position margin = .ok out ∧ out.length = obstacles.length
      ∧ (∀ (i : ℕ) (o : Obstacle d), obstacles[i]? = some o → ¬ InBoundary o position → out[i]? = some .reset)
      ∧ ∀ (i : ℕ) (o : Obstacle d) (s : Vec d), obstacles[i]? = some o → InBoundary o position →
        SurfaceAhead o position s → ∃ (w : ℝ) (g : Option ℝ), 0 ≤ w ∧ w < 1
          ∧ out[i]? = some (.set (w • position + (1 - w) • o.referencePoint) g)
          ∧ (w = 0 ∨ ∃ o', PassageAt obstacles margin position i s o'
            ∧ w = closedWeight ‖position - o.center‖ ‖s - o.center‖ (o'.gamma s))
          ∧ (∀ o', PassageAt obstacles margin position i s o' →
            closedWeight ‖position - o.center‖ ‖s - o.center‖ (o'.gamma s) ≤ w)
          ∧ (o.referencePoint = o.center → g = some ((‖s - o.center‖ - w * ‖position - o.center‖)
            / (‖position - o.center‖ - w * ‖position - o.center‖))) := by
  classical
  set close := obstacles.zipIdx.filter
    (fun o => decide (margin < o.1.gamma position ∧ o.1.isBoundary = true)) with hclose
  have hper : ∀ a ∈ obstacles.zipIdx, ∃ r, (if 1 < a.1.gamma position ∧ a.1.isBoundary = true
      then relativeReference close position a.1 a.2 else .ok .reset) = .ok r := by
    rintro ⟨o, i⟩ ha
    have hi := List.mk_mem_zipIdx_iff_getElem?.mp ha
    by_cases hb : 1 < o.gamma position ∧ o.isBoundary = true
    · obtain ⟨s, hsa⟩ := hs o (List.mem_of_getElem? hi) ⟨hb.2, hb.1⟩
      obtain ⟨w, _, _, _, _, g, e, _⟩ := relativeReference_spec (close := close) (i := i) hsa
        (mem_close.mpr ⟨hi, by linarith [hb.1], hb.2⟩)
      exact ⟨_, by simp only; rw [if_pos hb, e]⟩
    · exact ⟨.reset, by simp only; rw [if_neg hb]⟩
  obtain ⟨out, hout⟩ : ∃ out, obstacles.zipIdx.mapM (fun o =>
      if 1 < o.1.gamma position ∧ o.1.isBoundary = true then relativeReference close position o.1 o.2
      else .ok .reset) = .ok out := by
    have : ∀ l : List (Obstacle d × ℕ), (∀ a ∈ l, ∃ r, (if 1 < a.1.gamma position ∧ a.1.isBoundary = true
        then relativeReference close position a.1 a.2 else .ok .reset) = .ok r) →
        ∃ out, List.Forall₂ (fun a r => (if 1 < a.1.gamma position ∧ a.1.isBoundary = true
        then relativeReference close position a.1 a.2 else .ok .reset) = .ok r) l out := by
      intro l
      induction l with
      | nil => intro _; exact ⟨[], .nil⟩
      | cons a l ih =>
        intro h
        obtain ⟨r, hr⟩ := h a List.mem_cons_self
        obtain ⟨out, ho⟩ := ih (fun a ha => h a (List.mem_cons_of_mem _ ha))
        exact ⟨r :: out, .cons hr ho⟩
    obtain ⟨out, ho⟩ := this _ hper
    exact ⟨out, mapM_ok.mpr ho⟩
  have hf := mapM_ok.mp hout
  have hlen := hf.length_eq
  rw [List.length_zipIdx] at hlen
  have hget : ∀ (i : ℕ) (o : Obstacle d), obstacles[i]? = some o → ∃ r, out[i]? = some r
      ∧ (if 1 < o.gamma position ∧ o.isBoundary = true
        then relativeReference close position o i else .ok .reset) = .ok r := by
    intro i o hi
    have hlt := (List.getElem?_eq_some_iff.mp hi).1
    have h2 : i < out.length := by omega
    refine ⟨out[i], List.getElem?_eq_getElem h2, ?_⟩
    have h3 := List.Forall₂.get hf (i := i) (by rw [List.length_zipIdx]; exact hlt) h2
    have h4 : obstacles.zipIdx[i]'(by rw [List.length_zipIdx]; exact hlt) = (o, i) := by
      rw [List.getElem_zipIdx]
      simp [(List.getElem?_eq_some_iff.mp hi).2]
    simp only [List.get_eq_getElem] at h3
    rw [h4] at h3
    exact h3
  refine ⟨out, hout, hlen.symm, ?_, ?_⟩
  · intro i o hi hn
    obtain ⟨r, h1, h2⟩ := hget i o hi
    rw [if_neg (fun h => hn ⟨h.2, h.1⟩)] at h2
    injection h2 with h2
    rw [h1, h2]
  · intro i o s hi hb hsa
    obtain ⟨r, h1, h2⟩ := hget i o hi
    rw [if_pos ⟨hb.2, hb.1⟩] at h2
    obtain ⟨w, ⟨a, ha, hw⟩, hmax, hw0, hw1, g, e, eg⟩ := relativeReference_spec (close := close) (i := i) hsa
      (mem_close.mpr ⟨hi, by linarith [hb.2], hb.1⟩)
    rw [e] at h2
    injection h2 with h2
    refine ⟨w, g, hw0, hw1, by rw [h1, h2], ?_, ?_, eg⟩
    · obtain ⟨o', j⟩ := a
      obtain ⟨c1, c2, c3⟩ := mem_close.mp ha
      by_cases hc : j = i ∨ o'.gamma s < 1
      · left
        rw [hw]
        unfold entry
        rw [if_pos hc]
      · right
        have hcon := hc
        push Not at hcon
        refine ⟨o', ⟨j, hcon.1, c1, c3, c2, hcon.2⟩, ?_⟩
        rw [hw]
        unfold entry
        rw [if_neg hc]
    · rintro o' ⟨j, hj, c1, c2, c3, c4⟩
      have := hmax (o', j) (mem_close.mpr ⟨c1, c3, c2⟩)
      unfold entry at this
      rw [if_neg (by
        rintro (h | h)
        · exact hj h
        · linarith)] at this
      exact this

/-- C100 (partial): the update succeeds; every boundary that contains the position gets a relative reference point
on the segment between its reference point and the position, before the position, and equal to the reference point
if no other boundary contains the surface point ahead; all other obstacles are reset.

Missing: positions in the centre of a boundary (`C100_centre`). -/
theorem C100_reference_partial (obstacles : List (Obstacle d)) (position : Vec d) (margin : ℝ) (hmargin : margin ≤ 1)
    (hs : ∀ o ∈ obstacles, InBoundary o position → ∃ s, SurfaceAhead o position s) :
    ∃ out, updateRelativeReferencePoint obstacles position margin = .ok out ∧ out.length = obstacles.length
      ∧ (∀ (i : ℕ) (o : Obstacle d), obstacles[i]? = some o → ¬ InBoundary o position → out[i]? = some .reset)
      ∧ ∀ (i : ℕ) (o : Obstacle d) (s : Vec d), obstacles[i]? = some o → InBoundary o position →
        SurfaceAhead o position s → ∃ (w : ℝ) (g : Option ℝ), 0 ≤ w ∧ w < 1
          ∧ out[i]? = some (.set (w • position + (1 - w) • o.referencePoint) g)
          ∧ ((∀ o', PassageAt obstacles margin position i s o' → o'.gamma s = 1) → w = 0)
          ∧ (0 < w ↔ ∃ o', PassageAt obstacles margin position i s o' ∧ 1 < o'.gamma s) := by
  obtain ⟨out, a1, a2, a3, a4⟩ := update_spec obstacles position margin hmargin hs
  refine ⟨out, a1, a2, a3, ?_⟩
  intro i o s hi hb hsa
  obtain ⟨w, g, w0, w1, b1, b2, b3, _⟩ := a4 i o s hi hb hsa
  obtain ⟨h0, h1⟩ := surface_dist hsa
  have hone : closedWeight ‖position - o.center‖ ‖s - o.center‖ 1 = 0 := by
    unfold closedWeight gapFactor passageExponent
    simp
  have hiff : 0 < w ↔ ∃ o', PassageAt obstacles margin position i s o' ∧ 1 < o'.gamma s := by
    constructor
    · intro hw
      rcases b2 with h | ⟨o', ho', h⟩
      · linarith
      · refine ⟨o', ho', ?_⟩
        obtain ⟨_, _, _, _, _, h4⟩ := ho'
        rcases h4.lt_or_eq with h5 | h5
        · exact h5
        · rw [← h5, hone] at h; linarith
    · rintro ⟨o', ho', hg⟩
      refine lt_of_lt_of_le ?_ (b3 o' ho')
      have hG : 1 < gapFactor ‖position - o.center‖ ‖s - o.center‖ (o'.gamma s) := by
        apply Real.one_lt_rpow
        · rw [lt_div_iff₀ (by linarith)]; linarith
        · exact lt_min (by linarith) (by norm_num)
      have hsp : 0 < ‖s - o.center‖ := h0.trans h1
      have : ‖s - o.center‖ < ‖s - o.center‖ * gapFactor ‖position - o.center‖ ‖s - o.center‖ (o'.gamma s) :=
        lt_mul_of_one_lt_right hsp hG
      exact div_pos (mul_pos hsp (by linarith)) (by linarith)
  refine ⟨w, g, w0, w1, b1, ?_, hiff⟩
  intro hn
  by_contra hw
  obtain ⟨o', ho', hg⟩ := hiff.mp (lt_of_le_of_ne w0 (Ne.symm hw))
  rw [hn o' ho'] at hg
  exact lt_irrefl _ hg

/-- C100 (partial): for a boundary with its reference point in the centre the relative gamma of the position is the
ratio of the distances of surface and position from the centre, times `(surface / gap) ^ e` with the largest
exponent `e` of the boundaries behind the surface; it is above one, and without limit towards an open passage.

Missing: reference points elsewhere, where the relative gamma can be negative (`C100_off_centre`). -/
theorem C100_gamma_partial (obstacles : List (Obstacle d)) (position : Vec d) (margin : ℝ) (hmargin : margin ≤ 1)
    (hs : ∀ o ∈ obstacles, InBoundary o position → ∃ s, SurfaceAhead o position s) (i : ℕ) (o : Obstacle d) (s : Vec d)
    (ho : obstacles[i]? = some o) (hb : InBoundary o position) (hsa : SurfaceAhead o position s)
    (href : o.referencePoint = o.center) :
    ∃ out ref g, updateRelativeReferencePoint obstacles position margin = .ok out
      ∧ out[i]? = some (.set ref (some g)) ∧ 1 < g
      ∧ ‖s - o.center‖ / ‖position - o.center‖ ≤ g
      ∧ (∀ o', PassageAt obstacles margin position i s o' →
        ‖s - o.center‖ / ‖position - o.center‖ * (‖s - o.center‖ / ‖s - position‖) ^ passageExponent (o'.gamma s) ≤ g)
      ∧ (g = ‖s - o.center‖ / ‖position - o.center‖ ∨ ∃ o', PassageAt obstacles margin position i s o'
        ∧ g = ‖s - o.center‖ / ‖position - o.center‖
          * (‖s - o.center‖ / ‖s - position‖) ^ passageExponent (o'.gamma s)) := by
  obtain ⟨out, a1, a2, a3, a4⟩ := update_spec obstacles position margin hmargin hs
  obtain ⟨w, g, w0, w1, b1, b2, b3, b4⟩ := a4 i o s ho hb hsa
  obtain ⟨h0, h1⟩ := surface_dist hsa
  have hgap : ‖s - position‖ = ‖s - o.center‖ - ‖position - o.center‖ := by
    obtain ⟨l, hl, e⟩ := hsa.ahead
    have e1 : s - position = (l - 1) • (position - o.center) := by
      rw [e, sub_smul, one_smul]; abel
    have e2 : s - o.center = l • (position - o.center) := by rw [e]; abel
    rw [e1, e2, norm_smul, norm_smul, Real.norm_of_nonneg (by linarith), Real.norm_of_nonneg (by linarith)]
    ring
  have hbase : ‖s - o.center‖ / ‖position - o.center‖
      ≤ (‖s - o.center‖ - w * ‖position - o.center‖) / (‖position - o.center‖ - w * ‖position - o.center‖) := by
    have := gamma_mono h0 h1 w1 w0
    simpa using this
  refine ⟨out, _, _, a1, by rw [b1, b4 href], ?_, hbase, ?_, ?_⟩
  · refine lt_of_lt_of_le ?_ hbase
    rw [lt_div_iff₀ h0]; linarith
  · intro o' ho'
    have hg : 1 ≤ o'.gamma s := by
      obtain ⟨_, _, _, _, _, h4⟩ := ho'
      exact h4
    have := gamma_mono h0 h1 w1 (b3 o' ho')
    rw [gamma_closed h0 h1 hg] at this
    rw [hgap]
    exact this
  · rcases b2 with h | ⟨o', ho', h⟩
    · left; rw [h]; simp
    · right
      have hg : 1 ≤ o'.gamma s := by
        obtain ⟨_, _, _, _, _, h4⟩ := ho'
        exact h4
      refine ⟨o', ho', ?_⟩
      rw [h, gamma_closed h0 h1 hg, hgap]
      rfl

/-- C100, violated by the code: with the reference point of a single boundary further from the centre than the
position, the relative gamma of the position inside is below one, and negative for a position close enough to the
centre. -/
theorem C100_off_centre (o : Obstacle d) (position s : Vec d) (margin : ℝ) (hmargin : margin ≤ 1)
    (hb : InBoundary o position) (hsa : SurfaceAhead o position s)
    (hfar : ‖position - o.center‖ < ‖o.referencePoint - o.center‖) :
    ∃ ref g, updateRelativeReferencePoint [o] position margin = .ok [.set ref (some g)] ∧ g < 1
      ∧ (‖o.referencePoint - o.center‖ < ‖s - o.center‖ → g < 0) := by
  classical
  obtain ⟨h0, h1⟩ := surface_dist hsa
  have hclose : [o].zipIdx.filter (fun o => decide (margin < o.1.gamma position ∧ o.1.isBoundary = true)) = [(o, 0)] := by
    have : margin < o.gamma position := by linarith [hb.2]
    simp [this, hb.1]
  have hw : closeWeights 0 ‖position - o.center‖ ‖s - o.center‖ s [(o, 0)] = .ok [some 0] := by
    rw [closeWeights_eq h0 h1]
    simp [entry]
  have hn : npMax [some (0 : ℝ)] = .ok (some 0) := npMax_eq (l := [0]) (by simp) (by simp)
  have hd : ‖position - o.center‖ - ‖o.referencePoint - o.center‖ < 0 := by linarith
  have e : relativeReference [(o, 0)] position o 0 = .ok (.set o.referencePoint
      (some ((‖s - o.center‖ - ‖o.referencePoint - o.center‖)
        / (‖position - o.center‖ - ‖o.referencePoint - o.center‖)))) := by
    unfold relativeReference
    rw [hsa.surface]
    refine bind_ok.mpr ⟨_, hw, bind_ok.mpr ⟨_, hn, ?_⟩⟩
    simp only
    rw [if_neg (by norm_num)]
    simp only [zero_smul, sub_zero, one_smul, zero_add]
    rw [if_neg hd.ne]
  refine ⟨o.referencePoint, (‖s - o.center‖ - ‖o.referencePoint - o.center‖)
        / (‖position - o.center‖ - ‖o.referencePoint - o.center‖), ?_, ?_, ?_⟩
  · unfold updateRelativeReferencePoint
    simp only
    rw [hclose]
    refine mapM_ok.mpr (.cons ?_ .nil)
    simp only
    rw [if_pos ⟨hb.2, hb.1⟩, e]
  · rw [div_lt_one_of_neg hd]; linarith
  · intro h2
    exact div_neg_of_pos_of_neg (by linarith) hd

/-- C100, violated by the code: in the centre of a boundary the relative reference point is nan as soon as another
boundary contains the surface point. -/
theorem C100_centre (close : List (Obstacle d × ℕ)) (o : Obstacle d) (i : ℕ) (s : Vec d)
    (hs : o.intersection o.center 0 = some s) (o' : Obstacle d) (j : ℕ) (hj : (o', j) ∈ close) (hji : j ≠ i)
    (hg : 1 ≤ o'.gamma s) : relativeReference close o.center o i = .ok .nan := by
  classical
  have hbw : ∀ g : ℝ, boundaryWeight 0 ‖s - o.center‖ g = if g < 1 then some 0 else none := by
    intro g
    unfold boundaryWeight
    by_cases h : g < 1
    · rw [if_pos h, if_pos h]
    · rw [if_neg h, if_neg h, if_neg (by simp)]
  have hcw : ∀ l : List (Obstacle d × ℕ), ∃ ws, closeWeights i 0 ‖s - o.center‖ s l = .ok ws
      ∧ ((o', j) ∈ l → none ∈ ws) := by
    intro l
    induction l with
    | nil => exact ⟨[], rfl, by simp⟩
    | cons a l ih =>
      obtain ⟨o1, j1⟩ := a
      obtain ⟨ws, h1, h2⟩ := ih
      by_cases hj1 : j1 = i
      · refine ⟨some 0 :: ws, ?_, ?_⟩
        · unfold closeWeights
          rw [if_pos hj1, h1]; rfl
        · intro hm
          rcases List.mem_cons.mp hm with h | h
          · cases h; exact absurd hj1 hji
          · exact List.mem_cons_of_mem _ (h2 h)
      · by_cases hg1 : o1.gamma s < 1
        · refine ⟨some 0 :: ws, ?_, ?_⟩
          · unfold closeWeights
            rw [if_neg hj1, hbw, if_pos hg1]
            simp only
            rw [if_neg (by norm_num), h1]; rfl
          · intro hm
            rcases List.mem_cons.mp hm with h | h
            · cases h; linarith
            · exact List.mem_cons_of_mem _ (h2 h)
        · refine ⟨none :: ws, ?_, fun _ => List.mem_cons_self⟩
          unfold closeWeights
          rw [if_neg hj1, hbw, if_neg hg1]
          simp only
          rw [h1]; rfl
  obtain ⟨ws, h1, h2⟩ := hcw close
  unfold relativeReference
  rw [sub_self, hs]
  simp only
  rw [norm_zero, h1]
  change (npMax ws >>= _) = _
  have : npMax ws = .ok none := by
    unfold npMax
    rw [if_pos (h2 hj)]
  rw [this]
  rfl

/-- C100, a defect: `get_boundary_list` raises `AttributeError` for every container with obstacles. -/
theorem C100_boundary_list (obstacles : List (Obstacle d)) (h : obstacles ≠ []) :
    getBoundaryList obstacles = .error .attributeError := by
  cases obstacles with
  | nil => exact absurd rfl h
  | cons o os => rfl

/-! ## Examples -/

/-- The unit disc around `m` as a boundary, with reference point `r`. -/
noncomputable def discWall (m r : Vec 2) : Obstacle 2 where
  gamma p := 2 - ‖p - m‖
  normal p := unit (p - m)
  reference p := unit (m - p)
  referencePoint := r
  center := m
  intersection _ v := some (m + unit v)
  tailEffect := true
  isBoundary := true

lemma discWall_surface {m r p : Vec 2} (h0 : p ≠ m) (h : InBoundary (discWall m r) p) :
    SurfaceAhead (discWall m r) p (m + unit (p - m)) := by
  have h1 : ‖p - m‖ < 1 := by
    have : (1 : ℝ) < 2 - ‖p - m‖ := h.2
    linarith
  have h2 : 0 < ‖p - m‖ := norm_pos_iff.mpr (sub_ne_zero.mpr h0)
  refine ⟨rfl, h0, 1 / ‖p - m‖, ?_, ?_⟩
  · rw [lt_div_iff₀ h2]; linarith
  · change m + unit (p - m) = m + (1 / ‖p - m‖) • (p - m)
    unfold unit
    rw [one_div]

lemma norm_half : ‖(!₂[1 / 2, 0] : Vec 2)‖ = 1 / 2 := by
  rw [EuclideanSpace.norm_eq]
  simp

/-- C100 is not vacuous: in the first of two overlapping discs, towards the second one. -/
example : ∃ out ref g, updateRelativeReferencePoint [discWall 0 0, discWall !₂[3 / 2, 0] !₂[3 / 2, 0]] !₂[1 / 2, 0] 0
      = .ok out ∧ out[0]? = some (.set ref (some g)) ∧ 1 < g := by
  have hin : InBoundary (discWall 0 0) !₂[1 / 2, 0] := by
    refine ⟨rfl, ?_⟩
    change (1 : ℝ) < 2 - ‖(!₂[1 / 2, 0] : Vec 2) - 0‖
    rw [sub_zero, norm_half]; norm_num
  have hne : (!₂[1 / 2, 0] : Vec 2) ≠ 0 := by
    intro h
    have := congrArg (fun y : Vec 2 => y 0) h
    simp at this
  obtain ⟨out, ref, g, h1, h2, h3, _⟩ := C100_gamma_partial
    [discWall 0 0, discWall !₂[3 / 2, 0] !₂[3 / 2, 0]] !₂[1 / 2, 0] 0 zero_le_one (by
      intro o ho hb
      rcases List.mem_cons.mp ho with rfl | ho
      · exact ⟨_, discWall_surface hne hb⟩
      · have : o = discWall !₂[3 / 2, 0] !₂[3 / 2, 0] := by simpa using ho
        subst this
        refine ⟨_, discWall_surface ?_ hb⟩
        intro h
        have := congrArg (fun y : Vec 2 => y 0) h
        norm_num at this)
    0 _ _ rfl hin (discWall_surface hne hin) rfl
  exact ⟨out, ref, g, h1, h2, h3⟩

/-- There is a passage for the first disc: the hypothesis of the strict part of `C100_reference_partial`. -/
example : PassageAt [discWall 0 0, discWall !₂[3 / 2, 0] !₂[3 / 2, 0]] 0 !₂[1 / 2, 0] 0 !₂[1, 0]
    (discWall !₂[3 / 2, 0] !₂[3 / 2, 0]) := by
  refine ⟨1, by decide, rfl, rfl, ?_, ?_⟩
  · have : (!₂[1 / 2, 0] : Vec 2) - !₂[3 / 2, 0] = !₂[-1, 0] := by
      ext i; fin_cases i <;> norm_num
    change (0 : ℝ) < 2 - ‖(!₂[1 / 2, 0] : Vec 2) - !₂[3 / 2, 0]‖
    rw [this, EuclideanSpace.norm_eq]
    simp
  · have : (!₂[1, 0] : Vec 2) - !₂[3 / 2, 0] = !₂[-(1 / 2), 0] := by
      ext i; fin_cases i <;> norm_num
    change (1 : ℝ) ≤ 2 - ‖(!₂[1, 0] : Vec 2) - !₂[3 / 2, 0]‖
    rw [this, EuclideanSpace.norm_eq]
    simp
    norm_num

/-- `C100_off_centre` occurs: reference point `(0.8, 0)`, position `(0.5, 0)` in the unit disc. -/
example : ∃ ref g, updateRelativeReferencePoint [discWall 0 !₂[4 / 5, 0]] !₂[1 / 2, 0] 0 = .ok [.set ref (some g)]
    ∧ g < 0 := by
  have hin : InBoundary (discWall 0 !₂[4 / 5, 0]) !₂[1 / 2, 0] := by
    refine ⟨rfl, ?_⟩
    change (1 : ℝ) < 2 - ‖(!₂[1 / 2, 0] : Vec 2) - 0‖
    rw [sub_zero, norm_half]; norm_num
  have hne : (!₂[1 / 2, 0] : Vec 2) ≠ 0 := by
    intro h
    have := congrArg (fun y : Vec 2 => y 0) h
    simp at this
  have hr : ‖(!₂[4 / 5, 0] : Vec 2)‖ = 4 / 5 := by
    rw [EuclideanSpace.norm_eq]
    simp only [Fin.sum_univ_two]
    simp
    exact Real.sqrt_sq (by norm_num)
  obtain ⟨ref, g, h1, _, h3⟩ := C100_off_centre _ _ _ 0 zero_le_one hin (discWall_surface hne hin) (by
    change ‖(!₂[1 / 2, 0] : Vec 2) - 0‖ < ‖(!₂[4 / 5, 0] : Vec 2) - 0‖
    rw [sub_zero, sub_zero, norm_half, hr]; norm_num)
  refine ⟨ref, g, h1, h3 ?_⟩
  change ‖(!₂[4 / 5, 0] : Vec 2) - 0‖ < ‖(0 : Vec 2) + unit (!₂[1 / 2, 0] - 0) - 0‖
  rw [sub_zero, sub_zero, zero_add, unit_norm (by rw [sub_zero]; exact hne), hr]
  norm_num

end Verif.RelativeReference
