import Verif.Props.ComparisonMetrics

/-!
# C123: statistics of the path following

`TrajectoryEvaluator.run` and `get_converged` of `evaluation_path_following.py`.
-/

namespace Verif
open Spec Comparison

/-- The runs (with their numbers) of a table which are selected. -/
def chosen (runs : List Run) (selected : List Bool) : List Run :=
  ((runs.zip selected).filter fun p => p.2).map Prod.fst

lemma mem_chosen {runs : List Run} {selected : List Bool} {r : Run} :
    r ∈ chosen runs selected ↔ ∃ i : ℕ, runs[i]? = some r ∧ selected[i]? = some true := by
  unfold chosen
  constructor
  · intro h
    obtain ⟨⟨r', b⟩, hp, rfl⟩ := List.mem_map.mp h
    obtain ⟨hz, hb⟩ := List.mem_filter.mp hp
    obtain ⟨i, hi, e⟩ := List.mem_iff_getElem.mp hz
    rw [List.getElem_zip] at e
    rw [List.length_zip] at hi
    simp only at hb
    subst hb
    obtain ⟨e1, e2⟩ := Prod.mk.inj e
    exact ⟨i, by rw [← e1]; exact List.getElem?_eq_getElem (by omega),
      by rw [← e2]; exact List.getElem?_eq_getElem (by omega)⟩
  · rintro ⟨i, h1, h2⟩
    refine List.mem_map.mpr ⟨(r, true), List.mem_filter.mpr ⟨?_, rfl⟩, rfl⟩
    refine List.mem_of_getElem? (i := i) ?_
    rw [List.getElem?_zip_eq_some]
    exact ⟨h1, h2⟩

/-- C123: the runs selected for the comparison are exactly those which converged in every table (all of them with the
same number of runs). -/
theorem C123_common (tables : List (List Run)) (n : ℕ) (hne : tables ≠ []) (hlen : ∀ t ∈ tables, t.length = n) :
    ∃ out, commonConverged tables = .ok out ∧ out.length = n
      ∧ ∀ i : ℕ, out[i]? = some true ↔ ∀ t ∈ tables, ∃ r, t[i]? = some r ∧ 0 < r.converged := by
  have hconv : ∀ (t : List Run) (i : ℕ), (converged t)[i]? = some true ↔ ∃ r, t[i]? = some r ∧ 0 < r.converged := by
    intro t i
    unfold converged
    rw [List.getElem?_map]
    cases h : t[i]? with
    | none => simp
    | some r => simp
  have key : ∀ (ts : List (List Run)) (acc : List Bool), acc.length = n → (∀ t ∈ ts, t.length = n) →
      (ts.foldl (fun c t => List.zipWith and c (converged t)) acc).length = n
        ∧ ∀ i : ℕ, (ts.foldl (fun c t => List.zipWith and c (converged t)) acc)[i]? = some true
          ↔ acc[i]? = some true ∧ ∀ t ∈ ts, (converged t)[i]? = some true := by
    intro ts
    induction ts with
    | nil => intro acc ha _; exact ⟨ha, fun i => by simp⟩
    | cons t ts ih =>
      intro acc ha ht
      have hl : (List.zipWith and acc (converged t)).length = n := by
        rw [List.length_zipWith, ha, converged, List.length_map, ht t (by simp), min_self]
      obtain ⟨h1, h2⟩ := ih _ hl fun t' h' => ht t' (by simp [h'])
      refine ⟨h1, fun i => ?_⟩
      have e : (List.zipWith and acc (converged t))[i]? = some true
          ↔ acc[i]? = some true ∧ (converged t)[i]? = some true := by
        rw [List.getElem?_zipWith]
        cases acc[i]? with
        | none => simp
        | some a =>
          cases (converged t)[i]? with
          | none => simp
          | some b => simp
      rw [List.foldl_cons, h2 i]
      constructor
      · rintro ⟨ha', hts⟩
        obtain ⟨e1, e2⟩ := e.mp ha'
        refine ⟨e1, fun t' h' => ?_⟩
        rcases List.mem_cons.mp h' with rfl | h'
        · exact e2
        · exact hts t' h'
      · rintro ⟨e1, e2⟩
        exact ⟨e.mpr ⟨e1, e2 t (by simp)⟩, fun t' h' => e2 t' (by simp [h'])⟩
  match tables, hne, hlen with
  | first :: rest, _, hlen =>
    obtain ⟨h1, h2⟩ := key (first :: rest) (converged first)
      (by rw [converged, List.length_map, hlen first (by simp)]) hlen
    refine ⟨_, rfl, h1, fun i => ?_⟩
    rw [h2 i]
    constructor
    · rintro ⟨_, h⟩ t ht
      exact (hconv t i).mp (h t ht)
    · intro h
      exact ⟨(hconv first i).mpr (h first (by simp)), fun t ht => (hconv t i).mpr (h t ht)⟩

lemma sampleVar_spec (l : List ℝ) (hl : 2 ≤ l.length) :
    ∃ v, sampleVar l = .ok v ∧ 0 ≤ v ∧ (v = 0 ↔ ∀ x ∈ l, ∀ y ∈ l, x = y) := by
  have hne : l ≠ [] := by rintro rfl; simp at hl
  have hpos : (0 : ℝ) < (l.length : ℝ) - 1 := by
    have : (2 : ℝ) ≤ l.length := by exact_mod_cast hl
    linarith
  have hnn : ∀ x ∈ l.map fun y => (y - average l) ^ 2, 0 ≤ x := by
    intro x hx
    obtain ⟨y, _, rfl⟩ := List.mem_map.mp hx
    positivity
  have hne' : (l.map fun y => (y - average l) ^ 2) ≠ [] := fun h0 => hne (List.map_eq_nil_iff.mp h0)
  refine ⟨(l.map fun y => (y - average l) ^ 2).sum / ((l.length : ℝ) - 1), ?_, ?_, ?_⟩
  · unfold sampleVar
    exact bind_ok.mpr ⟨_, cmp_mean_ok.mpr ⟨hne, rfl⟩, if_neg (by omega)⟩
  · exact div_nonneg (List.sum_nonneg hnn) hpos.le
  · have e : (l.map fun y => (y - average l) ^ 2).sum / ((l.length : ℝ) - 1) = 0
        ↔ average (l.map fun y => (y - average l) ^ 2) = 0 := by
      have hl0 : ((l.map fun y => (y - average l) ^ 2).length : ℝ) ≠ 0 := by
        exact_mod_cast (List.length_pos_iff.mpr hne').ne'
      conv_rhs => rw [average]
      rw [div_eq_zero_iff, div_eq_zero_iff]
      constructor
      · rintro (h | h)
        · exact Or.inl h
        · exact absurd h hpos.ne'
      · rintro (h | h)
        · exact Or.inl h
        · exact absurd h hl0
    rw [e, average_eq_zero hne' hnn]
    constructor
    · intro h x hx y hy
      have hx' := h _ (List.mem_map.mpr ⟨x, hx, rfl⟩)
      have hy' := h _ (List.mem_map.mpr ⟨y, hy, rfl⟩)
      have hx2 := pow_eq_zero_iff two_ne_zero |>.mp hx'
      have hy2 := pow_eq_zero_iff two_ne_zero |>.mp hy'
      linarith
    · intro h z hz
      obtain ⟨x, hx, rfl⟩ := List.mem_map.mp hz
      have : average l = x := average_const hne fun y hy => h y hy x hx
      rw [this, sub_self]
      norm_num

/-- C123 (partial): the statistics of a table.  The fraction of converged runs counts all runs; path length, occupied
fraction and margin are averages over the selected runs, and the variances are the sample variances of those.

Missing: the spread of the occupied fraction (`C123_no_spread`). -/
theorem C123_statistics_partial (runs : List Run) (selected : List Bool) (hne : runs ≠ []) :
    ∃ st, run true runs selected = .ok st
      ∧ st.fracConverged = ((runs.filter fun r => 0 < r.converged).length : ℝ) / runs.length
      ∧ 0 ≤ st.fracConverged ∧ st.fracConverged ≤ 1
      ∧ (st.fracConverged = 1 ↔ ∀ r ∈ runs, 0 < r.converged)
      ∧ (chosen runs selected ≠ [] →
        st.distanceMean = .ok (average ((chosen runs selected).map Run.distance))
        ∧ st.occupiedMean = .ok (1 - average ((chosen runs selected).map Run.freeFraction))
        ∧ st.gammasMean = .ok (average ((chosen runs selected).map Run.gammas)))
      ∧ (2 ≤ (chosen runs selected).length → ∃ v w, st.distanceVar = .ok v ∧ st.gammasVar = .ok w ∧ 0 ≤ v ∧ 0 ≤ w
        ∧ (v = 0 ↔ ∀ r ∈ chosen runs selected, ∀ r' ∈ chosen runs selected, r.distance = r'.distance)) := by
  have hlen : (0 : ℝ) < runs.length := by exact_mod_cast List.length_pos_iff.mpr hne
  have hcount : runs.countP (fun r => decide (r.converged > 0)) = (runs.filter fun r => 0 < r.converged).length := by
    rw [List.countP_eq_length_filter]
  refine ⟨_, by rw [run, if_neg (by simp), if_neg hne], ?_, ?_, ?_, ?_, ?_, ?_⟩
  · simp only [hcount]
  · positivity
  · rw [div_le_one hlen]
    exact_mod_cast List.countP_le_length
  · rw [div_eq_one_iff_eq hlen.ne', Nat.cast_inj, List.countP_eq_length]
    simp
  · intro hc
    refine ⟨cmp_mean_ok.mpr ⟨fun h0 => hc (List.map_eq_nil_iff.mp h0), rfl⟩,
      cmp_mean_ok.mpr ⟨fun h0 => hc (List.map_eq_nil_iff.mp h0), ?_⟩,
      cmp_mean_ok.mpr ⟨fun h0 => hc (List.map_eq_nil_iff.mp h0), rfl⟩⟩
    rw [← average_map_sub _ (fun h0 => hc (List.map_eq_nil_iff.mp h0)), List.map_map]
    rfl
  · intro h2
    obtain ⟨v, hv, hv0, hve⟩ := sampleVar_spec ((chosen runs selected).map Run.distance) (by simpa using h2)
    obtain ⟨w, hw, hw0, _⟩ := sampleVar_spec ((chosen runs selected).map Run.gammas) (by simpa using h2)
    refine ⟨v, w, hv, hw, hv0, hw0, ?_⟩
    rw [hve]
    constructor
    · intro h r hr r' hr'
      exact h _ (List.mem_map.mpr ⟨r, hr, rfl⟩) _ (List.mem_map.mpr ⟨r', hr', rfl⟩)
    · intro h x hx y hy
      obtain ⟨r, hr, rfl⟩ := List.mem_map.mp hx
      obtain ⟨r', hr', rfl⟩ := List.mem_map.mp hy
      exact h r hr r' hr'

/-- C123, negative result: the reported spread of the occupied fraction is zero for every table, whatever the runs
are: it is the standard deviation of the mean value, not of the runs. -/
theorem C123_no_spread (runs : List Run) (selected : List Bool) (hc : chosen runs selected ≠ []) :
    ∃ st, run true runs selected = .ok st ∧ st.occupiedStd = .ok 0 := by
  have hne : runs ≠ [] := by
    rintro rfl
    exact hc rfl
  refine ⟨_, by rw [run, if_neg (by simp), if_neg hne], ?_⟩
  have h1 := cmp_mean_ok.mpr ⟨fun h0 => hc (List.map_eq_nil_iff.mp h0),
    (rfl : average ((chosen runs selected).map fun r => 1 - r.freeFraction) = _)⟩
  refine bind_ok.mpr ⟨_, h1, ?_⟩
  unfold std
  refine bind_ok.mpr ⟨_, cmp_mean_ok.mpr ⟨by simp, rfl⟩, ?_⟩
  refine bind_ok.mpr ⟨0, cmp_mean_ok.mpr ⟨by simp, ?_⟩, by simp⟩
  simp [average]

/-- C123, negative results: `run` fails if the table was not loaded by `get_converged` before, and on a table without
runs; an empty list of tables has no common runs.  If no run is selected, the averages are `nan`. -/
theorem C123_errors (runs : List Run) (selected : List Bool) :
    run false runs selected = .error .attributeError ∧ run true [] selected = .error .zeroDivision
      ∧ commonConverged [] = .error .indexError
      ∧ (runs ≠ [] → (∀ i : ℕ, selected[i]? ≠ some true) → ∃ st, run true runs selected = .ok st
        ∧ st.distanceMean = .error .nan ∧ st.occupiedMean = .error .nan ∧ st.gammasMean = .error .nan) := by
  refine ⟨rfl, rfl, rfl, fun hne h => ?_⟩
  have hc : chosen runs selected = [] := by
    rw [List.eq_nil_iff_forall_not_mem]
    intro r hr
    obtain ⟨i, _, hi⟩ := mem_chosen.mp hr
    exact h i hi
  refine ⟨_, by rw [run, if_neg (by simp), if_neg hne], ?_, ?_, ?_⟩
  · change Comparison.mean ((chosen runs selected).map Run.distance) = _
    rw [hc]; exact if_pos rfl
  · change Comparison.mean ((chosen runs selected).map _) = _
    rw [hc]; exact if_pos rfl
  · change Comparison.mean ((chosen runs selected).map Run.gammas) = _
    rw [hc]; exact if_pos rfl

/-! ## Examples -/

/-- Two tables with two runs, of which only the first converged in both: the hypotheses are met. -/
example : ∃ (a b : List Run) (out : List Bool), (∀ t ∈ [a, b], t.length = 2) ∧ commonConverged [a, b] = .ok out
    ∧ out[0]? = some true ∧ out[1]? ≠ some true ∧ chosen a out ≠ [] := by
  obtain ⟨out, h1, _, h3⟩ := C123_common [[⟨1, 2, 1, 3⟩, ⟨1, 5, 0.5, 2⟩], [⟨1, 3, 1, 1⟩, ⟨0, 1, 1, 1⟩]] 2 (by simp)
    (by simp)
  have h0 : out[0]? = some true := (h3 0).mpr (by simp)
  refine ⟨_, _, out, by simp, h1, h0, ?_, ?_⟩
  · intro h
    have := (h3 1).mp h
    simp at this
  · intro h
    have : (⟨1, 2, 1, 3⟩ : Run) ∈ chosen [⟨1, 2, 1, 3⟩, ⟨1, 5, 0.5, 2⟩] out := mem_chosen.mpr ⟨0, rfl, h0⟩
    rw [h] at this
    simp at this

end Verif
