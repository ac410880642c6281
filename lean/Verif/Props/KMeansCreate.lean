import Verif.Model.KMeansCreate
import Verif.Props.KMeansHierarchy

/-!
# C147: the clusters from the data
-/

open scoped RealInnerProductSpace

namespace Verif.KMeans

variable {d n : ℕ}

/-- The sum of the squared distances of points to a centre. -/
noncomputable def squaredSpread (points : List (Vec d)) (c : Vec d) : ℝ := (points.map fun p => ‖p - c‖ ^ 2).sum

lemma spread_expand (points : List (Vec d)) (c : Vec d) :
    squaredSpread points c = (points.map fun p => ‖p‖ ^ 2).sum - 2 * ⟪points.sum, c⟫ + points.length * ‖c‖ ^ 2 := by
  unfold squaredSpread
  induction points with
  | nil => simp
  | cons p l ih =>
    rw [List.map_cons, List.sum_cons, ih, List.map_cons, List.sum_cons, List.sum_cons, List.length_cons,
      norm_sub_sq_real, inner_add_left]
    push_cast
    ring

/-- C147: where the second clustering starts, the centre of every label is the point with the least sum of squared
distances to the positions with this label, and the only one. -/
theorem C147_start (samples : List (Vec d × ℕ)) (clusters : ℕ)
    (hne : ∀ i < clusters, ∃ s ∈ samples, s.2 = i) :
    ∃ l, startCenters samples clusters = .ok l ∧ l.length = clusters
      ∧ ∀ i (h : i < l.length) (c : Vec d),
        squaredSpread ((samples.filter fun s => s.2 = i).map Prod.fst) l[i]
          ≤ squaredSpread ((samples.filter fun s => s.2 = i).map Prod.fst) c
        ∧ (c ≠ l[i] → squaredSpread ((samples.filter fun s => s.2 = i).map Prod.fst) l[i]
          < squaredSpread ((samples.filter fun s => s.2 = i).map Prod.fst) c) := by
  set own : ℕ → List (Vec d) := fun i => (samples.filter fun s => s.2 = i).map Prod.fst with hown
  set m : ℕ → Vec d := fun i => (1 / ((own i).length : ℝ)) • (own i).sum with hm
  have hlen : ∀ i < clusters, (own i).length ≠ 0 := by
    intro i hi h0
    obtain ⟨s, hs, he⟩ := hne i hi
    rw [List.length_eq_zero_iff] at h0
    have : s.1 ∈ own i := List.mem_map.mpr ⟨s, List.mem_filter.mpr ⟨hs, by simp [he]⟩, rfl⟩
    rw [h0] at this
    simp at this
  have hstart : ∀ i < clusters, startCenter samples i = .ok (m i) := by
    intro i hi
    unfold startCenter
    simp only
    rw [if_neg (hlen i hi)]
  have hmap : ∀ l : List ℕ, (∀ i ∈ l, i < clusters) → l.mapM (startCenter samples) = .ok (l.map m) := by
    intro l hl
    induction l with
    | nil => rfl
    | cons a l ih =>
      rw [List.mapM_cons, hstart a (hl a (by simp)), ih fun i hi => hl i (by simp [hi])]
      rfl
  refine ⟨(List.range clusters).map m, hmap _ fun i hi => List.mem_range.mp hi, by simp, ?_⟩
  intro i hi c
  have hi' : i < clusters := by simpa using hi
  have hget : ((List.range clusters).map m)[i] = m i := by simp
  rw [hget]
  have hpos : 0 < ((own i).length : ℝ) := by
    have := hlen i hi'
    positivity
  have hsum : (own i).sum = ((own i).length : ℝ) • m i := by
    rw [hm]
    simp only
    rw [smul_smul, mul_one_div_cancel hpos.ne', one_smul]
  have key : squaredSpread (own i) c = squaredSpread (own i) (m i) + (own i).length * ‖c - m i‖ ^ 2 := by
    have h1 : ∀ w : Vec d, ⟪(own i).sum, w⟫ = (own i).length * ⟪m i, w⟫ := by
      intro w
      rw [hsum, real_inner_smul_left]
    rw [spread_expand, spread_expand, h1, h1, norm_sub_sq_real, real_inner_self_eq_norm_sq, real_inner_comm (m i) c]
    ring
  change squaredSpread (own i) (m i) ≤ squaredSpread (own i) c
    ∧ (c ≠ m i → squaredSpread (own i) (m i) < squaredSpread (own i) c)
  rw [key]
  refine ⟨by nlinarith [sq_nonneg ‖c - m i‖], fun hc => ?_⟩
  have : 0 < ‖c - m i‖ := norm_pos_iff.mpr (sub_ne_zero.mpr hc)
  have := mul_pos hpos (pow_pos this 2)
  linarith

/-- C147: a label without positions gives `nan` instead of a centre. -/
theorem C147_start_nan (samples : List (Vec d × ℕ)) (clusters i : ℕ) (hi : i < clusters)
    (hno : ∀ s ∈ samples, s.2 ≠ i) : startCenters samples clusters = .error .nan := by
  have hbad : startCenter samples i = .error .nan := by
    unfold startCenter
    simp only
    rw [if_pos]
    rw [List.length_eq_zero_iff, List.map_eq_nil_iff, List.filter_eq_nil_iff]
    intro s hs
    simpa using hno s hs
  have hall : ∀ j, startCenter samples j = .error .nan ∨ ∃ v, startCenter samples j = .ok v := by
    intro j
    unfold startCenter
    simp only
    split_ifs
    · exact Or.inl rfl
    · exact Or.inr ⟨_, rfl⟩
  have hmap : ∀ l : List ℕ, i ∈ l → l.mapM (startCenter samples) = .error .nan := by
    intro l hl
    induction l with
    | nil => simp at hl
    | cons a l ih =>
      rw [List.mapM_cons]
      rcases hall a with h | ⟨v, h⟩
      · rw [h]; rfl
      · rw [h]
        have hil : i ∈ l := by
          rcases List.mem_cons.mp hl with rfl | h2
          · rw [hbad] at h; cases h
          · exact h2
        change (do let r ← l.mapM (startCenter samples); pure (v :: r)) = _
        rw [ih hil]
        rfl
  exact hmap _ (List.mem_range.mpr hi)

lemma neighbourLoop_eq (g : Graph n) (centers : Fin n → Vec d) (attractor : Vec d)
    (pos : Fin n × ℕ → Vec d) : ∀ l : List (Fin n × ℕ),
    (∀ e ∈ l, successorPosition g centers attractor e = .ok (pos e)) →
      neighbourLoop g centers attractor l = .ok (l.map fun e => ‖centers e.1 - pos e‖)
  | [], _ => rfl
  | e :: l, h => by
    unfold neighbourLoop
    rw [h e (by simp), neighbourLoop_eq g centers attractor pos l fun a ha => h a (by simp [ha])]
    rfl

lemma fitHierarchy_chain (value : Fin n → ℝ) (centers : Fin n → Vec d) (attractor : Vec d) (ascending : List (Fin n))
    (hs : IsArgsort value ascending) (g : Graph n) (ds : List ℝ)
    (hfit : fitHierarchy {} centers attractor ascending = .ok (g, ds)) :
    g = chainGraph ascending.reverse
      ∧ ∃ h : 0 < ascending.reverse.length,
        ds = ‖centers ascending.reverse[0] - attractor‖ * 2.0 :: chainDistances centers ascending.reverse := by
  cases hr : ascending.reverse with
  | nil => unfold fitHierarchy at hfit; rw [hr] at hfit; simp at hfit
  | cons root rest =>
    have heq := fitHierarchy_eq centers attractor hs.1 hr
    by_cases h1 : centers root = attractor
    · rw [heq.2.1 h1] at hfit; cases hfit
    · by_cases h2 : (root :: rest).IsChain (fun a b => centers b ≠ centers a)
      · rw [heq.1 h1 h2] at hfit; cases hfit; exact ⟨rfl, by simp, rfl⟩
      · rw [heq.2.2 h1 h2] at hfit; cases hfit

/-- C147: after the first fit, `compute_distances_to_neighbours` gives the distances along the demonstrated motion: the
clusters are taken in descending order of their mean sequence value, the first entry is the distance of the first of
them to the attractor, every other entry is the distance of a cluster to the one before it. -/
theorem C147_neighbours (value : Fin n → ℝ) (centers : Fin n → Vec d) (attractor : Vec d) (ascending : List (Fin n))
    (hs : IsArgsort value ascending) (g : Graph n) (ds : List ℝ)
    (hfit : fitHierarchy {} centers attractor ascending = .ok (g, ds)) :
    ∃ (order : List (Fin n)) (l : List ℝ) (ho : order.length = n) (hl : l.length = n),
      order.Perm (List.finRange n) ∧ order.Pairwise (fun i j => value j ≤ value i)
      ∧ neighbourDistances g centers attractor = .ok l
      ∧ (∀ h : 0 < n, l[0] = dist (centers order[0]) attractor)
      ∧ (∀ j (h : j + 1 < n), l[j + 1] = dist (centers order[j + 1]) (centers order[j])) := by
  obtain ⟨hg, -, -⟩ := fitHierarchy_chain value centers attractor ascending hs g ds hfit
  set o := ascending.reverse with hodef
  have hp : o.Perm (List.finRange n) := (List.reverse_perm _).trans hs.1
  have hnd : o.Nodup := hp.nodup_iff.mpr (List.nodup_finRange n)
  have ho : o.length = n := by rw [hp.length_eq, List.length_finRange]
  obtain ⟨e1, -, -, -⟩ := chain_edges hnd
  let pos : Fin n × ℕ → Vec d := fun e =>
    if e.2 = 0 then attractor else if h : e.2 - 1 < o.length then centers o[e.2 - 1] else 0
  have hpos : ∀ e ∈ g.nodes, successorPosition g centers attractor e = .ok (pos e) := by
    intro e he
    rw [hg] at he
    obtain ⟨j, hj, rfl⟩ := List.mem_iff_getElem.mp he
    have hj' : j < o.length := by simpa [chainGraph] using hj
    have hej : (chainGraph o).nodes[j] = (o[j], j) := by simp [chainGraph]
    rw [hej]
    unfold successorPosition
    cases j with
    | zero => simp [pos]
    | succ k =>
      simp only [Nat.succ_ne_zero, if_false]
      rw [hg, e1 k hj']
      simp only [pos, Nat.succ_ne_zero, if_false, Nat.add_sub_cancel]
      rw [dif_pos (by omega : k < o.length)]
  refine ⟨o, g.nodes.map fun e => ‖centers e.1 - pos e‖, ho, ?_, hp, ?_, ?_, ?_, ?_⟩
  · rw [hg]
    simp [chainGraph, ho]
  · rw [hodef, List.pairwise_reverse]
    exact hs.2
  · exact neighbourLoop_eq g centers attractor pos g.nodes hpos
  · intro h
    simp [hg, chainGraph, pos, dist_eq_norm]
  · intro j h
    have : j < o.length := by omega
    simp [hg, chainGraph, pos, dist_eq_norm, this]

/-- C147: the distances used for the radius of the regions are the same, except for the doubled distance to the
attractor. -/
theorem C147_parent_distances (value : Fin n → ℝ) (centers : Fin n → Vec d) (attractor : Vec d)
    (ascending : List (Fin n)) (hs : IsArgsort value ascending) (g : Graph n) (ds : List ℝ)
    (hfit : fitHierarchy {} centers attractor ascending = .ok (g, ds)) :
    ∃ x rest, neighbourDistances g centers attractor = .ok (x :: rest) ∧ ds = 2 * x :: rest := by
  obtain ⟨hg, h0, hds⟩ := fitHierarchy_chain value centers attractor ascending hs g ds hfit
  obtain ⟨o, l, ho, hl, hperm, -, hn, hl0, hlj⟩ := C147_neighbours value centers attractor ascending hs g ds hfit
  have hp : ascending.reverse.Perm (List.finRange n) := (List.reverse_perm _).trans hs.1
  have hnd : ascending.reverse.Nodup := hp.nodup_iff.mpr (List.nodup_finRange n)
  have hlen : ascending.reverse.length = n := by rw [hp.length_eq, List.length_finRange]
  obtain ⟨e1, -, -, -⟩ := chain_edges hnd
  set r := ascending.reverse with hr
  let pos : Fin n × ℕ → Vec d := fun e =>
    if e.2 = 0 then attractor else if h : e.2 - 1 < r.length then centers r[e.2 - 1] else 0
  have hpos : ∀ e ∈ g.nodes, successorPosition g centers attractor e = .ok (pos e) := by
    intro e he
    rw [hg] at he
    obtain ⟨j, hj, rfl⟩ := List.mem_iff_getElem.mp he
    have hj' : j < r.length := by simpa [chainGraph] using hj
    have hej : (chainGraph r).nodes[j] = (r[j], j) := by simp [chainGraph]
    rw [hej]
    unfold successorPosition
    cases j with
    | zero => simp [pos]
    | succ k =>
      simp only [Nat.succ_ne_zero, if_false]
      rw [hg, e1 k hj']
      simp only [pos, Nat.succ_ne_zero, if_false, Nat.add_sub_cancel]
      rw [dif_pos (by omega : k < r.length)]
  have heq : neighbourDistances g centers attractor
      = .ok (‖centers r[0] - attractor‖ :: chainDistances centers r) := by
    unfold neighbourDistances
    rw [neighbourLoop_eq g centers attractor pos g.nodes hpos]
    congr 1
    apply List.ext_getElem
    · rw [hg]
      simp [chainGraph, chainDistances]
      omega
    · intro j h1 h2
      have hj : j < r.length := by
        rw [hg] at h1
        simpa [chainGraph] using h1
      cases j with
      | zero => simp [hg, chainGraph, pos]
      | succ k =>
        have : k < r.length := by omega
        simp [hg, chainGraph, pos, chainDistances, this]
  refine ⟨_, _, heq, ?_⟩
  rw [hds, show (2.0 : ℝ) = 2 by norm_num, mul_comm]

/-- C147, negative result: the entries are not in the order of the clusters: with the second of two clusters closer to
the end of the motion, the first entry belongs to the second cluster. -/
theorem C147_order (centers : Fin 2 → Vec d) (attractor : Vec d) (hne : centers 0 ≠ centers 1)
    (ha : ∀ i, centers i ≠ attractor) :
    ∃ g ds, fitHierarchy {} centers attractor [0, 1] = .ok (g, ds)
      ∧ neighbourDistances g centers attractor
        = .ok [‖centers 1 - attractor‖, ‖centers 0 - centers 1‖] := by
  have harg : IsArgsort (fun i : Fin 2 => (i : ℝ)) [0, 1] := by
    constructor
    · have : List.finRange 2 = [0, 1] := by decide
      rw [this]
    · simp
  have hinj : Function.Injective centers := by
    intro i j h
    fin_cases i <;> fin_cases j
    · rfl
    · exact absurd h hne
    · exact absurd h.symm hne
    · rfl
  obtain ⟨g, ds, hfit⟩ := C55_fit_succeeds _ centers attractor [0, 1] harg (by norm_num) hinj ha
  refine ⟨g, ds, hfit, ?_⟩
  obtain ⟨hg, -, -⟩ := fitHierarchy_chain _ centers attractor [0, 1] harg g ds hfit
  rw [hg]
  rfl

/-- C147: a fitted learner moves outside of the clusters with the linear dynamics to the attractor of the data. -/
theorem C147_outside (linear : Vec d → Vec d → Vec d) (attractor position : Vec d) :
    outsideVelocity linear attractor .fit position = .ok (linear attractor position) := rfl

/-- C147, violated by `from_centers`: such a learner has no dynamics outside of the clusters, every evaluation there
raises an `AttributeError`. -/
theorem C147_from_centers_fails (linear : Vec d → Vec d → Vec d) (attractor position : Vec d) :
    outsideVelocity linear attractor .fromCenters position = .error .attributeError := rfl

/-- Case: three positions with two labels. -/
example : ∃ l, startCenters [(!₂[0, 0], 1), (!₂[2, 0], 1), (!₂[5, 5], 0)] 2 = .ok l ∧ l.length = 2 := by
  obtain ⟨l, h, hl, -⟩ := C147_start [((!₂[0, 0] : Vec 2), 1), (!₂[2, 0], 1), (!₂[5, 5], 0)] 2 (by
    intro i hi
    interval_cases i <;> simp)
  exact ⟨l, h, hl⟩

/-- Case: clusters at `(1, 0)` and `(3, 0)`, the attractor in the origin. -/
example : ∃ g ds, fitHierarchy {} (fun i : Fin 2 => if i = 0 then (!₂[3, 0] : Vec 2) else !₂[1, 0]) 0 [0, 1]
    = .ok (g, ds) := by
  obtain ⟨g, ds, h, -⟩ := C147_order (fun i : Fin 2 => if i = 0 then (!₂[3, 0] : Vec 2) else !₂[1, 0]) 0
    (by
      intro h
      have := congrFun (congrArg (fun x : Vec 2 => x.ofLp) h) 0
      norm_num at this)
    (by
      intro i h
      have := congrFun (congrArg (fun x : Vec 2 => x.ofLp) h) 0
      fin_cases i <;> simp at this)
  exact ⟨g, ds, h⟩

end Verif.KMeans
