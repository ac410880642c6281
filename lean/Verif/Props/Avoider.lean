import Verif.Lemmas.Cluster
import Verif.Spec.Avoider
import Verif.Props.Sequence
import Verif.Props.Relative

/-!
# C39 – C42: the velocity returned by `MultiObstacleAvoider`
-/

open scoped RealInnerProductSpace

namespace Verif
open Spec

variable {d k : ℕ} [Fact (2 ≤ d)]
set_option linter.unusedSectionVars false

/-! ## C39 -/

/-- C39 (partial): without obstacles the avoider returns the velocity of the initial dynamics.

Missing for the full property: velocities that are shorter than the tolerance `1e-8`, opposite to
the direction of the attractor, or different from it by less than the tolerance of `np.allclose`
(`C39_opposite_raises`, `C40_near_rest_raises`). -/
theorem C39_no_obstacles_partial (ext : Ext d k) (a : Avoider d) (x : Vec d) (hnone : a.trees = [])
    (hown : a.initial.ownSequence = none) (hmag : a.evaluateMagnitude = none)
    (href : 1e-8 < ‖referenceDirection x a.initial none‖) (hv : 1e-8 < ‖a.initial.evaluate x‖)
    (hopp : ¬ Opposite (referenceDirection x a.initial none) (a.initial.evaluate x))
    (hdist : Distinguishable [referenceDirection x a.initial none, a.initial.evaluate x]) :
    a.evaluate ext x = .ok (a.initial.evaluate x) := by
  have h0 : (0 : ℝ) < 1e-8 := by norm_num
  have hv0 : a.initial.evaluate x ≠ 0 := norm_pos_iff.mp (h0.trans hv)
  have hr0 : referenceDirection x a.initial none ≠ 0 := norm_pos_iff.mp (h0.trans href)
  cases hs : evaluateDynamicsSequence x a.initial with
  | error e =>
    have := (C16_error_iff x a.initial none hown e).mp hs
    rcases this.2.2.2 with h | h | h
    · linarith
    · linarith
    · exact absurd h hopp
  | ok s =>
    cases s with
    | none =>
      rcases (C16_none_iff x a.initial none hown).mp hs with h | h
      · exact absurd h hr0
      · exact absurd h hv0
    | some s =>
      have := (C16_rotation x a.initial none hown s hs).2.2 hdist
      unfold Avoider.evaluate evaluateSequence Avoider.magnitude
      rw [hs]
      change (if a.trees = [] then _ else _) = _
      rw [if_pos hnone, this, hmag]
      change Except.ok (‖a.initial.evaluate x‖ • unit (a.initial.evaluate x)) = _
      unfold unit
      rw [smul_smul, mul_one_div_cancel (norm_ne_zero_iff.mpr hv0), one_smul]

/-- C39 is not vacuous: a stable linear system, and a rotated one. -/
example : (∃ (dyn : Dynamics 2) (x : Vec 2), dyn.ownSequence = none
      ∧ 1e-8 < ‖referenceDirection x dyn none‖ ∧ 1e-8 < ‖dyn.evaluate x‖
      ∧ ¬ Opposite (referenceDirection x dyn none) (dyn.evaluate x)
      ∧ Distinguishable [referenceDirection x dyn none, dyn.evaluate x]) := by
  refine ⟨⟨fun y => (-2 : ℝ) • y, some 0, none⟩, !₂[1, 0], rfl, ?_, ?_, ?_, ?_⟩
  · simp [referenceDirection, EuclideanSpace.norm_eq, Fin.sum_univ_two]; norm_num
  · simp [EuclideanSpace.norm_eq, Fin.sum_univ_two]; norm_num
  · rintro ⟨c, hc, h⟩
    have := congrArg (fun w : Vec 2 => w 0) h
    simp [referenceDirection] at this
    linarith
  · unfold Distinguishable
    refine .cons_cons (Or.inl ?_) (.singleton _)
    simp only [referenceDirection, zero_sub]
    have e : (-2 : ℝ) • (!₂[1, 0] : Vec 2) = (2 : ℝ) • (-!₂[1, 0] : Vec 2) := by
      rw [smul_neg, neg_smul]
    rw [e, norm_smul, smul_smul]
    congr 1
    norm_num
    ring

/-- C39, negative result: where the initial velocity points exactly away from the attractor the
avoider raises `ValueError`, with or without obstacles. -/
theorem C39_opposite_raises (ext : Ext d k) (a : Avoider d) (x : Vec d)
    (hown : a.initial.ownSequence = none)
    (hopp : Opposite (referenceDirection x a.initial none) (a.initial.evaluate x))
    (hv : a.initial.evaluate x ≠ 0) : a.evaluate ext x = .error .valueError := by
  have hr0 : referenceDirection x a.initial none ≠ 0 := by
    intro h
    obtain ⟨c, _, hc⟩ := hopp
    rw [h, smul_zero] at hc
    exact hv hc
  have := (C16_error_iff x a.initial none hown .valueError).mpr
    ⟨rfl, hr0, hv, Or.inr (Or.inr hopp)⟩
  unfold Avoider.evaluate evaluateSequence
  rw [this]
  rfl

/-- A system that moves away from its attractor. -/
example : ∃ (dyn : Dynamics 2) (x : Vec 2), dyn.ownSequence = none
    ∧ Opposite (referenceDirection x dyn none) (dyn.evaluate x) ∧ dyn.evaluate x ≠ 0 := by
  refine ⟨⟨fun y => y, some 0, none⟩, !₂[1, 0], rfl, ⟨1, one_pos, ?_⟩, ?_⟩
  · simp [referenceDirection]
  · intro h
    have := congrArg (fun w : Vec 2 => w 0) h
    simp at this

/-! ## C40 -/

/-- C40: at rest points of the initial dynamics, and at its attractor, the avoider returns the
zero vector, whatever the obstacles. -/
theorem C40_rest (ext : Ext d k) (a : Avoider d) (x : Vec d) (hown : a.initial.ownSequence = none)
    (h : a.initial.evaluate x = 0 ∨ a.initial.attractorPosition = some x) :
    a.evaluate ext x = .ok 0 := by
  have : evaluateDynamicsSequence x a.initial = .ok none := by
    rw [C16_none_iff x a.initial none hown]
    rcases h with h | h
    · exact Or.inr h
    · left; simp [referenceDirection, h]
  unfold Avoider.evaluate evaluateSequence
  rw [this]
  rfl

/-- C40 is not vacuous: a stable linear system at its attractor. -/
example : ∃ (dyn : Dynamics 2) (x : Vec 2), dyn.ownSequence = none ∧ dyn.evaluate x = 0 :=
  ⟨⟨fun y => (-2 : ℝ) • y, some 0, none⟩, 0, rfl, by simp⟩

/-- C40: close to a rest point (speed at most `1e-8`, but not zero) the avoider raises
`ValueError`, whatever the obstacles. -/
theorem C40_near_rest_raises (ext : Ext d k) (a : Avoider d) (x : Vec d)
    (hown : a.initial.ownSequence = none) (hr : referenceDirection x a.initial none ≠ 0)
    (hv : a.initial.evaluate x ≠ 0) (hsmall : ‖a.initial.evaluate x‖ ≤ 1e-8) :
    a.evaluate ext x = .error .valueError := by
  have := (C16_error_iff x a.initial none hown .valueError).mpr
    ⟨rfl, hr, hv, Or.inr (Or.inl hsmall)⟩
  unfold Avoider.evaluate evaluateSequence
  rw [this]
  rfl

/-- Such positions exist around the attractor of a linear system. -/
example : ∃ (dyn : Dynamics 2) (x : Vec 2), dyn.ownSequence = none
    ∧ referenceDirection x dyn none ≠ 0 ∧ dyn.evaluate x ≠ 0 ∧ ‖dyn.evaluate x‖ ≤ 1e-8 := by
  have h : (!₂[1e-9, 0] : Vec 2) ≠ 0 := by
    intro h
    have := congrArg (fun w : Vec 2 => w 0) h
    simp at this
    norm_num at this
  refine ⟨⟨fun y => - y, some 0, none⟩, !₂[1e-9, 0], rfl, ?_, ?_, ?_⟩
  · simpa [referenceDirection] using h
  · simpa using h
  · have e : (!₂[1e-9, 0] : Vec 2) = (1e-9 : ℝ) • !₂[1, 0] := by
      ext i; fin_cases i <;> simp
    have h1 : ‖(!₂[1, 0] : Vec 2)‖ = 1 := by simp [EuclideanSpace.norm_eq, Fin.sum_univ_two]
    simp only [norm_neg]
    rw [e, norm_smul, h1]; norm_num

/-! ## C42 -/

lemma filter_le_one {α : Type} {p : α → Prop} [DecidablePred p] {l : List α}
    (h : l.Pairwise (fun a b => ¬ (p a ∧ p b))) : (l.filter p).length ≤ 1 := by
  induction l with
  | nil => simp
  | cons a l ih =>
    rw [List.pairwise_cons] at h
    by_cases hp : p a
    · rw [List.filter_cons_of_pos (by simpa using hp)]
      have : l.filter p = [] := by
        rw [List.filter_eq_nil_iff]
        intro b hb hpb
        exact h.1 b hb ⟨hp, by simpa using hpb⟩
      simp [this]
    · rw [List.filter_cons_of_neg (by simpa using hp)]
      exact ih h.2

lemma pairwise_transfer {α β : Type} {R : α → β → Prop} {P : α → α → Prop} {Q : β → β → Prop}
    {l : List α} {l' : List β} (h : List.Forall₂ R l l') (hp : l.Pairwise P)
    (ht : ∀ a ∈ l, ∀ b ∈ l, ∀ a' b', R a a' → R b b' → P a b → Q a' b') : l'.Pairwise Q := by
  induction h with
  | nil => exact .nil
  | @cons a a' l l' hab hl ih =>
    rw [List.pairwise_cons] at hp ⊢
    refine ⟨?_, ih hp.2 (fun a ha b hb => ht a (List.mem_cons_of_mem _ ha) b
      (List.mem_cons_of_mem _ hb))⟩
    intro b' hb'
    obtain ⟨i, hi, rfl⟩ := List.getElem_of_mem hb'
    have hi' : i < l.length := by rw [hl.length_eq]; exact hi
    have hR := (List.forall₂_iff_get.mp hl).2 i hi' hi
    exact ht a List.mem_cons_self l[i] (List.mem_cons_of_mem _ (List.getElem_mem hi')) a' _ hab hR
      (hp.1 _ (List.getElem_mem hi'))

lemma zipIdx_mem {α : Type} {l : List α} {p : α × ℕ} (h : p ∈ l.zipIdx) : p.1 ∈ l := by
  obtain ⟨i, hi, rfl⟩ := List.getElem_of_mem h
  rw [List.getElem_zipIdx]
  exact List.getElem_mem _

/-- The saturated trees are in contact. -/
lemma saturated_contact {ext : Ext d k} {a : Avoider d} {x v : Vec d} {Ds : List (TreeData d)}
    (hp : 0 ≤ a.power) (hs : SaneTrees a.trees) (hone : AtMostOneContact x a.trees)
    (hD : List.Forall₂ (DataOf ext a x v) a.trees.zipIdx Ds) :
    open Classical in ((Ds.map (fun D => D.weights.sum)).filter (fun w => w ≥ 1)).length ≤ 1 := by
  classical
  apply filter_le_one
  rw [List.pairwise_map]
  have hpw : a.trees.zipIdx.Pairwise
      (fun p q => ¬ (InContact x p.1 ∧ InContact x q.1)) := by
    have h1 : a.trees.zipIdx.map Prod.fst = a.trees := List.zipIdx_map_fst _ _
    unfold AtMostOneContact at hone
    rw [← h1, List.pairwise_map] at hone
    exact hone
  refine pairwise_transfer hD hpw ?_
  rintro p hpm q hqm D E hDp hDq hc ⟨h1, h2⟩
  apply hc
  have key : ∀ p ∈ a.trees.zipIdx, ∀ D, DataOf ext a x v p D → D.weights.sum ≥ 1 →
      InContact x p.1 := by
    intro p hpm D hDp h1
    obtain ⟨g, hg, _, _, _, h4⟩ := data_weights hp
      (fun o ho => (hs _ (zipIdx_mem hpm) o ho).gamma_nonneg) hDp
    have hg1 : g ≤ 1 := by
      by_contra hc
      push Not at hc
      have := h4 hc
      linarith
    obtain ⟨⟨o, ho, hog⟩, _⟩ := gamma_ok hg
    exact ⟨o, ho, by rw [hog]; exact hg1⟩
  exact ⟨key p hpm D hDp h1, key q hqm E hDq h2⟩

lemma pos_nodes_length {ext : Ext d k} {a : Avoider d} {x v : Vec d} {Ds : List (TreeData d)}
    {l : List (ObstacleTree d × ℕ)} (hD : List.Forall₂ (DataOf ext a x v) l Ds) :
    open Classical in
    (Ds.flatMap TreeData.nodes).length
      = (Ds.map (fun D => (D.weights.filter (fun w => w > 0)).length)).sum := by
  classical
  induction hD with
  | nil => rfl
  | cons h _ ih =>
    rw [List.flatMap_cons, List.length_append, ih, List.map_cons, List.sum_cons, h.2.1,
      List.length_map, posIdx_length]

lemma pos_normals_length {ext : Ext d k} {a : Avoider d} {x v : Vec d} {Ds : List (TreeData d)}
    {l : List (ObstacleTree d × ℕ)} (hD : List.Forall₂ (DataOf ext a x v) l Ds) :
    open Classical in
    (Ds.flatMap TreeData.normals).length
      = (Ds.map (fun D => (D.weights.filter (fun w => w > 0)).length)).sum := by
  classical
  induction hD with
  | nil => rfl
  | cons h _ ih =>
    rw [List.flatMap_cons, List.length_append, ih, List.map_cons, List.sum_cons,
      ← h.2.2.length_eq, posIdx_length]

/-- The data of the trees and the properties of the cluster weights. -/
lemma prepared_facts {ext : Ext d k} {a : Avoider d} {x v : Vec d} {pr : Prepared d}
    (hp : 0 ≤ a.power) (hs : SaneTrees a.trees) (h : prepareAvoidance ext a x v = .ok pr) :
    ∃ Ds, List.Forall₂ (DataOf ext a x v) a.trees.zipIdx Ds
      ∧ (∀ D ∈ Ds, Nonneg D.weights)
      ∧ pr.normals = Ds.flatMap TreeData.normals ∧ pr.slow = Ds.map TreeData.slow
      ∧ pr.cluster = clusterWeights (stateOf pr.tree Ds).influence (stateOf pr.tree Ds).componentWeights
      ∧ pr.cluster.sum = (getLimitedWeightsToMaxSum (Ds.map (fun D => D.weights.sum))).1.sum
      ∧ InUnit pr.cluster ∧ pr.normals.length = pr.cluster.length
      ∧ pr.nodes.length = pr.cluster.length + 1
      ∧ (pr.cluster ≠ [] → 0 < pr.cluster.sum)
      ∧ RootedTree pr.tree baseId ∧ dirOf pr.tree baseId = unit v
      ∧ pr.nodes.Nodup ∧ (∀ m ∈ pr.nodes, m ∈ pr.tree.nodes) := by
  classical
  obtain ⟨t, Ds, hD, h1, h2, h3, h4, h5, h6, h7, h8, h9⟩ := prepare_spec hp
    (fun ot hot o ho => (hs ot hot o ho).gamma_nonneg) h
  have hnn : ∀ D ∈ Ds, Nonneg D.weights := by
    intro D hDm
    obtain ⟨i, hi, rfl⟩ := List.getElem_of_mem hDm
    have hi' : i < a.trees.zipIdx.length := by rw [hD.length_eq]; exact hi
    have hR := (List.forall₂_iff_get.mp hD).2 i hi' hi
    have := data_weights hp (fun o ho => (hs _ (zipIdx_mem (List.getElem_mem hi')) o ho).gamma_nonneg) hR
    exact this.choose_spec.2.2.1
  obtain ⟨c1, c2, c3, c4⟩ := cluster_spec hnn t
  have hos : Nonneg (Ds.map (fun D => D.weights.sum)) := by
    intro w hw
    obtain ⟨D, hD, rfl⟩ := List.mem_map.mp hw
    exact sum_nonneg' (hnn D hD)
  rw [← h5] at c1 c2 c3 c4
  refine ⟨Ds, hD, hnn, h3, h4, by rw [h5]; rfl, c1, c2, ?_, ?_, ?_, h6, h7, h8, h9⟩
  · rw [h3, c3]; exact pos_normals_length hD
  · rw [h2, List.length_append, c3]
    simp only [stateOf, List.length_singleton]
    rw [pos_nodes_length hD]
  · intro hne
    rw [c1]
    exact limited_sum_pos hos (c4 hne)

lemma cluster_le_one {ext : Ext d k} {a : Avoider d} {x v : Vec d} {pr : Prepared d}
    (hp : 0 ≤ a.power) (hs : SaneTrees a.trees) (hone : AtMostOneContact x a.trees)
    (h : prepareAvoidance ext a x v = .ok pr) : pr.cluster.sum ≤ 1 := by
  classical
  obtain ⟨Ds, hD, hnn, _, _, _, c1, _⟩ := prepared_facts hp hs h
  have hos : Nonneg (Ds.map (fun D => D.weights.sum)) := by
    intro w hw
    obtain ⟨D, hD, rfl⟩ := List.mem_map.mp hw
    exact sum_nonneg' (hnn D hD)
  rw [c1, C28_sum_partial _ hos (saturated_contact hp hs hone hD)]
  exact (C28_in_unit _ hos).2.2

/-- C42 (partial): if at most one obstacle is in contact, the weights of the tangent directions
and of the initial velocity are a convex combination, one weight for every direction.

Missing for the full property: two or more obstacles in contact, for which the statement is
false (`C42_two_contacts`). -/
theorem C42_convex_partial (ext : Ext d k) (a : Avoider d) (x v : Vec d) (pr : Prepared d)
    (hp : 0 ≤ a.power) (hs : SaneTrees a.trees) (hone : AtMostOneContact x a.trees)
    (h : prepareAvoidance ext a x v = .ok pr) :
    Convex (avoidanceWeights pr.cluster)
      ∧ (avoidanceWeights pr.cluster).length = pr.nodes.length := by
  obtain ⟨Ds, _, _, _, _, _, _, c2, _, c4, _⟩ := prepared_facts hp hs h
  have hle := cluster_le_one hp hs hone h
  refine ⟨⟨?_, ?_⟩, ?_⟩
  · intro w hw
    unfold avoidanceWeights at hw
    rw [List.mem_append, List.mem_singleton] at hw
    rcases hw with hw | rfl
    · exact (c2 w hw).1
    · linarith
  · unfold avoidanceWeights
    rw [List.sum_append, List.sum_singleton]; ring
  · unfold avoidanceWeights
    rw [List.length_append, c4]; rfl

/-- C42: without any assumption on contacts the weights sum up to one and the weights of the
tangent directions are in `[0, 1]`. -/
theorem C42_sum (ext : Ext d k) (a : Avoider d) (x v : Vec d) (pr : Prepared d)
    (hp : 0 ≤ a.power) (hs : SaneTrees a.trees) (h : prepareAvoidance ext a x v = .ok pr) :
    (avoidanceWeights pr.cluster).sum = 1 ∧ InUnit (avoidanceWeights pr.cluster).dropLast := by
  obtain ⟨Ds, _, _, _, _, _, _, c2, _⟩ := prepared_facts hp hs h
  unfold avoidanceWeights
  rw [List.sum_append, List.sum_singleton, List.dropLast_concat]
  exact ⟨by ring, c2⟩

/-! ## C41 -/

lemma evaluate_run {ext : Ext d k} {a : Avoider d} {x w : Vec d} (hne : a.trees ≠ [])
    (h : a.evaluate ext x = .ok w) :
    (w = 0 ∧ evaluateDynamicsSequence x a.initial = .ok none)
    ∨ ∃ pr rel final, PreparedFor ext a x pr ∧ relativeVelocity x a.trees = .ok rel
      ∧ avoidanceDirection ext pr = .ok final ∧ slowDown (a.magnitude x) rel final pr = .ok w := by
  unfold Avoider.evaluate evaluateSequence at h
  obtain ⟨s, hs, h⟩ := bind_ok.mp h
  cases s with
  | none => left; cases h; exact ⟨rfl, hs⟩
  | some s =>
    right
    simp only [if_neg hne] at h
    obtain ⟨rel, h1, h⟩ := bind_ok.mp h
    obtain ⟨conv, h2, h⟩ := bind_ok.mp h
    obtain ⟨u, h3, h⟩ := bind_ok.mp h
    obtain ⟨pr, h4, h⟩ := bind_ok.mp h
    obtain ⟨final, h5, h⟩ := bind_ok.mp h
    exact ⟨pr, rel, final, ⟨s, conv, u, hs, h2, h3, h4⟩, h1, h5, h⟩

lemma getNormalAtDistance_ok {o : Obstacle d} {s n : Vec d} {r : ℝ}
    (h : getNormalAtDistance o s r = .ok n) :
    ∃ y, n = o.normal y ∧ (r = 0 → y = s) := by
  classical
  unfold getNormalAtDistance at h
  by_cases hc : o.isCuboid = true
  · rw [if_pos hc] at h
    simp only at h
    split_ifs at h with h0
    cases h
    refine ⟨_, rfl, ?_⟩
    intro hr
    rw [hr, zero_div, zero_smul, add_zero]
  · rw [if_neg hc] at h
    cases h
    exact ⟨s, rfl, fun _ => rfl⟩

lemma branchNormal_eq {x : Vec d} {ot : ObstacleTree d} {c : ℕ} {n : Vec d}
    (h : BranchNormal x ot c n) :
    ∃ o ∈ ot.components, ot.components[c]? = some o ∧ ∃ y, n = o.normal y
      ∧ (o.gamma x ≤ 1 → o.intersection x ((-1 : ℝ) • o.reference x) = some y) := by
  classical
  obtain ⟨e0, rest, h, rfl⟩ := h
  unfold computeBranch at h
  obtain ⟨o, ho, h⟩ := bind_ok.mp h
  have ho' : ot.components[c]? = some o := by
    unfold ObstacleTree.getComponent at ho
    split at ho
    · cases ho
    · rename_i o' h'; cases ho; exact h'
  refine ⟨o, List.mem_of_getElem? ho', ho', ?_⟩
  simp only at h
  split at h
  · cases h
  · rename_i s hs
    obtain ⟨n, hn, h⟩ := bind_ok.mp h
    obtain ⟨l, _, h⟩ := bind_ok.mp h
    cases h
    obtain ⟨y, hy, hy'⟩ := getNormalAtDistance_ok hn
    refine ⟨y, hy, ?_⟩
    intro hg
    rw [if_neg (not_lt.mpr hg)] at hs
    rw [hy' (if_neg (not_lt.mpr hg))]
    exact hs

/-- Properties of the stored normals. -/
lemma normals_le {ext : Ext d k} {a : Avoider d} {x v : Vec d} {Ds : List (TreeData d)}
    (hs : SaneTrees a.trees) (hD : List.Forall₂ (DataOf ext a x v) a.trees.zipIdx Ds) :
    ∀ n ∈ Ds.flatMap TreeData.normals, ‖n‖ ≤ 1 := by
  intro n hn
  rw [List.mem_flatMap] at hn
  obtain ⟨D, hDm, hn⟩ := hn
  obtain ⟨i, hi, rfl⟩ := List.getElem_of_mem hDm
  have hi' : i < a.trees.zipIdx.length := by rw [hD.length_eq]; exact hi
  have hR := (List.forall₂_iff_get.mp hD).2 i hi' hi
  obtain ⟨j, hj, rfl⟩ := List.getElem_of_mem hn
  simp only [List.get_eq_getElem] at hR
  have hj' : j < (posIdx Ds[i].weights).length := by rw [hR.2.2.length_eq]; exact hj
  have hB := (List.forall₂_iff_get.mp hR.2.2).2 j hj' hj
  obtain ⟨o, ho, _, y, hy, _⟩ := branchNormal_eq hB
  simp only [List.get_eq_getElem] at hy
  rw [hy]
  exact (hs _ (zipIdx_mem (List.getElem_mem hi')) o ho).normal_le y

lemma slow_le {ext : Ext d k} {a : Avoider d} {x v : Vec d} {Ds : List (TreeData d)}
    (hp : 0 ≤ a.power) (hs : SaneTrees a.trees)
    (hD : List.Forall₂ (DataOf ext a x v) a.trees.zipIdx Ds) :
    ∀ p ∈ Ds.map TreeData.slow, p.2 ≤ 1 := by
  intro p hpm
  obtain ⟨D, hDm, rfl⟩ := List.mem_map.mp hpm
  obtain ⟨i, hi, rfl⟩ := List.getElem_of_mem hDm
  have hi' : i < a.trees.zipIdx.length := by rw [hD.length_eq]; exact hi
  have hR := (List.forall₂_iff_get.mp hD).2 i hi' hi
  obtain ⟨⟨gammas, gw, occ, h1, _, _⟩, _, _⟩ := hR
  obtain ⟨g, root, _, hr, hv, hprox, _⟩ :=
    gammaAndWeights_spec (rw := (Ds[i]).slow.1) (prox := (Ds[i]).slow.2) hp h1
  rw [hprox]
  have hmem : root ∈ (a.trees.zipIdx[i]).1.components := by
    unfold ObstacleTree.getComponent at hr
    split at hr
    · cases hr
    · rename_i o' h'; cases hr; exact List.mem_of_getElem? h'
  have := (hs _ (zipIdx_mem (List.getElem_mem hi')) root hmem).reference_le x
  calc ⟪unit v, root.reference x⟫ ≤ ‖unit v‖ * ‖root.reference x‖ := real_inner_le_norm _ _
    _ ≤ 1 * 1 := mul_le_mul (le_of_eq (unit_norm hv)) this (norm_nonneg _) (by norm_num)
    _ = 1 := one_mul _

lemma averaged_le {ns : List (Vec d)} {ws : List ℝ} (hn : ∀ n ∈ ns, ‖n‖ ≤ 1) (hw : Nonneg ws) :
    ‖(List.zipWith (fun (n : Vec d) w => w • n) ns ws).sum‖ ≤ ws.sum := by
  induction ns generalizing ws with
  | nil => simp only [List.zipWith_nil_left, List.sum_nil, norm_zero]; exact sum_nonneg' hw
  | cons n ns ih =>
    cases ws with
    | nil => simp
    | cons w ws =>
      rw [List.zipWith_cons_cons, List.sum_cons, List.sum_cons]
      have h1 := ih (ws := ws) (fun m hm => hn m (List.mem_cons_of_mem _ hm))
        (fun m hm => hw m (List.mem_cons_of_mem _ hm))
      have h2 := hn n List.mem_cons_self
      have h3 := hw w List.mem_cons_self
      refine (norm_add_le _ _).trans ?_
      rw [norm_smul, Real.norm_of_nonneg h3]
      nlinarith

/-- The mean of the tangent directions is a unit vector. -/
lemma direction_unit {ext : Ext d k} {a : Avoider d} {x v final : Vec d} {pr : Prepared d}
    (hp : 0 ≤ a.power) (hs : SaneTrees a.trees) (hone : AtMostOneContact x a.trees)
    (has : ArgsortSpec ext.argsort) (h : prepareAvoidance ext a x v = .ok pr)
    (hg : InnerDirections pr.tree) (hf : avoidanceDirection ext pr = .ok final) : ‖final‖ = 1 := by
  obtain ⟨hc, hl⟩ := C42_convex_partial ext a x v pr hp hs hone h
  obtain ⟨Ds, _, _, _, _, _, _, _, _, _, _, c1, _, c2, c3⟩ := prepared_facts hp hs h
  obtain ⟨w, hw, hw1⟩ := C22_unit_convex pr.tree baseId c1 hg ext.argsort has NodeState.init pr.nodes
    (avoidanceWeights pr.cluster) hl.symm c2 c3 hc.1 (by rw [hc.2]; norm_num) (le_of_eq hc.2)
  unfold avoidanceDirection at hf
  rw [hf] at hw
  injection hw with hw
  rw [hw]; exact hw1

/-- C41 (partial): for static obstacles of which at most one is in contact, if at least one
component influences the motion, the speed returned by the avoider is at most the magnitude of the
initial dynamics.

Missing for the full property: no influence at all, for which the statement is false
(`C41_unit_speed`, `C41_exceeds`); two or more contacts; and neighbouring directions in the tangent
tree that are opposite, or different by less than the tolerance of `np.allclose` if the child has children
(`C41_regions_partial` covers star-shaped obstacles without this assumption). -/
theorem C41_speed_partial (ext : Ext d k) (a : Avoider d) (x w : Vec d) (hp : 0 ≤ a.power)
    (hs : SaneTrees a.trees) (hone : AtMostOneContact x a.trees)
    (hstatic : ∀ t ∈ a.trees, Static t) (has : ArgsortSpec ext.argsort) (hne : a.trees ≠ [])
    (hmag : 0 ≤ a.magnitude x)
    (hinf : ∀ pr, PreparedFor ext a x pr → pr.cluster ≠ [])
    (hgood : ∀ pr, PreparedFor ext a x pr → InnerDirections pr.tree)
    (h : a.evaluate ext x = .ok w) : ‖w‖ ≤ a.magnitude x := by
  classical
  rcases evaluate_run hne h with ⟨rfl, _⟩ | ⟨pr, rel, final, hpr, hrel, hf, hsl⟩
  · rw [norm_zero]; exact hmag
  have hg := hgood pr hpr
  have hc := hinf pr hpr
  obtain ⟨s, conv, u, _, _, _, hprep⟩ := hpr
  have hu := direction_unit hp hs hone has hprep hg hf
  have hr0 := relative_static hstatic hrel
  obtain ⟨Ds, hD, _, hnorm, hslow, _, _, hin, _, _, hpos, _⟩ := prepared_facts hp hs hprep
  have hle := cluster_le_one hp hs hone hprep
  unfold slowDown at hsl
  split at hsl
  · rename_i hm
    rw [List.max?_eq_none_iff] at hm
    exact absurd hm hc
  · rename_i m hm
    obtain ⟨prox, h1, hsl⟩ := bind_ok.mp hsl
    obtain ⟨cf, h2, hsl⟩ := bind_ok.mp hsl
    rw [if_neg (by rw [hu]; norm_num)] at hsl
    cases hsl
    obtain ⟨p', hp', p0, p1⟩ := C35_scaling_range final
      (List.zipWith (fun (n : Vec d) w => w • n) pr.normals pr.cluster).sum (1 / m) 0.8 3 (le_of_eq hu)
      ((averaged_le (by rw [hnorm]; exact normals_le hs hD) (fun w hw => (hin w hw).1)).trans hle)
      (by norm_num) (by norm_num)
    rw [h1] at hp'
    injection hp' with hp'
    subst hp'
    have hsne : pr.slow ≠ [] := by
      rw [hslow]
      intro h0
      have := hD.length_eq
      rw [List.map_eq_nil_iff.mp h0, List.length_zipIdx] at this
      exact hne (List.length_eq_zero_iff.mp this)
    obtain ⟨c', hc', c0, c1, _⟩ := C36_slowfactor pr.slow 0.2 hsne (by norm_num)
      (by rw [hslow]; exact slow_le hp hs hD)
    rw [h2] at hc'
    injection hc' with hc'
    subst hc'
    rw [hr0, add_zero, norm_smul, hu, div_one, mul_one, Real.norm_of_nonneg
      (mul_nonneg hmag (le_min c0 p0))]
    calc a.magnitude x * min cf prox ≤ a.magnitude x * 1 :=
          mul_le_mul_of_nonneg_left (min_le_of_left_le c1) hmag
      _ = a.magnitude x := mul_one _

/-- C41, negative result: if no component influences the motion (for example when moving straight
away from the only obstacle), the avoider returns a unit vector, whatever the magnitude of the
initial dynamics. -/
theorem C41_unit_speed (ext : Ext d k) (a : Avoider d) (x w : Vec d) (hp : 0 ≤ a.power)
    (hs : SaneTrees a.trees) (hone : AtMostOneContact x a.trees)
    (hstatic : ∀ t ∈ a.trees, Static t) (has : ArgsortSpec ext.argsort) (hne : a.trees ≠ [])
    (pr : Prepared d) (hpr : PreparedFor ext a x pr) (hinf : pr.cluster = [])
    (hgood : InnerDirections pr.tree) (h : a.evaluate ext x = .ok w) : ‖w‖ = 1 := by
  classical
  obtain ⟨s, conv, u, e1, e2, e3, e4⟩ := hpr
  rcases evaluate_run hne h with ⟨_, hn⟩ | ⟨pr', rel, final, hpr', hrel, hf, hsl⟩
  · rw [e1] at hn; cases hn
  · obtain ⟨s', conv', u', e1', e2', e3', e4'⟩ := hpr'
    rw [e1] at e1'; cases e1'
    rw [e2] at e2'; cases e2'
    rw [e3] at e3'; cases e3'
    rw [e4] at e4'; cases e4'
    have hu := direction_unit hp hs hone has e4 hgood hf
    unfold slowDown at hsl
    rw [hinf] at hsl
    cases hsl
    rw [relative_static hstatic hrel, add_zero]
    exact hu

end Verif
