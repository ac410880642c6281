import Verif.Lemmas.PlanarConvergence
import Verif.Props.ConvergenceExamples

/-!
# C115: directions in the plane

In the plane the direction tree, the reduction of two sequences and the convergence direction of the avoider have
closed forms in terms of signed angles: the result is the direction of the root, turned by the weighted sum of the
angles accumulated along the paths to the nodes.

Model: `Verif.Model.Tree`, `Verif.Model.Avoider`.  Specification: `Verif.Spec.Planar` (`turnBy`, `signedAngle`,
`PathAngles`, `pathTurn`).
-/

open scoped RealInnerProductSpace

namespace Verif
open Spec

variable {I : Type} [DecidableEq I] {k : ℕ}

lemma tree_induction {t : Tree I 2} {r : I} (h : RootedTree t r) {P : I → Prop} (h0 : P r)
    (hs : ∀ p c, IsParent t p c → P p → P c) : ∀ n ∈ t.nodes, P n := by
  have key : ∀ k, ∀ n ∈ t.nodes, t.nodes.idxOf n = k → P n := by
    intro k
    induction k using Nat.strong_induction_on with
    | _ k ih =>
      intro n hn hk
      by_cases e : n = r
      · rw [e]; exact h0
      · obtain ⟨p, hp⟩ := h.has_parent n hn e
        have := h.parent_before _ _ hp
        exact hs p n hp (ih _ (by omega) p (h.edge_fst _ _ hp) rfl)
  exact fun n hn => key _ n hn rfl

/-! ## The angles -/

/-- C115: in a tree without opposite neighbours every node has an angle relative to the root, and only one. -/
theorem C115_angles (t : Tree I 2) (r : I) (h : RootedTree t r)
    (hno : ∀ p c, IsParent t p c → ¬ Opposite (dirOf t p) (dirOf t c)) :
    (∃ Θ, PathAngles t r Θ)
      ∧ ∀ Θ Θ', PathAngles t r Θ → PathAngles t r Θ' → ∀ n ∈ t.nodes, Θ n = Θ' n := by
  refine ⟨exists_pathAngles h hno, fun Θ Θ' h1 h2 => ?_⟩
  refine tree_induction h (P := fun n => Θ n = Θ' n) ?_ ?_
  · rw [h1.root, h2.root]
  · intro p c hp ih
    have hn := (dir_eq h (h.edge_fst _ _ hp)).2
    rw [h1.signed hp hn, h2.signed hp hn, ih]

/-- C115: the direction of a node is the direction of the root turned by the angle of the node. -/
theorem C115_direction (t : Tree I 2) (r : I) (h : RootedTree t r) (Θ : I → ℝ) (hΘ : PathAngles t r Θ) :
    ∀ n ∈ t.nodes, dirOf t n = turnBy (Θ n) (dirOf t r) := by
  refine tree_induction h (P := fun n => dirOf t n = turnBy (Θ n) (dirOf t r)) ?_ ?_
  · rw [hΘ.root, turnBy_zero]
  · intro p c hp ih
    rw [(hΘ.edge p c hp).2, ih, turnBy_add]
    congr 1; ring

/-! ## The weighted mean -/

/-- C115: the weighted mean of a tree of planar directions is the direction of the root turned by the weighted sum of
the angles of the nodes. -/
theorem C115_mean (t : Tree I 2) (r : I) (h : RootedTree t r) (hg : GoodDirections t)
    (argsort : List ℤ → List ℕ) (has : ArgsortSpec argsort) (st : NodeState I 2) (ns : List I) (ws : List ℝ)
    (hlen : ns.length = ws.length) (hnd : ns.Nodup) (hns : ∀ n ∈ ns, n ∈ t.nodes) (hw : ∀ w ∈ ws, 0 ≤ w)
    (hpos : 0 < ws.sum) (hle : ws.sum ≤ 1) (Θ : I → ℝ) (hΘ : PathAngles t r Θ) :
    t.getWeightedMean argsort st ns ws
      = .ok (turnBy ((ns.zip ws).map (fun p => p.2 * Θ p.1)).sum (dirOf t r)) := by
  obtain ⟨s, h1, h2, _⟩ := reduce_turn h hg has st hlen hns hnd hw hpos hle hΘ
  unfold Tree.getWeightedMean
  rw [h1]
  exact h2

/-- C115: the same for weights that sum up to more than one, as they do with several obstacles in contact, as long as
they sum up to at most one on every branch below the root. -/
theorem C115_branches (t : Tree I 2) (r : I) (h : RootedTree t r) (hg : GoodDirections t)
    (argsort : List ℤ → List ℕ) (has : ArgsortSpec argsort) (st : NodeState I 2) (ns : List I) (ws : List ℝ)
    (hlen : ns.length = ws.length) (hnd : ns.Nodup) (hns : ∀ n ∈ ns, n ∈ t.nodes) (hw : ∀ w ∈ ws, 0 ≤ w)
    (hpos : 0 < ws.sum) (hle : ∀ n ∈ t.nodes, n ≠ r → branchWeight t (ns.zip ws) n ≤ 1)
    (Θ : I → ℝ) (hΘ : PathAngles t r Θ) :
    t.getWeightedMean argsort st ns ws
      = .ok (turnBy ((ns.zip ws).map (fun p => p.2 * Θ p.1)).sum (dirOf t r)) := by
  classical
  have ha : Args t r ns ws := ⟨hlen, hns, hw, hle⟩
  have hfst : (ns.zip ws).map Prod.fst = ns := List.map_fst_zip (by omega)
  rw [mean_turn h hg has st hlen hns (ha.good h)
    (by rw [C20_root_total t r h ns ws hlen hnd hns]; exact hpos.ne') hΘ]
  have := sum_givenWeight (ns.zip ws) (by rw [hfst]; exact hnd) t.nodes.toFinset
    (fun p hp => List.mem_toFinset.mpr (ha.zip_known p hp)) Θ
  simp only [smul_eq_mul] at this
  rw [this]

/-- C115: the sequence of rotations that belongs to the mean turns by the same angle in total: no full turns are lost
or added along it. -/
theorem C115_sequence (t : Tree I 2) (r : I) (h : RootedTree t r) (hg : GoodDirections t)
    (argsort : List ℤ → List ℕ) (has : ArgsortSpec argsort) (st : NodeState I 2) (ns : List I) (ws : List ℝ)
    (hlen : ns.length = ws.length) (hnd : ns.Nodup) (hns : ∀ n ∈ ns, n ∈ t.nodes) (hw : ∀ w ∈ ws, 0 ≤ w)
    (hpos : 0 < ws.sum) (hle : ws.sum ≤ 1) (Θ : I → ℝ) (hΘ : PathAngles t r Θ) :
    ∃ s, t.reduceWeightedToSequence argsort st ns ws = .ok s
      ∧ pathTurn s = ((ns.zip ws).map (fun p => p.2 * Θ p.1)).sum := by
  obtain ⟨s, h1, _, h3, _⟩ := reduce_turn h hg has st hlen hns hnd hw hpos hle hΘ
  exact ⟨s, h1, h3⟩

lemma weighted_between (l : List (I × ℝ)) (Θ : I → ℝ) (lo hi : ℝ) (hw : ∀ p ∈ l, 0 ≤ p.2)
    (hb : ∀ p ∈ l, lo ≤ Θ p.1 ∧ Θ p.1 ≤ hi) :
    lo * (l.map Prod.snd).sum ≤ (l.map (fun p => p.2 * Θ p.1)).sum
      ∧ (l.map (fun p => p.2 * Θ p.1)).sum ≤ hi * (l.map Prod.snd).sum := by
  induction l with
  | nil => simp
  | cons p l ih =>
    have := ih (fun q hq => hw q (List.mem_cons_of_mem _ hq)) (fun q hq => hb q (List.mem_cons_of_mem _ hq))
    have h1 := hw p List.mem_cons_self
    have h2 := hb p List.mem_cons_self
    simp only [List.map_cons, List.sum_cons]
    constructor <;> nlinarith [this.1, this.2, h2.1, h2.2]

/-- C115: the mean of weights with sum one lies in every sector that contains the angles of the given nodes. -/
theorem C115_sector (t : Tree I 2) (r : I) (h : RootedTree t r) (hg : GoodDirections t)
    (argsort : List ℤ → List ℕ) (has : ArgsortSpec argsort) (st : NodeState I 2) (ns : List I) (ws : List ℝ)
    (hlen : ns.length = ws.length) (hnd : ns.Nodup) (hns : ∀ n ∈ ns, n ∈ t.nodes) (hw : ∀ w ∈ ws, 0 ≤ w)
    (hsum : ws.sum = 1) (Θ : I → ℝ) (hΘ : PathAngles t r Θ) (lo hi : ℝ) (hb : ∀ n ∈ ns, lo ≤ Θ n ∧ Θ n ≤ hi) :
    ∃ α, lo ≤ α ∧ α ≤ hi ∧ t.getWeightedMean argsort st ns ws = .ok (turnBy α (dirOf t r)) := by
  have := weighted_between (ns.zip ws) Θ lo hi (fun p hp => hw _ (zip_fst_mem hp).2)
    (fun p hp => hb _ (zip_fst_mem hp).1)
  rw [List.map_snd_zip (by omega), hsum, mul_one, mul_one] at this
  exact ⟨_, this.1, this.2, C115_mean t r h hg argsort has st ns ws hlen hnd hns hw (by rw [hsum]; norm_num)
    (by rw [hsum]) Θ hΘ⟩

/-! ### A tree around the circle -/

/-- The directions `(1, 0)`, `(0, 1)`, `(-1, 0)` on one branch and `(1, 0)`, `(0, -1)`, `(-1, 0)` on the other one. -/
noncomputable def windTree : Tree ℕ 2 :=
  { nodes := [0, 1, 2, 3, 4]
    edges := [(0, 1), (1, 2), (0, 3), (3, 4)]
    level := fun n => if n = 0 then some 0 else if n = 1 then some 1 else if n = 2 then some 2 else
      if n = 3 then some 1 else if n = 4 then some 2 else none
    dir := fun n => if n = 0 then some !₂[1, 0] else if n = 1 then some !₂[0, 1] else
      if n = 2 then some !₂[-1, 0] else if n = 3 then some !₂[0, -1] else if n = 4 then some !₂[-1, 0] else none
    root := some 0 }

lemma wind_edges {p c : ℕ} (h : IsParent windTree p c) :
    (p = 0 ∧ c = 1) ∨ (p = 1 ∧ c = 2) ∨ (p = 0 ∧ c = 3) ∨ (p = 3 ∧ c = 4) := by
  simpa [IsParent, windTree] using h

lemma wind_norms : ‖(!₂[1, 0] : Vec 2)‖ = 1 ∧ ‖(!₂[0, 1] : Vec 2)‖ = 1 ∧ ‖(!₂[-1, 0] : Vec 2)‖ = 1
    ∧ ‖(!₂[0, -1] : Vec 2)‖ = 1 := by
  refine ⟨?_, ?_, ?_, ?_⟩ <;> simp [EuclideanSpace.norm_eq, Fin.sum_univ_two]

lemma windTree_rooted : RootedTree windTree 0 := by
  obtain ⟨n0, n1, n2, n3⟩ := wind_norms
  constructor
  · decide
  · rfl
  · rfl
  · intro p c h; have := wind_edges h; simp only [windTree, List.mem_cons, List.not_mem_nil, or_false]; omega
  · intro p c h; have := wind_edges h; simp only [windTree, List.mem_cons, List.not_mem_nil, or_false]; omega
  · decide
  · intro n hn h0
    simp only [windTree, List.mem_cons, List.not_mem_nil, or_false] at hn
    rcases hn with rfl | rfl | rfl | rfl | rfl
    · exact absurd rfl h0
    · exact ⟨0, by simp [IsParent, windTree]⟩
    · exact ⟨1, by simp [IsParent, windTree]⟩
    · exact ⟨0, by simp [IsParent, windTree]⟩
    · exact ⟨3, by simp [IsParent, windTree]⟩
  · intro p h; have := wind_edges h; omega
  · intro p c h
    rcases wind_edges h with ⟨rfl, rfl⟩ | ⟨rfl, rfl⟩ | ⟨rfl, rfl⟩ | ⟨rfl, rfl⟩ <;> decide
  · simp [windTree]
  · intro p c h
    rcases wind_edges h with ⟨rfl, rfl⟩ | ⟨rfl, rfl⟩ | ⟨rfl, rfl⟩ | ⟨rfl, rfl⟩
    · exact ⟨0, by simp [windTree], by simp [windTree]⟩
    · exact ⟨1, by simp [windTree], by simp [windTree]⟩
    · exact ⟨0, by simp [windTree], by simp [windTree]⟩
    · exact ⟨1, by simp [windTree], by simp [windTree]⟩
  · intro n hn
    simp only [windTree, List.mem_cons, List.not_mem_nil, or_false] at hn ⊢
    rcases hn with rfl | rfl | rfl | rfl | rfl
    · exact ⟨0, by simp⟩
    · exact ⟨1, by simp⟩
    · exact ⟨2, by simp⟩
    · exact ⟨1, by simp⟩
    · exact ⟨2, by simp⟩
  · intro n hn
    simp only [windTree, List.mem_cons, List.not_mem_nil, or_false] at hn ⊢
    rcases hn with rfl | rfl | rfl | rfl | rfl
    · exact ⟨_, rfl, n0⟩
    · exact ⟨_, rfl, n1⟩
    · exact ⟨_, rfl, n2⟩
    · exact ⟨_, rfl, n3⟩
    · exact ⟨_, rfl, n2⟩
  · intro n hn
    simp only [windTree, List.mem_cons, List.not_mem_nil, or_false, not_or] at hn ⊢
    simp [hn]

lemma wind_dirs : dirOf windTree 0 = !₂[1, 0] ∧ dirOf windTree 1 = !₂[0, 1] ∧ dirOf windTree 2 = !₂[-1, 0]
    ∧ dirOf windTree 3 = !₂[0, -1] ∧ dirOf windTree 4 = !₂[-1, 0] := by
  refine ⟨?_, ?_, ?_, ?_, ?_⟩ <;> simp [dirOf, windTree]

lemma windTree_good : GoodDirections windTree := by
  obtain ⟨d0, d1, d2, d3, d4⟩ := wind_dirs
  have close : ∀ a b : Vec 2, (1 : ℝ) ≤ |a 0 - b 0| → |b 0| ≤ 1 → ¬ allclose a b := by
    intro a b h1 h2 h
    have := h 0
    unfold isclose at this
    norm_num at this
    linarith
  have opp : ∀ a b : Vec 2, (∃ i, a i = 0 ∧ b i ≠ 0) → ¬ Opposite a b := by
    rintro a b ⟨i, h1, h2⟩ ⟨c, hc, h⟩
    have := congrFun (congrArg WithLp.ofLp h) i
    simp [h1] at this
    first
    | exact h2 this
    | (rcases this with h | h
       · exact hc.ne' h
       · exact h2 h)
  intro p c h
  rcases wind_edges h with ⟨rfl, rfl⟩ | ⟨rfl, rfl⟩ | ⟨rfl, rfl⟩ | ⟨rfl, rfl⟩
  · rw [d0, d1]; exact ⟨opp _ _ ⟨1, by simp, by simp⟩, Or.inr (close _ _ (by simp) (by simp))⟩
  · rw [d1, d2]; exact ⟨opp _ _ ⟨0, by simp, by simp⟩, Or.inr (close _ _ (by simp) (by simp))⟩
  · rw [d0, d3]; exact ⟨opp _ _ ⟨1, by simp, by simp⟩, Or.inr (close _ _ (by simp) (by simp))⟩
  · rw [d3, d4]; exact ⟨opp _ _ ⟨0, by simp, by simp⟩, Or.inr (close _ _ (by simp) (by simp))⟩

/-- The angles of the nodes: `0`, `π/2`, `π` and `-π/2`, `-π`. -/
noncomputable def windAngle (n : ℕ) : ℝ :=
  if n = 1 then Real.pi / 2 else if n = 2 then Real.pi else if n = 3 then -(Real.pi / 2) else
    if n = 4 then -Real.pi else 0

lemma wind_angles : PathAngles windTree 0 windAngle := by
  have hp := Real.pi_pos
  obtain ⟨d0, d1, d2, d3, d4⟩ := wind_dirs
  have a1 : |Real.pi / 2| < Real.pi := by rw [abs_of_pos (by positivity)]; linarith
  refine ⟨by simp [windAngle], ?_⟩
  intro p c h
  rcases wind_edges h with ⟨rfl, rfl⟩ | ⟨rfl, rfl⟩ | ⟨rfl, rfl⟩ | ⟨rfl, rfl⟩
  · have e : windAngle 1 - windAngle 0 = Real.pi / 2 := by simp [windAngle]
    rw [e, d0, d1]; exact ⟨a1, by ext i; fin_cases i <;> simp [turnBy]⟩
  · have e : windAngle 2 - windAngle 1 = Real.pi / 2 := by simp [windAngle]; ring
    rw [e, d1, d2]; exact ⟨a1, by ext i; fin_cases i <;> simp [turnBy]⟩
  · have e : windAngle 3 - windAngle 0 = -(Real.pi / 2) := by simp [windAngle]
    rw [e, d0, d3]; exact ⟨by rw [abs_neg]; exact a1, by ext i; fin_cases i <;> simp [turnBy]⟩
  · have e : windAngle 4 - windAngle 3 = -(Real.pi / 2) := by simp [windAngle]; ring
    rw [e, d3, d4]; exact ⟨by rw [abs_neg]; exact a1, by ext i; fin_cases i <;> simp [turnBy]⟩

/-- The hypotheses of the theorems on the mean are met by this tree. -/
example : RootedTree windTree 0 ∧ GoodDirections windTree ∧ PathAngles windTree 0 windAngle
    ∧ (∃ a, ArgsortSpec a) ∧ [1, 2, 3].Nodup ∧ (∀ n ∈ [1, 2, 3], n ∈ windTree.nodes)
    ∧ (∀ w ∈ [(1 / 2 : ℝ), 1 / 4, 1 / 4], 0 ≤ w) ∧ [(1 / 2 : ℝ), 1 / 4, 1 / 4].sum = 1
    ∧ (([1, 2, 3].zip [(1 / 2 : ℝ), 1 / 4, 1 / 4]).map (fun p => p.2 * windAngle p.1)).sum = 3 / 8 * Real.pi := by
  refine ⟨windTree_rooted, windTree_good, wind_angles, argsort_exists, by decide, by simp [windTree], ?_,
    by norm_num, ?_⟩
  · intro w hw; simp only [List.mem_cons, List.not_mem_nil, or_false] at hw
    rcases hw with rfl | rfl | rfl <;> norm_num
  · simp [windAngle]; ring

/-- The hypotheses of `C115_branches` are met with full weight on both sides. -/
example : (∀ n ∈ [1, 4], n ∈ windTree.nodes) ∧ [(1 : ℝ), 1].sum = 2
    ∧ (∀ n ∈ windTree.nodes, n ≠ 0 → branchWeight windTree ([1, 4].zip [(1 : ℝ), 1]) n ≤ 1)
    ∧ (([1, 4].zip [(1 : ℝ), 1]).map (fun p => p.2 * windAngle p.1)).sum = -(Real.pi / 2) := by
  refine ⟨by simp [windTree], by norm_num, fun n _ hn => ?_, by simp [windAngle]; ring⟩
  refine owned_branch_le (own := fun n => decide (n ≤ 2)) windTree_rooted ?_ (by simp) (by simp [windTree]) ?_
    (by simp) hn
  · intro p c h
    rcases wind_edges h with ⟨rfl, rfl⟩ | ⟨rfl, rfl⟩ | ⟨rfl, rfl⟩ | ⟨rfl, rfl⟩ <;> simp
  · simp

/-- C115, the claim that nodes with the same direction have that direction as mean is violated: two nodes with the
direction `(-1, 0)`, which are reached around opposite sides; their mean is the opposite direction `(1, 0)`. -/
theorem C115_winding (argsort : List ℤ → List ℕ) (has : ArgsortSpec argsort) (st : NodeState ℕ 2) :
    windTree.dir 2 = some !₂[-1, 0] ∧ windTree.dir 4 = some !₂[-1, 0]
      ∧ windTree.getWeightedMean argsort st [2, 4] [1 / 2, 1 / 2] = .ok !₂[1, 0] := by
  refine ⟨by simp [windTree], by simp [windTree], ?_⟩
  rw [C115_mean windTree 0 windTree_rooted windTree_good argsort has st [2, 4] [1 / 2, 1 / 2] rfl (by decide)
    (by simp [windTree]) (by
      intro w hw; simp only [List.mem_cons, List.not_mem_nil, or_false] at hw
      rcases hw with rfl | rfl <;> norm_num) (by norm_num) (by norm_num) windAngle wind_angles]
  have : (([2, 4].zip [(1 / 2 : ℝ), 1 / 2]).map (fun p => p.2 * windAngle p.1)).sum = 0 := by
    simp [windAngle]
  rw [this, turnBy_zero, wind_dirs.1]

/-! ## The reduction of two sequences -/

/-- C115: the reduction of two sequences turns by the weighted sum of the turn of the initial sequence and the turn of
the way over the transformation and the second sequence. -/
theorem C115_reduction {s1 s2 : RotSeq (Vec 2)} (h1 : Proper s1) (h2 : Proper s2) {o : Rot (Vec 2)}
    (ho : OrthonormalPair o.base.b0 o.base.b1) (hg : GoodPair (s1.head h1.ne).getFirstVector o.getSecondVector)
    (hs : (s2.head h2.ne).getFirstVector = o.getSecondVector) (argsort : List ℤ → List ℕ)
    (has : ArgsortSpec argsort) (w : ℝ) (hw : 0 < w) (hw1 : w ≤ 1) :
    ∃ s, vectorRotationReduction argsort s1 (some o) (some s2) w = .ok s
      ∧ pathTurn s = (1 - w) * pathTurn s1
          + w * (signedAngle (s1.head h1.ne).getFirstVector o.getSecondVector + pathTurn s2)
      ∧ s.getEndVector = .ok (turnBy ((1 - w) * pathTurn s1
          + w * (signedAngle (s1.head h1.ne).getFirstVector o.getSecondVector + pathTurn s2))
            (s1.head h1.ne).getFirstVector) := by
  obtain ⟨s, b1, b2, b3, _⟩ := reduction_planar h1 h2 ho hg hs argsort has w hw hw1
  exact ⟨s, b1, b2, b3⟩

lemma pathTurn_single (q : Rot (Vec 2)) : pathTurn [q] = signedAngle q.getFirstVector q.getSecondVector := by
  simp [pathTurn, pathVectors, turning]

/-- A run of the reduction: from `(0, 1)` with weight `w` to `(0, -1)`, over `(1, 0)`. -/
example (argsort : List ℤ → List ℕ) (has : ArgsortSpec argsort) (w : ℝ) (hw : 0 < w) (hw1 : w ≤ 1) :
    ∃ q1 q2 o s, Proper [q1] ∧ Proper [q2] ∧ q1.getSecondVector = (!₂[0, 1] : Vec 2) ∧ q2.getSecondVector = !₂[0, -1]
      ∧ vectorRotationReduction argsort [q1] (some o) (some [q2]) w = .ok s
      ∧ s.getEndVector = .ok (turnBy ((1 - 2 * w) * (Real.pi / 2)) !₂[1, 0]) := by
  obtain ⟨q1, _, h1, f1, l1⟩ := turn_sequence (p := !₂[1, 0]) (r := 3) (y := 1) (by norm_num) (by simp)
    turn_ref turn_eval
  obtain ⟨q2, _, h2, f2, l2⟩ := turn_sequence (p := 0) (r := 4) (y := -1) (by norm_num) (by simp)
    turn_ref0 turn_eval0
  obtain ⟨o, _, hoon, hof, hol⟩ := turn_rotation
  obtain ⟨s, h, _, h3⟩ := C115_reduction h1 h2 hoon (by
    change GoodPair q1.getFirstVector _
    rw [f1, hol]
    refine ⟨?_, Or.inl rfl⟩
    rintro ⟨c, hc, h⟩
    have := congrFun (congrArg WithLp.ofLp h) 0
    simp at this
    linarith) (by change q2.getFirstVector = _; rw [f2, hol]) argsort has w hw hw1
  refine ⟨q1, q2, o, s, h1, h2, l1, l2, h, ?_⟩
  have hp := Real.pi_pos
  obtain ⟨n0, _⟩ := wind_norms
  have a1 : |Real.pi / 2| < Real.pi := by rw [abs_of_pos (by positivity)]; linarith
  have t1 : signedAngle (!₂[1, 0] : Vec 2) !₂[0, 1] = Real.pi / 2 := by
    have := signedAngle_turn n0 a1
    rwa [show turnBy (Real.pi / 2) (!₂[1, 0] : Vec 2) = !₂[0, 1] by
      ext i; fin_cases i <;> simp [turnBy]] at this
  have t2 : signedAngle (!₂[1, 0] : Vec 2) !₂[0, -1] = -(Real.pi / 2) := by
    have := signedAngle_turn n0 (α := -(Real.pi / 2)) (by rw [abs_neg]; exact a1)
    rwa [show turnBy (-(Real.pi / 2)) (!₂[1, 0] : Vec 2) = !₂[0, -1] by
      ext i; fin_cases i <;> simp [turnBy]] at this
  rw [h3, pathTurn_single, pathTurn_single]
  simp only [List.head_cons]
  rw [f1, l1, f2, l2, hol, t1, t2, signedAngle_self n0]
  congr 2; ring

/-! ## The convergence direction -/

/-- C115 (partial): the convergence direction in the plane, for any number of obstacles: the first direction of the
initial sequence turned by the weighted sum of the angles of the obstacles and of the initial sequence.  The angle of
the root of an obstacle with projected weight `p` is `(1 - p) α + p (β + γ)`, where `α` is the turn of the initial
sequence, `β` the angle to the transformed reference direction and `γ` the turn of the dynamics at the obstacle.

Missing: the angles of components other than the roots, and what is missing in `C112_unit_partial`. -/
theorem C115_convergence_partial (ext : Ext 2 k) (a : Avoider 2) (x : Vec 2) (s : RotSeq (Vec 2)) (st : ConvState 2)
    (hst : ConvergenceTree ext a x s st) (hgood : GoodDirections st.tree) (has : ArgsortSpec ext.argsort)
    (hs : Proper s) :
    ∃ Θ conv, PathAngles st.tree (.num (-10)) Θ
      ∧ computeConvergenceSequence ext a x s = .ok conv
      ∧ conv.getEndVector = .ok (turnBy (((st.nodes ++ [NodeId.num (-1)]).zip (convergenceWeights st.weights)).map
          (fun p => p.2 * Θ p.1)).sum (s.head hs.ne).getFirstVector)
      ∧ Θ (.num (-1)) = pathTurn s
      ∧ ∀ (i : ℕ) (t : ObstacleTree 2) (root : Obstacle 2) (tw p : ℝ) (o : Rot (Vec 2)) (s2 : RotSeq (Vec 2))
          (hs2 : Proper s2), a.trees[i]? = some t → t.components[t.rootIdx]? = some root →
          treeWeight a t = .ok tw → 1e-6 < tw → a.convergence.projectedWeight x root = .ok p → 0 < p → p ≤ 1 →
          a.convergence.positionToTransform x root = .ok (some o) → OrthonormalPair o.base.b0 o.base.b1 →
          GoodPair (s.head hs.ne).getFirstVector o.getSecondVector →
          evaluateDynamicsSequence root.referencePoint (convergenceOf a) = .ok (some s2) →
          (s2.head hs2.ne).getFirstVector = o.getSecondVector →
          Θ (.pair (.num i) t.rootIdx) = (1 - p) * pathTurn s
            + p * (signedAngle (s.head hs.ne).getFirstVector o.getSecondVector + pathTurn s2) := by
  classical
  obtain ⟨t0, ht0, hf⟩ := id hst
  obtain ⟨r0, m0, _⟩ := fromSequence_facts ht0
  obtain ⟨inv, -⟩ := convFold r0 hf
  obtain ⟨Θ, hΘ⟩ := exists_pathAngles inv.rooted (notOpposite_of_good hgood)
  obtain ⟨-, hargs, htot⟩ := convergence_args hst
  obtain ⟨n1, n2⟩ := conv_nodes inv m0
  have hv := C115_branches st.tree (.num (-10)) inv.rooted hgood ext.argsort has NodeState.init _ _ hargs.len n1 n2
    hargs.nonneg (by
      have := C20_root_total st.tree _ inv.rooted _ _ hargs.len n1 n2
      rw [← this]; linarith) hargs.le_one Θ hΘ
  obtain ⟨k1, k2⟩ := fromSequence_angle ht0 (proper_units hs) inv.rooted inv.grows hΘ
  have hroot := k2 _ (List.head?_eq_some_head hs.ne)
  rw [hroot] at hv
  obtain ⟨conv, h1, h2⟩ := conv_reduce hst hv
  refine ⟨Θ, conv, hΘ, h1, h2, k1, ?_⟩
  intro i t root tw p o s2 hs2 e1 e2 e3 e4 e5 e6 hp1 e7 e8 e9 e10 e11
  obtain ⟨root', p', trafo, cv, cont, b, b', f1, f2, f3, f4, f5, f6, f7, f8⟩ := convFold_step r0 hf e1 e3 e4
  rw [e2] at f1; cases f1
  rw [e5] at f2; cases f2
  rw [e7] at f3; cases f3
  rw [e10] at f4; cases f4
  obtain ⟨s', g1, g2, _, g4, g5⟩ := reduction_planar hs hs2 e8 e9 e11 ext.argsort has p e6 hp1
  rw [f5] at g1; cases g1
  rw [addSequence_angle inv.rooted hΘ f6 g4 f7 f8 (fun q hq => by rw [hroot]; exact g5 q hq), hΘ.root, zero_add, g2]

lemma convergenceWeights_one {p : ℝ} (h0 : 0 ≤ p) (h1 : p ≤ 1) : convergenceWeights [p] = [p, 1 - p] := by
  unfold convergenceWeights getLimitedWeightsToMaxSum
  rcases lt_or_eq_of_le h1 with h | rfl
  · rw [if_pos (by simpa using h)]
    simp [addToLast]
  · rw [if_neg (by simp), if_pos (by simp)]
    simp [indicator, addToLast]

/-- C115 (partial): the convergence direction with a single obstacle of one component.  The projected weight `p` of
the obstacle enters twice: the direction is turned by `(1 - g p²) α + g p² (β + γ)`, where `g` is the weight of the
obstacle, `α` the turn of the initial sequence, `β` the angle to the transformed reference direction and `γ` the turn
of the dynamics at the obstacle.

Missing: as for `C112_unit_partial`, and leaves with nearly (but not exactly) the direction of the parent. -/
theorem C115_single_partial (ext : Ext 2 k) (a : Avoider 2) (x : Vec 2) (s : RotSeq (Vec 2)) (st : ConvState 2)
    (hst : ConvergenceTree ext a x s st) (hgood : GoodDirections st.tree) (has : ArgsortSpec ext.argsort)
    (hs : Proper s) (root : Obstacle 2) (t : ObstacleTree 2) (ht : a.trees = [t])
    (hcomp : t.components = [root]) (hidx : t.rootIdx = 0) (g p : ℝ) (hg : treeWeight a t = .ok g) (hg6 : 1e-6 < g)
    (hp : a.convergence.projectedWeight x root = .ok p) (hp6 : 1e-6 < p) (hp1 : p ≤ 1)
    (o : Rot (Vec 2)) (ho : a.convergence.positionToTransform x root = .ok (some o))
    (hoon : OrthonormalPair o.base.b0 o.base.b1)
    (hopair : GoodPair (s.head hs.ne).getFirstVector o.getSecondVector)
    (s2 : RotSeq (Vec 2)) (hs2 : Proper s2)
    (hdyn : evaluateDynamicsSequence root.referencePoint (convergenceOf a) = .ok (some s2))
    (hstart : (s2.head hs2.ne).getFirstVector = o.getSecondVector) :
    ∃ conv, computeConvergenceSequence ext a x s = .ok conv
      ∧ conv.getEndVector = .ok (turnBy ((1 - g * p ^ 2) * pathTurn s
          + g * p ^ 2 * (signedAngle (s.head hs.ne).getFirstVector o.getSecondVector + pathTurn s2))
            (s.head hs.ne).getFirstVector) := by
  classical
  obtain ⟨t0, ht0, hf⟩ := id hst
  obtain ⟨r0, m0, _⟩ := fromSequence_facts ht0
  obtain ⟨inv, hobs⟩ := convFold r0 hf
  have hi : a.trees[0]? = some t := by rw [ht]; rfl
  have hc : t.components[t.rootIdx]? = some root := by rw [hcomp, hidx]; rfl
  have hg1 := (treeWeight_range hg).2
  have hg0 : 0 < g := lt_trans (by norm_num) hg6
  have hp0 : 0 < p := lt_trans (by norm_num) hp6
  -- the only entry of the tree
  have honly : ∀ q ∈ st.nodes.zip st.weights, q = (NodeId.pair (.num ((0 : ℕ) : ℤ)) 0, p * g) := by
    intro q hq
    obtain ⟨j, t', c, o', b1, b2, b3, p', g', b4, b5, _, _, b6⟩ := inv.origin q hq
    rw [ht, List.getElem?_singleton] at b1
    split_ifs at b1 with hj
    cases b1
    rw [hcomp, List.getElem?_singleton] at b2
    split_ifs at b2 with hc'
    cases b2
    subst hj; subst hc'
    rw [hp] at b4; cases b4
    rw [hg] at b5; cases b5
    exact Prod.ext b3 b6
  obtain ⟨_, w, _, _, _, _, b1, b2, _, _, _, _, _, _, b9⟩ := hobs 0 t hi g hg hg6
  rw [hc] at b1; cases b1
  rw [hp] at b2; cases b2
  have hmem := b9 hp6
  rw [hidx] at hmem
  have hzl : (st.nodes.zip st.weights).length = st.nodes.length := by rw [List.length_zip, ← inv.len, min_self]
  have hone' : st.nodes.length = 1 := by
    have h1 : 0 < st.nodes.length := by rw [← hzl]; exact List.length_pos_of_mem hmem
    by_contra hne
    have h2 : 1 < st.nodes.length := by omega
    have e0 := honly _ (List.getElem_mem (show 0 < (st.nodes.zip st.weights).length by omega))
    have e1 := honly _ (List.getElem_mem (show 1 < (st.nodes.zip st.weights).length by omega))
    rw [List.getElem_zip] at e0 e1
    have e := (congrArg Prod.fst e0).trans (congrArg Prod.fst e1).symm
    have := (List.Nodup.getElem_inj_iff inv.nodup).mp e
    omega
  have hnodes : st.nodes = [.pair (.num ((0 : ℕ) : ℤ)) 0] ∧ st.weights = [p * g] := by
    obtain ⟨n, hn⟩ := List.length_eq_one_iff.mp hone'
    obtain ⟨w, hw⟩ := List.length_eq_one_iff.mp (inv.len ▸ hone')
    have := honly (n, w) (by rw [hn, hw]; simp)
    rw [Prod.mk.injEq] at this
    rw [hn, hw, this.1, this.2]
    exact ⟨rfl, rfl⟩
  have hpg0 : 0 ≤ p * g := by positivity
  have hpg1 : p * g ≤ 1 := by nlinarith
  have hcw : convergenceWeights st.weights = [p * g, 1 - p * g] := by
    rw [hnodes.2, convergenceWeights_one hpg0 hpg1]
  obtain ⟨Θ, hΘ⟩ := exists_pathAngles inv.rooted (notOpposite_of_good hgood)
  obtain ⟨n1, n2⟩ := conv_nodes inv m0
  have hv := C115_mean st.tree (.num (-10)) inv.rooted hgood ext.argsort has NodeState.init
    (st.nodes ++ [.num (-1)]) (convergenceWeights st.weights)
    (by rw [hcw, hnodes.1]; rfl) n1 n2 (by
      rw [hcw]; intro w hw
      simp only [List.mem_cons, List.not_mem_nil, or_false] at hw
      rcases hw with rfl | rfl <;> linarith) (by rw [hcw]; simp) (by rw [hcw]; simp) Θ hΘ
  obtain ⟨k1, k2⟩ := fromSequence_angle ht0 (proper_units hs) inv.rooted inv.grows hΘ
  have hroot := k2 _ (List.head?_eq_some_head hs.ne)
  rw [hroot] at hv
  obtain ⟨conv, h1, h2⟩ := conv_reduce hst hv
  refine ⟨conv, h1, ?_⟩
  obtain ⟨root', p', trafo, cv, cont, b, b', f1, f2, f3, f4, f5, f6, f7, f8⟩ := convFold_step r0 hf hi hg hg6
  rw [hc] at f1; cases f1
  rw [hp] at f2; cases f2
  rw [ho] at f3; cases f3
  rw [hdyn] at f4; cases f4
  obtain ⟨s', g1, g2, _, g4, g5⟩ := reduction_planar hs hs2 hoon hopair hstart ext.argsort has p hp0 hp1
  rw [f5] at g1; cases g1
  have hang := addSequence_angle inv.rooted hΘ f6 g4 f7 f8 (fun q hq => by rw [hroot]; exact g5 q hq)
  rw [hΘ.root, zero_add, g2, hidx] at hang
  rw [h2, hcw, hnodes.1]
  congr 2
  simp only [List.cons_append, List.nil_append, List.zip_cons_cons, List.zip_nil_right, List.map_cons, List.map_nil,
    List.sum_cons, List.sum_nil, hang, k1]
  ring

lemma signedAngle_smul {u v : Vec 2} {a b : ℝ} (ha : 0 < a) (hb : 0 < b) :
    signedAngle (a • u) (b • v) = signedAngle u v := by
  unfold signedAngle
  have : (⟨(a • u) 0 * (b • v) 0 + (a • u) 1 * (b • v) 1, (a • u) 0 * (b • v) 1 - (a • u) 1 * (b • v) 0⟩ : ℂ)
      = ((a * b : ℝ) : ℂ) * ⟨u 0 * v 0 + u 1 * v 1, u 0 * v 1 - u 1 * v 0⟩ := by
    apply Complex.ext
    · simp; ring
    · simp; ring
  rw [this, Complex.arg_real_mul _ (mul_pos ha hb)]

lemma signedAngle_unit {u v : Vec 2} (hu : u ≠ 0) (hv : v ≠ 0) : signedAngle (unit u) (unit v) = signedAngle u v := by
  unfold unit
  exact signedAngle_smul (one_div_pos.mpr (norm_pos_iff.mpr hu))
    (one_div_pos.mpr (norm_pos_iff.mpr hv))

/-- C115 (partial): the convergence direction with a single obstacle of one component around an attractor `A`
(`ProjectedRotationDynamics`), in terms of the fields alone: with projected weight `p` and obstacle weight `g` it is
the direction to the attractor, turned by `(1 - g p²) ∠(A - x, f x) + g p² (∠(A - x, A - c) + ∠(A - c, f' c))`, where
`c` is the reference point of the obstacle, `f` the initial and `f'` the default dynamics.

Missing: as for `C112_attractor_partial`. -/
theorem C115_attractor_partial (ext : Ext 2 k) (a : Avoider 2) (x A : Vec 2) (s : RotSeq (Vec 2)) (st : ConvState 2)
    (hseq : evaluateDynamicsSequence x a.initial = .ok (some s))
    (hst : ConvergenceTree ext a x s st) (hgood : GoodDirections st.tree) (has : ArgsortSpec ext.argsort)
    (hown : a.initial.ownSequence = none) (hA : a.initial.attractorPosition = some A)
    (hown' : (convergenceOf a).ownSequence = none) (hA' : (convergenceOf a).attractorPosition = some A)
    (hrot : a.convergence.positionToTransform = Projected.rotationPositionToTransform A)
    (root : Obstacle 2) (t : ObstacleTree 2) (ht : a.trees = [t]) (hcomp : t.components = [root])
    (hidx : t.rootIdx = 0) (g p : ℝ) (hg : treeWeight a t = .ok g) (hg6 : 1e-6 < g)
    (hp : a.convergence.projectedWeight x root = .ok p) (hp6 : 1e-6 < p) (hp1 : p ≤ 1)
    (hxA : x ≠ A) (hrA : root.referencePoint ≠ A) (hopp : ¬ Opposite (A - x) (A - root.referencePoint))
    (h1 : Distinguishable [A - x, a.initial.evaluate x]) (h2 : Distinguishable [A - x, A - root.referencePoint])
    (h3 : Distinguishable [A - root.referencePoint, (convergenceOf a).evaluate root.referencePoint])
    (hdef : ∃ s2, evaluateDynamicsSequence root.referencePoint (convergenceOf a) = .ok (some s2)) :
    ∃ conv, computeConvergenceSequence ext a x s = .ok conv
      ∧ conv.getEndVector = .ok (turnBy ((1 - g * p ^ 2) * signedAngle (A - x) (a.initial.evaluate x)
          + g * p ^ 2 * (signedAngle (A - x) (A - root.referencePoint)
            + signedAngle (A - root.referencePoint) ((convergenceOf a).evaluate root.referencePoint)))
          (unit (A - x))) := by
  have hd : 2 ≤ 10 ^ 15 := by norm_num
  have href : referenceDirection x a.initial none = A - x := by
    unfold referenceDirection; rw [hA]
  have href' : referenceDirection root.referencePoint (convergenceOf a) none = A - root.referencePoint := by
    unfold referenceDirection; rw [hA']
  obtain ⟨q, rfl, hon, hgp, hend⟩ := initial_sequence hown hseq (by rw [href]; exact h1)
  have hfirst : q.getFirstVector = unit (A - x) := by
    have := (C16_rotation x a.initial none hown [q] hseq).2.1
    rw [href] at this
    simpa using this
  obtain ⟨s2, hs2⟩ := hdef
  obtain ⟨q2, rfl, hon2, hgp2, hend2⟩ := initial_sequence hown' hs2 (by rw [href']; exact h3)
  have hfirst2 : q2.getFirstVector = unit (A - root.referencePoint) := by
    have := (C16_rotation root.referencePoint (convergenceOf a) none hown' [q2] hs2).2.1
    rw [href'] at this
    simpa using this
  have hout := C69_outcomes hd x root.referencePoint A
  obtain ⟨o, ho⟩ : ∃ o, Projected.rotationStartToEnd x root.referencePoint A = .ok (some o) := by
    cases h : Projected.rotationStartToEnd x root.referencePoint A with
    | error e => exact absurd ((hout.2 e).mp h).2.2 hrA
    | ok v =>
      cases v with
      | none =>
        rcases hout.1.mp h with h | h
        · exact absurd h hxA
        · exact absurd h.2 hopp
      | some o => exact ⟨o, rfl⟩
  obtain ⟨c1, c2, c3, c4⟩ := C69_rotation hd _ _ _ o ho
  have hsec : o.getSecondVector = unit (A - root.referencePoint) := by
    rw [← c4 h2, ← c2]
    simp [Rot.rotate, Rot.getSecondVector, Rot.getFirstVector]
  have hxA' : A - x ≠ 0 := sub_ne_zero.mpr hxA.symm
  have hrA' : A - root.referencePoint ≠ 0 := sub_ne_zero.mpr hrA.symm
  have hf : a.initial.evaluate x ≠ 0 := by
    intro h0
    have : q.getSecondVector = 0 := by rw [hend, h0]; simp [unit]
    have hu := second_unit hon
    rw [this] at hu; simp at hu
  have hf' : (convergenceOf a).evaluate root.referencePoint ≠ 0 := by
    intro h0
    have : q2.getSecondVector = 0 := by rw [hend2, h0]; simp [unit]
    have hu := second_unit hon2
    rw [this] at hu; simp at hu
  obtain ⟨conv, k1, k2⟩ := C115_single_partial ext a x [q] st hst hgood has (proper_single hon hgp) root t ht hcomp
    hidx g p hg hg6 hp hp6 hp1 o (by rw [hrot]; exact ho) c1 (by
      change GoodPair q.getFirstVector _
      rw [hfirst, hsec]
      exact ⟨fun h => hopp (opposite_of_unit hxA' hrA' h), (List.isChain_cons_cons.mp h2).1⟩)
    [q2] (proper_single hon2 hgp2) hs2 (by change q2.getFirstVector = _; rw [hfirst2, hsec])
  refine ⟨conv, k1, ?_⟩
  rw [k2, pathTurn_single, pathTurn_single]
  simp only [List.head_cons]
  rw [hfirst, hend, hfirst2, hend2, hsec, signedAngle_unit hxA' hf, signedAngle_unit hxA' hrA',
    signedAngle_unit hrA' hf']

/-- The run of `turnAvoider`: the motion is `(0, 1)` at the position and `(0, -1)` at the disc; the direction to the
attractor is turned by `-π/2`. -/
example (argsort : List ℤ → List ℕ) (has : ArgsortSpec argsort) :
    ∃ q conv, evaluateDynamicsSequence !₂[1, 0] (turnAvoider 1).initial = .ok (some [q])
      ∧ computeConvergenceSequence (planeExt argsort) (turnAvoider 1) !₂[1, 0] [q] = .ok conv
      ∧ conv.getEndVector = .ok (turnBy (0 * signedAngle !₂[3, 0] !₂[0, 1]
          + 1 * (signedAngle !₂[3, 0] !₂[4, 0] + signedAngle !₂[4, 0] !₂[0, -1])) !₂[1, 0]) := by
  obtain ⟨q, st, hs, _, _, hl, htree, hfan⟩ := turn_tree (ext := planeExt argsort) has 1
  obtain ⟨q2, hs2, _⟩ := turn_sequence (p := 0) (r := 4) (y := -1) (by norm_num) (by simp) turn_ref0 turn_eval0
  have hr : disc.referencePoint = (0 : Vec 2) := rfl
  have e1 : (!₂[4, 0] : Vec 2) - !₂[1, 0] = !₂[3, 0] := by ext i; fin_cases i <;> norm_num
  have e2 : (!₂[4, 0] : Vec 2) - 0 = !₂[4, 0] := sub_zero _
  have ev : (convergenceOf (turnAvoider 1)).evaluate 0 = (!₂[0, -1] : Vec 2) := turn_eval0
  have ev1 : (turnAvoider 1).initial.evaluate !₂[1, 0] = (!₂[0, 1] : Vec 2) := turn_eval
  obtain ⟨conv, h1, h2⟩ := C115_attractor_partial (planeExt argsort) (turnAvoider 1) !₂[1, 0] !₂[4, 0] [q] st
    hs htree hfan.good has rfl rfl rfl rfl rfl disc discTree rfl rfl rfl 1 1
    (treeWeight_far rfl (by simp [discTree]) disc_far) (by norm_num)
    (by change Except.ok _ = _; rw [disc_weight]) (by norm_num) le_rfl
    (by intro h; have := congrFun (congrArg WithLp.ofLp h) 0; norm_num at this)
    (by rw [hr]; intro h; have := congrFun (congrArg WithLp.ofLp h) 0; norm_num at this)
    (by
      rw [hr, e1, e2]
      rintro ⟨c, hc, h⟩
      have := congrFun (congrArg WithLp.ofLp h) 0
      simp at this
      linarith)
    (by
      have := (good_perp (r := 3) (y := 1) (by norm_num) (by simp)).2
      rw [e1]; rw [← turn_eval] at this; exact this)
    (by
      rw [hr, e1, e2]
      refine List.isChain_cons_cons.mpr ⟨Or.inl ?_, List.isChain_singleton _⟩
      change unit _ = unit _
      rw [unit_e1 (by norm_num), unit_e1 (by norm_num)])
    (by
      have := (good_perp (r := 4) (y := -1) (by norm_num) (by simp)).2
      rw [hr, e2]; rw [← turn_eval0] at this; exact this)
    ⟨_, hs2⟩
  refine ⟨q, conv, hs, h1, ?_⟩
  rw [h2, hr, e1, e2, ev, ev1, unit_e1 (by norm_num)]
  norm_num

end Verif
