import Verif.Props.TreeMean
import Verif.Lemmas.TreeTurnBuild

/-!
# C140: the orientation of the axes does not matter

`R` is a rotation or a reflection of the space, `turnRot`, `turnTree`, `ClearlyApart` and `ClearDirections` are in
`Spec/Turn.lean`.
-/

open scoped RealInnerProductSpace

namespace Verif
open Spec

variable {d : ℕ} {I : Type} [DecidableEq I]

/-- C140 (partial): for all non-zero vectors with equal or clearly different directions, the rotation between the turned
vectors maps turned vectors to the turned images, for every factor; and it exists exactly if the rotation between the
original vectors exists.
Missing: directions which are nearly but not exactly parallel, for which it fails (`C140_nearly_parallel`). -/
theorem C140_rotation_partial [Fact (2 ≤ d)] (R : Vec d ≃ₗᵢ[ℝ] Vec d) (u v : Vec d) (hc : ClearlyApart (unit u) (unit v)) :
    (fromDirections (R u) (R v) = none ↔ fromDirections u v = none)
      ∧ ∀ o o', fromDirections u v = some o → fromDirections (R u) (R v) = some o' →
        ∀ (w : Vec d) (k : ℝ), o'.rotate (R w) k = R (o.rotate w k) := by
  have hex : ∀ (R : Vec d ≃ₗᵢ[ℝ] Vec d) (u v : Vec d), fromDirections u v = none → ClearlyApart (unit u) (unit v) →
      fromDirections (R u) (R v) = none := by
    intro R u v h hc
    by_cases hu : u = 0
    · rw [hu, map_zero]; exact fromDirections_zero (Or.inl rfl)
    by_cases hv : v = 0
    · rw [hv, map_zero]; exact fromDirections_zero (Or.inr rfl)
    have hu' : R u ≠ 0 := by simpa using hu
    have hv' : R v ≠ 0 := by simpa using hv
    by_cases ha : allclose (unit u) (unit v)
    · rw [fromDirections_close hu hv ha] at h; cases h
    by_cases ho : Opposite u v
    · refine fromDirections_opposite hu' hv' ?_ (opposite_turn.mpr ho)
      have hne : unit u ≠ unit v := fun e => ha (by rw [e]; exact allclose_refl _)
      have := clear_not_close (u := unit (R u)) (unit_norm hv') (by rw [unit_turn, unit_turn]; exact clear_turn hc)
      refine this.resolve_left fun e => hne ?_
      rw [unit_turn, unit_turn] at e
      exact R.injective e
    · rw [fromDirections_far hu hv ha ho] at h; cases h
  refine ⟨⟨fun h => ?_, fun h => hex R u v h hc⟩, ?_⟩
  · have := hex R.symm (R u) (R v) h (by rw [unit_turn, unit_turn]; exact clear_turn hc)
    simpa using this
  · intro o o' h h' w k
    obtain ⟨hu, hv, -⟩ := fromDirections_some h
    have hu' : R u ≠ 0 := by simpa using hu
    have hv' : R v ≠ 0 := by simpa using hv
    have ht : RotTurned R o o' := by
      by_cases hp : unit u = unit v
      · obtain ⟨-, -, -, e1, e2⟩ := fromDirections_some h
        obtain ⟨-, -, -, e1', e2'⟩ := fromDirections_some h'
        refine ⟨by rw [e1, e1', unit_turn], by rw [e2, e2', angle_turn], Or.inl ?_⟩
        rw [e2, ← InnerProductGeometry.angle_smul_left_of_pos u v (r := 1 / ‖u‖) (by positivity),
          ← InnerProductGeometry.angle_smul_right_of_pos _ v (r := 1 / ‖v‖) (by positivity)]
        change InnerProductGeometry.angle (unit u) (unit v) = 0
        rw [hp]
        refine InnerProductGeometry.angle_self fun e => ?_
        have := unit_norm hv
        rw [e] at this
        simp at this
      · refine fromDirections_turned (Or.inr ⟨?_, ?_⟩) h h'
        · exact (clear_not_close (unit_norm hv) hc).resolve_left hp
        · refine (clear_not_close (unit_norm hv') (by rw [unit_turn, unit_turn]; exact clear_turn hc)).resolve_left ?_
          rw [unit_turn, unit_turn]
          exact fun e => hp (R.injective e)
    unfold Rot.rotate
    rw [rotateDirection_eq, rotateDirection_eq, ht.angle]
    exact planeRot_turned ht _ (fun h0 => by rw [h0, mul_zero]) w

/-- C140: building a tree with turned directions gives the turned tree, for every history of calls, whether the calls
succeed or raise. -/
theorem C140_history [Fact (2 ≤ d)] (R : Vec d ≃ₗᵢ[ℝ] Vec d) (r : I) (v : Vec d) (calls : List (I × Vec d × I)) :
    (do let t0 ← ((Tree.empty : Tree I d).setRoot r (R v)).toOption
        (calls.map (fun c => (c.1, R c.2.1, c.2.2))).foldlM addCall t0)
      = (do let t0 ← ((Tree.empty : Tree I d).setRoot r v).toOption
            calls.foldlM addCall t0).map (turnTree R) := by
  have hcalls : ∀ (calls : List (I × Vec d × I)) (t : Tree I d),
      (calls.map (fun c => (c.1, R c.2.1, c.2.2))).foldlM addCall (turnTree R t)
        = (calls.foldlM addCall t).map (turnTree R) := by
    intro calls
    induction calls with
    | nil => intro t; rfl
    | cons c calls ih =>
      intro t
      rw [List.map_cons, List.foldlM_cons, List.foldlM_cons]
      have e : addCall (turnTree R t) (c.1, R c.2.1, c.2.2) = (addCall t c).map (turnTree R) := by
        unfold addCall
        simp only [TreeTurn.addNode_turn, TreeTurn.turnOutcome]
        rcases t.addNode c.1 c.2.1 (some c.2.2) with ⟨t', e | e⟩ <;> rfl
      rw [e]
      cases addCall t c with
      | none => rfl
      | some t' => exact ih t'
  have h0 := TreeTurn.setRoot_turn (R := R) (Tree.empty : Tree I d) r v
  rw [TreeTurn.empty_turn] at h0
  rw [h0]
  cases (Tree.empty : Tree I d).setRoot r v with
  | error e => rfl
  | ok t0 => exact hcalls calls t0

/-- The admissible arguments of C21, C22 and C140 on a tree: non-negative weights of existing nodes, with a sum of at most
one on every branch and a positive total weight. -/
structure AdmissibleWeights (t : Tree I d) (r : I) (ns : List I) (ws : List ℝ) : Prop where
  len : ns.length = ws.length
  known : ∀ n ∈ ns, n ∈ t.nodes
  nonneg : ∀ w ∈ ws, 0 ≤ w
  le_one : ∀ n ∈ t.nodes, n ≠ r → branchWeight t (ns.zip ws) n ≤ 1
  pos : 0 < branchWeight t (ns.zip ws) r

/-- C140 (partial): turning all the directions of a tree turns the sequence to which it is reduced and the mean direction,
for all trees with equal or clearly different, not opposite neighbouring directions, all admissible weights, and all states
left behind by earlier calls.
Missing: neighbouring directions which are nearly but not exactly parallel, for which it fails. -/
theorem C140_tree_partial [Fact (2 ≤ d)] (R : Vec d ≃ₗᵢ[ℝ] Vec d) (t : Tree I d) (r : I) (h : RootedTree t r)
    (hc : ClearDirections t) (argsort : List ℤ → List ℕ) (has : ArgsortSpec argsort) (st st' : NodeState I d)
    (ns : List I) (ws : List ℝ) (ha : AdmissibleWeights t r ns ws) :
    ∃ s m, t.reduceWeightedToSequence argsort st ns ws = .ok s ∧ t.getWeightedMean argsort st ns ws = .ok m
      ∧ (turnTree R t).reduceWeightedToSequence argsort st' ns ws = .ok (s.map (turnRot R))
      ∧ (turnTree R t).getWeightedMean argsort st' ns ws = .ok (R m) := by
  have hargs : Args t r ns ws := ⟨ha.len, ha.known, ha.nonneg, ha.le_one⟩
  have hc' : ClearDirections (turnTree R t) := TreeTurn.clear_turnTree hc
  obtain ⟨s, h1, h2⟩ := TreeTurn.reduce_turn (R := R) h (TreeTurn.clear_good h hc)
    (TreeTurn.clear_good (TreeTurn.rooted h) hc') has st st' ha.len ha.known (hargs.good h) (ne_of_gt ha.pos)
  have hm : ∃ m, t.getWeightedMean argsort st ns ws = .ok m := by
    obtain ⟨L, hL⟩ := exists_deepest h (hargs.good h) (ne_of_gt ha.pos)
    have := mean_spec h (TreeTurn.clear_good h hc).inner has st hargs rfl L hL
    obtain ⟨_, _, Q, _, _, _, _, _, _, e⟩ := this
    exact ⟨_, e⟩
  obtain ⟨m, hm⟩ := hm
  refine ⟨s, m, h1, hm, h2, ?_⟩
  unfold Tree.getWeightedMean at hm ⊢
  rw [h1] at hm
  rw [h2]
  change RotSeq.getEndVector s = .ok m at hm
  change RotSeq.getEndVector (s.map (turnRot R)) = .ok (R m)
  unfold RotSeq.getEndVector at hm ⊢
  rw [List.getLast?_map]
  cases hl : s.getLast? with
  | none => rw [hl] at hm; cases hm
  | some q =>
    rw [hl] at hm
    have hm' : q.rotate q.base.b0 = m := Except.ok.inj hm
    simp only [Option.map_some, Except.ok.injEq]
    rw [← hm']
    unfold Rot.rotate
    rw [rotateDirection_eq, rotateDirection_eq]
    exact planeRot_turned (turnRot_turned q) _ (fun h0 => by rw [show (turnRot R q).angle = q.angle from rfl, h0, mul_zero]) _

/-- The hypotheses of `C140_tree_partial` are met: the chain of the three unit vectors, with the weight one for the last
node, or a half for each of the last two. -/
example : RootedTree exTree 0 ∧ ClearDirections exTree ∧ AdmissibleWeights exTree 0 [2] [1]
    ∧ AdmissibleWeights exTree 0 [1, 2] [1 / 2, 1 / 2] := by
  have hd : ∀ i j : Fin 3, i ≠ j → ClearlyApart (e3 i) (e3 j) := by
    intro i j hij
    right
    have h1 : ‖e3 i - e3 j‖ = Real.sqrt 2 := by
      rw [EuclideanSpace.norm_eq]
      congr 1
      fin_cases i <;> fin_cases j <;> simp_all [e3, Fin.sum_univ_three] <;> norm_num
    rw [h1]
    have h2 : (1 : ℝ) ≤ Real.sqrt 2 := by rw [Real.le_sqrt] <;> norm_num
    have h3 : Real.sqrt ((3 : ℕ) : ℝ) ≤ 2 := by rw [Real.sqrt_le_left] <;> norm_num
    norm_num at h3 ⊢
    linarith
  have hw : ∀ (ns : List ℕ) (ws : List ℝ), ns.length = ws.length → (∀ n ∈ ns, n ∈ exTree.nodes) → (∀ w ∈ ws, 0 ≤ w) →
      (∀ n, 0 ≤ givenWeight (ns.zip ws) n) →
      givenWeight (ns.zip ws) 0 + givenWeight (ns.zip ws) 1 + givenWeight (ns.zip ws) 2 = 1 →
      AdmissibleWeights exTree 0 ns ws := by
    intro ns ws h1 h2 h3 h4 h5
    classical
    have hsum : ∑ m ∈ exTree.nodes.toFinset, givenWeight (ns.zip ws) m = 1 := by
      rw [← h5]; simp [exTree]; ring
    refine ⟨h1, h2, h3, fun n _ _ => ?_, ?_⟩
    · rw [← hsum]
      exact Finset.sum_le_sum_of_subset_of_nonneg (Finset.filter_subset _ _) (fun m _ _ => h4 m)
    · have : branchWeight exTree (ns.zip ws) 0 = 1 := by
        rw [← hsum]
        unfold branchWeight
        rw [Finset.filter_true_of_mem]
        intro m hm
        by_cases e : m = 0
        · exact Or.inl e
        · exact Or.inr (exTree_rooted.root_desc (by simpa using hm) e)
      rw [this]; norm_num
  refine ⟨exTree_rooted, fun p c h => ⟨(exTree_good p c h).1, ?_⟩, hw _ _ rfl (by simp [exTree]) (by simp) ?_ ?_,
    hw _ _ rfl (by simp [exTree]) (by norm_num) ?_ ?_⟩
  · simp only [IsParent, exTree, List.mem_cons, Prod.mk.injEq, List.not_mem_nil, or_false] at h
    rcases h with ⟨rfl, rfl⟩ | ⟨rfl, rfl⟩
    · simpa [dirOf, exTree] using hd 0 1 (by decide)
    · simpa [dirOf, exTree] using hd 1 2 (by decide)
  · intro n; simp [givenWeight]; split_ifs <;> norm_num
  · simp [givenWeight]
  · intro n; simp [givenWeight]; split_ifs <;> norm_num
  · simp [givenWeight]; norm_num

/-- C140: violated by the code for nearly parallel directions.  The rotation from `(1, 0)` to `(cos a, sin a)` with
`0 < a ≤ 10⁻⁸` goes the wrong way, to `(cos a, - sin a)`, and the mirrored rotation, from `(1, 0)` to `(cos a, - sin a)`, leads to
the same vector. -/
theorem C140_nearly_parallel (a : ℝ) (h0 : 0 < a) (h1 : a ≤ 1e-8) : ∃ o o',
    fromDirections (!₂[1, 0] : Vec 2) !₂[Real.cos a, Real.sin a] = some o
      ∧ fromDirections (!₂[1, 0] : Vec 2) !₂[Real.cos a, -Real.sin a] = some o'
      ∧ o.rotate !₂[1, 0] = !₂[Real.cos a, -Real.sin a] ∧ o'.rotate !₂[1, 0] = !₂[Real.cos a, -Real.sin a] := by
  have hn : ∀ b : ℝ, ‖(!₂[Real.cos b, Real.sin b] : Vec 2)‖ = 1 := by
    intro b
    rw [EuclideanSpace.norm_eq, Real.sqrt_eq_one]
    simp [Fin.sum_univ_two]
  have hn0 : ‖(!₂[1, 0] : Vec 2)‖ = 1 := by simp [EuclideanSpace.norm_eq, Fin.sum_univ_two]
  have hne : ∀ v : Vec 2, ‖v‖ = 1 → v ≠ 0 := by rintro v hv rfl; simp at hv
  have key : ∀ b : ℝ, |b| = a → ∃ o, fromDirections (!₂[1, 0] : Vec 2) !₂[Real.cos b, Real.sin b] = some o
      ∧ o.rotate !₂[1, 0] = !₂[Real.cos a, -Real.sin a] := by
    intro b hb
    have hcl : allclose (unit (!₂[1, 0] : Vec 2)) (unit !₂[Real.cos b, Real.sin b]) := by
      rw [unit_of_norm_one hn0, unit_of_norm_one (hn b)]
      have hcos : 1 - b ^ 2 / 2 ≤ Real.cos b := Real.one_sub_sq_div_two_le_cos
      have hcos1 := Real.cos_le_one b
      have hsin : |Real.sin b| ≤ |b| := Real.abs_sin_le_abs
      have hb2 : b ^ 2 ≤ 1e-8 := by
        rw [← sq_abs, hb]; nlinarith
      intro i
      unfold isclose
      fin_cases i
      · simp only [Fin.zero_eta, PiLp.toLp_apply, Matrix.cons_val_zero]
        rw [abs_of_nonneg (by linarith), abs_of_nonneg (by linarith)]
        nlinarith
      · simp only [Fin.mk_one, PiLp.toLp_apply, Matrix.cons_val_one, Matrix.cons_val_zero, zero_sub, abs_neg]
        have := abs_nonneg (Real.sin b)
        rw [hb] at hsin
        linarith
    refine ⟨_, fromDirections_close (hne _ hn0) (hne _ (hn b)) hcl, ?_⟩
    have hang : InnerProductGeometry.angle (!₂[1, 0] : Vec 2) !₂[Real.cos b, Real.sin b] = a := by
      unfold InnerProductGeometry.angle
      rw [hn0, hn b]
      have : ⟪(!₂[1, 0] : Vec 2), !₂[Real.cos b, Real.sin b]⟫ = Real.cos a := by
        rw [← hb, Real.cos_abs]; simp [PiLp.inner_apply, Fin.sum_univ_two]
      rw [this, one_mul, div_one, Real.arccos_cos h0.le (by linarith [Real.pi_pos, Real.two_le_pi])]
    have hperp : parallelPerp (unit (!₂[1, 0] : Vec 2)) = !₂[0, -1] := by
      rw [unit_of_norm_one hn0]
      unfold parallelPerp
      have hi0 : (i0 : Fin 2) = 0 := rfl
      have hi1 : (i1 : Fin 2) = 1 := rfl
      ext i
      fin_cases i <;> simp [hi0, hi1]
    unfold Rot.rotate
    rw [rotateDirection_eq]
    dsimp only
    rw [hang, hperp, unit_of_norm_one hn0, one_mul, planeRot_b0 ⟨hn0, ?_, ?_⟩]
    · ext i; fin_cases i <;> simp
    · simp [EuclideanSpace.norm_eq, Fin.sum_univ_two]
    · simp [PiLp.inner_apply, Fin.sum_univ_two]
  obtain ⟨o, e1, e2⟩ := key a (abs_of_pos h0)
  obtain ⟨o', e1', e2'⟩ := key (-a) (by rw [abs_neg, abs_of_pos h0])
  rw [Real.cos_neg, Real.sin_neg] at e1'
  exact ⟨o, o', e1, e1', e2, e2'⟩

end Verif
