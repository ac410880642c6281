import Verif.Lemmas.PlanarSequence

/-! # Helper lemmas: the reduced sequence of a tree of planar directions -/

open Verif.Spec
open scoped RealInnerProductSpace

set_option linter.unusedSectionVars false

namespace Verif

open Spec.RootedTree (lev)

variable {I : Type} [DecidableEq I] {t : Tree I 2} {r : I}

/-- The branches at one level do not overlap. -/
lemma level_weight_le (h : RootedTree t r) (given : List (I × ℝ)) (hw : ∀ p ∈ given, 0 ≤ p.2) (l : ℤ) :
    ∑ n ∈ t.nodes.toFinset.filter (fun n => lev t n = l), branchWeight t given n
      ≤ ∑ m ∈ t.nodes.toFinset, givenWeight given m := by
  classical
  unfold branchWeight
  simp only [Finset.sum_filter]
  rw [← Finset.sum_filter, Finset.sum_comm]
  apply Finset.sum_le_sum
  intro m hm
  rw [← Finset.sum_filter, Finset.sum_const, nsmul_eq_mul]
  have hcard : ((t.nodes.toFinset.filter (fun n => lev t n = l)).filter
      (fun n => m = n ∨ Descendant t n m)).card ≤ 1 := by
    rw [Finset.card_le_one]
    intro a ha b hb
    simp only [Finset.mem_filter] at ha hb
    obtain ⟨⟨_, ha1⟩, ha2⟩ := ha
    obtain ⟨⟨_, hb1⟩, hb2⟩ := hb
    rcases ha2 with rfl | ha2
    · rcases hb2 with rfl | hb2
      · rfl
      · have := h.lev_desc hb2; omega
    · rcases hb2 with rfl | hb2
      · have := h.lev_desc ha2; omega
      · exact h.desc_same_level ha2 hb2 (by rw [ha1, hb1])
  have hn := givenWeight_nonneg given hw m
  have : ((((t.nodes.toFinset.filter (fun n => lev t n = l)).filter
      (fun n => m = n ∨ Descendant t n m)).card : ℕ) : ℝ) ≤ 1 := by exact_mod_cast hcard
  nlinarith

/-- A weighted sum of numbers less than `c`, with weights of sum at most one. -/
lemma weighted_abs_lt {α : Type*} (s : Finset α) (W θ : α → ℝ) (c : ℝ) (hc : 0 < c)
    (hW : ∀ n ∈ s, 0 ≤ W n) (hsum : ∑ n ∈ s, W n ≤ 1) (hθ : ∀ n ∈ s, |θ n| < c) :
    |∑ n ∈ s, W n * θ n| < c := by
  have h1 : |∑ n ∈ s, W n * θ n| ≤ ∑ n ∈ s, W n * |θ n| := by
    refine le_trans (Finset.abs_sum_le_sum_abs _ _) (le_of_eq ?_)
    apply Finset.sum_congr rfl
    intro n hn
    rw [abs_mul, abs_of_nonneg (hW n hn)]
  refine lt_of_le_of_lt h1 ?_
  by_cases hz : ∀ n ∈ s, W n = 0
  · rw [Finset.sum_eq_zero (fun n hn => by rw [hz n hn, zero_mul])]; exact hc
  · push Not at hz
    obtain ⟨m, hm, hm0⟩ := hz
    have : ∑ n ∈ s, W n * |θ n| < ∑ n ∈ s, W n * c := by
      apply Finset.sum_lt_sum
      · intro n hn; exact mul_le_mul_of_nonneg_left (hθ n hn).le (hW n hn)
      · exact ⟨m, hm, mul_lt_mul_of_pos_left (hθ m hm) (lt_of_le_of_ne (hW m hm) (Ne.symm hm0))⟩
    rw [← Finset.sum_mul] at this
    nlinarith

section
variable {W : I → ℝ} {O : I → Rot (Vec 2)} {sorted : List I}

/-- The sequence before a level turns by the weighted signed angles of all nodes above. -/
lemma loop_path (h : RootedTree t r) (hs : Ascending t sorted) (hW : ∀ n, 0 ≤ W n)
    (hmono : ∀ p c, IsParent t p c → W c ≠ 0 → W p ≠ 0)
    (hO : ∀ n ∈ t.nodes, 0 ≤ (O n).angle) {q : I → Rot (Vec 2)} (hq : Linked t r W O q)
    (hsg : SameSigns t O q) (K : ℕ)
    (hK : ∀ l : ℤ, (∃ n ∈ t.nodes, lev t n = l ∧ W n ≠ 0) ↔ 0 ≤ l ∧ l < K)
    (hlt : ∀ l : ℤ, |∑ n ∈ t.nodes.toFinset.filter (fun n => lev t n = l),
      W n * (baseSign (O n).base * (O n).angle)| < Real.pi) (j : ℕ)
    (hj : j < K) (S : Vec 2)
    (hS : LevelInv t W O j (levelsUpTo t W sorted ⟨q, [], none⟩ j).q S) :
    turning ((levelsUpTo t W sorted ⟨q, [], none⟩ j).seq.map Rot.getFirstVector ++ [S])
      = signedTurn t W O j := by
  induction j generalizing S with
  | zero =>
    have h0 : signedTurn t W O ((0 : ℕ) : ℤ) = 0 := by
      unfold signedTurn
      rw [Finset.filter_false_of_mem]
      · simp
      · intro n hn
        have := Ascending.lev_nonneg h (List.mem_toFinset.mp hn)
        push_cast; omega
    rw [h0]
    rfl
  | succ j ih =>
    obtain ⟨S0, hS0⟩ := loop_inv h hs hW hmono hO hq K hK j (by omega)
    have g0 := ih (by omega) S0 hS0.level
    obtain ⟨g1, g2⟩ := loop_turn h hs hW hmono hO hq hsg K hK j (by omega) S0 hS0.level
    obtain ⟨c, hc, hcl, hWc⟩ := (hK (j + 1 : ℕ)).mpr ⟨by positivity, by exact_mod_cast hj⟩
    have hcr : c ≠ r := by
      rintro rfl; rw [h.lev_root] at hcl; push_cast at hcl; omega
    obtain ⟨p, hp⟩ := h.has_parent c hc hcr
    have hpi : p ∈ idsAt t W sorted (j : ℤ) := (mem_idsAt h hs).mpr
      ⟨h.edge_fst _ _ hp, by have := h.lev_child hp; push_cast at hcl; omega, hmono p c hp hWc⟩
    have hne : idsAt t W sorted (j : ℤ) ≠ [] := List.ne_nil_of_mem hpi
    have hnx := hS0.level.next h hmono (idsAt t W sorted (j : ℤ)) (idsAt_nodup h hs _)
      (fun n => mem_idsAt h hs) hne
    obtain ⟨hR, hSn⟩ := levelRot_spec h hs hW hO hS0.level hne
    have htu := level_turn h hs hS0.level g2 hne S0
    set R := levelRot (levelsUpTo t W sorted ⟨q, [], none⟩ j).q (idsAt t W sorted (j : ℤ)) S0 with hRd
    have hst : levelsUpTo t W sorted ⟨q, [], none⟩ (j + 1) =
        open Classical in
        if R.angle = 0 then ⟨levelParts t (levelsUpTo t W sorted ⟨q, [], none⟩ j).q
          (idsAt t W sorted (j : ℤ)) R, (levelsUpTo t W sorted ⟨q, [], none⟩ j).seq, some R⟩
        else ⟨levelParts t (levelsUpTo t W sorted ⟨q, [], none⟩ j).q (idsAt t W sorted (j : ℤ)) R,
          (levelsUpTo t W sorted ⟨q, [], none⟩ j).seq ++ [R], some R⟩ := by
      rw [levelsUpTo_succ, pureLevel_cons h hs hS0.level hne R hRd,
        if_neg (fun hh => hh p hpi c (.single hp))]
    have hSS : S = planeRot R.base R.angle S0 := by
      have e2 := hnx.shared c hc (by push_cast at hcl; exact hcl) hWc
      have e1 := hS.shared c hc hcl hWc
      rw [← e1, ← e2, hst]
      split_ifs <;> rfl
    have hang : signedAngle S0 S = ∑ n ∈ t.nodes.toFinset.filter (fun n => lev t n = (j : ℤ)),
        W n * (baseSign (O n).base * (O n).angle) := by
      rw [hSS, htu, signedAngle_turn hSn (hlt _)]
    push_cast
    rw [signedTurn_succ, ← hang, ← g0, hst]
    split_ifs with h0
    · have : S = S0 := by rw [hSS, h0, planeRot_zero]
      rw [this, signedAngle_self hSn, add_zero]
    · simp only [List.map_append, List.map_cons, List.map_nil]
      rw [show R.getFirstVector = S0 from hR.first, turning_snoc]

end

/-- The reduced sequence turns by the weighted path angles. -/
lemma reduce_turn (h : RootedTree t r) (hg : GoodDirections t) {argsort : List ℤ → List ℕ}
    (has : ArgsortSpec argsort) (st : NodeState I 2) {ns : List I} {ws : List ℝ}
    (hlen : ns.length = ws.length) (hknown : ∀ n ∈ ns, n ∈ t.nodes) (hnd : ns.Nodup)
    (hnn : ∀ w ∈ ws, 0 ≤ w) (hpos : 0 < ws.sum) (hle : ws.sum ≤ 1) {Θ : I → ℝ} (hΘ : PathAngles t r Θ) :
    ∃ s, t.reduceWeightedToSequence argsort st ns ws = .ok s
      ∧ s.getEndVector = .ok (turnBy ((ns.zip ws).map (fun p => p.2 * Θ p.1)).sum (dirOf t r))
      ∧ pathTurn s = ((ns.zip ws).map (fun p => p.2 * Θ p.1)).sum
      ∧ (∀ q ∈ s, ‖q.getFirstVector‖ = 1 ∧ ‖q.getSecondVector‖ = 1)
      ∧ (∀ q ∈ s.head?, q.getFirstVector = dirOf t r) := by
  classical
  have hO := orientOf_isOrient h (defined_of_good h hg)
  have hE := exact_of_good h hO hg
  have hkn : ∀ p ∈ ns.zip ws, p.1 ∈ t.nodes := fun p hp => hknown _ (zip_fst_mem hp).1
  have hzn : ∀ p ∈ ns.zip ws, 0 ≤ p.2 := fun p hp => hnn _ (zip_fst_mem hp).2
  have hfst : (ns.zip ws).map Prod.fst = ns := List.map_fst_zip (by omega)
  have hsnd : (ns.zip ws).map Prod.snd = ws := List.map_snd_zip (by omega)
  have hroot : branchWeight t (ns.zip ws) r = ws.sum := by
    rw [branchWeight_root h _ (by rw [hfst]; exact hnd) hkn, hsnd]
  have ha : Args t r ns ws := ⟨hlen, hknown, hnn, fun n hn _ => by
    have := branchWeight_le_root h (ns.zip ws) hzn hn
    rw [hroot] at this; linarith⟩
  have hgw := ha.good h
  have hr : branchWeight t (ns.zip ws) r ≠ 0 := by rw [hroot]; exact hpos.ne'
  obtain ⟨L, hL⟩ := exists_deepest h hgw hr
  obtain ⟨sorted, S, R, g0, g1, g2, g3, g4, g5, g6, g7⟩ := reduce_spec_good h hg.inner has st hlen hknown hgw rfl L hL
  have hsum : ((ns.zip ws).map (fun p => p.2 * Θ p.1)).sum
      = ∑ m ∈ t.nodes.toFinset, givenWeight (ns.zip ws) m * Θ m := by
    have := sum_givenWeight (ns.zip ws) (by rw [hfst]; exact hnd) t.nodes.toFinset
      (fun p hp => List.mem_toFinset.mpr (hkn p hp)) Θ
    simp only [smul_eq_mul] at this
    exact this.symm
  have hmean := mean_turn h hg has st hlen hknown hgw hr hΘ
  unfold Tree.getWeightedMean at hmean
  rw [g7] at hmean
  simp only [bind, Except.bind] at hmean
  refine ⟨_, g7, ?_, ?_, ?_, ?_⟩
  · rw [hsum]; exact hmean
  · -- the turning
    have hθ : ∀ n ∈ t.nodes, |baseSign (orientOf t r n).base * (orientOf t r n).angle| < Real.pi := by
      intro n hn
      by_cases e : n = r
      · rw [e, hO.root]; simp [Real.pi_pos]
      · obtain ⟨p, hp⟩ := h.has_parent n hn e
        rw [edge_angle h hg hΘ hp]; exact (hΘ.edge p n hp).1
    have htot : ∑ m ∈ t.nodes.toFinset, givenWeight (ns.zip ws) m ≤ 1 := by
      have := sum_givenWeight (ns.zip ws) (by rw [hfst]; exact hnd) t.nodes.toFinset
        (fun p hp => List.mem_toFinset.mpr (hkn p hp)) (fun _ => (1 : ℝ))
      simp only [smul_eq_mul, mul_one] at this
      rw [this, hsnd]; exact hle
    have hlt : ∀ l : ℤ, |∑ n ∈ t.nodes.toFinset.filter (fun n => lev t n = l),
        branchWeight t (ns.zip ws) n * (baseSign (orientOf t r n).base * (orientOf t r n).angle)| < Real.pi := by
      intro l
      apply weighted_abs_lt _ _ _ _ Real.pi_pos
      · intro n _; exact hgw.nonneg n
      · exact le_trans (level_weight_le h _ hzn l) htot
      · intro n hn; exact hθ n (List.mem_toFinset.mp (Finset.mem_filter.mp hn).1)
    have hsg := partOf_signs (W := branchWeight t (ns.zip ws)) h hE.on g1
    have hang := fun n (hn : n ∈ t.nodes) => hO.angle_nonneg h hn
    obtain ⟨k1, k2⟩ := loop_turn h g1 hgw.nonneg hgw.mono' hang g2 hsg
      (L + 1) hL L (by omega) S g3.level
    have k3 := loop_path h g1 hgw.nonneg hgw.mono' hang g2 hsg
      (L + 1) hL hlt L (by omega) S g3.level
    have hne : idsAt t (branchWeight t (ns.zip ws)) sorted (L : ℤ) ≠ [] := by
      obtain ⟨n, h1, h3, h4⟩ := (hL L).mpr ⟨by positivity, by push_cast; omega⟩
      exact List.ne_nil_of_mem ((mem_idsAt h g1).mpr ⟨h1, h3, h4⟩)
    have hsec : R.getSecondVector = turnBy (∑ n ∈ t.nodes.toFinset.filter (fun n => lev t n = (L : ℤ)),
        branchWeight t (ns.zip ws) n * (baseSign (orientOf t r n).base * (orientOf t r n).angle)) S := by
      rw [second_eq, g5.first, g4]
      exact level_turn h g1 g3.level k2 hne S
    have hfinal : signedTurn t (branchWeight t (ns.zip ws)) (orientOf t r) L + signedAngle S R.getSecondVector
        = ∑ m ∈ t.nodes.toFinset, givenWeight (ns.zip ws) m * Θ m := by
      rw [hsec, signedAngle_turn g6 (hlt _), ← signedTurn_succ, signedTurn_all L hL]
      apply branch_path_sum h
      · rw [hΘ.root, hO.root]; simp
      · intro p c hp; exact edge_angle h hg hΘ hp
    have hfirst : R.getFirstVector = S := g5.first
    rw [hsum, ← hfinal, ← k3]
    unfold pathTurn pathVectors
    split_ifs
    · simp only [List.map_append, List.map_cons, List.map_nil, List.getLast?_append, List.getLast?_singleton,
        Option.some_or, Option.map_some, Option.toList_some]
      rw [hfirst, turning_snoc]
    · have e : (levelsUpTo t (branchWeight t (ns.zip ws)) sorted
          ⟨partOf t (branchWeight t (ns.zip ws)) (orientOf t r) sorted, [], none⟩ L).seq ++ [R, R]
          = ((levelsUpTo t (branchWeight t (ns.zip ws)) sorted
          ⟨partOf t (branchWeight t (ns.zip ws)) (orientOf t r) sorted, [], none⟩ L).seq ++ [R]) ++ [R] := by simp
      rw [e]
      simp only [List.map_append, List.map_cons, List.map_nil, List.getLast?_append, List.getLast?_singleton,
        Option.some_or, Option.map_some, Option.toList_some]
      rw [hfirst, turning_snoc, turning_snoc, signedAngle_self g6, add_zero]
  · intro q hq
    have hfirst : R.getFirstVector = S := g5.first
    have hRon : ‖R.getFirstVector‖ = 1 ∧ ‖R.getSecondVector‖ = 1 := by
      refine ⟨by rw [hfirst]; exact g6, ?_⟩
      rcases g5.on with h1 | h1
      · exact second_unit h1
      · rw [second_eq, h1, planeRot_zero, show R.base.b0 = S from hfirst]; exact g6
    have hon : ∀ q : Rot (Vec 2), q.base.ON → ‖q.getFirstVector‖ = 1 ∧ ‖q.getSecondVector‖ = 1 :=
      fun q hq => ⟨hq.norm_fst, second_unit hq⟩
    split_ifs at hq
    · rw [List.mem_append, List.mem_singleton] at hq
      rcases hq with hq | rfl
      · exact hon q (g3.on q hq)
      · exact hRon
    · simp only [List.mem_append, List.mem_cons, List.not_mem_nil, or_false] at hq
      rcases hq with hq | rfl | rfl
      · exact hon q (g3.on q hq)
      · exact hRon
      · exact hRon
  · have hlead := leads_append g3.leads R g5.first
    intro q hq
    have hq' : q ∈ ((levelsUpTo t (branchWeight t (ns.zip ws)) sorted
          ⟨partOf t (branchWeight t (ns.zip ws)) (orientOf t r) sorted, [], none⟩ L).seq ++ [R]).head? := by
      split_ifs at hq
      · exact hq
      · revert hq
        cases (levelsUpTo t (branchWeight t (ns.zip ws)) sorted
          ⟨partOf t (branchWeight t (ns.zip ws)) (orientOf t r) sorted, [], none⟩ L).seq <;> simp
    revert hlead hq'
    generalize (levelsUpTo t (branchWeight t (ns.zip ws)) sorted
          ⟨partOf t (branchWeight t (ns.zip ws)) (orientOf t r) sorted, [], none⟩ L).seq ++ [R] = l
    intro hlead hq'
    cases l with
    | nil => simp at hq'
    | cons a l =>
      simp at hq'
      rw [← hq']; exact hlead.1

end Verif
