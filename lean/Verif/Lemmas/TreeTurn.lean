import Verif.Lemmas.TreeResult
import Verif.Spec.Turn

/-!
# Trees in turned coordinates
-/

open scoped RealInnerProductSpace

namespace Verif

open Spec
open Spec.RootedTree (lev)

variable {I : Type} [DecidableEq I] {d : ℕ} {R : Vec d ≃ₗᵢ[ℝ] Vec d}

lemma unit_turn (u : Vec d) : unit (R u) = R (unit u) := by
  unfold unit
  rw [R.norm_map, map_smul]

lemma angle_turn (u v : Vec d) : InnerProductGeometry.angle (R u) (R v) = InnerProductGeometry.angle u v := by
  unfold InnerProductGeometry.angle
  rw [R.inner_map_map, R.norm_map, R.norm_map]

lemma planeRot_turned {p p' : Rot (Vec d)} (h : RotTurned R p p') (θ : ℝ) (hθ : p.angle = 0 → θ = 0) (v : Vec d) :
    planeRot p'.base θ (R v) = R (planeRot p.base θ v) := by
  rcases h.b1 with h1 | h1
  · rw [hθ h1, planeRot_zero, planeRot_zero]
  · unfold planeRot
    rw [h.b0, h1, R.inner_map_map, R.inner_map_map]
    simp only [map_add, map_smul]

lemma map_turned {p p' q q' : Rot (Vec d)} (hp : RotTurned R p p') (hq : RotTurned R q q') (θ : ℝ)
    (hθ : p.angle = 0 → θ = 0) :
    RotTurned R ⟨q.base.map (planeRot p.base θ), q.angle⟩ ⟨q'.base.map (planeRot p'.base θ), q'.angle⟩ := by
  refine ⟨?_, hq.angle, ?_⟩
  · change planeRot p'.base θ q'.base.b0 = R (planeRot p.base θ q.base.b0)
    rw [hq.b0, planeRot_turned hp θ hθ]
  · rcases hq.b1 with h | h
    · exact Or.inl h
    · right
      change planeRot p'.base θ q'.base.b1 = R (planeRot p.base θ q.base.b1)
      rw [h, planeRot_turned hp θ hθ]

lemma turnRot_turned (p : Rot (Vec d)) : RotTurned R p (turnRot R p) := ⟨rfl, rfl, Or.inr rfl⟩

/-- What `np.allclose` says about the distance. -/
lemma allclose_dist {u v : Vec d} (h : allclose u v) : ‖u - v‖ ≤ 1e-8 * Real.sqrt d + 1e-5 * ‖v‖ := by
  have h1 : ∀ i, |(u - v) i| ≤ |(WithLp.toLp 2 (fun i => 1e-8 + 1e-5 * |v i|) : Vec d) i| := by
    intro i
    have := h i
    unfold isclose at this
    rw [abs_of_nonneg (a := (WithLp.toLp 2 (fun i => 1e-8 + 1e-5 * |v i|) : Vec d) i) (by positivity)]
    simpa using this
  have h2 : ‖u - v‖ ≤ ‖(WithLp.toLp 2 (fun i => 1e-8 + 1e-5 * |v i|) : Vec d)‖ := by
    rw [EuclideanSpace.norm_eq, EuclideanSpace.norm_eq]
    refine Real.sqrt_le_sqrt (Finset.sum_le_sum fun i _ => ?_)
    exact pow_le_pow_left₀ (norm_nonneg _) (h1 i) 2
  refine h2.trans ?_
  have e : (WithLp.toLp 2 (fun i => 1e-8 + 1e-5 * |v i|) : Vec d)
      = (WithLp.toLp 2 (fun _ => 1e-8) : Vec d) + (1e-5 : ℝ) • (WithLp.toLp 2 (fun i => |v i|) : Vec d) := by
    ext i; simp
  rw [e]
  refine (norm_add_le _ _).trans ?_
  rw [norm_smul]
  have a1 : ‖(WithLp.toLp 2 (fun _ => 1e-8) : Vec d)‖ = 1e-8 * Real.sqrt d := by
    rw [EuclideanSpace.norm_eq]
    simp only [Real.norm_eq_abs, sq_abs, Finset.sum_const, Finset.card_univ, Fintype.card_fin, nsmul_eq_mul]
    rw [Real.sqrt_mul (by positivity), Real.sqrt_sq (by norm_num), mul_comm]
  have a2 : ‖(WithLp.toLp 2 (fun i => |v i|) : Vec d)‖ = ‖v‖ := by
    rw [EuclideanSpace.norm_eq, EuclideanSpace.norm_eq]
    simp
  rw [a1, a2]
  norm_num

lemma clear_not_close {u v : Vec d} (hv : ‖v‖ = 1) (h : ClearlyApart u v) : u = v ∨ ¬ allclose u v := by
  refine h.imp_right fun h1 h2 => ?_
  have := allclose_dist h2
  rw [hv] at this
  linarith

lemma clear_turn {u v : Vec d} (h : ClearlyApart u v) : ClearlyApart (R u) (R v) := by
  refine h.imp (fun e => by rw [e]) fun h1 => ?_
  rwa [← map_sub, R.norm_map]

lemma opposite_turn {u v : Vec d} : Opposite (R u) (R v) ↔ Opposite u v := by
  constructor
  · rintro ⟨c, hc, e⟩
    exact ⟨c, hc, R.injective (by rw [e, map_smul])⟩
  · rintro ⟨c, hc, e⟩
    exact ⟨c, hc, by rw [e, map_smul]⟩

namespace TreeTurn
variable {t : Tree I d} {r : I} {W : I → ℝ} {O O' q q' : I → Rot (Vec d)}

lemma dirOf_turn (n : I) : dirOf (turnTree R t) n = R (dirOf t n) := by
  unfold dirOf turnTree
  dsimp only
  cases t.dir n <;> simp

lemma rooted (h : RootedTree t r) : RootedTree (turnTree R t) r where
  nodup := h.nodup
  root_first := h.root_first
  root_idx := h.root_idx
  edge_fst := h.edge_fst
  edge_snd := h.edge_snd
  one_parent := h.one_parent
  has_parent := h.has_parent
  root_no_parent := h.root_no_parent
  parent_before := h.parent_before
  root_level := h.root_level
  child_level := h.child_level
  level_bound := h.level_bound
  unit_dir := by
    intro n hn
    obtain ⟨v, h1, h2⟩ := h.unit_dir n hn
    exact ⟨R v, by simp [turnTree, h1], by rw [R.norm_map, h2]⟩
  no_attr := by
    intro n hn
    obtain ⟨h1, h2⟩ := h.no_attr n hn
    exact ⟨h1, by simp [turnTree, h2]⟩

lemma part_turned (hO : ∀ n, RotTurned R (O n) (O' n)) (s : List I) (m : I) :
    RotTurned R (partOf t W O s m) (partOf (turnTree R t) W O' s m) := by
  unfold partOf
  generalize s.reverse = L
  suffices ∀ (q q' : I → Rot (Vec d)), (∀ m, RotTurned R (q m) (q' m)) →
      ∀ m, RotTurned R (L.foldl (pStep t W O) q m) (L.foldl (pStep (turnTree R t) W O') q' m) from this O O' hO m
  induction L with
  | nil => intro q q' hq m; exact hq m
  | cons n L ih =>
    intro q q' hq m
    rw [List.foldl_cons, List.foldl_cons]
    apply ih
    intro x
    unfold pStep
    by_cases h1 : x = n
    · rw [if_pos h1, if_pos h1]
      refine ⟨(hO n).b0, by simp only [(hO n).angle], ?_⟩
      rcases (hO n).b1 with h | h
      · left; simp only [h, zero_mul]
      · exact Or.inr h
    · rw [if_neg h1, if_neg h1]
      by_cases h3 : 0 < W n ∧ W n < 1 ∧ Descendant t n x
      · rw [if_pos h3, if_pos (show 0 < W n ∧ W n < 1 ∧ Descendant (turnTree R t) n x from h3), (hO n).angle]
        exact map_turned (hO n) (hq x) _ (fun h0 => by rw [h0]; ring)
      · rw [if_neg h3, if_neg (show ¬ (0 < W n ∧ W n < 1 ∧ Descendant (turnTree R t) n x) from h3)]
        exact hq x

lemma unrot_turned (ids : List I) (hq : ∀ m, RotTurned R (q m) (q' m)) (m : I) :
    RotTurned R (unrot t ids q m) (unrot (turnTree R t) ids q' m) := by
  unfold unrot
  induction ids generalizing q q' with
  | nil => exact hq m
  | cons n L ih =>
    rw [List.foldl_cons, List.foldl_cons]
    apply ih
    intro x
    by_cases h3 : Descendant t n x
    · rw [if_pos h3, if_pos (show Descendant (turnTree R t) n x from h3), (hq n).angle]
      exact map_turned (hq n) (hq x) _ (fun h0 => by rw [h0]; ring)
    · rw [if_neg h3, if_neg (show ¬ Descendant (turnTree R t) n x from h3)]
      exact hq x

lemma mean_turned (ids : List I) (hq : ∀ m, RotTurned R (q m) (q' m)) : meanOf q' ids = R (meanOf q ids) := by
  unfold meanOf
  induction ids with
  | nil => simp
  | cons n L ih =>
    simp only [List.map_cons, List.sum_cons, ih, map_add, (hq n).angle]
    rcases (hq n).b1 with h | h
    · rw [h, zero_smul, zero_smul, map_zero]
    · rw [h, map_smul]

lemma levelRot_turned (ids : List I) (hq : ∀ m, RotTurned R (q m) (q' m)) (S : Vec d) :
    levelRot q' ids (R S) = turnRot R (levelRot q ids S) := by
  unfold levelRot turnRot
  rw [mean_turned ids hq]
  simp only [R.norm_map]
  split_ifs <;> simp

lemma levelParts_turned (ids : List I) (hq : ∀ m, RotTurned R (q m) (q' m)) (p : Rot (Vec d)) (m : I) :
    RotTurned R (levelParts t q ids p m) (levelParts (turnTree R t) q' ids (turnRot R p) m) := by
  unfold levelParts
  by_cases h : ∃ n ∈ ids, Descendant t n m
  · rw [if_pos h, if_pos (show ∃ n ∈ ids, Descendant (turnTree R t) n m from h)]
    exact map_turned (turnRot_turned p) (unrot_turned ids hq m) _ (fun h => h)
  · rw [if_neg h, if_neg (show ¬ ∃ n ∈ ids, Descendant (turnTree R t) n m from h)]
    exact hq m

/-- Two states of the loop over the levels, the second in turned coordinates. -/
structure StateTurned (R : Vec d ≃ₗᵢ[ℝ] Vec d) (s s' : PState I d) : Prop where
  q : ∀ n, RotTurned R (s.q n) (s'.q n)
  seq : s'.seq = s.seq.map (turnRot R)
  last : s'.last = s.last.map (turnRot R)

lemma pureLevel_turned (so : List I) {s s' : PState I d} (hs : StateTurned R s s') (l : ℤ) :
    StateTurned R (pureLevel t W so s l) (pureLevel (turnTree R t) W so s' l) := by
  unfold pureLevel
  rw [show idsAt (turnTree R t) W so l = idsAt t W so l from rfl]
  cases idsAt t W so l with
  | nil => exact hs
  | cons n0 rest =>
    simp only [(hs.q n0).b0, levelRot_turned (n0 :: rest) hs.q]
    have ha : (turnRot R (levelRot s.q (n0 :: rest) (s.q n0).base.b0)).angle
      = (levelRot s.q (n0 :: rest) (s.q n0).base.b0).angle := rfl
    rw [ha]
    by_cases hd : ∀ n ∈ n0 :: rest, ∀ m, ¬ Descendant t n m
    · rw [if_pos hd, if_pos (show ∀ n ∈ n0 :: rest, ∀ m, ¬ Descendant (turnTree R t) n m from hd)]
      exact ⟨hs.q, hs.seq, rfl⟩
    · rw [if_neg hd, if_neg (show ¬ ∀ n ∈ n0 :: rest, ∀ m, ¬ Descendant (turnTree R t) n m from hd)]
      split_ifs
      · exact ⟨levelParts_turned _ hs.q _, hs.seq, rfl⟩
      · exact ⟨levelParts_turned _ hs.q _, by simp [hs.seq], rfl⟩

lemma levelsUpTo_turned [h2 : Fact (2 ≤ d)] (so : List I) {s s' : PState I d} (hs : StateTurned R s s') (j : ℕ) :
    StateTurned R (levelsUpTo t W so s j) (levelsUpTo (turnTree R t) W so s' j) := by
  induction j with
  | zero => exact hs
  | succ j ih =>
    rw [levelsUpTo_succ, levelsUpTo_succ]
    exact pureLevel_turned so ih _

end TreeTurn

/-- Turning both directions turns the rotation between them, unless they are equal up to the tolerance. -/
lemma fromDirections_turned [h2 : Fact (2 ≤ d)] {u v : Vec d} {o o' : Rot (Vec d)}
    (hs : u = v ∨ ¬ allclose (unit u) (unit v) ∧ ¬ allclose (unit (R u)) (unit (R v)))
    (h : fromDirections u v = some o) (h' : fromDirections (R u) (R v) = some o') : RotTurned R o o' := by
  obtain ⟨hu0, hv0, -, e1, e2⟩ := fromDirections_some h
  obtain ⟨-, -, -, e1', e2'⟩ := fromDirections_some h'
  refine ⟨by rw [e1, e1', unit_turn], by rw [e2, e2', angle_turn], ?_⟩
  rcases hs with rfl | ⟨hs, hs'⟩
  · left; rw [e2, InnerProductGeometry.angle_self hu0]
  · right
    clear e1 e2 e1' e2'
    by_cases ho : Opposite u v
    · rw [fromDirections_opposite hu0 hv0 hs ho] at h; cases h
    rw [fromDirections_far hu0 hv0 hs ho] at h
    have hu0' : R u ≠ 0 := by simpa using hu0
    have hv0' : R v ≠ 0 := by simpa using hv0
    by_cases ho' : Opposite (R u) (R v)
    · rw [fromDirections_opposite hu0' hv0' hs' ho'] at h'; cases h'
    rw [fromDirections_far hu0' hv0' hs' ho'] at h'
    cases h
    cases h'
    simp only [unit_turn, R.inner_map_map, ← map_smul, ← map_sub]

namespace TreeTurn
variable {t : Tree I d} {r : I}

lemma clear_good [h2 : Fact (2 ≤ d)] (h : RootedTree t r) (hc : ClearDirections t) : GoodDirections t := fun p c hp =>
  ⟨(hc p c hp).1, clear_not_close (dir_eq h (h.edge_snd _ _ hp)).2 (hc p c hp).2⟩

lemma clear_turnTree (hc : ClearDirections t) : ClearDirections (turnTree R t) := by
  intro p c hp
  rw [dirOf_turn, dirOf_turn]
  exact ⟨fun e => (hc p c hp).1 (opposite_turn.mp e), clear_turn (hc p c hp).2⟩

lemma orientOf_turned [h2 : Fact (2 ≤ d)] (h : RootedTree t r) (hg : GoodDirections t)
    (hg' : GoodDirections (turnTree R t)) (n : I) :
    RotTurned R (orientOf t r n) (orientOf (turnTree R t) r n) := by
  have h' : RootedTree (turnTree R t) r := rooted h
  have hO := orientOf_isOrient h (inner_defined h hg.inner)
  have hO' := orientOf_isOrient h' (inner_defined h' hg'.inner)
  by_cases hr : n = r
  · subst hr
    rw [hO.root, hO'.root]
    exact ⟨dirOf_turn n, rfl, Or.inl rfl⟩
  · by_cases hn : n ∈ t.nodes
    · obtain ⟨p, hp⟩ := h.has_parent n hn hr
      have hp' : IsParent (turnTree R t) p n := hp
      have hpn := (dir_eq h (h.edge_fst _ _ hp)).2
      have hnn := (dir_eq h hn).2
      have e := hO.child p n hp
      have e' := hO'.child p n hp'
      have g := (hg p n hp).2
      have g' := (hg' p n hp').2
      rw [dirOf_turn, dirOf_turn] at e' g'
      refine fromDirections_turned ?_ e e'
      rw [unit_turn, unit_turn, unit_of_norm_one hpn, unit_of_norm_one hnn]
      rcases g with g | g
      · exact Or.inl g
      · rcases g' with g' | g'
        · exact Or.inl (R.injective g')
        · exact Or.inr ⟨g, g'⟩
    · have hp : t.predecessors n = [] := by
        unfold Tree.predecessors
        rw [List.map_eq_nil_iff, List.filter_eq_nil_iff]
        rintro ⟨a, b⟩ hab hb
        simp only [decide_eq_true_eq] at hb
        subst hb
        exact hn (h.edge_snd _ _ hab)
      have hp' : (turnTree R t).predecessors n = [] := hp
      unfold orientOf
      rw [if_neg hr, if_neg hr, hp, hp']
      exact ⟨by simp, rfl, Or.inl rfl⟩

/-- Turning all directions turns the sequence to which the tree is reduced. -/
lemma reduce_turn [h2 : Fact (2 ≤ d)] (h : RootedTree t r) (hg : GoodDirections t)
    (hg' : GoodDirections (turnTree R t)) {argsort : List ℤ → List ℕ} (has : ArgsortSpec argsort)
    (st st' : NodeState I d) {ns : List I} {ws : List ℝ} (hlen : ns.length = ws.length)
    (hknown : ∀ n ∈ ns, n ∈ t.nodes) (hgw : GoodWeights t r (branchWeight t (ns.zip ws)))
    (hr : branchWeight t (ns.zip ws) r ≠ 0) :
    ∃ s, t.reduceWeightedToSequence argsort st ns ws = .ok s
      ∧ (turnTree R t).reduceWeightedToSequence argsort st' ns ws = .ok (s.map (turnRot R)) := by
  have h' : RootedTree (turnTree R t) r := rooted h
  have hgw' : GoodWeights (turnTree R t) r (branchWeight t (ns.zip ws)) := by
    refine ⟨hgw.nonneg, hgw.mono, fun n hn hnr => (hgw.le_one n hn hnr).imp_right ?_⟩
    rintro ⟨p, hp, e⟩
    exact ⟨p, hp, by rw [dirOf_turn, dirOf_turn, e]⟩
  obtain ⟨L, hL⟩ := exists_deepest h hgw hr
  obtain ⟨so, S, Q, a0, a1, a2, a3, a4, a5, a6, a7⟩ :=
    reduce_spec_inner h (inner_defined h hg.inner) (inner_exact h hg.inner) has st hlen hknown hgw rfl L hL
  obtain ⟨so', S', Q', b0, b1, b2, b3, b4, b5, b6, b7⟩ :=
    reduce_spec_inner h' (inner_defined h' hg'.inner) (inner_exact h' hg'.inner) has st' hlen hknown
      (W := branchWeight t (ns.zip ws)) hgw' rfl L hL
  have hso : so' = so := by
    have : (turnTree R t).getNodesAscending argsort = t.getNodesAscending argsort := rfl
    rw [this, a0] at b0
    exact (Except.ok.inj b0).symm
  subst hso
  have hss := levelsUpTo_turned (t := t) (W := branchWeight t (ns.zip ws)) so'
    (s := ⟨partOf t (branchWeight t (ns.zip ws)) (orientOf t r) so', [], none⟩)
    (s' := ⟨partOf (turnTree R t) (branchWeight t (ns.zip ws)) (orientOf (turnTree R t) r) so', [], none⟩)
    ⟨part_turned (orientOf_turned h hg hg') so', rfl, rfl⟩ L
  have hSS : S' = R S := by
    obtain ⟨n, h1, h3, h4⟩ := (hL L).mpr ⟨by omega, by push_cast; omega⟩
    rw [← a3.level.shared n h1 h3 h4, ← (hss.q n).b0]
    exact (b3.level.shared n h1 h3 h4).symm
  have hQQ : Q' = turnRot R Q := by
    rw [a4, b4, hSS]
    exact levelRot_turned _ hss.q S
  refine ⟨_, a7, ?_⟩
  rw [b7, hQQ, hss.seq]
  by_cases hc : (∀ n ∈ idsAt t (branchWeight t (ns.zip ws)) so' L, ∀ m, ¬ Descendant t n m) ∨ Q.angle = 0
  · have hc' : (∀ n ∈ idsAt (turnTree R t) (branchWeight t (ns.zip ws)) so' L, ∀ m,
        ¬ Descendant (turnTree R t) n m) ∨ (turnRot R Q).angle = 0 := hc
    rw [if_pos hc, if_pos hc']; simp
  · have hc' : ¬ ((∀ n ∈ idsAt (turnTree R t) (branchWeight t (ns.zip ws)) so' L, ∀ m,
        ¬ Descendant (turnTree R t) n m) ∨ (turnRot R Q).angle = 0) := hc
    rw [if_neg hc, if_neg hc']; simp

end TreeTurn
end Verif
