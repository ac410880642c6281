import Verif.Spec.Rotational
import Verif.Props.RotationalWeights
import Verif.Props.PathFollowing

/-! # Helper lemmas for the rotational avoider -/

open scoped RealInnerProductSpace
open Verif.Spec

set_option linter.unusedSectionVars false

namespace Verif

variable {d k : ℕ}

/-- Adding a node with a direction that is not normalised. -/
lemma addNode_step_ne {I : Type} [DecidableEq I] (t : Tree I d) (r : I) (h : RootedTree t r) (n p : I)
    (v : Vec d) (hv0 : v ≠ 0) (hn : n ∉ t.nodes) (hp : p ∈ t.nodes) (l : ℤ) (hl : t.level p = some l)
    (hlt : l + 1 < 100) :
    ∃ t', orRaise (t.addNode n v (some p)) = .ok t' ∧ RootedTree t' r ∧ t'.nodes = t.nodes ++ [n]
      ∧ t'.level n = some (l + 1) ∧ t'.dir n = some (unit v)
      ∧ (∀ m ∈ t.nodes, t'.dir m = t.dir m ∧ t'.level m = t.level m)
      ∧ (GoodDirections t → GoodPair (dirOf t p) (unit v) → GoodDirections t') := by
  have he := addNode_parent t n p v hv0 hn hp (fun he => hn (h.edge_snd _ _ he))
    (fun c he => hn (h.edge_fst _ _ he)) l hl hlt
  have hr := addNode_rooted t r h n p v hv0 hn hp l hl hlt
  rw [he] at hr
  have hne : ∀ m ∈ t.nodes, m ≠ n := fun m hm e => hn (e ▸ hm)
  refine ⟨_, by rw [he]; rfl, hr, rfl, by simp, by simp, ?_, ?_⟩
  · intro m hm
    simp [hne m hm]
  · intro hg hpair a c hac
    simp only [IsParent, List.mem_append, List.mem_singleton, Prod.mk.injEq] at hac
    have hdir : ∀ m ∈ t.nodes, ((Function.update t.dir n (some (unit v)) m).getD 0) = dirOf t m := by
      intro m hm; simp [hne m hm, dirOf]
    rcases hac with hac | ⟨rfl, rfl⟩
    · unfold dirOf
      simp only
      rw [hdir a (h.edge_fst _ _ hac), hdir c (h.edge_snd _ _ hac)]
      exact hg a c hac
    · unfold dirOf
      simp only
      rw [hdir a hp]
      simp only [Function.update_self, Option.getD_some]
      exact hpair

namespace Rotational

lemma first_norm {b : NullBase d} (hb : b.normal ≠ 0) : ‖b.first‖ = 1 := by
  have h : ‖b.normal‖ ≠ 0 := norm_ne_zero_iff.mpr hb
  unfold NullBase.first
  rw [norm_smul, norm_smul, Real.norm_of_nonneg (by positivity : (0 : ℝ) ≤ 1 / ‖b.normal‖),
    one_div_mul_cancel h, mul_one]
  split_ifs <;> simp

lemma unit_first {b : NullBase d} (hb : b.normal ≠ 0) : unit b.first = b.first :=
  unit_of_norm_one (first_norm hb)

/-- The result of `get_tangent_convergence_direction` is on the circle. -/
lemma tangentConvergence_norm {ext : Ext d k} (he : SaneAngles ext) {c r a : Vec k} {R : ℝ} (hR : 0 ≤ R)
    (h : tangentConvergence ext c r R = .ok a) : ‖a‖ = R := by
  unfold tangentConvergence at h
  split_ifs at h with h1 h2
  · injection h with h
    rw [← h, PiLp.norm_single, Real.norm_of_nonneg hR]
  · cases hc : ext.circleFar r (c - r) R with
    | none => rw [hc] at h; cases h
    | some b =>
      rw [hc] at h
      injection h with h
      rw [← h]
      exact he.circle _ _ _ _ hR hc

/-- The tangent does not point into the obstacle. -/
lemma pseudoTangent_spec {ext : Ext d k} (he : SaneAngles ext) {s : Avoider d} {conv ref v : Vec d}
    {b : NullBase d} (hb : b.normal ≠ 0) (hc : conv ≠ 0) (hR : Real.pi / 2 ≤ s.convergenceRadius)
    (hR' : s.convergenceRadius ≤ Real.pi) (h : pseudoTangent ext s conv ref b = .ok v) :
    v ≠ 0 ∧ ⟪v, b.first⟫ ≤ 0 := by
  have ha : ∀ w : Vec d, w ≠ 0 → Real.pi / 2 ≤ InnerProductGeometry.angle b.first w →
      ⟪w, b.first⟫ ≤ 0 := by
    intro w hw hang
    rw [real_inner_comm]
    have hcos := Real.cos_nonpos_of_pi_div_two_le_of_le hang
      (by have := InnerProductGeometry.angle_le_pi b.first w; linarith [Real.pi_pos])
    rw [InnerProductGeometry.cos_angle] at hcos
    have hp : 0 < ‖b.first‖ * ‖w‖ := by
      rw [first_norm hb, one_mul]; exact norm_pos_iff.mpr hw
    rcases div_nonpos_iff.mp hcos with h | h
    · linarith [h.2]
    · exact h.1
  unfold pseudoTangent at h
  split_ifs at h with h1
  · injection h with h
    subst h
    refine ⟨hc, ha _ hc ?_⟩
    rw [← he.toAngle_norm b conv hb hc]
    exact hR.trans h1.1
  · cases ht : tangentConvergence ext (ext.toAngle b conv) (ext.toAngle b ref) s.convergenceRadius with
    | error e => rw [ht] at h; cases h
    | ok a =>
      rw [ht] at h
      injection h with h
      have hn := tangentConvergence_norm he (by have := Real.pi_pos; linarith) ht
      have hu := he.ofAngle_unit b a hb
      have hv : v ≠ 0 := by rintro rfl; rw [h] at hu; simp at hu
      refine ⟨hv, ha v hv ?_⟩
      rw [← h, he.ofAngle_angle b a hb (by rw [hn]; exact hR'), hn]
      exact hR

lemma intermediate_unit {ext : Ext d k} (he : SaneAngles ext) {conv ref v : Vec d} {b : NullBase d}
    (hb : b.normal ≠ 0) (h : intermediateDirection ext conv ref b = .ok v) : ‖v‖ = 1 := by
  unfold intermediateDirection at h
  split at h
  · cases h
  · injection h with h
    rw [← h]; exact he.ofAngle_unit b _ hb

variable [h2 : Fact (2 ≤ d)]

lemma summingTree_ok {ext : Ext d k} (he : SaneAngles ext) {conv ref tangent nonlinear : Vec d}
    {b : NullBase d} {R : ℝ} {t : Tree NodeId d} (hc : conv ≠ 0) (hn : nonlinear ≠ 0)
    (hb : b.normal ≠ 0) (ht : tangent ≠ 0)
    (h : summingTree ext conv ref tangent nonlinear b R = .ok t) :
    RootedTree t (.num (-1)) ∧ NodeId.num 0 ∈ t.nodes ∧ NodeId.num 3 ∈ t.nodes
      ∧ t.dir (.num 0) = some (unit nonlinear) ∧ t.dir (.num 3) = some (unit tangent)
      ∧ (Admissible ext conv ref tangent nonlinear b R → GoodDirections t) := by
  have hf : b.first ≠ 0 := by
    intro h0; have := first_norm hb; rw [h0] at this; simp at this
  obtain ⟨t0, a1, a2, a3, a4, a5, a6⟩ := setRoot_ok (d := d) (NodeId.num (-1)) conv hc
  obtain ⟨t1, b1, b2, b3, b4, b5, b6, b7⟩ := addNode_step_ne t0 _ a2 (.num 0) (.num (-1)) nonlinear hn
    (by rw [a3]; simp) (by rw [a3]; simp) 0 a4 (by norm_num)
  obtain ⟨t2, c1, c2, c3, c4, c5, c6, c7⟩ := addNode_step_ne t1 _ b2 (.num 1) (.num (-1)) b.first hf
    (by rw [b3, a3]; simp) (by rw [b3, a3]; simp) 0
    (by rw [(b6 _ (by rw [a3]; simp)).2]; exact a4) (by norm_num)
  have n2 : t2.nodes = [.num (-1), .num 0, .num 1] := by rw [c3, b3, a3]; rfl
  have d0 : t2.dir (.num 0) = some (unit nonlinear) := by
    rw [(c6 _ (by rw [b3]; simp)).1]; exact b5
  have g2 : Admissible ext conv ref tangent nonlinear b R → GoodDirections t2 := by
    intro ha
    refine c7 (b7 a6 ?_) ?_
    · rw [show dirOf t0 (.num (-1)) = unit conv by simp [dirOf, a5]]; exact ha.1
    · rw [show dirOf t1 (.num (-1)) = unit conv by
        unfold dirOf; rw [(b6 _ (by rw [a3]; simp)).1, a5]; rfl, unit_first hb]
      exact ha.2.1
  unfold summingTree at h
  simp only [a1, b1, c1, bind, Except.bind] at h
  by_cases hR : R > Real.pi * 0.5
  · rw [if_pos hR] at h
    obtain ⟨i, hi, h⟩ := bind_ok.mp h
    have hiu := intermediate_unit he hb hi
    have hi0 : i ≠ 0 := by rintro rfl; simp at hiu
    obtain ⟨t3, e1, e2, e3, e4, e5, e6, e7⟩ := addNode_step_ne t2 _ c2 (.num 2) (.num 1) i hi0
      (by rw [n2]; simp) (by rw [n2]; simp) (0 + 1) c4 (by norm_num)
    simp only [e1] at h
    obtain ⟨t4, f1, f2, f3, f4, f5, f6, f7⟩ := addNode_step_ne t3 _ e2 (.num 3) (.num 2) tangent ht
      (by rw [e3, n2]; simp) (by rw [e3]; simp) (0 + 1 + 1) e4 (by norm_num)
    rw [f1] at h
    injection h with h
    subst h
    refine ⟨f2, by rw [f3, e3, n2]; simp, by rw [f3]; simp, ?_, f5, ?_⟩
    · rw [(f6 _ (by rw [e3, n2]; simp)).1, (e6 _ (by rw [n2]; simp)).1]; exact d0
    · intro ha
      obtain ⟨p1, p2⟩ := ha.2.2.2 hR i hi
      refine f7 (e7 (g2 ha) ?_) ?_
      · rw [show dirOf t2 (.num 1) = b.first by simp [dirOf, c5, unit_first hb],
          unit_of_norm_one hiu]
        exact p1
      · rw [show dirOf t3 (.num 2) = i by simp [dirOf, e5, unit_of_norm_one hiu]]
        exact p2
  · rw [if_neg hR] at h
    obtain ⟨t4, f1, f2, f3, f4, f5, f6, f7⟩ := addNode_step_ne t2 _ c2 (.num 3) (.num 1) tangent ht
      (by rw [n2]; simp) (by rw [n2]; simp) (0 + 1) c4 (by norm_num)
    rw [f1] at h
    injection h with h
    subst h
    refine ⟨f2, by rw [f3, n2]; simp, by rw [f3]; simp, ?_, f5, ?_⟩
    · rw [(f6 _ (by rw [n2]; simp)).1]; exact d0
    · intro ha
      refine f7 (g2 ha) ?_
      rw [show dirOf t2 (.num 1) = b.first by simp [dirOf, c5, unit_first hb]]
      exact ha.2.2.1 (not_lt.mp hR)

lemma summingTree_exists (ext : Ext d k) {conv ref tangent nonlinear : Vec d}
    {b : NullBase d} {R : ℝ} (hc : conv ≠ 0) (hn : nonlinear ≠ 0)
    (hb : b.normal ≠ 0) (ht : tangent ≠ 0) (hR : R ≤ Real.pi * 0.5) :
    ∃ t, summingTree ext conv ref tangent nonlinear b R = .ok t := by
  have hf : b.first ≠ 0 := by
    intro h0; have := first_norm hb; rw [h0] at this; simp at this
  obtain ⟨t0, a1, a2, a3, a4, a5, a6⟩ := setRoot_ok (d := d) (NodeId.num (-1)) conv hc
  obtain ⟨t1, b1, b2, b3, b4, b5, b6, b7⟩ := addNode_step_ne t0 _ a2 (.num 0) (.num (-1)) nonlinear hn
    (by rw [a3]; simp) (by rw [a3]; simp) 0 a4 (by norm_num)
  obtain ⟨t2, c1, c2, c3, c4, c5, c6, c7⟩ := addNode_step_ne t1 _ b2 (.num 1) (.num (-1)) b.first hf
    (by rw [b3, a3]; simp) (by rw [b3, a3]; simp) 0
    (by rw [(b6 _ (by rw [a3]; simp)).2]; exact a4) (by norm_num)
  have n2 : t2.nodes = [.num (-1), .num 0, .num 1] := by rw [c3, b3, a3]; rfl
  unfold summingTree
  simp only [a1, b1, c1, bind, Except.bind]
  rw [if_neg (not_lt.mpr hR)]
  obtain ⟨t4, f1, _⟩ := addNode_step_ne t2 _ c2 (.num 3) (.num 1) tangent ht
    (by rw [n2]; simp) (by rw [n2]; simp) (0 + 1) c4 (by norm_num)
  exact ⟨t4, f1⟩

/-- The continuation weight on the surface. -/
lemma continuation_surface {gamma R p : ℝ} {a b : Vec k} (h0 : 0 ≤ gamma) (h1 : gamma ≤ 1) :
    getSmoothContinuationWeight gamma R p a b = .ok 1 := by
  unfold getSmoothContinuationWeight
  by_cases h : gamma = 0
  · simp only [if_pos h]
  · have hp : 0 < gamma := lt_of_le_of_ne h0 (Ne.symm h)
    have : 1 / gamma ≥ 1 := by rw [ge_iff_le, le_div_iff₀ hp]; linarith
    simp only [if_neg h, if_neg (not_le.mpr (lt_of_lt_of_le one_pos this)), if_pos this]

/-- On the surface of an obstacle the direction is the tangent. -/
lemma convergenceSumming_contact {ext : Ext d k} (he : SaneAngles ext) {s : Avoider d}
    {conv ref nonlinear v : Vec d} {b : NullBase d} {gamma R : ℝ} (hc : conv ≠ 0) (hn : nonlinear ≠ 0)
    (hb : b.normal ≠ 0) (h0 : 0 ≤ gamma) (h1 : gamma ≤ 1)
    (hR : Real.pi / 2 ≤ s.convergenceRadius) (hR' : s.convergenceRadius ≤ Real.pi)
    (ha : ∀ t, pseudoTangent ext s conv ref b = .ok t → Admissible ext conv ref t nonlinear b R)
    (h : convergenceSumming ext s conv ref b gamma nonlinear R = .ok v) :
    ∃ t, pseudoTangent ext s conv ref b = .ok t ∧ v = unit t := by
  unfold convergenceSumming at h
  unfold continuationWeight at h
  rw [continuation_surface h0 h1] at h
  simp only [bind, Except.bind] at h
  rw [if_neg (by norm_num)] at h
  obtain ⟨t, ht, h⟩ := bind_ok.mp h
  obtain ⟨tr, htr, h⟩ := bind_ok.mp h
  refine ⟨t, ht, ?_⟩
  have ht0 := (pseudoTangent_spec he hb hc hR hR' ht).1
  obtain ⟨r1, r2, r3, r4, r5, r6⟩ := summingTree_ok he hc hn hb ht0 htr
  have := C21_one_hot tr _ r1 (r6 (ha t ht)) ext.argsort he.argsort NodeState.init
    [.num 0, .num 3] [1 - 1, 1] rfl (by simp) (by simp [r2, r3]) (.num 3) (by simp)
    (by simp) (unit t) r5
  rw [this] at h
  injection h with h
  exact h.symm

/-! ## The loop of `avoid` -/

/-- What one pass of the loop appends for the convergence velocity `c`. -/
def Pass (ext : Ext d k) (s : Avoider d) (env : Environment d) (x start c : Vec d) (radius : ℝ)
    (p : (Obstacle d × ℝ) × ℕ) (v : Vec d) : Prop :=
  (c = 0 ∧ v = start) ∨ (c ≠ 0 ∧ ∃ r, passRadius env p.2 radius = .ok r
    ∧ convergenceSumming ext s c (alignedFrame p.1.1 x).1 (alignedFrame p.1.1 x).2 p.1.2 start r = .ok v)

/-- The radius of the loop is the initial one unless there are custom ones. -/
def RadiusInv (env : Environment d) (radius r : ℝ) : Prop :=
  ∀ i, passRadius env i r = passRadius env i radius

lemma passRadius_inv {env : Environment d} {radius r r' : ℝ} {i : ℕ} (h : RadiusInv env radius r)
    (hr : passRadius env i r = .ok r') : RadiusInv env radius r' := by
  intro j
  rw [← h j]
  unfold passRadius at hr ⊢
  rcases hrs : env.convergenceRadiuses with _ | ⟨_ | ⟨a, l⟩⟩
  · rw [hrs] at hr
    injection hr with hr
    rw [hr]
  · rw [hrs] at hr
    injection hr with hr
    rw [hr]
  · rfl

lemma avoidLoop_spec {ext : Ext d k} {s : Avoider d} {env : Environment d} {x start c : Vec d}
    {radius : ℝ} (l : List ((Obstacle d × ℝ) × ℕ)) (r : ℝ) (ds : List (Vec d)) (st : LoopState d)
    (hr : RadiusInv env radius r)
    (h : l.foldlM (avoidStep ext s env x start) ⟨some c, r, ds⟩ = .ok st) :
    ∃ ds', st.directions = ds ++ ds' ∧ List.Forall₂ (Pass ext s env x start c radius) l ds' := by
  induction l generalizing r ds with
  | nil =>
    injection h with h
    subst h
    exact ⟨[], by simp, List.Forall₂.nil⟩
  | cons p l ih =>
    rw [List.foldlM_cons] at h
    obtain ⟨st1, h1, h⟩ := bind_ok.mp h
    unfold avoidStep convergenceVelocity at h1
    simp only [bind, Except.bind] at h1
    by_cases hc : ‖c‖ = 0
    · rw [if_pos hc] at h1
      injection h1 with h1
      subst h1
      obtain ⟨ds', e1, e2⟩ := ih r _ hr h
      exact ⟨start :: ds', by rw [e1]; simp,
        List.Forall₂.cons (Or.inl ⟨norm_eq_zero.mp hc, rfl⟩) e2⟩
    · rw [if_neg hc] at h1
      obtain ⟨r', hr', h1⟩ := bind_ok.mp h1
      obtain ⟨v, hv, h1⟩ := bind_ok.mp h1
      injection h1 with h1
      subst h1
      obtain ⟨ds', e1, e2⟩ := ih r' _ (passRadius_inv hr hr') h
      refine ⟨v :: ds', by rw [e1]; simp, List.Forall₂.cons (Or.inr ⟨norm_ne_zero_iff.mp hc, r', ?_, hv⟩) e2⟩
      rw [← hr]; exact hr'

/-- The first pass fixes the convergence velocity for all others. -/
lemma avoidLoop_first {ext : Ext d k} {s : Avoider d} {env : Environment d} {x start : Vec d}
    (p : (Obstacle d × ℝ) × ℕ) (l : List ((Obstacle d × ℝ) × ℕ)) (known : Option (Vec d)) (c : Vec d)
    (r : ℝ) (ds : List (Vec d)) (hc : convergenceVelocity s env x p.2 known = .ok c) :
    (p :: l).foldlM (avoidStep ext s env x start) ⟨known, r, ds⟩
      = (p :: l).foldlM (avoidStep ext s env x start) ⟨some c, r, ds⟩ := by
  rw [List.foldlM_cons, List.foldlM_cons]
  congr 1
  unfold avoidStep
  simp only [hc]
  rfl

lemma avoidLoop_error {ext : Ext d k} {s : Avoider d} {env : Environment d} {x start : Vec d}
    (p : (Obstacle d × ℝ) × ℕ) (l : List ((Obstacle d × ℝ) × ℕ)) (known : Option (Vec d)) (e : PyErr)
    (r : ℝ) (ds : List (Vec d)) (hc : convergenceVelocity s env x p.2 known = .error e) :
    (p :: l).foldlM (avoidStep ext s env x start) ⟨known, r, ds⟩ = .error e := by
  rw [List.foldlM_cons]
  unfold avoidStep
  simp only [hc]
  rfl

/-- What a successful call computes if there are close obstacles. -/
lemma avoidBody_spec {ext : Ext d k} {s : Avoider d} {env : Environment d} {x initial v : Vec d}
    {known : Option (Vec d)} {sticky : Bool} {radius : ℝ}
    (h : avoidBody ext s env x initial known sticky radius = .ok v) :
    (closeObstacles s env x = [] ∧ v = initial)
      ∨ (closeObstacles s env x ≠ []
        ∧ initial - ext.relative x ((closeObstacles s env x).map (fun p => p.1.1)) = 0 ∧ v = initial)
      ∨ (∃ p l, closeObstacles s env x = p :: l
        ∧ initial - ext.relative x ((closeObstacles s env x).map (fun p => p.1.1)) ≠ 0
        ∧ ∃ c ds, convergenceVelocity s env x p.2 known = .ok c
          ∧ List.Forall₂ (Pass ext s env x
            (initial - ext.relative x ((closeObstacles s env x).map (fun p => p.1.1))) c radius)
            (closeObstacles s env x) ds
          ∧ finishAvoid ext sticky x
            (initial - ext.relative x ((closeObstacles s env x).map (fun p => p.1.1)))
            (ext.relative x ((closeObstacles s env x).map (fun p => p.1.1))) ‖initial‖
            (closeObstacles s env x) ds = .ok v) := by
  unfold avoidBody at h
  by_cases h0 : env.obstacles = []
  · rw [if_pos h0] at h
    injection h with h
    left
    refine ⟨?_, h.symm⟩
    unfold closeObstacles; rw [h0]; rfl
  rw [if_neg h0] at h
  simp only at h
  by_cases h1 : closeObstacles s env x = []
  · rw [if_pos h1] at h
    injection h with h
    exact Or.inl ⟨h1, h.symm⟩
  rw [if_neg h1] at h
  right
  generalize hrel : ext.relative x ((closeObstacles s env x).map (fun p => p.1.1)) = rel at h ⊢
  by_cases h3 : ‖initial - rel‖ = 0
  · rw [if_pos h3] at h
    injection h with h
    left
    refine ⟨h1, norm_eq_zero.mp h3, ?_⟩
    rw [← h]; abel
  rw [if_neg h3] at h
  right
  obtain ⟨p, l, hpl⟩ := List.exists_cons_of_ne_nil h1
  obtain ⟨st, hst, h⟩ := bind_ok.mp h
  refine ⟨p, l, hpl, norm_ne_zero_iff.mp h3, ?_⟩
  cases hc : convergenceVelocity s env x p.2 known with
  | error e =>
    rw [hpl, avoidLoop_error p l known e _ _ hc] at hst
    cases hst
  | ok c =>
    rw [hpl, avoidLoop_first p l known c _ _ hc, ← hpl] at hst
    obtain ⟨ds', e1, e2⟩ := avoidLoop_spec (radius := radius) _ _ _ _ (fun _ => rfl) hst
    simp only [List.nil_append] at e1
    refine ⟨c, ds', rfl, e2, ?_⟩
    rw [← e1]; exact h

end Rotational

end Verif
