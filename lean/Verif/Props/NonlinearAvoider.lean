import Verif.Lemmas.NonlinearAvoider
import Verif.Props.Sequence
import Verif.Props.Weights2
import Verif.Props.RotationalSequence

/-! # C96: the avoider for nonlinear dynamics (`SingularityConvergenceDynamics`) -/

open scoped RealInnerProductSpace
open Verif.Spec Verif.Rotational

set_option linter.unusedSectionVars false

namespace Verif.Nonlinear

variable {d k : ℕ} [h2 : Fact (2 ≤ d)]

/-! ## The convergence sequence -/

lemma completed_convex {nodes : List NodeId} {weights : List ℝ} (hl : nodes.length = weights.length)
    (hw : ∀ w ∈ weights, 0 < w) :
    Convex (completed nodes weights).2 ∧ (completed nodes weights).1.length = (completed nodes weights).2.length := by
  classical
  have h0 : 0 ≤ weights.sum := List.sum_nonneg (fun w h => (hw w h).le)
  unfold completed
  by_cases h : weights.sum ≥ 1
  · rw [if_pos h]
    have hpos : 0 < weights.sum := by linarith
    refine ⟨⟨?_, ?_⟩, by simp [hl]⟩
    · intro w hw'
      obtain ⟨y, hy, rfl⟩ := List.mem_map.mp hw'
      exact div_nonneg (hw y hy).le h0
    · simp only
      rw [show (weights.map (fun w => w / weights.sum)).sum = weights.sum / weights.sum by
        simp only [div_eq_mul_inv]
        rw [List.sum_map_mul_right, List.map_id']]
      exact div_self hpos.ne'
  · rw [if_neg h]
    push Not at h
    refine ⟨⟨?_, ?_⟩, by simp [hl]⟩
    · intro w hw'
      rcases List.mem_append.mp hw' with hw' | hw'
      · exact (hw w hw').le
      · rw [List.mem_singleton] at hw'; rw [hw']; linarith
    · simp

/-- The tree of the convergence sequences with the completed weights. -/
lemma weighted_tree {c : ObstacleConvergence d} {x u : Vec d} {initial : RotSeq (Vec d)} {M : ℕ} (hM : M < 100)
    (l : List (Obstacle d)) (hi : ProperFrom u M initial) (hc : ProperConvergence c x initial u M l) :
    ∃ t st vi, Tree.fromSequence interId (.num (-10)) (.num (-1)) initial = .ok t
      ∧ l.zipIdx.foldlM (weightedStep c x initial) ⟨t, [], []⟩ = .ok st
      ∧ initial.getEndVector = .ok vi ∧ ‖vi‖ = 1 ∧ st.tree.dir (.num (-1)) = some vi
      ∧ WInv u M l.length st
      ∧ st.nodes = (activeFrom c x l.zipIdx).map (fun p => NodeId.num p.2)
      ∧ st.weights = (activeFrom c x l.zipIdx).map (fun p => weightOf c x p.1)
      ∧ (∀ w ∈ st.weights, 0 < w)
      ∧ ∀ p ∈ activeFrom c x l.zipIdx, ∃ s v, c.sequenceAround x p.1 initial = .ok (some s)
          ∧ s.getEndVector = .ok v ∧ st.tree.dir (.num p.2) = some v := by
  obtain ⟨t, vi, a1, a2, a3, a4, a5⟩ := start_spec hM hi
  obtain ⟨st, b1, b2, b3, b4, b5, b6⟩ := loop_total hM l hc 0 _ a5
  refine ⟨t, st, vi, a1, b1, a2, a3, ?_, by simpa using b2, by simpa using b3, by simpa using b4, ?_, b6⟩
  · rw [b5 _ a5.initial.1]; exact a4
  · intro w hw
    rw [b4] at hw
    simp only [List.nil_append, List.mem_map] at hw
    obtain ⟨p, hp, rfl⟩ := hw
    unfold activeFrom at hp
    simpa using (List.mem_filter.mp hp).2

/-- C96: the convergence sequence exists, it starts at the direction of the initial sequence, its rotations
are connected, and it ends at a unit vector. -/
theorem C96_convergence (argsort : List ℤ → List ℕ) (has : ArgsortSpec argsort) (c : ObstacleConvergence d)
    (obstacles : List (Obstacle d)) (x u : Vec d) (initial : RotSeq (Vec d)) (M : ℕ) (hM : M < 100)
    (hi : ProperFrom u M initial) (hc : ProperConvergence c x initial u M obstacles) :
    ∃ conv v, weightedSequence argsort c obstacles x initial = .ok conv ∧ conv.getEndVector = .ok v ∧ ‖v‖ = 1
      ∧ (∃ hne : conv ≠ [], (conv.head hne).getFirstVector = u) ∧ Connected conv ∧ UnitVectors conv
      ∧ conv.length ≤ M := by
  obtain ⟨t, st, vi, a1, a2, a3, a4, a5, inv, b1, b2, b3, b4⟩ := weighted_tree hM obstacles hi hc
  have hlen : st.nodes.length = st.weights.length := by rw [b1, b2]; simp
  obtain ⟨c1, c2⟩ := completed_convex hlen b3
  have hmem : ∀ n ∈ (completed st.nodes st.weights).1, n ∈ st.nodes ∨ n = .num (-1) := by
    intro n hn
    unfold completed at hn
    split_ifs at hn
    · exact Or.inl hn
    · simpa using hn
  obtain ⟨s, v, d1, d2, d3, d4, d5, d6, d7, d8⟩ := reduce_proper st.tree _ inv.rooted inv.good.inner argsort has NodeState.init
    (completed st.nodes st.weights).1 (completed st.nodes st.weights).2 c2 (by
      unfold completed
      split_ifs
      · exact inv.nodup
      · rw [List.nodup_append]
        refine ⟨inv.nodup, by simp, ?_⟩
        intro a ha b hb hab
        rw [List.mem_singleton] at hb
        subst hb; subst hab
        obtain ⟨i, _, h, _⟩ := inv.listed _ ha
        injection h with h; omega) (by
      intro n hn
      rcases hmem n hn with h | rfl
      · exact (inv.listed n h).choose_spec.2.2.1
      · exact inv.initial.1) c1 (by
      intro n hn e hne
      rcases hmem n hn with h | rfl
      · obtain ⟨i, _, rfl, _⟩ := inv.listed n h
        rcases inv.leaves _ _ hne with h | ⟨m, j, h⟩
        · injection h with h; omega
        · simp [interId] at h
      · rcases inv.leaves _ _ hne with h | ⟨m, j, h⟩
        · injection h with h; omega
        · simp [interId] at h) M (by
      intro n hn
      rcases hmem n hn with h | rfl
      · obtain ⟨i, _, _, _, h⟩ := inv.listed n h; exact h
      · exact inv.initial.2)
  refine ⟨s, v, ?_, d7, d8, ⟨d2, ?_⟩, d4, d5, ?_⟩
  · unfold weightedSequence
    simp only [a1, a2, bind, Except.bind, d1]
  · rw [← inv.root]
    cases s with
    | nil => exact absurd rfl d2
    | cons q s => exact d3.1
  · have := List.length_pos_of_ne_nil hi.ne
    have := hi.length
    omega

lemma active_nil {c : ObstacleConvergence d} {x : Vec d} {l : List (Obstacle d × ℕ)}
    (h : ∀ p ∈ l, weightOf c x p.1 ≤ 0) : activeFrom c x l = [] := by
  unfold activeFrom
  rw [List.filter_eq_nil_iff]
  intro p hp
  have := h p hp
  simpa using this

/-- C96: an obstacle without weight has no influence; if no obstacle has a weight, the convergence sequence
ends at the end of the initial sequence.  If one obstacle has the weight one and the others have none, it
ends at the end of the sequence around this obstacle. -/
theorem C96_convergence_extremes (argsort : List ℤ → List ℕ) (has : ArgsortSpec argsort)
    (c : ObstacleConvergence d) (obstacles : List (Obstacle d)) (x u : Vec d) (initial : RotSeq (Vec d)) (M : ℕ)
    (hM : M < 100) (hi : ProperFrom u M initial) (hc : ProperConvergence c x initial u M obstacles) :
    ((∀ o ∈ obstacles, weightOf c x o ≤ 0) → ∃ conv, weightedSequence argsort c obstacles x initial = .ok conv
        ∧ conv.getEndVector = initial.getEndVector)
      ∧ (∀ pre o post, obstacles = pre ++ o :: post → weightOf c x o = 1 →
          (∀ o' ∈ pre ++ post, weightOf c x o' ≤ 0) →
          ∃ conv s, weightedSequence argsort c obstacles x initial = .ok conv
            ∧ c.sequenceAround x o initial = .ok (some s) ∧ conv.getEndVector = s.getEndVector) := by
  classical
  obtain ⟨conv, v, e1, e2, _⟩ := C96_convergence argsort has c obstacles x u initial M hM hi hc
  obtain ⟨t, st, vi, a1, a2, a3, a4, a5, inv, b1, b2, b3, b4⟩ := weighted_tree hM obstacles hi hc
  have hw : weightedSequence argsort c obstacles x initial
      = st.tree.reduceWeightedToSequence argsort NodeState.init (completed st.nodes st.weights).1
          (completed st.nodes st.weights).2 := by
    unfold weightedSequence
    simp only [a1, a2, bind, Except.bind]
  have hmean : ∀ n y, completed st.nodes st.weights = ([n], [1]) → st.tree.dir n = some y →
      conv.getEndVector = .ok y := by
    intro n y hcomp hn
    rw [hw, hcomp] at e1
    have := C21_full_weight st.tree _ inv.rooted inv.good argsort has NodeState.init n y hn
    unfold Tree.getWeightedMean at this
    rw [e1] at this
    exact this
  constructor
  · intro h0
    refine ⟨conv, e1, ?_⟩
    have hact : activeFrom c x obstacles.zipIdx = [] :=
      active_nil (fun p hp => h0 _ (List.fst_mem_of_mem_zipIdx hp))
    rw [hact] at b1 b2
    rw [a3]
    refine hmean _ _ ?_ a5
    rw [b1, b2]
    unfold completed
    norm_num
  · intro pre o post hsplit hone hother
    have hact : activeFrom c x obstacles.zipIdx = [(o, pre.length)] := by
      rw [hsplit, List.zipIdx_append]
      unfold activeFrom
      rw [List.filter_append, List.zipIdx_cons, List.filter_cons_of_pos (by simp [hone])]
      have h1 : activeFrom c x pre.zipIdx = [] :=
        active_nil (fun p hp => hother _ (List.mem_append_left _ (List.fst_mem_of_mem_zipIdx hp)))
      have h3 : activeFrom c x (post.zipIdx (0 + pre.length + 1)) = [] :=
        active_nil (fun p hp => hother _ (List.mem_append_right _ (List.fst_mem_of_mem_zipIdx hp)))
      unfold activeFrom at h1 h3
      rw [h1, h3]
      simp
    rw [hact] at b1 b2 b4
    obtain ⟨s, y, f1, f2, f3⟩ := b4 _ List.mem_cons_self
    refine ⟨conv, s, e1, f1, ?_⟩
    rw [f2]
    refine hmean _ _ ?_ f3
    rw [b1, b2]
    unfold completed
    simp [hone]

/-- C96, a defect: the sequence around an obstacle must start at the direction of the initial sequence.
Otherwise the call raises `ValueError`, also if the obstacle has only a small weight. -/
theorem C96_mismatch (argsort : List ℤ → List ℕ) (c : ObstacleConvergence d)
    (pre post : List (Obstacle d)) (o : Obstacle d) (x u : Vec d) (initial : RotSeq (Vec d)) (M : ℕ)
    (hM : M < 100) (hi : ProperFrom u M initial) (hc : ProperConvergence c x initial u M pre)
    (w : ℝ) (hw : c.projectedWeight x o = .ok w) (h0 : 0 < w) (q : Rot (Vec d)) (s : RotSeq (Vec d))
    (hs : c.sequenceAround x o initial = .ok (some (q :: s))) (hq : ¬ allclose q.getFirstVector u) :
    weightedSequence argsort c (pre ++ o :: post) x initial = .error .valueError := by
  classical
  obtain ⟨t, st, vi, a1, a2, a3, a4, a5, inv, b1, b2, b3, b4⟩ := weighted_tree hM pre hi hc
  have hdir : st.tree.dir (.num (-10)) = some u := by
    have h1 := inv.rooted.root_mem
    have h3 := inv.root
    unfold dirOf at h3
    obtain ⟨y, hy, _⟩ := inv.rooted.unit_dir _ h1
    rw [hy] at h3 ⊢
    rw [← h3]; rfl
  have hstep : weightedStep c x initial st (o, pre.length) = .error .valueError := by
    unfold weightedStep
    simp only [hw, bind, Except.bind]
    rw [if_neg (not_le.mpr h0)]
    simp only [hs]
    unfold Tree.addSequence
    simp only [if_true, hdir]
    rw [if_neg (by exact hq)]
    rfl
  unfold weightedSequence
  rw [a1, List.zipIdx_append, List.zipIdx_cons]
  simp only [bind, Except.bind, List.foldlM_append, a2, List.foldlM_cons, Nat.zero_add, hstep]

/-- The sequence of a dynamics without own sequence is proper. -/
lemma proper_plain (x : Vec d) (dyn : Dynamics d) (hown : dyn.ownSequence = none) (s : RotSeq (Vec d))
    (h : evaluateDynamicsSequence x dyn = .ok (some s))
    (hd : Distinguishable [referenceDirection x dyn none, dyn.evaluate x]) :
    ProperFrom (unit (referenceDirection x dyn none)) 1 s
      ∧ s.getEndVector = .ok (unit (dyn.evaluate x)) := by
  classical
  have hend := (C16_rotation x dyn none hown s h).2.2 hd
  rw [evaluateDynamicsSequence_eq x dyn none hown] at h
  split_ifs at h with h1
  · cases h
  cases hc : createFromVectorArray [referenceDirection x dyn none, dyn.evaluate x] with
  | error e => rw [hc] at h; cases h
  | ok s' =>
    rw [hc] at h
    have hss : s' = s := by injection h with h; injection h
    subst hss
    obtain ⟨hl, hr⟩ := C10_rotations _ _ hc
    have hl : s'.length = 1 := by simpa using hl
    obtain ⟨r, rfl⟩ := List.length_eq_one_iff.mp hl
    obtain ⟨r1, r2, _⟩ := hr 0 (by simp) (by simp)
    have hop := ((C10_accepts_iff _).mp ⟨_, hc⟩).2 0 (by simp)
    have hsec := C11_step_ends_at_next _ _ hc hd 0 (by simp) (by simp)
    simp only [List.getElem_cons_zero, List.getElem_cons_succ] at r1 r2 hop hsec
    push Not at h1
    have u1 : ‖unit (referenceDirection x dyn none)‖ = 1 := unit_norm (by
      intro h; rw [h] at h1; simp at h1)
    have u2 : ‖unit (dyn.evaluate x)‖ = 1 := unit_norm (by
      intro h; rw [h] at h1; simp at h1)
    refine ⟨⟨by simp, ?_, List.isChain_singleton _, ?_, r2, by simp⟩, hend⟩
    · intro q hq
      rw [List.mem_singleton] at hq
      subst hq
      rw [r2, hsec]
      exact ⟨u1, u2⟩
    · intro q hq
      rw [List.mem_singleton] at hq
      subst hq
      rw [r2, hsec]
      refine ⟨?_, ?_⟩
      · intro ho
        exact hop ((opposite_unit_iff (by intro h; rw [h] at h1; simp at h1)
          (by intro h; rw [h] at h1; simp at h1)).mp ho)
      · have := List.isChain_pair.mp hd
        exact this

/-- C96, a defect of `ConvergenceDynamicsWithoutSingularity`: for a dynamics with attractor the call raises
`ValueError` whenever the directions to the attractor from the position and from the centre of the first
obstacle differ. -/
theorem C96_without_singularity (ext : Rotational.Ext d k) (a : Avoider d) (x p : Vec d) (env : Environment d)
    (o : Obstacle d) (os : List (Obstacle d)) (s so : RotSeq (Vec d))
    (hown : a.initial.ownSequence = none) (hp : a.initial.attractorPosition = some p)
    (ha : a.convergence = withoutSingularity a.initial) (henv : a.rotation.environment = some env)
    (hos : env.obstacles = o :: os) (hm : a.speed x ≠ 0)
    (hs : evaluateDynamicsSequence x a.initial = .ok (some s))
    (hd : Distinguishable [p - x, a.initial.evaluate x])
    (hso : evaluateDynamicsSequence o.referencePoint a.initial = .ok (some so))
    (hdir : ¬ allclose (unit (p - o.referencePoint)) (unit (p - x))) :
    evaluateSequence ext a x = .error .valueError := by
  classical
  have href : ∀ y, referenceDirection y a.initial none = p - y := by
    intro y; unfold referenceDirection; rw [hp]
  have hpr := (proper_plain x a.initial hown s hs (by rw [href]; exact hd)).1
  rw [href] at hpr
  have hfirst := (C16_rotation _ a.initial none hown so hso)
  obtain ⟨q, rfl⟩ := List.length_eq_one_iff.mp hfirst.1
  have hq : q.getFirstVector = unit (p - o.referencePoint) := by
    have := hfirst.2.1
    rw [href] at this
    simpa using this
  have hw : 0 < projectedWeightWithoutSingularity (o.gamma x) := by
    unfold projectedWeightWithoutSingularity
    split_ifs with h
    · exact one_div_pos.mpr (by linarith)
    · norm_num
  have := C96_mismatch ext.argsort a.convergence [] os o x _ s 1 (by norm_num) hpr (by intro o ho; simp at ho)
    (projectedWeightWithoutSingularity (o.gamma x)) (by rw [ha]; rfl) hw q [] (by rw [ha]; exact hso)
    (by rw [hq]; exact hdir)
  rw [List.nil_append, ← hos] at this
  unfold evaluateSequence
  rw [if_neg hm, hs]
  simp only [bind, Except.bind, henv, this]

/-! ## `evaluate_sequence` -/

/-- C96: no motion where the initial dynamics has no speed or no sequence (at the attractor). -/
theorem C96_rest (ext : Rotational.Ext d k) (a : Avoider d) (x : Vec d)
    (h : a.speed x = 0 ∨ evaluateDynamicsSequence x a.initial = .ok none) :
    evaluateSequence ext a x = .ok 0 := by
  classical
  unfold evaluateSequence
  by_cases h0 : a.speed x = 0
  · rw [if_pos h0]
  · rw [if_neg h0, h.resolve_left h0]
    rfl

/-- The outcome of `evaluate_sequence` in terms of the sequences. -/
lemma evaluateSequence_eq {ext : Rotational.Ext d k} {a : Avoider d} {x : Vec d} {env : Environment d} {s conv : RotSeq (Vec d)}
    (h0 : a.speed x ≠ 0) (henv : a.rotation.environment = some env)
    (hs : evaluateDynamicsSequence x a.initial = .ok (some s))
    (hconv : weightedSequence ext.argsort a.convergence env.obstacles x s = .ok conv) :
    evaluateSequence ext a x = (do
      let r ← avoidSequence ext a.rotation x s conv false
      let v ← r.getEndVector
      .ok (a.speed x • v)) := by
  classical
  unfold evaluateSequence
  rw [if_neg h0, hs]
  simp only [bind, Except.bind, henv, hconv]

/-- The situation of the theorems about `evaluate_sequence`: the dynamics moves, its sequence and the sequences
around the obstacles fit together, and the directions at the obstacles are admissible for the sequence `conv`
of the convergence directions. -/
structure Situation (ext : Rotational.Ext d k) (a : Avoider d) (x u : Vec d) (env : Environment d)
    (s conv : RotSeq (Vec d)) (M : ℕ) : Prop where
  sane : SaneAngles ext
  moving : a.speed x ≠ 0
  environment : a.rotation.environment = some env
  sequence : evaluateDynamicsSequence x a.initial = .ok (some s)
  short : M < 98
  proper : ProperFrom u M s
  convergence : ProperConvergence a.convergence x s u M env.obstacles
  computed : weightedSequence ext.argsort a.convergence env.obstacles x s = .ok conv
  pairs : ∀ q ∈ conv, Neighbours q.getFirstVector q.getSecondVector
  obstacles : ProperObstacles ext a.rotation x conv env.obstacles
  power : 0 ≤ a.rotation.power

namespace Situation
variable {ext : Rotational.Ext d k} {a : Avoider d} {x u : Vec d} {env : Environment d} {s conv : RotSeq (Vec d)} {M : ℕ}

lemma sequences (h : Situation ext a x u env s conv M) : ProperSequences s conv := by
  obtain ⟨conv', v, e1, e2, e3, ⟨e4, e5⟩, e6, e7, e8⟩ := C96_convergence ext.argsort h.sane.argsort a.convergence
    env.obstacles x u s M (by have := h.short; omega) h.proper h.convergence
  rw [h.computed] at e1
  injection e1 with e1
  subst e1
  have := h.short
  have := h.proper.length
  exact ⟨h.proper.ne, e4, h.proper.units, e7, h.proper.connected, e6, h.proper.pairs, h.pairs,
    by rw [h.proper.first, e5], by omega, by omega⟩

lemma outcome (h : Situation ext a x u env s conv M) {v : Vec d} (hv : evaluateSequence ext a x = .ok v) :
    ∃ r y, avoidSequence ext a.rotation x s conv false = .ok r ∧ r.getEndVector = .ok y
      ∧ v = a.speed x • y := by
  rw [evaluateSequence_eq h.moving h.environment h.sequence h.computed] at hv
  obtain ⟨r, h1, hv⟩ := bind_ok.mp hv
  obtain ⟨y, h3, hv⟩ := bind_ok.mp hv
  injection hv with hv
  exact ⟨r, y, h1, h3, hv.symm⟩

end Situation

/-- C96: the speed of the initial dynamics is kept exactly. -/
theorem C96_speed (ext : Rotational.Ext d k) (a : Avoider d) (x u v : Vec d) (env : Environment d)
    (s conv : RotSeq (Vec d)) (M : ℕ) (hsit : Situation ext a x u env s conv M)
    (hv : evaluateSequence ext a x = .ok v) : ‖v‖ = |a.speed x| := by
  obtain ⟨r, y, h1, h3, rfl⟩ := hsit.outcome hv
  obtain ⟨y', h4, h5⟩ := C95_unit ext hsit.sane a.rotation env x s conv r false hsit.environment hsit.sequences
    hsit.obstacles hsit.power h1
  rw [h3] at h4
  injection h4 with h4
  subst h4
  rw [norm_smul, h5, mul_one, Real.norm_eq_abs]

/-- C96: no penetration.  If exactly one obstacle is in contact with the position, the velocity does not point
into it.  Missing: several contacts, and the directions excluded by `Situation`. -/
theorem C96_contact_partial (ext : Rotational.Ext d k) (a : Avoider d) (x u v : Vec d) (env : Environment d)
    (s conv : RotSeq (Vec d)) (M : ℕ) (hsit : Situation ext a x u env s conv M)
    (pre post : List (Obstacle d)) (o : Obstacle d) (hsplit : env.obstacles = pre ++ o :: post)
    (hcon : o.gamma x ≤ 1) (hbd : o.isBoundary = true → 0 ≤ o.gamma x)
    (hother : ∀ o' ∈ pre ++ post, 1 < o'.gamma x) (hm : 0 ≤ a.speed x)
    (hR : Real.pi / 2 ≤ a.rotation.convergenceRadius) (hR' : a.rotation.convergenceRadius ≤ Real.pi)
    (hv : evaluateSequence ext a x = .ok v) : ⟪v, inward o x⟫ ≤ 0 := by
  obtain ⟨r, y, h1, h3, rfl⟩ := hsit.outcome hv
  obtain ⟨e, he⟩ : ∃ e, conv.getEndVector = .ok e :=
    ⟨_, endVector_of_ne _ hsit.sequences.conv_ne⟩
  obtain ⟨t, _, h4, h5⟩ := C95_contact_partial ext hsit.sane a.rotation env x e s conv r false hsit.environment
    pre post o hsplit hcon hbd hother hsit.sequences he hsit.obstacles hsit.power h1
  rw [h3] at h4
  injection h4 with h4
  subst h4
  rw [inner_smul_left]
  exact mul_nonpos_of_nonneg_of_nonpos (by simpa using hm) (h5 hR hR')

/-- C96: where no obstacle asks for a deviation (all weights of the rotations are zero), or without obstacles, the
result is the direction of the initial dynamics with its speed. -/
theorem C96_undisturbed (ext : Rotational.Ext d k) (a : Avoider d) (x u v e : Vec d) (env : Environment d)
    (s conv : RotSeq (Vec d)) (M : ℕ) (hsit : Situation ext a x u env s conv M)
    (hend : conv.getEndVector = .ok e)
    (hfar : ∀ o ∈ env.obstacles, continuationWeight ext a.rotation (usedGamma x o) (towards o x) e
      ⟨o.normal x, !o.isBoundary⟩ = .ok 0)
    (hv : evaluateSequence ext a x = .ok v) :
    ∃ y, s.getEndVector = .ok y ∧ v = a.speed x • y
      ∧ (a.initial.ownSequence = none → a.magnitude = none →
          Distinguishable [referenceDirection x a.initial none, a.initial.evaluate x] →
          v = a.initial.evaluate x) := by
  obtain ⟨r, y, h1, h3, rfl⟩ := hsit.outcome hv
  have hend' : r.getEndVector = s.getEndVector := by
    by_cases hne : env.obstacles = []
    · rw [(C95_no_obstacles ext a.rotation x s conv false).2 env hsit.environment hne] at h1
      injection h1 with h1
      rw [h1]
    · exact (C95_no_weight ext hsit.sane a.rotation env x e s conv r false hsit.environment hne hsit.sequences
        hend hsit.obstacles hsit.power hfar h1).2 rfl
  refine ⟨y, by rw [← hend', h3], rfl, ?_⟩
  intro hown hmag hdist
  have h5 := (C16_rotation x a.initial none hown s hsit.sequence).2.2 hdist
  rw [← hend', h3] at h5
  injection h5 with h5
  subst h5
  have hsp : a.speed x = ‖a.initial.evaluate x‖ := by unfold Avoider.speed; rw [hmag]
  have h6 := hsit.moving
  rw [hsp] at h6 ⊢
  unfold unit
  rw [smul_smul, mul_one_div_cancel h6, one_smul]

/-- C96: `evaluate_sequence` does not raise if the geometric functions of the obstacles do not. -/
theorem C96_total (ext : Rotational.Ext d k) (a : Avoider d) (x u e : Vec d) (env : Environment d)
    (s conv : RotSeq (Vec d)) (M : ℕ) (hsit : Situation ext a x u env s conv M)
    (hend : conv.getEndVector = .ok e) (hc : ∀ o ∈ env.obstacles, Computable ext a.rotation e x o) :
    ∃ v, evaluateSequence ext a x = .ok v := by
  obtain ⟨r, hr⟩ := C95_total ext hsit.sane a.rotation env x e s conv false hsit.environment hsit.sequences hend
    hsit.obstacles hsit.power hc
  obtain ⟨y, hy, _⟩ := C95_unit ext hsit.sane a.rotation env x s conv r false hsit.environment hsit.sequences
    hsit.obstacles hsit.power hr
  rw [evaluateSequence_eq hsit.moving hsit.environment hsit.sequence hsit.computed]
  exact ⟨a.speed x • y, by simp only [hr, bind, Except.bind, hy]⟩

/-! ## `evaluate` -/

lemma avoid_stored (ext : Rotational.Ext d k) (r : Rotational.Avoider d) (env : Environment d) (x v : Vec d)
    (conv : Option (Vec d)) (sticky : Bool) (radius : Option ℝ) (henv : r.environment = some env) :
    (Rotational.avoid ext r x (some v) none conv sticky radius).2
      = (Rotational.avoid ext r x (some v) (some env) conv sticky radius).2 := by
  unfold Rotational.avoid Rotational.avoid.run
  simp only [henv]

lemma evaluate_eq {ext : Rotational.Ext d k} {a : Avoider d} {x c : Vec d} {env : Environment d} {sticky : Bool}
    {radius : Option ℝ} (henv : a.rotation.environment = some env) (hv : a.initial.evaluate x ≠ 0)
    (hc : weightedDynamics ext.argsort a.convergence env.obstacles a.rotation.cutOffGamma x
      (unit (a.initial.evaluate x)) = .ok c) :
    (evaluate ext a x sticky radius).2
      = match (Rotational.avoid ext a.rotation x (some (unit (a.initial.evaluate x))) (some env)
          (some (‖a.initial.evaluate x‖ • c)) sticky radius).2 with
        | .error e => .error e
        | .ok w => .ok (‖a.initial.evaluate x‖ • w) := by
  classical
  rw [← avoid_stored ext a.rotation env x _ _ sticky radius henv]
  unfold evaluate
  simp only [norm_eq_zero, if_neg hv, henv]
  unfold unit at hc ⊢
  simp only [hc]
  generalize Rotational.avoid ext a.rotation x _ none _ sticky radius = y
  obtain ⟨r, o⟩ := y
  cases o <;> rfl

lemma relevant_nil {gammas : List ℝ} {cutOff : ℝ} (hc : 1 < cutOff) (h : ∀ g ∈ gammas, cutOff ≤ g) :
    relevant gammas cutOff = [] := by
  classical
  have key : ∀ y : ℝ, y ≤ cutOff → ∀ i, i < gammas.length → ¬ gammas.getD i 0 < y := by
    intro y hy i hi hlt
    rw [List.getD_eq_getElem _ _ hi] at hlt
    linarith [h _ (List.getElem_mem hi)]
  unfold relevant
  simp only
  rw [if_neg]
  · rw [List.filter_eq_nil_iff]
    intro i hi
    simpa using key cutOff (le_refl _) i (List.mem_range.mp hi)
  · rw [not_not, List.filter_eq_nil_iff]
    intro i hi
    have := key cutOff (le_refl _) i (List.mem_range.mp hi)
    simp only [decide_eq_true_eq, not_le]
    linarith [not_lt.mp this]

/-- C96: far from all obstacles (at or beyond the cut-off) `evaluate` returns the velocity of the initial
dynamics; the same where this velocity is zero. -/
theorem C96_evaluate_far (ext : Rotational.Ext d k) (a : Avoider d) (x : Vec d) (env : Environment d)
    (sticky : Bool) (radius : Option ℝ) (henv : a.rotation.environment = some env)
    (hcut : 1 < a.rotation.cutOffGamma)
    (h : a.initial.evaluate x = 0 ∨ ∀ o ∈ env.obstacles, a.rotation.cutOffGamma ≤ o.gamma x) :
    (evaluate ext a x sticky radius).2 = .ok (a.initial.evaluate x) := by
  classical
  by_cases h0 : a.initial.evaluate x = 0
  · unfold evaluate
    simp only [norm_eq_zero, if_pos h0]
  have hfar := h.resolve_left h0
  have hw : weightedDynamics ext.argsort a.convergence env.obstacles a.rotation.cutOffGamma x
      (unit (a.initial.evaluate x)) = .ok (unit (a.initial.evaluate x)) := by
    unfold weightedDynamics
    simp only
    rw [if_pos]
    apply relevant_nil hcut
    intro g hg
    obtain ⟨o, ho, rfl⟩ := List.mem_map.mp hg
    exact hfar o ho
  rw [evaluate_eq henv h0 hw, (C93_fallback ext a.rotation x _ env _ sticky radius (by
    intro o ho hc
    have := hfar o ho
    rcases hc with hc | hc
    · linarith [hc.2]
    · linarith [hc.2.1])).1]
  simp only [norm_smul_unit]

/-- C96: with a sticky surface the result is never faster than the initial dynamics, if the close obstacles do not
move. -/
theorem C96_evaluate_speed (ext : Rotational.Ext d k) (he : SaneAngles ext) (a : Avoider d) (x w : Vec d)
    (env : Environment d) (radius : Option ℝ) (henv : a.rotation.environment = some env)
    (hrest : closeVelocity ext a.rotation env x = 0) (h : (evaluate ext a x true radius).2 = .ok w) :
    ‖w‖ ≤ ‖a.initial.evaluate x‖ := by
  classical
  by_cases h0 : a.initial.evaluate x = 0
  · unfold evaluate at h
    simp only [norm_eq_zero, if_pos h0, Except.ok.injEq] at h
    rw [h]
  cases hw : weightedDynamics ext.argsort a.convergence env.obstacles a.rotation.cutOffGamma x
      (unit (a.initial.evaluate x)) with
  | error e =>
    unfold evaluate at h
    unfold unit at hw
    simp only [norm_eq_zero, if_neg h0, henv, hw] at h
    cases h
  | ok c =>
    rw [evaluate_eq henv h0 hw] at h
    split at h
    · cases h
    · rename_i y hy
      injection h with h
      subst h
      have := C93_speed ext he a.rotation env x _ _ _ radius hy
      rw [hrest, sub_zero, sub_zero, unit_norm h0] at this
      rw [norm_smul, norm_norm]
      calc _ ≤ ‖a.initial.evaluate x‖ * 1 := mul_le_mul_of_nonneg_left this (norm_nonneg _)
        _ = _ := mul_one _

/-- C96: no penetration.  If exactly one obstacle is in contact with the position and the close obstacles do not
move, the velocity does not point into it; `c` is the averaged convergence direction.  Missing: several
contacts, moving obstacles (see `C96_overrun`), and the excluded directions. -/
theorem C96_evaluate_contact_partial (ext : Rotational.Ext d k) (he : SaneAngles ext) (a : Avoider d) (x w c : Vec d)
    (env : Environment d) (sticky : Bool) (radius : Option ℝ) (henv : a.rotation.environment = some env)
    (hrest : closeVelocity ext a.rotation env x = 0)
    (pre post : List (Obstacle d)) (o : Obstacle d) (hos : env.obstacles = pre ++ o :: post)
    (hcut : 1 < a.rotation.cutOffGamma)
    (hcon : o.gamma x ≤ 1) (hbd : o.isBoundary = true → o.gamma x = 1)
    (hother : ∀ o' ∈ pre ++ post, 1 < o'.gamma x)
    (hn : o.normal x ≠ 0) (hin : 0 ≤ ⟪towards o x, inward o x⟫)
    (hc : weightedDynamics ext.argsort a.convergence env.obstacles a.rotation.cutOffGamma x
      (unit (a.initial.evaluate x)) = .ok c) (hc0 : c ≠ 0)
    (hR : Real.pi / 2 ≤ radius.getD a.rotation.convergenceRadius)
    (hR' : radius.getD a.rotation.convergenceRadius ≤ Real.pi)
    (hgood : ∀ t, pseudoTangent ext (updated a.rotation env radius) (‖a.initial.evaluate x‖ • c) (towards o x)
        ⟨o.normal x, !o.isBoundary⟩ = .ok t →
      ¬ Opposite (unit (a.initial.evaluate x)) t
        ∧ ∀ R, Admissible ext (‖a.initial.evaluate x‖ • c) (towards o x) t (unit (a.initial.evaluate x))
          ⟨o.normal x, !o.isBoundary⟩ R)
    (h : (evaluate ext a x sticky radius).2 = .ok w) : ⟪w, inward o x⟫ ≤ 0 := by
  classical
  by_cases h0 : a.initial.evaluate x = 0
  · unfold evaluate at h
    simp only [norm_eq_zero, if_pos h0, Except.ok.injEq] at h
    rw [← h, h0, inner_zero_left]
  have hnorm : 0 < ‖a.initial.evaluate x‖ := norm_pos_iff.mpr h0
  rw [evaluate_eq henv h0 hc] at h
  split at h
  · cases h
  · rename_i y hy
    injection h with h
    subst h
    have := C93_contact_partial ext he a.rotation env x _ y (‖a.initial.evaluate x‖ • c) _ sticky radius pre post
      o hos hcut hcon hbd hother hn hin (Or.inl rfl) (smul_ne_zero hnorm.ne' hc0) hR hR'
      (by rw [hrest, sub_zero]; exact hgood) hy (by rw [hrest, sub_zero]; exact unit_ne_zero h0)
    rw [hrest, sub_zero] at this
    rw [inner_smul_left]
    refine mul_nonpos_of_nonneg_of_nonpos (by simp) ?_
    cases sticky
    · exact this.2 rfl rfl
    · exact this.1 rfl

/-- C96, violated for moving obstacles: the velocity is normalised before the velocity of the obstacle is
subtracted.  If the obstacle moves with speed one in the direction of the initial velocity, the initial
velocity is returned, however slow it is, and the obstacle overruns the position: the relative velocity
points into the obstacle. -/
theorem C96_overrun (ext : Rotational.Ext d k) (a : Avoider d) (x c : Vec d) (env : Environment d) (sticky : Bool)
    (radius : Option ℝ) (henv : a.rotation.environment = some env) (o : Obstacle d)
    (h0 : a.initial.evaluate x ≠ 0) (hslow : ‖a.initial.evaluate x‖ < 1)
    (hc : weightedDynamics ext.argsort a.convergence env.obstacles a.rotation.cutOffGamma x
      (unit (a.initial.evaluate x)) = .ok c)
    (hmove : closeVelocity ext a.rotation env x = unit (a.initial.evaluate x))
    (hbehind : inward o x = -unit (a.initial.evaluate x)) :
    (evaluate ext a x sticky radius).2 = .ok (a.initial.evaluate x)
      ∧ 0 < ⟪a.initial.evaluate x - closeVelocity ext a.rotation env x, inward o x⟫ := by
  classical
  constructor
  · rw [evaluate_eq henv h0 hc]
    have : (Rotational.avoid ext a.rotation x (some (unit (a.initial.evaluate x))) (some env)
          (some (‖a.initial.evaluate x‖ • c)) sticky radius).2 = .ok (unit (a.initial.evaluate x)) := by
      change avoidBody ext (updated a.rotation env radius) env x _ _ sticky _ = _
      unfold avoidBody
      split_ifs with h1
      · rfl
      · simp only
        have e : closeVelocity ext (updated a.rotation env radius) env x = closeVelocity ext a.rotation env x := by
          unfold closeVelocity; rfl
        rw [relative_eq, e, hmove]
        split_ifs with h3 h4
        · rfl
        · simp
        · simp at h4
    rw [this]
    simp only [norm_smul_unit]
  · rw [hmove, hbehind]
    have h1 := unit_norm h0
    nth_rewrite 1 [← norm_smul_unit (a.initial.evaluate x)]
    rw [inner_neg_right, inner_sub_left, inner_smul_left, real_inner_self_eq_norm_sq, h1]
    simp
    linarith

/-! ## The wrong obstacle -/

lemma filter_range_single {n m : ℕ} (hm : m < n) (p : ℕ → Bool) (h : ∀ i < n, p i = true ↔ i = m) :
    (List.range n).filter p = [m] := by
  have h1 : (List.range n).filter p = (List.range n).filter (fun i => i == m) := by
    apply List.filter_congr
    intro i hi
    have := h i (List.mem_range.mp hi)
    by_cases e : i = m
    · rw [this.mpr e]; simp [e]
    · have hp : p i = false := by
        cases hp : p i
        · rfl
        · exact absurd (this.mp hp) e
      rw [hp]; simp [e]
  rw [h1, List.filter_beq, List.count_eq_one_of_mem List.nodup_range (List.mem_range.mpr hm)]
  rfl

lemma relevant_single {pre post : List ℝ} {g cutOff : ℝ} (hc : 1 < cutOff) (hg : g < cutOff)
    (h : ∀ y ∈ pre ++ post, cutOff ≤ y) : relevant (pre ++ g :: post) cutOff = [pre.length] := by
  classical
  have hlen : pre.length < (pre ++ g :: post).length := by simp
  have key : ∀ i, i < (pre ++ g :: post).length → i ≠ pre.length → cutOff ≤ (pre ++ g :: post).getD i 0 := by
    intro i hi hne
    rw [List.getD_eq_getElem _ _ hi]
    apply h
    rcases lt_or_gt_of_ne hne with hlt | hgt
    · rw [List.getElem_append_left hlt]
      exact List.mem_append_left _ (List.getElem_mem _)
    · rw [List.getElem_append_right hgt.le]
      obtain ⟨j, hj⟩ : ∃ j, i - pre.length = j + 1 := ⟨i - pre.length - 1, by omega⟩
      simp only [hj, List.getElem_cons_succ]
      exact List.mem_append_right _ (List.getElem_mem _)
  have hat : (pre ++ g :: post).getD pre.length 0 = g := by
    rw [List.getD_eq_getElem _ _ hlen]
    simp
  unfold relevant
  simp only
  by_cases h1 : g ≤ 1
  · have : (List.range (pre ++ g :: post).length).filter
        (fun i => decide ((pre ++ g :: post).getD i 0 ≤ 1)) = [pre.length] := by
      apply filter_range_single hlen
      intro i hi
      rw [decide_eq_true_iff]
      constructor
      · intro hi1; by_contra hne; linarith [key i hi hne]
      · rintro rfl; rw [hat]; exact h1
    rw [this, if_pos (by simp)]
  · rw [if_neg]
    · apply filter_range_single hlen
      intro i hi
      rw [decide_eq_true_iff]
      constructor
      · intro hi1; by_contra hne; linarith [key i hi hne]
      · rintro rfl; rw [hat]; exact hg
    · rw [not_not, List.filter_eq_nil_iff]
      intro i hi
      rw [decide_eq_true_iff]
      by_cases hne : i = pre.length
      · rw [hne, hat]; exact h1
      · have := key i (List.mem_range.mp hi) hne
        intro hh; linarith

lemma sum_single {l : List ℝ} {m : ℕ} (hm : m < l.length) (h : ∀ i < l.length, i ≠ m → l.getD i 0 = 0) :
    l.sum = l.getD m 0 := by
  induction l generalizing m with
  | nil => simp at hm
  | cons y l ih =>
    cases m with
    | zero =>
      have : l.sum = 0 := by
        apply List.sum_eq_zero
        intro z hz
        obtain ⟨i, hi, rfl⟩ := List.getElem_of_mem hz
        have := h (i + 1) (by simpa using hi) (by omega)
        simpa [hi] using this
      simp [this]
    | succ m =>
      have h0 := h 0 (by simp) (by omega)
      have := ih (m := m) (by simpa using hm) (by
        intro i hi hne
        have := h (i + 1) (by simpa using hi) (by omega)
        simpa using this)
      simp only [List.getD_cons_zero] at h0
      simp only [List.sum_cons, h0, this, zero_add, List.getD_cons_succ]

/-- C96, a defect: if exactly one obstacle is closer than the cut-off, the averaged convergence direction has to be
the direction around this obstacle.  It is the direction around the first obstacle of the list instead. -/
theorem C96_wrong_obstacle (argsort : List ℤ → List ℕ) (has : ArgsortSpec argsort) (c : ObstacleConvergence d)
    (pre post : List (Obstacle d)) (o first : Obstacle d) (cutOff : ℝ) (x u v : Vec d) (hu : ‖u‖ = 1)
    (hfirst : (pre ++ o :: post).head? = some first)
    (hcut : 1 < cutOff) (hg : o.gamma x < cutOff) (hother : ∀ o' ∈ pre ++ post, cutOff ≤ o'.gamma x)
    (hv : c.aroundObstacle x first = .ok v) (hv0 : v ≠ 0) (hgood : Neighbours u (unit v)) :
    weightedDynamics argsort c (pre ++ o :: post) cutOff x u = .ok (unit v) := by
  classical
  have hrel : relevant ((pre ++ o :: post).map (fun o => o.gamma x)) cutOff = [pre.length] := by
    rw [List.map_append, List.map_cons]
    have := relevant_single (pre := pre.map (fun o => o.gamma x)) (post := post.map (fun o => o.gamma x)) hcut hg
      (by
        intro y hy
        rw [← List.map_append] at hy
        obtain ⟨o', ho', rfl⟩ := List.mem_map.mp hy
        exact hother o' ho')
    rw [this, List.length_map]
  have hw1 : (importanceWeights ((pre ++ o :: post).map (fun o => o.gamma x)) cutOff).getD pre.length 0 = 1 := by
    obtain ⟨w1, _, w3, w4⟩ := C34_importance ((pre ++ o :: post).map (fun o => o.gamma x)) cutOff 1 2 hcut
    have w4 := w4 ⟨o.gamma x, by simp, hg⟩
    have hl : (importanceWeights ((pre ++ o :: post).map (fun o => o.gamma x)) cutOff).length
        = (pre ++ o :: post).length := by rw [w1]; simp
    refine Eq.trans (Eq.symm ?_) w4
    apply sum_single
    · rw [hl]; simp
    · intro i hi hne
      rw [hl] at hi
      apply w3 i (by simpa using hi)
      rw [List.getD_eq_getElem _ _ (by simpa using hi), List.getElem_map]
      apply hother
      rcases lt_or_gt_of_ne hne with hlt | hgt
      · rw [List.getElem_append_left hlt]
        exact List.mem_append_left _ (List.getElem_mem _)
      · rw [List.getElem_append_right hgt.le]
        obtain ⟨j, hj⟩ : ∃ j, i - pre.length = j + 1 := ⟨i - pre.length - 1, by omega⟩
        simp only [hj, List.getElem_cons_succ]
        exact List.mem_append_right _ (List.getElem_mem _)
  have hget : (pre ++ o :: post)[0]? = some first := by
    rw [← List.head?_eq_getElem?]; exact hfirst
  obtain ⟨t0, a1, a2, a3, a4, a5⟩ := from_sequence_root (NodeId.num (-1)) u hu
  have hd0 : dirOf t0 (.num (-1)) = u := by simp [dirOf, a5]
  obtain ⟨t1, b1, b2, b3, b4, b5, b6, b7⟩ := addNode_step_ne t0 _ a2 (.num pre.length) (.num (-1)) v hv0
    (by rw [a3]; simp) (by rw [a3]; simp) 0 a2.root_level (by norm_num)
  have hg1 : GoodDirections t1 := b7 (by intro a b hab; simp [IsParent, a4] at hab) (by rw [hd0]; exact hgood)
  unfold weightedDynamics
  simp only [hrel]
  rw [if_neg (by simp)]
  simp only [a1, bind, Except.bind, List.zipIdx_cons, List.zipIdx_nil, List.foldlM_cons, List.foldlM_nil]
  unfold directionStep
  simp only [hget, hv, bind, Except.bind, b1, norm_eq_zero, if_neg hv0]
  simp only [List.map_cons, List.map_nil, hw1, pure, Except.pure]
  exact C21_full_weight t1 _ b2 hg1 argsort has NodeState.init _ _ b5

/-- C96: with one obstacle it is the right one.  The direction jumps at the cut-off: just below it the convergence
direction is the one around the obstacle, at the cut-off it is the initial direction. -/
theorem C96_single (argsort : List ℤ → List ℕ) (has : ArgsortSpec argsort) (c : ObstacleConvergence d)
    (o : Obstacle d) (cutOff : ℝ) (x u v : Vec d) (hu : ‖u‖ = 1) (hcut : 1 < cutOff)
    (hv : c.aroundObstacle x o = .ok v) (hv0 : v ≠ 0) (hgood : Neighbours u (unit v)) :
    (o.gamma x < cutOff → weightedDynamics argsort c [o] cutOff x u = .ok (unit v))
      ∧ (cutOff ≤ o.gamma x → weightedDynamics argsort c [o] cutOff x u = .ok u) := by
  classical
  constructor
  · intro hg
    exact C96_wrong_obstacle argsort has c [] [] o o cutOff x u v hu rfl hcut hg (by simp) hv hv0 hgood
  · intro hg
    unfold weightedDynamics
    simp only
    rw [if_pos]
    apply relevant_nil hcut
    simpa using hg

/-! ## Examples: the unit disc -/

/-- The constant dynamics to the left with speed two. -/
noncomputable def leftwards : Dynamics 2 where
  evaluate := fun _ => !₂[-2, 0]
  attractorPosition := none
  ownSequence := none

lemma leftwards_unit : unit (!₂[-2, 0] : Vec 2) = !₂[-1, 0] := by
  have : (!₂[-2, 0] : Vec 2) = (2 : ℝ) • !₂[-1, 0] := by
    ext i; fin_cases i <;> simp
  unfold unit
  rw [this, norm_smul, norm_e0n, smul_smul]
  norm_num

lemma leftwards_norm : ‖(!₂[-2, 0] : Vec 2)‖ = 2 := by
  have : (!₂[-2, 0] : Vec 2) = (2 : ℝ) • !₂[-1, 0] := by
    ext i; fin_cases i <;> simp
  rw [this, norm_smul, norm_e0n]
  norm_num

lemma leftwards_sequence : ∃ s, (∀ x, evaluateDynamicsSequence x leftwards = .ok (some s))
    ∧ ProperFrom !₂[-1, 0] 1 s ∧ s.getEndVector = .ok !₂[-1, 0] := by
  have h0 : (!₂[-2, 0] : Vec 2) ≠ 0 := by
    intro h; have := leftwards_norm; rw [h] at this; norm_num at this
  obtain ⟨s, hs⟩ := (C10_accepts_iff (d := 2) [!₂[-2, 0], !₂[-2, 0]]).mpr ⟨by
    intro v hv
    simp only [List.mem_cons, List.not_mem_nil, or_false, or_self] at hv
    rw [hv, leftwards_norm]; norm_num, by
    intro i hi
    have : i = 0 := by simp at hi; omega
    subst this
    rintro ⟨c, hc, h⟩
    have := congrArg (fun y : Vec 2 => y 0) h
    simp at this
    linarith⟩
  have heq : ∀ x, evaluateDynamicsSequence x leftwards = .ok (some s) := by
    intro x
    rw [evaluateDynamicsSequence_eq x leftwards none rfl]
    have h1 : referenceDirection x leftwards none = !₂[-2, 0] := rfl
    have h3 : leftwards.evaluate x = !₂[-2, 0] := rfl
    rw [h1, h3, if_neg (by simp [h0]), hs]
  obtain ⟨h1, h3⟩ := proper_plain 0 leftwards rfl s (heq 0) (List.isChain_pair.mpr (Or.inl rfl))
  refine ⟨s, heq, ?_, ?_⟩
  · have : unit (referenceDirection (0 : Vec 2) leftwards none) = !₂[-1, 0] := leftwards_unit
    rwa [this] at h1
  · have : unit (leftwards.evaluate 0) = !₂[-1, 0] := leftwards_unit
    rwa [this] at h3

/-- The avoider around the unit disc. -/
noncomputable def discAvoider : Avoider 2 :=
  create leftwards none ⟨[disc], none, none⟩ (withoutSingularity leftwards)

/-- C96 is not vacuous: on the surface of the unit disc, with the dynamics straight into it, the hypotheses of
`C96_convergence`, `C96_speed`, `C96_contact_partial` and `C96_total` are met. -/
example : ∃ v, evaluateSequence planar discAvoider !₂[1, 0] = .ok v ∧ ‖v‖ = 2
    ∧ ⟪v, inward disc !₂[1, 0]⟫ ≤ 0 := by
  obtain ⟨s, hs, hprop, hsend⟩ := leftwards_sequence
  have he0 : (!₂[-1, 0] : Vec 2) ≠ 0 := by intro h; have := norm_e0n; rw [h] at this; simp at this
  have hg : disc.gamma (!₂[1, 0] : Vec 2) = 1 := norm_e0
  have hweight : projectedWeightWithoutSingularity (disc.gamma (!₂[1, 0] : Vec 2)) = 1 := by
    unfold projectedWeightWithoutSingularity; rw [hg]; simp
  have hconv : ProperConvergence discAvoider.convergence !₂[1, 0] s !₂[-1, 0] 1 [disc] := by
    intro o ho
    rw [List.mem_singleton] at ho
    subst ho
    exact ⟨1, congrArg Except.ok hweight, fun _ => ⟨s, hs _, hprop⟩⟩
  obtain ⟨conv, e, c1, c2, c3, ⟨c4, c5⟩, c6, c7, c8⟩ := C96_convergence planar.argsort planar_sane.argsort
    discAvoider.convergence [disc] !₂[1, 0] !₂[-1, 0] s 1 (by norm_num) hprop hconv
  have hend : conv.getEndVector = .ok !₂[-1, 0] := by
    obtain ⟨conv', s', d1, d2, d3⟩ := (C96_convergence_extremes planar.argsort planar_sane.argsort
      discAvoider.convergence [disc] !₂[1, 0] !₂[-1, 0] s 1 (by norm_num) hprop hconv).2 [] disc [] rfl
      (by change projectedWeightWithoutSingularity (disc.gamma (!₂[1, 0] : Vec 2)) = 1; exact hweight) (by simp)
    rw [c1] at d1
    injection d1 with d1
    subst d1
    have d2 : evaluateDynamicsSequence disc.referencePoint leftwards = .ok (some s') := d2
    rw [hs] at d2
    injection d2 with d2
    injection d2 with d2
    rw [d3, ← d2, hsend]
  obtain ⟨q, rfl⟩ : ∃ q, conv = [q] := by
    have := List.length_pos_of_ne_nil c4
    exact List.length_eq_one_iff.mp (by omega)
  have hpairs : ∀ r ∈ [q], Neighbours r.getFirstVector r.getSecondVector := by
    intro r hr
    rw [List.mem_singleton] at hr
    subst hr
    have h1 : r.getFirstVector = !₂[-1, 0] := c5
    have h3 : r.getSecondVector = !₂[-1, 0] := by
      rw [endVector_of_ne _ (by simp)] at hend
      injection hend with hend
    rw [h1, h3]
    refine ⟨?_, Or.inl rfl⟩
    rintro ⟨c, hc, h⟩
    have := congrArg (fun y : Vec 2 => y 0) h
    simp at this
    linarith
  have hnormal : disc.normal (!₂[1, 0] : Vec 2) = !₂[1, 0] := by
    change (1 / ‖_‖) • _ = _; rw [norm_e0]; simp
  have hn : disc.normal (!₂[1, 0] : Vec 2) ≠ 0 := by
    rw [hnormal]; intro h; have := norm_e0; rw [h] at this; simp at this
  have hfirst : (⟨disc.normal !₂[1, 0], !(disc : Obstacle 2).isBoundary⟩ : NullBase 2).first = !₂[-1, 0] := by
    change (⟨disc.normal !₂[1, 0], true⟩ : NullBase 2).first = _
    simp only [NullBase.first, hnormal, norm_e0]
    ext i; fin_cases i <;> simp
  have hto : towards disc !₂[1, 0] = !₂[-1, 0] := by
    rw [disc_towards, norm_e0]
    ext i; fin_cases i <;> simp
  have htan : pseudoTangent planar discAvoider.rotation !₂[-1, 0]
      (towards disc !₂[1, 0]) ⟨disc.normal !₂[1, 0], !(disc : Obstacle 2).isBoundary⟩ = .ok !₂[0, -1] := by
    unfold pseudoTangent
    rw [if_neg]
    · unfold tangentConvergence
      rw [hto, sub_self, norm_zero, if_pos rfl, dif_pos (by norm_num)]
      change Except.ok (Real.cos ((EuclideanSpace.single 0 (Real.pi / 2) : Vec 1) 0) • _ + _) = _
      rw [hfirst]
      have : (EuclideanSpace.single 0 (Real.pi / 2) : Vec 1) 0 = Real.pi / 2 := by simp
      rw [this, Real.cos_pi_div_two]
      change Except.ok (_ + Real.sin ((EuclideanSpace.single 0 (Real.pi / 2) : Vec 1) 0) • perp _) = _
      rw [this, Real.sin_pi_div_two]
      congr 1
      ext i; fin_cases i <;> simp [perp]
    · rintro ⟨h, _⟩
      rw [planar_sane.toAngle_norm _ _ hn he0, hfirst, InnerProductGeometry.angle_self he0] at h
      change (0 : ℝ) ≥ Real.pi / 2 at h
      linarith [Real.pi_pos]
  have hR : ¬ discAvoider.rotation.convergenceRadius > Real.pi * 0.5 := by
    change ¬ Real.pi / 2 > Real.pi * 0.5
    intro h
    norm_num at h
    linarith [Real.pi_pos]
  have hos : ProperObstacles planar discAvoider.rotation !₂[1, 0] [q] [disc] := by
    constructor
    · intro o ho
      rw [List.mem_singleton] at ho
      subst ho
      exact hn
    · intro e he o ho
      rw [List.mem_singleton] at ho
      subst ho
      rw [hend] at he
      injection he with he
      subst he
      intro t ht
      rw [htan] at ht
      injection ht with ht
      subst ht
      refine ⟨fun _ => ?_, fun h => absurd h hR⟩
      rw [unit_of_norm_one norm_e1n]
      exact neighbours_of_coord 0 (not_close (by simp) (by simp)) (by rw [vec2_inner]; simp) he0
  have hspeed : discAvoider.speed !₂[1, 0] = 2 := leftwards_norm
  have hsit : Situation planar discAvoider !₂[1, 0] !₂[-1, 0] ⟨[disc], none, none⟩ s [q] 1 :=
    ⟨planar_sane, by rw [hspeed]; norm_num, rfl, hs _, by norm_num, hprop, hconv, c1, hpairs, hos,
      by change (0 : ℝ) ≤ 0.3; norm_num⟩
  have hu : usedGamma (!₂[1, 0] : Vec 2) disc = 1 := by
    unfold usedGamma; rw [hg]; simp
  obtain ⟨v, hv⟩ := C96_total planar discAvoider _ _ _ _ _ _ _ hsit hend (by
    intro o ho
    rw [List.mem_singleton] at ho
    subst ho
    refine ⟨⟨1, ?_⟩, ⟨_, htan⟩, fun h => absurd h hR⟩
    rw [hu]
    exact continuation_surface (by norm_num) (le_refl _))
  refine ⟨v, hv, ?_, ?_⟩
  · rw [C96_speed _ _ _ _ _ _ _ _ _ hsit hv, hspeed]; norm_num
  · exact C96_contact_partial _ _ _ _ _ _ _ _ _ hsit [] [] disc rfl hg.le (by intro _; rw [hg]; norm_num)
      (by simp) (by rw [hspeed]; norm_num) (le_refl _) (by change Real.pi / 2 ≤ Real.pi; linarith [Real.pi_pos]) hv

/-- Without obstacles the hypotheses of `C96_undisturbed` are met, and the velocity is the initial one. -/
example (x : Vec 2) : evaluateSequence planar (create leftwards none ⟨[], none, none⟩ (withoutSingularity leftwards)) x
    = .ok !₂[-2, 0] := by
  obtain ⟨s, hs, hprop, hsend⟩ := leftwards_sequence
  obtain ⟨conv, e, c1, c2, c3, ⟨c4, c5⟩, c6, c7, c8⟩ := C96_convergence planar.argsort planar_sane.argsort
    (withoutSingularity leftwards) [] x !₂[-1, 0] s 1 (by norm_num) hprop (by intro o ho; simp at ho)
  have hend : conv.getEndVector = .ok !₂[-1, 0] := by
    obtain ⟨conv', d1, d2⟩ := (C96_convergence_extremes planar.argsort planar_sane.argsort
      (withoutSingularity leftwards) [] x !₂[-1, 0] s 1 (by norm_num) hprop (by intro o ho; simp at ho)).1 (by simp)
    rw [c1] at d1
    injection d1 with d1
    rw [d1, d2, hsend]
  obtain ⟨q, rfl⟩ : ∃ q, conv = [q] := by
    have := List.length_pos_of_ne_nil c4
    exact List.length_eq_one_iff.mp (by omega)
  have hpairs : ∀ r ∈ [q], Neighbours r.getFirstVector r.getSecondVector := by
    intro r hr
    rw [List.mem_singleton] at hr
    subst hr
    have h1 : r.getFirstVector = !₂[-1, 0] := c5
    have h3 : r.getSecondVector = !₂[-1, 0] := by
      rw [endVector_of_ne _ (by simp)] at hend
      injection hend with hend
    rw [h1, h3]
    refine ⟨?_, Or.inl rfl⟩
    rintro ⟨c, hc, h⟩
    have := congrArg (fun y : Vec 2 => y 0) h
    simp at this
    linarith
  have hspeed : (create leftwards none ⟨[], none, none⟩ (withoutSingularity leftwards)).speed x = 2 := leftwards_norm
  have hsit : Situation planar (create leftwards none ⟨[], none, none⟩ (withoutSingularity leftwards)) x
      !₂[-1, 0] ⟨[], none, none⟩ s [q] 1 :=
    ⟨planar_sane, by rw [hspeed]; norm_num, rfl, hs _, by norm_num, hprop, by intro o ho; simp at ho, c1, hpairs,
      ⟨by simp, by intro e _ o ho; simp at ho⟩, by change (0 : ℝ) ≤ 0.3; norm_num⟩
  obtain ⟨v, hv⟩ := C96_total planar _ _ _ _ _ _ _ _ hsit hend (by intro o ho; simp at ho)
  obtain ⟨y, _, _, h⟩ := C96_undisturbed planar _ _ _ _ _ _ _ _ _ hsit hend (by intro o ho; simp at ho) hv
  rw [hv, h rfl rfl (List.isChain_pair.mpr (Or.inl rfl))]
  rfl

/-- The dynamics straight to an attractor. -/
noncomputable def straightTo (p : Vec 2) : Dynamics 2 where
  evaluate := fun x => p - x
  attractorPosition := some p
  ownSequence := none

lemma straight_sequence (p x : Vec 2) (h : 1e-8 < ‖p - x‖) :
    ∃ s, evaluateDynamicsSequence x (straightTo p) = .ok (some s) := by
  have h0 : ‖p - x‖ ≠ 0 := by
    intro h'; rw [h'] at h; norm_num at h
  obtain ⟨s, hs⟩ := (C10_accepts_iff (d := 2) [p - x, p - x]).mpr ⟨by
    intro v hv
    simp only [List.mem_cons, List.not_mem_nil, or_false, or_self] at hv
    rw [hv]; exact h, by
    intro i hi
    have : i = 0 := by simp at hi; omega
    subst this
    rintro ⟨c, hc, h⟩
    simp only [List.getElem_cons_zero, List.getElem_cons_succ] at h
    have := congrArg (fun y : Vec 2 => ⟪p - x, y⟫) h
    simp only [inner_smul_right, real_inner_self_eq_norm_sq] at this
    have : 0 < ‖p - x‖ ^ 2 := by positivity
    nlinarith⟩
  refine ⟨s, ?_⟩
  rw [evaluateDynamicsSequence_eq x (straightTo p) none rfl]
  have h1 : referenceDirection x (straightTo p) none = p - x := rfl
  have h3 : (straightTo p).evaluate x = p - x := rfl
  rw [h1, h3, if_neg (by simpa using h0), hs]

/-- The defect of `C96_mismatch` and `C96_without_singularity` occurs: attractor at the origin, position on the
first axis, obstacle on the second axis. -/
example : evaluateSequence planar (create (straightTo 0) none ⟨[{ disc with referencePoint := !₂[0, 1] }], none, none⟩
    (withoutSingularity (straightTo 0))) !₂[1, 0] = .error .valueError := by
  have n0 : (0 : Vec 2) - !₂[1, 0] = !₂[-1, 0] := by ext i; fin_cases i <;> simp
  have n1 : (0 : Vec 2) - !₂[0, 1] = !₂[0, -1] := by ext i; fin_cases i <;> simp
  obtain ⟨s, hs⟩ := straight_sequence 0 !₂[1, 0] (by rw [n0, norm_e0n]; norm_num)
  obtain ⟨so, hso⟩ := straight_sequence 0 !₂[0, 1] (by rw [n1, norm_e1n]; norm_num)
  refine C96_without_singularity planar _ _ 0 _ _ [] s so rfl rfl rfl rfl rfl ?_ hs
    (List.isChain_pair.mpr (Or.inl rfl)) hso ?_
  · change ‖(0 : Vec 2) - !₂[1, 0]‖ ≠ 0
    rw [n0, norm_e0n]; norm_num
  · change ¬ allclose (unit ((0 : Vec 2) - !₂[0, 1])) (unit ((0 : Vec 2) - !₂[1, 0]))
    rw [n0, n1, unit_of_norm_one norm_e0n, unit_of_norm_one norm_e1n]
    intro h
    exact not_close (by simp) (by simp) (h 0)

/-- Far from the disc the velocity is the initial one (`C96_evaluate_far`). -/
example : (evaluate planar discAvoider !₂[20, 0]).2 = .ok !₂[-2, 0] := by
  refine C96_evaluate_far planar discAvoider _ ⟨[disc], none, none⟩ _ _ rfl
    (by change (1 : ℝ) < 10; norm_num) (Or.inr ?_)
  intro o ho
  rw [List.mem_singleton] at ho
  subst ho
  change (10 : ℝ) ≤ ‖(!₂[20, 0] : Vec 2)‖
  rw [EuclideanSpace.norm_eq]
  simp only [Fin.sum_univ_two]
  rw [Real.le_sqrt (by norm_num) (by positivity)]
  simp
  norm_num

/-- A dynamics with different directions at the two reference points below. -/
noncomputable def bent : Dynamics 2 where
  evaluate := fun x => !₂[x 1 - 1, x 1]
  attractorPosition := none
  ownSequence := none

/-- The defect of `C96_wrong_obstacle` occurs: the disc is close, an obstacle before it in the list is far away.
The convergence direction is upwards as around the far obstacle, not leftwards as around the disc. -/
example : weightedDynamics planar.argsort (withoutSingularity bent)
      [{ disc with gamma := fun _ => 20, referencePoint := !₂[0, 1] }, disc] 10 !₂[1, 0] !₂[-1, 0] = .ok !₂[0, 1]
    ∧ (withoutSingularity bent).aroundObstacle !₂[1, 0] disc = .ok !₂[-1, 0] := by
  have hv : (!₂[(!₂[0, 1] : Vec 2) 1 - 1, (!₂[0, 1] : Vec 2) 1] : Vec 2) = !₂[0, 1] := by
    ext i; fin_cases i <;> simp
  have h0 : (!₂[0, 1] : Vec 2) ≠ 0 := by intro h; have := norm_e1; rw [h] at this; simp at this
  have he0 : (!₂[-1, 0] : Vec 2) ≠ 0 := by intro h; have := norm_e0n; rw [h] at this; simp at this
  constructor
  · have := C96_wrong_obstacle planar.argsort planar_sane.argsort (withoutSingularity bent)
      [{ disc with gamma := fun _ => 20, referencePoint := !₂[0, 1] }] [] disc _ 10 !₂[1, 0] !₂[-1, 0]
      !₂[0, 1] norm_e0n rfl (by norm_num) (by change ‖_‖ < _; rw [norm_e0]; norm_num) (by
        intro o ho
        simp only [List.append_nil, List.mem_singleton] at ho
        subst ho
        norm_num) (congrArg Except.ok hv) h0 (by
        rw [unit_of_norm_one norm_e1]
        exact neighbours_of_coord 0 (not_close (by simp) (by simp)) (by rw [vec2_inner]; simp) he0)
    rw [unit_of_norm_one norm_e1] at this
    exact this
  · change Except.ok _ = _
    congr 1
    ext i; fin_cases i <;> simp [bent, disc]

/-- The constant dynamics to the right with speed one half. -/
noncomputable def slowRight : Dynamics 2 where
  evaluate := fun _ => !₂[1 / 2, 0]
  attractorPosition := none
  ownSequence := none

/-- The violation in `C96_overrun` occurs: the unit disc moves to the right with speed one, the position on its
surface moves to the right with speed one half. -/
example : (evaluate { planar with relative := fun _ _ => !₂[1, 0] }
      (create slowRight none ⟨[disc], none, none⟩ (withoutSingularity slowRight)) !₂[1, 0]).2 = .ok !₂[1 / 2, 0]
    ∧ 0 < ⟪(!₂[1 / 2, 0] : Vec 2) - !₂[1, 0], inward disc !₂[1, 0]⟫ := by
  have hs : (!₂[1 / 2, 0] : Vec 2) = (1 / 2 : ℝ) • !₂[1, 0] := by
    ext i; fin_cases i <;> simp
  have hnorm : ‖(!₂[1 / 2, 0] : Vec 2)‖ = 1 / 2 := by
    rw [hs, norm_smul, norm_e0]; norm_num
  have hunit : unit (!₂[1 / 2, 0] : Vec 2) = !₂[1, 0] := by
    unfold unit
    rw [hnorm, hs, smul_smul]; norm_num
  have h0 : (!₂[1 / 2, 0] : Vec 2) ≠ 0 := by intro h; rw [h] at hnorm; norm_num at hnorm
  have hin : inward disc !₂[1, 0] = -!₂[1, 0] := by
    rw [disc_inward _ (by rw [norm_e0]; norm_num), norm_e0]
    ext i; fin_cases i <;> simp
  have hc := (C96_single planar.argsort planar_sane.argsort (withoutSingularity slowRight) disc 10 !₂[1, 0] !₂[1, 0]
    !₂[1 / 2, 0] norm_e0 (by norm_num) rfl h0 (by
      rw [hunit]
      refine ⟨?_, Or.inl rfl⟩
      rintro ⟨c, hc, h⟩
      have := congrArg (fun y : Vec 2 => y 0) h
      simp at this
      linarith)).1 (by change ‖_‖ < _; rw [norm_e0]; norm_num)
  rw [hunit] at hc
  exact C96_overrun _ (create slowRight none ⟨[disc], none, none⟩ (withoutSingularity slowRight)) !₂[1, 0]
    !₂[1, 0] ⟨[disc], none, none⟩ true none rfl disc h0 (by change ‖(!₂[1 / 2, 0] : Vec 2)‖ < 1; rw [hnorm]; norm_num)
    (by change weightedDynamics planar.argsort _ [disc] 10 _ (unit (!₂[1 / 2, 0] : Vec 2)) = _; rw [hunit]; exact hc)
    (by change (!₂[1, 0] : Vec 2) = unit !₂[1 / 2, 0]; rw [hunit])
    (by change _ = -unit (!₂[1 / 2, 0] : Vec 2); rw [hunit]; exact hin)

end Verif.Nonlinear
