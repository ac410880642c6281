import Verif.Lemmas.SequenceTurn
import Verif.Lemmas.ConvergenceBranches
import Verif.Lemmas.AvoiderTurn
import Verif.Props.TreeMean

/-!
# The direction of convergence in turned coordinates
-/

open scoped RealInnerProductSpace

namespace Verif
open Spec TreeTurn

variable {d k : ℕ} [h2 : Fact (2 ≤ d)] {R : Vec d ≃ₗᵢ[ℝ] Vec d}
set_option linter.unusedSectionVars false

/-- Two optional sequences: none, or turned. -/
def OptTurned (R : Vec d ≃ₗᵢ[ℝ] Vec d) : Option (RotSeq (Vec d)) → Option (RotSeq (Vec d)) → Prop
  | none, none => True
  | some s, some s' => SeqTurned R s s'
  | _, _ => False

lemma neighbour_turn {a b : Vec d} (ha : ‖a‖ = 1) (hb : ‖b‖ = 1) (hc : ClearlyApart a b) {o : Rot (Vec d)}
    (h : neighbourRotation a b = some o) : ∃ o', neighbourRotation (R a) (R b) = some o' ∧ RotTurned R o o' := by
  classical
  unfold neighbourRotation at h ⊢
  rcases clear_not_close hb hc with rfl | hn
  · rw [if_pos (allclose_refl _)] at h
    rw [if_pos (allclose_refl _)]
    cases h
    exact ⟨_, rfl, rfl, rfl, Or.inl rfl⟩
  · rw [if_neg hn] at h
    rcases clear_not_close (by rw [R.norm_map, hb]) (clear_turn (R := R) hc) with he | hn'
    · exact absurd (allclose_refl b) (by rw [R.injective he] at hn; exact hn)
    · rw [if_neg hn']
      have hv : R b - ⟪R b, R a⟫ • R a = R (b - ⟪b, a⟫ • a) := by
        rw [R.inner_map_map, map_sub, map_smul]
      have hn0 : ‖R b - ⟪R b, R a⟫ • R a‖ = ‖b - ⟪b, a⟫ • a‖ := by rw [hv, R.norm_map]
      simp only at h ⊢
      by_cases h0 : ‖b - ⟪b, a⟫ • a‖ = 0
      · rw [if_pos h0] at h; cases h
      · rw [if_neg h0] at h
        rw [if_neg (by rw [hn0]; exact h0)]
        cases h
        refine ⟨_, rfl, rfl, by simp only [R.inner_map_map], Or.inr ?_⟩
        simp only [hv, map_smul, R.norm_map]

/-- The sequence of the dynamics in turned coordinates. -/
lemma dynamics_turn {f : Dynamics d} {y : Vec d} (hc : ClearAt f y) {so : Option (RotSeq (Vec d))}
    (h : evaluateDynamicsSequence y f = .ok so) :
    ∃ so', evaluateDynamicsSequence (R y) (turnDynamics R f) = .ok so' ∧ OptTurned R so so' := by
  classical
  cases hown : f.ownSequence with
  | some g =>
    unfold evaluateDynamicsSequence at h ⊢
    rw [hown] at h
    have : (turnDynamics R f).ownSequence
        = some (fun z => (g (R.symm z)).map (fun q => q.map (fun l => l.map (turnRot R)))) := by
      simp [turnDynamics, hown]
    rw [this]
    simp only at h ⊢
    rw [R.symm_apply_apply, h]
    refine ⟨_, rfl, ?_⟩
    cases so with
    | none => trivial
    | some s => exact map_seqTurned s
  | none =>
    have hcl := hc hown
    have hown' : (turnDynamics R f).ownSequence = none := by simp [turnDynamics, hown]
    rw [evaluateDynamicsSequence_eq _ _ _ hown] at h
    rw [evaluateDynamicsSequence_eq _ _ _ hown']
    have hev : (turnDynamics R f).evaluate (R y) = R (f.evaluate y) := by simp [turnDynamics]
    have href : referenceDirection (R y) (turnDynamics R f) none = R (referenceDirection y f none) := by
      unfold referenceDirection
      simp only [turnDynamics]
      cases f.attractorPosition with
      | none => simp
      | some z => simp
    rw [hev, href]
    simp only [R.norm_map]
    set b := referenceDirection y f none with hb
    set v := f.evaluate y with hv
    by_cases h0 : ‖b‖ = 0 ∨ ‖v‖ = 0
    · rw [if_pos h0] at h ⊢
      cases h
      exact ⟨none, rfl, trivial⟩
    · rw [if_neg h0] at h ⊢
      push Not at h0
      have hb1 : ‖unit b‖ = 1 := unit_norm (norm_ne_zero_iff.mp h0.1)
      have hv1 : ‖unit v‖ = 1 := unit_norm (norm_ne_zero_iff.mp h0.2)
      unfold createFromVectorArray at h ⊢
      simp only [List.mem_cons, List.not_mem_nil, or_false, exists_eq_or_imp, exists_eq_left, R.norm_map, List.map_cons,
        List.map_nil, List.tail_cons, List.zip_cons_cons, List.zip_nil_right, List.mapM_cons, List.mapM_nil] at h ⊢
      have hbu : (1 / ‖b‖) • b = unit b := rfl
      have hvu : (1 / ‖v‖) • v = unit v := rfl
      have hbu' : (1 / ‖b‖) • R b = R (unit b) := by rw [← map_smul]; rfl
      have hvu' : (1 / ‖v‖) • R v = R (unit v) := by rw [← map_smul]; rfl
      rw [hbu, hvu] at h
      rw [hbu', hvu', R.inner_map_map]
      split_ifs at h ⊢ with h1 h3
      cases hn : neighbourRotation (unit b) (unit v) with
      | none => rw [hn] at h; cases h
      | some o =>
        obtain ⟨o', e1, e2⟩ := neighbour_turn (R := R) hb1 hv1 hcl hn
        rw [hn] at h
        rw [e1]
        cases h
        exact ⟨_, rfl, .cons e2 .nil⟩

/-- The first vector of the reduced sequence. -/
lemma reduce_head {t : Tree NodeId d} {r : NodeId} (h : RootedTree t r) (hg : GoodDirections t) {argsort : List ℤ → List ℕ}
    (has : ArgsortSpec argsort) (st : NodeState NodeId d) {ns : List NodeId} {ws : List ℝ} (ha : Args t r ns ws)
    (hpos : 0 < branchWeight t (ns.zip ws) r) {s : RotSeq (Vec d)}
    (hs : t.reduceWeightedToSequence argsort st ns ws = .ok s) : ∀ q ∈ s.head?, q.base.b0 = dirOf t r := by
  obtain ⟨s1, q1, v, e1, e2, e3, _, _⟩ := C27_connected_up_to_repetition_partial t r h hg.inner argsort has st ns ws ha.len
    ha.known ha.nonneg ha.le_one hpos
  rw [hs] at e1
  cases e1
  intro q hq
  rcases e2 with rfl | ⟨q0, Q, rfl, rfl⟩
  · cases s with
    | nil => cases hq
    | cons q' s =>
      have : q' = q := by simpa using hq
      subst this
      exact e3.1
  · cases q0 with
    | nil =>
      have : Q = q := by simpa using hq
      subst this
      exact e3.1
    | cons q' s =>
      have : q' = q := by simpa using hq
      subst this
      exact e3.1

/-- `vector_rotation_reduction` in turned coordinates. -/
lemma reduction_turn {argsort : List ℤ → List ℕ} (has : ArgsortSpec argsort) {s s' : RotSeq (Vec d)} (hs : SeqTurned R s s')
    (hs1 : ∀ q ∈ s.head?, ‖q.base.b0‖ = 1) {tr tr' : Option (Rot (Vec d))}
    (htr : SameTransform R (.ok tr) (.ok tr')) {so so' : Option (RotSeq (Vec d))} (hso : OptTurned R so so') {w : ℝ} (hw : w ≤ 1)
    (hred : ∀ o s2, tr = some o → so = some s2 → Continues o s2 ∧ ∀ t, ReductionTree s o s2 t → ClearDirections t)
    {c : RotSeq (Vec d)} (hok : vectorRotationReduction argsort s tr so w = .ok c) :
    (∃ c', vectorRotationReduction argsort s' tr' so' w = .ok c' ∧ SeqTurned R c c')
      ∧ ∀ q ∈ c.head?, ∀ p ∈ s.head?, q.base.b0 = p.base.b0 := by
  classical
  have hsame : ∀ q ∈ s.head?, ∀ p ∈ s.head?, q.base.b0 = p.base.b0 := by
    intro q hq p hp
    rw [hq] at hp
    cases hp; rfl
  unfold vectorRotationReduction at hok ⊢
  by_cases hw0 : w ≤ 0
  · rw [if_pos hw0] at hok ⊢
    cases hok
    exact ⟨⟨s', rfl, hs⟩, hsame⟩
  rw [if_neg hw0] at hok ⊢
  cases tr with
  | none =>
    cases tr' with
    | some o' => exact absurd htr id
    | none => cases hok; exact ⟨⟨s', rfl, hs⟩, hsame⟩
  | some o =>
    cases tr' with
    | none => exact absurd htr id
    | some o' =>
      have htr : RotTurned R o o' := htr
      simp only at hok ⊢
      obtain ⟨t1, e1, hok⟩ := bind_ok.mp hok
      obtain ⟨t2, e2, hok⟩ := bind_ok.mp hok
      cases so with
      | none => cases hok
      | some s2 =>
        cases so' with
        | none => exact absurd hso id
        | some s2' =>
          have hso : SeqTurned R s2 s2' := hso
          simp only at hok ⊢
          obtain ⟨t3, e3, hok⟩ := bind_ok.mp hok
          obtain ⟨e2a, e2b⟩ := orRaise_ok.mp e2
          obtain ⟨e3a, e3b⟩ := orRaise_ok.mp e3
          have e2' : t1.addNodeOrientation (.num (-1)) o (.num 0) = (t2, .ok ()) := Prod.ext e2a e2b
          have e3' : t2.addSequence interId (.num 2) s2 (.num (-1)) = (t3, .ok ()) := Prod.ext e3a e3b
          obtain ⟨hcont, hclear⟩ := hred o s2 rfl rfl
          have hcl := hclear t3 ⟨t1, t2, e1, e2', e3'⟩
          -- the tree
          have hr1 : RootedTree t1 (.num 0) ∧ NodeId.num 1 ∈ t1.nodes ∧ ∀ q ∈ s.head?, dirOf t1 (.num 0) = q.base.b0 := by
            unfold Tree.fromSequence at e1
            cases s with
            | nil => cases e1
            | cons q l =>
              obtain ⟨t0, a1, a2, a3, a4, a5⟩ := from_sequence_root (NodeId.num 0) q.base.b0 (hs1 q (by simp))
              simp only [a1] at e1
              cases hadd : t0.addSequence interId (.num 1) (q :: l) (.num 0) with
              | mk tt ee =>
                rw [hadd] at e1
                cases ee with
                | error e => cases e1
                | ok _ =>
                  cases e1
                  obtain ⟨b1, b2, b3, b4, _⟩ := addSequence_grows a2 hadd
                  refine ⟨b1, b4, ?_⟩
                  intro p hp
                  have : q = p := by simpa using hp
                  subst this
                  rw [b2.dirs _ (by rw [a3]; simp)]
                  unfold dirOf; rw [a5]; rfl
          have hf2 := addNode_full hr1.1 (t' := t2) (by
            have := e2
            unfold Tree.addNodeOrientation at this
            exact this)
          obtain ⟨f1, f2, f3, f4, f5, _⟩ := hf2
          obtain ⟨g1, g2, g3, g4, _⟩ := addSequence_grows f1 e3'
          have hmem1 : NodeId.num 1 ∈ t3.nodes := g2.nodes _ (f2.nodes _ hr1.2.1)
          have hroot := C20_root_total t3 (.num 0) g1 [.num 1, .num 2] [1 - w, w] rfl (by simp) (by
            intro n hn
            simp only [List.mem_cons, List.not_mem_nil, or_false] at hn
            rcases hn with rfl | rfl
            · exact hmem1
            · exact g4)
          have hnn : ∀ v ∈ [1 - w, w], 0 ≤ v := by
            intro v hv
            simp only [List.mem_cons, List.not_mem_nil, or_false] at hv
            rcases hv with rfl | rfl <;> linarith
          have hsum : branchWeight t3 ([NodeId.num 1, .num 2].zip [1 - w, w]) (.num 0) = 1 := by
            rw [hroot]; simp
          have hargs : Args t3 (.num 0) [.num 1, .num 2] [1 - w, w] := by
            refine ⟨rfl, ?_, hnn, ?_⟩
            · intro n hn
              simp only [List.mem_cons, List.not_mem_nil, or_false] at hn
              rcases hn with rfl | rfl
              · exact hmem1
              · exact g4
            · intro n hn _
              refine le_trans (branchWeight_le_root g1 _ (fun p hp => hnn _ (zip_fst_mem hp).2) hn) ?_
              rw [hsum]
          have hgd := clear_good g1 hcl
          obtain ⟨c0, d1, d2⟩ := reduce_turn (R := R) g1 hgd (clear_good (rooted g1) (clear_turnTree hcl)) has NodeState.init
            NodeState.init (ns := [.num 1, .num 2]) (ws := [1 - w, w]) rfl hargs.known (hargs.good g1)
            (by rw [hsum]; norm_num)
          rw [hok] at d1
          cases d1
          refine ⟨⟨_, ?_, map_seqTurned c⟩, ?_⟩
          · refine bind_ok.mpr ⟨turnTree R t1, by rw [fromSequence_turn _ _ hs hs1, e1]; rfl, ?_⟩
            refine bind_ok.mpr ⟨turnTree R t2, ?_, ?_⟩
            · rw [addNodeOrientation_turn _ _ _ htr, e2']; rfl
            · refine bind_ok.mpr ⟨turnTree R t3, ?_, d2⟩
              rw [addSequence_turn _ _ hso t2 (by
                intro q hq v hv
                have hh := hcont q hq
                have : v = unit o.getSecondVector := by
                  have h5 := f5
                  unfold dirOf at h5
                  rw [hv, rotate_first] at h5
                  simpa using h5
                rw [this]; exact hh), e3']
              rfl
          · intro q hq p hp
            rw [reduce_head g1 hgd has NodeState.init hargs (by rw [hsum]; norm_num) hok q hq,
              g2.dirs _ (f2.nodes _ hr1.1.root_mem), f2.dirs _ hr1.1.root_mem, hr1.2.2 p hp]

/-! ### The chain of parents -/

/-- The position, or the reference point of a component. -/
abbrev ChainPoint (x : Vec d) (ot : ObstacleTree d) (p : Vec d) : Prop :=
  p = x ∨ ∃ o' ∈ ot.components, p = o'.referencePoint

lemma parentChain_turn {a : Avoider d} {K : Convergence d} {x : Vec d} (hK : ConvergenceTurned R x a K) {ot : ObstacleTree d}
    (hot : ot ∈ a.trees) (i c : ℕ) :
    ∀ (fuel pp iObs : ℕ) (pred : NodeId) (p : Vec d) (t : Tree NodeId d), ChainPoint x ot p →
      parentChain (turnedAvoider R a K) (turnObstacles R ot) i c fuel pp iObs pred (R p) (turnTree R t)
        = (parentChain a ot i c fuel pp iObs pred p t).map (fun q => (turnTree R q.1, q.2)) := by
  intro fuel
  induction fuel with
  | zero => intros; rfl
  | succ fuel ih =>
    intro pp iObs pred p t hp
    unfold parentChain
    rw [turn_component]
    cases hc : ot.getComponent iObs with
    | error e => rfl
    | ok o =>
      have ho := component_mem hc
      simp only [bind, Except.bind, Except.map]
      have hb := hK.between ot hot o ho p hp
      rw [show (turnedAvoider R a K).convergence.startToEnd (R p) (turnObstacle R o).referencePoint
        (turnedAvoider R a K).initial.attractorPosition
          = K.startToEnd (R p) (R o.referencePoint) (a.initial.attractorPosition.map R) from rfl]
      cases h1 : a.convergence.startToEnd p o.referencePoint a.initial.attractorPosition with
      | error e =>
        cases h1' : K.startToEnd (R p) (R o.referencePoint) (a.initial.attractorPosition.map R) with
        | error e' => rw [h1, h1'] at hb; cases hb; rfl
        | ok v => rw [h1, h1'] at hb; exact absurd hb id
      | ok v =>
        cases h1' : K.startToEnd (R p) (R o.referencePoint) (a.initial.attractorPosition.map R) with
        | error e' => rw [h1, h1'] at hb; cases v <;> exact absurd hb id
        | ok v' =>
          rw [h1, h1'] at hb
          cases v with
          | none =>
            cases v' with
            | none => rfl
            | some _ => exact absurd hb id
          | some tr =>
            cases v' with
            | none => exact absurd hb id
            | some tr' =>
              have hb : RotTurned R tr tr' := hb
              simp only
              rw [addNodeOrientation_turn _ _ _ hb]
              cases hadd : t.addNodeOrientation (.key i c pp) tr pred with
              | mk t1 e1 =>
                cases e1 with
                | error e => rfl
                | ok _ =>
                  simp only [turnOutcome, orRaise]
                  rw [show (turnObstacles R ot).parentIdx iObs = ot.parentIdx iObs from rfl]
                  cases ot.parentIdx iObs with
                  | none => rfl
                  | some parent => exact ih _ _ _ _ _ (Or.inr ⟨o, ho, rfl⟩)

/-- The chain ends at a component without parent. -/
lemma parentChain_end {a : Avoider d} {x : Vec d} {ot : ObstacleTree d} {i c : ℕ} {r : NodeId} :
    ∀ (fuel pp iObs : ℕ) (pred : NodeId) (p : Vec d) (t t' : Tree NodeId d) (n : NodeId) (l : ℤ), RootedTree t r →
      ChainPoint x ot p → t.level pred = some l → 100 ≤ l + fuel → pred ∈ t.nodes →
      parentChain a ot i c fuel pp iObs pred p t = .ok (t', n) →
      ∃ (j : ℕ) (o : Obstacle d) (q : Vec d) (tr : Rot (Vec d)), ot.components[j]? = some o ∧ ot.parentIdx j = none
        ∧ ChainPoint x ot q
        ∧ a.convergence.startToEnd q o.referencePoint a.initial.attractorPosition = .ok (some tr)
        ∧ dirOf t' n = unit tr.getSecondVector := by
  intro fuel
  induction fuel with
  | zero =>
    intro pp iObs pred p t t' n l h hp hl hle hpred hok
    obtain ⟨l', h1, h2⟩ := h.level_bound pred hpred
    rw [hl] at h1
    cases h1
    simp at hle
    omega
  | succ fuel ih =>
    intro pp iObs pred p t t' n l h hp hl hle hpred hok
    unfold parentChain at hok
    obtain ⟨o, ho, hok⟩ := bind_ok.mp hok
    obtain ⟨tr, htr, hok⟩ := bind_ok.mp hok
    cases tr with
    | none => cases hok
    | some trafo =>
      obtain ⟨t1, h1, hok⟩ := bind_ok.mp hok
      have hf := addNode_full h h1
      have hoc : ot.components[iObs]? = some o := by
        unfold ObstacleTree.getComponent at ho
        cases hj : ot.components[iObs]? with
        | none => rw [hj] at ho; cases ho
        | some o' => rw [hj] at ho; cases ho; rfl
      cases hpar : ot.parentIdx iObs with
      | none =>
        rw [hpar] at hok
        cases hok
        refine ⟨iObs, o, p, trafo, hoc, hpar, hp, htr, ?_⟩
        rw [hf.2.2.2.2.1, rotate_first]
      | some parent =>
        rw [hpar] at hok
        have hlev : t1.level (.key i c pp) = some (l + 1) := by
          obtain ⟨l', g1, g2⟩ := hf.1.child_level _ _ hf.2.2.2.1
          obtain ⟨k1, k2⟩ := orRaise_ok.mp h1
          have hne : pred ≠ .key i c pp := fun e => hf.2.2.1 (e ▸ hpred)
          have := ((C17_add_node_effect t r h _ _ _ k2).2.2.2.1 pred hne).2
          have h3 : t1.level pred = t.level pred := by rw [← k1]; exact this
          rw [h3, hl] at g1
          cases g1
          exact g2
        exact ih _ _ _ _ _ _ _ _ hf.1 (Or.inr ⟨o, component_mem ho, rfl⟩) hlev (by push_cast at hle; linarith)
          (hf.1.edge_snd _ _ hf.2.2.2.1) hok

/-! ### The tree of convergence directions -/

lemma foldlM_sim {α α' β β' : Type} {f : β → α → Except PyErr β} {f' : β' → α' → Except PyErr β'} (Inv : β → Prop)
    (T : β → β') (g : α → α') (l : List α)
    (h : ∀ y ∈ l, ∀ b b', Inv b → f b y = .ok b' → Inv b' ∧ f' (T b) (g y) = .ok (T b')) :
    ∀ (b b' : β), Inv b → l.foldlM f b = .ok b' → Inv b' ∧ (l.map g).foldlM f' (T b) = .ok (T b') := by
  induction l with
  | nil =>
    intro b b' hb hok
    cases hok
    exact ⟨hb, rfl⟩
  | cons y l ih =>
    intro b b' hb hok
    rw [List.foldlM_cons] at hok
    obtain ⟨b1, h1, h2⟩ := bind_ok.mp hok
    obtain ⟨i1, i2⟩ := h y (by simp) b b1 hb h1
    obtain ⟨j1, j2⟩ := ih (fun z hz => h z (by simp [hz])) b1 b' i1 h2
    refine ⟨j1, ?_⟩
    rw [List.map_cons, List.foldlM_cons]
    exact bind_ok.mpr ⟨_, i2, j2⟩

/-- The loop variables in turned coordinates. -/
noncomputable def turnState (R : Vec d ≃ₗᵢ[ℝ] Vec d) (st : ConvState d) : ConvState d :=
  ⟨turnTree R st.tree, st.nodes, st.weights⟩

lemma convComponent_turn {a : Avoider d} {K : Convergence d} {x : Vec d} (hK : ConvergenceTurned R x a K)
    {ot : ObstacleTree d} (hot : ot ∈ a.trees) {i : ℕ} {tw : ℝ} {conv conv' : Option (RotSeq (Vec d))}
    (hconv : OptTurned R conv conv') (hroots : ∀ c < ot.components.length, ot.parentIdx c = none → c = ot.rootIdx)
    (hchain : ∀ root ∈ ot.components[ot.rootIdx]?, ∀ p, ChainPoint x ot p → ∀ r s2,
      a.convergence.startToEnd p root.referencePoint a.initial.attractorPosition = .ok (some r) → conv = some s2 →
      Continues r s2)
    {st st' : ConvState d} (hst : RootedTree st.tree (.num (-10))) {c : Obstacle d × ℕ} (hc : c ∈ ot.components.zipIdx)
    (hok : convComponent a x i ot tw conv st c = .ok st') :
    convComponent (turnedAvoider R a K) (R x) i (turnObstacles R ot) tw conv' (turnState R st) (Prod.map (turnObstacle R) id c)
      = .ok (turnState R st') := by
  classical
  have hcm : c.1 ∈ ot.components := by
    have := List.mem_zipIdx_iff_getElem?.mp hc
    exact List.mem_of_getElem? this
  unfold convComponent at hok ⊢
  change (if c.2 = ot.rootIdx then _ else _) = _
  by_cases h0 : c.2 = ot.rootIdx
  · rw [if_pos h0] at hok ⊢
    cases hok; rfl
  rw [if_neg h0] at hok ⊢
  obtain ⟨w, hw, hok⟩ := bind_ok.mp hok
  have hw' : K.projectedWeight (R x) (turnObstacle R c.1) = .ok w := by rw [hK.weight ot hot c.1 hcm]; exact hw
  refine bind_ok.mpr ⟨w, hw', ?_⟩
  by_cases h1 : w ≤ 1e-2
  · rw [if_pos h1] at hok ⊢
    cases hok; rfl
  rw [if_neg h1] at hok ⊢
  obtain ⟨⟨t1, pred⟩, hch, hok⟩ := bind_ok.mp hok
  have hch' := parentChain_turn hK hot i c.2 100 0 c.2 (.num (-10)) x st.tree (Or.inl rfl)
  rw [hch] at hch'
  refine bind_ok.mpr ⟨(turnTree R t1, pred), hch', ?_⟩
  obtain ⟨j, o, q, tr, j1, j2, j3, j4, j5⟩ := parentChain_end 100 0 c.2 (.num (-10)) x st.tree t1 pred 0 hst (Or.inl rfl)
    hst.root_level (by norm_num) hst.root_mem hch
  have hjr : j = ot.rootIdx := hroots j (List.getElem?_eq_some_iff.mp j1).1 j2
  subst hjr
  cases conv with
  | none => cases hok
  | some s2 =>
    cases conv' with
    | none => exact absurd hconv id
    | some s2' =>
      have hconv : SeqTurned R s2 s2' := hconv
      have hcont := hchain o j1 q j3 tr s2 j4 rfl
      simp only at hok ⊢
      rw [addSequence_turn _ _ hconv t1 (by
        intro q1 hq1 v hv
        have : v = unit tr.getSecondVector := by
          have h5 := j5
          unfold dirOf at h5
          rw [hv] at h5
          simpa using h5
        rw [this]; exact hcont q1 hq1)]
      simp only [Prod.map_snd, id]
      cases hadd : t1.addSequence interId (.pair (.num i) c.2) s2 pred with
      | mk t2 e2 =>
        rw [hadd] at hok
        cases e2 with
        | error e => cases hok
        | ok _ => cases hok; rfl

lemma convComponent_rooted {a : Avoider d} {x : Vec d} {ot : ObstacleTree d} {i : ℕ} {tw : ℝ}
    {conv : Option (RotSeq (Vec d))} {st st' : ConvState d} (hst : RootedTree st.tree (.num (-10))) {c : Obstacle d × ℕ}
    (hok : convComponent a x i ot tw conv st c = .ok st') :
    RootedTree st'.tree (.num (-10)) ∧ Grows st.tree st'.tree := by
  classical
  unfold convComponent at hok
  split_ifs at hok with h0
  · cases hok; exact ⟨hst, Grows.refl _⟩
  obtain ⟨w, _, hok⟩ := bind_ok.mp hok
  split_ifs at hok with h1
  · cases hok; exact ⟨hst, Grows.refl _⟩
  obtain ⟨⟨t1, pred⟩, hch, hok⟩ := bind_ok.mp hok
  obtain ⟨g1, g2⟩ := parentChain_grows _ _ _ _ _ _ _ _ hst hch
  cases conv with
  | none => cases hok
  | some s2 =>
    simp only at hok
    cases hadd : t1.addSequence interId (.pair (.num i) c.2) s2 pred with
    | mk t2 e2 =>
      rw [hadd] at hok
      cases e2 with
      | error e => cases hok
      | ok _ =>
        cases hok
        obtain ⟨k1, k2, _⟩ := addSequence_grows g1 hadd
        exact ⟨k1, g2.trans k2⟩

lemma treeWeight_turn (a : Avoider d) (K : Convergence d) (ot : ObstacleTree d) :
    treeWeight (turnedAvoider R a K) (turnObstacles R ot) = treeWeight a ot := by
  unfold treeWeight
  rw [show (turnedAvoider R a K).initial.attractorPosition = a.initial.attractorPosition.map R from rfl]
  cases a.initial.attractorPosition with
  | none => rfl
  | some z => simp only [Option.map_some, turn_gamma]

/-- What holds for the tree during the loop over the obstacles. -/
def ConvLoopInv (s : RotSeq (Vec d)) (st : ConvState d) : Prop :=
  RootedTree st.tree (.num (-10)) ∧ ∀ q ∈ s.head?, dirOf st.tree (.num (-10)) = q.base.b0

lemma convTree_turn {ext : Ext d k} (has : ArgsortSpec ext.argsort) {a : Avoider d} {K : Convergence d} {x : Vec d}
    (hK : ConvergenceTurned R x a K) {s s' : RotSeq (Vec d)} (hs : SeqTurned R s s') (hne : s ≠ [])
    (hcl : ClearConvergence ext a x s) {st st' : ConvState d} (hst : ConvLoopInv s st) {p : ObstacleTree d × ℕ} (hp : p ∈ a.trees.zipIdx)
    (hok : convTree ext a x s st p = .ok st') :
    ConvLoopInv s st' ∧ convTree ext (turnedAvoider R a K) (R x) s' (turnState R st) (Prod.map (turnObstacles R) id p)
      = .ok (turnState R st') := by
  classical
  have hot : p.1 ∈ a.trees := List.mem_of_getElem? (List.mem_zipIdx_iff_getElem?.mp hp)
  unfold convTree at hok ⊢
  obtain ⟨tw, htw, hok⟩ := bind_ok.mp hok
  simp only [Prod.map_fst, Prod.map_snd, id]
  rw [treeWeight_turn, htw]
  simp only [bind, Except.bind] at hok ⊢
  by_cases h0 : tw ≤ 1e-6
  · rw [if_pos h0] at hok ⊢
    cases hok
    exact ⟨hst, rfl⟩
  rw [if_neg h0] at hok ⊢
  have hact : Active a p.1 := ⟨tw, htw, not_le.mp h0⟩
  rw [show (turnObstacles R p.1).rootIdx = p.1.rootIdx from rfl, turn_component]
  cases hroot : p.1.getComponent p.1.rootIdx with
  | error e => rw [hroot] at hok; cases hok
  | ok root =>
    have hrm := component_mem hroot
    have hroot' : root ∈ p.1.components[p.1.rootIdx]? := by
      unfold ObstacleTree.getComponent at hroot
      cases hj : p.1.components[p.1.rootIdx]? with
      | none => rw [hj] at hroot; cases hroot
      | some o' => rw [hj] at hroot; cases hroot; rfl
    rw [hroot] at hok
    simp only [Except.map] at hok ⊢
    rw [show (turnedAvoider R a K).convergence.projectedWeight (R x) (turnObstacle R root)
        = a.convergence.projectedWeight x root from hK.weight _ hot _ hrm]
    cases hw : a.convergence.projectedWeight x root with
    | error e => rw [hw] at hok; cases hok
    | ok w =>
      rw [hw] at hok
      simp only at hok ⊢
      have hpos := hK.position _ hot _ hrm
      rw [show (turnedAvoider R a K).convergence.positionToTransform (R x) (turnObstacle R root)
        = K.positionToTransform (R x) (turnObstacle R root) from rfl]
      cases htr : a.convergence.positionToTransform x root with
      | error e => rw [htr] at hok; cases hok
      | ok tr =>
        cases htr' : K.positionToTransform (R x) (turnObstacle R root) with
        | error e => rw [htr, htr'] at hpos; cases tr <;> exact absurd hpos id
        | ok tr' =>
          rw [htr, htr'] at hpos
          rw [htr] at hok
          simp only at hok ⊢
          have hconvOf : (turnedAvoider R a K).default.getD (turnedAvoider R a K).initial
              = turnDynamics R (convergenceOf a) := by
            unfold convergenceOf turnedAvoider
            cases a.default <;> rfl
          rw [hconvOf, show (turnObstacle R root).referencePoint = R root.referencePoint from rfl]
          rw [show a.default.getD a.initial = convergenceOf a from rfl] at hok
          cases hev : evaluateDynamicsSequence root.referencePoint (convergenceOf a) with
          | error e => rw [hev] at hok; cases hok
          | ok conv =>
            obtain ⟨conv', hev', hoc⟩ := dynamics_turn (R := R) (hcl.dynamics _ hot hact root hroot') hev
            rw [hev] at hok
            rw [hev']
            simp only at hok ⊢
            cases hred : vectorRotationReduction ext.argsort s tr conv w with
            | error e => rw [hred] at hok; cases hok
            | ok cont =>
              obtain ⟨⟨cont', hred', hct⟩, hhead⟩ := reduction_turn has hs hcl.first hpos hoc (hcl.weight _ hot hact root hroot' w hw)
                (fun o s2 e1 e2 => hcl.reduction _ hot hact root hroot' o s2 (by rw [htr, e1]) (by rw [hev, e2])) hred
              rw [hred] at hok
              rw [hred']
              simp only at hok ⊢
              have hadd' := addSequence_turn (R := R) (.pair (.num p.2) p.1.rootIdx) (.num (-10)) hct st.tree (by
                intro q hq v hv
                obtain ⟨q0, l0, rfl⟩ := List.exists_cons_of_ne_nil hne
                have e1 := hhead q hq q0 (by simp)
                have e2 := hst.2 q0 (by simp)
                have e3 : v = q0.base.b0 := by
                  rw [← e2]; unfold dirOf; rw [hv]; rfl
                rw [e1, e3, sub_self, norm_zero]
                norm_num)
              rw [show (turnState R st).tree = turnTree R st.tree from rfl, hadd']
              cases hadd : st.tree.addSequence interId (.pair (.num p.2) p.1.rootIdx) cont (.num (-10)) with
              | mk t1 e1 =>
                rw [hadd] at hok
                cases e1 with
                | error e => cases hok
                | ok _ =>
                  simp only [orRaise, turnOutcome] at hok ⊢
                  obtain ⟨k1, k2, _⟩ := addSequence_grows hst.1 hadd
                  set st1 : ConvState d := if w > 1e-6 then ⟨t1, st.nodes ++ [.pair (.num p.2) p.1.rootIdx], st.weights ++ [w * tw]⟩
                    else ⟨t1, st.nodes, st.weights⟩ with hst1
                  have htree : st1.tree = t1 := by rw [hst1]; split_ifs <;> rfl
                  have hinv1 : ConvLoopInv s st1 := by
                    refine ⟨by rw [htree]; exact k1, ?_⟩
                    intro q hq
                    rw [htree, k2.dirs _ hst.1.root_mem]
                    exact hst.2 q hq
                  have hturn : (if w > 1e-6 then (⟨turnTree R t1, (turnState R st).nodes ++ [.pair (.num p.2) p.1.rootIdx],
                      (turnState R st).weights ++ [w * tw]⟩ : ConvState d)
                    else ⟨turnTree R t1, (turnState R st).nodes, (turnState R st).weights⟩) = turnState R st1 := by
                    rw [hst1]
                    split_ifs <;> rfl
                  rw [hturn, turn_zipIdx]
                  refine foldlM_sim (ConvLoopInv s) (turnState R) _ _ ?_ st1 st' hinv1 hok
                  intro c hc b b' hb hstep
                  obtain ⟨m1, m2⟩ := convComponent_rooted hb.1 hstep
                  refine ⟨⟨m1, fun q hq => by rw [m2.dirs _ hb.1.root_mem]; exact hb.2 q hq⟩, ?_⟩
                  exact convComponent_turn hK hot hoc (hcl.roots _ hot)
                    (fun root' hr' p' hp' r s2 e1 e2 => hcl.chain _ hot hact root' hr' p' hp' r s2 e1 (by
                      have : root' = root := by
                        rw [hroot'] at hr'
                        cases hr'; rfl
                      rw [this, hev, e2])) hb.1 hc hstep

/-- The direction of convergence in turned coordinates. -/
lemma convergence_turn {ext : Ext d k} (has : ArgsortSpec ext.argsort) {a : Avoider d} {K : Convergence d} {x : Vec d}
    (hK : ConvergenceTurned R x a K) {s s' : RotSeq (Vec d)} (hs : SeqTurned R s s') (hcl : ClearConvergence ext a x s)
    {conv : RotSeq (Vec d)} (hok : computeConvergenceSequence ext a x s = .ok conv) :
    computeConvergenceSequence ext (turnedAvoider R a K) (R x) s' = .ok (conv.map (turnRot R)) := by
  unfold computeConvergenceSequence at hok ⊢
  obtain ⟨t0, ht0, hok⟩ := bind_ok.mp hok
  obtain ⟨st, hst, hok⟩ := bind_ok.mp hok
  have hne : s ≠ [] := by
    rintro rfl
    unfold Tree.fromSequence at ht0
    cases ht0
  have hinv : ConvLoopInv s ⟨t0, [], []⟩ := by
    refine ⟨(fromSequence_facts ht0).1, ?_⟩
    intro q hq
    obtain ⟨q0, l0, rfl⟩ := List.exists_cons_of_ne_nil hne
    have : q0 = q := by simpa using hq
    subst this
    unfold Tree.fromSequence at ht0
    obtain ⟨t1, a1, a2, a3, a4, a5⟩ := from_sequence_root (NodeId.num (-10)) q0.base.b0 (hcl.first q0 (by simp))
    simp only [a1] at ht0
    cases hadd : t1.addSequence interId (.num (-1)) (q0 :: l0) (.num (-10)) with
    | mk t2 e2 =>
      rw [hadd] at ht0
      cases e2 with
      | error e => cases ht0
      | ok _ =>
        cases ht0
        obtain ⟨b1, b2, _⟩ := addSequence_grows a2 hadd
        change dirOf t0 _ = _
        rw [b2.dirs _ a2.root_mem]
        unfold dirOf; rw [a5]; rfl
  refine bind_ok.mpr ⟨turnTree R t0, by rw [fromSequence_turn _ _ hs hcl.first, ht0]; rfl, ?_⟩
  have hzip : (turnedAvoider R a K).trees.zipIdx = a.trees.zipIdx.map (Prod.map (turnObstacles R) id) := by
    simp [turnedAvoider, List.zipIdx_map]
  have hfold := foldlM_sim (f := convTree ext a x s) (f' := convTree ext (turnedAvoider R a K) (R x) s') (ConvLoopInv s)
    (turnState R) (Prod.map (turnObstacles R) id) a.trees.zipIdx
    (fun p hp b b' hb hstep => convTree_turn has hK hs hne hcl hb hp hstep) ⟨t0, [], []⟩ st hinv hst
  refine bind_ok.mpr ⟨turnState R st, by rw [hzip]; exact hfold.2, ?_⟩
  have hct : ConvergenceTree ext a x s st := ⟨t0, ht0, hst⟩
  obtain ⟨r1, r2, r3⟩ := convergence_args hct
  have hclear := hcl.tree st hct
  obtain ⟨c0, d1, d2⟩ := reduce_turn (R := R) r1 (clear_good r1 hclear) (clear_good (rooted r1) (clear_turnTree hclear)) has
    NodeState.init NodeState.init (ns := st.nodes ++ [.num (-1)]) (ws := convergenceWeights st.weights) r2.len r2.known
    (r2.good r1) (by linarith)
  rw [hok] at d1
  cases d1
  exact d2

/-- The direction of convergence is a unit vector. -/
lemma convergence_unit {ext : Ext d k} (has : ArgsortSpec ext.argsort) {a : Avoider d} {x : Vec d} {s : RotSeq (Vec d)}
    (hcl : ClearConvergence ext a x s) {conv : RotSeq (Vec d)} (hok : computeConvergenceSequence ext a x s = .ok conv) :
    ∃ v, conv.getEndVector = .ok v ∧ ‖v‖ = 1 := by
  unfold computeConvergenceSequence at hok
  obtain ⟨t0, ht0, hok⟩ := bind_ok.mp hok
  obtain ⟨st, hst, hok⟩ := bind_ok.mp hok
  have hct : ConvergenceTree ext a x s st := ⟨t0, ht0, hst⟩
  obtain ⟨r1, r2, r3⟩ := convergence_args hct
  obtain ⟨v, v1, v2⟩ := C22_unit st.tree (.num (-10)) r1 (clear_good r1 (hcl.tree st hct)).inner ext.argsort has NodeState.init
    (st.nodes ++ [.num (-1)]) (convergenceWeights st.weights) r2.len r2.known r2.nonneg r2.le_one (by linarith)
  unfold Tree.getWeightedMean at v1
  rw [hok] at v1
  exact ⟨v, v1, v2⟩

end Verif
