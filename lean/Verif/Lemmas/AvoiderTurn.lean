import Verif.Lemmas.SceneTurn
import Verif.Props.TreeTurn

/-!
# The tangent tree in turned coordinates
-/

open scoped RealInnerProductSpace

namespace Verif

open Spec

variable {d k : ℕ} [h2 : Fact (2 ≤ d)] {R : Vec d ≃ₗᵢ[ℝ] Vec d} {ext : Ext d k}
set_option linter.unusedSectionVars false

lemma bind_turn {α β α' β' : Type} {m : Except PyErr α} {m' : Except PyErr α'} {f : α → Except PyErr β}
    {f' : α' → Except PyErr β'} {T : α → α'} {U : β → β'} (h : m' = m.map T)
    (hf : ∀ a, m = .ok a → f' (T a) = (f a).map U) : (m' >>= f') = (m >>= f).map U := by
  subst h
  cases m with
  | error e => rfl
  | ok a => exact hf a rfl

lemma orRaise_turn {I : Type} [DecidableEq I] (t : Tree I d) (n : I) (v : Vec d) (p : Option I) :
    orRaise ((turnTree R t).addNode n (R v) p) = (orRaise (t.addNode n v p)).map (turnTree R) := by
  rw [TreeTurn.addNode_turn]
  unfold TreeTurn.turnOutcome
  rcases t.addNode n v p with ⟨t', e | e⟩ <;> rfl

/-- The loop variables of a branch in turned coordinates. -/
noncomputable def turnLoop (R : Vec d ≃ₗᵢ[ℝ] Vec d) (st : Tree NodeId d × Vec d × NodeId) : Tree NodeId d × Vec d × NodeId :=
  (turnTree R st.1, R st.2.1, st.2.2)

lemma turn_branchStep (i j : ℕ) (st : Tree NodeId d × Vec d × NodeId) (e : BranchEntry d × BranchEntry d)
    (hc : ClearlyApart (unit e.2.reference) (unit e.1.reference)) :
    branchStep i j (turnLoop R st) (turnEntry R e.1, turnEntry R e.2) = (branchStep i j st e).map (turnLoop R) := by
  obtain ⟨h1, h2⟩ := C140_rotation_partial R e.2.reference e.1.reference hc
  unfold branchStep
  change (match fromDirections (R e.2.reference) (R e.1.reference) with
    | none => _
    | some rotation => _) = _
  cases ho : fromDirections e.2.reference e.1.reference with
  | none => rw [h1.mpr ho]; rfl
  | some o =>
    cases ho' : fromDirections (R e.2.reference) (R e.1.reference) with
    | none => rw [h1.mp ho'] at ho; cases ho
    | some o' =>
      have hrot := h2 o o' ho ho' st.2.1 1
      dsimp only
      refine bind_turn (T := turnTree R) ?_ ?_
      · change orRaise ((turnTree R st.1).addNode _ (o'.rotate (R st.2.1)) _) = _
        rw [hrot, orRaise_turn]
        rfl
      · intro t _
        change Except.ok (turnTree R t, o'.rotate (R st.2.1), _) = _
        rw [hrot]
        rfl

lemma turn_branchFold (i j : ℕ) (l : List (BranchEntry d × BranchEntry d))
    (hc : ∀ e ∈ l, ClearlyApart (unit e.2.reference) (unit e.1.reference)) (st : Tree NodeId d × Vec d × NodeId) :
    (l.map (Prod.map (turnEntry R) (turnEntry R))).foldlM (branchStep i j) (turnLoop R st)
      = (l.foldlM (branchStep i j) st).map (turnLoop R) := by
  rw [foldlM_map']
  exact foldlM_turn (turnLoop R) _ _ l (fun y hy b => turn_branchStep i j b y (hc y hy)) st

lemma branchFold_norm {i j : ℕ} {l : List (BranchEntry d × BranchEntry d)} {st st' : Tree NodeId d × Vec d × NodeId}
    (h : l.foldlM (branchStep i j) st = .ok st') : ‖st'.2.1‖ = ‖st.2.1‖ := by
  refine foldlM_inv (fun s => ‖s.2.1‖ = ‖st.2.1‖) ?_ rfl h
  intro e b b' _ hb hf
  unfold branchStep at hf
  cases ho : fromDirections e.2.reference e.1.reference with
  | none => rw [ho] at hf; cases hf
  | some o =>
    rw [ho] at hf
    obtain ⟨t, _, hf⟩ := bind_ok.mp hf
    cases hf
    obtain ⟨-, -, hB, -⟩ := fromDirections_some ho
    change ‖o.rotate b.2.1‖ = _
    unfold Rot.rotate
    rw [rotateDirection_eq, planeRot_norm hB, hb]

lemma component_mem {ot : ObstacleTree d} {j : ℕ} {o : Obstacle d} (h : ot.getComponent j = .ok o) :
    o ∈ ot.components := by
  unfold ObstacleTree.getComponent at h
  cases hj : ot.components[j]? with
  | none => rw [hj] at h; cases h
  | some o' => rw [hj] at h; cases h; exact List.mem_of_getElem? hj

/-- The normal and the reference direction of the first entry of a branch. -/
lemma first_entry {x : Vec d} {j : ℕ} {ot : ObstacleTree d} (hst : ∀ o ∈ ot.components, StarComponent o)
    (hx : ∀ o ∈ ot.components, x ≠ o.referencePoint) {e : BranchEntry d} {l : List (BranchEntry d)}
    (h : computeBranch x j ot = .ok (e :: l)) :
    ‖e.normal‖ = 1 ∧ ‖e.reference‖ = 1 ∧ ⟪e.normal, e.reference⟫ < 0 := by
  unfold computeBranch at h
  obtain ⟨o, ho, h⟩ := bind_ok.mp h
  have hs := hst o (component_mem ho)
  have hxo := sub_ne_zero.mpr (hx o (component_mem ho))
  cases hi : o.intersection (if o.gamma x > 1 then o.referencePoint else x) ((-1 : ℝ) • o.reference x) with
  | none => simp only [hi] at h; cases h
  | some s =>
    simp only [hi] at h
    obtain ⟨n, hn, h⟩ := bind_ok.mp h
    obtain ⟨rest, _, h⟩ := bind_ok.mp h
    cases h
    unfold getNormalAtDistance at hn
    rw [hs.smooth] at hn
    simp only [Bool.false_eq_true, if_false, Except.ok.injEq] at hn
    obtain ⟨hs0, t, ht, hst⟩ := hs.ray _ _ _ (by
      by_cases hg : o.gamma x > 1
      · rw [if_pos hg]; exact Or.inl rfl
      · rw [if_neg hg]; exact Or.inr (not_lt.mp hg)) hi
    obtain ⟨hn1, hn2⟩ := hs.normal s hs0
    have hc : 0 < 1 / ‖x - o.referencePoint‖ := by
      have := norm_pos_iff.mpr hxo; positivity
    have href : o.reference x = -((1 / ‖x - o.referencePoint‖) • (x - o.referencePoint)) := hs.reference x
    have hmul : ∃ m : ℝ, 0 ≤ m ∧ s - o.referencePoint = m • (x - o.referencePoint) := by
      rw [href] at hst
      by_cases hg : o.gamma x > 1
      · rw [if_pos hg] at hst
        exact ⟨t * (1 / ‖x - o.referencePoint‖), by positivity, by rw [hst]; module⟩
      · rw [if_neg hg] at hst
        exact ⟨1 + t * (1 / ‖x - o.referencePoint‖), by positivity, by rw [hst]; module⟩
    obtain ⟨m, hm, hm'⟩ := hmul
    rw [hm', inner_smul_right] at hn2
    refine ⟨by rw [← hn]; exact hn1, ?_, ?_⟩
    · change ‖o.reference x‖ = 1
      rw [hs.reference, norm_neg, unit_norm hxo]
    · change ⟪n, o.reference x⟫ < 0
      rw [href, inner_neg_right, inner_smul_right, ← hn]
      have : 0 < ⟪o.normal s, x - o.referencePoint⟫ := by
        by_contra h0
        push Not at h0
        nlinarith [mul_nonneg hm (neg_nonneg.mpr h0)]
      nlinarith [mul_pos hc this]

lemma turn_intermediate (hs : DirectionSpace ext) {v : Vec d} {e : BranchEntry d} (hv : ‖v‖ = 1) (hn : ‖e.normal‖ = 1)
    (href : ‖e.reference‖ = 1) (hneg : ⟪e.normal, e.reference⟫ < 0) (i j : ℕ) (r : ℝ) (t : Tree NodeId d) (p : NodeId) :
    intermediateNode ext (R v) (turnEntry R e) i j r (turnTree R t) p
      = (intermediateNode ext v e i j r t p).map (fun q => (turnTree R q.1, q.2)) := by
  unfold intermediateNode
  split_ifs with h0
  · refine bind_turn (T := R) ?_ ?_
    · exact tangent_turn hs hv hn href hneg (by positivity) (by nlinarith [Real.pi_pos])
    · intro w _
      refine bind_turn (T := turnTree R) (orRaise_turn _ _ _ _) ?_
      intro t' _
      rfl
  · rfl

/-- Result of one branch in turned coordinates. -/
noncomputable def turnBranch (R : Vec d ≃ₗᵢ[ℝ] Vec d) (q : Tree NodeId d × Vec d) : Tree NodeId d × Vec d :=
  (turnTree R q.1, R q.2)

lemma turn_tangentBranch (hs : DirectionSpace ext) {x v : Vec d} (hv : ‖v‖ = 1) {ot : ObstacleTree d}
    (hst : ∀ o ∈ ot.components, StarComponent o) (hx : ∀ o ∈ ot.components, x ≠ o.referencePoint)
    (hcl : ClearBranches x ot) (j i : ℕ) {r : ℝ} (h0 : 0 < r) (h1 : r ≤ Real.pi) (t : Tree NodeId d) :
    tangentBranch ext (R x) j (R v) (turnObstacles R ot) i r (turnTree R t)
      = (tangentBranch ext x j v ot i r t).map (turnBranch R) := by
  classical
  unfold tangentBranch
  refine bind_turn (turn_branch x j ot) ?_
  intro entries he
  cases entries with
  | nil => rfl
  | cons e0 rest =>
    obtain ⟨n1, n2, n3⟩ := first_entry hst hx he
    simp only [List.map_cons]
    have hz : ((turnEntry R e0 :: rest.map (turnEntry R)).zip (rest.map (turnEntry R))).reverse
        = (((e0 :: rest).zip rest).reverse).map (Prod.map (turnEntry R) (turnEntry R)) := by
      rw [← List.map_cons, List.zip_map, List.map_reverse]
    rw [hz]
    refine bind_turn (T := turnLoop R) (turn_branchFold i j _ ?_ (t, v, _)) ?_
    · intro e hm
      exact hcl j _ he e (List.mem_reverse.mp hm)
    · rintro ⟨t', vel, par⟩ hfold
      have hvel : ‖vel‖ = 1 := (branchFold_norm hfold).trans hv
      refine bind_turn (T := turnObstacle R) (turn_component ot j) ?_
      intro o _
      simp only [turnLoop]
      have htail : (turnObstacle R o).tailEffect = o.tailEffect := rfl
      have hin : ⟪(turnEntry R e0).normal, R vel⟫ = ⟪e0.normal, vel⟫ := R.inner_map_map _ _
      by_cases hc : o.tailEffect = true ∨ ⟪e0.normal, vel⟫ < 0
      · have hc' : (turnObstacle R o).tailEffect = true ∨ ⟪(turnEntry R e0).normal, R vel⟫ < 0 := by rwa [htail, hin]
        rw [if_pos hc]; refine (if_pos hc').trans ?_
        refine bind_turn (turn_intermediate hs hvel n1 n2 n3 i j r t' par) ?_
        rintro ⟨t2, p2⟩ _
        refine bind_turn (T := R) (tangent_turn hs hvel n1 n2 n3 h0 h1) ?_
        intro w _
        refine bind_turn (T := turnTree R) (orRaise_turn _ _ _ _) ?_
        intro t3 _
        rfl
      · have hc' : ¬ ((turnObstacle R o).tailEffect = true ∨ ⟪(turnEntry R e0).normal, R vel⟫ < 0) := by rwa [htail, hin]
        rw [if_neg hc]; refine (if_neg hc').trans ?_
        refine bind_turn (T := turnTree R) (orRaise_turn _ _ _ _) ?_
        intro t3 _
        rfl

/-- The lists filled by the loop over the components in turned coordinates. -/
noncomputable def turnFill (R : Vec d ≃ₗᵢ[ℝ] Vec d) (q : Tree NodeId d × List NodeId × List (Vec d)) :
    Tree NodeId d × List NodeId × List (Vec d) := (turnTree R q.1, q.2.1, q.2.2.map R)

lemma radii_outside {r : ℝ} {gm : Option ℝ} (x : Vec d) (l : List (Obstacle d × ℝ)) (hl : ∀ p ∈ l, 1 ≤ p.2) :
    computeConvergenceRadiuses r gm x l = .ok (l.map (fun _ => r)) := by
  unfold computeConvergenceRadiuses
  cases gm with
  | none => rfl
  | some g =>
    have : l.mapM (fun c => if c.2 < 1 then componentRadius r g Real.pi x c.1 else some r)
        = some (l.map (fun _ => r)) := by
      induction l with
      | nil => rfl
      | cons p l ih =>
        have := ih (fun q hq => hl q (by simp [hq]))
        simp only [List.mapM_cons, this, if_neg (not_lt.mpr (hl p (by simp))), List.map_cons]
        rfl
    simp only [this]

lemma turn_populate (hs : DirectionSpace ext) {a : Avoider d} {K : Convergence d} {x v : Vec d} (hv : ‖v‖ = 1)
    (h0 : 0 < a.convergenceRadius) (h1 : a.convergenceRadius ≤ Real.pi) {ot : ObstacleTree d} (ho : TurnReady x ot)
    (i : ℕ) (w g : List ℝ) (hg : ∀ y ∈ g, 1 ≤ y) (st : Tree NodeId d × List NodeId × List (Vec d)) :
    populateTangentTree ext (turnedAvoider R a K) (R x) (R v) (turnObstacles R ot) i w g (turnFill R st)
      = (populateTangentTree ext a x v ot i w g st).map (turnFill R) := by
  classical
  unfold populateTangentTree
  refine bind_turn (T := turnTree R) (orRaise_turn _ _ _ _) ?_
  intro t _
  have hlen : (turnObstacles R ot).components.length = ot.components.length := by simp [turnObstacles]
  have hg1 : ∀ p ∈ ot.components.zip g, 1 ≤ p.2 := fun p hp => hg _ (List.of_mem_zip hp).2
  have hg2 : ∀ p ∈ (turnObstacles R ot).components.zip g, 1 ≤ p.2 := fun p hp => hg _ (List.of_mem_zip hp).2
  have hrad : ((turnObstacles R ot).components.zip g).map (fun _ => a.convergenceRadius)
      = (ot.components.zip g).map (fun _ => a.convergenceRadius) := by
    simp [turnObstacles, List.zip_map_left, Function.comp_def]
  have e1 : computeConvergenceRadiuses (turnedAvoider R a K).convergenceRadius (turnedAvoider R a K).gammaMaximumRepulsion
      (R x) ((turnObstacles R ot).components.zip g) = .ok ((ot.components.zip g).map (fun _ => a.convergenceRadius)) := by
    rw [radii_outside _ _ hg2, ← hrad]
    rfl
  rw [e1, radii_outside _ _ hg1, hlen]
  simp only [bind, Except.bind]
  refine foldlM_turn (turnFill R) _ _ _ ?_ (t, st.2.1, st.2.2)
  rintro ⟨j, wj, rj⟩ hj b
  have hr : rj = a.convergenceRadius := by
    have := (List.of_mem_zip (List.of_mem_zip hj).2).2
    obtain ⟨_, _, e⟩ := List.mem_map.mp this
    exact e.symm
  subst hr
  unfold populateStep
  by_cases hw : wj ≤ 0
  · rw [if_pos hw, if_pos hw]; rfl
  · rw [if_neg hw, if_neg hw]
    refine bind_turn (turn_tangentBranch hs hv ho.star (fun o h => (ho.outside o h).2) ho.clear j i h0 h1 b.1) ?_
    rintro ⟨t', n⟩ _
    simp [turnBranch, turnFill, Except.map]

/-- The loop variables over the obstacles in turned coordinates. -/
noncomputable def turnTangentState (R : Vec d ≃ₗᵢ[ℝ] Vec d) (st : TangentState d) : TangentState d :=
  { st with tree := turnTree R st.tree, normals := st.normals.map R }

lemma gammas_ge {x v : Vec d} {p : ℝ} {ot : ObstacleTree d} (h : NotInside x ot) {g w : List ℝ} {s : ℝ × ℝ}
    (hc : computeGammaAndWeights ext p x ot v = .ok (g, w, s)) : ∀ y ∈ g, 1 ≤ y := by
  unfold computeGammaAndWeights at hc
  obtain ⟨root, hroot, hc⟩ := bind_ok.mp hc
  obtain ⟨gm, hgm, hc⟩ := bind_ok.mp hc
  obtain ⟨rw', hrw, hc⟩ := bind_ok.mp hc
  split_ifs at hc with h1 h2
  · cases hc
    intro y hy
    simp only [List.mem_map] at hy
    obtain ⟨_, _, h3⟩ := hy
    rw [← h3]
  · cases hc
    intro y hy
    simp only [List.mem_map] at hy
    obtain ⟨o, ho, rfl⟩ := hy
    exact (h o ho).1

lemma component_facts {x : Vec d} {ot : ObstacleTree d} (ho : TurnReady x ot) :
    ∀ o ∈ ot.components, ‖o.normal x‖ = 1 ∧ ‖o.reference x‖ = 1 ∧ ⟪o.normal x, o.reference x⟫ < 0 := by
  intro o h
  have hs := ho.star o h
  have hx := (ho.outside o h).2
  have hxo := sub_ne_zero.mpr hx
  obtain ⟨n1, n2⟩ := hs.normal x hx
  refine ⟨n1, by rw [hs.reference, norm_neg, unit_norm hxo], ?_⟩
  have hc : 0 < 1 / ‖x - o.referencePoint‖ := by
    have := norm_pos_iff.mpr hxo; positivity
  rw [hs.reference, inner_neg_right]
  unfold unit
  rw [inner_smul_right]
  nlinarith [mul_pos hc n2]

lemma turn_tangentStep (hs : DirectionSpace ext) {a : Avoider d} {K : Convergence d} {x v : Vec d} (hv : ‖v‖ = 1)
    (h0 : 0 < a.convergenceRadius) (h1 : a.convergenceRadius ≤ Real.pi) {ot : ObstacleTree d} (ho : TurnReady x ot)
    (i : ℕ) (st : TangentState d) :
    tangentStep ext (turnedAvoider R a K) (R x) (R v) (turnTangentState R st) (turnObstacles R ot, i)
      = (tangentStep ext a x v st (ot, i)).map (turnTangentState R) := by
  unfold tangentStep
  refine bind_turn (T := id) ?_ ?_
  · rw [show (turnedAvoider R a K).power = a.power from rfl, turn_gammaWeights hs hv a.power ot (component_facts ho)]
    cases computeGammaAndWeights ext a.power x ot v <;> rfl
  · rintro ⟨g, gw, s⟩ hgw
    refine bind_turn (T := id) ?_ ?_
    · rw [turn_occlusion]
      cases computeParentOcclusionWeight x ot <;> rfl
    · intro occ _
      refine bind_turn (turn_populate hs hv h0 h1 ho i _ g (gammas_ge ho.outside hgw) (st.tree, st.nodes, st.normals)) ?_
      rintro ⟨t, nodes, normals⟩ _
      rfl

/-- What is prepared for the averaging, in turned coordinates. -/
noncomputable def turnPrepared (R : Vec d ≃ₗᵢ[ℝ] Vec d) (pr : Prepared d) : Prepared d :=
  { pr with tree := turnTree R pr.tree, normals := pr.normals.map R }

lemma turn_prepare (hs : DirectionSpace ext) {a : Avoider d} {K : Convergence d} {x v : Vec d} (hv : ‖v‖ = 1)
    (h0 : 0 < a.convergenceRadius) (h1 : a.convergenceRadius ≤ Real.pi) (ho : ∀ ot ∈ a.trees, TurnReady x ot) :
    prepareAvoidance ext (turnedAvoider R a K) (R x) (R v) = (prepareAvoidance ext a x v).map (turnPrepared R) := by
  unfold prepareAvoidance
  refine bind_turn (T := turnTree R) ?_ ?_
  · have := TreeTurn.setRoot_turn (R := R) (Tree.empty : Tree NodeId d) (.key (-1) (-1) (-1)) v
    rwa [TreeTurn.empty_turn] at this
  · intro t _
    have hz : (turnedAvoider R a K).trees.zipIdx = a.trees.zipIdx.map (Prod.map (turnObstacles R) id) := by
      simp [turnedAvoider, List.zipIdx_map]
    rw [hz, foldlM_map']
    refine bind_turn (T := turnTangentState R) (foldlM_turn (turnTangentState R) _ _ _ ?_ ⟨t, [], [], [], [], []⟩) ?_
    · rintro ⟨ot, i⟩ hm b
      exact turn_tangentStep hs hv h0 h1 (ho ot (List.mem_of_getElem? (List.mem_zipIdx_iff_getElem?.mp hm))) i b
    · intro st _
      rfl

lemma turn_slowDown (m : ℝ) (rel w : Vec d) (pr : Prepared d) :
    slowDown m (R rel) (R w) (turnPrepared R pr) = (slowDown m rel w pr).map R := by
  unfold slowDown
  have e1 : (turnPrepared R pr).cluster = pr.cluster := rfl
  have e2 : (turnPrepared R pr).slow = pr.slow := rfl
  have e3 : (List.zipWith (fun (n : Vec d) w => w • n) (turnPrepared R pr).normals pr.cluster).sum
      = R (List.zipWith (fun (n : Vec d) w => w • n) pr.normals pr.cluster).sum := by
    change (List.zipWith _ (pr.normals.map R) _).sum = _
    rw [map_list_sum, List.map_zipWith, List.zipWith_map_left]
    simp only [map_smul]
  rw [e1, e2]
  cases pr.cluster.max? with
  | none => simp only [Except.map, map_add]
  | some q =>
    simp only [e3]
    have e4 : ∀ y : Vec d, computeSafeScaling (R w) (R y) (1 / q) = computeSafeScaling w y (1 / q) := by
      intro y
      unfold computeSafeScaling
      have h : (⟪R w, R y⟫ > 0 ∨ isclose ‖R y‖ 0) ↔ (⟪w, y⟫ > 0 ∨ isclose ‖y‖ 0) := by
        rw [R.norm_map, R.inner_map_map]
      simp only [R.norm_map, R.inner_map_map]
      split_ifs <;> first | rfl | (exfalso; tauto)
    rw [e4]
    refine bind_turn (T := id) ?_ ?_
    · cases computeSafeScaling w _ (1 / q) <;> rfl
    · intro p _
      refine bind_turn (T := id) ?_ ?_
      · cases slowfactorFromConvergence pr.slow <;> rfl
      · intro c _
        rw [R.norm_map]
        by_cases hw : ‖w‖ = 0
        · rw [if_pos hw, if_pos hw]; rfl
        · rw [if_neg hw, if_neg hw]
          simp only [Except.map, map_add, map_smul, id]

end Verif
