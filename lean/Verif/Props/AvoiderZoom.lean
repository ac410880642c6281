import Verif.Spec.Zoom
import Verif.Props.AvoiderTime

/-!
# C141: the unit of length
-/

open scoped RealInnerProductSpace

namespace Verif
open Spec

variable {d k : ℕ} [Fact (2 ≤ d)]
set_option linter.unusedSectionVars false

lemma zoom_component (c : ℝ) (t : ObstacleTree d) (i : ℕ) :
    (zoomTree c t).getComponent i = (t.getComponent i).map (zoomObstacle c) := by
  unfold ObstacleTree.getComponent zoomTree
  simp only [List.getElem?_map]
  cases t.components[i]? <;> rfl

lemma zoom_gammas {c : ℝ} (hc : 0 < c) (t : ObstacleTree d) (x : Vec d) :
    (zoomTree c t).components.map (fun o => o.gamma (c • x)) = t.components.map (fun o => o.gamma x) := by
  simp [zoomTree, zoomObstacle, Function.comp_def, inv_smul_smul₀ hc.ne']

lemma zoom_gamma {c : ℝ} (hc : 0 < c) (t : ObstacleTree d) (x : Vec d) :
    (zoomTree c t).gamma (c • x) = t.gamma x := by
  unfold ObstacleTree.gamma
  rw [zoom_gammas hc]

lemma zoom_angular {c : ℝ} (hc : 0 < c) (w : ℝ) (y : Vec d) :
    angularVelocity (c⁻¹ * w) (c • y) = angularVelocity w y := by
  unfold angularVelocity
  split_ifs with h1 h2
  · congr 1
    ext i
    simp only [crossZ, PiLp.smul_apply, smul_eq_mul]
    split_ifs <;> field_simp
  · rfl
  · rfl

lemma zoom_relativeStep {c : ℝ} (hc : 0 < c) (x acc : Vec d) (t : ObstacleTree d) (q : ℝ × ℝ) :
    relativeStep (c • x) acc (zoomTree c t, q) = relativeStep x acc (t, q) := by
  unfold relativeStep
  by_cases h : q.2 ≤ 0
  · simp only [h, if_true]
  · simp only [h, if_false]
    simp only [zoomTree, ← smul_sub]
    have hlin : ∀ (A B : Except PyErr (Vec d)) (r : Option ℝ), A = B →
        (match A with
          | .error e => .error e
          | .ok acc => match r.map (fun r => c⁻¹ * r) with
            | none => .ok acc
            | some r => .ok (acc + (q.2 * r) • c • (x - t.position)) : Except PyErr (Vec d))
        = (match B with
          | .error e => .error e
          | .ok acc => match r with
            | none => .ok acc
            | some r => .ok (acc + (q.2 * r) • (x - t.position)) : Except PyErr (Vec d)) := by
      intro A B r hAB
      subst hAB
      cases A with
      | error e => rfl
      | ok b =>
        cases r with
        | none => rfl
        | some r =>
          simp only [Option.map_some, smul_smul]
          congr 3
          field_simp
    apply hlin
    cases t.twist with
    | none => rfl
    | some w =>
      obtain ⟨lin, w⟩ := w
      cases w with
      | none => rfl
      | some w => simp only [Option.map_some, zoom_angular hc]

lemma zoom_relative {c : ℝ} (hc : 0 < c) (x : Vec d) (l : List (ObstacleTree d)) :
    relativeVelocity (c • x) (l.map (zoomTree c)) = relativeVelocity x l := by
  unfold relativeVelocity
  have h1 : (l.map (zoomTree c)).mapM (fun t => t.gamma (c • x)) = l.mapM (fun t => t.gamma x) := by
    induction l with
    | nil => rfl
    | cons y l ih => simp only [List.map_cons, List.mapM_cons, ih, zoom_gamma hc]
  rw [h1]
  congr 1
  funext g
  rw [List.zip_map_left, foldlM_map']
  simp only [Prod.map, id, zoom_relativeStep hc]

lemma zoom_sequence {c : ℝ} (hc : 0 < c) (x : Vec d) (f : Dynamics d) (h : NotNear c f x) :
    evaluateDynamicsSequence (c • x) (zoomDynamics c f) = evaluateDynamicsSequence x f := by
  cases f with
  | mk e a s =>
  cases s with
  | some s => simp [evaluateDynamicsSequence, zoomDynamics, inv_smul_smul₀ hc.ne']
  | none =>
    cases a with
    | none => simp [evaluateDynamicsSequence, zoomDynamics, inv_smul_smul₀ hc.ne']
    | some z =>
      have h := h rfl z rfl
      have hn : ‖c • (z - x)‖ = 0 ↔ ‖z - x‖ = 0 := by
        rw [norm_eq_zero, norm_eq_zero, smul_eq_zero]
        exact ⟨fun h => h.resolve_left hc.ne', Or.inr⟩
      simp only [evaluateDynamicsSequence, zoomDynamics, Option.map_some, Option.map_none, inv_smul_smul₀ hc.ne',
        ← smul_sub, hn]
      by_cases h0 : ‖z - x‖ = 0 ∨ ‖e x‖ = 0
      · rw [if_pos h0, if_pos h0]
      · rw [if_neg h0, if_neg h0]
        have h' : 1e-8 < ‖z - x‖ ∧ 1e-8 < ‖c • (z - x)‖ := by
          rcases h with h | h
          · exact absurd (Or.inl (by simp [h])) h0
          · exact h
        rw [array_congr (vs := [c • (z - x), e x]) (ws := [z - x, e x]) (by simp [unit_smul_pos hc])]
        simp only [List.mem_cons, List.not_mem_nil, or_false, exists_eq_left, exists_eq_or_imp]
        constructor
        · rintro (h1 | h1)
          · exact absurd h1 (not_close h'.2)
          · exact .inr h1
        · rintro (h1 | h1)
          · exact absurd h1 (not_close h'.1)
          · exact .inr h1

section Moved
variable {c : ℝ} {x : Vec d} {a : Avoider d} {K : Convergence d}

lemma zoom_chain (hK : ConvergenceZoomed c x a K) (ot : ObstacleTree d) (i q : ℕ) (n : ℕ) :
    ∀ (l b : ℕ) (id : NodeId) (y : Vec d) (t : Tree NodeId d),
      parentChain (zoomAvoider c a K) (zoomTree c ot) i q n l b id (c • y) t = parentChain a ot i q n l b id y t := by
  induction n with
  | zero => intros; rfl
  | succ n ih =>
    intro l b id y t
    unfold parentChain
    rw [zoom_component]
    cases ot.getComponent b with
    | error e => rfl
    | ok o =>
      have hs : (zoomAvoider c a K).convergence.startToEnd (c • y) (zoomObstacle c o).referencePoint
          (zoomAvoider c a K).initial.attractorPosition
          = a.convergence.startToEnd y o.referencePoint a.initial.attractorPosition := by
        exact hK.startToEnd y o.referencePoint a.initial.attractorPosition
      have hr : (zoomObstacle c o).referencePoint = c • o.referencePoint := rfl
      have hp : (zoomTree c ot).parentIdx = ot.parentIdx := rfl
      simp only [Except.map, bind, Except.bind, hs]
      simp only [hr, hp, ih]

lemma zoom_weight (hc : 0 < c) (ot : ObstacleTree d) :
    treeWeight (zoomAvoider c a K) (zoomTree c ot) = treeWeight a ot := by
  unfold treeWeight
  have h : (zoomAvoider c a K).initial.attractorPosition = a.initial.attractorPosition.map (c • ·) := rfl
  rw [h]
  cases a.initial.attractorPosition with
  | none => rfl
  | some z => simp only [Option.map_some, zoom_gamma hc]

lemma zoom_convComponent (hK : ConvergenceZoomed c x a K) (i : ℕ) {ot : ObstacleTree d} (hot : ot ∈ a.trees) (w : ℝ)
    (s : Option (RotSeq (Vec d))) (st : ConvState d) {o : Obstacle d} (ho : o ∈ ot.components) (j : ℕ) :
    convComponent (zoomAvoider c a K) (c • x) i (zoomTree c ot) w s st (zoomObstacle c o, j)
      = convComponent a x i ot w s st (o, j) := by
  unfold convComponent
  have hp : (zoomAvoider c a K).convergence.projectedWeight (c • x) (zoomObstacle c o)
      = a.convergence.projectedWeight x o := hK.projectedWeight ot hot o ho
  simp only [hp, zoom_chain hK]
  rfl

lemma zoom_convTree (ext : Ext d k) (hc0 : 0 < c) (hK : ConvergenceZoomed c x a K) (s : RotSeq (Vec d)) (st : ConvState d)
    {ot : ObstacleTree d} (hot : ot ∈ a.trees) (i : ℕ)
    (hn : ∀ o, ot.components[ot.rootIdx]? = some o → NotNear c (a.default.getD a.initial) o.referencePoint) :
    convTree ext (zoomAvoider c a K) (c • x) s st (zoomTree c ot, i) = convTree ext a x s st (ot, i) := by
  have hr : (zoomTree c ot).rootIdx = ot.rootIdx := rfl
  have hc : ∀ w (cs : Option (RotSeq (Vec d))) (st : ConvState d),
      (zoomTree c ot).components.zipIdx.foldlM
        (convComponent (zoomAvoider c a K) (c • x) i (zoomTree c ot) w cs) st
        = ot.components.zipIdx.foldlM (convComponent a x i ot w cs) st := by
    intro w cs st
    have : (zoomTree c ot).components.zipIdx = ot.components.zipIdx.map (Prod.map (zoomObstacle c) id) := by
      simp [zoomTree, List.zipIdx_map]
    rw [this, foldlM_map']
    apply foldlM_congr_mem
    rintro ⟨o, j⟩ ho st'
    exact zoom_convComponent hK i hot w cs st' (List.mem_of_getElem? (List.mem_zipIdx_iff_getElem?.mp ho)) j
  have hdef : (zoomAvoider c a K).default.getD (zoomAvoider c a K).initial
      = zoomDynamics c (a.default.getD a.initial) := by
    unfold zoomAvoider
    cases a.default <;> rfl
  unfold convTree
  simp only [zoom_weight hc0, zoom_component, hr]
  cases ho : ot.getComponent ot.rootIdx with
  | error e => rfl
  | ok o =>
    have hroot : ot.components[ot.rootIdx]? = some o := by
      unfold ObstacleTree.getComponent at ho
      cases h : ot.components[ot.rootIdx]? with
      | none => rw [h] at ho; cases ho
      | some o' => rw [h] at ho; cases ho; rfl
    have hmem : o ∈ ot.components := List.mem_of_getElem? hroot
    have hd : evaluateDynamicsSequence (zoomObstacle c o).referencePoint
        ((zoomAvoider c a K).default.getD (zoomAvoider c a K).initial)
        = evaluateDynamicsSequence o.referencePoint (a.default.getD a.initial) := by
      rw [hdef]
      exact zoom_sequence hc0 _ _ (hn o hroot)
    have hp : (zoomAvoider c a K).convergence.projectedWeight (c • x) (zoomObstacle c o)
        = a.convergence.projectedWeight x o := hK.projectedWeight ot hot o hmem
    have ht : (zoomAvoider c a K).convergence.positionToTransform (c • x) (zoomObstacle c o)
        = a.convergence.positionToTransform x o := hK.positionToTransform ot hot o hmem
    simp only [Except.map, bind, Except.bind, hp, ht, hd, hc]

lemma zoom_convergence (ext : Ext d k) (hc0 : 0 < c) (hK : ConvergenceZoomed c x a K) (s : RotSeq (Vec d))
    (hn : ∀ ot ∈ a.trees, ∀ o, ot.components[ot.rootIdx]? = some o →
      NotNear c (a.default.getD a.initial) o.referencePoint) :
    computeConvergenceSequence ext (zoomAvoider c a K) (c • x) s = computeConvergenceSequence ext a x s := by
  unfold computeConvergenceSequence
  have h : (zoomAvoider c a K).trees.zipIdx = a.trees.zipIdx.map (Prod.map (zoomTree c) id) := by
    simp [zoomAvoider, zoomAvoider, List.zipIdx_map]
  rw [h]
  have hf : ∀ st, (a.trees.zipIdx.map (Prod.map (zoomTree c) id)).foldlM
      (convTree ext (zoomAvoider c a K) (c • x) s) st = a.trees.zipIdx.foldlM (convTree ext a x s) st := by
    intro st
    rw [foldlM_map']
    apply foldlM_congr_mem
    rintro ⟨ot, i⟩ ho st'
    have hot := List.mem_of_getElem? (List.mem_zipIdx_iff_getElem?.mp ho)
    exact zoom_convTree ext hc0 hK s st' hot i (hn ot hot)
  simp only [hf]

end Moved

lemma zoom_gammaWeights (ext : Ext d k) {c : ℝ} (hc : 0 < c) (x v : Vec d) (p : ℝ) (ot : ObstacleTree d) :
    computeGammaAndWeights ext p (c • x) (zoomTree c ot) v = computeGammaAndWeights ext p x ot v := by
  unfold computeGammaAndWeights
  rw [zoom_gammas hc, zoom_gamma hc, zoom_component]
  have hr : (zoomTree c ot).rootIdx = ot.rootIdx := rfl
  rw [hr]
  cases ot.getComponent ot.rootIdx with
  | error e => rfl
  | ok o =>
    have h1 : (zoomObstacle c o).normal (c • x) = o.normal x := by simp [zoomObstacle, inv_smul_smul₀ hc.ne']
    have h2 : (zoomObstacle c o).reference (c • x) = o.reference x := by simp [zoomObstacle, inv_smul_smul₀ hc.ne']
    simp only [Except.map, bind, Except.bind, h1, h2]

lemma zoom_inner {c : ℝ} (hc : 0 < c) (v w : Vec d) : ⟪c • v, c • w⟫ / (‖c • w‖ * ‖c • v‖) = ⟪v, w⟫ / (‖w‖ * ‖v‖) := by
  rw [real_inner_smul_left, real_inner_smul_right, norm_smul, norm_smul, Real.norm_of_nonneg hc.le]
  rw [show c * (c * ⟪v, w⟫) = (c * c) * ⟪v, w⟫ by ring, show c * ‖w‖ * (c * ‖v‖) = (c * c) * (‖w‖ * ‖v‖) by ring]
  exact mul_div_mul_left _ _ (mul_ne_zero hc.ne' hc.ne')

lemma zoom_parentOcclusion {c : ℝ} (hc : 0 < c) (x : Vec d) (o q : Obstacle d) :
    parentOcclusionWeight (c • x) (zoomObstacle c o) (some (zoomObstacle c q))
      = parentOcclusionWeight x o (some q) := by
  have h0 : ∀ v w : Vec d, ‖c • v‖ * ‖c • w‖ = 0 ↔ ‖v‖ * ‖w‖ = 0 := by
    intro v w
    simp [hc.ne']
  unfold parentOcclusionWeight
  simp only [zoomObstacle, inv_smul_smul₀ hc.ne', ← smul_sub, h0, zoom_inner hc]
  cases o.intersection x (if o.gamma x < 1 then (-1 : ℝ) • o.reference x else o.reference x) with
  | none => rfl
  | some s => simp only [Option.map_some, inv_smul_smul₀ hc.ne']

lemma zoom_occlusion {c : ℝ} (hc : 0 < c) (x : Vec d) (ot : ObstacleTree d) :
    computeParentOcclusionWeight (c • x) (zoomTree c ot) = computeParentOcclusionWeight x ot := by
  unfold computeParentOcclusionWeight
  have h : (zoomTree c ot).components.zipIdx = ot.components.zipIdx.map (Prod.map (zoomObstacle c) id) := by
    simp [zoomTree, List.zipIdx_map]
  rw [h, mapM_map']
  congr 1
  funext p
  have hr : (zoomTree c ot).rootIdx = ot.rootIdx := rfl
  have hp : (zoomTree c ot).parentIdx = ot.parentIdx := rfl
  simp only [Prod.map, id, hr, hp, zoom_component]
  split_ifs with h0
  · rfl
  · cases ot.parentIdx p.2 with
    | none => rfl
    | some q =>
      cases hq : ot.getComponent q with
      | error e => simp [Except.map, bind, Except.bind, hq]
      | ok o => simp only [Except.map, bind, Except.bind, zoom_parentOcclusion hc, hq]

lemma zoom_normalAt {c : ℝ} (hc : 0 < c) (o : Obstacle d) (s : Vec d) (r : ℝ) :
    getNormalAtDistance (zoomObstacle c o) (c • s) (c * r) = getNormalAtDistance o s r := by
  unfold getNormalAtDistance
  have h : ∀ v : Vec d, ‖c • v‖ = 0 ↔ ‖v‖ = 0 := by
    intro v
    rw [norm_eq_zero, norm_eq_zero, smul_eq_zero]
    exact ⟨fun h => h.resolve_left hc.ne', Or.inr⟩
  have h2 : ∀ v : Vec d, c⁻¹ • (c • s + (c * r / ‖c • v‖) • c • v) = s + (r / ‖v‖) • v := by
    intro v
    rw [norm_smul, Real.norm_of_nonneg hc.le, mul_div_mul_left _ _ hc.ne', smul_comm, ← smul_add, inv_smul_smul₀ hc.ne']
  simp only [zoomObstacle, ← smul_sub, h, h2, inv_smul_smul₀ hc.ne']

lemma component_mem {ot : ObstacleTree d} {j : ℕ} {o : Obstacle d} (h : ot.getComponent j = .ok o) : o ∈ ot.components := by
  unfold ObstacleTree.getComponent at h
  cases h' : ot.components[j]? with
  | none => rw [h'] at h; cases h
  | some o' => rw [h'] at h; cases h; exact List.mem_of_getElem? h'

lemma zoom_branchLoop {c : ℝ} (hc : 0 < c) (ot : ObstacleTree d) (hray : ∀ o ∈ ot.components, RayObstacle o) (r : ℝ) (n : ℕ) :
    ∀ (m j : ℕ) (s : Vec d), branchLoop (zoomTree c ot) (c * r) n m j (c • s) = branchLoop ot r n m j s := by
  induction n with
  | zero => intros; rfl
  | succ n ih =>
    intro m j s
    unfold branchLoop
    have hr : (zoomTree c ot).rootIdx = ot.rootIdx := rfl
    have hp : (zoomTree c ot).parentIdx = ot.parentIdx := rfl
    simp only [hr, hp, zoom_component]
    by_cases h0 : j = ot.rootIdx
    · rw [if_pos h0, if_pos h0]
    · rw [if_neg h0, if_neg h0]
      cases ot.getComponent j with
      | error e => rfl
      | ok o =>
        cases ot.parentIdx j with
        | none => rfl
        | some q =>
          cases hq : ot.getComponent q with
          | error e => simp [Except.map, bind, Except.bind, hq]
          | ok p =>
            have h1 : (zoomObstacle c p).intersection (zoomObstacle c o).referencePoint
                (c • s - (zoomObstacle c o).referencePoint)
                = (p.intersection o.referencePoint (s - o.referencePoint)).map (c • ·) := by
              simp only [zoomObstacle, inv_smul_smul₀ hc.ne', ← smul_sub, hray p (component_mem hq) _ _ c hc]
            have h2 : ∀ y, (zoomObstacle c p).reference (c • y) = p.reference y := by
              intro y; simp [zoomObstacle, inv_smul_smul₀ hc.ne']
            simp only [Except.map, bind, Except.bind, h1, hq]
            cases p.intersection o.referencePoint (s - o.referencePoint) with
            | none => rfl
            | some y => simp only [Option.map_some, zoom_normalAt hc, ih, h2]

lemma zoom_branch {c : ℝ} (hc : 0 < c) (x : Vec d) (j : ℕ) (ot : ObstacleTree d)
    (hray : ∀ o ∈ ot.components, RayObstacle o) :
    computeBranch (c • x) j (zoomTree c ot) = computeBranch x j ot := by
  unfold computeBranch
  rw [zoom_component]
  cases ot.getComponent j with
  | error e => rfl
  | ok o =>
    have h1 : (zoomObstacle c o).gamma (c • x) = o.gamma x := by simp [zoomObstacle, inv_smul_smul₀ hc.ne']
    have h2 : (zoomObstacle c o).reference (c • x) = o.reference x := by simp [zoomObstacle, inv_smul_smul₀ hc.ne']
    have h3 : (if o.gamma x > 1 then (zoomObstacle c o).referencePoint else c • x)
        = c • (if o.gamma x > 1 then o.referencePoint else x) := by
      split_ifs <;> rfl
    have h4 : ∀ s v, (zoomObstacle c o).intersection (c • s) v = (o.intersection s v).map (c • ·) := by
      intro s v; simp [zoomObstacle, inv_smul_smul₀ hc.ne']
    simp only [Except.map, bind, Except.bind, h1, h2, h3, h4]
    cases o.intersection (if o.gamma x > 1 then o.referencePoint else x) ((-1 : ℝ) • o.reference x) with
    | none => rfl
    | some s =>
      have hif : (if o.gamma x > 1 then c * ‖x - s‖ else 0) = c * (if o.gamma x > 1 then ‖x - s‖ else 0) := by
        split_ifs <;> simp
      simp only [Option.map_some, ← smul_sub, norm_smul, Real.norm_of_nonneg hc.le, hif, zoom_normalAt hc, zoom_branchLoop hc ot hray]

lemma zoom_tangentBranch (ext : Ext d k) {c : ℝ} (hc : 0 < c) (x v : Vec d) (j i : ℕ) (ot : ObstacleTree d)
    (hray : ∀ o ∈ ot.components, RayObstacle o) (r : ℝ) (t : Tree NodeId d) :
    tangentBranch ext (c • x) j v (zoomTree c ot) i r t = tangentBranch ext x j v ot i r t := by
  unfold tangentBranch
  rw [zoom_branch hc x j ot hray, zoom_component]
  cases ho : ot.getComponent j with
  | error e => simp only [Except.map, bind, Except.bind]
  | ok o => simp only [Except.map, bind, Except.bind]; rfl

lemma zoom_componentRadius {c : ℝ} (hc : 0 < c) (x : Vec d) (r g s : ℝ) (o : Obstacle d) (hray : RayObstacle o)
    (h : allclose (c • x) (c • o.center) ↔ allclose x o.center) :
    componentRadius r g s (c • x) (zoomObstacle c o) = componentRadius r g s x o := by
  unfold componentRadius
  have hce : (zoomObstacle c o).center = c • o.center := rfl
  rw [hce]
  by_cases h0 : allclose x o.center
  · rw [if_pos h0, if_pos (h.mpr h0)]
  · rw [if_neg h0, if_neg (fun hn => h0 (h.mp hn))]
    have h4 : ∀ v, (zoomObstacle c o).intersection (c • o.center) (c • v) = (o.intersection o.center v).map (c • ·) := by
      intro v; simp only [zoomObstacle, inv_smul_smul₀ hc.ne', hray _ v c hc]
    rw [← smul_sub, h4]
    cases o.intersection o.center (x - o.center) with
    | none => rfl
    | some y =>
      have hn : ‖c • (y - o.center)‖ = 0 ↔ ‖y - o.center‖ = 0 := by
        rw [norm_eq_zero, norm_eq_zero, smul_eq_zero]
        exact ⟨fun h => h.resolve_left hc.ne', Or.inr⟩
      have hq : ‖c • (x - o.center)‖ / ‖c • (y - o.center)‖ = ‖x - o.center‖ / ‖y - o.center‖ := by
        rw [norm_smul, norm_smul, mul_div_mul_left _ _ (by simpa using hc.ne')]
      simp only [Option.map_some, ← smul_sub, hn, hq]

lemma zoom_radii {c : ℝ} (hc : 0 < c) (x : Vec d) (a : Avoider d) (ot : ObstacleTree d)
    (hray : ∀ o ∈ ot.components, RayObstacle o) (h : SameCentre a c x ot) (w : List ℝ)
    (hw : ∀ p ∈ ot.components.zip w, p.2 < 1 → p.1.gamma x < 1) (r : ℝ) :
    computeConvergenceRadiuses r a.gammaMaximumRepulsion (c • x) ((zoomTree c ot).components.zip w)
      = computeConvergenceRadiuses r a.gammaMaximumRepulsion x (ot.components.zip w) := by
  unfold computeConvergenceRadiuses
  have hz : (zoomTree c ot).components.zip w = (ot.components.zip w).map (Prod.map (zoomObstacle c) id) := by
    simp [zoomTree, List.zip_map_left]
  rw [hz]
  rcases h with h | h
  · rw [h]
    simp only [List.map_map, Function.comp_def]
  · cases a.gammaMaximumRepulsion with
    | none => simp only [List.map_map, Function.comp_def]
    | some g =>
      have key : ((ot.components.zip w).map (Prod.map (zoomObstacle c) id)).mapM
          (fun c_1 => if c_1.2 < 1 then componentRadius r g Real.pi (c • x) c_1.1 else some r)
          = (ot.components.zip w).mapM (fun c => if c.2 < 1 then componentRadius r g Real.pi x c.1 else some r) := by
        have hall : ∀ p ∈ ot.components.zip w,
            (if p.2 < 1 then componentRadius r g Real.pi (c • x) (zoomObstacle c p.1) else some r)
              = (if p.2 < 1 then componentRadius r g Real.pi x p.1 else some r) := by
          intro p hp
          split_ifs with h1
          · exact zoom_componentRadius hc x r g _ p.1 (hray p.1 (List.of_mem_zip hp).1) (h p.1 (List.of_mem_zip hp).1 (hw p hp h1))
          · rfl
        clear hz hw h
        generalize ot.components.zip w = l at hall ⊢
        induction l with
        | nil => rfl
        | cons p l ih =>
          simp only [List.map_cons, List.mapM_cons, Prod.map, id]
          rw [hall p (by simp)]
          have := ih (fun q hq => hall q (by simp [hq]))
          rw [← this]
      simp only [key]

lemma zoom_populate (ext : Ext d k) {c : ℝ} (hc : 0 < c) (x v : Vec d) (a : Avoider d) (K : Convergence d) (ot : ObstacleTree d)
    (hray : ∀ o ∈ ot.components, RayObstacle o)
    (h : SameCentre a c x ot) (i : ℕ) (w g : List ℝ) (hw : ∀ q ∈ ot.components.zip g, q.2 < 1 → q.1.gamma x < 1)
    (st : Tree NodeId d × List NodeId × List (Vec d)) :
    populateTangentTree ext (zoomAvoider c a K) (c • x) v (zoomTree c ot) i w g st
      = populateTangentTree ext a x v ot i w g st := by
  unfold populateTangentTree
  have h1 : (zoomAvoider c a K).convergenceRadius = a.convergenceRadius := rfl
  have h2 : (zoomAvoider c a K).gammaMaximumRepulsion = a.gammaMaximumRepulsion := rfl
  have h3 : (zoomTree c ot).components.length = ot.components.length := by simp [zoomTree]
  have h4 : populateStep ext (c • x) v (zoomTree c ot) i = populateStep ext x v ot i := by
    funext st q
    unfold populateStep
    simp only [zoom_tangentBranch ext hc x v _ _ ot hray]
  rw [h1, h2, h3, h4, zoom_radii hc x a ot hray h g hw]

lemma zoom_tangentStep (ext : Ext d k) {c : ℝ} (hc : 0 < c) (x v : Vec d) (a : Avoider d) (K : Convergence d) (ot : ObstacleTree d)
    (hray : ∀ o ∈ ot.components, RayObstacle o)
    (h : SameCentre a c x ot) (i : ℕ) (st : TangentState d) :
    tangentStep ext (zoomAvoider c a K) (c • x) v st (zoomTree c ot, i) = tangentStep ext a x v st (ot, i) := by
  unfold tangentStep
  have hp : (zoomAvoider c a K).power = a.power := rfl
  simp only [zoom_gammaWeights ext hc, zoom_occlusion hc, hp]
  cases hg : computeGammaAndWeights ext a.power x ot v with
  | error e => rfl
  | ok r =>
    obtain ⟨g, w, s⟩ := r
    have hw := weights_below ext x v a.power ot hg
    simp only [bind, Except.bind, zoom_populate ext hc x v a K ot hray h i _ g hw]

lemma zoom_prepare (ext : Ext d k) {c : ℝ} (hc : 0 < c) (x v : Vec d) (a : Avoider d) (K : Convergence d)
    (hray : ∀ ot ∈ a.trees, ∀ o ∈ ot.components, RayObstacle o) (h : ∀ ot ∈ a.trees, SameCentre a c x ot) :
    prepareAvoidance ext (zoomAvoider c a K) (c • x) v = prepareAvoidance ext a x v := by
  unfold prepareAvoidance
  have hz : (zoomAvoider c a K).trees.zipIdx = a.trees.zipIdx.map (Prod.map (zoomTree c) id) := by
    simp [zoomAvoider, zoomAvoider, List.zipIdx_map]
  have key : ∀ (l : List (ObstacleTree d × ℕ)), (∀ p ∈ l, (∀ o ∈ p.1.components, RayObstacle o) ∧ SameCentre a c x p.1) → ∀ st,
      (l.map (Prod.map (zoomTree c) id)).foldlM (tangentStep ext (zoomAvoider c a K) (c • x) v) st
        = l.foldlM (tangentStep ext a x v) st := by
    intro l
    induction l with
    | nil => intros; rfl
    | cons p l ih =>
      intro hl st
      simp only [List.map_cons, List.foldlM_cons]
      have : tangentStep ext (zoomAvoider c a K) (c • x) v st (Prod.map (zoomTree c) id p)
          = tangentStep ext a x v st p := zoom_tangentStep ext hc x v a K p.1 (hl p (by simp)).1 (hl p (by simp)).2 p.2 st
      rw [this]
      congr 1
      funext st'
      exact ih (fun q hq => hl q (by simp [hq])) st'
  have hl : ∀ p ∈ a.trees.zipIdx, (∀ o ∈ p.1.components, RayObstacle o) ∧ SameCentre a c x p.1 := by
    rintro ⟨ot, i⟩ hp
    have hot := List.mem_of_getElem? (List.mem_zipIdx_iff_getElem?.mp hp)
    exact ⟨hray ot hot, h ot hot⟩
  rw [hz]
  simp only [key _ hl]

/-- C141: if the whole scene is enlarged by `c > 0` (all positions are multiplied, the velocities and the distance values
are kept), the velocity is the same; also the exceptions are the same.  The convergence dynamics is any object which gives
the same results in the enlarged scene.
Missing: positions closer than `1e-8` to the attractor, the comparison of the position with the centre inside of an obstacle
(multi_obstacle_avoider.py:1036), which both have an absolute tolerance, and the projected weight of
`ProjectedRotationDynamics`, which depends on the unit of length (violated, `C141_projected_weight`). -/
theorem C141_zoom_partial (ext : Ext d k) {c : ℝ} (hc : 0 < c) (x : Vec d) (a : Avoider d) (K : Convergence d)
    (hK : ConvergenceZoomed c x a K) (hray : ∀ ot ∈ a.trees, ∀ o ∈ ot.components, RayObstacle o)
    (h : ∀ ot ∈ a.trees, SameCentre a c x ot) (hx : NotNear c a.initial x)
    (hn : ∀ ot ∈ a.trees, ∀ o, ot.components[ot.rootIdx]? = some o →
      NotNear c (a.default.getD a.initial) o.referencePoint) :
    (zoomAvoider c a K).evaluate ext (c • x) = a.evaluate ext x := by
  unfold Avoider.evaluate evaluateSequence
  have h1 : evaluateDynamicsSequence (c • x) (zoomAvoider c a K).initial = evaluateDynamicsSequence x a.initial :=
    zoom_sequence hc x a.initial hx
  have h3 : (zoomAvoider c a K).magnitude (c • x) = a.magnitude x := by
    unfold Avoider.magnitude zoomAvoider zoomDynamics
    cases a.evaluateMagnitude <;> simp [inv_smul_smul₀ hc.ne']
  have h4 : relativeVelocity (c • x) (zoomAvoider c a K).trees = relativeVelocity x a.trees := zoom_relative hc x a.trees
  simp only [h1, h3, h4, fun s => zoom_convergence ext hc hK s hn, zoom_prepare ext hc x _ a K hray h]
  simp only [zoomAvoider, List.map_eq_nil_iff]

lemma unit_is_faster_zoom {c : ℝ} (hc : 0 < c) (a : Avoider d) (K : Convergence d) :
    unitAvoider c a K = fasterAvoider c (zoomAvoider c a K) := by
  have h : ∀ f : Dynamics d, unitDynamics c f = fasterDynamics c (zoomDynamics c f) := fun f => rfl
  have ht : ∀ t : ObstacleTree d, unitTree c t = fasterTree c (zoomTree c t) := by
    intro t
    cases t with
    | mk co ro pa po tw de =>
    unfold unitTree fasterTree zoomTree
    have h1 : ∀ w : ℝ, c * (c⁻¹ * w) = w := fun w => mul_inv_cancel_left₀ hc.ne' w
    congr 1
    · cases tw with
      | none => rfl
      | some w =>
        obtain ⟨l, w⟩ := w
        cases w <;> simp [h1]
    · cases de <;> simp [h1]
  unfold unitAvoider fasterAvoider zoomAvoider
  congr 1
  · cases a.evaluateMagnitude <;> rfl
  · cases a.default <;> rfl
  · rw [List.map_map]
    exact List.map_congr_left (fun t _ => ht t)

/-- C141: if all lengths are given in another unit (positions, distances and velocities are multiplied by `c > 0`), the
returned velocity is multiplied by `c`; the exceptions are the same.
Missing: what is missing in `C141_zoom_partial`; positions where no obstacle has an influence, where the code returns a
direction of length one instead of a velocity (violated, `C137_no_influence`); velocities below the tolerance `1e-8`. -/
theorem C141_units_partial (ext : Ext d k) {c : ℝ} (hc : 0 < c) (x : Vec d) (a : Avoider d) (K : Convergence d)
    (hK : ConvergenceZoomed c x a K) (hray : ∀ ot ∈ a.trees, ∀ o ∈ ot.components, RayObstacle o)
    (h : ∀ ot ∈ a.trees, SameCentre a c x ot) (hx : NotNear c a.initial x) (hs : NotSlow c a.initial x)
    (hn : ∀ ot ∈ a.trees, ∀ o, ot.components[ot.rootIdx]? = some o →
      NotNear c (a.default.getD a.initial) o.referencePoint ∧ NotSlow c (a.default.getD a.initial) o.referencePoint)
    (hcl : a.trees ≠ [] → ∀ pr, PreparedFor ext a x pr → pr.cluster ≠ []) :
    (unitAvoider c a K).evaluate ext (c • x) = (a.evaluate ext x).map (fun v => c • v) := by
  have hslow : ∀ (f : Dynamics d) (y : Vec d), NotSlow c f y → NotSlow c (zoomDynamics c f) (c • y) := by
    intro f y hf ho
    have hf := hf (by simpa [zoomDynamics] using ho)
    simpa only [zoomDynamics, inv_smul_smul₀ hc.ne'] using hf
  have hn' : ∀ ot ∈ a.trees, ∀ o, ot.components[ot.rootIdx]? = some o →
      NotNear c (a.default.getD a.initial) o.referencePoint := fun ot hot o ho => (hn ot hot o ho).1
  rw [unit_is_faster_zoom hc, C137_partial ext hc (zoomAvoider c a K) (c • x) (hslow _ _ hs),
    C141_zoom_partial ext hc x a K hK hray h hx hn']
  · intro ot hot o ho
    obtain ⟨t, ht, rfl⟩ := List.mem_map.mp hot
    have ho' : (t.components.map (zoomObstacle c))[t.rootIdx]? = some o := ho
    rw [List.getElem?_map] at ho'
    obtain ⟨q, hq, rfl⟩ := Option.map_eq_some_iff.mp ho'
    have hdef : (zoomAvoider c a K).default.getD (zoomAvoider c a K).initial
        = zoomDynamics c (a.default.getD a.initial) := by
      unfold zoomAvoider
      cases a.default <;> rfl
    rw [hdef]
    exact hslow _ _ (hn t ht q hq).2
  · rintro htr pr ⟨s, conv, u, h1, h2, h3, h4⟩
    refine hcl (by simpa [zoomAvoider] using htr) pr ⟨s, conv, u, ?_, ?_, h3, ?_⟩
    · rw [← h1]; exact (zoom_sequence hc x a.initial hx).symm
    · rw [← h2, zoom_convergence ext hc hK s hn']
    · rw [← h4, zoom_prepare ext hc x u a K hray h]

/-- C141: the convergence dynamics without singularity of the enlarged dynamics gives the same results. -/
theorem C141_without_singularity {c : ℝ} (hc : 0 < c) (f g : Vec d → Vec d) (x : Vec d) (a : Avoider d)
    (ha : a.convergence = convergenceWithoutSingularity f g) :
    ConvergenceZoomed c x a (convergenceWithoutSingularity (fun y => f (c⁻¹ • y)) (fun y => g (c⁻¹ • y))) := by
  refine ⟨?_, ?_, ?_⟩ <;> intros <;> rw [ha] <;>
    simp only [convergenceWithoutSingularity, zoomObstacle, inv_smul_smul₀ hc.ne']

/-- C141: the rotations of the projected convergence dynamics (from the position to an obstacle, and from one component to
the next) do not depend on the unit of length. -/
theorem C141_projected_rotations {c : ℝ} (hc : 0 < c) (s e z : Vec d) :
    Projected.rotationStartToEnd (c • s) (c • e) (c • z) = Projected.rotationStartToEnd s e z := by
  have hn : ∀ v : Vec d, ‖c • v‖ = 0 ↔ ‖v‖ = 0 := by
    intro v
    rw [norm_eq_zero, norm_eq_zero, smul_eq_zero]
    exact ⟨fun h => h.resolve_left hc.ne', Or.inr⟩
  have hu : ∀ v : Vec d, (1 / ‖c • v‖) • c • v = (1 / ‖v‖) • v := fun v => unit_smul_pos hc v
  unfold Projected.rotationStartToEnd
  simp only [← smul_sub, hn, hu]

lemma fold_line (basis : Vec d → (Vec d ≃ₗᵢ[ℝ] Vec d)) {e : Vec d} (he : e = EuclideanSpace.single i0 1)
    (hb : basis e e = e) {D s : ℝ} (hD : 0 < D) (hs : 0 ≤ s) :
    Projected.fold basis none (s • e) (-D • e) = (D ^ 2 * Real.log ((s + D) / D)) • e := by
  have hen : ‖e‖ = 1 := by rw [he]; simp
  have hP : 0 < s + D := by linarith
  have hAO : Projected.attractorToObstacle none (-D • e) = D • e := by
    simp [Projected.attractorToObstacle]
  have hAP : s • e - -D • e = (s + D) • e := by module
  have hnD : ‖D • e‖ = D := by rw [norm_smul, hen, Real.norm_of_nonneg hD.le, mul_one]
  have hnP : ‖(s + D) • e‖ = s + D := by rw [norm_smul, hen, Real.norm_of_nonneg hP.le, mul_one]
  have hdD : (1 / D) • D • e = e := by rw [smul_smul, one_div_mul_cancel hD.ne', one_smul]
  have hdP : (1 / (s + D)) • (s + D) • e = e := by rw [smul_smul, one_div_mul_cancel hP.ne', one_smul]
  have hset : ∀ a b : ℝ, Projected.setFirst (a • e) b = b • e := by
    intro a b
    ext i
    by_cases hi : i = i0
    · subst hi; simp [Projected.setFirst, he]
    · simp [Projected.setFirst, he, hi]
  have hei : e i0 = 1 := by rw [he]; simp
  have hbs : (basis e).symm e = e := by rw [LinearIsometryEquiv.symm_apply_eq, hb]
  unfold Projected.fold
  simp only [hAO, hAP, hnD, hnP, hdD, hdP, map_smul, hbs, hset, Projected.foldedRadial, Projected.foldTail,
    real_inner_self_eq_norm_sq, hen]
  rw [if_neg hD.ne', if_pos hP.ne', if_neg hP.ne', if_neg (by norm_num), if_neg (by norm_num), map_smul, hb, hset]
  simp only [Projected.absolute, PiLp.smul_apply, hei, smul_eq_mul, mul_one]
  congr 1
  ring

lemma line_weight (basis : Vec d → (Vec d ≃ₗᵢ[ℝ] Vec d)) {e : Vec d} (he : e = EuclideanSpace.single i0 1)
    (hb : basis e e = e) {c : ℝ} (hc : 0 < c) (hc2 : c ≤ 1e4) (g : Geometry d) (o : Obstacle d)
    (hto : ∀ y, g.toLocal y = y) (hfrom : ∀ y, g.fromLocal y = y) (hg : ∀ y, g.localGamma y = ‖y‖ / c)
    (hr : ∀ y, g.localRadius y = c) (ho : ∀ y, o.gamma y = ‖y‖ / c) :
    Projected.evaluateProjectedWeight basis g (-(2 * c) • e) ((2 * c) • e) o
      = some ((1 / (c * Real.log 2 + 1)) ^ (1 / 2 : ℝ)) := by
  have hen : ‖e‖ = 1 := by rw [he]; simp
  have hL : 0 < Real.log 2 := Real.log_pos (by norm_num)
  have hL1 : Real.log 2 ≤ 1 := by
    have := Real.log_le_sub_one_of_pos (show (0 : ℝ) < 2 by norm_num)
    linarith
  have hn : ∀ a : ℝ, 0 ≤ a → ‖a • e‖ = a := by
    intro a ha; rw [norm_smul, hen, Real.norm_of_nonneg ha, mul_one]
  have hn' : ‖-(2 * c) • e‖ = 2 * c := by rw [neg_smul, norm_neg, hn _ (by positivity)]
  have hd : Projected.deflate g.localRadius none ((2 * c) • e) = some (c • e) := by
    unfold Projected.deflate
    simp only [Projected.relative, Projected.absolute, hr, hn _ (show 0 ≤ 2 * c by positivity)]
    rw [if_neg (by linarith), if_neg (by positivity), smul_smul]
    congr 2
    field_simp
    ring
  have hd' : Projected.deflate g.localRadius none (-(2 * c) • e) = some (-c • e) := by
    unfold Projected.deflate
    simp only [Projected.relative, Projected.absolute, hr, hn']
    rw [if_neg (by linarith), if_neg (by positivity), smul_smul]
    congr 2
    field_simp
    ring
  have hf : Projected.fold basis none (c • e) (-c • e) = (c ^ 2 * Real.log 2) • e := by
    rw [fold_line basis he hb hc hc.le]
    congr 3
    field_simp
    ring
  have hpos : 0 < c ^ 2 * Real.log 2 := by positivity
  have hsmall : c ^ 2 * Real.log 2 ≤ 1e10 := by
    have : c ^ 2 ≤ 1e8 := by nlinarith
    nlinarith
  have hin : Projected.inflate g.localRadius none ((c ^ 2 * Real.log 2) • e) = (c ^ 2 * Real.log 2 + c) • e := by
    unfold Projected.inflate Projected.nudged
    simp only [Projected.relative, Projected.absolute, hr, hn _ hpos.le]
    rw [if_neg hpos.ne', hn _ hpos.le, smul_smul]
    congr 1
    field_simp
  have hp : Projected.projectedPosition basis g (-(2 * c) • e) ((2 * c) • e) = some ((c ^ 2 * Real.log 2 + c) • e) := by
    unfold Projected.projectedPosition
    simp only [hto, hfrom, hg, hn', hn _ (show 0 ≤ 2 * c by positivity), hd, hd', Option.bind_eq_bind, Option.bind_some, hf,
      hn _ hpos.le, hin]
    have h2 : 2 * c / c = 2 := by field_simp
    rw [h2, if_neg (by norm_num), if_neg (by norm_num), if_neg (not_lt.mpr hsmall)]
    rfl
  unfold Projected.evaluateProjectedWeight
  simp only [hp, Option.bind_eq_bind, Option.bind_some, ho, hn _ (show 0 ≤ 2 * c by positivity),
    hn _ (show 0 ≤ c ^ 2 * Real.log 2 + c by positivity)]
  have h2 : 2 * c / c = 2 := by field_simp
  have h3 : (c ^ 2 * Real.log 2 + c) / c = c * Real.log 2 + 1 := by field_simp
  have hcl : 0 < c * Real.log 2 := by positivity
  rw [h2, h3]
  unfold projectedWeight
  rw [if_neg (by push Not; constructor <;> linarith)]
  have h4 : (c * Real.log 2 + 1 - 1) * (2 - 1) + 1 = c * Real.log 2 + 1 := by ring
  rw [h4, min_eq_left]
  · rfl
  · apply Real.rpow_le_one (by positivity) _ (by norm_num)
    rw [div_le_one (by positivity)]
    linarith

/-- C141 is violated by the projected weight (projected_rotation_dynamics.py:583-598): for a ball of radius one with the
attractor and the position on the two sides of it, the weight is another one with every other unit of length.  The fold
multiplies the first coordinate a second time by the distance of the attractor (line 259). -/
theorem C141_projected_weight (basis : Vec d → (Vec d ≃ₗᵢ[ℝ] Vec d)) {e : Vec d} (he : e = EuclideanSpace.single i0 1)
    (hb : basis e e = e) {c : ℝ} (hc : 0 < c) (hc1 : c ≠ 1) (hc2 : c ≤ 1e4) :
    ∃ w w' : ℝ, w ≠ w'
      ∧ Projected.evaluateProjectedWeight basis ⟨id, id, fun y => ‖y‖, fun _ => 1⟩ ((-2 : ℝ) • e) ((2 : ℝ) • e) disc = some w
      ∧ Projected.evaluateProjectedWeight basis (zoomGeometry c ⟨id, id, fun y => ‖y‖, fun _ => 1⟩) (c • (-2 : ℝ) • e)
          (c • (2 : ℝ) • e) (zoomObstacle c disc) = some w' := by
  have h1 := line_weight basis he hb one_pos (by norm_num) ⟨id, id, fun y => ‖y‖, fun _ => 1⟩ (disc (d := d))
    (fun _ => rfl) (fun _ => rfl) (fun _ => (div_one _).symm) (fun _ => rfl) (fun _ => (div_one _).symm)
  have hinv : ∀ y : Vec d, ‖c⁻¹ • y‖ = ‖y‖ / c := by
    intro y
    rw [norm_smul, Real.norm_of_nonneg (inv_nonneg.mpr hc.le), div_eq_inv_mul]
  have h2 := line_weight basis he hb hc hc2 (zoomGeometry c ⟨id, id, fun y => ‖y‖, fun _ => 1⟩) (zoomObstacle c disc)
    (fun y => smul_inv_smul₀ hc.ne' y) (fun y => smul_inv_smul₀ hc.ne' y) hinv (fun _ => mul_one _) hinv
  rw [show -(2 * (1 : ℝ)) • e = (-2 : ℝ) • e by norm_num, show (2 * (1 : ℝ)) • e = (2 : ℝ) • e by norm_num] at h1
  rw [show -(2 * c) • e = c • (-2 : ℝ) • e by module, show (2 * c) • e = c • (2 : ℝ) • e by module] at h2
  refine ⟨_, _, ?_, h1, h2⟩
  intro h
  have hL : 0 < Real.log 2 := Real.log_pos (by norm_num)
  have h3 := (Real.rpow_left_inj (by positivity) (by positivity) (by norm_num)).mp h
  have h4 : 1 * Real.log 2 + 1 = c * Real.log 2 + 1 := by
    rwa [one_div, one_div, inv_inj] at h3
  exact hc1 (mul_right_cancel₀ hL.ne' (by linarith))

/-- A ball is met by a ray at the same place for every length of the direction. -/
lemma disc_ray : RayObstacle (disc (d := d)) := by
  intro s v t ht
  have hd : ⟪s, t • v⟫ ^ 2 - ‖t • v‖ ^ 2 * (‖s‖ ^ 2 - 1) = t ^ 2 * (⟪s, v⟫ ^ 2 - ‖v‖ ^ 2 * (‖s‖ ^ 2 - 1)) := by
    rw [real_inner_smul_right, norm_smul, Real.norm_of_nonneg ht.le]; ring
  have hz : t • v = 0 ↔ v = 0 := by
    rw [smul_eq_zero]; exact ⟨fun h => h.resolve_left ht.ne', Or.inr⟩
  have hs : t ^ 2 * (⟪s, v⟫ ^ 2 - ‖v‖ ^ 2 * (‖s‖ ^ 2 - 1)) < 0 ↔ ⟪s, v⟫ ^ 2 - ‖v‖ ^ 2 * (‖s‖ ^ 2 - 1) < 0 := by
    constructor
    · intro h; by_contra hn; push Not at hn; have := mul_nonneg (sq_nonneg t) hn; linarith
    · intro h; exact mul_neg_of_pos_of_neg (by positivity) h
  simp only [disc, hd, hz, hs]
  by_cases h : v = 0 ∨ ⟪s, v⟫ ^ 2 - ‖v‖ ^ 2 * (‖s‖ ^ 2 - 1) < 0
  · rw [if_pos h, if_pos h]
  · rw [if_neg h, if_neg h]
    push Not at h
    have hv : 0 < ‖v‖ := norm_pos_iff.mpr h.1
    rw [Real.sqrt_mul (sq_nonneg t), Real.sqrt_sq ht.le, real_inner_smul_right, norm_smul, Real.norm_of_nonneg ht.le, smul_smul]
    congr 3
    field_simp

lemma slide_cluster (argsort : List ℤ → List ℕ) {u : Vec 2} {pr : Prepared 2}
    (hprep : prepareAvoidance (planeExt argsort) (discAvoider !₂[0, 1 / 2] 1) !₂[1, 0] u = .ok pr) : pr.cluster ≠ [] := by
  have hp : (0 : ℝ) ≤ (discAvoider !₂[0, 1 / 2] 1).power := by norm_num [discAvoider]
  have honly : ∀ (j : ℕ) (t' : ObstacleTree 2) (c' : ℕ) (o' : Obstacle 2),
      (discAvoider !₂[0, 1 / 2] 1).trees[j]? = some t' → t'.components[c']? = some o' →
      o'.gamma !₂[1, 0] ≤ 1 → j = 0 ∧ c' = 0 := by
    intro j t' c' o' hj hc _
    have hj' : j = 0 := by
      by_contra hne
      rw [List.getElem?_eq_none (by simp [discAvoider]; omega)] at hj; cases hj
    subst hj'
    have : t' = discTree := by simpa [discAvoider] using hj.symm
    subst this
    refine ⟨rfl, ?_⟩
    by_contra hne
    rw [List.getElem?_eq_none (by simp [discTree]; omega)] at hc; cases hc
  have hcon : disc.gamma (!₂[1, 0] : Vec 2) ≤ 1 := by
    change ‖(!₂[1, 0] : Vec 2)‖ ≤ 1
    rw [e_norm]
  intro hnil
  have := (contact_cluster hp (discs_sane _ 1) hprep (i := 0) (t := discTree) rfl (c := 0)
    (o := disc) rfl hcon honly (by intro occ hocc; cases hocc; rfl)).1
  rw [hnil] at this; cases this

/-- The hypotheses of `C141_units_partial` and `C141_zoom_partial` are met: a disc, a position on its surface, every
larger unit. -/
example (argsort : List ℤ → List ℕ) (has : ArgsortSpec argsort) {c : ℝ} (hc : 1 ≤ c) :
    ∃ w, (discAvoider !₂[0, 1 / 2] 1).evaluate (planeExt argsort) !₂[1, 0] = .ok w
      ∧ (unitAvoider c (discAvoider !₂[0, 1 / 2] 1)
          (convergenceWithoutSingularity (fun _ => !₂[0, 1 / 2]) (fun _ => !₂[0, 1 / 2]))).evaluate (planeExt argsort)
            (c • !₂[1, 0]) = .ok (c • w) := by
  obtain ⟨w, pr, h1, hPF, h2, h3⟩ := slide_run argsort has
  rw [one_smul] at h1
  refine ⟨w, h1, ?_⟩
  have hv : ‖(!₂[0, 1 / 2] : Vec 2)‖ = 1 / 2 := by
    simp [EuclideanSpace.norm_eq, Fin.sum_univ_two]
  have hns : ∀ y, NotSlow c (discAvoider !₂[0, 1 / 2] 1).initial y := by
    intro y _
    right
    change 1e-8 < ‖(!₂[0, 1 / 2] : Vec 2)‖ ∧ 1e-8 < ‖c • (!₂[0, 1 / 2] : Vec 2)‖
    rw [norm_smul, hv, Real.norm_of_nonneg (by linarith)]
    constructor <;> norm_num; linarith
  have hfar : ∀ y : Vec 2, 1 / 4 < ‖(!₂[0, 1 / 2] : Vec 2) - y‖ → NotNear c (discAvoider !₂[0, 1 / 2] 1).initial y := by
    intro y hy _ z hz
    have : z = !₂[0, 1 / 2] := by simpa [discAvoider] using hz.symm
    subst this
    right
    rw [norm_smul, Real.norm_of_nonneg (by linarith)]
    constructor
    · linarith
    · nlinarith
  have hmem : ∀ ot ∈ (discAvoider !₂[0, 1 / 2] 1).trees, ot = discTree := by
    intro ot hot; simpa [discAvoider] using hot
  have hmem' : ∀ o ∈ (discTree (d := 2)).components, o = disc := by
    intro o ho; simpa [discTree] using ho
  have key := C141_units_partial (planeExt argsort) (c := c) (by linarith) !₂[1, 0] (discAvoider !₂[0, 1 / 2] 1)
    (convergenceWithoutSingularity (fun _ => !₂[0, 1 / 2]) (fun _ => !₂[0, 1 / 2]))
    (C141_without_singularity (by linarith) (fun _ => !₂[0, 1 / 2]) (fun _ => !₂[0, 1 / 2]) _ _ rfl) ?_ ?_ (hfar _ ?_) (hns _) ?_ ?_
  · rw [key, h1]; rfl
  · intro ot hot o ho
    rw [hmem ot hot] at ho
    rw [hmem' o ho]
    exact disc_ray
  · intro ot hot
    refine .inr (fun o ho hlt => ?_)
    rw [hmem ot hot] at ho
    rw [hmem' o ho] at hlt
    change ‖(!₂[1, 0] : Vec 2)‖ < 1 at hlt
    rw [e_norm] at hlt
    exact absurd hlt (lt_irrefl _)
  · have h0 := PiLp.norm_apply_le ((!₂[0, 1 / 2] : Vec 2) - !₂[1, 0]) 0
    simp at h0
    linarith
  · intro ot hot o ho
    have : o = disc := by
      rw [hmem ot hot] at ho
      exact hmem' o (List.mem_of_getElem? ho)
    subst this
    refine ⟨hfar _ ?_, hns _⟩
    change 1 / 4 < ‖(!₂[0, 1 / 2] : Vec 2) - 0‖
    rw [sub_zero, hv]
    norm_num
  · rintro _ pr' ⟨_, _, u, _, _, _, hprep⟩
    exact slide_cluster argsort hprep

/-- The hypothesis of `C141_projected_weight` is met: an orthonormal basis whose first vector is the given direction. -/
example : ∃ basis : Vec d → (Vec d ≃ₗᵢ[ℝ] Vec d), basis (EuclideanSpace.single i0 1) (EuclideanSpace.single i0 1)
    = EuclideanSpace.single i0 1 := ⟨fun _ => LinearIsometryEquiv.refl ℝ _, rfl⟩

end Verif
