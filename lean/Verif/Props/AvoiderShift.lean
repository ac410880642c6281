import Verif.Spec.Shift
import Verif.Props.AvoiderExamples

/-!
# C136: the choice of the origin
-/

open scoped RealInnerProductSpace

namespace Verif
open Spec

variable {d k : ℕ} [Fact (2 ≤ d)]
set_option linter.unusedSectionVars false

lemma shift_back (c : Vec d) (o : Obstacle d) : shiftObstacle (-c) (shiftObstacle c o) = o := by
  cases o
  simp [shiftObstacle, Function.comp_def]

lemma shift_component (c : Vec d) (t : ObstacleTree d) (i : ℕ) :
    (shiftTree c t).getComponent i = (t.getComponent i).map (shiftObstacle c) := by
  unfold ObstacleTree.getComponent shiftTree
  simp only [List.getElem?_map]
  cases t.components[i]? <;> rfl

lemma shift_gammas (c : Vec d) (t : ObstacleTree d) (x : Vec d) :
    (shiftTree c t).components.map (fun o => o.gamma (x + c)) = t.components.map (fun o => o.gamma x) := by
  simp [shiftTree, shiftObstacle, Function.comp_def]

lemma shift_gamma (c : Vec d) (t : ObstacleTree d) (x : Vec d) :
    (shiftTree c t).gamma (x + c) = t.gamma x := by
  unfold ObstacleTree.gamma
  rw [shift_gammas]

lemma foldlM_map' {α β γ : Type} (f : β → α → Except PyErr β) (g : γ → α) (l : List γ) (b : β) :
    (l.map g).foldlM f b = l.foldlM (fun b x => f b (g x)) b := by
  induction l generalizing b with
  | nil => rfl
  | cons y l ih => simp only [List.map_cons, List.foldlM_cons, ih]

lemma shift_relativeStep (c x acc : Vec d) (t : ObstacleTree d) (q : ℝ × ℝ) :
    relativeStep (x + c) acc (shiftTree c t, q) = relativeStep x acc (t, q) := by
  unfold relativeStep
  simp only [shiftTree, add_sub_add_right_eq_sub]

lemma shift_relative (c x : Vec d) (l : List (ObstacleTree d)) :
    relativeVelocity (x + c) (l.map (shiftTree c)) = relativeVelocity x l := by
  unfold relativeVelocity
  have h1 : (l.map (shiftTree c)).mapM (fun t => t.gamma (x + c)) = l.mapM (fun t => t.gamma x) := by
    induction l with
    | nil => rfl
    | cons y l ih => simp only [List.map_cons, List.mapM_cons, ih, shift_gamma]
  rw [h1]
  congr 1
  funext g
  rw [List.zip_map_left, foldlM_map']
  simp only [Prod.map, id, shift_relativeStep]

lemma shift_sequence (c x : Vec d) (f : Dynamics d) :
    evaluateDynamicsSequence (x + c) (shiftDynamics c f) = evaluateDynamicsSequence x f := by
  cases f with
  | mk e a s =>
  cases s with
  | some s => simp [evaluateDynamicsSequence, shiftDynamics]
  | none =>
    cases a with
    | none => simp [evaluateDynamicsSequence, shiftDynamics]
    | some a => simp [evaluateDynamicsSequence, shiftDynamics]

/-- The scene moved by `c`, with its own convergence dynamics. -/
noncomputable def movedAvoider (c : Vec d) (a : Avoider d) (K : Convergence d) : Avoider d :=
  { shiftAvoider c a with convergence := K }

lemma foldlM_congr_mem {α β : Type} {f g : β → α → Except PyErr β} (l : List α)
    (h : ∀ x ∈ l, ∀ b, f b x = g b x) (b : β) : l.foldlM f b = l.foldlM g b := by
  induction l generalizing b with
  | nil => rfl
  | cons y l ih =>
    simp only [List.foldlM_cons]
    rw [h y (by simp) b]
    congr 1
    funext b'
    exact ih (fun x hx => h x (by simp [hx])) b'

section Moved
variable {c x : Vec d} {a : Avoider d} {K : Convergence d}

lemma shift_chain (hK : ConvergenceMoved c x a K) (ot : ObstacleTree d) (i q : ℕ) (n : ℕ) :
    ∀ (l b : ℕ) (id : NodeId) (y : Vec d) (t : Tree NodeId d),
      parentChain (movedAvoider c a K) (shiftTree c ot) i q n l b id (y + c) t = parentChain a ot i q n l b id y t := by
  induction n with
  | zero => intros; rfl
  | succ n ih =>
    intro l b id y t
    unfold parentChain
    rw [shift_component]
    cases ot.getComponent b with
    | error e => rfl
    | ok o =>
      have hs : (movedAvoider c a K).convergence.startToEnd (y + c) (shiftObstacle c o).referencePoint
          (movedAvoider c a K).initial.attractorPosition
          = a.convergence.startToEnd y o.referencePoint a.initial.attractorPosition := by
        exact hK.startToEnd y o.referencePoint a.initial.attractorPosition
      have hr : (shiftObstacle c o).referencePoint = o.referencePoint + c := rfl
      have hp : (shiftTree c ot).parentIdx = ot.parentIdx := rfl
      simp only [Except.map, bind, Except.bind, hs]
      simp only [hr, hp, ih]

lemma shift_weight (ot : ObstacleTree d) :
    treeWeight (movedAvoider c a K) (shiftTree c ot) = treeWeight a ot := by
  unfold treeWeight
  have h : (movedAvoider c a K).initial.attractorPosition = a.initial.attractorPosition.map (· + c) := rfl
  rw [h]
  cases a.initial.attractorPosition with
  | none => rfl
  | some z => simp only [Option.map_some, shift_gamma]

lemma shift_convComponent (hK : ConvergenceMoved c x a K) (i : ℕ) {ot : ObstacleTree d} (hot : ot ∈ a.trees) (w : ℝ)
    (s : Option (RotSeq (Vec d))) (st : ConvState d) {o : Obstacle d} (ho : o ∈ ot.components) (j : ℕ) :
    convComponent (movedAvoider c a K) (x + c) i (shiftTree c ot) w s st (shiftObstacle c o, j)
      = convComponent a x i ot w s st (o, j) := by
  unfold convComponent
  have hp : (movedAvoider c a K).convergence.projectedWeight (x + c) (shiftObstacle c o)
      = a.convergence.projectedWeight x o := hK.projectedWeight ot hot o ho
  simp only [hp, shift_chain hK]
  rfl

lemma shift_convTree (ext : Ext d k) (hK : ConvergenceMoved c x a K) (s : RotSeq (Vec d)) (st : ConvState d)
    {ot : ObstacleTree d} (hot : ot ∈ a.trees) (i : ℕ) :
    convTree ext (movedAvoider c a K) (x + c) s st (shiftTree c ot, i) = convTree ext a x s st (ot, i) := by
  have hr : (shiftTree c ot).rootIdx = ot.rootIdx := rfl
  have hc : ∀ w (cs : Option (RotSeq (Vec d))) (st : ConvState d),
      (shiftTree c ot).components.zipIdx.foldlM
        (convComponent (movedAvoider c a K) (x + c) i (shiftTree c ot) w cs) st
        = ot.components.zipIdx.foldlM (convComponent a x i ot w cs) st := by
    intro w cs st
    have : (shiftTree c ot).components.zipIdx = ot.components.zipIdx.map (Prod.map (shiftObstacle c) id) := by
      simp [shiftTree, List.zipIdx_map]
    rw [this, foldlM_map']
    apply foldlM_congr_mem
    rintro ⟨o, j⟩ ho st'
    exact shift_convComponent hK i hot w cs st' (List.mem_of_getElem? (List.mem_zipIdx_iff_getElem?.mp ho)) j
  have hd : ∀ o : Obstacle d, evaluateDynamicsSequence (shiftObstacle c o).referencePoint
      ((movedAvoider c a K).default.getD (movedAvoider c a K).initial)
      = evaluateDynamicsSequence o.referencePoint (a.default.getD a.initial) := by
    intro o
    have h : (movedAvoider c a K).default.getD (movedAvoider c a K).initial
        = shiftDynamics c (a.default.getD a.initial) := by
      unfold movedAvoider shiftAvoider
      cases a.default <;> rfl
    rw [h]
    exact shift_sequence c _ _
  unfold convTree
  simp only [shift_weight, shift_component, hr]
  cases ho : ot.getComponent ot.rootIdx with
  | error e => rfl
  | ok o =>
    have hmem : o ∈ ot.components := by
      unfold ObstacleTree.getComponent at ho
      cases h : ot.components[ot.rootIdx]? with
      | none => rw [h] at ho; cases ho
      | some o' => rw [h] at ho; cases ho; exact List.mem_of_getElem? h
    have hp : (movedAvoider c a K).convergence.projectedWeight (x + c) (shiftObstacle c o)
        = a.convergence.projectedWeight x o := hK.projectedWeight ot hot o hmem
    have ht : (movedAvoider c a K).convergence.positionToTransform (x + c) (shiftObstacle c o)
        = a.convergence.positionToTransform x o := hK.positionToTransform ot hot o hmem
    simp only [Except.map, bind, Except.bind, hp, ht, hd, hc]

lemma shift_convergence (ext : Ext d k) (hK : ConvergenceMoved c x a K) (s : RotSeq (Vec d)) :
    computeConvergenceSequence ext (movedAvoider c a K) (x + c) s = computeConvergenceSequence ext a x s := by
  unfold computeConvergenceSequence
  have h : (movedAvoider c a K).trees.zipIdx = a.trees.zipIdx.map (Prod.map (shiftTree c) id) := by
    simp [movedAvoider, shiftAvoider, List.zipIdx_map]
  rw [h]
  have hf : ∀ st, (a.trees.zipIdx.map (Prod.map (shiftTree c) id)).foldlM
      (convTree ext (movedAvoider c a K) (x + c) s) st = a.trees.zipIdx.foldlM (convTree ext a x s) st := by
    intro st
    rw [foldlM_map']
    apply foldlM_congr_mem
    rintro ⟨ot, i⟩ ho st'
    exact shift_convTree ext hK s st' (List.mem_of_getElem? (List.mem_zipIdx_iff_getElem?.mp ho)) i
  simp only [hf]

end Moved

lemma shift_gammaWeights (ext : Ext d k) (c x v : Vec d) (p : ℝ) (ot : ObstacleTree d) :
    computeGammaAndWeights ext p (x + c) (shiftTree c ot) v = computeGammaAndWeights ext p x ot v := by
  unfold computeGammaAndWeights
  rw [shift_gammas, shift_gamma, shift_component]
  have hr : (shiftTree c ot).rootIdx = ot.rootIdx := rfl
  rw [hr]
  cases ot.getComponent ot.rootIdx with
  | error e => rfl
  | ok o =>
    have h1 : (shiftObstacle c o).normal (x + c) = o.normal x := by simp [shiftObstacle]
    have h2 : (shiftObstacle c o).reference (x + c) = o.reference x := by simp [shiftObstacle]
    simp only [Except.map, bind, Except.bind, h1, h2]

lemma shift_parentOcclusion (c x : Vec d) (o q : Obstacle d) :
    parentOcclusionWeight (x + c) (shiftObstacle c o) (some (shiftObstacle c q))
      = parentOcclusionWeight x o (some q) := by
  unfold parentOcclusionWeight
  simp only [shiftObstacle, add_sub_cancel_right, add_sub_add_right_eq_sub]
  cases o.intersection x (if o.gamma x < 1 then (-1 : ℝ) • o.reference x else o.reference x) with
  | none => rfl
  | some s => simp only [Option.map_some, add_sub_cancel_right]

lemma mapM_map' {α β γ : Type} (f : α → Except PyErr β) (g : γ → α) (l : List γ) :
    (l.map g).mapM f = l.mapM (fun x => f (g x)) := by
  induction l with
  | nil => rfl
  | cons y l ih => simp only [List.map_cons, List.mapM_cons, ih]

lemma shift_occlusion (c x : Vec d) (ot : ObstacleTree d) :
    computeParentOcclusionWeight (x + c) (shiftTree c ot) = computeParentOcclusionWeight x ot := by
  unfold computeParentOcclusionWeight
  have h : (shiftTree c ot).components.zipIdx = ot.components.zipIdx.map (Prod.map (shiftObstacle c) id) := by
    simp [shiftTree, List.zipIdx_map]
  rw [h, mapM_map']
  congr 1
  funext p
  have hr : (shiftTree c ot).rootIdx = ot.rootIdx := rfl
  have hp : (shiftTree c ot).parentIdx = ot.parentIdx := rfl
  simp only [Prod.map, id, hr, hp, shift_component]
  split_ifs with h0
  · rfl
  · cases ot.parentIdx p.2 with
    | none => rfl
    | some q =>
      cases hq : ot.getComponent q with
      | error e => simp [Except.map, bind, Except.bind, hq]
      | ok o => simp only [Except.map, bind, Except.bind, shift_parentOcclusion, hq]

lemma shift_normalAt (c : Vec d) (o : Obstacle d) (s : Vec d) (r : ℝ) :
    getNormalAtDistance (shiftObstacle c o) (s + c) r = getNormalAtDistance o s r := by
  unfold getNormalAtDistance
  have h : ∀ w : Vec d, s + c + w - c = s + w := by intro w; abel
  simp only [shiftObstacle, add_sub_add_right_eq_sub, h, add_sub_cancel_right]

lemma shift_branchLoop (c : Vec d) (ot : ObstacleTree d) (r : ℝ) (n : ℕ) :
    ∀ (m j : ℕ) (s : Vec d), branchLoop (shiftTree c ot) r n m j (s + c) = branchLoop ot r n m j s := by
  induction n with
  | zero => intros; rfl
  | succ n ih =>
    intro m j s
    unfold branchLoop
    have hr : (shiftTree c ot).rootIdx = ot.rootIdx := rfl
    have hp : (shiftTree c ot).parentIdx = ot.parentIdx := rfl
    simp only [hr, hp, shift_component]
    by_cases h0 : j = ot.rootIdx
    · rw [if_pos h0, if_pos h0]
    · rw [if_neg h0, if_neg h0]
      cases ot.getComponent j with
      | error e => rfl
      | ok o =>
        cases ot.parentIdx j with
        | none => rfl
        | some q =>
          cases hq : ot.getComponent q with
          | error e => simp [Except.map, bind, Except.bind, hq]
          | ok p =>
            have h1 : (shiftObstacle c p).intersection (shiftObstacle c o).referencePoint
                (s + c - (shiftObstacle c o).referencePoint)
                = (p.intersection o.referencePoint (s - o.referencePoint)).map (· + c) := by
              simp [shiftObstacle]
            have h2 : ∀ y, (shiftObstacle c p).reference (y + c) = p.reference y := by
              intro y; simp [shiftObstacle]
            simp only [Except.map, bind, Except.bind, h1, hq]
            cases p.intersection o.referencePoint (s - o.referencePoint) with
            | none => rfl
            | some y => simp only [Option.map_some, shift_normalAt, ih, h2]

lemma shift_branch (c x : Vec d) (j : ℕ) (ot : ObstacleTree d) :
    computeBranch (x + c) j (shiftTree c ot) = computeBranch x j ot := by
  unfold computeBranch
  rw [shift_component]
  cases ot.getComponent j with
  | error e => rfl
  | ok o =>
    have h1 : (shiftObstacle c o).gamma (x + c) = o.gamma x := by simp [shiftObstacle]
    have h2 : (shiftObstacle c o).reference (x + c) = o.reference x := by simp [shiftObstacle]
    have h3 : (if o.gamma x > 1 then (shiftObstacle c o).referencePoint else x + c)
        = (if o.gamma x > 1 then o.referencePoint else x) + c := by
      split_ifs <;> rfl
    have h4 : ∀ s v, (shiftObstacle c o).intersection (s + c) v = (o.intersection s v).map (· + c) := by
      intro s v; simp [shiftObstacle]
    simp only [Except.map, bind, Except.bind, h1, h2, h3, h4]
    cases o.intersection (if o.gamma x > 1 then o.referencePoint else x) ((-1 : ℝ) • o.reference x) with
    | none => rfl
    | some s => simp only [Option.map_some, add_sub_add_right_eq_sub, shift_normalAt, shift_branchLoop]

lemma shift_tangentBranch (ext : Ext d k) (c x v : Vec d) (j i : ℕ) (ot : ObstacleTree d) (r : ℝ)
    (t : Tree NodeId d) :
    tangentBranch ext (x + c) j v (shiftTree c ot) i r t = tangentBranch ext x j v ot i r t := by
  unfold tangentBranch
  rw [shift_branch, shift_component]
  cases hc : ot.getComponent j with
  | error e => simp only [Except.map, bind, Except.bind]
  | ok o => simp only [Except.map, bind, Except.bind]; rfl

lemma shift_componentRadius (c x : Vec d) (r g s : ℝ) (o : Obstacle d)
    (h : allclose (x + c) (o.center + c) ↔ allclose x o.center) :
    componentRadius r g s (x + c) (shiftObstacle c o) = componentRadius r g s x o := by
  unfold componentRadius
  have hc : (shiftObstacle c o).center = o.center + c := rfl
  rw [hc]
  by_cases h0 : allclose x o.center
  · rw [if_pos h0, if_pos (h.mpr h0)]
  · rw [if_neg h0, if_neg (fun hn => h0 (h.mp hn))]
    have h4 : ∀ v, (shiftObstacle c o).intersection (o.center + c) v = (o.intersection o.center v).map (· + c) := by
      intro v; simp [shiftObstacle]
    rw [h4, add_sub_add_right_eq_sub]
    cases o.intersection o.center (x - o.center) with
    | none => rfl
    | some y => simp only [Option.map_some, add_sub_add_right_eq_sub]

lemma shift_radii (c x : Vec d) (a : Avoider d) (ot : ObstacleTree d) (h : SameRadii a c x ot) (w : List ℝ)
    (hw : ∀ p ∈ ot.components.zip w, p.2 < 1 → p.1.gamma x < 1) (r : ℝ) :
    computeConvergenceRadiuses r a.gammaMaximumRepulsion (x + c) ((shiftTree c ot).components.zip w)
      = computeConvergenceRadiuses r a.gammaMaximumRepulsion x (ot.components.zip w) := by
  unfold computeConvergenceRadiuses
  have hz : (shiftTree c ot).components.zip w = (ot.components.zip w).map (Prod.map (shiftObstacle c) id) := by
    simp [shiftTree, List.zip_map_left]
  rw [hz]
  rcases h with h | h
  · rw [h]
    simp only [List.map_map, Function.comp_def]
  · cases a.gammaMaximumRepulsion with
    | none => simp only [List.map_map, Function.comp_def]
    | some g =>
      have key : ((ot.components.zip w).map (Prod.map (shiftObstacle c) id)).mapM
          (fun c_1 => if c_1.2 < 1 then componentRadius r g Real.pi (x + c) c_1.1 else some r)
          = (ot.components.zip w).mapM (fun c => if c.2 < 1 then componentRadius r g Real.pi x c.1 else some r) := by
        have hall : ∀ p ∈ ot.components.zip w,
            (if p.2 < 1 then componentRadius r g Real.pi (x + c) (shiftObstacle c p.1) else some r)
              = (if p.2 < 1 then componentRadius r g Real.pi x p.1 else some r) := by
          intro p hp
          split_ifs with h1
          · exact shift_componentRadius c x r g _ p.1 (h p.1 (List.of_mem_zip hp).1 (hw p hp h1))
          · rfl
        clear hz hw h
        generalize ot.components.zip w = l at hall ⊢
        induction l with
        | nil => rfl
        | cons p l ih =>
          simp only [List.map_cons, List.mapM_cons, Prod.map, id]
          rw [hall p (by simp)]
          have := ih (fun q hq => hall q (by simp [hq]))
          rw [← this]
      simp only [key]

/-- The distance values handed to the radii are below one at most for the components which contain the position. -/
lemma weights_below (ext : Ext d k) (x v : Vec d) (p : ℝ) (ot : ObstacleTree d) {g w : List ℝ} {s : ℝ × ℝ}
    (h : computeGammaAndWeights ext p x ot v = .ok (g, w, s)) :
    ∀ q ∈ ot.components.zip g, q.2 < 1 → q.1.gamma x < 1 := by
  unfold computeGammaAndWeights at h
  obtain ⟨root, hroot, h⟩ := bind_ok.mp h
  obtain ⟨gm, hgm, h⟩ := bind_ok.mp h
  obtain ⟨rw', hrw, h⟩ := bind_ok.mp h
  split_ifs at h with h1 h2
  · cases h
    intro q hq hq1
    have := (List.of_mem_zip hq).2
    simp only [List.mem_map] at this
    obtain ⟨_, _, h3⟩ := this
    rw [← h3] at hq1
    exact absurd hq1 (lt_irrefl _)
  · cases h
    intro q hq hq1
    rw [List.zip_map_right] at hq
    simp only [List.mem_map] at hq
    obtain ⟨⟨o, o'⟩, hmem, rfl⟩ := hq
    have : o = o' := by
      rw [List.mem_iff_getElem] at hmem
      obtain ⟨n, hn, he⟩ := hmem
      rw [List.getElem_zip] at he
      cases he
      rfl
    subst this
    exact hq1

lemma shift_populate (ext : Ext d k) (c x v : Vec d) (a : Avoider d) (K : Convergence d) (ot : ObstacleTree d)
    (h : SameRadii a c x ot) (i : ℕ) (w g : List ℝ) (hw : ∀ q ∈ ot.components.zip g, q.2 < 1 → q.1.gamma x < 1)
    (st : Tree NodeId d × List NodeId × List (Vec d)) :
    populateTangentTree ext (movedAvoider c a K) (x + c) v (shiftTree c ot) i w g st
      = populateTangentTree ext a x v ot i w g st := by
  unfold populateTangentTree
  have h1 : (movedAvoider c a K).convergenceRadius = a.convergenceRadius := rfl
  have h2 : (movedAvoider c a K).gammaMaximumRepulsion = a.gammaMaximumRepulsion := rfl
  have h3 : (shiftTree c ot).components.length = ot.components.length := by simp [shiftTree]
  have h4 : populateStep ext (x + c) v (shiftTree c ot) i = populateStep ext x v ot i := by
    funext st q
    unfold populateStep
    simp only [shift_tangentBranch]
  rw [h1, h2, h3, h4, shift_radii c x a ot h g hw]

lemma shift_tangentStep (ext : Ext d k) (c x v : Vec d) (a : Avoider d) (K : Convergence d) (ot : ObstacleTree d)
    (h : SameRadii a c x ot) (i : ℕ) (st : TangentState d) :
    tangentStep ext (movedAvoider c a K) (x + c) v st (shiftTree c ot, i) = tangentStep ext a x v st (ot, i) := by
  unfold tangentStep
  have hp : (movedAvoider c a K).power = a.power := rfl
  simp only [shift_gammaWeights, shift_occlusion, hp]
  cases hg : computeGammaAndWeights ext a.power x ot v with
  | error e => rfl
  | ok r =>
    obtain ⟨g, w, s⟩ := r
    have hw := weights_below ext x v a.power ot hg
    simp only [bind, Except.bind, shift_populate ext c x v a K ot h i _ g hw]

lemma shift_prepare (ext : Ext d k) (c x v : Vec d) (a : Avoider d) (K : Convergence d) (h : ∀ ot ∈ a.trees, SameRadii a c x ot) :
    prepareAvoidance ext (movedAvoider c a K) (x + c) v = prepareAvoidance ext a x v := by
  unfold prepareAvoidance
  have hz : (movedAvoider c a K).trees.zipIdx = a.trees.zipIdx.map (Prod.map (shiftTree c) id) := by
    simp [movedAvoider, shiftAvoider, List.zipIdx_map]
  have key : ∀ (l : List (ObstacleTree d × ℕ)), (∀ p ∈ l, SameRadii a c x p.1) → ∀ st,
      (l.map (Prod.map (shiftTree c) id)).foldlM (tangentStep ext (movedAvoider c a K) (x + c) v) st
        = l.foldlM (tangentStep ext a x v) st := by
    intro l
    induction l with
    | nil => intros; rfl
    | cons p l ih =>
      intro hl st
      simp only [List.map_cons, List.foldlM_cons]
      have : tangentStep ext (movedAvoider c a K) (x + c) v st (Prod.map (shiftTree c) id p)
          = tangentStep ext a x v st p := shift_tangentStep ext c x v a K p.1 (hl p (by simp)) p.2 st
      rw [this]
      congr 1
      funext st'
      exact ih (fun q hq => hl q (by simp [hq])) st'
  have hl : ∀ p ∈ a.trees.zipIdx, SameRadii a c x p.1 := by
    rintro ⟨ot, i⟩ hp
    exact h ot (List.mem_of_getElem? (List.mem_zipIdx_iff_getElem?.mp hp))
  rw [hz]
  simp only [key _ hl]

/-- C136: if the whole scene is described with another origin, the velocity at the same place is the same; also the
exceptions are the same.  The convergence dynamics is any object which gives the same results in the new coordinates.
Missing: positions inside of an obstacle, where `np.allclose(position, center)` (multi_obstacle_avoider.py:1036) depends
on the origin; see `C136_inside`. -/
theorem C136_partial (ext : Ext d k) (c x : Vec d) (a : Avoider d) (K : Convergence d) (hK : ConvergenceMoved c x a K)
    (h : ∀ ot ∈ a.trees, SameRadii a c x ot) :
    ({ shiftAvoider c a with convergence := K } : Avoider d).evaluate ext (x + c) = a.evaluate ext x := by
  change (movedAvoider c a K).evaluate ext (x + c) = _
  unfold Avoider.evaluate evaluateSequence
  have h1 : evaluateDynamicsSequence (x + c) (movedAvoider c a K).initial = evaluateDynamicsSequence x a.initial :=
    shift_sequence c x a.initial
  have h3 : (movedAvoider c a K).magnitude (x + c) = a.magnitude x := by
    unfold Avoider.magnitude movedAvoider shiftAvoider shiftDynamics
    cases a.evaluateMagnitude <;> simp
  have h4 : relativeVelocity (x + c) (movedAvoider c a K).trees = relativeVelocity x a.trees := shift_relative c x a.trees
  simp only [h1, h3, h4, shift_convergence ext hK, shift_prepare ext c x _ a K h]
  simp only [movedAvoider, shiftAvoider, List.map_eq_nil_iff]

lemma shift_convergence_moved (c x : Vec d) (a : Avoider d) :
    ConvergenceMoved c x a (shiftConvergence c a.convergence) := by
  refine ⟨?_, ?_, ?_⟩
  · intro ot _ o _
    change a.convergence.projectedWeight (x + c - c) (shiftObstacle (-c) (shiftObstacle c o)) = _
    rw [shift_back, add_sub_cancel_right]
  · intro ot _ o _
    change a.convergence.positionToTransform (x + c - c) (shiftObstacle (-c) (shiftObstacle c o)) = _
    rw [shift_back, add_sub_cancel_right]
  · intro s e z
    change a.convergence.startToEnd (s + c - c) (e + c - c) ((z.map (· + c)).map (· - c)) = _
    rw [add_sub_cancel_right, add_sub_cancel_right, Option.map_map]
    simp [Function.comp_def]

/-- C136: outside of all obstacles, or without the larger radius inside of them, the origin does not matter. -/
theorem C136_outside (ext : Ext d k) (c x : Vec d) (a : Avoider d)
    (h : a.gammaMaximumRepulsion = none ∨ ∀ ot ∈ a.trees, ∀ o ∈ ot.components, 1 ≤ o.gamma x) :
    (shiftAvoider c a).evaluate ext (x + c) = a.evaluate ext x := by
  refine C136_partial ext c x a (shiftConvergence c a.convergence) (shift_convergence_moved c x a) ?_
  intro ot hot
  rcases h with h | h
  · exact .inl h
  · exact .inr (fun o ho hlt => absurd hlt (not_lt.mpr (h ot hot o ho)))

/-- C136: the convergence dynamics without singularity for the moved dynamics is the moved convergence dynamics. -/
theorem C136_without_singularity (c : Vec d) (f g : Vec d → Vec d) :
    shiftConvergence c (convergenceWithoutSingularity f g)
      = convergenceWithoutSingularity (fun y => f (y - c)) (fun y => g (y - c)) := by
  unfold shiftConvergence convergenceWithoutSingularity
  simp [shiftObstacle]

lemma shift_projectedPosition (basis : Vec d → (Vec d ≃ₗᵢ[ℝ] Vec d)) (g : Geometry d) (c x z : Vec d)
    (h : NotFar basis g z x) :
    Projected.projectedPosition basis (shiftGeometry c g) (z + c) (x + c)
      = (Projected.projectedPosition basis g z x).map (· + c) := by
  unfold Projected.projectedPosition
  simp only [shiftGeometry, add_sub_cancel_right]
  split_ifs with h1 h2
  · rfl
  · rfl
  · cases hp : Projected.deflate g.localRadius none (g.toLocal x) with
    | none => rfl
    | some p =>
      cases hq : Projected.deflate g.localRadius none (g.toLocal z) with
      | none => rfl
      | some q =>
        have hf := h p q hp hq
        simp only [bind, Option.bind, pure]
        rw [if_neg (not_lt.mpr hf), if_neg (not_lt.mpr hf)]
        rfl

/-- C136: the convergence dynamics with the projection (`ProjectedRotationDynamics`): if the attractor and the obstacles
move, the results are the same, unless the folded position is further away than `1e10`; then
`get_projected_position` returns local instead of global coordinates (projected_rotation_dynamics.py:390-392). -/
theorem C136_projection (basis : Vec d → (Vec d ≃ₗᵢ[ℝ] Vec d)) (geometry : Obstacle d → Geometry d) (z c x : Vec d)
    (a : Avoider d) (ha : a.convergence = Projected.convergence basis geometry z)
    (h : ∀ t ∈ a.trees, ∀ o ∈ t.components, NotFar basis (geometry o) z x) :
    ConvergenceMoved c x a
      (Projected.convergence basis (fun o => shiftGeometry c (geometry (shiftObstacle (-c) o))) (z + c)) := by
  rw [show a = { a with convergence := Projected.convergence basis geometry z } by rw [← ha]]
  refine ⟨?_, ?_, ?_⟩
  · intro t ht o ho
    have key : Projected.evaluateProjectedWeight basis (shiftGeometry c (geometry o)) (z + c) (x + c) (shiftObstacle c o)
        = Projected.evaluateProjectedWeight basis (geometry o) z x o := by
      unfold Projected.evaluateProjectedWeight
      rw [shift_projectedPosition basis _ c x z (h t ht o ho)]
      cases Projected.projectedPosition basis (geometry o) z x with
      | none => rfl
      | some p => simp [shiftObstacle]
    simp only [Projected.convergence, shift_back, key]
  · intro t ht o ho
    simp only [Projected.convergence, Projected.rotationPositionToTransform, Projected.rotationStartToEnd, shiftObstacle,
      add_sub_add_right_eq_sub]
  · intro s e y
    cases y with
    | none => rfl
    | some y =>
      simp only [Projected.convergence, Projected.rotationStartToEnd, Option.map_some, add_sub_add_right_eq_sub]

/-- C136 is violated inside of obstacles: whatever the obstacle and the position, there is an origin for which the
position counts as equal to the centre, and the convergence radius is the one of the centre (180 degrees).  The relative
tolerance of `np.allclose` (multi_obstacle_avoider.py:1036) grows with the distance of the obstacle from the origin. -/
theorem C136_inside (o : Obstacle d) (x : Vec d) (r g : ℝ) :
    ∃ c, componentRadius r g Real.pi (x + c) (shiftObstacle c o) = some Real.pi := by
  refine ⟨WithLp.toLp 2 (fun _ => 1e5 * ‖x - o.center‖ + ‖o.center‖), ?_⟩
  unfold componentRadius
  rw [if_pos]
  intro i
  change |x i + _ - (o.center i + _)| ≤ 1e-8 + 1e-5 * |o.center i + (1e5 * ‖x - o.center‖ + ‖o.center‖)|
  simp only [add_sub_add_right_eq_sub]
  have h1 : |x i - o.center i| ≤ ‖x - o.center‖ := by
    have := PiLp.norm_apply_le (x - o.center) i
    simpa using this
  have h2 : |o.center i| ≤ ‖o.center‖ := by
    simpa using PiLp.norm_apply_le o.center i
  have h3 := (abs_le.mp h2).1
  have h4 : 1e5 * ‖x - o.center‖ ≤ |o.center i + (1e5 * ‖x - o.center‖ + ‖o.center‖)| :=
    le_trans (by linarith) (le_abs_self _)
  nlinarith

/-- `C136_outside` is not vacuous: on the surface of a disc the avoider returns a velocity. -/
example : ∃ (ext : Ext 2 1) (a : Avoider 2) (x w : Vec 2), a.trees ≠ []
    ∧ (∀ ot ∈ a.trees, ∀ o ∈ ot.components, 1 ≤ o.gamma x) ∧ a.evaluate ext x = .ok w := by
  obtain ⟨argsort, has⟩ := argsort_exists
  obtain ⟨w, pr, h1, _⟩ := slide_run argsort has
  refine ⟨_, _, _, w, by simp [discAvoider], ?_, h1⟩
  intro ot hot o ho
  have : ot = discTree := by simpa [discAvoider] using hot
  subst this
  have : o = disc := by simpa [discTree] using ho
  subst this
  change 1 ≤ ‖(1 : ℝ) • (!₂[1, 0] : Vec 2)‖
  rw [one_smul, e_norm]

/-- `C136_inside` changes the result: close to the surface of the disc the radius is 135 degrees if the centre of the
disc is the origin. -/
example : componentRadius (Real.pi * 0.5) 0.8 Real.pi (!₂[0.9, 0] : Vec 2) disc = some (Real.pi * 0.75) := by
  have hn : ‖(!₂[0.9, 0] : Vec 2)‖ = 0.9 := by
    rw [EuclideanSpace.norm_eq, Fin.sum_univ_two]
    simp only [Matrix.cons_val_zero, Matrix.cons_val_one, norm_zero]
    rw [show ‖(0.9 : ℝ)‖ ^ 2 + (0 : ℝ) ^ 2 = 0.9 ^ 2 by rw [Real.norm_eq_abs, sq_abs]; ring]
    exact Real.sqrt_sq (by norm_num)
  have hx : (!₂[0.9, 0] : Vec 2) ≠ 0 := by
    intro h; rw [h, norm_zero] at hn; norm_num at hn
  unfold componentRadius
  rw [if_neg]
  · have hi : disc.intersection disc.center ((!₂[0.9, 0] : Vec 2) - disc.center) = some ((1 / 0.9 : ℝ) • !₂[0.9, 0]) := by
      rw [show (!₂[0.9, 0] : Vec 2) - disc.center = !₂[0.9, 0] from sub_zero _]
      change (if (!₂[0.9, 0] : Vec 2) = 0 ∨ _ then none else some _) = _
      rw [if_neg]
      · simp only [disc, inner_zero_left, norm_zero, hn, neg_zero, zero_add]
        congr 2
        rw [show (0 : ℝ) ^ 2 - 0.9 ^ 2 * (0 ^ 2 - 1) = 0.9 ^ 2 by norm_num, Real.sqrt_sq (by norm_num)]
        norm_num
      · push Not
        refine ⟨hx, ?_⟩
        simp only [disc, inner_zero_left, norm_zero, hn]
        norm_num
    rw [hi]
    have h1 : ‖(1 / 0.9 : ℝ) • (!₂[0.9, 0] : Vec 2) - disc.center‖ = 1 := by
      change ‖(1 / 0.9 : ℝ) • (!₂[0.9, 0] : Vec 2) - 0‖ = 1
      rw [sub_zero, norm_smul, hn]; norm_num
    have h2 : ‖(!₂[0.9, 0] : Vec 2) - disc.center‖ = 0.9 := by
      change ‖(!₂[0.9, 0] : Vec 2) - 0‖ = _
      rw [sub_zero, hn]
    simp only [h1, h2]
    rw [if_neg (by norm_num), if_neg (by norm_num)]
    congr 1
    ring_nf
  · intro h
    have := h 0
    change |(0.9 : ℝ) - 0| ≤ 1e-8 + 1e-5 * |0| at this
    norm_num at this

/-- The hypothesis of `C136_projection` is met by positions for which the folded position is computed. -/
example (basis : Vec d → (Vec d ≃ₗᵢ[ℝ] Vec d)) (x z : Vec d) (hx : ‖x‖ = 1) (hz : ‖z‖ = 2) :
    NotFar basis ⟨id, id, fun _ => 2, fun _ => 1⟩ z x := by
  have hset : ∀ t : Vec d, ‖Projected.setFirst t 0‖ ≤ ‖t‖ := by
    intro t
    rw [EuclideanSpace.norm_eq, EuclideanSpace.norm_eq]
    apply Real.sqrt_le_sqrt
    apply Finset.sum_le_sum
    intro i _
    by_cases hi : i = i0
    · subst hi; simp [Projected.setFirst, sq_nonneg]
    · simp [Projected.setFirst, Function.update_of_ne hi]
  intro p q hp hq
  have hp0 : p = 0 := by
    simp [Projected.deflate, Projected.relative, Projected.absolute, hx] at hp
    exact hp.symm
  have hq0 : q = (1 / 2 : ℝ) • z := by
    simp only [Projected.deflate, Projected.relative, Projected.absolute, id, hz] at hq
    norm_num at hq
    rw [← hq]
  have hqn : ‖q‖ = 1 := by rw [hq0, norm_smul, hz]; norm_num
  subst hp0
  have h1 : ‖(-1 : ℝ) • q‖ = 1 := by rw [norm_smul, hqn]; norm_num
  have hf : Projected.fold basis none 0 q
      = basis ((-1 : ℝ) • q) (Projected.setFirst ((basis ((-1 : ℝ) • q)).symm ((-1 : ℝ) • q)) 0) := by
    have hneg : (0 : Vec d) - q = (-1 : ℝ) • q := by rw [zero_sub, neg_one_smul]
    have hin : ⟪(-1 : ℝ) • q, (-1 : ℝ) • q⟫ = 1 := by rw [real_inner_self_eq_norm_sq, h1]; norm_num
    unfold Projected.fold Projected.attractorToObstacle Projected.foldedRadial Projected.foldTail Projected.absolute
    simp only [h1, hneg, div_one, Real.log_one, mul_zero, one_smul, one_ne_zero, if_false, ne_eq, not_false_eq_true,
      if_true, hin, lt_irrefl, mul_one]
    rw [if_neg (by norm_num)]
    unfold Projected.setFirst
    simp
  rw [hf, LinearIsometryEquiv.norm_map]
  refine (hset _).trans ?_
  rw [LinearIsometryEquiv.norm_map, h1]
  norm_num

end Verif
