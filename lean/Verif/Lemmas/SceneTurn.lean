import Verif.Lemmas.TangentTurn
import Verif.Props.AvoiderShift

/-!
# The avoidance in turned coordinates
-/

open scoped RealInnerProductSpace

namespace Verif

open Spec

variable {d k : ℕ} [h2 : Fact (2 ≤ d)] {R : Vec d ≃ₗᵢ[ℝ] Vec d} {ext : Ext d k}
set_option linter.unusedSectionVars false

lemma turn_component (t : ObstacleTree d) (i : ℕ) :
    (turnObstacles R t).getComponent i = (t.getComponent i).map (turnObstacle R) := by
  unfold ObstacleTree.getComponent turnObstacles
  simp only [List.getElem?_map]
  cases t.components[i]? <;> rfl

lemma turn_gammas (t : ObstacleTree d) (x : Vec d) :
    (turnObstacles R t).components.map (fun o => o.gamma (R x)) = t.components.map (fun o => o.gamma x) := by
  simp [turnObstacles, turnObstacle, Function.comp_def]

lemma turn_gamma (t : ObstacleTree d) (x : Vec d) : (turnObstacles R t).gamma (R x) = t.gamma x := by
  unfold ObstacleTree.gamma
  rw [turn_gammas]

lemma turn_relativeStep (x acc : Vec d) (t : ObstacleTree d) (ht : ¬ Rotating t) (q : ℝ × ℝ) :
    relativeStep (R x) (R acc) (turnObstacles R t, q) = (relativeStep x acc (t, q)).map R := by
  unfold relativeStep
  simp only [turnObstacles]
  by_cases hq : q.2 ≤ 0
  · rw [if_pos hq, if_pos hq]; rfl
  rw [if_neg hq, if_neg hq]
  cases htw : t.twist with
  | none =>
    simp only [Option.map_none]
    cases t.deformationRate with
    | none => rfl
    | some r => simp only [Except.map, map_add, map_smul, map_sub]
  | some tw =>
    obtain ⟨lin, w⟩ := tw
    cases w with
    | some w => exact absurd ⟨lin, w, htw⟩ ht
    | none =>
      simp only [Option.map_some]
      cases t.deformationRate with
      | none => simp only [Except.map, map_add, map_smul]
      | some r => simp only [Except.map, map_add, map_smul, map_sub]

lemma foldlM_turn {α β : Type} (T : β → β) (f f' : β → α → Except PyErr β) (l : List α)
    (h : ∀ y ∈ l, ∀ b, f' (T b) y = (f b y).map T) (b : β) : l.foldlM f' (T b) = (l.foldlM f b).map T := by
  induction l generalizing b with
  | nil => rfl
  | cons y l ih =>
    simp only [List.foldlM_cons]
    rw [h y (by simp) b]
    cases f b y with
    | error e => rfl
    | ok b' => exact ih (fun x hx => h x (by simp [hx])) b'

lemma turn_relative (x : Vec d) (l : List (ObstacleTree d)) (hl : ∀ t ∈ l, ¬ Rotating t) :
    relativeVelocity (R x) (l.map (turnObstacles R)) = (relativeVelocity x l).map R := by
  unfold relativeVelocity
  have h1 : (l.map (turnObstacles R)).mapM (fun t => t.gamma (R x)) = l.mapM (fun t => t.gamma x) := by
    clear hl
    induction l with
    | nil => rfl
    | cons y l ih => simp only [List.map_cons, List.mapM_cons, ih, turn_gamma]
  rw [h1]
  cases l.mapM (fun t => t.gamma x) with
  | error e => rfl
  | ok g =>
    simp only [bind, Except.bind]
    rw [List.zip_map_left, foldlM_map']
    have h0 : (0 : Vec d) = R 0 := by simp
    conv_lhs => rw [h0]
    exact foldlM_turn R _ _ _ (fun y hy b => turn_relativeStep x b y.1 (hl _ (List.of_mem_zip hy).1) y.2) 0

lemma turn_gammaWeights (hs : DirectionSpace ext) {x v : Vec d} (hv : ‖v‖ = 1) (p : ℝ) (ot : ObstacleTree d)
    (hn : ∀ o ∈ ot.components, ‖o.normal x‖ = 1 ∧ ‖o.reference x‖ = 1 ∧ ⟪o.normal x, o.reference x⟫ < 0) :
    computeGammaAndWeights ext p (R x) (turnObstacles R ot) (R v) = computeGammaAndWeights ext p x ot v := by
  unfold computeGammaAndWeights
  rw [turn_gammas, turn_gamma, turn_component]
  have hr : (turnObstacles R ot).rootIdx = ot.rootIdx := rfl
  rw [hr]
  cases ho : ot.getComponent ot.rootIdx with
  | error e => rfl
  | ok o =>
    have hmem : o ∈ ot.components := by
      unfold ObstacleTree.getComponent at ho
      cases h : ot.components[ot.rootIdx]? with
      | none => rw [h] at ho; cases ho
      | some o' => rw [h] at ho; cases ho; exact List.mem_of_getElem? h
    have h1 : (turnObstacle R o).normal (R x) = R (o.normal x) := by simp [turnObstacle]
    have h2 : (turnObstacle R o).reference (R x) = R (o.reference x) := by simp [turnObstacle]
    obtain ⟨n1, n2, n3⟩ := hn o hmem
    have hw := fun g => rotationWeight_turn (R := R) hs hv n1 n2 n3 g p
    simp only [Except.map, bind, Except.bind, h1, h2, hw, R.norm_map, ← map_smul, R.inner_map_map]

lemma turn_parentOcclusion (x : Vec d) (o q : Obstacle d) :
    parentOcclusionWeight (R x) (turnObstacle R o) (some (turnObstacle R q))
      = parentOcclusionWeight x o (some q) := by
  unfold parentOcclusionWeight
  have hd : (if (turnObstacle R o).gamma (R x) < 1 then (-1 : ℝ) • (turnObstacle R o).reference (R x)
      else (turnObstacle R o).reference (R x))
      = R (if o.gamma x < 1 then (-1 : ℝ) • o.reference x else o.reference x) := by
    simp only [turnObstacle, R.symm_apply_apply]
    split_ifs <;> simp
  simp only [hd]
  have hi : ∀ w, (turnObstacle R o).intersection (R x) (R w) = (o.intersection x w).map R := by
    intro w; simp [turnObstacle]
  rw [hi]
  cases o.intersection x (if o.gamma x < 1 then (-1 : ℝ) • o.reference x else o.reference x) with
  | none => rfl
  | some s =>
    simp only [Option.map_some, turnObstacle, R.symm_apply_apply, ← map_sub, R.norm_map, R.inner_map_map]

lemma turn_zipIdx (ot : ObstacleTree d) :
    (turnObstacles R ot).components.zipIdx = ot.components.zipIdx.map (Prod.map (turnObstacle R) id) := by
  simp [turnObstacles, List.zipIdx_map]

lemma turn_occlusion (x : Vec d) (ot : ObstacleTree d) :
    computeParentOcclusionWeight (R x) (turnObstacles R ot) = computeParentOcclusionWeight x ot := by
  unfold computeParentOcclusionWeight
  rw [turn_zipIdx, mapM_map']
  congr 1
  funext p
  have hr : (turnObstacles R ot).rootIdx = ot.rootIdx := rfl
  have hp : (turnObstacles R ot).parentIdx = ot.parentIdx := rfl
  simp only [Prod.map, id, hr, hp, turn_component]
  split_ifs with h0
  · rfl
  · cases ot.parentIdx p.2 with
    | none => rfl
    | some q =>
      cases hq : ot.getComponent q with
      | error e => simp [Except.map, bind, Except.bind, hq]
      | ok o => simp only [Except.map, bind, Except.bind, turn_parentOcclusion, hq]

lemma turn_normalAt (o : Obstacle d) (s : Vec d) (r : ℝ) :
    getNormalAtDistance (turnObstacle R o) (R s) r = (getNormalAtDistance o s r).map R := by
  unfold getNormalAtDistance
  simp only [turnObstacle, ← map_sub, ← map_smul, ← map_add, R.norm_map, R.symm_apply_apply]
  split_ifs <;> rfl

/-- An entry of a branch in turned coordinates. -/
noncomputable def turnEntry (R : Vec d ≃ₗᵢ[ℝ] Vec d) (e : BranchEntry d) : BranchEntry d :=
  ⟨e.idx, R e.normal, R e.reference⟩

lemma turn_branchLoop (ot : ObstacleTree d) (r : ℝ) (n : ℕ) :
    ∀ (m j : ℕ) (s : Vec d), branchLoop (turnObstacles R ot) r n m j (R s)
      = (branchLoop ot r n m j s).map (List.map (turnEntry R)) := by
  induction n with
  | zero => intros; rfl
  | succ n ih =>
    intro m j s
    unfold branchLoop
    have hr : (turnObstacles R ot).rootIdx = ot.rootIdx := rfl
    have hp : (turnObstacles R ot).parentIdx = ot.parentIdx := rfl
    simp only [hr, hp, turn_component]
    by_cases h0 : j = ot.rootIdx
    · rw [if_pos h0, if_pos h0]; rfl
    · rw [if_neg h0, if_neg h0]
      cases ot.getComponent j with
      | error e => rfl
      | ok o =>
        cases ot.parentIdx j with
        | none => rfl
        | some q =>
          cases hq : ot.getComponent q with
          | error e => simp [Except.map, bind, Except.bind, hq]
          | ok p =>
            have h1 : (turnObstacle R p).intersection (turnObstacle R o).referencePoint
                (R s - (turnObstacle R o).referencePoint)
                = (p.intersection o.referencePoint (s - o.referencePoint)).map R := by
              simp [turnObstacle, ← map_sub]
            have h2 : ∀ y, (turnObstacle R p).reference (R y) = R (p.reference y) := by
              intro y; simp [turnObstacle]
            simp only [Except.map, bind, Except.bind, h1, hq]
            by_cases hm : m + 1 > 10
            · rw [if_pos hm, if_pos hm]
            rw [if_neg hm, if_neg hm]
            cases p.intersection o.referencePoint (s - o.referencePoint) with
            | none => rfl
            | some y =>
              simp only [Option.map_some, turn_normalAt, ih, h2]
              cases getNormalAtDistance p y r with
              | error e => rfl
              | ok w =>
                simp only [Except.map]
                cases branchLoop ot r n (m + 1) q y with
                | error e => rfl
                | ok l => rfl

lemma turn_branch (x : Vec d) (j : ℕ) (ot : ObstacleTree d) :
    computeBranch (R x) j (turnObstacles R ot) = (computeBranch x j ot).map (List.map (turnEntry R)) := by
  unfold computeBranch
  rw [turn_component]
  cases ot.getComponent j with
  | error e => rfl
  | ok o =>
    have h1 : (turnObstacle R o).gamma (R x) = o.gamma x := by simp [turnObstacle]
    have h2 : (turnObstacle R o).reference (R x) = R (o.reference x) := by simp [turnObstacle]
    have h3 : (if o.gamma x > 1 then (turnObstacle R o).referencePoint else R x)
        = R (if o.gamma x > 1 then o.referencePoint else x) := by
      split_ifs <;> rfl
    have h4 : ∀ s v, (turnObstacle R o).intersection (R s) (R v) = (o.intersection s v).map R := by
      intro s v; simp [turnObstacle]
    simp only [Except.map, bind, Except.bind, h1, h2, h3, ← map_smul, h4]
    cases o.intersection (if o.gamma x > 1 then o.referencePoint else x) ((-1 : ℝ) • o.reference x) with
    | none => rfl
    | some s =>
      simp only [Option.map_some, ← map_sub, R.norm_map, turn_normalAt, turn_branchLoop]
      cases getNormalAtDistance o s (if o.gamma x > 1 then ‖x - s‖ else 0) with
      | error e => rfl
      | ok w =>
        simp only [Except.map]
        cases branchLoop ot (if o.gamma x > 1 then ‖x - s‖ else 0) 100 1 j s with
        | error e => rfl
        | ok l => rfl

end Verif
