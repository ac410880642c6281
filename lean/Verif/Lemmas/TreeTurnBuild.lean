import Verif.Lemmas.TreeTurn

/-!
# Building a tree in turned coordinates
-/

namespace Verif

open Spec

variable {I : Type} [DecidableEq I] {d : ℕ} {R : Vec d ≃ₗᵢ[ℝ] Vec d}

namespace TreeTurn

/-- The result of a call, described in turned coordinates. -/
noncomputable def turnOutcome {α : Type} (R : Vec d ≃ₗᵢ[ℝ] Vec d) (x : Tree I d × Except PyErr α) :
    Tree I d × Except PyErr α := (turnTree R x.1, x.2)

lemma update_turn (f : I → Option (Vec d)) (n : I) (x : Option (Vec d)) :
    (fun m => (Function.update f n x m).map R) = Function.update (fun m => (f m).map R) n (x.map R) := by
  funext m
  by_cases h : m = n
  · subst h; simp
  · simp [h]

lemma touch_turn (t : Tree I d) (n : I) : (turnTree R t).touch n = turnTree R (t.touch n) := by
  unfold Tree.touch turnTree
  dsimp only
  split_ifs <;> rfl

lemma addEdge_turn (t : Tree I d) (a b : I) : (turnTree R t).addEdge a b = turnTree R (t.addEdge a b) := by
  unfold Tree.addEdge
  simp only [touch_turn]
  by_cases h : (a, b) ∈ ((t.touch a).touch b).edges
  · rw [if_pos h, if_pos (show (a, b) ∈ (turnTree R ((t.touch a).touch b)).edges from h)]
  · rw [if_neg h, if_neg (show (a, b) ∉ (turnTree R ((t.touch a).touch b)).edges from h)]
    rfl

lemma setAttr_turn (t : Tree I d) (n : I) (l : ℤ) (v : Option (Vec d)) :
    (turnTree R t).setAttr n l (v.map R) = turnTree R (t.setAttr n l v) := by
  unfold Tree.setAttr
  rw [touch_turn]
  unfold turnTree
  simp only [update_turn]

lemma setDirection_turn (t : Tree I d) (n : I) (v : Vec d) :
    (turnTree R t).setDirection n (R v) = turnOutcome R (t.setDirection n v) := by
  unfold Tree.setDirection turnOutcome
  rw [show (turnTree R t).nodes = t.nodes from rfl]
  have hs : (turnTree R t).successors n = t.successors n := rfl
  have e : ({ turnTree R t with dir := Function.update (turnTree R t).dir n (some (R v)) } : Tree I d)
      = turnTree R { t with dir := Function.update t.dir n (some v) } := by
    unfold turnTree
    simp only [update_turn, Option.map_some]
  by_cases hn : n ∈ t.nodes
  · rw [if_pos hn, if_pos hn]
    dsimp only
    rw [hs]
    cases t.successors n with
    | nil => exact Prod.ext e rfl
    | cons a l => exact Prod.ext e rfl
  · rw [if_neg hn, if_neg hn]

lemma addNodeFinish_turn (t : Tree I d) (n : I) (v : Vec d) (l : ℤ) :
    (turnTree R t).addNodeFinish n (R v) l = turnOutcome R (t.addNodeFinish n v l) := by
  unfold Tree.addNodeFinish
  split_ifs
  · rfl
  · rw [show (none : Option (Vec d)) = (none : Option (Vec d)).map R from rfl, setAttr_turn, setDirection_turn]
    rfl

/-- `add_node` with turned directions. -/
lemma addNode_turn (t : Tree I d) (n : I) (v : Vec d) (p c : Option I) (l : Option ℤ) :
    (turnTree R t).addNode n (R v) p c l = turnOutcome R (t.addNode n v p c l) := by
  unfold Tree.addNode
  rw [R.norm_map, show (turnTree R t).nodes = t.nodes from rfl]
  by_cases h0 : ‖v‖ = 0
  · rw [if_pos h0, if_pos h0]; rfl
  rw [if_neg h0, if_neg h0]
  dsimp only
  by_cases hn : n ∈ t.nodes
  · rw [if_pos hn, if_pos hn]; rfl
  rw [if_neg hn, if_neg hn, ← map_smul]
  cases p with
  | some p =>
    simp only [addEdge_turn]
    rw [show (turnTree R (t.addEdge p n)).level p = (t.addEdge p n).level p from rfl]
    cases (t.addEdge p n).level p with
    | none => rfl
    | some l => exact addNodeFinish_turn _ _ _ _
  | none =>
    cases c with
    | some c => simp only [addEdge_turn]; rfl
    | none =>
      cases l with
      | none => rfl
      | some l => exact addNodeFinish_turn _ _ _ _

lemma empty_turn : turnTree R (Tree.empty : Tree I d) = Tree.empty := rfl

/-- `set_root` with a turned direction. -/
lemma setRoot_turn [h2 : Fact (2 ≤ d)] (t : Tree I d) (r : I) (v : Vec d) :
    (turnTree R t).setRoot r (R v) = (t.setRoot r v).map (turnTree R) := by
  unfold Tree.setRoot
  by_cases hv : v = 0
  · subst hv
    rw [map_zero, fromDirections_zero (Or.inl rfl)]
    rfl
  · have hv' : R v ≠ 0 := by simpa using hv
    rw [fromDirections_close hv hv (allclose_refl _), fromDirections_close hv' hv' (allclose_refl _)]
    simp only [Except.map, Except.ok.injEq]
    unfold Tree.setRootOrientation
    dsimp only
    rw [unit_turn, show (some (R (unit v)) : Option (Vec d)) = (some (unit v)).map R from rfl, setAttr_turn]
    rfl

end TreeTurn
end Verif
