import Verif.Model.Containers
import Verif.Model.Hull

/-!
# Model of `GraphGMM.create_graph_from_gaussians` (gmm_learner/graph.py)

The Gaussians are numbered `0, ..., n - 1`.  The end points (`get_end_point`) and the mixing weights
are inputs; `np.argsort` is an input as well (`pref`), constrained by `IsPreference` in the
statements.
-/

namespace Verif.GmmGraph

/-- `_get_assigned_elements` (graph.py:261-269), `_graph_root` being set. -/
def assigned (g : MultiBoundary) (root : ℕ) : List ℤ := (root : ℤ) :: g.children.flatten

/-- `weights_without_self` (graph.py:306-308): the diagonal is overwritten with `-1`. -/
def withoutSelf (w : ℕ → ℕ → ℝ) (i j : ℕ) : ℝ := if i = j then -1 else w i j

/-- `ind_unassigned` (graph.py:322-324). -/
def unassigned (n : ℕ) (g : MultiBoundary) (root : ℕ) : List ℕ :=
  (List.range n).filter (fun i : ℕ => decide ((i : ℤ) ∉ assigned g root))

/-- `list_parent_child` (graph.py:329-336) for one `it_pref`; `pref c k` is
`parents_preference[c, k]`. -/
def candidates (n : ℕ) (pref : ℕ → ℕ → ℕ) (g : MultiBoundary) (root k : ℕ) : List (ℕ × ℕ) :=
  ((unassigned n g root).filter (fun c => decide ((pref c k : ℤ) ∈ assigned g root))).map
    (fun c => (pref c k, c))

/-- `ind_critical[np.argmax(weights_without_self[ind_critical, it_pref])]` (graph.py:347-351): the
first child with the largest entry in column `it_pref`. -/
noncomputable def critical (w : ℕ → ℕ → ℝ) (k : ℕ) (first : ℕ) (rest : List ℕ) : ℕ :=
  open Classical in
  rest.foldl (fun best c => if withoutSelf w best k < withoutSelf w c k then c else best) first

/-- `for ind_parent, ind_child in list_parent_child: extend_graph` (graph.py:360-361). -/
def extendAll : List (ℕ × ℕ) → MultiBoundary → MultiBoundary × Except PyErr Unit
  | [], g => (g, .ok ())
  | (p, c) :: l, g =>
    match g.extendGraph c p with
    | (g1, .error e) => (g1, .error e)
    | (g1, .ok ()) => extendAll l g1

/-- The body of `if len(list_parent_child)` (graph.py:339-362). -/
noncomputable def assign (w : ℕ → ℕ → ℝ) (pref : ℕ → ℕ → ℕ) (k : ℕ) (l : List (ℕ × ℕ))
    (g : MultiBoundary) : MultiBoundary × Except PyErr Unit :=
  match l with
  | [] => (g, .ok ())
  | [pc] => extendAll [pc] g
  | pc :: pc' :: l =>
    if k = 0 then extendAll (pc :: pc' :: l) g
    else
      g.extendGraph (critical w k pc.2 ((pc' :: l).map Prod.snd))
        (pref (critical w k pc.2 ((pc' :: l).map Prod.snd)) k)

/-- The loop `for it_pref in range(n_gaussians - 1)` (graph.py:328-362). -/
noncomputable def pass (n : ℕ) (w : ℕ → ℕ → ℝ) (pref : ℕ → ℕ → ℕ) (root : ℕ) (g : MultiBoundary) :
    MultiBoundary × Except PyErr Unit :=
  match (List.range (n - 1)).find? (fun k => decide (candidates n pref g root k ≠ [])) with
  | none => (g, .ok ())
  | some k => assign w pref k (candidates n pref g root k) g

/-- The loop `while True` (graph.py:314-362); the first argument is the number of rounds left before
the call of `breakpoint()`. -/
noncomputable def loop (n : ℕ) (w : ℕ → ℕ → ℝ) (pref : ℕ → ℕ → ℕ) (root : ℕ) :
    ℕ → MultiBoundary → MultiBoundary × Except PyErr Unit
  | 0, g => (g, .error .breakpoint)
  | rounds + 1, g =>
    if (assigned g root).length = n then (g, .ok ())
    else
      match pass n w pref root g with
      | (g1, .error e) => (g1, .error e)
      | (g1, .ok ()) => loop n w pref root rounds g1

/-- The graph before the first round (graph.py:284-285). -/
def initial (n : ℕ) : MultiBoundary := ⟨List.replicate n (-1), List.replicate n []⟩

/-- `create_graph_from_gaussians` (graph.py:281-362): the root and the graph. -/
noncomputable def create {d : ℕ} (ends : List (Vec d)) (attractor : Vec d) (w : ℕ → ℕ → ℝ)
    (pref : ℕ → ℕ → ℕ) : Except PyErr (ℕ × MultiBoundary) := do
  let root ← Hull.argmin (ends.map (fun e => ‖e - attractor‖))
  match loop ends.length w pref root 100 (initial ends.length) with
  | (_, .error e) => .error e
  | (g, .ok ()) => .ok (root, g)

end Verif.GmmGraph
