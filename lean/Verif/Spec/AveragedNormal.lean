import Verif.Model.Avoider

/-!
# Specification: averages of the normals of all components
-/

namespace Verif.Spec

variable {d : ℕ}

/-- All components of all obstacles. -/
def parts (trees : List (ObstacleTree d)) : List (Obstacle d) := trees.flatMap (fun t => t.components)

/-- The components which touch or contain the position. -/
noncomputable def touching (trees : List (ObstacleTree d)) (x : Vec d) : List (Obstacle d) :=
  open Classical in (parts trees).filter (fun o => o.gamma x ≤ 1)

/-- The influence of a component, `γ ^ (-p)`, summed over all components. -/
noncomputable def totalInfluence (p : ℝ) (trees : List (ObstacleTree d)) (x : Vec d) : ℝ :=
  ((parts trees).map (fun o => o.gamma x ^ (-p))).sum

/-- The sum of the normals of all components, each multiplied with its influence. -/
noncomputable def influencedNormal (p : ℝ) (trees : List (ObstacleTree d)) (x : Vec d) : Vec d :=
  ((parts trees).map (fun o => o.gamma x ^ (-p) • o.normal x)).sum

end Verif.Spec
