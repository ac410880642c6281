import Verif.Model.KMeansPredict
import Verif.Spec.Rotational
import Verif.Spec.Region

/-!
# Learners as `fit` leaves them
-/

namespace Verif.Spec

open Verif.KMeans

variable {d n k : ℕ}

/-- The clusters are well separated and form a chain: at most one next and one previous cluster, both
different from the cluster itself and close enough for a common wall. -/
structure ChainLearner (l : Learner n d) : Prop where
  good : ∀ i, GoodClusters l.centers l.radius i
  next : ∀ i, l.graph.successors i = [] ∨ ∃ j, l.graph.successors i = [j] ∧ j ≠ i
    ∧ ‖l.centers i - l.centers j‖ < 2 * l.radius
  previous : ∀ i, l.graph.predecessors i = [] ∨ ∃ j, l.graph.predecessors i = [j] ∧ j ≠ i
    ∧ ‖l.centers i - l.centers j‖ < 2 * l.radius

/-- What the external functions guarantee: the label of a position is a closest cluster, the regions do not
move, and the contracts of the angle space and of the means. -/
structure SanePredict (ext : PredictExt n d k) (l : Learner n d) : Prop where
  angles : SaneAngles ext.rot
  mean : SaneMean ext.normal.mean
  label : ∀ x j, ‖x - l.centers (ext.label x)‖ ≤ ‖x - l.centers j‖
  rest : ∀ x os, ext.rot.relative x os = 0

end Verif.Spec
