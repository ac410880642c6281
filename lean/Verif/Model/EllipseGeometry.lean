import Verif.Model.Composite
import Mathlib.Analysis.InnerProductSpace.PiL2

/-!
# Model of `nonlinear_avoidance/geometry.py` and of the geometric functions of `multi_ellipse_obstacle.py` and
`multiboundary_container.py`

A shapely polygon is the set of its points; `Point(0, 0).buffer(1)` is the exact unit disc (shapely: a polygon with
64 corners).  `shape1.intersection(shape2).exterior.coords` is a parameter.
-/

namespace Verif.EllipseGeometry

open scoped RealInnerProductSpace

variable {d : ℕ}

/-- Elementwise product. -/
noncomputable def mulBy (a x : Vec d) : Vec d := WithLp.toLp 2 (fun i => a i * x i)

/-- Elementwise quotient `x / a`. -/
noncomputable def divBy (a x : Vec d) : Vec d := WithLp.toLp 2 (fun i => x i / a i)

/-- The vector with equal entries: numpy adds a number to each entry. -/
noncomputable def constVec (c : ℝ) : Vec d := WithLp.toLp 2 (fun _ => c)

/-- The class of an obstacle as far as the code asks for it. -/
inductive Kind where
  | ellipse
  | ellipseWithAxes
  | other
deriving DecidableEq

/-- What the code uses of an obstacle in the plane: class, pose, `axes_length`, `margin_absolut` and, for other
classes, the polygon `shape` that `create_shape()` (external) makes. -/
structure Body where
  kind : Kind
  pose : Pose 2
  axes : Vec 2
  margin : ℝ
  shape : Set (Vec 2)

/-- `affinity.rotate(affinity.scale(disc, ...), ...)` (geometry.py:27-40): the unit disc, scaled and rotated. -/
def ellipseAtOrigin (axes : Vec 2) (pose : Pose 2) : Set (Vec 2) :=
  {p | ∃ u : Vec 2, ‖u‖ ≤ 1 ∧ p = pose.orientation (mulBy axes u)}

/-- `affinity.translate` (geometry.py:42-44). -/
def translate (s : Set (Vec 2)) (t : Vec 2) : Set (Vec 2) := {p | p - t ∈ s}

/-- `create_shapely_ellipse` (geometry.py:17-46). -/
noncomputable def createShapelyEllipse (o : Body) : Except PyErr (Set (Vec 2)) :=
  match o.kind with
  | .ellipse =>
    .ok (translate (ellipseAtOrigin (o.axes + constVec o.margin) o.pose) o.pose.position)
  | .ellipseWithAxes =>
    .ok (translate (ellipseAtOrigin ((0.5 : ℝ) • o.axes + constVec o.margin) o.pose) o.pose.position)
  | .other => .error .notImplemented

/-- The shape of an obstacle if `kind` is the class that the code asks for (geometry.py:54-65). -/
noncomputable def shapeFor (kind : Kind) (o : Body) : Except PyErr (Set (Vec 2)) :=
  if kind ≠ .other then createShapelyEllipse o else .ok o.shape

/-- `np.mean` of a list of points. -/
noncomputable def mean (ps : List (Vec d)) : Vec d := (1 / (ps.length : ℝ)) • ps.sum

/-- `get_intersection_of_obstacles` (geometry.py:49-82).  `corners s1 s2` are the exterior coordinates of the
intersection of the polygons.  The class of the *first* obstacle decides how the shape of the second one is made
(geometry.py:61). -/
noncomputable def getIntersectionOfObstacles (corners : Set (Vec 2) → Set (Vec 2) → Except PyErr (List (Vec 2)))
    (o1 o2 : Body) : Except PyErr (Option (Vec 2)) := do
  let shape1 ← shapeFor o1.kind o1
  let shape2 ← shapeFor o1.kind o2
  let points ← corners shape1 shape2
  match points with
  | [] => .ok none
  | p :: ps => .ok (some (mean (p :: ps)))

/-- `create_shapely_ellipse` (multiboundary_container.py:22-39): without the translation. -/
noncomputable def containerEllipse (o : Body) : Set (Vec 2) :=
  ellipseAtOrigin (o.axes + constVec o.margin) o.pose

/-- The shape of an obstacle in `_get_intersection` (multiboundary_container.py:144-154). -/
noncomputable def containerShape (o : Body) : Set (Vec 2) :=
  if o.kind = .ellipse then containerEllipse o else o.shape

/-- `MultiBoundaryContainer._get_intersection` (multiboundary_container.py:141-161); the mean of no points is
nan. -/
noncomputable def containerIntersection (corners : Set (Vec 2) → Set (Vec 2) → Except PyErr (List (Vec 2)))
    (o1 o2 : Body) : Except PyErr (Vec 2) := do
  let points ← corners (containerShape o1) (containerShape o2)
  match points with
  | [] => .error .nan
  | p :: ps => .ok (mean (p :: ps))

/-! ## Rays -/

/-- `get_intersection_with_ellipse` (multi_ellipse_obstacle.py:33-67).  `circle s v r` is
`get_intersection_with_circle` (vartools). -/
noncomputable def getIntersectionWithEllipse (circle : Vec d → Vec d → ℝ → Option (Vec d)) (pose : Pose d)
    (axes position direction : Vec d) (inGlobalFrame : Bool) : Option (Vec d) :=
  let position' := if inGlobalFrame then pose.toRelative position else position
  let direction' := if inGlobalFrame then pose.orientation.symm direction else direction
  match circle (divBy axes position') (divBy axes direction') 0.5 with
  | none => none
  | some q => if inGlobalFrame then some (pose.fromRelative (mulBy axes q)) else some (mulBy axes q)

/-! ## Tangents -/

/-- The external functions that the tangent needs: `get_orthogonal_basis` (the columns of the matrix) and
`LA.pinv(basis) @ vector`. -/
structure LinAlg (k : ℕ) where
  basis : Vec (k + 1) → Fin (k + 1) → Vec (k + 1)
  solve : (Fin (k + 1) → Vec (k + 1)) → Vec (k + 1) → Fin (k + 1) → ℝ

/-- `get_normalized_tangent_component` (multi_ellipse_obstacle.py:135-154). -/
noncomputable def getNormalizedTangentComponent {k : ℕ} (ext : LinAlg k) (vector normal reference : Vec (k + 1)) :
    Except PyErr (Vec (k + 1)) :=
  open Classical in
  let basis := Function.update (ext.basis normal) 0 reference
  let tmp := Function.update (ext.solve basis vector) 0 0
  let tangent := ∑ i, tmp i • basis i
  if ‖tangent‖ = 0 then .error .exception else .ok (‖tangent‖⁻¹ • tangent)

end Verif.EllipseGeometry
