import Verif.Model.Num

/-!
# Model of `nonlinear_avoidance/utils.py`
-/

open scoped RealInnerProductSpace

namespace Verif.Utils

variable {d : ℕ}

/-- `LA.norm(vector1[:2])` (utils.py:83). -/
noncomputable def headNorm (v : Vec d) : ℝ :=
  Real.sqrt (∑ i ∈ Finset.univ.filter (fun i : Fin d => i.val < 2), v i ^ 2)

/-- The perpendicular vector for (anti-)parallel inputs (utils.py:81-88); in dimension one (`vector1`
is not zero here) `vector1[1]` raises `IndexError`. -/
noncomputable def fallback (v : Vec d) : Except PyErr (Vec d) :=
  open Classical in
  if h : 2 ≤ d then
    if headNorm v = 0 then .ok (EuclideanSpace.single ⟨0, by omega⟩ 1)
    else .ok ((headNorm v)⁻¹ • WithLp.toLp 2 (fun i =>
      if i.val = 0 then v ⟨1, by omega⟩ else if i.val = 1 then v ⟨0, by omega⟩ * (-1) else 0))
  else .error .indexError

/-- `get_orthonormal_spanning_basis` (utils.py:73-90): the two columns of the result.  A division by a
zero norm gives `nan`. -/
noncomputable def getOrthonormalSpanningBasis (v1 v2 : Vec d) : Except PyErr (Vec d × Vec d) :=
  open Classical in
  if |⟪v1, v2⟫| < 1 then
    if ‖v2 - ⟪v1, v2⟫ • v1‖ = 0 then .error .nan
    else .ok (v1, (‖v2 - ⟪v1, v2⟫ • v1‖)⁻¹ • (v2 - ⟪v1, v2⟫ • v1))
  else
    match fallback v1 with
    | .error e => .error e
    | .ok perp => .ok (v1, perp)

/-- `project_point_onto_ray` (utils.py:93-109); the ray starts at `start` and passes `other`. -/
noncomputable def projectPointOntoRay (point start other : Vec d) : Vec d :=
  open Classical in
  if ‖other - start‖ = 0 then start
  else
    if ⟪(‖other - start‖)⁻¹ • (other - start), point - start⟫ ≤ 0 then start
    else ⟪(‖other - start‖)⁻¹ • (other - start), point - start⟫
      • ((‖other - start‖)⁻¹ • (other - start)) + start

/-- What `gamma_normal_gradient_descent` uses of an obstacle: its centre, `get_gamma` and
`get_normal_direction` in the global frame. -/
structure DescentObstacle (d : ℕ) where
  center : Vec d
  gamma : Vec d → ℝ
  normal : Vec d → Vec d

/-- The step of one iteration (utils.py:52-61); every obstacle comes with its factor and power. -/
noncomputable def descentStep (l : List (DescentObstacle d × ℝ × ℝ)) (p : Vec d) : Vec d :=
  (l.map (fun o => ((o.1.gamma p ^ o.2.2) * o.2.1) • o.1.normal p)).sum

/-- The loop (utils.py:51-68). -/
noncomputable def descentLoop (l : List (DescentObstacle d × ℝ × ℝ)) (stepFactor err : ℝ) :
    ℕ → Vec d → Vec d
  | 0, p => p
  | it + 1, p =>
    open Classical in
    if ‖descentStep l p‖ < err then p
    else descentLoop l stepFactor err it (p + stepFactor • descentStep l p)

/-- `gamma_normal_gradient_descent` (utils.py:22-70); at least two obstacles are needed for the starting
position. -/
noncomputable def gammaNormalGradientDescent (l : List (DescentObstacle d × ℝ × ℝ)) (itMax : ℕ)
    (stepFactor err : ℝ) : Except PyErr (Vec d) :=
  match l with
  | o0 :: o1 :: l' =>
    .ok (descentLoop (o0 :: o1 :: l') stepFactor err itMax
      ((0.5 : ℝ) • (o0.1.center + o1.1.center)))
  | _ => .error .indexError

end Verif.Utils
