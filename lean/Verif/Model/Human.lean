import Verif.Model.BodyConversion

/-!
# Model of the bodies made in `multi_body_human.py`

`create_2d_human`, `create_2d_human_with_multibodyobstacle`, `create_3d_human`.  The lengths are
exact.  `distance_scaling` and `margin_absolut` (which is zero) are left out.  The rotations of scipy are parameters.
-/

namespace Verif.Human
open MultiBody

variable {d : ℕ}

/-- The obstacles of the bodies: `Cuboid` and `Ellipse` with their `axes_length`. -/
inductive Shape (d : ℕ) where
  | cuboid (axes : Vec d)
  | ellipse (axes : Vec d)

/-- `axes_length`. -/
def Shape.axes : Shape d → Vec d
  | .cuboid a => a
  | .ellipse a => a

/-- A sequence of calls of `add_component`, left by the first exception. -/
def build (m : MultiBody d) : List (Call d) → Except PyErr (MultiBody d)
  | [] => .ok m
  | c :: cs =>
    match m.step c with
    | (_, .error e) => .error e
    | (m', .ok _) => build m' cs

/-- `update` (multi_body_human.py:467-478) without `pose_updater`, robot and visualisation, which the functions below
pass as `None`; the message is left out. -/
noncomputable def update (m : MultiBody d) (fuel : ℕ) : Option (Except PyErr (MultiBody d)) := m.alignTree fuel

/-- Setting the orientation of a limb and aligning it (multi_body_human.py:751-754, 756-759). -/
noncomputable def turnLimb (m : MultiBody d) (name : String) (o : Vec d ≃ₗᵢ[ℝ] Vec d) : Except PyErr (MultiBody d) :=
  match m.idFromName name with
  | .error e => .error e
  | .ok i => ({ m with poses := m.poses.modify i fun p => { p with orientation := o } } : MultiBody d).alignWithParent i

/-- The calls of `add_component` in `create_2d_human_with_multibodyobstacle` (multi_body_human.py:677-747). -/
noncomputable def calls2d : List (Call 2) := [
  ⟨.trivial, "neck", !₂[0, -0.05], "body", !₂[0, 0.30], none⟩,
  ⟨.trivial, "head", !₂[0, -0.12], "neck", !₂[0, 0.05], none⟩,
  ⟨.trivial, "upperarm1", !₂[-0.2, 0], "body", !₂[0.15, 0.3], none⟩,
  ⟨.trivial, "lowerarm1", !₂[-0.18, 0], "upperarm1", !₂[0.2, 0], none⟩,
  ⟨.trivial, "upperarm2", !₂[0.2, 0], "body", !₂[-0.15, 0.3], none⟩,
  ⟨.trivial, "lowerarm2", !₂[0.18, 0], "upperarm2", !₂[-0.2, 0], none⟩]

/-- The obstacles of the 2d human, in the order of their numbers (multi_body_human.py:652-747). -/
noncomputable def shapes2d : List (Shape 2) := [.cuboid !₂[0.4, 0.7], .cuboid !₂[0.12, 0.12], .ellipse !₂[0.2, 0.3],
  .ellipse !₂[0.5, 0.18], .ellipse !₂[0.4, 0.14], .ellipse !₂[0.5, 0.18], .ellipse !₂[0.4, 0.14]]

/-- `create_2d_human_with_multibodyobstacle` (multi_body_human.py:651-761); `rot` gives the rotation by an angle. -/
noncomputable def create2dMultibody (rot : ℝ → Vec 2 ≃ₗᵢ[ℝ] Vec 2) (fuel : ℕ) : Option (Except PyErr (MultiBody 2)) :=
  match build (MultiBody.create.setRoot .trivial "body" none) calls2d with
  | .error e => some (.error e)
  | .ok m =>
    match update m fuel with
    | none => none
    | some (.error e) => some (.error e)
    | some (.ok m1) =>
      match turnLimb m1 "lowerarm1" (rot (70 * Real.pi / 180)) with
      | .error e => some (.error e)
      | .ok m2 => some (turnLimb m2 "lowerarm2" (rot (45 * Real.pi / 180)))

/-- Reference points (set by `add_component` and at multi_body_human.py:675) and axes of the obstacles of the 2d human. -/
noncomputable def references2d : List (Vec 2 × Vec 2) :=
  List.zip (!₂[0, -0.3] :: calls2d.map Call.reference) (shapes2d.map Shape.axes)

/-- `create_2d_human` (multi_body_human.py:645-648). -/
noncomputable def create2d (intersect : Part 2 → Part 2 → Option (Vec 2)) (rot : ℝ → Vec 2 ≃ₗᵢ[ℝ] Vec 2) (fuel : ℕ) :
    Option (Except PyErr (MultiObstacle 2)) :=
  match create2dMultibody rot fuel with
  | none => none
  | some (.error e) => some (.error e)
  | some (.ok m) => some (m.convert intersect references2d .trivial)

/-- The calls of `add_component` in `create_3d_human` (multi_body_human.py:796-906); `euler` is `Rotation.from_euler`. -/
noncomputable def calls3d (euler : String → List ℝ → Vec 3 ≃ₗᵢ[ℝ] Vec 3) : List (Call 3) := [
  ⟨.trivial, "neck", !₂[0, 0, -0.05], "body", !₂[0, 0, 0.30], none⟩,
  ⟨.trivial, "head", !₂[0, 0, -0.12], "neck", !₂[0, 0, 0.05], none⟩,
  ⟨⟨0, euler "xyz" [0, 0.1 * Real.pi, -0.3 * Real.pi]⟩, "upperarm1", !₂[-0.2, 0, 0], "body", !₂[0.15, 0, 0.3], none⟩,
  ⟨⟨0, euler "xyz" [0, 0.2 * Real.pi, -0.8 * Real.pi]⟩, "lowerarm1", !₂[-0.18, 0, 0], "upperarm1", !₂[0.2, 0, 0], none⟩,
  ⟨⟨0, euler "xyz" [0, 0.3 * Real.pi, 0]⟩, "upperarm2", !₂[0.2, 0, 0], "body", !₂[-0.15, 0, 0.3], none⟩,
  ⟨⟨0, euler "xyz" [0, 0.5 * Real.pi, 0]⟩, "lowerarm2", !₂[0.18, 0, 0], "upperarm2", !₂[-0.2, 0, 0], none⟩,
  ⟨⟨0, euler "zx" [Real.pi * 0.5, Real.pi * 1.7]⟩, "leg1", !₂[-0.42, 0, 0], "body", !₂[0.15, 0, -0.3], none⟩,
  ⟨⟨0, euler "zx" [Real.pi * 0.5, Real.pi * 1.3]⟩, "leg2", !₂[-0.42, 0, 0], "body", !₂[-0.15, 0, -0.3], none⟩]

/-- The obstacles of the 3d human, in the order of their numbers (multi_body_human.py:765-906). -/
noncomputable def shapes3d : List (Shape 3) := [.cuboid !₂[0.4, 0.25, 0.7], .cuboid !₂[0.12, 0.15, 0.12],
  .ellipse !₂[0.2, 0.25, 0.3], .ellipse !₂[0.5, 0.18, 0.18], .ellipse !₂[0.4, 0.14, 0.14], .ellipse !₂[0.5, 0.18, 0.18],
  .ellipse !₂[0.4, 0.14, 0.14], .ellipse !₂[1.0, 0.2, 0.25], .ellipse !₂[1.0, 0.2, 0.25]]

/-- `create_3d_human` (multi_body_human.py:764-920). -/
noncomputable def create3d (euler : String → List ℝ → Vec 3 ≃ₗᵢ[ℝ] Vec 3) (fuel : ℕ) : Option (Except PyErr (MultiBody 3)) :=
  match build (MultiBody.create.setRoot .trivial "body" none) (calls3d euler) with
  | .error e => some (.error e)
  | .ok m => update m fuel

end Verif.Human
