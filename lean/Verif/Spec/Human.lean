import Verif.Model.Human
import Verif.Props.MultiBody

/-!
# Notions for the bodies of humans
-/

namespace Verif.Spec
open Human MultiBody

variable {d : ℕ}

/-- The point (in the frame of the obstacle) is strictly inside: half of `axes_length` to every side. -/
def InsideShape : Shape d → Vec d → Prop
  | .cuboid a, x => ∀ i, |x i| < a i / 2
  | .ellipse a, x => ∑ i, (x i / (a i / 2)) ^ 2 < 1

/-- Every part but the root shares an interior point with the part it is attached to: the joint. -/
def Overlapping (root : String) (cs : List (Call d)) (shapes : List (Shape d)) (ps : List (Pose d)) : Prop :=
  ∀ (k : ℕ) (c : Call d), cs[k]? = some c → ∃ (parent limb : Pose d) (sp sl : Shape d) (x : Vec d),
    ps[(bodyNames root cs).idxOf c.parentName]? = some parent ∧ ps[k + 1]? = some limb
      ∧ shapes[(bodyNames root cs).idxOf c.parentName]? = some sp ∧ shapes[k + 1]? = some sl
      ∧ x = limb.fromRelative c.reference ∧ x = parent.fromRelative c.parentReference
      ∧ InsideShape sl (limb.toRelative x) ∧ InsideShape sp (parent.toRelative x)

/-- What the parts of a human are attached to. -/
def anatomy : String → Option String
  | "neck" => some "body"
  | "head" => some "neck"
  | "upperarm1" => some "body"
  | "lowerarm1" => some "upperarm1"
  | "upperarm2" => some "body"
  | "lowerarm2" => some "upperarm2"
  | "leg1" => some "body"
  | "leg2" => some "body"
  | _ => none

end Verif.Spec
