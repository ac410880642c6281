import Verif.Model.RotationIntersection
import Verif.Props.RotationContainer

/-! # C153: intersection positions of the container of the rotational avoider -/

open Verif.Spec

namespace Verif.RotationContainer

variable {d k : ℕ}

/-- The entry of an obstacle leads to the attractor, in every case. -/
lemma withAttractor_attribute {ext : External d k} {f : Vec d → Vec d} {a : Vec d} {o : Item d} {c : Convergence d k}
    (h : withAttractor ext f a o = .ok c) (ofConstant : Option (Option (Vec d)))
    (ofGiven : (Vec d → Vec d) → Option (Option (Vec d))) :
    c.attractorAttribute ofConstant ofGiven = some (some a) := by
  unfold withAttractor at h
  split at h
  · injection h with h
    rw [← h]; rfl
  · split at h
    · injection h with h
      rw [← h]; rfl
    · split at h
      · cases h
      · injection h with h
        rw [← h]; rfl

/-- C153: after every history of calls, once the directions are set with dynamics with an attractor, the intersection
position of every obstacle of the container is this attractor. -/
theorem C153_attractor (ext : External d k) (he : SaneRotated ext) (items : List (Item d)) (calls : List (Call d))
    (f : Vec d → Vec d) (a : Vec d)
    (hall : ∀ o ∈ (history ext items calls).items, o.center ≠ a ∧ f o.center ≠ 0)
    (ofConstant : Option (Option (Vec d))) (ofGiven : (Vec d → Vec d) → Option (Option (Vec d))) (i : ℕ)
    (hi : i < (history ext items calls).items.length) :
    getIntersectionPosition ofConstant ofGiven
      (setConvergenceDirections ext (history ext items calls) (some (f, some a)) none).1 i = .ok (some a) := by
  obtain ⟨-, a2⟩ := fill_get (g := withAttractor ext f a) (C98_aligned ext items calls)
    (fun o ho => withAttractor_total he (hall o ho).1 (hall o ho).2)
  obtain ⟨c, hc, hget⟩ := a2 i _ (List.getElem?_eq_getElem hi)
  unfold getIntersectionPosition setConvergenceDirections
  simp only [hget, withAttractor_attribute hc]

/-- C153, violated by the code: the position does not depend on the obstacles.  Two obstacles of any two containers have
the same intersection position, wherever they are and whether or not they meet anything. -/
theorem C153_same_fails (ext : External d k) (he : SaneRotated ext) (items items' : List (Item d))
    (calls calls' : List (Call d)) (f : Vec d → Vec d) (a : Vec d)
    (hall : ∀ o ∈ (history ext items calls).items, o.center ≠ a ∧ f o.center ≠ 0)
    (hall' : ∀ o ∈ (history ext items' calls').items, o.center ≠ a ∧ f o.center ≠ 0)
    (ofConstant : Option (Option (Vec d))) (ofGiven : (Vec d → Vec d) → Option (Option (Vec d))) (i j : ℕ)
    (hi : i < (history ext items calls).items.length) (hj : j < (history ext items' calls').items.length) :
    getIntersectionPosition ofConstant ofGiven
      (setConvergenceDirections ext (history ext items calls) (some (f, some a)) none).1 i
    = getIntersectionPosition ofConstant ofGiven
      (setConvergenceDirections ext (history ext items' calls') (some (f, some a)) none).1 j := by
  rw [C153_attractor ext he items calls f a hall ofConstant ofGiven i hi,
    C153_attractor ext he items' calls' f a hall' ofConstant ofGiven j hj]

/-- C153: with dynamics without attractor, the position is the centre of the obstacle where the velocity at the centre is
zero; otherwise it is what the constant dynamics have, `NotImplementedError` if they have no attractor. -/
theorem C153_no_attractor (ext : External d k) (items : List (Item d)) (calls : List (Call d)) (f : Vec d → Vec d)
    (ofConstant : Option (Option (Vec d))) (ofGiven : (Vec d → Vec d) → Option (Option (Vec d))) (i : ℕ) (o : Item d)
    (ho : (history ext items calls).items[i]? = some o) :
    (f o.center = 0 → getIntersectionPosition ofConstant ofGiven
      (setConvergenceDirections ext (history ext items calls) (some (f, none)) none).1 i = .ok (some o.center))
    ∧ (f o.center ≠ 0 → ofConstant = none → getIntersectionPosition ofConstant ofGiven
      (setConvergenceDirections ext (history ext items calls) (some (f, none)) none).1 i = .error .notImplemented)
    ∧ (f o.center ≠ 0 → ∀ p, ofConstant = some p → getIntersectionPosition ofConstant ofGiven
      (setConvergenceDirections ext (history ext items calls) (some (f, none)) none).1 i = .ok p) := by
  obtain ⟨-, a2⟩ := fill_get (g := fun o => .ok (withoutAttractor f o)) (C98_aligned ext items calls)
    (fun o _ => ⟨_, rfl⟩)
  obtain ⟨c, hc, hget⟩ := a2 i o ho
  injection hc with hc
  refine ⟨?_, ?_, ?_⟩
  · intro h
    unfold getIntersectionPosition setConvergenceDirections
    simp only [hget]
    rw [← hc]
    simp [withoutAttractor, h, Convergence.attractorAttribute]
  · intro h hn
    unfold getIntersectionPosition setConvergenceDirections
    simp only [hget]
    rw [← hc]
    simp [withoutAttractor, h, Convergence.attractorAttribute, hn]
  · intro h p hn
    unfold getIntersectionPosition setConvergenceDirections
    simp only [hget]
    rw [← hc]
    simp [withoutAttractor, h, Convergence.attractorAttribute, hn]

/-- C153: an obstacle that was appended after the directions were set is refused with `NotImplementedError`, an unknown
obstacle with `IndexError`; after every history. -/
theorem C153_refused (ext : External d k) (items : List (Item d)) (calls : List (Call d))
    (ofConstant : Option (Option (Vec d))) (ofGiven : (Vec d → Vec d) → Option (Option (Vec d))) :
    (∀ (o : Item d) (r : Option ℝ), getIntersectionPosition ofConstant ofGiven
      (append (history ext items calls) o r) (history ext items calls).items.length = .error .notImplemented)
    ∧ ∀ i, (history ext items calls).items.length ≤ i →
      getIntersectionPosition ofConstant ofGiven (history ext items calls) i = .error .indexError := by
  have h := C98_aligned ext items calls
  constructor
  · intro o r
    unfold getIntersectionPosition append
    simp [← h]
  · intro i hi
    unfold getIntersectionPosition
    rw [List.getElem?_eq_none (by omega)]

/-- C153: with common dynamics, the position is their attractor for every obstacle. -/
theorem C153_common (ext : External d k) (items : List (Item d)) (calls : List (Call d)) (f : Vec d → Vec d)
    (nonlinear : Option ((Vec d → Vec d) × Option (Vec d))) (ofConstant : Option (Option (Vec d)))
    (ofGiven : (Vec d → Vec d) → Option (Option (Vec d))) (a : Vec d) (hf : ofGiven f = some (some a)) (i : ℕ)
    (hi : i < (history ext items calls).items.length) :
    getIntersectionPosition ofConstant ofGiven
      (setConvergenceDirections ext (history ext items calls) nonlinear (some f)).1 i = .ok (some a) := by
  unfold getIntersectionPosition setConvergenceDirections
  simp only [List.getElem?_map, List.getElem?_eq_getElem hi, Option.map_some, Convergence.attractorAttribute, hf]

/-- The claims are not vacuous: two obstacles far apart, the second one appended, have the attractor as intersection
position. -/
example : ∀ i < 2, getIntersectionPosition none (fun _ => none) (setConvergenceDirections plain
    (history plain [⟨(!₂[1, 0] : Vec 2), 1⟩] [.append ⟨!₂[9, 0], 1⟩ none])
      (some (fun _ => !₂[-1, 0], some !₂[1, 1])) none).1 i = .ok (some !₂[1, 1]) := by
  intro i hi
  refine C153_attractor plain plain_sane _ _ _ _ ?_ _ _ i hi
  intro o ho
  have : o = ⟨!₂[1, 0], 1⟩ ∨ o = ⟨!₂[9, 0], 1⟩ := by
    simpa [history, RotationContainer.create, step, append] using ho
  constructor
  · intro e
    have h1 := congrArg (fun v : Vec 2 => v 1) e
    rcases this with h | h <;> subst h <;> simp at h1
  · intro e
    have h1 := congrArg (fun v : Vec 2 => v 0) e
    simp at h1

end Verif.RotationContainer
