import Verif.Model.ContainerQueries
import Verif.Props.MultiHull

/-!
# C149: free space, boundary points and deletion
-/

namespace Verif.Spec

variable {d : ℕ}

/-- Every ray from the centre of the obstacle meets its surface (`gamma = 1`) in exactly one point, which the external
intersection finds. -/
def SurfaceSeenFromCenter (o : Obstacle d) : Prop :=
  ∀ v : Vec d, v ≠ 0 → ∃ t : ℝ, 0 < t ∧ o.intersection o.center v = some (o.center + t • v)
    ∧ ∀ u : ℝ, 0 < u → (o.gamma (o.center + u • v) = 1 ↔ u = t)

/-- `s` is the point of the surface of the obstacle in the direction of `q` from the centre. -/
def SurfacePointTowards (o : Obstacle d) (q s : Vec d) : Prop :=
  o.gamma s = 1 ∧ ∃ t : ℝ, 0 < t ∧ s = o.center + t • (q - o.center)

end Verif.Spec

namespace Verif.ContainerQueries

open Verif.MultiHull Verif.Spec

variable {d : ℕ}

/-! ## Free space -/

/-- C149: with obstacles that can be asked, a position is in free space exactly if it is in the free space of every
obstacle. -/
theorem C149_free_space (c : List (FreeSpaceTree d)) (free : FreeSpaceTree d → Vec d → Bool)
    (h : ∀ t ∈ c, t.method = some (free t)) (p : Vec d) :
    ∃ b, isInFreeSpace c p true = .ok b ∧ (b = true ↔ ∀ t ∈ c, free t p = true) := by
  unfold isInFreeSpace
  simp only [Bool.not_true, Bool.false_eq_true, if_false]
  induction c with
  | nil => exact ⟨true, rfl, by simp⟩
  | cons t ts ih =>
    obtain ⟨b, hb, hi⟩ := ih (fun t ht => h t (List.mem_cons_of_mem _ ht))
    rw [freeSpaceLoop, h t List.mem_cons_self]
    simp only
    cases hf : free t p with
    | true => exact ⟨b, by simpa using hb, by simp [hf, hi]⟩
    | false => exact ⟨false, by simp, by simp [hf]⟩

/-- C149, violated by the code: the obstacles (`MultiObstacle`) do not have the method, so that the question raises an
`AttributeError` in every container with an obstacle; only the empty container answers. -/
theorem C149_free_space_fails (c : List (FreeSpaceTree d)) (h : ∀ t ∈ c, t.method = none) (p : Vec d) :
    (c = [] → isInFreeSpace c p true = .ok true) ∧ (c ≠ [] → isInFreeSpace c p true = .error .attributeError) := by
  constructor
  · rintro rfl; rfl
  · intro hc
    cases c with
    | nil => exact absurd rfl hc
    | cons t ts =>
      unfold isInFreeSpace
      simp [freeSpaceLoop, h t List.mem_cons_self]

/-- C149: positions in the frame of an obstacle are refused. -/
theorem C149_free_space_local (c : List (FreeSpaceTree d)) (p : Vec d) :
    isInFreeSpace c p false = .error .notImplemented := rfl

/-! ## Boundary points -/

lemma pyGetInt_nat {β : Type} {l : List β} {i : ℕ} {x : β} (h : l[i]? = some x) : pyGetInt l (i : ℤ) = .ok x := by
  unfold pyGetInt GraphHandler.pyGet
  simp [h]

lemma towards_of_seen {o : Obstacle d} (h : SurfaceSeenFromCenter o) {q : Vec d} (hq : q ≠ o.center) :
    ∃ s, o.intersection o.center (q - o.center) = some s ∧ SurfacePointTowards o q s
      ∧ (o.gamma q = 1 → s = q) := by
  obtain ⟨t, ht, e, hu⟩ := h (q - o.center) (sub_ne_zero.mpr hq)
  refine ⟨_, e, ⟨(hu t ht).mpr rfl, t, ht, rfl⟩, fun hg => ?_⟩
  have : t = 1 := ((hu 1 one_pos).mp (by simpa using hg)).symm
  simp [this]

/-- C149: after any history of `append` and `extend_graph` and an update of the intersections, the boundary point of a
hull with a parent is the point of the surface of the hull (or of the parent) in the direction of the intersection with
the parent; an intersection which is on this surface is the boundary point itself. -/
theorem C149_boundary_point (cs : List (MultiHull.Call d))
    (h : AllowedBoundaryHistory MultiBoundary.create (cs.map graphCall))
    (intersect : ℕ → ℤ → Except PyErr (Vec d)) (f : ℕ → ℕ → Vec d)
    (hf : ∀ i p : ℕ, (builtHulls cs).graph.getParent i = .ok (p : ℤ) → intersect i p = .ok (f i p))
    (c : Hulls d) (hc : (builtHulls cs).updateIntersectionGraph intersect = .ok c)
    (i p : ℕ) (hp : c.graph.getParent i = .ok (p : ℤ)) (o o' : Obstacle d) (ho : c.obstacles[i]? = some o)
    (ho' : c.obstacles[p]? = some o') :
    (SurfaceSeenFromCenter o → f i p ≠ o.center → ∀ parent : Option ℤ,
      ∃ s, convergenceBoundaryPoint c i true parent = .ok (some s) ∧ SurfacePointTowards o (f i p) s
        ∧ (o.gamma (f i p) = 1 → s = f i p))
    ∧ (SurfaceSeenFromCenter o' → f i p ≠ o'.center →
      ∃ s, convergenceBoundaryPoint c i false (some p) = .ok (some s) ∧ SurfacePointTowards o' (f i p) s
        ∧ (o'.gamma (f i p) = 1 → s = f i p)) := by
  obtain ⟨c', e, -, -, -, -, h6⟩ := C99_update cs h intersect f hf
  rw [hc] at e
  injection e with e
  subst e
  have hi := pyGetInt_nat (h6 i p hp)
  constructor
  · intro hs hne parent
    obtain ⟨s, e1, e2, e3⟩ := towards_of_seen hs hne
    refine ⟨s, ?_, e2, e3⟩
    unfold convergenceBoundaryPoint
    rw [hi]
    change (pyGetInt c.obstacles (i : ℤ) >>= _) = _
    rw [pyGetInt_nat ho]
    change Except.ok (o.intersection o.center (f i p - o.center)) = _
    rw [e1]
  · intro hs hne
    obtain ⟨s, e1, e2, e3⟩ := towards_of_seen hs hne
    refine ⟨s, ?_, e2, e3⟩
    unfold convergenceBoundaryPoint
    rw [hi]
    change (pyGetInt c.obstacles (p : ℤ) >>= _) = _
    rw [pyGetInt_nat ho']
    change Except.ok (o'.intersection o'.center (f i p - o'.center)) = _
    rw [e1]

/-- C149: errors.  A root has no boundary point, and before the update no hull has one (`TypeError`); on the side of the
parent the parent has to be named (`ValueError`); an unknown hull is an `IndexError`. -/
theorem C149_boundary_point_errors (cs : List (MultiHull.Call d))
    (h : AllowedBoundaryHistory MultiBoundary.create (cs.map graphCall)) :
    (∀ (i : ℕ) (parent : Option ℤ), i < (builtHulls cs).obstacles.length →
      convergenceBoundaryPoint (builtHulls cs) i true parent = .error .typeError
      ∧ convergenceBoundaryPoint (builtHulls cs) i false none = .error .valueError)
    ∧ (∀ (i : ℕ) (onChild : Bool) (parent : Option ℤ), (builtHulls cs).obstacles.length ≤ i →
      convergenceBoundaryPoint (builtHulls cs) i onChild parent = .error .indexError)
    ∧ ∀ (intersect : ℕ → ℤ → Except PyErr (Vec d)) (f : ℕ → ℕ → Vec d),
      (∀ i p : ℕ, (builtHulls cs).graph.getParent i = .ok (p : ℤ) → intersect i p = .ok (f i p)) →
      ∀ c, (builtHulls cs).updateIntersectionGraph intersect = .ok c →
      ∀ (i : ℕ) (parent : Option ℤ), c.graph.getParent i = .ok (-1) →
        convergenceBoundaryPoint c i true parent = .error .typeError := by
  obtain ⟨_, a2, a3⟩ := built_graph cs
  have key : ∀ (c : Hulls d) (i : ℕ) (parent : Option ℤ), i < c.obstacles.length → c.intersections[i]? = some none →
      convergenceBoundaryPoint c i true parent = .error .typeError := by
    intro c i parent hi hn
    unfold convergenceBoundaryPoint
    rw [pyGetInt_nat hn]
    change (pyGetInt c.obstacles (i : ℤ) >>= _) = _
    rw [pyGetInt_nat (List.getElem?_eq_getElem hi)]
    rfl
  have hnone : ∀ i, i < (builtHulls cs).obstacles.length → (builtHulls cs).intersections[i]? = some none := by
    intro i hi
    rw [a3, List.getElem?_replicate, if_pos hi]
  refine ⟨fun i parent hi => ⟨key _ i parent hi (hnone i hi), ?_⟩, ?_, ?_⟩
  · unfold convergenceBoundaryPoint
    rw [pyGetInt_nat (hnone i hi)]
    rfl
  · intro i onChild parent hi
    unfold convergenceBoundaryPoint
    have : pyGetInt (builtHulls cs).intersections (i : ℤ) = .error .indexError := by
      unfold pyGetInt GraphHandler.pyGet
      have : (builtHulls cs).intersections[i]? = none := by
        rw [a3, List.getElem?_replicate, if_neg (by omega)]
      simp [this]
    rw [this]
    rfl
  · intro intersect f hf c hc i parent hr
    obtain ⟨c', e, h2, h3, h4, h5, -⟩ := C99_update cs h intersect f hf
    rw [hc] at e
    injection e with e
    subst e
    have hn := h5 i hr
    refine key c i parent ?_ hn
    rw [← h4]
    exact (List.getElem?_eq_some_iff.mp hn).1

/-- C149, violated by the code: deleting never removes a hull.  It raises, and every hull is still where it was; without
a global name `value`, as in the code, the container does not change. -/
theorem C149_delete_fails (value : Option (Obstacle d)) (c : Hulls d) (key : ℤ) :
    (∃ e, (delItem value c key).2 = .error e) ∧ c.obstacles <+: (delItem value c key).1.obstacles
      ∧ (value = none → (delItem value c key).1 = c) := by
  cases value with
  | none => exact ⟨⟨_, rfl⟩, List.prefix_rfl, fun _ => rfl⟩
  | some o => exact ⟨⟨_, rfl⟩, List.prefix_append _ _, fun h => by cases h⟩

/-! ## Examples -/

lemma discHull_seen (m : Vec 2) : SurfaceSeenFromCenter (discHull m) := by
  intro v hv
  have hn : 0 < ‖v‖ := norm_pos_iff.mpr hv
  refine ⟨1 / ‖v‖, by positivity, ?_, ?_⟩
  · change some (m + unit v) = some (m + (1 / ‖v‖) • v)
    simp [unit]
  · intro u hu
    change 2 - ‖m + u • v - m‖ = 1 ↔ _
    rw [add_sub_cancel_left, norm_smul, Real.norm_of_nonneg hu.le, eq_div_iff hn.ne']
    constructor <;> intro h <;> linarith

/-- `C149_boundary_point` applies to the two discs of C99: the point of the second disc towards the first one. -/
example : ∃ s, convergenceBoundaryPoint twoHullsUpdated 1 true none = .ok (some s)
    ∧ SurfacePointTowards (discHull !₂[3 / 2, 0]) !₂[3 / 4, 0] s := by
  obtain ⟨s, h1, h2, -⟩ := (C149_boundary_point twoHulls twoHulls_allowed (fun _ _ => .ok !₂[3 / 4, 0])
    (fun _ _ => !₂[3 / 4, 0]) (fun _ _ _ => rfl) twoHullsUpdated twoHulls_update 1 0 rfl _ (discHull 0) rfl rfl).1
    (discHull_seen _) (by
      intro h
      have := congrArg (fun y : Vec 2 => y 0) h
      simp [discHull] at this
      norm_num at this) none
  exact ⟨s, h1, h2⟩

/-- `C149_free_space` applies: two obstacles, one of them in the way. -/
example : isInFreeSpace [⟨some fun _ => true⟩, ⟨some fun _ => false⟩] (0 : Vec 2) true = .ok false := rfl

end Verif.ContainerQueries
