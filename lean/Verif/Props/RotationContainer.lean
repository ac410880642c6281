import Verif.Spec.RotationContainer
import Verif.Lemmas.FromDirections
import Verif.Props.Flows
import Mathlib.Analysis.InnerProductSpace.PiL2
import Mathlib.Tactic.Linarith
import Mathlib.Tactic.FinCases

/-! # C98: the container of the rotational avoider (`RotationContainer`) -/

open scoped RealInnerProductSpace
open Verif.Spec

namespace Verif.RotationContainer

variable {d k : ℕ}

lemma fill_length (g : Item d → Except PyErr (Convergence d k)) (os : List (Item d))
    (ds : List (Option (Convergence d k))) (h : ds.length = os.length) : (fill g os ds).1.length = os.length := by
  induction os generalizing ds with
  | nil => simpa [fill] using h
  | cons o os ih =>
    cases ds with
    | nil => simp at h
    | cons e ds =>
      have h' : ds.length = os.length := by simpa using h
      unfold fill
      split
      · simpa using h
      · simp [ih ds h']

/-- C98: after every history of calls there is exactly one entry of the convergence dynamics for every
obstacle. -/
theorem C98_aligned (ext : External d k) (items : List (Item d)) (calls : List (Call d)) :
    (history ext items calls).dynamics.length = (history ext items calls).items.length := by
  have key : ∀ (calls : List (Call d)) (c : Container d k), c.dynamics.length = c.items.length →
      (calls.foldl (step ext) c).dynamics.length = (calls.foldl (step ext) c).items.length := by
    intro calls
    induction calls with
    | nil => intro c h; exact h
    | cons a calls ih =>
      intro c h
      apply ih
      cases a with
      | append o r => simp [step, append, h]
      | delete key => simp only [step, deleteItem]; split <;> exact h
      | replace key o => simp only [step, setItem]; split <;> exact h
      | setDirections n f =>
        simp only [step]
        unfold setConvergenceDirections
        split
        · simp
        · exact h
        · exact fill_length _ _ _ h
        · exact fill_length _ _ _ h
  exact key calls _ (by simp [RotationContainer.create])

lemma fill_get {g : Item d → Except PyErr (Convergence d k)} {os : List (Item d)}
    {ds : List (Option (Convergence d k))} (h : ds.length = os.length) (hg : ∀ o ∈ os, ∃ c, g o = .ok c) :
    (fill g os ds).2 = .ok () ∧ ∀ (i : ℕ) (o : Item d), os[i]? = some o → ∃ c, g o = .ok c ∧ (fill g os ds).1[i]? = some (some c) := by
  induction os generalizing ds with
  | nil => exact ⟨rfl, by intro i o hi; simp at hi⟩
  | cons o os ih =>
    cases ds with
    | nil => simp at h
    | cons e ds =>
      obtain ⟨c, hc⟩ := hg o List.mem_cons_self
      obtain ⟨a1, a2⟩ := ih (ds := ds) (by simpa using h) (fun o' ho' => hg o' (List.mem_cons_of_mem _ ho'))
      unfold fill
      simp only [hc]
      refine ⟨a1, ?_⟩
      intro i o' hi
      cases i with
      | zero =>
        simp only [List.getElem?_cons_zero, Option.some.injEq] at hi
        subst hi
        exact ⟨c, hc, by simp⟩
      | succ i =>
        simp only [List.getElem?_cons_succ] at hi ⊢
        exact a2 i o' hi

/-- C98: with common convergence dynamics every obstacle has these. -/
theorem C98_common (ext : External d k) (items : List (Item d)) (calls : List (Call d)) (f : Vec d → Vec d)
    (nonlinear : Option ((Vec d → Vec d) × Option (Vec d))) (x : Vec d) (i : ℕ) (o : Item d)
    (ho : (history ext items calls).items[i]? = some o) :
    (setConvergenceDirections ext (history ext items calls) nonlinear (some f)).2 = .ok ()
      ∧ getConvergenceDirection ext (setConvergenceDirections ext (history ext items calls) nonlinear (some f)).1 x i
        = .ok (f x) := by
  constructor
  · rfl
  · have : (setConvergenceDirections ext (history ext items calls) nonlinear (some f)).1.dynamics[i]?
        = some (some (.given f)) := by
      unfold setConvergenceDirections
      simp only [List.getElem?_map, ho, Option.map_some]
    unfold getConvergenceDirection
    simp only [this, Convergence.evaluate]

/-- C98: nonlinear dynamics without attractor: the convergence direction of an obstacle is the velocity at its
centre everywhere, or leads to its centre if this velocity is zero. -/
theorem C98_no_attractor (ext : External d k) (items : List (Item d)) (calls : List (Call d)) (f : Vec d → Vec d)
    (x : Vec d) (i : ℕ) (o : Item d) (ho : (history ext items calls).items[i]? = some o) :
    (setConvergenceDirections ext (history ext items calls) (some (f, none)) none).2 = .ok ()
      ∧ (f o.center ≠ 0 →
          getConvergenceDirection ext (setConvergenceDirections ext (history ext items calls) (some (f, none)) none).1 x i
            = .ok (f o.center))
      ∧ (f o.center = 0 →
          getConvergenceDirection ext (setConvergenceDirections ext (history ext items calls) (some (f, none)) none).1 x i
            = .ok (o.center - x)) := by
  obtain ⟨a1, a2⟩ := fill_get (g := fun o => .ok (withoutAttractor f o)) (C98_aligned ext items calls)
    (fun o _ => ⟨_, rfl⟩)
  obtain ⟨c, hc, hget⟩ := a2 i o ho
  injection hc with hc
  refine ⟨a1, ?_, ?_⟩ <;>
  · intro h
    unfold getConvergenceDirection setConvergenceDirections
    simp only [hget]
    rw [← hc]
    unfold withoutAttractor
    simp [h, Convergence.evaluate]

/-- The entry of an obstacle away from the origin whose velocity does not point straight to the origin. -/
lemma withAttractor_rotated {ext : External d k} {f : Vec d → Vec d} {a : Vec d} {o : Item d} {r : Vec k}
    (h0 : o.center ≠ 0) (hn : ¬ ∃ c : ℝ, c < 0 ∧ f o.center = c • o.center)
    (hr : ext.angleSpace (f o.center) (a - o.center) = .ok r) :
    withAttractor ext f a o = .ok (.locallyRotated r o.center o.length a) := by
  classical
  unfold withAttractor
  rw [if_neg (by simpa using h0), if_neg, hr]
  rintro ⟨_, h3⟩
  exact hn ((real_inner_div_norm_mul_norm_eq_neg_one_iff _ _).mp h3).2

lemma withAttractor_origin {ext : External d k} {f : Vec d → Vec d} {a : Vec d} {o : Item d}
    (h0 : o.center = 0) : withAttractor ext f a o = .ok (.linear a) := by
  classical
  unfold withAttractor
  rw [if_pos (by simp [h0])]

lemma withAttractor_straight {ext : External d k} {f : Vec d → Vec d} {a : Vec d} {o : Item d}
    (hn : ∃ c : ℝ, c < 0 ∧ f o.center = c • o.center) : withAttractor ext f a o = .ok (.linear a) := by
  classical
  by_cases h0 : o.center = 0
  · exact withAttractor_origin h0
  · unfold withAttractor
    rw [if_neg (by simpa using h0), if_pos]
    refine ⟨?_, (real_inner_div_norm_mul_norm_eq_neg_one_iff _ _).mpr ⟨h0, hn⟩⟩
    obtain ⟨c, hc, h⟩ := hn
    rw [h]
    simp [h0, hc.ne]

/-- Every obstacle gets an entry if no centre is at the attractor and no velocity at a centre is zero. -/
lemma withAttractor_total {ext : External d k} (he : SaneRotated ext) {f : Vec d → Vec d} {a : Vec d} {o : Item d}
    (ha : o.center ≠ a) (hv : f o.center ≠ 0) : ∃ c, withAttractor ext f a o = .ok c := by
  by_cases h0 : o.center = 0
  · exact ⟨_, withAttractor_origin h0⟩
  by_cases hn : ∃ c : ℝ, c < 0 ∧ f o.center = c • o.center
  · exact ⟨_, withAttractor_straight hn⟩
  · obtain ⟨r, hr⟩ := he.total (f o.center) (a - o.center) hv (sub_ne_zero.mpr ha.symm)
    exact ⟨_, withAttractor_rotated h0 hn hr⟩

lemma attractor_get {ext : External d k} (he : SaneRotated ext) (items : List (Item d)) (calls : List (Call d))
    {f : Vec d → Vec d} {a : Vec d}
    (hall : ∀ o ∈ (history ext items calls).items, o.center ≠ a ∧ f o.center ≠ 0) :
    (setConvergenceDirections ext (history ext items calls) (some (f, some a)) none).2 = .ok ()
      ∧ ∀ (x : Vec d) (i : ℕ) (o : Item d) (c : Convergence d k), (history ext items calls).items[i]? = some o →
        withAttractor ext f a o = .ok c →
        getConvergenceDirection ext
          (setConvergenceDirections ext (history ext items calls) (some (f, some a)) none).1 x i
          = .ok (c.evaluate ext x) := by
  obtain ⟨a1, a2⟩ := fill_get (g := withAttractor ext f a) (C98_aligned ext items calls)
    (fun o ho => withAttractor_total he (hall o ho).1 (hall o ho).2)
  refine ⟨a1, ?_⟩
  intro x i o c ho hc
  obtain ⟨c', hc', hget⟩ := a2 i o ho
  rw [hc] at hc'
  injection hc' with hc'
  subst hc'
  unfold getConvergenceDirection setConvergenceDirections
  simp only [hget]

/-- C98: nonlinear dynamics with attractor: at the centre of each obstacle the convergence direction is the
direction of the nonlinear dynamics, if the attractor is at the origin and no obstacle is centred at it.
Missing: attractors elsewhere; the property is false for them (`C98_origin`, `C98_straight`) unless no velocity
at a centre points straight to the origin, which is the second part. -/
theorem C98_attractor_partial (ext : External d k) (he : SaneRotated ext) (items : List (Item d))
    (calls : List (Call d)) (f : Vec d → Vec d) (a : Vec d)
    (hall : ∀ o ∈ (history ext items calls).items, o.center ≠ a ∧ f o.center ≠ 0 ∧ 0 < o.length)
    (i : ℕ) (o : Item d) (ho : (history ext items calls).items[i]? = some o)
    (h : a = 0 ∨ (o.center ≠ 0 ∧ ¬ ∃ c : ℝ, c < 0 ∧ f o.center = c • o.center)) :
    ∃ v, (setConvergenceDirections ext (history ext items calls) (some (f, some a)) none).2 = .ok ()
      ∧ getConvergenceDirection ext
          (setConvergenceDirections ext (history ext items calls) (some (f, some a)) none).1 o.center i = .ok v
      ∧ unit v = unit (f o.center) := by
  obtain ⟨a1, a2⟩ := attractor_get he items calls (fun o ho => ⟨(hall o ho).1, (hall o ho).2.1⟩)
  obtain ⟨ha, hv, hl⟩ := hall o (List.mem_of_getElem? ho)
  by_cases hn : ∃ c : ℝ, c < 0 ∧ f o.center = c • o.center
  · have h0 : a = 0 := h.resolve_right (fun h => h.2 hn)
    refine ⟨_, a1, a2 o.center i o _ ho (withAttractor_straight hn), ?_⟩
    subst h0
    obtain ⟨c, hc, hfc⟩ := hn
    have : f o.center = (-c) • (0 - o.center) := by rw [hfc]; simp
    change unit ((0 : Vec d) - o.center) = _
    rw [this]
    unfold unit
    have h3 : (0 : ℝ) < -c := by linarith
    rw [norm_smul, Real.norm_of_nonneg h3.le, smul_smul]
    congr 1
    have h4 : ‖(0 : Vec d) - o.center‖ ≠ 0 := by
      rw [zero_sub, norm_neg]; exact norm_ne_zero_iff.mpr ha
    have h5 : c ≠ 0 := hc.ne
    field_simp
  · have h0 : o.center ≠ 0 := by
      rcases h with h | h
      · rw [← h]; exact ha
      · exact h.1
    obtain ⟨r, hr⟩ := he.total (f o.center) (a - o.center) hv (sub_ne_zero.mpr ha.symm)
    exact ⟨_, a1, a2 o.center i o _ ho (withAttractor_rotated h0 hn hr),
      he.centre _ _ _ _ _ hv (sub_ne_zero.mpr ha.symm) hl hr⟩

/-- C98, violated by the code: for an obstacle centred at the origin the nonlinear dynamics are ignored; the
convergence direction leads straight to the attractor. -/
theorem C98_origin (ext : External d k) (he : SaneRotated ext) (items : List (Item d)) (calls : List (Call d))
    (f : Vec d → Vec d) (a : Vec d)
    (hall : ∀ o ∈ (history ext items calls).items, o.center ≠ a ∧ f o.center ≠ 0) (x : Vec d) (i : ℕ) (o : Item d)
    (ho : (history ext items calls).items[i]? = some o) (h0 : o.center = 0) :
    getConvergenceDirection ext
      (setConvergenceDirections ext (history ext items calls) (some (f, some a)) none).1 x i = .ok (a - x) :=
  (attractor_get he items calls hall).2 x i o _ ho (withAttractor_origin h0)

/-- C98, violated by the code: if the velocity at the centre points straight to the origin, the convergence
direction leads to the attractor, wherever it is. -/
theorem C98_straight (ext : External d k) (he : SaneRotated ext) (items : List (Item d)) (calls : List (Call d))
    (f : Vec d → Vec d) (a : Vec d)
    (hall : ∀ o ∈ (history ext items calls).items, o.center ≠ a ∧ f o.center ≠ 0) (x : Vec d) (i : ℕ) (o : Item d)
    (ho : (history ext items calls).items[i]? = some o) (hn : ∃ c : ℝ, c < 0 ∧ f o.center = c • o.center) :
    getConvergenceDirection ext
      (setConvergenceDirections ext (history ext items calls) (some (f, some a)) none).1 x i = .ok (a - x) :=
  (attractor_get he items calls hall).2 x i o _ ho (withAttractor_straight hn)

/-- C98, a defect: obstacles are never removed or replaced.  Whatever the history, the obstacles are the first ones
and those that were appended, in this order, and every attempt to remove or replace one raises. -/
theorem C98_never_removed (ext : External d k) (items : List (Item d)) (calls : List (Call d)) :
    (history ext items calls).items = items ++ calls.filterMap (fun a => match a with
        | .append o _ => some o
        | _ => none)
      ∧ (∀ key, deleteItem (history ext items calls) key = (history ext items calls,
          .error (if key < (history ext items calls).items.length then .typeError else .indexError)))
      ∧ ∀ key o, setItem (history ext items calls) key o = (history ext items calls,
          .error (if key < (history ext items calls).items.length then .typeError else .indexError)) := by
  refine ⟨?_, ?_, ?_⟩
  · have key : ∀ (calls : List (Call d)) (c : Container d k), (calls.foldl (step ext) c).items
        = c.items ++ calls.filterMap (fun a => match a with
          | .append o _ => some o
          | _ => none) := by
      intro calls
      induction calls with
      | nil => intro c; simp
      | cons a calls ih =>
        intro c
        rw [List.foldl_cons, ih]
        cases a with
        | append o r => simp [step, append]
        | delete key =>
          simp only [step, deleteItem]
          split <;> simp
        | replace key o =>
          simp only [step, setItem]
          split <;> simp
        | setDirections n f =>
          simp only [step]
          have : (setConvergenceDirections ext c n f).1.items = c.items := by
            unfold setConvergenceDirections
            split <;> rfl
          rw [this]
          simp
    exact key calls _
  · intro key
    unfold deleteItem
    by_cases hk : key < (history ext items calls).items.length
    · rw [if_pos hk, List.getElem?_eq_getElem hk]
    · rw [if_neg hk, List.getElem?_eq_none (by omega)]
  · intro key o
    unfold setItem
    by_cases hk : key < (history ext items calls).items.length
    · rw [if_pos hk, List.getElem?_eq_getElem hk]
    · rw [if_neg hk, List.getElem?_eq_none (by omega)]

/-- C98, violated by the code: the convergence radius given with an obstacle is lost; after every history the list
of radiuses is empty. -/
theorem C98_radius_lost (ext : External d k) (items : List (Item d)) (calls : List (Call d)) :
    (history ext items calls).radiuses = [] := by
  have key : ∀ (calls : List (Call d)) (c : Container d k), c.radiuses = [] →
      (calls.foldl (step ext) c).radiuses = [] := by
    intro calls
    induction calls with
    | nil => intro c h; exact h
    | cons a calls ih =>
      intro c h
      apply ih
      cases a with
      | append o r => exact h
      | delete key => simp only [step, deleteItem]; split <;> exact h
      | replace key o => simp only [step, setItem]; split <;> exact h
      | setDirections n f =>
        simp only [step]
        unfold setConvergenceDirections
        split <;> exact h
  exact key calls _ rfl

/-- C98: an obstacle that is appended after the directions were set has no convergence direction
(`AttributeError`). -/
theorem C98_late (ext : External d k) (items : List (Item d)) (calls : List (Call d)) (o : Item d)
    (r : Option ℝ) (x : Vec d) :
    getConvergenceDirection ext (append (history ext items calls) o r) x (history ext items calls).items.length
      = .error .attributeError := by
  have h := C98_aligned ext items calls
  unfold getConvergenceDirection append
  simp [← h]

/-! ## Examples -/

/-- Functions as assumed: the coordinates are the unit direction itself, the rotation is constant. -/
noncomputable def plain : External d d where
  angleSpace v _ := .ok (unit v)
  rotated r _ _ _ _ := r

lemma plain_sane : SaneRotated (plain : External d d) where
  total v _ _ _ := ⟨unit v, rfl⟩
  centre v a c l r hv _ _ hr := by
    have : unit v = r := by injection hr
    change unit r = unit v
    rw [← this, unit_unit hv]

/-- C98 is not vacuous, and the violations occur.  Attractor at `(1, 1)`: an obstacle at `(1, 0)` where the
dynamics point to the left has a convergence direction upwards there. -/
example : ∃ v, getConvergenceDirection plain (setConvergenceDirections plain
      (history plain [⟨(!₂[1, 0] : Vec 2), 1⟩] []) (some (fun _ => !₂[-1, 0], some !₂[1, 1])) none).1 !₂[1, 0] 0 = .ok v
    ∧ v = !₂[0, 1] ∧ ⟪v, !₂[-1, 0]⟫ = 0 := by
  refine ⟨_, C98_straight plain plain_sane _ [] _ _ ?_ !₂[1, 0] 0 _ rfl ⟨-1, by norm_num, ?_⟩, ?_, ?_⟩
  · intro o ho
    have : o = ⟨!₂[1, 0], 1⟩ := by simpa [history, RotationContainer.create] using ho
    subst this
    refine ⟨?_, ?_⟩
    · intro h; have := congrArg (fun y : Vec 2 => y 1) h; simp at this
    · intro h; have := congrArg (fun y : Vec 2 => y 0) h; simp at this
  · ext i; fin_cases i <;> simp
  · ext i; fin_cases i <;> simp
  · rw [vec2_inner]; simp

/-- The hypotheses of `C98_attractor_partial` are met for an obstacle at `(1, 0)`, dynamics upwards and the attractor
at the origin. -/
example : ∃ v, getConvergenceDirection plain (setConvergenceDirections plain
      (history plain [⟨(!₂[1, 0] : Vec 2), 1⟩] []) (some (fun _ => !₂[0, 1], some 0)) none).1 !₂[1, 0] 0 = .ok v
    ∧ unit v = unit !₂[0, 1] := by
  obtain ⟨v, _, h1, h3⟩ := C98_attractor_partial plain plain_sane [⟨(!₂[1, 0] : Vec 2), 1⟩] []
    (fun _ => !₂[0, 1]) 0 (by
      intro o ho
      have : o = ⟨!₂[1, 0], 1⟩ := by simpa [history, RotationContainer.create] using ho
      subst this
      refine ⟨?_, ?_, by norm_num⟩
      · intro h; have := congrArg (fun y : Vec 2 => y 0) h; simp at this
      · intro h; have := congrArg (fun y : Vec 2 => y 1) h; simp at this) 0 _ rfl (Or.inl rfl)
  exact ⟨v, h1, h3⟩

end Verif.RotationContainer
