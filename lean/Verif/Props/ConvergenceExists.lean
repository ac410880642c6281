import Verif.Lemmas.ConvergenceExists
import Verif.Props.ConvergenceExamples

/-!
# C112: the direction to which the avoider converges exists
-/

open scoped RealInnerProductSpace

namespace Verif
open Spec

namespace Spec
variable {d : ℕ}

/-- The vectors `p` and `q` are longer than the numerical threshold, do not point in opposite directions, and their
directions are equal or differ by more than the tolerance. -/
structure Clear (p q : Vec d) : Prop where
  left : 1e-8 < ‖p‖
  right : 1e-8 < ‖q‖
  turn : ¬ Opposite p q
  apart : Distinguishable [p, q]

/-- Everything the avoider meets at the position `x` is clear when it is seen from the attractor `A`: the velocity, the
components of the obstacles, each component from its parent, and the dynamics at the roots. -/
structure ClearView [Fact (2 ≤ d)] (a : Avoider d) (x A : Vec d) : Prop where
  velocity : Clear (A - x) (a.initial.evaluate x)
  component : ∀ t ∈ a.trees, ∀ o ∈ t.components, Clear (A - x) (A - o.referencePoint)
  parent : ∀ t ∈ a.trees, ∀ (i j : ℕ) (o o' : Obstacle d), t.parentIdx i = some j → t.components[i]? = some o →
    t.components[j]? = some o' → Clear (A - o.referencePoint) (A - o'.referencePoint)
  root : ∀ t ∈ a.trees, ∀ o, t.components[t.rootIdx]? = some o →
    Clear (A - o.referencePoint) ((convergenceOf a).evaluate o.referencePoint)

/-- The avoider follows dynamics with the attractor `A` and converges by rotations around `A`
(`ProjectedRotationDynamics`), with projected weights of at most one. -/
structure TurnsAround [Fact (2 ≤ d)] (a : Avoider d) (x A : Vec d) : Prop where
  plain : a.initial.ownSequence = none
  attractor : a.initial.attractorPosition = some A
  plain' : (convergenceOf a).ownSequence = none
  attractor' : (convergenceOf a).attractorPosition = some A
  towards : a.convergence.positionToTransform = Projected.rotationPositionToTransform A
  between : ∀ p q, a.convergence.startToEnd p q (some A) = Projected.rotationStartToEnd p q A
  weight : ∀ t ∈ a.trees, ∀ o ∈ t.components, ∃ w, a.convergence.projectedWeight x o = .ok w ∧ w ≤ 1

end Spec

variable {d k : ℕ} [Fact (2 ≤ d)]
set_option linter.unusedSectionVars false

lemma clear_sequence {x : Vec d} {dyn : Dynamics d} (hown : dyn.ownSequence = none)
    (h : Clear (referenceDirection x dyn none) (dyn.evaluate x)) :
    ∃ q, evaluateDynamicsSequence x dyn = .ok (some [q]) ∧ Proper [q]
      ∧ q.getFirstVector = unit (referenceDirection x dyn none) := by
  have hs : ∃ s, evaluateDynamicsSequence x dyn = .ok (some s) := by
    cases hs : evaluateDynamicsSequence x dyn with
    | error er =>
      rcases ((C16_error_iff x dyn none hown er).mp hs).2.2.2 with h' | h' | h'
      · exact absurd h' (not_le.mpr h.left)
      · exact absurd h' (not_le.mpr h.right)
      · exact absurd h' h.turn
    | ok s =>
      cases s with
      | none =>
        rcases (C16_none_iff x dyn none hown).mp hs with h' | h'
        · have := h.left; rw [h'] at this; norm_num at this
        · have := h.right; rw [h'] at this; norm_num at this
      | some s => exact ⟨s, rfl⟩
  obtain ⟨s, hs⟩ := hs
  obtain ⟨q, rfl, hon, hgp, _⟩ := initial_sequence hown hs h.apart
  have hfirst := (C16_rotation x dyn none hown [q] hs).2.1
  exact ⟨q, hs, proper_single hon hgp, by simpa using hfirst⟩

lemma clear_rotation (hd : d ≤ 10 ^ 15) {p q A : Vec d} (h : Clear (A - p) (A - q)) :
    ∃ R, Projected.rotationStartToEnd p q A = .ok (some R) ∧ OrthonormalPair R.base.b0 R.base.b1
      ∧ R.getSecondVector = unit (A - q) ∧ GoodPair (unit (A - p)) (unit (A - q)) := by
  have hp : p ≠ A := by rintro rfl; have := h.left; rw [sub_self, norm_zero] at this; norm_num at this
  have hq : q ≠ A := by rintro rfl; have := h.right; rw [sub_self, norm_zero] at this; norm_num at this
  have hout := C69_outcomes hd p q A
  obtain ⟨o, ho⟩ : ∃ o, Projected.rotationStartToEnd p q A = .ok (some o) := by
    cases h' : Projected.rotationStartToEnd p q A with
    | error e => exact absurd ((hout.2 e).mp h').2.2 hq
    | ok v =>
      cases v with
      | none =>
        rcases hout.1.mp h' with h' | h'
        · exact absurd h' hp
        · exact absurd h'.2 h.turn
      | some o => exact ⟨o, rfl⟩
  obtain ⟨c1, c2, c3, c4⟩ := C69_rotation hd _ _ _ o ho
  refine ⟨o, ho, c1, ?_, ⟨fun h' => h.turn (opposite_of_unit (sub_ne_zero.mpr hp.symm) (sub_ne_zero.mpr hq.symm) h'),
    (List.isChain_cons_cons.mp h.apart).1⟩⟩
  rw [← c4 h.apart, ← c2]
  simp [Rot.rotate, Rot.getSecondVector, Rot.getFirstVector]

/-- C112: in a clear view the tree of convergence directions is built without an exception, for any number of obstacles
and components (obstacles whose root alone has no parent), and whatever the weights. -/
theorem C112_tree (ext : Ext d k) (has : ArgsortSpec ext.argsort) (hd : d ≤ 10 ^ 15) (a : Avoider d) (x A : Vec d)
    (ha : TurnsAround a x A) (hv : ClearView a x A) (hh : ∀ t ∈ a.trees, ShortHierarchy t) :
    ∃ s st, evaluateDynamicsSequence x a.initial = .ok (some s) ∧ ConvergenceTree ext a x s st := by
  have href : ∀ p, referenceDirection p a.initial none = A - p := by
    intro p; unfold referenceDirection; rw [ha.attractor]
  have href' : ∀ p, referenceDirection p (convergenceOf a) none = A - p := by
    intro p; unfold referenceDirection; rw [ha.attractor']
  obtain ⟨q, hs, hp, hfirst⟩ := clear_sequence ha.plain (by rw [href]; exact hv.velocity)
  rw [href] at hfirst
  have hturn : Turning (fun p => unit (A - p)) ([q].head hp.ne).getFirstVector a x := by
    refine ⟨ha.weight, ?_, ?_, ?_, ?_, ?_, ?_⟩
    · intro t ht
      unfold treeWeight
      rw [ha.attractor]
      simp only
      have hne : t.components ≠ [] := by
        intro h0
        have := (hh t ht).root
        rw [h0] at this
        simp at this
      have hg : ∃ g, t.gamma A = .ok g := by
        unfold ObstacleTree.gamma
        cases hm : (t.components.map (fun o => o.gamma A)).min? with
        | none => rw [List.min?_eq_none_iff, List.map_eq_nil_iff] at hm; exact absurd hm hne
        | some g => exact ⟨g, rfl⟩
      obtain ⟨g, hg⟩ := hg
      exact ⟨_, by rw [hg]; rfl⟩
    · intro t ht o ho
      refine unit_norm ?_
      intro h0
      have := (hv.component t ht o ho).right
      rw [h0, norm_zero] at this
      norm_num at this
    · intro t ht o ho
      obtain ⟨R, r1, r2, r3, r4⟩ := clear_rotation hd (hv.component t ht o (List.mem_of_getElem? ho))
      refine ⟨R, by rw [ha.towards]; exact r1, r2, r3, ?_⟩
      change GoodPair q.getFirstVector _
      rw [hfirst]
      exact r4
    · intro t ht o ho
      obtain ⟨R, r1, _, r3, _⟩ := clear_rotation hd (hv.component t ht o ho)
      exact ⟨R, by rw [ha.attractor, ha.between]; exact r1, r3⟩
    · intro t ht i j o o' hij ho ho'
      obtain ⟨R, r1, _, r3, _⟩ := clear_rotation hd (hv.parent t ht i j o o' hij ho ho')
      exact ⟨R, by rw [ha.attractor, ha.between]; exact r1, r3⟩
    · intro t ht o ho
      obtain ⟨q', e1, e2, e3⟩ := clear_sequence ha.plain' (by rw [href']; exact hv.root t ht o ho)
      rw [href'] at e3
      exact ⟨[q'], e1, e2, e3⟩
  obtain ⟨st, hst⟩ := convergenceTree_exists (ext := ext) has hp hturn hh
  exact ⟨[q], st, hs, hst⟩

/-- C112 (partial): in a clear view the convergence direction is defined and a unit vector.

Missing: trees in which a reduction has led to inner nodes with nearly (but not exactly) the direction of the
parent. -/
theorem C112_defined_partial (ext : Ext d k) (has : ArgsortSpec ext.argsort) (hd : d ≤ 10 ^ 15) (a : Avoider d)
    (x A : Vec d) (ha : TurnsAround a x A) (hv : ClearView a x A) (hh : ∀ t ∈ a.trees, ShortHierarchy t)
    (hgood : ∀ s st, evaluateDynamicsSequence x a.initial = .ok (some s) → ConvergenceTree ext a x s st →
      InnerDirections st.tree) :
    ∃ s conv v, evaluateDynamicsSequence x a.initial = .ok (some s)
      ∧ computeConvergenceSequence ext a x s = .ok conv ∧ conv.getEndVector = .ok v ∧ ‖v‖ = 1 := by
  obtain ⟨s, st, h1, h2⟩ := C112_tree ext has hd a x A ha hv hh
  obtain ⟨conv, v, h3, h4, h5⟩ := C112_unit_partial ext a x s st h2 (hgood s st h1 h2) has
  exact ⟨s, conv, v, h1, h3, h4, h5⟩

/-- C112 is not vacuous: the obstacle with two components of `pairAvoider`, seen from the point `(1, 0)` and the
attractor `(4, 0)`. -/
example : TurnsAround pairAvoider !₂[1, 0] !₂[4, 0] ∧ ClearView pairAvoider !₂[1, 0] !₂[4, 0]
    ∧ ∀ t ∈ pairAvoider.trees, ShortHierarchy t := by
  classical
  have e1 : ∀ c : ℝ, (!₂[4, 0] : Vec 2) - !₂[c, 0] = !₂[4 - c, 0] := by
    intro c; ext i; fin_cases i <;> simp
  have hn1 : ∀ r : ℝ, 0 < r → ‖(!₂[r, 0] : Vec 2)‖ = r := by
    intro r hr; simp [EuclideanSpace.norm_eq, Fin.sum_univ_two, Real.sqrt_sq hr.le]
  have hn2 : ∀ r : ℝ, ‖(!₂[0, r] : Vec 2)‖ = |r| := by
    intro r; simp [EuclideanSpace.norm_eq, Fin.sum_univ_two, Real.sqrt_sq_eq_abs]
  have axis : ∀ r s : ℝ, 1 ≤ r → 1 ≤ s → Clear (!₂[r, 0] : Vec 2) !₂[s, 0] := by
    intro r s hr hs
    refine ⟨by rw [hn1 r (by linarith)]; norm_num; linarith, by rw [hn1 s (by linarith)]; norm_num; linarith, ?_, ?_⟩
    · rintro ⟨c, hc, h⟩
      have h := congrFun (congrArg WithLp.ofLp h) 0
      simp at h
      nlinarith
    · refine List.isChain_cons_cons.mpr ⟨Or.inl ?_, List.isChain_singleton _⟩
      change unit _ = unit _
      rw [unit_e1 (by linarith), unit_e1 (by linarith)]
  have perp : ∀ r y : ℝ, 1 ≤ r → 1 ≤ |y| → Clear (!₂[r, 0] : Vec 2) !₂[0, y] := by
    intro r y hr hy
    refine ⟨by rw [hn1 r (by linarith)]; norm_num; linarith, by rw [hn2]; norm_num; linarith, ?_, ?_⟩
    · rintro ⟨c, hc, h⟩
      have h := congrFun (congrArg WithLp.ofLp h) 1
      simp at h
      rw [h] at hy
      norm_num at hy
    · refine List.isChain_cons_cons.mpr ⟨Or.inr ?_, List.isChain_singleton _⟩
      change ¬ allclose (unit _) (unit _)
      rw [unit_e1 (by linarith)]
      intro h
      have := h 0
      simp [isclose, unit] at this
      norm_num at this
  have h0 : (0 : Vec 2) = !₂[0, 0] := by ext i; fin_cases i <;> rfl
  have hcomp : ∀ o ∈ pairTree.components, o.referencePoint = !₂[-3, 0] ∨ o.referencePoint = !₂[0, 0] := by
    intro o ho
    have : o = farDisc ∨ o = disc := by simpa [pairTree] using ho
    rcases this with rfl | rfl
    · exact Or.inl rfl
    · exact Or.inr h0
  have htree : ∀ t ∈ pairAvoider.trees, t = pairTree := by intro t ht; simpa [pairAvoider] using ht
  refine ⟨⟨rfl, rfl, rfl, rfl, rfl, fun p q => rfl, ?_⟩, ⟨?_, ?_, ?_, ?_⟩, ?_⟩
  · intro t _ o _
    refine ⟨_, rfl, ?_⟩
    split_ifs <;> norm_num
  · rw [e1]
    have : pairAvoider.initial.evaluate !₂[1, 0] = !₂[0, 1] := turn_eval
    rw [this]
    exact perp _ _ (by norm_num) (by norm_num)
  · intro t ht o ho
    rw [htree t ht] at ho
    rcases hcomp o ho with h | h <;> rw [h, e1, e1] <;> exact axis _ _ (by norm_num) (by norm_num)
  · intro t ht i j o o' _ ho ho'
    rw [htree t ht] at ho ho'
    rcases hcomp o (List.mem_of_getElem? ho) with h | h <;> rcases hcomp o' (List.mem_of_getElem? ho') with h' | h' <;>
      rw [h, h', e1] <;> (try rw [e1]) <;> exact axis _ _ (by norm_num) (by norm_num)
  · intro t ht o ho
    rw [htree t ht] at ho
    have : o = farDisc := by simpa [pairTree] using ho.symm
    rw [this]
    have hr : farDisc.referencePoint = (!₂[-3, 0] : Vec 2) := rfl
    have he : (convergenceOf pairAvoider).evaluate !₂[-3, 0] = !₂[0, -7] := by
      change (!₂[0, 2 * (-3) - 1] : Vec 2) = _
      norm_num
    rw [hr, he, e1]
    exact perp _ _ (by norm_num) (by norm_num)
  · intro t ht
    rw [htree t ht]
    refine ⟨by simp [pairTree], ?_, ?_⟩
    · intro c hc hp
      have hc : c < 2 := hc
      interval_cases c
      · rfl
      · simp [pairTree] at hp
    · intro c hc
      have hc : c < 2 := hc
      have h0 : ParentsEnd pairTree 0 0 := .stop (by simp [pairTree]) rfl
      interval_cases c
      · exact ⟨0, by norm_num, h0⟩
      · exact ⟨1, by norm_num, .step (by simp [pairTree]) rfl h0⟩

/-- C112 is not vacuous: the tree of `pairAvoider` has good directions. -/
example {ext : Ext 2 1} (s : RotSeq (Vec 2)) (st : ConvState 2)
    (h1 : evaluateDynamicsSequence !₂[1, 0] pairAvoider.initial = .ok (some s))
    (h2 : ConvergenceTree ext pairAvoider !₂[1, 0] s st) : InnerDirections st.tree := by
  obtain ⟨q, st', e1, _, ⟨t', e2, e3⟩, e4⟩ := pair_tree (ext := ext)
  rw [e1] at h1
  cases h1
  obtain ⟨t, f1, f2⟩ := h2
  rw [e2] at f1
  cases f1
  rw [e3] at f2
  cases f2
  exact e4.inner

end Verif
