import Verif.Spec.TimeScale
import Verif.Props.AvoiderShift
import Verif.Props.Relative
import Verif.Props.AvoiderContact

/-!
# C137: the scale of the time
-/

open scoped RealInnerProductSpace

namespace Verif
open Spec

variable {d k : ℕ} [Fact (2 ≤ d)]
set_option linter.unusedSectionVars false

lemma unit_smul_pos {c : ℝ} (hc : 0 < c) (v : Vec d) : unit (c • v) = unit v := by
  unfold unit
  rw [norm_smul, Real.norm_of_nonneg hc.le, smul_smul]
  congr 1
  by_cases hv : ‖v‖ = 0
  · rw [hv]; simp
  · field_simp

lemma not_close {v : Vec d} (h : 1e-8 < ‖v‖) : ¬ isclose ‖v‖ 0 := by
  unfold isclose
  rw [sub_zero, abs_zero, mul_zero, add_zero, abs_of_nonneg (norm_nonneg _)]
  linarith

lemma array_congr {vs ws : List (Vec d)} (h : vs.map unit = ws.map unit)
    (hc : (∃ v ∈ vs, isclose ‖v‖ 0) ↔ ∃ v ∈ ws, isclose ‖v‖ 0) :
    createFromVectorArray vs = createFromVectorArray ws := by
  rw [createFromVectorArray_eq, createFromVectorArray_eq, h]
  by_cases h1 : ∃ v ∈ vs, isclose ‖v‖ 0
  · rw [if_pos h1, if_pos (hc.mp h1)]
  · rw [if_neg h1, if_neg (fun h2 => h1 (hc.mpr h2))]

lemma faster_sequence {c : ℝ} (hc : 0 < c) (f : Dynamics d) (y : Vec d) (h : NotSlow c f y) :
    evaluateDynamicsSequence y (fasterDynamics c f) = evaluateDynamicsSequence y f := by
  cases f with
  | mk e a s =>
  cases s with
  | some s => rfl
  | none =>
    have h := h rfl
    have hn : ‖c • e y‖ = 0 ↔ ‖e y‖ = 0 := by
      rw [norm_eq_zero, norm_eq_zero, smul_eq_zero]
      exact ⟨fun h => h.resolve_left hc.ne', Or.inr⟩
    cases a with
    | none =>
      simp only [evaluateDynamicsSequence, fasterDynamics, hn]
      by_cases h0 : ‖e y‖ = 0
      · simp only [h0, or_self, if_true]
      · rw [if_neg (by simpa using h0), if_neg (by simpa using h0)]
        have h' : 1e-8 < ‖e y‖ ∧ 1e-8 < ‖c • e y‖ := by
          rcases h with h | h
          · exact absurd (by simpa using h) h0
          · exact h
        rw [array_congr (vs := [c • e y, c • e y]) (ws := [e y, e y]) (by simp [unit_smul_pos hc])]
        simp only [List.mem_cons, List.not_mem_nil, or_false, exists_eq_left, or_self, exists_eq_or_imp]
        exact ⟨fun h1 => absurd h1 (not_close h'.2), fun h1 => absurd h1 (not_close h'.1)⟩
    | some z =>
      simp only [evaluateDynamicsSequence, fasterDynamics, hn]
      by_cases h0 : ‖z - y‖ = 0 ∨ ‖e y‖ = 0
      · rw [if_pos h0, if_pos h0]
      · rw [if_neg h0, if_neg h0]
        have h' : 1e-8 < ‖e y‖ ∧ 1e-8 < ‖c • e y‖ := by
          rcases h with h | h
          · exact absurd (Or.inr (by simpa using h)) h0
          · exact h
        rw [array_congr (vs := [z - y, c • e y]) (ws := [z - y, e y]) (by simp [unit_smul_pos hc])]
        simp only [List.mem_cons, List.not_mem_nil, or_false, exists_eq_left, exists_eq_or_imp]
        constructor
        · rintro (h1 | h1)
          · exact .inl h1
          · exact absurd h1 (not_close h'.2)
        · rintro (h1 | h1)
          · exact .inl h1
          · exact absurd h1 (not_close h'.1)

lemma faster_angular (c w : ℝ) (y : Vec d) :
    angularVelocity (c * w) y = (angularVelocity w y).map (fun v => c • v) := by
  unfold angularVelocity
  split_ifs with h1 h2
  · change Except.ok _ = Except.ok _
    congr 1
    ext i
    simp only [crossZ, PiLp.smul_apply, smul_eq_mul]
    split_ifs <;> ring
  · rfl
  · rfl

lemma faster_relativeStep (c : ℝ) (x acc : Vec d) (t : ObstacleTree d) (q : ℝ × ℝ) :
    relativeStep x (c • acc) (fasterTree c t, q) = (relativeStep x acc (t, q)).map (fun v => c • v) := by
  unfold relativeStep
  by_cases h : q.2 ≤ 0
  · simp only [h, if_true]; rfl
  · simp only [h, if_false]
    simp only [fasterTree]
    have hlin : ∀ (A B : Except PyErr (Vec d)) (r : Option ℝ), A = B.map (fun v => c • v) →
        (match A with
          | .error e => .error e
          | .ok acc => match r.map (fun r => c * r) with
            | none => .ok acc
            | some r => .ok (acc + (q.2 * r) • (x - t.position)) : Except PyErr (Vec d))
        = (match B with
          | .error e => .error e
          | .ok acc => match r with
            | none => .ok acc
            | some r => .ok (acc + (q.2 * r) • (x - t.position)) : Except PyErr (Vec d)).map (fun v => c • v) := by
      intro A B r hAB
      subst hAB
      cases B with
      | error e => rfl
      | ok b =>
        cases r with
        | none => rfl
        | some r =>
          change Except.ok _ = Except.ok _
          congr 1
          module
    apply hlin
    cases t.twist with
    | none => rfl
    | some w =>
      obtain ⟨lin, w⟩ := w
      cases w with
      | none =>
        change Except.ok _ = Except.ok _
        congr 1
        module
      | some w =>
        simp only [Option.map_some, faster_angular]
        cases angularVelocity w (x - t.position) with
        | error e => rfl
        | ok v =>
          change Except.ok _ = Except.ok _
          congr 1
          module

lemma faster_relative (c : ℝ) (x : Vec d) (l : List (ObstacleTree d)) :
    relativeVelocity x (l.map (fasterTree c)) = (relativeVelocity x l).map (fun v => c • v) := by
  unfold relativeVelocity
  have h1 : (l.map (fasterTree c)).mapM (fun t => t.gamma x) = l.mapM (fun t => t.gamma x) := by
    induction l with
    | nil => rfl
    | cons y l ih => simp only [List.map_cons, List.mapM_cons, ih]; rfl
  rw [h1]
  cases l.mapM (fun t => t.gamma x) with
  | error e => rfl
  | ok g =>
    simp only [bind, Except.bind]
    rw [List.zip_map_left, foldlM_map']
    have key : ∀ (l : List (ObstacleTree d × ℝ × ℝ)) (acc : Vec d),
        l.foldlM (fun b p => relativeStep x b (Prod.map (fasterTree c) id p)) (c • acc)
          = (l.foldlM (relativeStep x) acc).map (fun v => c • v) := by
      intro l
      induction l with
      | nil => intro acc; rfl
      | cons p l ih =>
        intro acc
        simp only [List.foldlM_cons, Prod.map, id, faster_relativeStep]
        rw [show ((p.1, p.2) : ObstacleTree d × ℝ × ℝ) = p from rfl]
        cases relativeStep x acc p with
        | error e => rfl
        | ok b => exact ih b
    have := key (l.zip (g.zip (computeGammaWeights g 1))) 0
    rw [smul_zero] at this
    exact this

lemma faster_chain (c : ℝ) (a : Avoider d) (ot : ObstacleTree d) (i q : ℕ) (n : ℕ) :
    ∀ (l b : ℕ) (id : NodeId) (y : Vec d) (t : Tree NodeId d),
      parentChain (fasterAvoider c a) (fasterTree c ot) i q n l b id y t = parentChain a ot i q n l b id y t := by
  induction n with
  | zero => intros; rfl
  | succ n ih =>
    intro l b id y t
    unfold parentChain
    simp only [ih]
    rfl

lemma faster_convTree (ext : Ext d k) {c : ℝ} (hc : 0 < c) (x : Vec d) (a : Avoider d) (s : RotSeq (Vec d))
    (st : ConvState d) (ot : ObstacleTree d) (i : ℕ)
    (hr : ∀ o, ot.components[ot.rootIdx]? = some o → NotSlow c (a.default.getD a.initial) o.referencePoint) :
    convTree ext (fasterAvoider c a) x s st (fasterTree c ot, i) = convTree ext a x s st (ot, i) := by
  have hcomp : ∀ w cs, convComponent (fasterAvoider c a) x i (fasterTree c ot) w cs = convComponent a x i ot w cs := by
    intro w cs
    funext st p
    have g1 : (fasterTree c ot).rootIdx = ot.rootIdx := rfl
    have g2 : (fasterAvoider c a).convergence = a.convergence := rfl
    unfold convComponent
    simp only [faster_chain, g1, g2]
  have hd : (fasterAvoider c a).default.getD (fasterAvoider c a).initial
      = fasterDynamics c (a.default.getD a.initial) := by
    unfold fasterAvoider
    cases a.default <;> rfl
  have h1 : treeWeight (fasterAvoider c a) (fasterTree c ot) = treeWeight a ot := by
    have g1 : (fasterAvoider c a).initial.attractorPosition = a.initial.attractorPosition := rfl
    have g2 : ∀ y, (fasterTree c ot).gamma y = ot.gamma y := fun _ => rfl
    unfold treeWeight
    simp only [g1, g2]
  have h2 : ∀ j, (fasterTree c ot).getComponent j = ot.getComponent j := fun j => rfl
  have h3 : (fasterTree c ot).components = ot.components := rfl
  have h4 : (fasterAvoider c a).convergence = a.convergence := rfl
  have h5 : (fasterTree c ot).rootIdx = ot.rootIdx := rfl
  unfold convTree
  simp only [h1, h5, h2, h3, h4, hcomp, hd]
  cases treeWeight a ot with
  | error e => simp only [bind, Except.bind]
  | ok tw =>
    cases ho : ot.getComponent ot.rootIdx with
    | error e => simp only [bind, Except.bind, ho]
    | ok o =>
      have : ot.components[ot.rootIdx]? = some o := by
        unfold ObstacleTree.getComponent at ho
        cases h : ot.components[ot.rootIdx]? with
        | none => rw [h] at ho; cases ho
        | some o' => rw [h] at ho; cases ho; rfl
      simp only [bind, Except.bind, faster_sequence hc _ _ (hr o this)]

lemma faster_convergence (ext : Ext d k) {c : ℝ} (hc : 0 < c) (x : Vec d) (a : Avoider d) (s : RotSeq (Vec d))
    (hr : ∀ ot ∈ a.trees, ∀ o, ot.components[ot.rootIdx]? = some o →
      NotSlow c (a.default.getD a.initial) o.referencePoint) :
    computeConvergenceSequence ext (fasterAvoider c a) x s = computeConvergenceSequence ext a x s := by
  unfold computeConvergenceSequence
  have h : (fasterAvoider c a).trees.zipIdx = a.trees.zipIdx.map (Prod.map (fasterTree c) id) := by
    simp [fasterAvoider, List.zipIdx_map]
  have hf : ∀ st, (a.trees.zipIdx.map (Prod.map (fasterTree c) id)).foldlM
      (convTree ext (fasterAvoider c a) x s) st = a.trees.zipIdx.foldlM (convTree ext a x s) st := by
    intro st
    rw [foldlM_map']
    apply foldlM_congr_mem
    rintro ⟨ot, i⟩ ho st'
    exact faster_convTree ext hc x a s st' ot i (hr ot (List.mem_of_getElem? (List.mem_zipIdx_iff_getElem?.mp ho)))
  rw [h]
  simp only [hf]

lemma faster_branchLoop (c : ℝ) (ot : ObstacleTree d) (r : ℝ) (n : ℕ) :
    ∀ (m j : ℕ) (s : Vec d), branchLoop (fasterTree c ot) r n m j s = branchLoop ot r n m j s := by
  induction n with
  | zero => intros; rfl
  | succ n ih =>
    intro m j s
    unfold branchLoop
    simp only [ih]
    rfl

lemma faster_branch (c : ℝ) (ot : ObstacleTree d) (x : Vec d) (j : ℕ) :
    computeBranch x j (fasterTree c ot) = computeBranch x j ot := by
  unfold computeBranch
  simp only [faster_branchLoop]
  rfl

lemma faster_tangentStep (ext : Ext d k) (c : ℝ) (x v : Vec d) (a : Avoider d) (st : TangentState d)
    (ot : ObstacleTree d) (i : ℕ) :
    tangentStep ext (fasterAvoider c a) x v st (fasterTree c ot, i) = tangentStep ext a x v st (ot, i) := by
  have h4 : populateStep ext x v (fasterTree c ot) i = populateStep ext x v ot i := by
    funext st q
    unfold populateStep tangentBranch
    simp only [faster_branch]
    rfl
  have h5 : ∀ w g st, populateTangentTree ext (fasterAvoider c a) x v (fasterTree c ot) i w g st
      = populateTangentTree ext a x v ot i w g st := by
    intro w g st
    unfold populateTangentTree
    rw [h4]
    rfl
  unfold tangentStep
  simp only [h5]
  rfl

lemma faster_prepare (ext : Ext d k) (c : ℝ) (x v : Vec d) (a : Avoider d) :
    prepareAvoidance ext (fasterAvoider c a) x v = prepareAvoidance ext a x v := by
  unfold prepareAvoidance
  have hz : (fasterAvoider c a).trees.zipIdx = a.trees.zipIdx.map (Prod.map (fasterTree c) id) := by
    simp [fasterAvoider, List.zipIdx_map]
  rw [hz]
  simp only [foldlM_map', Prod.map, id, faster_tangentStep]

lemma faster_slowDown (c m : ℝ) (rel final : Vec d) (pr : Prepared d) (h : pr.cluster ≠ []) :
    slowDown (c * m) (c • rel) final pr = (slowDown m rel final pr).map (fun v => c • v) := by
  unfold slowDown
  cases hm : pr.cluster.max? with
  | none => exact absurd (List.max?_eq_none_iff.mp hm) h
  | some w =>
    simp only [bind, Except.bind]
    cases computeSafeScaling final (List.zipWith (fun (n : Vec d) w => w • n) pr.normals pr.cluster).sum (1 / w) with
    | error e => rfl
    | ok p =>
      cases slowfactorFromConvergence pr.slow with
      | error e => rfl
      | ok q =>
        by_cases h0 : ‖final‖ = 0
        · simp only [h0, if_true]; rfl
        · simp only [h0, if_false]
          change Except.ok _ = Except.ok _
          congr 1
          module

/-- C137: if all velocities (of the initial dynamics and of the obstacles) are multiplied by `c > 0`, the returned
velocity is multiplied by `c`; the exceptions are the same.
Missing: positions where no obstacle has an influence, where the code returns a direction of length one instead of a
velocity (violated, `C137_no_influence`), and velocities below the tolerance `1e-8`. -/
theorem C137_partial (ext : Ext d k) {c : ℝ} (hc : 0 < c) (a : Avoider d) (x : Vec d) (hx : NotSlow c a.initial x)
    (hr : ∀ ot ∈ a.trees, ∀ o, ot.components[ot.rootIdx]? = some o →
      NotSlow c (a.default.getD a.initial) o.referencePoint)
    (hcl : a.trees ≠ [] → ∀ pr, PreparedFor ext a x pr → pr.cluster ≠ []) :
    (fasterAvoider c a).evaluate ext x = (a.evaluate ext x).map (fun v => c • v) := by
  unfold Avoider.evaluate evaluateSequence
  have h1 : evaluateDynamicsSequence x (fasterAvoider c a).initial = evaluateDynamicsSequence x a.initial :=
    faster_sequence hc a.initial x hx
  have h3 : (fasterAvoider c a).magnitude x = c * a.magnitude x := by
    unfold Avoider.magnitude fasterAvoider fasterDynamics
    cases a.evaluateMagnitude with
    | some m => rfl
    | none => simp only [Option.map_none, norm_smul, Real.norm_of_nonneg hc.le]
  have h4 : relativeVelocity x (fasterAvoider c a).trees = (relativeVelocity x a.trees).map (fun v => c • v) :=
    faster_relative c x a.trees
  have h5 : ((fasterAvoider c a).trees = []) = (a.trees = []) := by simp [fasterAvoider]
  rw [h1]
  cases hs : evaluateDynamicsSequence x a.initial with
  | error e => rfl
  | ok o =>
    cases o with
    | none =>
      change Except.ok (0 : Vec d) = Except.ok (c • (0 : Vec d))
      rw [smul_zero]
    | some s =>
      simp only [bind, Except.bind, h4, faster_convergence ext hc x a s hr, faster_prepare, h3]
      by_cases ht : a.trees = []
      · rw [if_pos (h5 ▸ ht), if_pos ht]
        cases s.getEndVector with
        | error e => rfl
        | ok v =>
          change Except.ok _ = Except.ok _
          rw [mul_smul]
      · rw [if_neg (h5 ▸ ht), if_neg ht]
        cases relativeVelocity x a.trees with
        | error e => rfl
        | ok rel =>
          simp only [Except.map]
          cases hconv : computeConvergenceSequence ext a x s with
          | error e => rfl
          | ok conv =>
            cases hv : conv.getEndVector with
            | error e => simp only [hv]
            | ok v =>
              simp only [hv]
              cases hp : prepareAvoidance ext a x v with
              | error e => rfl
              | ok pr =>
                simp only
                cases avoidanceDirection ext pr with
                | error e => rfl
                | ok final => exact faster_slowDown c _ rel final pr (hcl ht pr ⟨s, conv, v, hs, hconv, hv, hp⟩)

/-- C137 is violated where no obstacle has an influence (for example behind all of them): the code returns the
direction, a vector of length one, in place of the velocity (multi_obstacle_avoider.py:331-334), so that the result does
not depend on the speed of the initial dynamics. -/
theorem C137_no_influence (ext : Ext d k) {c : ℝ} (hc : 0 < c) (a : Avoider d) (x : Vec d) (hx : NotSlow c a.initial x)
    (hr : ∀ ot ∈ a.trees, ∀ o, ot.components[ot.rootIdx]? = some o →
      NotSlow c (a.default.getD a.initial) o.referencePoint)
    (hstatic : ∀ ot ∈ a.trees, Static ot) (ht : a.trees ≠ [])
    (hcl : ∀ pr, PreparedFor ext a x pr → pr.cluster = []) :
    (fasterAvoider c a).evaluate ext x = a.evaluate ext x := by
  unfold Avoider.evaluate evaluateSequence
  have h1 : evaluateDynamicsSequence x (fasterAvoider c a).initial = evaluateDynamicsSequence x a.initial :=
    faster_sequence hc a.initial x hx
  have h4 : relativeVelocity x (fasterAvoider c a).trees = (relativeVelocity x a.trees).map (fun v => c • v) :=
    faster_relative c x a.trees
  have h5 : (fasterAvoider c a).trees ≠ [] := by simpa [fasterAvoider] using ht
  rw [h1]
  cases hs : evaluateDynamicsSequence x a.initial with
  | error e => simp only [bind, Except.bind]
  | ok o =>
    cases o with
    | none => simp only [bind, Except.bind]
    | some s =>
      simp only [bind, Except.bind, h4, faster_convergence ext hc x a s hr, faster_prepare]
      rw [if_neg h5, if_neg ht]
      cases hrel : relativeVelocity x a.trees with
      | error e => simp only [Except.map]
      | ok rel =>
        have hrel0 := relative_static hstatic hrel
        subst hrel0
        simp only [Except.map, smul_zero]
        cases hconv : computeConvergenceSequence ext a x s with
        | error e => simp only []
        | ok conv =>
          cases hv : conv.getEndVector with
          | error e => simp only [hv]
          | ok v =>
            simp only [hv]
            cases hp : prepareAvoidance ext a x v with
            | error e => simp only []
            | ok pr =>
              simp only
              have hnil := hcl pr ⟨s, conv, v, hs, hconv, hv, hp⟩
              cases avoidanceDirection ext pr with
              | error e => simp only []
              | ok final =>
                simp only [slowDown, hnil, List.max?_nil]

lemma faster_directions {c : ℝ} (hc : 0 < c) (v w : Vec d) : fromDirections (c • v) (c • w) = fromDirections v w := by
  have hn : ∀ v : Vec d, ‖c • v‖ = 0 ↔ ‖v‖ = 0 := by
    intro v
    rw [norm_eq_zero, norm_eq_zero, smul_eq_zero]
    exact ⟨fun h => h.resolve_left hc.ne', Or.inr⟩
  have hu : ∀ v : Vec d, (1 / ‖c • v‖) • c • v = (1 / ‖v‖) • v := fun v => unit_smul_pos hc v
  unfold fromDirections
  simp only [hn, hu]
  by_cases h : allclose ((1 / ‖v‖) • v) ((1 / ‖w‖) • w)
  · have h' : allclose ((1 / ‖c • v‖) • c • v) ((1 / ‖c • w‖) • c • w) := by rw [hu, hu]; exact h
    rw [if_pos h, if_pos h']
  · have h' : ¬ allclose ((1 / ‖c • v‖) • c • v) ((1 / ‖c • w‖) • c • w) := by rw [hu, hu]; exact h
    rw [if_neg h, if_neg h']

/-- C137: the convergence dynamics without singularity is the same for the faster dynamics. -/
theorem C137_without_singularity {c : ℝ} (hc : 0 < c) (f g : Vec d → Vec d) :
    convergenceWithoutSingularity (fun y => c • f y) (fun y => c • g y) = convergenceWithoutSingularity f g := by
  unfold convergenceWithoutSingularity
  simp only [faster_directions hc]

/-- C137 is not vacuous: a disc, a position on its surface, and twice the speed. -/
example : ∃ (ext : Ext 2 1) (a : Avoider 2) (x w : Vec 2), NotSlow 2 a.initial x ∧ a.trees ≠ []
    ∧ (∀ ot ∈ a.trees, ∀ o, ot.components[ot.rootIdx]? = some o →
      NotSlow 2 (a.default.getD a.initial) o.referencePoint)
    ∧ (∀ pr, PreparedFor ext a x pr → pr.cluster ≠ []) ∧ a.evaluate ext x = .ok w := by
  obtain ⟨argsort, has⟩ := argsort_exists
  obtain ⟨w, pr, h1, hPF, h2, h3⟩ := slide_run argsort has
  have hp : (0 : ℝ) ≤ (discAvoider !₂[0, 1 / 2] 1).power := by norm_num [discAvoider]
  have hv : ‖(!₂[0, 1 / 2] : Vec 2)‖ = 1 / 2 := by
    simp [EuclideanSpace.norm_eq, Fin.sum_univ_two]
  have hns : ∀ y, NotSlow 2 (discAvoider !₂[0, 1 / 2] 1).initial y := by
    intro y _
    right
    change 1e-8 < ‖(!₂[0, 1 / 2] : Vec 2)‖ ∧ 1e-8 < ‖(2 : ℝ) • (!₂[0, 1 / 2] : Vec 2)‖
    rw [norm_smul, hv]
    norm_num
  refine ⟨planeExt argsort, discAvoider !₂[0, 1 / 2] 1, (1 : ℝ) • !₂[1, 0], w, hns _, by simp [discAvoider],
    fun _ _ o _ => hns _, ?_, h1⟩
  have honly : ∀ (j : ℕ) (t' : ObstacleTree 2) (c' : ℕ) (o' : Obstacle 2),
      (discAvoider !₂[0, 1 / 2] 1).trees[j]? = some t' → t'.components[c']? = some o' →
      o'.gamma ((1 : ℝ) • !₂[1, 0]) ≤ 1 → j = 0 ∧ c' = 0 := by
    intro j t' c' o' hj hc _
    have hj' : j = 0 := by
      by_contra hne
      rw [List.getElem?_eq_none (by simp [discAvoider]; omega)] at hj; cases hj
    subst hj'
    have : t' = discTree := by simpa [discAvoider] using hj.symm
    subst this
    refine ⟨rfl, ?_⟩
    by_contra hne
    rw [List.getElem?_eq_none (by simp [discTree]; omega)] at hc; cases hc
  have hcon : disc.gamma ((1 : ℝ) • !₂[1, 0]) ≤ 1 := by
    change ‖(1 : ℝ) • (!₂[1, 0] : Vec 2)‖ ≤ 1
    rw [one_smul, e_norm]
  rintro pr' ⟨_, _, u, _, _, _, hprep⟩ hnil
  have := (contact_cluster hp (discs_sane _ 1) hprep (i := 0) (t := discTree) rfl (c := 0)
    (o := disc) rfl hcon honly (by intro occ hocc; cases hocc; rfl)).1
  rw [hnil] at this; cases this

/-- `C137_no_influence` is not vacuous, and the scaling fails: moving away from a disc, the result is the same for twice
the speed, and it is not zero. -/
theorem C137_fails : ∃ (ext : Ext 2 1) (a : Avoider 2) (x w : Vec 2), NotSlow 2 a.initial x ∧ w ≠ 0
    ∧ a.evaluate ext x = .ok w ∧ (fasterAvoider 2 a).evaluate ext x = .ok w := by
  obtain ⟨argsort, has⟩ := argsort_exists
  obtain ⟨w, pr, h1, hPF, hnone, h3⟩ := away_run argsort has
  have hp : (0 : ℝ) ≤ (discAvoider !₂[1 / 2, 0] 1).power := by norm_num [discAvoider]
  have hv : ‖(!₂[1 / 2, 0] : Vec 2)‖ = 1 / 2 := by
    simp [EuclideanSpace.norm_eq, Fin.sum_univ_two]
  have hns : ∀ y, NotSlow 2 (discAvoider !₂[1 / 2, 0] 1).initial y := by
    intro y _
    right
    change 1e-8 < ‖(!₂[1 / 2, 0] : Vec 2)‖ ∧ 1e-8 < ‖(2 : ℝ) • (!₂[1 / 2, 0] : Vec 2)‖
    rw [norm_smul, hv]
    norm_num
  have hone : AtMostOneContact ((2 : ℝ) • !₂[1, 0]) (discAvoider !₂[1 / 2, 0] 1).trees :=
    List.pairwise_singleton _ _
  have hw : ‖w‖ = 1 := C41_unit_speed (planeExt argsort) _ _ w hp (discs_sane _ _) hone (discs_static _ _) has
      (by simp [discAvoider]) pr hPF hnone (h3 pr hPF).inner h1
  refine ⟨planeExt argsort, discAvoider !₂[1 / 2, 0] 1, (2 : ℝ) • !₂[1, 0], w, hns _, ?_, h1, ?_⟩
  · intro h; rw [h, norm_zero] at hw; norm_num at hw
  · rw [C137_no_influence (planeExt argsort) (by norm_num) (discAvoider !₂[1 / 2, 0] 1) _ (hns _)
      (fun _ _ o _ => hns _) (discs_static _ _) (by simp [discAvoider]) ?_]
    · exact h1
    · rintro pr' ⟨s, conv, u, e1, e2, e3, e4⟩
      obtain ⟨s', conv', u', f1, f2, f3, f4⟩ := hPF
      rw [e1] at f1; cases f1
      rw [e2] at f2; cases f2
      rw [e3] at f3; cases f3
      rw [e4] at f4; cases f4
      exact hnone

end Verif
