import Verif.Props.AvoiderExamples

/-!
# C61: contact with moving obstacles
-/

open scoped RealInnerProductSpace

namespace Verif
open Spec

/-- The unit disc, moving with the velocity `lin`. -/
noncomputable def movingDisc (lin : Vec 2) : ObstacleTree 2 := { discTree with twist := some (lin, none) }

/-- `discAvoider` with one moving disc. -/
noncomputable def movingAvoider (v lin : Vec 2) : Avoider 2 :=
  { discAvoider v 1 with trees := [movingDisc lin] }

/-- The convergence direction and the tangent directions do not depend on the motion of the disc. -/
lemma moving_prepare {ext : Ext 2 1} (v lin x u : Vec 2) :
    prepareAvoidance ext (movingAvoider v lin) x u = prepareAvoidance ext (discAvoider v 1) x u := rfl

lemma moving_chain (v lin : Vec 2) (i c fuel pp io : ℕ) (pred : NodeId) (x : Vec 2)
    (t : Tree NodeId 2) :
    parentChain (movingAvoider v lin) (movingDisc lin) i c fuel pp io pred x t
      = parentChain (discAvoider v 1) discTree i c fuel pp io pred x t := by
  induction fuel generalizing pp io pred x t with
  | zero => rfl
  | succ fuel ih =>
    unfold parentChain
    rfl

lemma moving_component (v lin x : Vec 2) (i : ℕ) (tw : ℝ) (conv : Option (RotSeq (Vec 2))) :
    convComponent (movingAvoider v lin) x i (movingDisc lin) tw conv
      = convComponent (discAvoider v 1) x i discTree tw conv := by
  funext st c
  unfold convComponent
  simp only [moving_chain]
  rfl

lemma moving_convergence {ext : Ext 2 1} (v lin x : Vec 2) (s : RotSeq (Vec 2)) :
    computeConvergenceSequence ext (movingAvoider v lin) x s
      = computeConvergenceSequence ext (discAvoider v 1) x s := by
  have hstep : ∀ st, convTree ext (movingAvoider v lin) x s st (movingDisc lin, 0)
      = convTree ext (discAvoider v 1) x s st (discTree, 0) := by
    intro st
    unfold convTree
    simp only [moving_component]
    rfl
  unfold computeConvergenceSequence
  have e1 : (movingAvoider v lin).trees.zipIdx = [(movingDisc lin, 0)] := rfl
  have e2 : (discAvoider v 1).trees.zipIdx = [(discTree, 0)] := rfl
  rw [e1, e2]
  simp only [List.foldlM_cons, List.foldlM_nil, hstep]

/-- C61 (moving obstacles) is not vacuous: a disc moving towards a position that slides along it. -/
example : ∃ (ext : Ext 2 1) (a : Avoider 2) (x w : Vec 2), 0 ≤ a.power
    ∧ SaneTrees a.trees ∧ ArgsortSpec ext.argsort ∧ 0 ≤ a.magnitude x
    ∧ (∀ pr, PreparedFor ext a x pr → GoodDirections pr.tree) ∧ a.evaluate ext x = .ok w
    ∧ a.initial.ownSequence = none ∧ a.initial.evaluate x ≠ 0
    ∧ a.initial.attractorPosition ≠ some x
    ∧ (∃ t o, a.trees[0]? = some t ∧ t.components[0]? = some o ∧ o.gamma x ≤ 1
      ∧ (∀ (j : ℕ) (t' : ObstacleTree 2) (c' : ℕ) (o' : Obstacle 2), a.trees[j]? = some t' →
        t'.components[c']? = some o' → o'.gamma x ≤ 1 → j = 0 ∧ c' = 0) ∧ 0 = t.rootIdx
      ∧ 0 < ⟪movedVelocity x 1 t, o.normal x⟫) := by
  classical
  obtain ⟨argsort, has⟩ := argsort_exists
  obtain ⟨w, pr, h1, ⟨s, conv, u, hs, hconv, hu, hpr⟩, h2, h3⟩ := slide_run argsort has
  set x : Vec 2 := (1 : ℝ) • !₂[1, 0] with hx
  set v : Vec 2 := !₂[0, 1 / 2] with hv
  have hsane : SaneTrees (movingAvoider v !₂[1, 0]).trees := by
    intro t ht o ho
    have : t = movingDisc !₂[1, 0] := by simpa [movingAvoider] using ht
    subst this
    have : o = disc := by simpa [movingDisc, discTree] using ho
    subst this
    exact disc_sane
  have hgood : ∀ pr, PreparedFor (planeExt argsort) (movingAvoider v !₂[1, 0]) x pr →
      GoodDirections pr.tree := by
    rintro pr ⟨s, conv, u, e1, e2, e3, e4⟩
    rw [moving_convergence] at e2
    exact h3 pr ⟨s, conv, u, e1, e2, e3, e4⟩
  have hcon : disc.gamma x ≤ 1 := by
    change ‖x‖ ≤ 1
    rw [hx, one_smul, e_norm]
  have hev : ∃ w', (movingAvoider v !₂[1, 0]).evaluate (planeExt argsort) x = .ok w' := by
    have hne : (discAvoider v 1).trees ≠ [] := by simp [discAvoider]
    rcases evaluate_run hne h1 with ⟨_, h0⟩ | ⟨pr', rel, final, hpr', hrel, hf, hsl⟩
    · rw [hs] at h0; cases h0
    · obtain ⟨s', conv', u', e1, e2, e3, e4⟩ := hpr'
      have hg : [movingDisc !₂[1, 0]].mapM (fun t : ObstacleTree 2 => t.gamma x) = .ok [‖x‖] := rfl
      have hrel' := C60_weighted_sum x [movingDisc !₂[1, 0]] _ hg
      have : ∃ w', slowDown ((discAvoider v 1).magnitude x)
          (([movingDisc !₂[1, 0]].zip ([‖x‖].zip (computeGammaWeights [‖x‖] 1))).map
            (fun p => p.2.2 • movedVelocity x (angularInfluence p.2.1) p.1)).sum final pr' = .ok w' := by
        unfold slowDown at hsl ⊢
        cases hm : pr'.cluster.max? with
        | none => exact ⟨_, rfl⟩
        | some m =>
          rw [hm] at hsl
          obtain ⟨p1, q1, hsl⟩ := bind_ok.mp hsl
          obtain ⟨p2, q2, hsl⟩ := bind_ok.mp hsl
          split_ifs at hsl with hz
          exact ⟨_, bind_ok.mpr ⟨p1, q1, bind_ok.mpr ⟨p2, q2, if_neg hz⟩⟩⟩
      obtain ⟨w', hw'⟩ := this
      refine ⟨w', ?_⟩
      unfold Avoider.evaluate evaluateSequence
      refine bind_ok.mpr ⟨_, e1, ?_⟩
      simp only
      rw [if_neg (by simp [movingAvoider])]
      exact bind_ok.mpr ⟨_, hrel', bind_ok.mpr ⟨conv', (moving_convergence _ _ _ _).trans e2, bind_ok.mpr ⟨_, e3,
        bind_ok.mpr ⟨pr', e4, bind_ok.mpr ⟨final, hf, hw'⟩⟩⟩⟩⟩
  obtain ⟨w', hw'⟩ := hev
  refine ⟨planeExt argsort, movingAvoider v !₂[1, 0], x, w', by norm_num [movingAvoider, discAvoider],
    hsane, has, norm_nonneg _, hgood, hw', rfl, ?_, ?_, movingDisc !₂[1, 0], disc, rfl, rfl, hcon, ?_,
    rfl, ?_⟩
  · change v ≠ 0
    intro h0
    have := congrArg (fun w : Vec 2 => w 1) h0
    simp [hv] at this
  · change some (!₂[0, 1 / 2] : Vec 2) ≠ some x
    intro h0
    have := congrArg (fun w : Vec 2 => w 1) (Option.some.inj h0)
    simp [hx] at this
  · intro j t' c' o' hj hc _
    have hj' : j = 0 := by
      by_contra hne
      rw [List.getElem?_eq_none (by simp [movingAvoider]; omega)] at hj; cases hj
    subst hj'
    have : t' = movingDisc !₂[1, 0] := by simpa [movingAvoider] using hj.symm
    subst this
    refine ⟨rfl, ?_⟩
    by_contra hne
    rw [List.getElem?_eq_none (by simp [movingDisc, discTree]; omega)] at hc; cases hc
  · have h1 : disc.normal x = !₂[1, 0] := by
      change (1 / ‖x‖) • x = _
      rw [hx, one_smul, e_norm]; simp
    have h2 : movedVelocity x 1 (movingDisc !₂[1, 0]) = !₂[1, 0] := by
      ext i; fin_cases i <;> simp [movedVelocity, movingDisc, discTree]
    rw [h1, h2]
    simp [PiLp.inner_apply, Fin.sum_univ_two]

/-- C61, negative result: where the initial dynamics is at rest, the avoider returns zero and
ignores that an obstacle in contact moves towards the position: the obstacle overruns it, with any
speed. -/
theorem C61_rest_overrun (speed : ℝ) (hspeed : 0 < speed) :
    ∃ (a : Avoider 2) (x : Vec 2) (t : ObstacleTree 2) (o : Obstacle 2),
      SaneTrees a.trees ∧ a.trees = [t] ∧ t.components = [o] ∧ o.gamma x = 1
      ∧ ∀ ext : Ext 2 1, ∃ w, a.evaluate ext x = .ok w
        ∧ ⟪w - movedVelocity x 1 t, o.normal x⟫ = -speed := by
  refine ⟨movingAvoider 0 !₂[speed, 0], !₂[1, 0], movingDisc !₂[speed, 0], disc, ?_, rfl, rfl, e_norm, ?_⟩
  · intro t ht o ho
    have : t = movingDisc !₂[speed, 0] := by simpa [movingAvoider] using ht
    subst this
    have : o = disc := by simpa [movingDisc, discTree] using ho
    subst this
    exact disc_sane
  · intro ext
    refine ⟨0, C40_rest ext _ _ rfl (Or.inl rfl), ?_⟩
    have h1 : disc.normal !₂[1, 0] = !₂[1, 0] := by
      change (1 / ‖(!₂[1, 0] : Vec 2)‖) • _ = _
      rw [e_norm]; simp
    have h2 : movedVelocity !₂[1, 0] 1 (movingDisc !₂[speed, 0]) = !₂[speed, 0] := by
      ext i; fin_cases i <;> simp [movedVelocity, movingDisc, discTree]
    rw [h1, h2]
    simp [PiLp.inner_apply, Fin.sum_univ_two]

end Verif
