import Verif.Props.AvoiderOrder
import Verif.Props.Balls
import Verif.Props.Relative

/-!
# C138: the order of balls in the way of a straight motion
-/

open scoped RealInnerProductSpace

namespace Verif
open Spec

variable {d k : ℕ} [Fact (2 ≤ d)]

/-- The tree of tangents of balls has separated inner nodes. -/
lemma balls_inner {ext : Ext d k} (hE : DirectionSpace ext) {a : Avoider d} {balls : List (Ball d)}
    (ha : BallsAvoider a balls) {x v : Vec d} (hx : FreeOf balls x) (hv : ‖v‖ = 1) {pr : Prepared d}
    (h : prepareAvoidance ext a x v = .ok pr) : InnerDirections pr.tree := by
  have hs := balls_single ha hx
  obtain ⟨Ds, -, -, -, -, -, -, -, -, e⟩ := single_prepare ha.power hs ha.radius.le h
  have hu0 : unit v ≠ 0 := by rw [unit_of_norm_one hv]; rintro rfl; simp at hv
  intro m c hm
  obtain ⟨e1, e2⟩ := e m c hm
  rw [e1]
  constructor
  · rcases e2 with e2 | ⟨t, o, ht, ho, hτ⟩
    · rw [e2]
      intro hopp
      obtain ⟨c, hc, e⟩ := hopp
      have : (1 + c) • unit v = 0 := by rw [add_smul, one_smul]; nth_rewrite 1 [e]; module
      rcases smul_eq_zero.mp this with h | h
      · linarith
      · exact hu0 h
    · exact balls_not_opposite hE ha hx hv t ht o ho _ hτ
  · by_cases hc : ∃ f, IsParent pr.tree c f
    · obtain ⟨f, hf⟩ := hc
      exact Or.inl (e c f hf).1.symm
    · exact Or.inr (Or.inr (fun f hf => hc ⟨f, hf⟩))

/-- The tree of convergence directions of a motion of constant direction. -/
lemma straight_tree {ext : Ext d k} (has : ArgsortSpec ext.argsort) {projected : Vec d → Convergence d}
    {trees : List (ObstacleTree d)} {initial : Dynamics d} {ref : Vec d → Vec d} {u : Vec d} {a : Avoider d}
    (hA : initial.attractorPosition = none) (hown : initial.ownSequence = none)
    (hu : Straight initial.evaluate u) (hr : Straight ref u)
    (ha : createAvoider projected trees initial (some ref) = .ok a) (ht : ∀ t ∈ trees, Hierarchy t) {x : Vec d}
    {s : RotSeq (Vec d)} (hs : evaluateDynamicsSequence x initial = .ok (some s)) :
    ∃ st, ConvergenceTree ext a x s st ∧ ConstTree u (.num (-10)) st.tree := by
  have ha' : a = { initial := initial, convergence := convergenceWithoutSingularity initial.evaluate ref, trees := trees } := by
    unfold createAvoider createLocalConvergence at ha
    rw [hA] at ha
    cases ha; rfl
  have hst : StillDynamics u a x := by
    subst ha'
    refine ⟨?_, ?_, ?_, ?_⟩
    · intro o
      obtain ⟨R, h1, h2⟩ := straight_rotation hu x
      exact ⟨R, by simp only [convergenceWithoutSingularity, h1], h2⟩
    · intro p q
      obtain ⟨R, h1, h2⟩ := straight_rotation hr p
      exact ⟨R, by simp only [convergenceWithoutSingularity, h1], h2⟩
    · intro p
      exact straight_sequence hA hown hu p
    · intro o
      exact ⟨_, rfl, (C33_without_singularity _).2.1⟩
  obtain ⟨R, hR, hRs⟩ := straight_sequence hA hown hu x
  rw [hR] at hs
  cases hs
  have htw : ∀ t, treeWeight a t = .ok 1 := by
    intro t
    subst ha'
    unfold treeWeight
    simp only [hA]
    rfl
  exact still_tree has hu.norm hst (by subst ha'; exact ht) (fun t _ => ⟨1, htw t⟩) hRs

/-- C138 (partial): for balls of any number and size in the way of a motion of constant direction, the velocity outside
of the balls does not depend on the order in which the balls are listed; no assumption on directions or weights is
needed.

Missing: other shapes, motions that turn (`C138_partial` covers them under assumptions on the tree of directions). -/
theorem C138_balls_partial (ext : Ext d k) (hE : DirectionSpace ext) (has : ArgsortSpec ext.argsort)
    (projected : Vec d → Convergence d) (trees : List (ObstacleTree d)) (balls : List (Ball d)) (initial : Dynamics d)
    (ref : Vec d → Vec d) (u : Vec d) (a : Avoider d) (hA : initial.attractorPosition = none)
    (hown : initial.ownSequence = none) (hu : Straight initial.evaluate u) (hr : Straight ref u)
    (ha : createAvoider projected trees initial (some ref) = .ok a) (hpar : ∀ t ∈ trees, t.parentIdx 0 = none)
    (hobs : List.Forall₂ (fun t b => t.rootIdx = 0 ∧ Static t ∧ ∃ o, t.components = [o] ∧ o.tailEffect = b.tail
      ∧ IsBall o b.center b.radius b.scale) trees balls) (hne : balls ≠ []) (x w : Vec d) (hx : FreeOf balls x)
    (l : List (ObstacleTree d)) (hl : l.Perm trees) (h : a.evaluate ext x = .ok w) :
    ∃ b, createAvoider projected l initial (some ref) = .ok b ∧ b.evaluate ext x = .ok w := by
  classical
  obtain ⟨hba, -, -, hcd⟩ := straight_balls (ext := ext) has hA hown hu hr ha hpar hobs hne
  have ha' : a = { initial := initial, convergence := convergenceWithoutSingularity initial.evaluate ref, trees := trees } := by
    unfold createAvoider createLocalConvergence at ha
    rw [hA] at ha
    cases ha; rfl
  have htr : a.trees = trees := by rw [ha']
  have hi : a.initial = initial := by rw [ha']
  obtain ⟨f1, f2, f3, f4, f5⟩ := balls_facts hba hx
  refine ⟨{ a with trees := l }, ?_, ?_⟩
  · unfold createAvoider createLocalConvergence
    rw [hA, ha']
    rfl
  refine C138_partial ext a x w l (by rw [htr]; exact hl) has hba.power f1 ?_ ?_ h
  · intro s st hs hst
    obtain ⟨st', h1, h2⟩ := straight_tree (ext := ext) has hA hown hu hr ha (fun t' ht' => by
      obtain ⟨hroot, _, b, hb, o, ho, _, _⟩ := balls_of_tree hba (htr ▸ ht')
      refine ⟨by rw [hroot, ho]; simp, ?_⟩
      intro i hi
      rw [ho] at hi
      have : i = 0 := by simpa using hi
      subst this
      exact ⟨0, by norm_num, .stop (by rw [ho]; simp) (hpar t' ht')⟩) (hi ▸ hs)
    obtain ⟨t0, g0, g1⟩ := hst
    obtain ⟨t0', g0', g1'⟩ := h1
    rw [g0] at g0'; cases g0'
    rw [g1] at g1'; cases g1'
    exact h2.good.inner
  · rintro pr ⟨s, conv, v, e1, e2, e3, e4⟩
    have hv : v = u := (hcd x v hx).mp ⟨s, conv, e1, e2, e3⟩
    subst hv
    exact balls_inner hE hba hx hu.norm e4

/-- The hypotheses of `C138_balls_partial`, and with it those of `C138_partial`, are met by two discs: behind both of
them the velocity is defined, and listing the discs the other way round does not change it. -/
example (argsort : List ℤ → List ℕ) (has : ArgsortSpec argsort) (v : Vec 2) (hv : ‖v‖ = 1) :
    ∃ w b, (straightDiscs v).evaluate (planeExt argsort) ((0 + 2 : ℝ) • v) = .ok w
      ∧ createAvoider (fun _ => (straightDiscs v).convergence) [discTreeAt ((-4 : ℝ) • v) false, discTreeAt 0 false]
          { evaluate := fun _ => v, attractorPosition := none } (some fun _ => v) = .ok b
      ∧ b.evaluate (planeExt argsort) ((0 + 2 : ℝ) • v) = .ok w := by
  obtain ⟨w, hw⟩ : ∃ w, (straightDiscs v).evaluate (planeExt argsort) ((0 + 2 : ℝ) • v) = .ok w := by
    obtain ⟨w, hw, -⟩ := discs_away argsort has v hv 0 0 (Set.left_mem_Icc.mpr le_rfl)
    exact ⟨w, hw⟩
  obtain ⟨b, h1, h2⟩ := C138_balls_partial (planeExt argsort) (planeExt_space argsort) has
    (fun _ => (straightDiscs v).convergence) _
    (twoBalls v) { evaluate := fun _ => v, attractorPosition := none } (fun _ => v) v (straightDiscs v) rfl rfl
    (straight_const hv) (straight_const hv) (straightDiscs_create _ v)
    (by
      intro t ht
      simp only [List.mem_cons, List.not_mem_nil, or_false] at ht
      rcases ht with rfl | rfl <;> rfl)
    (twoBalls_obstacles v) (by unfold twoBalls; simp) _ w (twoBalls_free hv le_rfl)
    [discTreeAt ((-4 : ℝ) • v) false, discTreeAt 0 false] (List.Perm.swap _ _ _) hw
  exact ⟨w, b, hw, h1, h2⟩

/-- `C138_relative` is not vacuous: a ball which moves, rotates and expands, in contact with the position, and a
second obstacle further away; in both orders the velocity at the position is that of the ball, and not zero. -/
example : ∃ (x : Vec 2) (s t : ObstacleTree 2), relativeVelocity x [s, t] = .ok !₂[1, 3]
    ∧ relativeVelocity x [t, s] = .ok !₂[1, 3] := by
  let far : Obstacle 2 := { unitBall 2 with gamma := fun p => ‖p‖ + 7 }
  let t0 : ObstacleTree 2 := ⟨[far], 0, fun _ => none, 0, some (0, none), none⟩
  let t1 : ObstacleTree 2 := ⟨[unitBall 2], 0, fun _ => none, 0, some (!₂[0, 1], some 2), some 1⟩
  have hn : ‖(!₂[1, 0] : Vec 2)‖ = 1 := by simp [EuclideanSpace.norm_eq, Fin.sum_univ_two]
  have h : relativeVelocity !₂[1, 0] [t0, t1] = .ok !₂[1, 3] := by
    rw [C60_contact !₂[1, 0] [t0, t1] [8, 1] ?_ 1 (by simp) ?_ ?_]
    · congr 1
      simp only [List.getElem_cons_succ, List.getElem_cons_zero, movedVelocity, t1]
      ext i
      fin_cases i <;> simp
      norm_num
    · rw [List.mapM_cons, List.mapM_cons]
      simp only [ObstacleTree.gamma, t0, t1, far, unitBall, List.map_cons, List.map_nil, hn]
      norm_num
      rfl
    · exact ⟨unitBall 2, by simp [t1], by simp [unitBall, hn]⟩
    · intro j hj hne
      have : j = 0 := by simp at hj; omega
      subst this
      rintro ⟨o, ho, h⟩
      simp only [List.getElem_cons_zero, t0, List.mem_singleton] at ho
      rw [ho] at h
      simp only [far, hn] at h
      norm_num at h
  exact ⟨!₂[1, 0], t0, t1, h, (C138_relative _ _ _ (List.Perm.swap _ _ _) _).mp h⟩

end Verif
