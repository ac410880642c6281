import Verif.Props.AvoiderOrderBalls
import Verif.Props.StarRegionExamples

/-!
# C41 and C138 for star-shaped obstacles: the speed, and the order of the obstacles
-/

open scoped RealInnerProductSpace

namespace Verif
open Spec

variable {d k : ℕ} [Fact (2 ≤ d)]

/-- The tree of tangents of star-shaped regions has separated inner nodes. -/
lemma regions_inner {ext : Ext d k} (hE : DirectionSpace ext) {a : Avoider d} {regions : List (Region d)}
    (ha : RegionsAvoider a regions) {x v : Vec d} (hx : OutsideAll regions x) (hv : ‖v‖ = 1) {pr : Prepared d}
    (h : prepareAvoidance ext a x v = .ok pr) : InnerDirections pr.tree := by
  have hs := regions_single ha hx
  obtain ⟨Ds, -, -, -, -, -, -, -, -, e⟩ := single_prepare ha.power hs ha.radius.le h
  have hu0 : unit v ≠ 0 := by rw [unit_of_norm_one hv]; rintro rfl; simp at hv
  intro m c hm
  obtain ⟨e1, e2⟩ := e m c hm
  rw [e1]
  constructor
  · rcases e2 with e2 | ⟨t, o, ht, ho, hτ⟩
    · rw [e2]
      rintro ⟨c, hc, e⟩
      have : (1 + c) • unit v = 0 := by rw [add_smul, one_smul]; nth_rewrite 1 [e]; module
      rcases smul_eq_zero.mp this with h | h
      · linarith
      · exact hu0 h
    · exact regions_not_opposite hE ha hx hv t ht o ho _ hτ
  · by_cases hc : ∃ f, IsParent pr.tree c f
    · obtain ⟨f, hf⟩ := hc
      exact Or.inl (e c f hf).1.symm
    · exact Or.inr (Or.inr (fun f hf => hc ⟨f, hf⟩))

/-- C41 (partial): outside of any number of star-shaped obstacles which do not move, whatever the motion, the speed is
at most the magnitude of the initial dynamics if one of the obstacles influences the motion, and never more than the
maximum of this magnitude and one; no assumption on the tree of directions is needed.

Missing: obstacles with several components (`C41_speed_partial` covers them under an assumption on the tree of
directions), and positions on the surfaces. -/
theorem C41_regions_partial (ext : Ext d k) (hE : DirectionSpace ext) (has : ArgsortSpec ext.argsort) (a : Avoider d)
    (regions : List (Region d)) (ha : RegionsAvoider a regions) (x w : Vec d) (hx : OutsideAll regions x)
    (hmag : 0 ≤ a.magnitude x) (hdir : ∀ v, ConvergenceDirection ext a x v → ‖v‖ = 1)
    (h : a.evaluate ext x = .ok w) :
    ‖w‖ ≤ max 1 (a.magnitude x)
      ∧ ((∀ pr, PreparedFor ext a x pr → pr.cluster ≠ []) → ‖w‖ ≤ a.magnitude x) := by
  obtain ⟨f1, f2, f3, f4, f5⟩ := regions_facts ha hx
  have hin : ∀ v pr, ConvergenceDirection ext a x v → prepareAvoidance ext a x v = .ok pr →
      InnerDirections pr.tree := fun v pr hv hpr => regions_inner hE ha hx (hdir v hv) hpr
  constructor
  · rcases avoider_velocity ha.power f1 f2 f4 f5 (fun v pr D hv hpr hD =>
      direction_unit ha.power f1 f5 has hpr (hin v pr hv hpr) hD) hmag h with
      rfl | ⟨v, pr, D, l, _, _, _, hD1, l0, l1, rfl⟩
    · rw [norm_zero]; exact zero_le_one.trans (le_max_left _ _)
    · rw [norm_smul, hD1, mul_one, Real.norm_of_nonneg l0]; exact l1
  · intro hinf
    refine C41_speed_partial ext a x w ha.power f1 f5 f2 has f4 hmag hinf ?_ h
    rintro pr ⟨s, conv, u, e1, e2, e3, e4⟩
    exact hin u pr ⟨s, conv, e1, e2, e3⟩ e4

/-- C138 (partial): for star-shaped obstacles of any number, shape and size in the way of a motion of constant direction,
the velocity outside of the obstacles does not depend on the order in which they are listed; no assumption on
directions or weights is needed.

Missing: obstacles with several components, motions that turn (`C138_partial` covers them under assumptions on the tree
of directions), and positions on the surfaces. -/
theorem C138_regions_partial (ext : Ext d k) (hE : DirectionSpace ext) (has : ArgsortSpec ext.argsort)
    (projected : Vec d → Convergence d) (trees : List (ObstacleTree d)) (regions : List (Region d))
    (initial : Dynamics d) (ref : Vec d → Vec d) (u : Vec d) (a : Avoider d) (hA : initial.attractorPosition = none)
    (hown : initial.ownSequence = none) (hu : Straight initial.evaluate u) (hr : Straight ref u)
    (ha : createAvoider projected trees initial (some ref) = .ok a) (hpar : ∀ t ∈ trees, t.parentIdx 0 = none)
    (hobs : List.Forall₂ (fun t r => t.rootIdx = 0 ∧ Static t ∧ t.components = [r.obstacle]
      ∧ StarRegion r.obstacle r.center r.gauge r.grad r.scale r.slope) trees regions) (hne : regions ≠ [])
    (x w : Vec d) (hx : OutsideAll regions x)
    (l : List (ObstacleTree d)) (hl : l.Perm trees) (h : a.evaluate ext x = .ok w) :
    ∃ b, createAvoider projected l initial (some ref) = .ok b ∧ b.evaluate ext x = .ok w := by
  classical
  obtain ⟨hba, -, -, hcd⟩ := straight_regions (ext := ext) has hA hown hu hr ha hpar hobs hne
  have ha' : a = { initial := initial, convergence := convergenceWithoutSingularity initial.evaluate ref, trees := trees } := by
    unfold createAvoider createLocalConvergence at ha
    rw [hA] at ha
    cases ha; rfl
  have htr : a.trees = trees := by rw [ha']
  have hi : a.initial = initial := by rw [ha']
  obtain ⟨f1, f2, f3, f4, f5⟩ := regions_facts hba hx
  refine ⟨{ a with trees := l }, ?_, ?_⟩
  · unfold createAvoider createLocalConvergence
    rw [hA, ha']
    rfl
  refine C138_partial ext a x w l (by rw [htr]; exact hl) has hba.power f1 ?_ ?_ h
  · intro s st hs hst
    obtain ⟨st', h1, h2⟩ := straight_tree (ext := ext) has hA hown hu hr ha (fun t' ht' => by
      obtain ⟨hroot, _, r, hr, ho, _⟩ := regions_of_tree hba (htr ▸ ht')
      refine ⟨by rw [hroot, ho]; simp, ?_⟩
      intro i hi
      rw [ho] at hi
      have : i = 0 := by simpa using hi
      subst this
      exact ⟨0, by norm_num, .stop (by rw [ho]; simp) (hpar t' ht')⟩) (hi ▸ hs)
    obtain ⟨t0, g0, g1⟩ := hst
    obtain ⟨t0', g0', g1'⟩ := h1
    rw [g0] at g0'; cases g0'
    rw [g1] at g1'; cases g1'
    exact h2.good.inner
  · rintro pr ⟨s, conv, v, e1, e2, e3, e4⟩
    have hv : v = u := (hcd x v hx).mp ⟨s, conv, e1, e2, e3⟩
    subst hv
    exact regions_inner hE hba hx hu.norm e4

/-- The hypotheses of `C41_regions_partial` and `C138_regions_partial` are met by two ellipses, at every position outside
of them; listed in the other order they give the same velocity, of at most unit norm. -/
example (argsort : List ℤ → List ℕ) (has : ArgsortSpec argsort) (v x c c' : Vec 2) (hv : ‖v‖ = 1)
    (hx : OutsideAll ([c, c'].map ovalR) x) :
    ∃ w, (straightOvals v [c, c']).evaluate (planeExt argsort) x = .ok w
      ∧ (straightOvals v [c', c]).evaluate (planeExt argsort) x = .ok w ∧ ‖w‖ ≤ 1 := by
  obtain ⟨h1, _, h3, h4⟩ := straightOvals_regions (ext := planeExt argsort) has hv (cs := [c, c']) (by simp)
  obtain ⟨w, hw⟩ := C124_defined _ (planeExt_space argsort) has _ _ h1 x v hx ((h4 x v hx).mpr rfl) hv
  obtain ⟨b, hb, hbw⟩ := C138_regions_partial (planeExt argsort) (planeExt_space argsort) has
    (fun _ => (straightOvals v [c, c']).convergence) ([c, c'].map ovalTree) ([c, c'].map ovalR)
    { evaluate := fun _ => v, attractorPosition := none } (fun _ => v) v (straightOvals v [c, c']) rfl rfl
    (straight_const hv) (straight_const hv) (straightOvals_create _ v _) (ovals_parent _) (ovals_obstacles _)
    (by simp) x w hx ([c', c].map ovalTree) (List.Perm.swap _ _ _) hw
  have hb' : b = straightOvals v [c', c] := by
    have := (straightOvals_create (fun _ => (straightOvals v [c, c']).convergence) v [c', c]).symm.trans hb
    exact (Except.ok.inj this).symm
  refine ⟨w, hw, hb' ▸ hbw, ?_⟩
  have := (C41_regions_partial (planeExt argsort) (planeExt_space argsort) has _ _ h1 x w hx
    (by rw [h3]; exact norm_nonneg _) (fun u hu => by rw [(h4 x u hx).mp hu]; exact hv) hw).1
  rwa [h3, hv, max_self] at this

end Verif
