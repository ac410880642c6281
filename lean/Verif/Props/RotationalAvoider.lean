import Verif.Lemmas.RotationalAvoider
import Verif.Props.AvoiderConvergence

/-!
# C93 and C94: the velocity of the rotational avoider
-/

open scoped RealInnerProductSpace
open Verif.Spec

set_option linter.unusedSectionVars false

namespace Verif.Rotational

variable {d k : ℕ} [h2 : Fact (2 ≤ d)]

/-! ## The close obstacles -/

open Classical in
/-- `closeObstacles` from the number `n` on. -/
noncomputable def closeFrom (cutOff : ℝ) (x : Vec d) (l : List (Obstacle d)) (n : ℕ) :
    List ((Obstacle d × ℝ) × ℕ) :=
  ((l.zip (computeObstacleGamma x l)).zipIdx n).filter (fun p => p.1.2 < cutOff ∧ 1 ≤ p.1.2)

lemma closeObstacles_eq (s : Avoider d) (env : Environment d) (x : Vec d) :
    closeObstacles s env x = closeFrom s.cutOffGamma x env.obstacles 0 := rfl

/-- The gamma used for an obstacle. -/
noncomputable def usedGamma (x : Vec d) (o : Obstacle d) : ℝ :=
  open Classical in if o.gamma x < 1 ∧ o.isBoundary = false then 1 else o.gamma x

lemma closeTo_iff (cutOff : ℝ) (x : Vec d) (o : Obstacle d) :
    CloseTo cutOff x o ↔ usedGamma x o < cutOff ∧ 1 ≤ usedGamma x o := by
  unfold CloseTo usedGamma
  split_ifs with h
  · constructor
    · rintro (h1 | h1)
      · linarith [h.1, h1.1]
      · exact ⟨h1.2.2, le_refl _⟩
    · intro h1
      exact Or.inr ⟨h.2, h.1, h1.1⟩
  · constructor
    · rintro (h1 | h1)
      · exact ⟨h1.2, h1.1⟩
      · exact absurd ⟨h1.2.1, h1.1⟩ h
    · intro h1
      exact Or.inl ⟨h1.2, h1.1⟩

lemma closeFrom_cons (cutOff : ℝ) (x : Vec d) (o : Obstacle d) (l : List (Obstacle d)) (n : ℕ) :
    closeFrom cutOff x (o :: l) n = (open Classical in
      if CloseTo cutOff x o then [((o, usedGamma x o), n)] else []) ++ closeFrom cutOff x l (n + 1) := by
  classical
  have e : closeFrom cutOff x (o :: l) n
      = (((o, usedGamma x o), n) :: (l.zip (computeObstacleGamma x l)).zipIdx (n + 1)).filter
        (fun p => p.1.2 < cutOff ∧ 1 ≤ p.1.2) := by
    unfold closeFrom computeObstacleGamma usedGamma
    rw [List.map_cons, List.zip_cons_cons, List.zipIdx_cons]
  rw [e]
  by_cases h : CloseTo cutOff x o
  · rw [if_pos h, List.filter_cons_of_pos (by simpa using (closeTo_iff _ _ _).mp h)]
    unfold closeFrom
    simp
  · rw [if_neg h, List.filter_cons_of_neg (by simpa using fun h1 h2 => h ((closeTo_iff _ _ _).mpr ⟨h1, h2⟩))]
    unfold closeFrom
    simp

lemma closeFrom_append (cutOff : ℝ) (x : Vec d) (l l' : List (Obstacle d)) (n : ℕ) :
    closeFrom cutOff x (l ++ l') n = closeFrom cutOff x l n ++ closeFrom cutOff x l' (n + l.length) := by
  induction l generalizing n with
  | nil => simp [closeFrom, computeObstacleGamma]
  | cons o l ih =>
    rw [List.cons_append, closeFrom_cons, closeFrom_cons, ih, List.append_assoc, List.length_cons]
    congr 3; omega

lemma closeFrom_map (cutOff : ℝ) (x : Vec d) (l : List (Obstacle d)) (n : ℕ) :
    (closeFrom cutOff x l n).map (fun p => p.1.1)
      = (open Classical in l.filter (fun o => CloseTo cutOff x o)) := by
  classical
  induction l generalizing n with
  | nil => simp [closeFrom, computeObstacleGamma]
  | cons o l ih =>
    rw [closeFrom_cons, List.map_append, ih]
    by_cases h : CloseTo cutOff x o
    · rw [if_pos h, List.filter_cons_of_pos (by simpa using h)]; rfl
    · rw [if_neg h, List.filter_cons_of_neg (by simpa using h)]; rfl

lemma closeFrom_mem {cutOff : ℝ} {x : Vec d} {l : List (Obstacle d)} {n : ℕ}
    {p : (Obstacle d × ℝ) × ℕ} (h : p ∈ closeFrom cutOff x l n) :
    p.1.1 ∈ l ∧ p.1.2 = usedGamma x p.1.1 ∧ 1 ≤ p.1.2 ∧ p.1.2 < cutOff := by
  classical
  induction l generalizing n with
  | nil => simp [closeFrom, computeObstacleGamma] at h
  | cons o l ih =>
    rw [closeFrom_cons, List.mem_append] at h
    rcases h with h | h
    · split_ifs at h with hc
      · rw [List.mem_singleton] at h
        subst h
        have := (closeTo_iff _ _ _).mp hc
        exact ⟨List.mem_cons_self, rfl, this.2, this.1⟩
      · simp at h
    · obtain ⟨h1, h3⟩ := ih h
      exact ⟨List.mem_cons_of_mem _ h1, h3⟩

/-! ## C93 -/

/-- C93: without any close obstacle the initial velocity is returned: no obstacles at all, all of them at or
beyond the cut-off, or boundaries which do not contain the position. -/
theorem C93_fallback (ext : Ext d k) (s : Avoider d) (x v : Vec d) (env : Environment d)
    (conv : Option (Vec d)) (sticky : Bool) (radius : Option ℝ)
    (h : ∀ o ∈ env.obstacles, ¬ CloseTo s.cutOffGamma x o) :
    (avoid ext s x (some v) (some env) conv sticky radius).2 = .ok v
      ∧ (s.environment = some env → (avoid ext s x (some v) none conv sticky radius).2 = .ok v)
      ∧ (∀ f, s.initialDynamics = some f →
        (avoid ext s x none (some env) conv sticky radius).2 = .ok (f x)) := by
  classical
  have key : ∀ (s' : Avoider d) (w : Vec d) (r : ℝ), s'.cutOffGamma = s.cutOffGamma →
      avoidBody ext s' env x w conv sticky r = .ok w := by
    intro s' w r hs
    unfold avoidBody
    by_cases h0 : env.obstacles = []
    · rw [if_pos h0]
    rw [if_neg h0]
    have : closeObstacles s' env x = [] := by
      have e := closeFrom_map s'.cutOffGamma x env.obstacles 0
      rw [List.filter_eq_nil_iff.mpr (by simpa [hs] using h), List.map_eq_nil_iff] at e
      exact e
    simp only [if_pos this]
  refine ⟨?_, ?_, ?_⟩
  · unfold avoid avoid.run
    exact key _ _ _ rfl
  · intro he
    unfold avoid avoid.run
    simp only [he]
    exact key _ _ _ rfl
  · intro f hf
    unfold avoid avoid.run
    simp only [hf]
    exact key _ _ _ rfl

/-- C93: without a velocity, the velocity is that of the stored dynamics; without both, `AttributeError`, and the
avoider is not changed. -/
theorem C93_velocity (ext : Ext d k) (s : Avoider d) (x : Vec d) (obstacles : Option (Environment d))
    (conv : Option (Vec d)) (sticky : Bool) (radius : Option ℝ) :
    (s.initialDynamics = none → avoid ext s x none obstacles conv sticky radius = (s, .error .attributeError))
    ∧ ∀ f, s.initialDynamics = some f →
      avoid ext s x none obstacles conv sticky radius = avoid ext s x (some (f x)) obstacles conv sticky radius := by
  refine ⟨fun h => ?_, fun f h => ?_⟩
  · unfold avoid; rw [h]
  · unfold avoid; rw [h]

/-- Both cases of `C93_velocity` occur. -/
example (ext : Ext d k) (s : Avoider d) (x v : Vec d) (obstacles : Option (Environment d)) (conv : Option (Vec d)) :
    (∃ s' : Avoider d, avoid ext s' x none obstacles conv true none = (s', .error .attributeError))
    ∧ ∃ s' : Avoider d, avoid ext s' x none obstacles conv true none = avoid ext s' x (some v) obstacles conv true none :=
  ⟨⟨{ s with initialDynamics := none }, (C93_velocity ext _ x obstacles conv true none).1 rfl⟩,
    ⟨{ s with initialDynamics := some fun _ => v }, (C93_velocity ext _ x obstacles conv true none).2 (fun _ => v) rfl⟩⟩

/-- C93: a call without obstacles raises `ValueError` if the avoider has no environment. -/
theorem C93_no_environment (ext : Ext d k) (s : Avoider d) (x v : Vec d) (conv : Option (Vec d))
    (sticky : Bool) (radius : Option ℝ) (h : s.environment = none) :
    (avoid ext s x (some v) none conv sticky radius).2 = .error .valueError := by
  unfold avoid avoid.run
  simp only [h]

/-- The avoider after a call with the environment `env` and the radius `radius`. -/
def updated (s : Avoider d) (env : Environment d) (radius : Option ℝ) : Avoider d :=
  { s with convergenceRadius := radius.getD s.convergenceRadius, environment := some env }

lemma unitNormal_le (x : Vec d) (p : (Obstacle d × ℝ) × ℕ) : ‖unitNormal x p‖ ≤ 1 := by
  unfold unitNormal
  rw [norm_smul, Real.norm_of_nonneg (by positivity)]
  by_cases h : ‖p.1.1.normal x‖ = 0
  · rw [h]; norm_num
  · rw [one_div_mul_cancel h]

open Classical in
/-- The relative velocity that is subtracted before and added after the rotation: the one of the close
obstacles. -/
noncomputable def closeVelocity (ext : Ext d k) (s : Avoider d) (env : Environment d) (x : Vec d) : Vec d :=
  ext.relative x (env.obstacles.filter (fun o => CloseTo s.cutOffGamma x o))

lemma relative_eq (ext : Ext d k) (s : Avoider d) (env : Environment d) (x : Vec d) :
    ext.relative x ((closeObstacles s env x).map (fun p => p.1.1)) = closeVelocity ext s env x := by
  rw [closeObstacles_eq, closeFrom_map]; rfl

lemma gammas_spec {s : Avoider d} {env : Environment d} {x : Vec d} :
    ∀ o ∈ ((closeObstacles s env x).map (fun p => p.1.2)).zip
      ((closeObstacles s env x).map (unitNormal x)), 1 ≤ o.1 ∧ ‖o.2‖ ≤ 1 := by
  intro o ho
  rw [List.zip_map', List.mem_map] at ho
  obtain ⟨p, hp, rfl⟩ := ho
  rw [closeObstacles_eq] at hp
  exact ⟨(closeFrom_mem hp).2.2.1, unitNormal_le x p⟩

/-- C93: in the frame that moves with the close obstacles the result is never faster than the initial
velocity. -/
theorem C93_speed (ext : Ext d k) (he : SaneAngles ext) (s : Avoider d) (env : Environment d)
    (x initial v : Vec d) (conv : Option (Vec d)) (radius : Option ℝ)
    (h : (avoid ext s x (some initial) (some env) conv true radius).2 = .ok v) :
    ‖v - closeVelocity ext s env x‖ ≤ ‖initial - closeVelocity ext s env x‖ := by
  change avoidBody ext (updated s env radius) env x initial conv true
    (updated s env radius).convergenceRadius = .ok v at h
  have e : ∀ s' : Avoider d, s'.cutOffGamma = s.cutOffGamma →
      closeVelocity ext s' env x = closeVelocity ext s env x := by
    intro s' hs; unfold closeVelocity; rw [hs]
  generalize hs' : updated s env radius = s' at h
  rw [← e s' (by rw [← hs']; rfl)]
  rcases avoidBody_spec h with ⟨_, rfl⟩ | ⟨_, _, rfl⟩ | ⟨p, l, hpl, hne, c, ds, _, hp, hf⟩
  · exact le_refl _
  · exact le_refl _
  rw [relative_eq] at hne hp hf
  unfold finishAvoid at hf
  simp only [if_true] at hf
  injection hf with hf
  have hn : ‖(1 / ‖initial - closeVelocity ext s' env x‖) • (initial - closeVelocity ext s' env x)‖ = 1 :=
    unit_norm hne
  have hgs : (closeObstacles s' env x).map (fun p => p.1.2) ≠ [] := by rw [hpl]; simp
  have hw := he.weights_convex _ hgs
  have hm := he.mean_unit _ _ ds hn hw.1 (by rw [hw.2, List.length_map]; exact hp.length_eq)
  obtain ⟨a, a1, a2, a3, _⟩ := C59_factor _ ‖initial - closeVelocity ext s' env x‖ _ hm.le
    (gammas_spec (s := s') (env := env) (x := x))
  rw [a3] at hf
  rw [← hf, add_sub_cancel_right, norm_smul, hm, mul_one, Real.norm_of_nonneg (by positivity)]
  calc a * ‖initial - closeVelocity ext s' env x‖ ≤ 1 * ‖initial - closeVelocity ext s' env x‖ :=
        mul_le_mul_of_nonneg_right a2 (norm_nonneg _)
    _ = _ := one_mul _

/-- C93, a defect: with `sticky_surface=False` the result has the speed of the initial velocity or is zero.
The scaling of `compute_safe_magnitude`, which slows down in front of an obstacle, is always undone. -/
theorem C93_no_slow_down (ext : Ext d k) (s : Avoider d) (env : Environment d)
    (x initial v : Vec d) (conv : Option (Vec d)) (radius : Option ℝ)
    (h : (avoid ext s x (some initial) (some env) conv false radius).2 = .ok v) :
    v = 0 ∨ ‖v‖ = ‖initial‖ := by
  change avoidBody ext (updated s env radius) env x initial conv false
    (updated s env radius).convergenceRadius = .ok v at h
  generalize hs' : updated s env radius = s' at h
  rcases avoidBody_spec h with ⟨_, rfl⟩ | ⟨_, _, rfl⟩ | ⟨p, l, hpl, hne, c, ds, _, hp, hf⟩
  · exact Or.inr rfl
  · exact Or.inr rfl
  unfold finishAvoid at hf
  simp only [Bool.false_eq_true, if_false] at hf
  split at hf
  · cases hf
  · obtain ⟨w, _, hf⟩ := bind_ok.mp hf
    split_ifs at hf with h0
    · injection hf with hf
      left
      rw [← hf]; exact norm_eq_zero.mp h0
    · injection hf with hf
      right
      rw [← hf, norm_smul, Real.norm_of_nonneg (by positivity), div_mul_cancel₀ _ h0]

/-- The averaged normal is not longer than one. -/
lemma averagedNormal_le {ns : List (Vec d)} {ws : List ℝ} (hn : ∀ n ∈ ns, ‖n‖ ≤ 1) (hw : Convex ws) :
    ‖(List.zipWith (fun (n : Vec d) w => w • n) ns ws).sum‖ ≤ 1 := by
  have gen : ∀ (ns : List (Vec d)) (ws : List ℝ), (∀ n ∈ ns, ‖n‖ ≤ 1) → Nonneg ws →
      ‖(List.zipWith (fun (n : Vec d) w => w • n) ns ws).sum‖ ≤ ws.sum := by
    intro ns
    induction ns with
    | nil => intro ws _ hw; simpa using sum_nonneg' hw
    | cons n ns ih =>
      intro ws hns hw
      cases ws with
      | nil => simp
      | cons w ws =>
        rw [List.zipWith_cons_cons, List.sum_cons, List.sum_cons]
        refine (norm_add_le _ _).trans (add_le_add ?_
          (ih ws (fun m hm => hns m (List.mem_cons_of_mem _ hm))
            (fun y hy => hw y (List.mem_cons_of_mem _ hy))))
        have hw0 : 0 ≤ w := hw w List.mem_cons_self
        rw [norm_smul, Real.norm_of_nonneg hw0]
        calc w * ‖n‖ ≤ w * 1 := mul_le_mul_of_nonneg_left (hns n List.mem_cons_self) hw0
          _ = w := mul_one _
  exact (gen ns ws hn hw.1).trans hw.2.le

/-- The safe magnitude does not vanish in front of an obstacle. -/
lemma safeMagnitude_pos {v n : Vec d} {m g : ℝ} (hv : ‖v‖ = 1) (hn : ‖n‖ ≤ 1) (hm : 0 < m) (hg : 1 < g) :
    ∃ c : ℝ, 0 < c ∧ computeSafeMagnitude v m n g = .ok (c • v) := by
  have hz : ‖v‖ ≠ 0 := by rw [hv]; norm_num
  unfold computeSafeMagnitude
  rw [if_neg hz]
  extract_lets rn dp nn finish pf
  have fin : ∀ s : ℝ, 0 < s → s ≤ 1 → ∃ c : ℝ, 0 < c ∧ finish (some s) = .ok (c • v) := by
    intro s hs0 hs1
    refine ⟨s * (m * (1 / ‖v‖)), by rw [hv]; positivity, ?_⟩
    simp only [finish]
    rw [if_neg (not_lt.mpr hs1), ← smul_assoc, ← smul_assoc]
    simp only [smul_eq_mul]
    rw [mul_assoc]
  split_ifs with h3 h4 h5
  · exact fin 1 one_pos (le_refl _)
  · exact absurd hg (not_lt.mpr h4)
  · exact absurd hg (not_lt.mpr h4)
  · push Not at h3
    have hb := scale_base hv.le hn (show (0 : ℝ) ≤ 0.8 by norm_num) (show (0.8 : ℝ) ≤ 1 by norm_num) h3.1
    have h1 : |⟪v, n⟫| ≤ 1 := (abs_real_inner_le_norm v n).trans (by rw [hv, one_mul]; exact hn)
    have h2 := (abs_le.mp h1).1
    have hpos : 0 < 1 + 0.8 * dp := by
      simp only [dp]; norm_num; linarith
    have hpf : 0 ≤ pf := Real.rpow_nonneg
      (mul_nonneg (one_div_nonneg.mpr (by linarith)) (norm_nonneg _)) _
    have hs : npPow (1 + 0.8 * dp) pf = some ((1 + 0.8 * dp) ^ pf) := by
      unfold npPow
      rw [if_neg (fun h => absurd h.1 (not_lt.mpr hpos.le)), if_neg (fun h => hpos.ne' h.1)]
    rw [hs]
    exact fin _ (Real.rpow_pos_of_pos hpos _) (Real.rpow_le_one hpos.le hb.2 hpf)

/-- C93: with `sticky_surface=False`, obstacles at rest and no contact, the result has exactly the speed of
the initial velocity: the avoidance never stops the motion. -/
theorem C93_full_speed (ext : Ext d k) (he : SaneAngles ext) (s : Avoider d) (env : Environment d)
    (x initial v : Vec d) (conv : Option (Vec d)) (radius : Option ℝ)
    (hrel : closeVelocity ext s env x = 0) (hgam : ∀ o ∈ env.obstacles, 1 < o.gamma x)
    (h : (avoid ext s x (some initial) (some env) conv false radius).2 = .ok v) :
    ‖v‖ = ‖initial‖ := by
  change avoidBody ext (updated s env radius) env x initial conv false
    (updated s env radius).convergenceRadius = .ok v at h
  have e : closeVelocity ext (updated s env radius) env x = 0 := by
    unfold closeVelocity at hrel ⊢; exact hrel
  generalize hs' : updated s env radius = s' at h e
  rcases avoidBody_spec h with ⟨_, rfl⟩ | ⟨_, _, rfl⟩ | ⟨p, l, hpl, hne, c, ds, _, hp, hf⟩
  · rfl
  · rfl
  rw [relative_eq, e, sub_zero] at hne hp hf
  unfold finishAvoid at hf
  simp only [Bool.false_eq_true, if_false] at hf
  have hgs : (closeObstacles s' env x).map (fun p => p.1.2) ≠ [] := by rw [hpl]; simp
  have hw := he.weights_convex _ hgs
  have hm := he.mean_unit ((1 / ‖initial‖) • initial) _ ds (unit_norm hne) hw.1
    (by rw [hw.2, List.length_map]; exact hp.length_eq)
  split at hf
  · cases hf
  · rename_i g hg
    obtain ⟨u, hu, hf⟩ := bind_ok.mp hf
    have hg1 : 1 < g := by
      have hmem := List.min?_mem hg
      obtain ⟨q, hq, rfl⟩ := List.mem_map.mp hmem
      rw [closeObstacles_eq] at hq
      obtain ⟨q1, q2, -, -⟩ := closeFrom_mem hq
      rw [q2]
      have := hgam _ q1
      unfold usedGamma
      rw [if_neg (by intro hx; linarith [hx.1])]
      exact this
    obtain ⟨a, a1, a2⟩ := safeMagnitude_pos hm (averagedNormal_le (by
      intro n hn
      obtain ⟨q, _, rfl⟩ := List.mem_map.mp hn
      exact unitNormal_le x q) hw.1) (norm_pos_iff.mpr hne) hg1
    rw [a2] at hu
    injection hu with hu
    have hun : ‖u‖ = a := by rw [← hu, norm_smul, hm, mul_one, Real.norm_of_nonneg a1.le]
    rw [add_zero, if_neg (by rw [hun]; exact a1.ne')] at hf
    injection hf with hf
    rw [← hf, norm_smul, norm_div, norm_norm, norm_norm, div_mul_cancel₀]
    rw [hun]; exact a1.ne'

lemma forall₂_append_left {α β : Type*} {R : α → β → Prop} (l l' : List α) (m : List β)
    (h : List.Forall₂ R (l ++ l') m) :
    ∃ a b, List.Forall₂ R l a ∧ List.Forall₂ R l' b ∧ m = a ++ b := by
  induction l generalizing m with
  | nil => exact ⟨[], m, List.Forall₂.nil, h, rfl⟩
  | cons x l ih =>
    obtain ⟨y, m', h1, h2, rfl⟩ := List.forall₂_cons_left_iff.mp h
    obtain ⟨a, b, h3, h4, rfl⟩ := ih m' h2
    exact ⟨y :: a, b, List.Forall₂.cons h1 h3, h4, rfl⟩

lemma inward_eq (o : Obstacle d) (x : Vec d) : (obstacleFrame o x).2.first = inward o x := by
  unfold obstacleFrame inward NullBase.first unit
  cases o.isBoundary <;> simp

lemma towards_eq (o : Obstacle d) (x : Vec d) : (obstacleFrame o x).1 = towards o x := by
  unfold obstacleFrame towards
  cases o.isBoundary <;> simp

lemma alignedFrame_eq {o : Obstacle d} {x : Vec d} (h : 0 ≤ ⟪towards o x, inward o x⟫) :
    alignedFrame o x = obstacleFrame o x := by
  unfold alignedFrame
  simp only [inward_eq, towards_eq]
  rw [if_neg (not_lt.mpr h)]

lemma frame_normal (o : Obstacle d) (x : Vec d) : (obstacleFrame o x).2.normal = o.normal x := by
  unfold obstacleFrame
  cases o.isBoundary <;> simp

/-- C93: no penetration.  If exactly one obstacle is in contact with the position, the result does not point
into it: in the frame of the close obstacles (sticky surface), and absolutely if they do not move (no
sticky surface).

The convergence velocity `c` is the given one or the one of the convergence dynamics.  The neighbouring
directions of the direction tree have to be admissible (not opposite, not too close), the tangent must not
be opposite to the initial velocity, and the reference point is on the inner side of the surface.  Missing:
several contacts, and the directions excluded here. -/
theorem C93_contact_partial (ext : Ext d k) (he : SaneAngles ext) (s : Avoider d) (env : Environment d)
    (x initial v c : Vec d) (conv : Option (Vec d)) (sticky : Bool) (radius : Option ℝ)
    (pre post : List (Obstacle d)) (o : Obstacle d) (hos : env.obstacles = pre ++ o :: post)
    (hcut : 1 < s.cutOffGamma)
    (hcon : o.gamma x ≤ 1) (hbd : o.isBoundary = true → o.gamma x = 1)
    (hother : ∀ o' ∈ pre ++ post, 1 < o'.gamma x)
    (hn : o.normal x ≠ 0) (hin : 0 ≤ ⟪towards o x, inward o x⟫)
    (hc : conv = some c ∨ (conv = none ∧ ∃ f, s.convergenceSystem = some f ∧ f x = c)) (hc0 : c ≠ 0)
    (hR : Real.pi / 2 ≤ radius.getD s.convergenceRadius) (hR' : radius.getD s.convergenceRadius ≤ Real.pi)
    (hgood : ∀ t, pseudoTangent ext (updated s env radius) c (towards o x) ⟨o.normal x, !o.isBoundary⟩ = .ok t →
      ¬ Opposite (initial - closeVelocity ext s env x) t
        ∧ ∀ R, Admissible ext c (towards o x) t (initial - closeVelocity ext s env x)
          ⟨o.normal x, !o.isBoundary⟩ R)
    (h : (avoid ext s x (some initial) (some env) conv sticky radius).2 = .ok v)
    (hne : initial - closeVelocity ext s env x ≠ 0) :
    (sticky = true → ⟪v - closeVelocity ext s env x, inward o x⟫ ≤ 0)
      ∧ (sticky = false → closeVelocity ext s env x = 0 → ⟪v, inward o x⟫ ≤ 0) := by
  classical
  change avoidBody ext (updated s env radius) env x initial conv sticky
    (updated s env radius).convergenceRadius = .ok v at h
  have e : ∀ s' : Avoider d, s'.cutOffGamma = s.cutOffGamma →
      closeVelocity ext s' env x = closeVelocity ext s env x := by
    intro s' hs; unfold closeVelocity; rw [hs]
  generalize hs' : updated s env radius = s' at h hgood
  have hcs : s'.cutOffGamma = s.cutOffGamma := by rw [← hs']; rfl
  have hrs : s'.convergenceRadius = radius.getD s.convergenceRadius := by rw [← hs']; rfl
  have hsy : s'.convergenceSystem = s.convergenceSystem := by rw [← hs']; rfl
  rw [← e s' hcs] at hgood hne ⊢
  have hug : usedGamma x o = 1 := by
    unfold usedGamma
    split_ifs with hu
    · rfl
    · by_cases hb : o.isBoundary = true
      · exact hbd hb
      · push Not at hu
        by_contra hg
        exact hu (lt_of_le_of_ne hcon hg) (by simpa using hb)
  have hclose : CloseTo s'.cutOffGamma x o := by
    rw [closeTo_iff, hug, hcs]; exact ⟨hcut, le_refl _⟩
  set A := closeFrom s'.cutOffGamma x pre 0 with hA
  set B := closeFrom s'.cutOffGamma x post (0 + pre.length + 1) with hB
  have hsplit : closeObstacles s' env x = A ++ ((o, (1 : ℝ)), 0 + pre.length) :: B := by
    rw [closeObstacles_eq, hos, closeFrom_append, closeFrom_cons, if_pos hclose, hug]
    rfl
  have hgam : ∀ y ∈ A.map (fun p => p.1.2) ++ B.map (fun p => p.1.2), 1 < y := by
    have one : ∀ o' : Obstacle d, 1 < o'.gamma x → 1 < usedGamma x o' := by
      intro o' h1
      unfold usedGamma
      rw [if_neg (by intro hx; linarith [hx.1])]; exact h1
    intro y hy
    rw [← List.map_append, List.mem_map] at hy
    obtain ⟨p, hp, rfl⟩ := hy
    rcases List.mem_append.mp hp with hp | hp
    · have := closeFrom_mem hp
      rw [this.2.1]; exact one _ (hother _ (List.mem_append_left _ this.1))
    · have := closeFrom_mem hp
      rw [this.2.1]; exact one _ (hother _ (List.mem_append_right _ this.1))
  rcases avoidBody_spec h with ⟨h0, _⟩ | ⟨_, h0, _⟩ | ⟨p, l, hpl, _, c', ds, hcv, hp, hf⟩
  · rw [hsplit] at h0; simp at h0
  · rw [relative_eq] at h0; exact absurd h0 hne
  rw [relative_eq] at hp hf
  have hcc : c' = c := by
    unfold convergenceVelocity at hcv
    rcases hc with hc | ⟨hc, f, hf, hfx⟩
    · rw [hc] at hcv
      simp only at hcv
      injection hcv with hcv
      exact hcv.symm
    · rw [hc, hsy, hf] at hcv
      simp only at hcv
      injection hcv with hcv
      rw [← hcv]; exact hfx
  subst hcc
  -- the direction for the obstacle in contact
  rw [hsplit] at hp
  obtain ⟨dA, dR, hpA, hpR, rfl⟩ := forall₂_append_left _ _ _ hp
  obtain ⟨w, dB, hw, hpB, rfl⟩ := List.forall₂_cons_left_iff.mp hpR
  rcases hw with ⟨h0, _⟩ | ⟨_, r, _, hw⟩
  · exact absurd h0 hc0
  simp only [alignedFrame_eq hin, towards_eq] at hw
  have hfr : (obstacleFrame o x).2 = ⟨o.normal x, !o.isBoundary⟩ := by
    unfold obstacleFrame
    cases o.isBoundary <;> simp
  have hfirst : (⟨o.normal x, !o.isBoundary⟩ : NullBase d).first = inward o x := by
    rw [← hfr, inward_eq]
  rw [hfr] at hw
  obtain ⟨t, ht, rfl⟩ := convergenceSumming_contact he hc0 hne (by exact hn) (by norm_num) (le_refl _)
    (by rw [hrs]; exact hR) (by rw [hrs]; exact hR') (fun t ht => (hgood t ht).2 r) hw
  obtain ⟨ht0, hti⟩ := pseudoTangent_spec he (by exact hn) hc0 (by rw [hrs]; exact hR)
    (by rw [hrs]; exact hR') ht
  rw [hfirst] at hti
  have hui : ⟪unit t, inward o x⟫ ≤ 0 := by
    unfold unit
    rw [inner_smul_left]
    exact mul_nonpos_of_nonneg_of_nonpos (by simp) hti
  -- the mean is this direction
  have hnn : ‖(1 / ‖initial - closeVelocity ext s' env x‖) • (initial - closeVelocity ext s' env x)‖ = 1 :=
    unit_norm hne
  have hmean : ext.mean ((1 / ‖initial - closeVelocity ext s' env x‖) • (initial - closeVelocity ext s' env x))
      (ext.weights ((closeObstacles s' env x).map (fun p => p.1.2))) (dA ++ unit t :: dB) = unit t := by
    have hmap : (closeObstacles s' env x).map (fun p => p.1.2)
        = A.map (fun p => p.1.2) ++ 1 :: B.map (fun p => p.1.2) := by
      rw [hsplit, List.map_append, List.map_cons]
    obtain ⟨z, z', hz, hzz⟩ := he.weights_contact _ 1 _ (le_refl _) hgam
    have hcv := he.weights_convex ((closeObstacles s' env x).map (fun p => p.1.2)) (by rw [hmap]; simp)
    rw [hmap] at hcv ⊢
    rw [hzz] at hcv ⊢
    have hl := hcv.2
    simp only [List.length_append, List.length_cons, List.length_map] at hl
    rw [List.length_map] at hz
    rw [he.mean_one _ z z' dA (unit t) dB hnn (unit_ne_zero ht0) ?_ (by rw [hz]; exact hpA.length_eq)
      (by rw [← hpB.length_eq]; omega) hcv.1, unit_unit ht0]
    intro hop
    have := opposite_of_unit hne ht0 hop
    exact (hgood t ht).1 this
  unfold finishAvoid at hf
  simp only [hmean] at hf
  have hge : (0 : ℝ) ≤ ‖initial - closeVelocity ext s' env x‖ := norm_nonneg _
  constructor
  · intro hst
    rw [hst] at hf
    simp only [if_true] at hf
    injection hf with hf
    obtain ⟨a, a1, a2, a3, _⟩ := C59_factor (unit t) ‖initial - closeVelocity ext s' env x‖ _
      (unit_norm ht0).le (gammas_spec (s := s') (env := env) (x := x))
    rw [a3] at hf
    rw [← hf, add_sub_cancel_right, inner_smul_left]
    exact mul_nonpos_of_nonneg_of_nonpos (by simp; positivity) hui
  · intro hst hrel
    rw [hst] at hf
    simp only [Bool.false_eq_true, if_false] at hf
    split at hf
    · cases hf
    · rename_i g hg
      obtain ⟨u, hu, hf⟩ := bind_ok.mp hf
      have hav : ‖(List.zipWith (fun (n : Vec d) w => w • n) ((closeObstacles s' env x).map (unitNormal x))
          (ext.weights ((closeObstacles s' env x).map (fun p => p.1.2)))).sum‖ ≤ 1 := by
        have hcv := he.weights_convex ((closeObstacles s' env x).map (fun p => p.1.2))
          (by rw [hsplit]; simp)
        have gen : ∀ (ns : List (Vec d)) (ws : List ℝ), (∀ n ∈ ns, ‖n‖ ≤ 1) → Nonneg ws →
            ‖(List.zipWith (fun (n : Vec d) w => w • n) ns ws).sum‖ ≤ ws.sum := by
          intro ns
          induction ns with
          | nil => intro ws _ hw; simpa using sum_nonneg' hw
          | cons n ns ih =>
            intro ws hns hw
            cases ws with
            | nil => simp
            | cons w ws =>
              rw [List.zipWith_cons_cons, List.sum_cons, List.sum_cons]
              refine (norm_add_le _ _).trans (add_le_add ?_
                (ih ws (fun m hm => hns m (List.mem_cons_of_mem _ hm))
                  (fun y hy => hw y (List.mem_cons_of_mem _ hy))))
              have hw0 : 0 ≤ w := hw w List.mem_cons_self
              rw [norm_smul, Real.norm_of_nonneg hw0]
              calc w * ‖n‖ ≤ w * 1 := mul_le_mul_of_nonneg_left (hns n List.mem_cons_self) hw0
                _ = w := mul_one _
        have := gen ((closeObstacles s' env x).map (unitNormal x)) _ (by
          intro n hn
          obtain ⟨p, _, rfl⟩ := List.mem_map.mp hn
          exact unitNormal_le x p) hcv.1.1
        rw [hcv.1.2] at this
        exact this
      obtain ⟨a, a1, a2, _⟩ := C35_magnitude (unit t) _ ‖initial - closeVelocity ext s' env x‖ g 0.8 3
        (unit_norm ht0).le hav (by norm_num) (by norm_num) hge
      rw [a2] at hu
      injection hu with hu
      rw [hrel, add_zero] at hf
      split_ifs at hf with h0
      · injection hf with hf
        rw [← hf, norm_eq_zero.mp h0, inner_zero_left]
      · injection hf with hf
        rw [← hf, ← hu, inner_smul_left, inner_smul_left]
        refine mul_nonpos_of_nonneg_of_nonpos (by simp; positivity)
          (mul_nonpos_of_nonneg_of_nonpos (by simpa using a1) hui)

lemma close_single {s : Avoider d} {o : Obstacle d} {x : Vec d} (h : CloseTo s.cutOffGamma x o)
    (f : Option (Vec d → ℕ → Vec d)) (rs : Option (List ℝ)) :
    closeObstacles s ⟨[o], f, rs⟩ x = [((o, usedGamma x o), 0)] := by
  rw [closeObstacles_eq, closeFrom_cons, if_pos h]
  simp [closeFrom, computeObstacleGamma]

/-- `avoid` for one close obstacle at rest. -/
lemma avoid_single {ext : Ext d k} {s : Avoider d} {o : Obstacle d} {x initial c dir : Vec d}
    (h : CloseTo s.cutOffGamma x o) (hrel : ext.relative x [o] = 0) (hi : initial ≠ 0) (hc : c ≠ 0)
    (hin : 0 ≤ ⟪towards o x, inward o x⟫)
    (hs : convergenceSumming ext s c (towards o x) ⟨o.normal x, !o.isBoundary⟩ (usedGamma x o) initial
      s.convergenceRadius = .ok dir) :
    avoidBody ext s ⟨[o], none, none⟩ x initial (some c) true s.convergenceRadius
      = .ok (limitMagnitude (ext.mean (unit initial) (ext.weights [usedGamma x o]) [dir]) ‖initial‖
          [(usedGamma x o, unit (o.normal x))]) := by
  unfold avoidBody
  simp only [close_single h, List.map_cons, List.map_nil, hrel, sub_zero]
  rw [if_neg (by simp), if_neg (by simp), if_neg (norm_ne_zero_iff.mpr hi)]
  have hfr : (obstacleFrame o x).2 = ⟨o.normal x, !o.isBoundary⟩ := by
    unfold obstacleFrame
    cases o.isBoundary <;> simp
  have hstep : avoidStep ext s ⟨[o], none, none⟩ x initial ⟨some c, s.convergenceRadius, []⟩
      ((o, usedGamma x o), 0) = .ok ⟨some c, s.convergenceRadius, [dir]⟩ := by
    unfold avoidStep convergenceVelocity passRadius
    simp only [bind, Except.bind, alignedFrame_eq hin, towards_eq, hfr]
    rw [if_neg (norm_ne_zero_iff.mpr hc), hs]
    simp
  rw [List.foldlM_cons, hstep]
  simp only [bind, Except.bind, List.foldlM_nil, pure, Except.pure]
  unfold finishAvoid
  simp only [if_true, List.map_cons, List.map_nil, List.zip_cons_cons, List.zip_nil_right, add_zero]
  rfl

/-- C93: sliding along the surface.  For one obstacle at rest in contact with the position and a radius of a
right angle the call succeeds, and the result is the tangent direction with the full speed of the initial
velocity.

Missing: several contacts, moving obstacles, and the directions excluded here. -/
theorem C93_slide_partial (ext : Ext d k) (he : SaneAngles ext) (s : Avoider d) (o : Obstacle d)
    (x initial c t : Vec d) (hrel : ext.relative x [o] = 0) (hcut : 1 < s.cutOffGamma)
    (hcon : o.gamma x ≤ 1) (hob : o.isBoundary = false)
    (hn : o.normal x ≠ 0) (hin : 0 ≤ ⟪towards o x, inward o x⟫) (hc : c ≠ 0) (hi : initial ≠ 0)
    (hR : s.convergenceRadius = Real.pi / 2)
    (ht : pseudoTangent ext s c (towards o x) ⟨o.normal x, true⟩ = .ok t)
    (hop : ¬ Opposite initial t)
    (hgood : Admissible ext c (towards o x) t initial ⟨o.normal x, true⟩ (Real.pi / 2)) :
    (avoid ext s x (some initial) (some ⟨[o], none, none⟩) (some c)).2 = .ok (‖initial‖ • unit t) := by
  set env : Environment d := ⟨[o], none, none⟩ with henv
  have hs' : pseudoTangent ext (updated s env none) c (towards o x) ⟨o.normal x, !o.isBoundary⟩ = .ok t := by
    rw [hob]; exact ht
  change avoidBody ext (updated s env none) env x initial (some c) true
    (updated s env none).convergenceRadius = _
  have hR2 : (updated s env none).convergenceRadius = Real.pi / 2 := hR
  have hpi := Real.pi_pos
  have hug : usedGamma x o = 1 := by
    unfold usedGamma
    split_ifs with hu
    · rfl
    · push Not at hu
      by_contra hg
      exact hu (lt_of_le_of_ne hcon hg) hob
  have hclose : CloseTo (updated s env none).cutOffGamma x o := by
    rw [closeTo_iff, hug]; exact ⟨hcut, le_refl _⟩
  obtain ⟨ht0, hti⟩ := pseudoTangent_spec he (by exact hn) hc (by rw [hR2])
    (by rw [hR2]; linarith) hs'
  have hsum : convergenceSumming ext (updated s env none) c (towards o x) ⟨o.normal x, !o.isBoundary⟩
      (usedGamma x o) initial (updated s env none).convergenceRadius = .ok (unit t) := by
    unfold convergenceSumming continuationWeight
    rw [hug, continuation_surface (by norm_num) (le_refl _)]
    simp only [bind, Except.bind]
    rw [if_neg (by norm_num), hs']
    obtain ⟨tr, htr⟩ := summingTree_exists ext (ref := towards o x) (b := ⟨o.normal x, !o.isBoundary⟩)
      (R := (updated s env none).convergenceRadius) hc hi (by exact hn) ht0
      (by rw [hR2]; apply le_of_eq; ring)
    simp only [htr]
    obtain ⟨r1, r2, r3, r4, r5, r6⟩ := summingTree_ok he hc hi (by exact hn) ht0 htr
    exact C21_one_hot tr _ r1 (r6 (by rw [hR2, hob]; exact hgood)) ext.argsort he.argsort NodeState.init
      [.num 0, .num 3] [1 - 1, 1] rfl (by simp) (by simp [r2, r3]) (.num 3) (by simp)
      (by simp) (unit t) r5
  rw [avoid_single hclose hrel hi hc hin hsum]
  have hw : ext.weights [usedGamma x o] = [1] := by
    obtain ⟨z, z', hz, hzz⟩ := he.weights_contact [] (usedGamma x o) [] hug.le (by simp)
    have hl := (he.weights_convex [usedGamma x o] (by simp)).2
    simp only [List.nil_append] at hzz
    rw [hzz] at hl ⊢
    simp only [List.length_append, List.length_cons, List.length_nil] at hl
    rw [List.length_eq_zero_iff.mp hz, List.length_eq_zero_iff.mp (show z'.length = 0 by omega)]
    rfl
  have hmean : ext.mean (unit initial) [1] [unit t] = unit t := by
    have := he.mean_one (unit initial) [] [] [] (unit t) [] (unit_norm hi) (unit_ne_zero ht0)
      (fun h => hop (opposite_of_unit hi ht0 h)) rfl rfl ⟨by intro y hy; simp at hy; rw [hy]; norm_num, by simp⟩
    simp only [List.nil_append] at this
    rw [this, unit_unit ht0]
  rw [hw, hmean]
  have hle : ∀ p ∈ [(usedGamma x o, unit (o.normal x))], 1 ≤ p.1 ∧ ‖p.2‖ ≤ 1 := by
    intro p hp
    rw [List.mem_singleton] at hp
    rw [hp]
    exact ⟨hug.ge, (unit_norm hn).le⟩
  obtain ⟨a, a1, a2, a3, a4, _⟩ := C59_factor (unit t) ‖initial‖ [(usedGamma x o, unit (o.normal x))]
    (unit_norm ht0).le hle
  rw [a3, a4, one_mul]
  intro p hp
  rw [List.mem_singleton] at hp
  rw [hp]
  have hf : (⟨o.normal x, !o.isBoundary⟩ : NullBase d).first = -unit (o.normal x) := by
    rw [hob]; simp [NullBase.first, unit]
  rw [hf, inner_neg_right] at hti
  unfold unit at hti ⊢
  rw [inner_smul_left]
  exact mul_nonneg (by simp) (by linarith)

/-- C93, violated because of exchanged arguments: if the convergence direction leaves the obstacle, the
obstacle is not avoided at all before the contact, however close it is.  The initial velocity is only
scaled. -/
theorem C93_ignores_obstacle (ext : Ext d k) (he : SaneAngles ext) (s : Avoider d) (o : Obstacle d)
    (x initial c : Vec d) (hrel : ext.relative x [o] = 0) (hob : o.isBoundary = false)
    (hg : 1 < o.gamma x) (hcut : o.gamma x < s.cutOffGamma)
    (hn : o.normal x ≠ 0) (hin : 0 < ⟪towards o x, inward o x⟫) (hi : initial ≠ 0)
    (hc : ⟪c, inward o x⟫ < 0) (hR : s.convergenceRadius = Real.pi / 2) :
    (avoid ext s x (some initial) (some ⟨[o], none, none⟩) (some c)).2
      = .ok ((1 + min ⟪unit initial, unit (o.normal x)⟫ 0 / o.gamma x) • initial) := by
  set env : Environment d := ⟨[o], none, none⟩ with henv
  change avoidBody ext (updated s env none) env x initial (some c) true
    (updated s env none).convergenceRadius = _
  have hR2 : (updated s env none).convergenceRadius = Real.pi / 2 := hR
  have hpi := Real.pi_pos
  have hug : usedGamma x o = o.gamma x := by
    unfold usedGamma
    rw [if_neg (by intro h; linarith [h.1])]
  have hclose : CloseTo (updated s env none).cutOffGamma x o := by
    rw [closeTo_iff, hug]; exact ⟨hcut, hg.le⟩
  have hc0 : c ≠ 0 := by rintro rfl; simp at hc
  have ht0 : towards o x ≠ 0 := by intro h0; rw [h0] at hin; simp at hin
  have hb : (⟨o.normal x, !o.isBoundary⟩ : NullBase d).normal ≠ 0 := hn
  have hf : (⟨o.normal x, !o.isBoundary⟩ : NullBase d).first = inward o x := by
    unfold inward; rw [hob]; simp [NullBase.first, unit]
  have hac : Real.pi / 2 < ‖ext.toAngle ⟨o.normal x, !o.isBoundary⟩ c‖ := by
    rw [he.toAngle_norm _ _ hb hc0, hf]
    by_contra hcon
    have := Real.cos_nonneg_of_neg_pi_div_two_le_of_le
      (by linarith [InnerProductGeometry.angle_nonneg (inward o x) c]) (not_lt.mp hcon)
    rw [InnerProductGeometry.cos_angle] at this
    have hneg : ⟪inward o x, c⟫ < 0 := by rw [real_inner_comm]; exact hc
    have hp : 0 < ‖inward o x‖ * ‖c‖ := by
      rw [← hf, first_norm hb, one_mul]; exact norm_pos_iff.mpr hc0
    have := div_neg_of_neg_of_pos hneg hp
    linarith
  have har : ‖ext.toAngle ⟨o.normal x, !o.isBoundary⟩ (towards o x)‖ < Real.pi / 2 := by
    rw [he.toAngle_norm _ _ hb ht0, hf]
    rw [InnerProductGeometry.angle, Real.arccos_lt_pi_div_two]
    have hp : 0 < ‖inward o x‖ * ‖towards o x‖ := by
      rw [← hf, first_norm hb, one_mul]; exact norm_pos_iff.mpr ht0
    exact div_pos (by rw [real_inner_comm]; exact hin) hp
  have hsum : convergenceSumming ext (updated s env none) c (towards o x) ⟨o.normal x, !o.isBoundary⟩
      (usedGamma x o) initial (updated s env none).convergenceRadius = .ok initial := by
    unfold convergenceSumming continuationWeight getSmoothContinuationWeight
    have hg0 : o.gamma x ≠ 0 := by linarith
    have hw1 : 0 < 1 / o.gamma x := by positivity
    have hw2 : 1 / o.gamma x < 1 := by rw [div_lt_one (by linarith)]; exact hg
    rw [hug, hR2]
    simp only [if_neg hg0, if_neg (not_le.mpr hw1), if_neg (not_le.mpr hw2), ge_iff_le,
      if_neg (not_le.mpr har)]
    have hrad : min (Real.pi / 2 - ‖ext.toAngle ⟨o.normal x, !o.isBoundary⟩ c‖) (Real.pi * 0.5) < 0 :=
      lt_of_le_of_lt (min_le_left _ _) (by linarith)
    rw [if_neg hrad.ne, if_pos (div_nonpos_of_nonneg_of_nonpos (norm_nonneg _) hrad.le)]
    simp only [bind, Except.bind, le_refl, if_true]
  rw [avoid_single hclose hrel hi hc0 hin.le hsum]
  have hw : ext.weights [usedGamma x o] = [1] := by
    obtain ⟨h1, h2⟩ := he.weights_convex [usedGamma x o] (by simp)
    obtain ⟨w, hw⟩ := List.length_eq_one_iff.mp (by simpa using h2)
    rw [hw] at h1 ⊢
    have := h1.2
    simp at this
    rw [this]
  have hmean : ext.mean (unit initial) [1] [initial] = unit initial := by
    have := he.mean_one (unit initial) [] [] [] initial [] (unit_norm hi) hi
      (fun h => ?_) rfl rfl ⟨by intro y hy; simp at hy; rw [hy]; norm_num, by simp⟩
    · simpa using this
    · obtain ⟨a, ha, h⟩ := h
      have h1 : ⟪initial, unit initial⟫ = ‖initial‖ := by
        unfold unit
        rw [inner_smul_right, real_inner_self_eq_norm_sq]
        have := norm_ne_zero_iff.mpr hi
        field_simp
      have h2 : ⟪initial, unit initial⟫ = -a := by
        have := congrArg (fun y : Vec d => ⟪y, unit initial⟫) h
        simp only [inner_smul_left, real_inner_self_eq_norm_sq, unit_norm hi] at this
        rw [this]; simp
      have := norm_nonneg initial
      rw [h1] at h2; linarith
  rw [hw, hmean, hug]
  unfold limitMagnitude limitLoop
  simp only
  have hni : ‖initial‖ • unit initial = initial := norm_smul_unit initial
  by_cases h : ⟪unit initial, unit (o.normal x)⟫ < 0
  · rw [if_pos h, min_eq_left h.le]
    simp only [limitLoop, hni]
    congr 2; ring
  · rw [if_neg h, min_eq_right (not_lt.mp h)]
    simp only [limitLoop, hni]
    simp

/-- C93, the consequence: the speed towards the obstacle is bounded away from zero up to the surface, if the
initial velocity heads for the obstacle (and not perpendicularly). -/
theorem C93_enters (ext : Ext d k) (he : SaneAngles ext) (s : Avoider d) (o : Obstacle d)
    (x initial c v : Vec d) (hrel : ext.relative x [o] = 0) (hob : o.isBoundary = false)
    (hg : 1 < o.gamma x) (hcut : o.gamma x < s.cutOffGamma)
    (hn : o.normal x ≠ 0) (hin : 0 < ⟪towards o x, inward o x⟫)
    (hc : ⟪c, inward o x⟫ < 0) (hR : s.convergenceRadius = Real.pi / 2)
    (a : ℝ) (ha : ⟪unit initial, inward o x⟫ = a) (ha0 : 0 < a) (ha1 : a < 1)
    (hv : (avoid ext s x (some initial) (some ⟨[o], none, none⟩) (some c)).2 = .ok v) :
    0 < a * (1 - a) * ‖initial‖ ∧ a * (1 - a) * ‖initial‖ ≤ ⟪v, inward o x⟫ := by
  have hi : initial ≠ 0 := by
    rintro rfl
    simp [unit] at ha
    linarith
  have hnorm : 0 < ‖initial‖ := norm_pos_iff.mpr hi
  have h1a : 0 < 1 - a := by linarith
  refine ⟨by positivity, ?_⟩
  rw [C93_ignores_obstacle ext he s o x initial c hrel hob hg hcut hn hin hi hc hR] at hv
  injection hv with hv
  have hinw : inward o x = -unit (o.normal x) := by unfold inward; rw [hob]; simp
  have hna : ⟪unit initial, unit (o.normal x)⟫ = -a := by
    rw [← ha, hinw, inner_neg_right]; ring
  have hii : ⟪initial, inward o x⟫ = ‖initial‖ * a := by
    rw [← ha]
    conv_lhs => rw [← norm_smul_unit initial]
    rw [inner_smul_left]; simp
  rw [← hv, hna, min_eq_left (by linarith), inner_smul_left, hii]
  simp only [conj_trivial]
  have hdiv : a / o.gamma x ≤ a := div_le_self ha0.le hg.le
  have : 1 - a ≤ 1 + -a / o.gamma x := by rw [neg_div]; linarith
  calc a * (1 - a) * ‖initial‖ = (1 - a) * (‖initial‖ * a) := by ring
    _ ≤ (1 + -a / o.gamma x) * (‖initial‖ * a) := mul_le_mul_of_nonneg_right this (by positivity)

/-! ## C94 -/

/-- Only the side of a right angle matters for the radius of a pass. -/
def SameSide (r r' : ℝ) : Prop := r > Real.pi * 0.5 ↔ r' > Real.pi * 0.5

lemma summing_side {ext : Ext d k} {s : Avoider d} {c ref n : Vec d} {b : NullBase d} {g r r' : ℝ}
    (h : SameSide r r') :
    convergenceSumming ext s c ref b g n r = convergenceSumming ext s c ref b g n r' := by
  have : ∀ t, summingTree ext c ref t n b r = summingTree ext c ref t n b r' := by
    intro t
    unfold summingTree
    by_cases hr : r > Real.pi * 0.5
    · simp only [if_pos hr, if_pos (h.mp hr)]
    · simp only [if_neg hr, if_neg (fun hr' => hr (h.mpr hr'))]
  unfold convergenceSumming
  simp only [this]

/-- C94, a defect: the custom convergence radius of an obstacle has no effect, except for the side of a right
angle on which it is.  (Tangent and weight are computed with the radius of the avoider.) -/
theorem C94_custom_radius_ignored (ext : Ext d k) (s : Avoider d) (os : List (Obstacle d))
    (f : Option (Vec d → ℕ → Vec d)) (x initial : Vec d) (conv : Option (Vec d)) (sticky : Bool)
    (radius : Option ℝ) (rs rs' : List ℝ) (h : List.Forall₂ SameSide rs rs') :
    (avoid ext s x (some initial) (some ⟨os, f, some rs⟩) conv sticky radius).2
      = (avoid ext s x (some initial) (some ⟨os, f, some rs'⟩) conv sticky radius).2 := by
  set env : Environment d := ⟨os, f, some rs⟩ with henv
  set env' : Environment d := ⟨os, f, some rs'⟩ with henv'
  change avoidBody ext (updated s env radius) env x initial conv sticky (radius.getD s.convergenceRadius)
    = avoidBody ext (updated s env' radius) env' x initial conv sticky (radius.getD s.convergenceRadius)
  have hpass : ∀ i r r', SameSide r r' →
      (∃ e, passRadius env i r = .error e ∧ passRadius env' i r' = .error e)
      ∨ ∃ q q', passRadius env i r = .ok q ∧ passRadius env' i r' = .ok q' ∧ SameSide q q' := by
    intro i r r' hr
    have key : ∀ (l l' : List ℝ), List.Forall₂ SameSide l l' → ∀ j : ℕ,
        (l[j]? = none ∧ l'[j]? = none) ∨ ∃ q q', l[j]? = some q ∧ l'[j]? = some q' ∧ SameSide q q' := by
      intro l l' hl
      induction hl with
      | nil => intro j; exact Or.inl ⟨by simp, by simp⟩
      | cons h1 _ ih =>
        intro j
        cases j with
        | zero => exact Or.inr ⟨_, _, rfl, rfl, h1⟩
        | succ j => simpa using ih j
    unfold passRadius
    rw [henv, henv']
    simp only
    cases h with
    | nil => exact Or.inr ⟨r, r', rfl, rfl, hr⟩
    | cons h1 hl =>
      simp only
      rcases key _ _ (List.Forall₂.cons h1 hl) i with ⟨e1, e2⟩ | ⟨q, q', e1, e2, e3⟩
      · left; exact ⟨.indexError, by rw [e1], by rw [e2]⟩
      · right; exact ⟨q, q', by rw [e1], by rw [e2], e3⟩
  have hcs : ∀ c ref b g n r, convergenceSumming ext (updated s env radius) c ref b g n r
      = convergenceSumming ext (updated s env' radius) c ref b g n r := fun _ _ _ _ _ _ => rfl
  have hloop : ∀ (start : Vec d) (l : List ((Obstacle d × ℝ) × ℕ)) (st st' : LoopState d),
      st.convergence = st'.convergence → st.directions = st'.directions → SameSide st.radius st'.radius →
      (l.foldlM (avoidStep ext (updated s env radius) env x start) st).map LoopState.directions
        = (l.foldlM (avoidStep ext (updated s env' radius) env' x start) st').map LoopState.directions := by
    intro start l
    induction l with
    | nil => intro st st' h1 h2 _; simp [Except.map, pure, Except.pure, h2]
    | cons p l ih =>
      intro st st' h1 h2 h3
      rw [List.foldlM_cons, List.foldlM_cons]
      have hcv : convergenceVelocity (updated s env radius) env x p.2 st.convergence
          = convergenceVelocity (updated s env' radius) env' x p.2 st'.convergence := by rw [h1]; rfl
      unfold avoidStep
      rw [hcv]
      cases convergenceVelocity (updated s env' radius) env' x p.2 st'.convergence with
      | error e => rfl
      | ok c =>
        simp only [bind, Except.bind]
        by_cases hc : ‖c‖ = 0
        · rw [if_pos hc, if_pos hc]
          exact ih _ _ rfl (by simp [h2]) h3
        · rw [if_neg hc, if_neg hc]
          rcases hpass p.2 _ _ h3 with ⟨e, e1, e2⟩ | ⟨q, q', e1, e2, e3⟩
          · rw [e1, e2]
          · rw [e1, e2]
            simp only
            rw [hcs, summing_side e3]
            cases convergenceSumming ext (updated s env' radius) c (alignedFrame p.1.1 x).1
              (alignedFrame p.1.1 x).2 p.1.2 start q' with
            | error e => rfl
            | ok dir => exact ih _ _ rfl (by simp [h2]) e3
  unfold avoidBody
  have hclose : closeObstacles (updated s env radius) env x = closeObstacles (updated s env' radius) env' x := rfl
  rw [hclose]
  have := hloop (initial - ext.relative x ((closeObstacles (updated s env' radius) env' x).map (fun p => p.1.1)))
    (closeObstacles (updated s env' radius) env' x) ⟨conv, radius.getD s.convergenceRadius, []⟩
    ⟨conv, radius.getD s.convergenceRadius, []⟩ rfl rfl Iff.rfl
  simp only
  split_ifs
  · rfl
  · rfl
  · rfl
  · revert this
    generalize List.foldlM (avoidStep ext (updated s env radius) env x _) _ _ = A
    generalize List.foldlM (avoidStep ext (updated s env' radius) env' x _) _ _ = B
    intro hAB
    cases A with
    | error e => cases B with
      | error e' => simpa [Except.map, bind, Except.bind] using hAB
      | ok b => simp [Except.map] at hAB
    | ok a => cases B with
      | error e' => simp [Except.map] at hAB
      | ok b =>
        simp only [Except.map, Except.ok.injEq] at hAB
        simp only [bind, Except.bind, hAB]

/-- C94, a defect: with local convergence directions only the one of the first close obstacle is used, for all
obstacles. -/
theorem C94_first_convergence (ext : Ext d k) (s : Avoider d) (f : Vec d → ℕ → Vec d)
    (rs : Option (List ℝ)) (pre post : List (Obstacle d)) (o : Obstacle d) (x initial : Vec d)
    (sticky : Bool) (radius : Option ℝ) (hs : s.convergenceSystem = none)
    (hpre : ∀ o' ∈ pre, ¬ CloseTo s.cutOffGamma x o') (ho : CloseTo s.cutOffGamma x o) :
    (avoid ext s x (some initial) (some ⟨pre ++ o :: post, some f, rs⟩) none sticky radius).2
      = (avoid ext s x (some initial) (some ⟨pre ++ o :: post, some f, rs⟩) (some (f x pre.length))
        sticky radius).2 := by
  set env : Environment d := ⟨pre ++ o :: post, some f, rs⟩ with henv
  change avoidBody ext (updated s env radius) env x initial none sticky (radius.getD s.convergenceRadius)
    = avoidBody ext (updated s env radius) env x initial (some (f x pre.length)) sticky
      (radius.getD s.convergenceRadius)
  have hnil : ∀ n, closeFrom s.cutOffGamma x pre n = [] := by
    intro n
    have e := closeFrom_map s.cutOffGamma x pre n
    rw [List.filter_eq_nil_iff.mpr (by simpa using hpre), List.map_eq_nil_iff] at e
    exact e
  obtain ⟨l, hl⟩ : ∃ l, closeObstacles (updated s env radius) env x
      = ((o, usedGamma x o), pre.length) :: l := by
    refine ⟨closeFrom s.cutOffGamma x post (0 + pre.length + 1), ?_⟩
    rw [closeObstacles_eq]
    change closeFrom s.cutOffGamma x (pre ++ o :: post) 0 = _
    rw [closeFrom_append, closeFrom_cons, if_pos ho, hnil]
    simp
  unfold avoidBody
  simp only [hl]
  rw [avoidLoop_first _ l none (f x pre.length) _ _ (by
    change (match s.convergenceSystem with
      | some g => Except.ok (g x)
      | none => Except.ok (f x pre.length)) = Except.ok (f x pre.length)
    rw [hs])]

/-- C94: a given obstacle list and a given radius stay: later calls without them behave as if they were given
again.  (Without the first call the second one would use the previous values, or raise.) -/
theorem C94_arguments_persist (ext : Ext d k) (s : Avoider d) (env : Environment d) (x y v w : Vec d)
    (conv conv' : Option (Vec d)) (sticky sticky' : Bool) (r : ℝ) :
    avoid ext (avoid ext s x (some v) (some env) conv sticky (some r)).1 y (some w) none conv' sticky' none
      = ((avoid ext s x (some v) (some env) conv sticky (some r)).1,
        (avoid ext s y (some w) (some env) conv' sticky' (some r)).2)
      ∧ (s.environment = none →
        (avoid ext s y (some w) none conv' sticky' none).2 = .error .valueError) := by
  refine ⟨rfl, fun h => C93_no_environment ext s y w conv' sticky' none h⟩

/-- C94: a call without obstacle list and radius does not change the avoider.  Missing: calls
with these arguments do (`C94_arguments_persist`). -/
theorem C94_unchanged_partial (ext : Ext d k) (s : Avoider d) (x : Vec d) (v conv : Option (Vec d))
    (sticky : Bool) : (avoid ext s x v none conv sticky none).1 = s := by
  rcases s with ⟨i, e, _, _, _, _, _⟩
  cases v <;> cases i <;> cases e <;> rfl

end Verif.Rotational
