import Verif.Lemmas.Balls

/-! # Helper lemmas: the velocity among several balls -/

open scoped RealInnerProductSpace
open Set

namespace Verif
open Spec

set_option linter.unusedSectionVars false

variable {d k : ℕ} [Fact (2 ≤ d)]

/-- The velocity among several balls is a multiple of the averaged direction. -/
lemma balls_velocity {ext : Ext d k} (hE : DirectionSpace ext) (has : ArgsortSpec ext.argsort) {a : Avoider d}
    {balls : List (Ball d)} (ha : BallsAvoider a balls) {x vel : Vec d} (hx : FreeOf balls x)
    (hdir : ∀ v, ConvergenceDirection ext a x v → ‖v‖ = 1)
    (hmag : 0 ≤ a.magnitude x) (h : a.evaluate ext x = .ok vel) :
    vel = 0 ∨ ∃ v pr D l, ConvergenceDirection ext a x v ∧ prepareAvoidance ext a x v = .ok pr
      ∧ avoidanceDirection ext pr = .ok D ∧ ‖D‖ = 1 ∧ 0 ≤ l ∧ l ≤ max 1 (a.magnitude x) ∧ vel = l • D := by
  classical
  obtain ⟨hs, hstatic, hnil, hne, hone⟩ := balls_facts ha hx
  rcases evaluate_run hne h with ⟨rfl, _⟩ | ⟨pr, rel, final, hpr, hrel, hf, hsl⟩
  · exact Or.inl rfl
  right
  obtain ⟨s, conv, u, h1, h2, h3, hprep⟩ := hpr
  have hu := hdir u ⟨s, conv, h1, h2, h3⟩
  have hu1 : ‖final‖ = 1 := by
    obtain ⟨pr', D', e1, e2, e3⟩ := balls_prepare hE has ha hx hu
    rw [hprep] at e1
    cases e1
    rw [hf] at e2
    cases e2
    exact e3
  have hr0 := relative_static hstatic hrel
  suffices hl : ∃ l, 0 ≤ l ∧ l ≤ max 1 (a.magnitude x) ∧ vel = l • final by
    obtain ⟨l, l0, l1, e⟩ := hl
    exact ⟨u, pr, final, l, ⟨s, conv, h1, h2, h3⟩, hprep, hf, hu1, l0, l1, e⟩
  obtain ⟨Ds, hD, _, hnorm, hslow, _, _, hin, _, _, hpos, _⟩ := prepared_facts ha.power hs hprep
  have hle := cluster_le_one ha.power hs hone hprep
  unfold slowDown at hsl
  split at hsl
  · cases hsl
    exact ⟨1, zero_le_one, le_max_left _ _, by rw [hr0, add_zero, one_smul]⟩
  · rename_i m hm
    obtain ⟨prox, h4, hsl⟩ := bind_ok.mp hsl
    obtain ⟨cf, h5, hsl⟩ := bind_ok.mp hsl
    rw [if_neg (by rw [hu1]; norm_num)] at hsl
    cases hsl
    obtain ⟨p', hp', p0, p1⟩ := C35_scaling_range final
      (List.zipWith (fun (n : Vec d) w => w • n) pr.normals pr.cluster).sum (1 / m) 0.8 3 (le_of_eq hu1)
      ((averaged_le (by rw [hnorm]; exact normals_le hs hD) (fun w hw => (hin w hw).1)).trans hle)
      (by norm_num) (by norm_num)
    rw [h4] at hp'
    injection hp' with hp'
    subst hp'
    have hsne : pr.slow ≠ [] := by
      rw [hslow]
      intro h0
      have := hD.length_eq
      rw [List.map_eq_nil_iff.mp h0, List.length_zipIdx] at this
      exact hne (List.length_eq_zero_iff.mp this)
    obtain ⟨c', hc', c0, c1, _⟩ := C36_slowfactor pr.slow 0.2 hsne (by norm_num)
      (by rw [hslow]; exact slow_le ha.power hs hD)
    rw [h5] at hc'
    injection hc' with hc'
    subst hc'
    refine ⟨a.magnitude x * min cf prox, mul_nonneg hmag (le_min c0 p0), ?_, ?_⟩
    · refine le_max_of_le_right ?_
      calc a.magnitude x * min cf prox ≤ a.magnitude x * 1 :=
            mul_le_mul_of_nonneg_left (min_le_of_left_le c1) hmag
        _ = a.magnitude x := mul_one _
    · rw [hr0, add_zero, hu1, div_one]

/-- The velocity among several balls is defined whenever the convergence direction is. -/
lemma balls_defined {ext : Ext d k} (hE : DirectionSpace ext) (has : ArgsortSpec ext.argsort) {a : Avoider d}
    {balls : List (Ball d)} (ha : BallsAvoider a balls) {x v : Vec d} (hx : FreeOf balls x)
    (hc : ConvergenceDirection ext a x v) (hv : ‖v‖ = 1) :
    ∃ vel, a.evaluate ext x = .ok vel := by
  classical
  obtain ⟨hs, hstatic, hnil, hne, hone⟩ := balls_facts ha hx
  obtain ⟨s, conv, h1, h2, h3⟩ := hc
  obtain ⟨pr, D, hpr, hD, hu1⟩ := balls_prepare hE has ha hx hv
  have hrel := C60_static x a.trees hstatic hnil
  obtain ⟨Ds, hDs, _, hnorm, hslow, _, _, hin, _, _, hpos, _⟩ := prepared_facts ha.power hs hpr
  have hle := cluster_le_one ha.power hs hone hpr
  suffices hw : ∃ w, slowDown (a.magnitude x) 0 D pr = .ok w by
    obtain ⟨w, hw⟩ := hw
    refine ⟨w, ?_⟩
    unfold Avoider.evaluate evaluateSequence
    refine bind_ok.mpr ⟨_, h1, ?_⟩
    simp only
    rw [if_neg hne]
    exact bind_ok.mpr ⟨0, hrel, bind_ok.mpr ⟨conv, h2, bind_ok.mpr ⟨_, h3,
      bind_ok.mpr ⟨pr, hpr, bind_ok.mpr ⟨D, hD, hw⟩⟩⟩⟩⟩
  unfold slowDown
  cases hm : pr.cluster.max? with
  | none => exact ⟨_, rfl⟩
  | some m =>
    obtain ⟨p', hp', _⟩ := C35_scaling_range D
      (List.zipWith (fun (n : Vec d) w => w • n) pr.normals pr.cluster).sum (1 / m) 0.8 3
      (le_of_eq hu1)
      ((averaged_le (by rw [hnorm]; exact normals_le hs hDs) (fun w hw => (hin w hw).1)).trans hle)
      (by norm_num) (by norm_num)
    have hsne : pr.slow ≠ [] := by
      rw [hslow]
      intro h0
      have := hDs.length_eq
      rw [List.map_eq_nil_iff.mp h0, List.length_zipIdx] at this
      exact hne (List.length_eq_zero_iff.mp this)
    obtain ⟨c', hc', _⟩ := C36_slowfactor pr.slow 0.2 hsne (by norm_num)
      (by rw [hslow]; exact slow_le ha.power hs hDs)
    exact ⟨_, bind_ok.mpr ⟨p', hp', bind_ok.mpr ⟨c', hc', if_neg (by rw [hu1]; norm_num)⟩⟩⟩

/-- Where the motion is along the line through the centres, the avoider moves with unit speed in the convergence
direction. -/
lemma balls_axis_evaluate {ext : Ext d k} (hE : DirectionSpace ext) (has : ArgsortSpec ext.argsort) {a : Avoider d}
    {balls : List (Ball d)} (ha : BallsAvoider a balls) (hp : 0 < a.power) {x v : Vec d} (hx : FreeOf balls x)
    (hc : ConvergenceDirection ext a x v)
    (hv : ∀ b ∈ balls, v = unit (x - b.center) ∨ v = -unit (x - b.center)) :
    a.evaluate ext x = .ok v := by
  classical
  obtain ⟨hs, hstatic, hnil, hne, hone⟩ := balls_facts ha hx
  have hxc : ∀ b ∈ balls, 0 ≤ b.radius → x - b.center ≠ 0 := by
    intro b hb hr h0
    have := free_ball hx hb
    rw [h0, norm_zero] at this; linarith
  have hv1 : ‖v‖ = 1 := by
    obtain ⟨t, ht⟩ := List.exists_mem_of_ne_nil _ hne
    obtain ⟨_, _, b, hb, o, _, _, h3⟩ := balls_of_tree ha ht
    have hn := unit_norm (hxc b hb h3.radius_pos.le)
    rcases hv b hb with h | h
    · rw [h]; exact hn
    · rw [h, norm_neg]; exact hn
  have huv : unit v = v := unit_of_norm_one hv1
  obtain ⟨s, conv, h1, h2, h3⟩ := hc
  obtain ⟨pr, D, hpr, hD, _⟩ := balls_prepare hE has ha hx hv1
  have hrel := C60_static x a.trees hstatic hnil
  have hs' := balls_single ha hx
  have hzero : ∀ t ∈ a.trees, ∀ o, t.components = [o] →
      getRotationWeight ext.angleOf (o.normal x) (o.reference x) v (o.gamma x) (power := a.power) = .ok 0 := by
    intro t ht o ho
    obtain ⟨_, _, b, hb, o', h2, _, h3⟩ := balls_of_tree ha ht
    rw [ho] at h2
    cases h2
    rw [h3.normal, h3.reference]
    exact ball_axis_weight hE (unit_norm (hxc b hb h3.radius_pos.le)) (hv b hb) (ball_gamma h3 (free_ball hx hb)).2 hp
  obtain ⟨ws, τs, l1, l2, hd, hm⟩ := single_mean ext a x v pr ha.power has ha.radius.le hs'
    (balls_not_opposite hE ha hx hv1) hpr
  rw [hD, huv] at hm
  have hτ : ∀ τ ∈ τs, τ = v := by
    intro τ hτ
    obtain ⟨j, hj⟩ := List.mem_iff_getElem?.mp hτ
    have hjl : j < a.trees.length := by rw [← l2]; exact (List.getElem?_eq_some_iff.mp hj).choose
    have hwl : j < ws.length := by rw [l1]; exact hjl
    obtain ⟨_, _, b, hb, o, h2, _, h3⟩ := balls_of_tree ha (List.getElem_mem hjl)
    obtain ⟨_, w1, w2, w3⟩ := hd j _ o ws[j] τ (List.getElem?_eq_getElem hjl) h2 (List.getElem?_eq_getElem hwl) hj
    rw [hzero _ (List.getElem_mem hjl) o h2] at w1
    injection w1 with w1
    rw [w3 w1.symm.le, huv]
  have hDv : D = v := by
    injection hm with hm
    rw [hm]
    have : ∀ (W : List ℝ) (τs : List (Vec d)), (∀ τ ∈ τs, τ = v) →
        (List.zipWith (fun w τ => w • codeLog v τ) W τs).sum = 0 := by
      intro W
      induction W with
      | nil => simp
      | cons w W ih =>
        intro τs hτ
        cases τs with
        | nil => simp
        | cons τ τs =>
          rw [List.zipWith_cons_cons, List.sum_cons, hτ τ List.mem_cons_self, codeLog_self hv1, smul_zero, zero_add]
          exact ih τs (fun y hy => hτ y (List.mem_cons_of_mem _ hy))
    rw [this _ _ hτ, star_exp_zero]
  obtain ⟨Ds, g1, _, _, _, _, _, g2, _, _⟩ := single_prepare ha.power hs' ha.radius.le hpr
  have hDs : ∀ E ∈ Ds, E.1 = 0 := by
    have key : ∀ (l : List (ObstacleTree d × ℕ)) (Ds : List (ℝ × Vec d)), List.Forall₂ (SingleData ext a x v) l Ds →
        (∀ p ∈ l, p.1 ∈ a.trees) → ∀ E ∈ Ds, E.1 = 0 := by
      intro l Ds h
      induction h with
      | nil => intro _ E hE; cases hE
      | cons h _ ih =>
        intro hl E hEm
        rcases List.mem_cons.mp hEm with rfl | hEm
        · obtain ⟨o, f1, f2, _⟩ := h
          rw [hzero _ (hl _ List.mem_cons_self) o f1] at f2
          injection f2 with f2
          exact f2.symm
        · exact ih (fun p hp => hl p (List.mem_cons_of_mem _ hp)) E hEm
    refine key _ _ g1 ?_
    intro p hp
    have := List.mem_zipIdx' hp
    rw [this.2]
    exact List.getElem_mem _
  have hcl : pr.cluster = [] := by
    rw [g2]
    have : Ds.map (fun D => if 0 < D.1 then [(1 : ℝ)] else []) = Ds.map (fun _ => []) := by
      refine List.map_congr_left ?_
      intro E hE'
      rw [hDs E hE', if_neg (lt_irrefl _)]
    rw [this]
    unfold clusterWeights
    generalize (getLimitedWeightsToMaxSum (Ds.map Prod.fst)).1 = W
    clear * -
    induction Ds generalizing W with
    | nil => simp
    | cons E Ds ih =>
      cases W with
      | nil => simp
      | cons w W =>
        rw [List.map_cons, List.zipWith_cons_cons, List.flatten_cons, List.map_nil, List.nil_append]
        exact ih W
  unfold Avoider.evaluate evaluateSequence
  refine bind_ok.mpr ⟨_, h1, ?_⟩
  simp only
  rw [if_neg hne]
  refine bind_ok.mpr ⟨0, hrel, bind_ok.mpr ⟨conv, h2, bind_ok.mpr ⟨_, h3,
    bind_ok.mpr ⟨pr, hpr, bind_ok.mpr ⟨D, hD, ?_⟩⟩⟩⟩⟩
  unfold slowDown
  rw [hcl, hDv]
  simp

/-- Finitely many functions which are above positive bounds as long as all of them were positive before. -/
lemma keeps_above_all {ι : Type*} {T : ℝ} (l : List ι) {y B : ι → ℝ → ℝ} (hy : ∀ i ∈ l, ContinuousOn (y i) (Icc 0 T))
    (hB : ∀ i ∈ l, ContinuousOn (B i) (Icc 0 T)) (hpos : ∀ i ∈ l, ∀ t ∈ Icc 0 T, 0 < B i t) (h0 : ∀ i ∈ l, 0 < y i 0)
    (hstep : ∀ t ∈ Icc 0 T, (∀ u ∈ Icc 0 t, ∀ i ∈ l, 0 < y i u) → ∀ i ∈ l, B i t ≤ y i t) :
    ∀ t ∈ Icc 0 T, ∀ i ∈ l, B i t ≤ y i t := by
  have hcont : ∀ (f : ι → ℝ → ℝ) (l : List ι), (∀ i ∈ l, ContinuousOn (f i) (Icc 0 T)) →
      ContinuousOn (fun t => l.foldr (fun i m => min (f i t) m) 1) (Icc 0 T) := by
    intro f l
    induction l with
    | nil => intro _; exact continuousOn_const
    | cons i l ih =>
      intro h
      exact (h i List.mem_cons_self).inf (ih (fun j hj => h j (List.mem_cons_of_mem _ hj)))
  have hlt : ∀ (f : ι → ℝ) (l : List ι), 0 < l.foldr (fun i m => min (f i) m) 1 ↔ ∀ i ∈ l, 0 < f i := by
    intro f l
    induction l with
    | nil => simp
    | cons i l ih => simp [ih]
  have hle : ∀ (f g : ι → ℝ) (l : List ι), (∀ i ∈ l, f i ≤ g i) →
      l.foldr (fun i m => min (f i) m) 1 ≤ l.foldr (fun i m => min (g i) m) 1 := by
    intro f g l
    induction l with
    | nil => intro _; exact le_rfl
    | cons i l ih =>
      intro h
      exact min_le_min (h i List.mem_cons_self) (ih (fun j hj => h j (List.mem_cons_of_mem _ hj)))
  have key := keeps_above (T := T) (y := fun t => l.foldr (fun i m => min (y i t) m) 1)
    (B := fun t => l.foldr (fun i m => min (B i t) m) 1) (hcont y l hy) (hcont B l hB)
    (fun t ht => (hlt (fun i => B i t) l).mpr (fun i hi => hpos i hi t ht))
    ((hlt (fun i => y i 0) l).mpr h0)
    (by
      intro t ht hall
      refine hle (fun i => B i t) (fun i => y i t) l ?_
      exact hstep t ht (fun u hu => (hlt (fun i => y i u) l).mp (hall u hu)))
  intro t ht
  refine hstep t ht ?_
  intro u hu
  have hu' : u ∈ Icc 0 T := ⟨hu.1, hu.2.trans ht.2⟩
  refine (hlt (fun i => y i u) l).mp (lt_of_lt_of_le ?_ (key u hu'))
  exact (hlt (fun i => B i u) l).mpr (fun i hi => hpos i hi u hu')

/-- Close to one ball all others are far away. -/
lemma apart_other {gap : ℝ} {balls : List (Ball d)} (hap : Apart gap balls) {i j : ℕ} {b b' : Ball d} (hij : j ≠ i)
    (hi : balls[i]? = some b) (hj : balls[j]? = some b') (x : Vec d) : gap ≤ clearance b x + clearance b' x := by
  have key : b.radius + b'.radius + gap ≤ ‖b.center - b'.center‖ := by
    obtain ⟨il, rfl⟩ := List.getElem?_eq_some_iff.mp hi
    obtain ⟨jl, rfl⟩ := List.getElem?_eq_some_iff.mp hj
    have h := List.pairwise_iff_getElem.mp hap
    rcases lt_or_gt_of_ne hij with h' | h'
    · have := h j i jl il h'
      rw [norm_sub_rev]; linarith
    · exact h i j il jl h'
  unfold clearance
  have h1 : b.center - b'.center = (x - b'.center) - (x - b.center) := by abel
  have h2 := norm_sub_le (x - b'.center) (x - b.center)
  rw [← h1] at h2
  linarith

end Verif
