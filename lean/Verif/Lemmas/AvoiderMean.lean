import Verif.Lemmas.AvoiderStarTotal

/-! # Helper lemmas: the mean of the tangents, including tangents within the tolerance of the motion -/

open scoped RealInnerProductSpace

namespace Verif
open Spec

variable {d k : ℕ} [Fact (2 ≤ d)]
set_option linter.unusedSectionVars false

/-- The rotation from `u` to `τ` as the code computes it, as a tangent vector at `u`. -/
noncomputable def codeLog (u τ : Vec d) : Vec d :=
  match fromDirections u τ with
  | none => 0
  | some R => R.angle • R.base.b1

lemma codeLog_facts {u τ : Vec d} (hu : ‖u‖ = 1) (hτ : ‖τ‖ = 1) (hop : ¬ Opposite u τ) :
    ⟪u, codeLog u τ⟫ = 0 ∧ ‖codeLog u τ‖ = InnerProductGeometry.angle u τ
      ∧ (u = τ ∨ ¬ allclose u τ → codeLog u τ = sphereLog u τ) := by
  have hu0 : u ≠ 0 := by rintro rfl; simp at hu
  have hτ0 : τ ≠ 0 := by rintro rfl; simp at hτ
  have hR : ∃ R, fromDirections u τ = some R := by
    by_cases hc : allclose (unit u) (unit τ)
    · exact ⟨_, fromDirections_close hu0 hτ0 hc⟩
    · exact ⟨_, fromDirections_far hu0 hτ0 hc hop⟩
  obtain ⟨R, hR⟩ := hR
  have hs := fromDirections_some hR
  have hon : R.base.ON := hs.2.2.1
  have hb0 : R.base.b0 = u := by rw [hs.2.2.2.1, unit_of_norm_one hu]
  have hcl : codeLog u τ = R.angle • R.base.b1 := by unfold codeLog; rw [hR]
  refine ⟨?_, ?_, ?_⟩
  · rw [hcl, inner_smul_right, ← hb0, hon.orth, mul_zero]
  · rw [hcl, norm_smul, hon.norm_snd, mul_one, hs.2.2.2.2, Real.norm_eq_abs, abs_of_nonneg
      (InnerProductGeometry.angle_nonneg _ _)]
  · intro he
    rw [hcl, hs.2.2.2.2]
    unfold sphereLog
    rcases he with rfl | he
    · rw [InnerProductGeometry.angle_self hu0, zero_smul, zero_smul]
    · rw [fromDirections_far hu0 hτ0 (by rwa [unit_of_norm_one hu, unit_of_norm_one hτ]) hop] at hR
      rw [← Option.some.inj hR]
      simp only [unit_of_norm_one hu, unit_of_norm_one hτ]

lemma not_opposite_self {u : Vec d} (hu : ‖u‖ = 1) : ¬ Opposite u u := by
  rintro ⟨s, hs0, he⟩
  have h0 : (1 + s) • u = 0 := by
    rw [add_smul, one_smul]
    nth_rewrite 1 [he]
    rw [neg_smul, neg_add_cancel]
  rcases smul_eq_zero.mp h0 with h0 | h0
  · linarith
  · rw [h0] at hu; simp at hu

lemma codeLog_self {u : Vec d} (hu : ‖u‖ = 1) : codeLog u u = 0 := by
  have := (codeLog_facts hu hu (not_opposite_self hu)).2.1
  rw [InnerProductGeometry.angle_self (by rintro rfl; simp at hu)] at this
  exact norm_eq_zero.mp this

lemma codeLog_zero (u : Vec d) : codeLog u 0 = 0 := by
  unfold codeLog; rw [fromDirections_zero (Or.inr rfl)]

lemma sphereLog_zero (u : Vec d) : sphereLog u 0 = 0 := by
  unfold sphereLog; simp [unit]

/-- The rotation of the code to a direction or to zero. -/
lemma codeLog_unit {u τ : Vec d} (hu : ‖u‖ = 1) (hop : ¬ Opposite u (unit τ)) :
    ⟪u, codeLog u (unit τ)⟫ = 0 ∧ ‖codeLog u (unit τ)‖ ≤ InnerProductGeometry.angle u (unit τ)
      ∧ (u = unit τ ∨ ¬ allclose u (unit τ) → codeLog u (unit τ) = sphereLog u (unit τ)) := by
  by_cases h0 : τ = 0
  · have : unit τ = 0 := by rw [h0]; simp [unit]
    rw [this, codeLog_zero, sphereLog_zero]
    simp [InnerProductGeometry.angle_nonneg]
    positivity
  · obtain ⟨h1, h2, h3⟩ := codeLog_facts hu (unit_norm h0) hop
    exact ⟨h1, h2.le, h3⟩

variable {I : Type} [DecidableEq I]

lemma orientOf_codeLog {t : Tree I d} {r : I} (h : RootedTree t r) (hd : Defined t) {p c : I} (hp : IsParent t p c) :
    codeLog (dirOf t p) (dirOf t c) = (orientOf t r c).angle • (orientOf t r c).base.b1 := by
  unfold codeLog
  rw [(orientOf_isOrient h hd).child p c hp]

/-- A tree whose parents all have the same direction. -/
lemma inner_of_star {t : Tree I d} {r : I} {u : Vec d} (h : RootedTree t r)
    (hpar : ∀ m c, IsParent t m c → dirOf t m = u ∧ ¬ Opposite u (dirOf t c)) :
    Defined t ∧ ExactInner t r (orientOf t r) := by
  have hdef : Defined t := by
    intro p c hp
    have hpn := (dir_eq h (h.edge_fst _ _ hp)).2
    have hcn := (dir_eq h (h.edge_snd _ _ hp)).2
    have hp0 : dirOf t p ≠ 0 := by intro h0; rw [h0] at hpn; simp at hpn
    have hc0 : dirOf t c ≠ 0 := by intro h0; rw [h0] at hcn; simp at hcn
    by_cases hc : allclose (unit (dirOf t p)) (unit (dirOf t c))
    · exact ⟨_, fromDirections_close hp0 hc0 hc⟩
    · exact ⟨_, fromDirections_far hp0 hc0 hc (by rw [(hpar p c hp).1]; exact (hpar p c hp).2)⟩
  have hO := orientOf_isOrient h hdef
  refine ⟨hdef, fun n hn => hO.on h hn, fun p c hp => hO.b0 h hp, fun n hn hc => ?_, by rw [hO.root], fun p c hp e => hO.still h hp e⟩
  by_cases hr : n = r
  · subst hr; rw [hO.root]; simp
  · obtain ⟨c, hc⟩ := hc.resolve_left hr
    obtain ⟨p, hp⟩ := h.has_parent n hn hr
    have hpn : dirOf t p = dirOf t n := by rw [(hpar p n hp).1, (hpar n c hc).1]
    have hnn := (dir_eq h hn).2
    have ha : (orientOf t r n).angle = 0 := by
      rw [hO.angle hp, hpn, InnerProductGeometry.angle_self]
      rintro h0; rw [h0] at hnn; simp at hnn
    rw [ha, planeRot_zero, hO.b0 h hp, hpn]

/-- The direction of the avoidance for obstacles with one component each. -/
lemma single_mean (ext : Ext d k) (a : Avoider d) (x v : Vec d) (pr : Prepared d)
    (hpow : 0 ≤ a.power) (has : ArgsortSpec ext.argsort)
    (hrad : a.convergenceRadius ≤ Real.pi * 0.5) (hs : SingleOutside x a.trees)
    (hgood : ∀ t ∈ a.trees, ∀ o, t.components = [o] → ∀ τ, TangentOf ext a.convergenceRadius o x v τ →
      ¬ Opposite (unit v) τ)
    (h : prepareAvoidance ext a x v = .ok pr) :
    ∃ (ws : List ℝ) (τs : List (Vec d)), ws.length = a.trees.length ∧ τs.length = a.trees.length
      ∧ (∀ (i : ℕ) (t : ObstacleTree d) (o : Obstacle d) (w : ℝ) (τ : Vec d),
          a.trees[i]? = some t → t.components = [o] → ws[i]? = some w → τs[i]? = some τ →
          0 ≤ w ∧ getRotationWeight ext.angleOf (o.normal x) (o.reference x) v (o.gamma x)
            (power := a.power) = .ok w
          ∧ (0 < w → TangentOf ext a.convergenceRadius o x v τ) ∧ (w ≤ 0 → τ = unit v))
      ∧ avoidanceDirection ext pr = .ok (sphereExp (unit v)
          (List.zipWith (fun w τ => w • codeLog (unit v) τ) (getLimitedWeightsToMaxSum ws).1 τs).sum) := by
  classical
  obtain ⟨Ds, a1, a2, a3, a4, hv, a5, a6, a7, a8⟩ := single_prepare hpow hs hrad h
  have hlen : a.trees.length = Ds.length := by rw [← a1.length_eq, List.length_zipIdx]
  refine ⟨Ds.map Prod.fst, Ds.map Prod.snd, by simp [hlen], by simp [hlen], ?_, ?_⟩
  · intro i t o w τ ht ho hw hτ
    rw [List.getElem?_map, Option.map_eq_some_iff] at hw hτ
    obtain ⟨D, hD, rfl⟩ := hw
    obtain ⟨D', hD', rfl⟩ := hτ
    rw [hD] at hD'
    cases hD'
    obtain ⟨hi, hDi⟩ := List.getElem?_eq_some_iff.mp hD
    have hi' : i < a.trees.zipIdx.length := by rw [a1.length_eq]; exact hi
    have hR := (List.forall₂_iff_get.mp a1).2 i hi' hi
    simp only [List.get_eq_getElem] at hR
    rw [hDi] at hR
    obtain ⟨o', ho', b1, b2, b3⟩ := hR
    have hti : (a.trees.zipIdx[i]).1 = t := by
      obtain ⟨hi2, hti⟩ := List.getElem?_eq_some_iff.mp ht
      simp [hti]
    rw [hti, ho] at ho'
    cases ho'
    exact ⟨a2 _ (hDi ▸ List.getElem_mem hi), b1, b2, b3⟩
  · have hpar : ∀ m c, IsParent pr.tree m c → dirOf pr.tree m = unit v ∧ ¬ Opposite (unit v) (dirOf pr.tree c) := by
      intro m c hmc
      obtain ⟨e1, e2⟩ := a8 m c hmc
      refine ⟨e1, ?_⟩
      rcases e2 with e2 | ⟨t, o, ht, ho, hT⟩
      · rw [e2]
        rintro ⟨s, hs0, he⟩
        have h0 : (1 + s) • unit v = 0 := by
          rw [add_smul, one_smul]
          nth_rewrite 1 [he]
          rw [neg_smul, neg_add_cancel]
        rcases smul_eq_zero.mp h0 with h0 | h0
        · linarith
        · exact unit_ne_zero hv h0
      · exact hgood t ht o ho _ hT
    obtain ⟨hdef, hin⟩ := inner_of_star a3 hpar
    set lim := (getLimitedWeightsToMaxSum (Ds.map Prod.fst)).1 with hlim
    have hnn : Nonneg (Ds.map Prod.fst) := by
      intro w hw
      rw [List.mem_map] at hw
      obtain ⟨D, hD, rfl⟩ := hw
      exact a2 D hD
    have hunit := C28_in_unit (Ds.map Prod.fst) hnn
    have hliml : lim.length = Ds.length := by
      have := hunit.1
      unfold SameLength at this
      rw [hlim, this]; simp
    set L := a.trees.zipIdx.zip Ds with hL
    have hLl : L.length = lim.length := by
      rw [hL, List.length_zip, List.length_zipIdx, hlen, hliml, min_self]
    have hLs : L.map Prod.snd = Ds := List.map_snd_zip (by rw [List.length_zipIdx]; omega)
    obtain ⟨s1, s2, s3⟩ := star_sum (fun n => (orientOf pr.tree baseId n).angle • (orientOf pr.tree baseId n).base.b1)
      (codeLog (unit v)) (unit v) (codeLog_self (unit_norm hv)) L lim hLl
      (fun e he hw => by
        rw [← orientOf_codeLog a3 hdef (a7 e he hw).1, (hpar _ _ (a7 e he hw).1).1, (a7 e he hw).2.2.2])
      (fun e he hw => by
        obtain ⟨i, hi, hie⟩ := List.getElem_of_mem he
        have hi1 : i < a.trees.zipIdx.length := by rw [hL, List.length_zip] at hi; omega
        have hi2 : i < Ds.length := by rw [hL, List.length_zip] at hi; omega
        have hR := (List.forall₂_iff_get.mp a1).2 i hi1 hi2
        simp only [List.get_eq_getElem] at hR
        simp only [hL, List.getElem_zip] at hie
        rw [← hie] at hw ⊢
        obtain ⟨_, _, _, _, b3⟩ := hR
        exact b3 hw)
    have hcl : pr.cluster = (List.zipWith (fun wo wc => wc.map (fun w => wo * w)) lim
        (L.map (fun e => if 0 < e.2.1 then [(1 : ℝ)] else []))).flatten := by
      rw [a6]
      unfold clusterWeights
      congr 2
      rw [← hLs]
      rw [List.map_map]
      rfl
    rw [← hcl] at s1 s2 s3
    have hleaf : ∀ n ∈ leafIds L, ∃ e ∈ L, 0 < e.2.1 ∧ n = .key e.1.2 0 0 := by
      intro n hn
      unfold leafIds at hn
      rw [List.mem_map] at hn
      obtain ⟨e, he, rfl⟩ := hn
      rw [List.mem_filter] at he
      exact ⟨e, he.1, by simpa using he.2, rfl⟩
    have hnd : (leafIds L).Nodup := by
      unfold leafIds
      have hsub : ((L.filter (fun e => 0 < e.2.1)).map (fun e => NodeId.key e.1.2 0 0)).Sublist
          (L.map (fun e => NodeId.key e.1.2 0 0)) := (List.filter_sublist).map _
      refine List.Nodup.sublist hsub ?_
      have hLf : L.map (fun e => e.1.2) = List.range a.trees.length := by
        have : L.map (fun e => e.1.2) = (L.map Prod.fst).map Prod.snd := by rw [List.map_map]; rfl
        rw [this, hL, List.map_fst_zip (by rw [List.length_zipIdx]; omega)]
        rw [List.zipIdx_map_snd, List.range_eq_range']
      have : L.map (fun e => NodeId.key e.1.2 0 0)
          = (List.range a.trees.length).map (fun j : ℕ => NodeId.key j 0 0) := by
        rw [← hLf, List.map_map]; rfl
      rw [this]
      refine List.Nodup.map ?_ List.nodup_range
      intro i j hij
      simpa using hij
    unfold avoidanceDirection avoidanceWeights
    rw [a5]
    have key := two_level_mean_inner a3 hdef hin has NodeState.init (leafIds L) pr.cluster midOf s1 hnd
      (by intro n hn; obtain ⟨e, he, hw, rfl⟩ := hleaf n hn; exact (a7 e he hw).1)
      (by intro n hn; obtain ⟨e, he, hw, rfl⟩ := hleaf n hn; exact (a7 e he hw).2.1)
      (by
        intro n hn; obtain ⟨e, he, hw, rfl⟩ := hleaf n hn
        rw [a4]; exact (a7 e he hw).2.2.1)
      (by
        intro n hn m hm hnm
        obtain ⟨e, he, hw, rfl⟩ := hleaf n hn
        obtain ⟨e', he', hw', rfl⟩ := hleaf m hm
        simp only [midOf, NodeId.key.injEq, and_true] at hnm
        simp [hnm])
      (fun w hw => hunit.2.1 w (s3 w hw))
    rw [key, a4, s2]
    congr 2
    rw [← hLs, List.map_map, List.zipWith_map_right]
    rfl

end Verif
