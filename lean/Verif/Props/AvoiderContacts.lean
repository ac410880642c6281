import Verif.Lemmas.AvoiderBranches
import Verif.Lemmas.AvoiderStar
import Verif.Props.AvoiderTwoContacts
import Verif.Spec.Contacts

/-! # C41 with several obstacles in contact -/

open scoped RealInnerProductSpace

namespace Verif
open Spec

variable {d k : ℕ} [Fact (2 ≤ d)]
set_option linter.unusedSectionVars false

open Classical in
lemma contacts_saturated {ext : Ext d k} {a : Avoider d} {x v : Vec d} (hp : 0 ≤ a.power) (hs : SaneTrees a.trees) :
    ∀ (l : List (ObstacleTree d × ℕ)) (Ds : List (TreeData d)), List.Forall₂ (DataOf ext a x v) l Ds →
      (∀ p ∈ l, p.1 ∈ a.trees) →
      ((Ds.map (fun D => D.weights.sum)).filter (fun w => w ≥ 1)).length
        ≤ ((l.map Prod.fst).filter (fun t => InContact x t)).length := by
  intro l Ds hD
  induction hD with
  | nil => intro _; simp
  | @cons p D l Ds h _ ih =>
    intro hl
    have ih := ih (fun q hq => hl q (List.mem_cons_of_mem _ hq))
    obtain ⟨g, hg, _, _, _, h4⟩ := data_weights hp
      (fun o ho => (hs _ (hl p List.mem_cons_self) o ho).gamma_nonneg) h
    rw [List.map_cons, List.map_cons]
    by_cases h1 : D.weights.sum ≥ 1
    · have hc : InContact x p.1 := by
        have hg1 : g ≤ 1 := by
          by_contra hc
          push Not at hc
          have := h4 hc
          linarith
        obtain ⟨⟨o, ho, hog⟩, _⟩ := gamma_ok hg
        exact ⟨o, ho, by rw [hog]; exact hg1⟩
      rw [List.filter_cons_of_pos (by simpa using h1), List.filter_cons_of_pos (by simpa using hc)]
      simpa using ih
    · rw [List.filter_cons_of_neg (by simpa using h1)]
      refine ih.trans ?_
      rw [List.filter_cons]
      split_ifs <;> simp

/-- The total weight is at most the number of contacts. -/
lemma cluster_le_contacts {ext : Ext d k} {a : Avoider d} {x v : Vec d} {pr : Prepared d} {n : ℕ} (hn : 1 ≤ n)
    (hp : 0 ≤ a.power) (hs : SaneTrees a.trees) (hc : AtMostContacts n x a.trees)
    (h : prepareAvoidance ext a x v = .ok pr) : pr.cluster.sum ≤ n := by
  classical
  obtain ⟨Ds, hD, hnn, _, _, _, c1, _⟩ := prepared_facts hp hs h
  have hos : Nonneg (Ds.map (fun D => D.weights.sum)) := by
    intro w hw
    obtain ⟨D, hD, rfl⟩ := List.mem_map.mp hw
    exact sum_nonneg' (hnn D hD)
  have hle := contacts_saturated hp hs _ _ hD (fun p hp => zipIdx_mem hp)
  rw [List.zipIdx_map_fst] at hle
  have hn' : (1 : ℝ) ≤ n := by exact_mod_cast hn
  rw [c1]
  by_cases h1 : 1 ≤ ((Ds.map (fun D => D.weights.sum)).filter (fun w => w ≥ 1)).length
  · rw [(C28_sum_saturated _ hos (by convert h1)).1]
    have : ((Ds.map (fun D => D.weights.sum)).filter (fun w => w ≥ 1)).length ≤ n := hle.trans hc
    have h2 : (((Ds.map (fun D => D.weights.sum)).filter (fun w => w ≥ 1)).length : ℝ) ≤ n := by exact_mod_cast this
    convert h2
  · rw [C28_sum_partial _ hos (by
      have : ((Ds.map (fun D => D.weights.sum)).filter (fun w => w ≥ 1)).length ≤ 1 := by omega
      convert this)]
    exact ((C28_in_unit _ hos).2.2).trans hn'

/-- An obstacle of one component in contact has a direction of full weight. -/
lemma single_full {ext : Ext d k} {a : Avoider d} {x v : Vec d} {pr : Prepared d}
    (hp : 0 ≤ a.power) (hs : SaneTrees a.trees) (hc : SingleInContact x a.trees)
    (h : prepareAvoidance ext a x v = .ok pr) : (1 : ℝ) ∈ pr.cluster := by
  classical
  obtain ⟨t, ht, o, h0, hco, hg⟩ := hc
  obtain ⟨i, hi, rfl⟩ := List.getElem_of_mem ht
  obtain ⟨Ds, hD, hnn, _, _, hcl, _, _⟩ := prepared_facts hp hs h
  have hlen : Ds.length = a.trees.length := by rw [← hD.length_eq]; simp
  have hi' : i < Ds.length := by omega
  have hR := (List.forall₂_iff_get.mp hD).2 i (by simpa using hi) hi'
  simp only [List.get_eq_getElem, List.getElem_zipIdx] at hR
  have hw : Ds[i].weights = [1] := (contact_data hp h0 hco hg hR).1
  have hos : Nonneg (Ds.map (fun D => D.weights.sum)) := by
    intro w hw
    obtain ⟨D, hD, rfl⟩ := List.mem_map.mp hw
    exact sum_nonneg' (hnn D hD)
  have hmem : (1 : ℝ) ∈ Ds.map (fun D => D.weights.sum) :=
    List.mem_map.mpr ⟨Ds[i], List.getElem_mem hi', by rw [hw]; simp⟩
  have hlim : (getLimitedWeightsToMaxSum (Ds.map (fun D => D.weights.sum))).1
      = indicator (· ≥ 1) (Ds.map (fun D => D.weights.sum)) := by
    unfold getLimitedWeightsToMaxSum
    rw [if_neg (not_lt.mpr (le_sum_of_mem hos hmem)), if_pos ⟨1, hmem, le_rfl⟩]
  rw [hcl]
  unfold clusterWeights
  simp only [stateOf]
  rw [hlim, List.mem_flatten]
  refine ⟨[1], ?_, by simp⟩
  rw [List.mem_iff_getElem]
  refine ⟨i, by simp [indicator, hi'], ?_⟩
  simp [indicator, hw, normalised]

lemma pow_abs_le {b e s : ℝ} (hb : |b| ≤ 1) (he : 0 ≤ e) (h : npPow b e = some s) : |s| ≤ 1 := by
  unfold npPow at h
  split_ifs at h
  cases h
  exact (Real.abs_rpow_le_abs_rpow b e).trans (Real.rpow_le_one (abs_nonneg b) hb he)

/-- C41 (partial): the speed of static obstacles is at most the magnitude of the initial dynamics also with two
obstacles in contact, and with any number if one of those in contact consists of a single component.

Missing for the full property: no influence at all, for which the statement is false (`C41_unit_speed`,
`C41_exceeds`); three or more contacts with obstacles of several components only; and opposite neighbouring
directions in the tangent tree, or inner directions different by less than the tolerance of `np.allclose`. -/
theorem C41_contacts_partial (ext : Ext d k) (a : Avoider d) (x w : Vec d) (hp : 0 ≤ a.power)
    (hs : SaneTrees a.trees) (hc : AtMostContacts 2 x a.trees ∨ SingleInContact x a.trees)
    (hstatic : ∀ t ∈ a.trees, Static t) (has : ArgsortSpec ext.argsort) (hne : a.trees ≠ [])
    (hmag : 0 ≤ a.magnitude x)
    (hinf : ∀ pr, PreparedFor ext a x pr → pr.cluster ≠ [])
    (hgood : ∀ pr, PreparedFor ext a x pr → InnerDirections pr.tree)
    (h : a.evaluate ext x = .ok w) : ‖w‖ ≤ a.magnitude x := by
  classical
  rcases evaluate_run hne h with ⟨rfl, _⟩ | ⟨pr, rel, final, hpr, hrel, hf, hsl⟩
  · rw [norm_zero]; exact hmag
  have hg := hgood pr hpr
  have hcne := hinf pr hpr
  obtain ⟨s, conv, u, _, _, _, hprep⟩ := hpr
  have hu := direction_unit_any hp hs has hprep hg hf
  have hr0 := relative_static hstatic hrel
  obtain ⟨Ds, hD, _, hnorm, hslow, _, _, hin, _, _, hpos, _⟩ := prepared_facts hp hs hprep
  unfold slowDown at hsl
  split at hsl
  · rename_i hm
    rw [List.max?_eq_none_iff] at hm
    exact absurd hm hcne
  · rename_i m hm
    obtain ⟨prox, h1, hsl⟩ := bind_ok.mp hsl
    obtain ⟨cf, h2, hsl⟩ := bind_ok.mp hsl
    rw [if_neg (by rw [hu]; norm_num)] at hsl
    cases hsl
    have hprox : |prox| ≤ 1 := by
      set av := (List.zipWith (fun (n : Vec d) w => w • n) pr.normals pr.cluster).sum with hav
      have hav1 : ‖av‖ ≤ pr.cluster.sum :=
        averaged_le (by rw [hnorm]; exact normals_le hs hD) (fun w hw => (hin w hw).1)
      unfold computeSafeScaling at h1
      rw [if_neg (by rw [hu]; norm_num)] at h1
      simp only at h1
      split_ifs at h1 with h3 h4 h5
      · cases h1; norm_num
      · cases h1; norm_num
      · cases h1; norm_num
      · rcases hc with hc | hc
        · push Not at h3 h4
          have hle := cluster_le_contacts (n := 2) (by norm_num) hp hs hc hprep
          have habs := abs_real_inner_le_norm final av
          rw [hu, one_mul] at habs
          have hlo := (abs_le.mp habs).1
          push_cast at hle
          split at h1
          · cases h1
          · rename_i s0 hs0
            cases h1
            refine pow_abs_le ?_ (Real.rpow_nonneg (mul_nonneg (one_div_nonneg.mpr (by linarith)) (norm_nonneg _)) _) hs0
            rw [abs_le]
            constructor <;> nlinarith [h3.1]
        · exfalso
          have h1m : (1 : ℝ) ∈ pr.cluster := single_full hp hs hc hprep
          have : 1 ≤ m := by
            have := List.max?_eq_some_iff.mp hm
            exact this.2 1 h1m
          apply h4
          rw [div_le_one (by linarith)]
          exact this
    have hsne : pr.slow ≠ [] := by
      rw [hslow]
      intro h0
      have := hD.length_eq
      rw [List.map_eq_nil_iff.mp h0, List.length_zipIdx] at this
      exact hne (List.length_eq_zero_iff.mp this)
    obtain ⟨c', hc', c0, c1, _⟩ := C36_slowfactor pr.slow 0.2 hsne (by norm_num)
      (by rw [hslow]; exact slow_le hp hs hD)
    rw [h2] at hc'
    injection hc' with hc'
    subst hc'
    have hmin : |min cf prox| ≤ 1 := by
      rw [abs_le] at hprox ⊢
      exact ⟨le_min (by linarith) hprox.1, min_le_of_left_le c1⟩
    rw [hr0, add_zero, norm_smul, hu, div_one, mul_one, norm_mul, Real.norm_of_nonneg hmag, Real.norm_eq_abs]
    calc a.magnitude x * |min cf prox| ≤ a.magnitude x * 1 := mul_le_mul_of_nonneg_left hmin hmag
      _ = a.magnitude x := mul_one _

/-- With single components the inner nodes of the tangent tree have the direction of the motion. -/
lemma single_inner {ext : Ext d k} {a : Avoider d} {x v : Vec d} (hpow : 0 ≤ a.power)
    (hrad : a.convergenceRadius ≤ Real.pi * 0.5) (hs : SingleOutside x a.trees)
    (hopp : ∀ t ∈ a.trees, ∀ o, t.components = [o] → ∀ τ, TangentOf ext a.convergenceRadius o x v τ →
      ¬ Opposite (unit v) τ) {pr : Prepared d}
    (h : prepareAvoidance ext a x v = .ok pr) : InnerDirections pr.tree := by
  obtain ⟨Ds, -, -, -, -, hv0, -, -, -, e⟩ := single_prepare hpow hs hrad h
  have hu0 : unit v ≠ 0 := by
    intro h0
    have := unit_norm hv0
    rw [h0, norm_zero] at this
    norm_num at this
  intro m c hm
  obtain ⟨e1, e2⟩ := e m c hm
  rw [e1]
  constructor
  · rcases e2 with e2 | ⟨t, o, ht, ho, hτ⟩
    · rw [e2]
      rintro ⟨c, hc, e⟩
      have : (1 + c) • unit v = 0 := by rw [add_smul, one_smul]; nth_rewrite 1 [e]; module
      rcases smul_eq_zero.mp this with h | h
      · linarith
      · exact hu0 h
    · exact hopp t ht o ho _ hτ
  · by_cases hc : ∃ f, IsParent pr.tree c f
    · obtain ⟨f, hf⟩ := hc
      exact Or.inl (e c f hf).1.symm
    · exact Or.inr (Or.inr (fun f hf => hc ⟨f, hf⟩))

/-- C41 (partial): obstacles of one component each, any number of them in contact: if one has an influence, the speed
is at most the magnitude of the initial dynamics, as long as no tangent is opposite to the direction of convergence.

Missing for the full property: as for `C41_contacts_partial`; obstacles with several components and positions inside of
an obstacle. -/
theorem C41_singles_partial (ext : Ext d k) (a : Avoider d) (x w : Vec d) (hp : 0 ≤ a.power)
    (hs : SaneTrees a.trees) (hrad : a.convergenceRadius ≤ Real.pi * 0.5) (hone : SingleOutside x a.trees)
    (hstatic : ∀ t ∈ a.trees, Static t) (has : ArgsortSpec ext.argsort) (hne : a.trees ≠ [])
    (hmag : 0 ≤ a.magnitude x) (hinf : ∀ pr, PreparedFor ext a x pr → pr.cluster ≠ [])
    (hopp : ∀ v, ∀ t ∈ a.trees, ∀ o, t.components = [o] → ∀ τ, TangentOf ext a.convergenceRadius o x v τ →
      ¬ Opposite (unit v) τ)
    (h : a.evaluate ext x = .ok w) : ‖w‖ ≤ a.magnitude x := by
  classical
  refine C41_contacts_partial ext a x w hp hs ?_ hstatic has hne hmag hinf ?_ h
  · by_cases hc : ∃ t ∈ a.trees, InContact x t
    · obtain ⟨t, ht, o, ho, hg⟩ := hc
      obtain ⟨h0, o', ho', _⟩ := hone t ht
      rw [ho'] at ho
      exact Or.inr ⟨t, ht, o', h0, ho', by rw [← List.mem_singleton.mp ho]; exact hg⟩
    · push Not at hc
      left
      unfold AtMostContacts
      rw [List.length_eq_zero_iff.mpr]
      · norm_num
      · rw [List.filter_eq_nil_iff]
        intro t ht
        simpa using hc t ht
  · rintro pr ⟨s, conv, v, _, _, _, e⟩
    exact single_inner hp hrad hone (hopp v) e

/-- `C41_contacts_partial` is not vacuous: two discs in contact, moving into the corner between them. -/
example : ∃ (ext : Ext 2 1) (a : Avoider 2) (x w : Vec 2), 0 ≤ a.power ∧ SaneTrees a.trees
    ∧ (AtMostContacts 2 x a.trees ∨ SingleInContact x a.trees) ∧ ¬ AtMostOneContact x a.trees
    ∧ (∀ t ∈ a.trees, Static t) ∧ ArgsortSpec ext.argsort ∧ a.trees ≠ [] ∧ a.magnitude x = 1
    ∧ (∀ pr, PreparedFor ext a x pr → pr.cluster ≠ [])
    ∧ (∀ pr, PreparedFor ext a x pr → InnerDirections pr.tree)
    ∧ a.evaluate ext x = .ok w ∧ ‖w‖ ≤ 1 := by
  obtain ⟨argsort, has⟩ := argsort_exists
  obtain ⟨w, hsane, hstatic, hmag, h1, _, h2⟩ := corner_evaluate argsort has
  have hp : (0 : ℝ) ≤ cornerAvoider.power := by norm_num [cornerAvoider, discsAvoider]
  have f1 := (touch_facts low_norm true).1
  have f2 := (touch_facts e_norm true).1
  have hc : SingleInContact 0 cornerAvoider.trees :=
    ⟨discTreeAt (-!₂[0, 1]) true, by simp [cornerAvoider, discsAvoider], _, rfl, rfl, f1.le⟩
  have hinf : ∀ pr, PreparedFor (planeExt argsort) cornerAvoider 0 pr → pr.cluster ≠ [] := by
    intro pr hpr
    rw [(corner_run has (h2 pr hpr)).2.1]
    simp
  have hin : ∀ pr, PreparedFor (planeExt argsort) cornerAvoider 0 pr → InnerDirections pr.tree :=
    fun pr hpr => single_inner hp (le_refl _) corner_single
      (fun t ht o ho τ hτ => ((corner_tangents argsort).2 t ht o ho τ hτ).1) (h2 pr hpr)
  refine ⟨planeExt argsort, cornerAvoider, 0, w, hp, hsane, Or.inr hc, ?_, hstatic, has, by
    simp [cornerAvoider, discsAvoider], hmag, hinf, hin, h1, ?_⟩
  · intro h
    have h' : List.Pairwise _ [discTreeAt (-!₂[0, 1]) true, discTreeAt (-!₂[1, 0]) true] := h
    rw [List.pairwise_pair] at h'
    exact h' ⟨⟨_, List.mem_singleton.mpr rfl, f1.le⟩, ⟨_, List.mem_singleton.mpr rfl, f2.le⟩⟩
  · rw [← hmag]
    exact C41_contacts_partial _ _ _ _ hp hsane (Or.inr hc) hstatic has (by simp [cornerAvoider, discsAvoider])
      (by rw [hmag]; norm_num) hinf hin h1

end Verif
