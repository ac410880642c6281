import Verif.Spec.Order
import Verif.Lemmas.TreePartial

/-! # Helper lemmas: partial rotations of a direction tree are chained -/

open Verif.Spec
open scoped RealInnerProductSpace

set_option linter.unusedSectionVars false

namespace Verif

open Spec.RootedTree (lev)

section Equivariance
variable {V : Type*} [NormedAddCommGroup V] [InnerProductSpace ℝ V]

lemma planeRot_equivariant {A : Base V} (hA : A.ON) (φ : ℝ) (B : Base V) (θ : ℝ) (v : V) :
    planeRot (B.map (planeRot A φ)) θ (planeRot A φ v) = planeRot A φ (planeRot B θ v) := by
  rw [planeRot.eq_1 (B.map (planeRot A φ)), planeRot.eq_1 B θ v]
  simp only [Base.map, planeRot_inner hA, planeRot_add_vec, planeRot_smul]

end Equivariance

variable {I : Type} [DecidableEq I] {d : ℕ} {t : Tree I d} {r : I}

/-- The orientations rotate the direction of the parent into the direction of the child. -/
structure Exact (t : Tree I d) (r : I) (O : I → Rot (Vec d)) : Prop where
  on : ∀ n ∈ t.nodes, (O n).base.ON
  first : ∀ p c, IsParent t p c → (O c).base.b0 = dirOf t p
  maps : ∀ n ∈ t.nodes, planeRot (O n).base (O n).angle (O n).base.b0 = dirOf t n
  root_angle : (O r).angle = 0
  still : ∀ p c, IsParent t p c → dirOf t p = dirOf t c → (O c).angle = 0

/-- The orientations rotate the direction of the parent into the direction of the child, for the
children which have children of their own. -/
structure ExactInner (t : Tree I d) (r : I) (O : I → Rot (Vec d)) : Prop where
  on : ∀ n ∈ t.nodes, (O n).base.ON
  first : ∀ p c, IsParent t p c → (O c).base.b0 = dirOf t p
  maps : ∀ n ∈ t.nodes, n = r ∨ (∃ c, IsParent t n c) →
    planeRot (O n).base (O n).angle (O n).base.b0 = dirOf t n
  root_angle : (O r).angle = 0
  still : ∀ p c, IsParent t p c → dirOf t p = dirOf t c → (O c).angle = 0

lemma Exact.inner {O : I → Rot (Vec d)} (hE : Exact t r O) : ExactInner t r O :=
  ⟨hE.on, hE.first, fun n hn _ => hE.maps n hn, hE.root_angle, hE.still⟩

lemma ExactInner.root_first (h : RootedTree t r) {O : I → Rot (Vec d)} (hE : ExactInner t r O) :
    (O r).base.b0 = dirOf t r := by
  have := hE.maps r h.root_mem (Or.inl rfl)
  rw [hE.root_angle, planeRot_zero] at this; exact this

lemma exact_of_good [h2 : Fact (2 ≤ d)] (h : RootedTree t r) {O : I → Rot (Vec d)}
    (hO : IsOrient t r O) (hg : GoodDirections t) : Exact t r O := by
  refine ⟨fun n hn => hO.on h hn, fun p c hp => hO.b0 h hp, fun n hn => ?_, by rw [hO.root], fun p c hp e => hO.still h hp e⟩
  by_cases hr : n = r
  · subst hr; rw [hO.root]; simp
  · obtain ⟨p, hp⟩ := h.has_parent n hn hr
    have hpn := (dir_eq h (h.edge_fst _ _ hp)).2
    have hnn := (dir_eq h hn).2
    have hs := fromDirections_some (hO.child p n hp)
    rw [planeRot_b0 (hO.on h hn)]
    rcases (hg p n hp).2 with e | e
    · have ha : (O n).angle = 0 := by
        rw [hs.2.2.2.2, e, InnerProductGeometry.angle_self]
        rintro h0; rw [h0] at hnn; simp at hnn
      rw [ha, hs.2.2.2.1, unit_of_norm_one hpn, e]; simp
    · have := fromDirections_far_maps (hO.child p n hp)
        (by rw [unit_of_norm_one hpn, unit_of_norm_one hnn]; exact e)
      rw [this, unit_of_norm_one hnn]

lemma defined_of_good [h2 : Fact (2 ≤ d)] (h : RootedTree t r) (hg : GoodDirections t) :
    Defined t := by
  intro p c hp
  have hpn := (dir_eq h (h.edge_fst _ _ hp)).2
  have hcn := (dir_eq h (h.edge_snd _ _ hp)).2
  have hp0 : dirOf t p ≠ 0 := by intro h0; rw [h0] at hpn; simp at hpn
  have hc0 : dirOf t c ≠ 0 := by intro h0; rw [h0] at hcn; simp at hcn
  by_cases hc : allclose (unit (dirOf t p)) (unit (dirOf t c))
  · exact ⟨_, fromDirections_close hp0 hc0 hc⟩
  · exact ⟨_, fromDirections_far hp0 hc0 hc (hg p c hp).1⟩

lemma _root_.Verif.Spec.GoodDirections.inner (h : GoodDirections t) : InnerDirections t :=
  fun p c hp => ⟨(h p c hp).1, (h p c hp).2.imp_right Or.inl⟩

lemma defined_of_notOpposite [h2 : Fact (2 ≤ d)] (h : RootedTree t r)
    (hg : ∀ p c, IsParent t p c → ¬ Opposite (dirOf t p) (dirOf t c)) : Defined t := by
  intro p c hp
  have hpn := (dir_eq h (h.edge_fst _ _ hp)).2
  have hcn := (dir_eq h (h.edge_snd _ _ hp)).2
  have hp0 : dirOf t p ≠ 0 := by intro h0; rw [h0] at hpn; simp at hpn
  have hc0 : dirOf t c ≠ 0 := by intro h0; rw [h0] at hcn; simp at hcn
  by_cases hc : allclose (unit (dirOf t p)) (unit (dirOf t c))
  · exact ⟨_, fromDirections_close hp0 hc0 hc⟩
  · exact ⟨_, fromDirections_far hp0 hc0 hc (hg p c hp)⟩

lemma inner_defined [h2 : Fact (2 ≤ d)] (h : RootedTree t r) (hg : InnerDirections t) : Defined t :=
  defined_of_notOpposite h (fun p c hp => (hg p c hp).1)

/-- Admissible branch weights: non-negative, not increasing towards the leaves, and at most
one except possibly at the root and at nodes with the direction of their parent. -/
structure GoodWeights (t : Tree I d) (r : I) (W : I → ℝ) : Prop where
  nonneg : ∀ n, 0 ≤ W n
  mono : ∀ p c, IsParent t p c → W c ≤ W p
  le_one : ∀ n ∈ t.nodes, n ≠ r → W n ≤ 1 ∨ ∃ p, IsParent t p n ∧ dirOf t p = dirOf t n

section Chain
variable {W : I → ℝ} {O : I → Rot (Vec d)}

/-- What holds for the partial rotations of the processed nodes `S`. -/
structure ChainInv (t : Tree I d) (r : I) (W : I → ℝ) (O : I → Rot (Vec d)) (S : List I)
    (q : I → Rot (Vec d)) : Prop where
  closed : ∀ n ∈ S, ∀ m, Descendant t n m → m ∈ S
  on : ∀ m ∈ S, (q m).base.ON
  ang : ∀ m ∈ S, (q m).angle = (O m).angle * W m
  root : r ∈ S → (q r).base = (O r).base
  fresh : ∀ p c, IsParent t p c → c ∈ S → p ∉ S → (q c).base = (O c).base
  link : ∀ p c, IsParent t p c → c ∈ S → p ∈ S → 0 < W c →
    (q c).base.b0 = planeRot (q p).base (q p).angle (q p).base.b0

lemma ChainInv.step (h : RootedTree t r) (hE : ExactInner t r O) (hW : GoodWeights t r W)
    {S : List I} {q : I → Rot (Vec d)} (hi : ChainInv t r W O S q) {n : I} (hnn : n ∈ t.nodes)
    (hn : n ∉ S) (hdesc : ∀ m, Descendant t n m → m ∈ S) :
    ChainInv t r W O (n :: S) (pStep t W O q n) := by
  have hmemS : ∀ m, m ≠ n → m ∈ n :: S → m ∈ S := by
    intro m hne hm
    rcases List.mem_cons.mp hm with e | e
    · exact absurd e hne
    · exact e
  refine ⟨?_, ?_, ?_, ?_, ?_, ?_⟩
  · intro m hm x hx
    rcases List.mem_cons.mp hm with e | e
    · rw [e] at hx; exact List.mem_cons_of_mem _ (hdesc x hx)
    · exact List.mem_cons_of_mem _ (hi.closed m e x hx)
  · intro m hm
    unfold pStep
    split_ifs with h1 h3
    · exact hE.on n hnn
    · exact (hE.on n hnn).planeRot (hi.on m (hdesc m h3.2.2)) _
    · exact hi.on m (hmemS m h1 hm)
  · intro m hm
    unfold pStep
    split_ifs with h1 h3
    · rw [h1]
    · exact hi.ang m (hdesc m h3.2.2)
    · exact hi.ang m (hmemS m h1 hm)
  · intro hm
    unfold pStep
    split_ifs with h1 h3
    · rw [h1]
    · exfalso
      obtain ⟨p, hp⟩ : ∃ p, IsParent t p r := by
        cases h3.2.2 with
        | single e => exact ⟨_, e⟩
        | tail _ e => exact ⟨_, e⟩
      exact h.root_no_parent p hp
    · exact hi.root (hmemS r h1 hm)
  · intro p c hp hc hpS
    have hpn : p ≠ n := by rintro rfl; exact hpS List.mem_cons_self
    have hpS' : p ∉ S := fun e => hpS (List.mem_cons_of_mem _ e)
    unfold pStep
    split_ifs with h1 h3
    · rw [h1]
    · exfalso
      rcases h.desc_parent h3.2.2 hp with e | e
      · exact hpn e
      · exact hpS' (hdesc p e)
    · exact hi.fresh p c hp (hmemS c h1 hc) hpS'
  · intro p c hp hc hpS hWc
    have hcn : c ≠ n := by
      rintro rfl
      rcases List.mem_cons.mp hpS with e | e
      · exact h.desc_irrefl c (.single (by rw [e] at hp; exact hp))
      · exact hn (hi.closed p e c (.single hp))
    have hcS : c ∈ S := hmemS c hcn hc
    by_cases hpn : p = n
    · subst hpn
      have hfresh := hi.fresh p c hp hcS hn
      have hfirst : (q c).base.b0 = dirOf t p := by rw [hfresh]; exact hE.first p c hp
      have hWp : 0 < W p := lt_of_lt_of_le hWc (hW.mono p c hp)
      have hpm := hE.maps p hnn (Or.inr ⟨c, hp⟩)
      have hpp : pStep t W O q p p = ⟨(O p).base, (O p).angle * W p⟩ := by simp [pStep]
      rw [hpp]
      by_cases hlt : W p < 1
      · have : pStep t W O q p c = ⟨(q c).base.map
            (planeRot (O p).base ((O p).angle * W p - (O p).angle)), (q c).angle⟩ := by
          unfold pStep
          rw [if_neg hcn, if_pos ⟨hWp, hlt, .single hp⟩]
        rw [this]
        simp only [Base.map]
        rw [hfirst, ← hpm, planeRot_planeRot (hE.on p hnn)]
        congr 1; ring
      · have : pStep t W O q p c = q c := by
          unfold pStep
          rw [if_neg hcn, if_neg (by rintro ⟨_, h3, _⟩; exact hlt h3)]
        rw [this, hfirst, ← hpm]
        by_cases hpr : p = r
        · subst hpr; simp [hE.root_angle]
        · rcases hW.le_one p hnn hpr with hle | ⟨p', hp', he⟩
          · have : W p = 1 := le_antisymm hle (not_lt.mp hlt)
            simp [this]
          · simp [hE.still p' p hp' he]
    · have hpS' : p ∈ S := hmemS p hpn hpS
      have hl := hi.link p c hp hcS hpS' hWc
      by_cases hcd : 0 < W n ∧ W n < 1 ∧ Descendant t n c
      · have hpd : Descendant t n p := by
          rcases h.desc_parent hcd.2.2 hp with e | e
          · exact absurd e hpn
          · exact e
        have e1 : pStep t W O q n c = ⟨(q c).base.map
            (planeRot (O n).base ((O n).angle * W n - (O n).angle)), (q c).angle⟩ := by
          unfold pStep; rw [if_neg hcn, if_pos hcd]
        have e2 : pStep t W O q n p = ⟨(q p).base.map
            (planeRot (O n).base ((O n).angle * W n - (O n).angle)), (q p).angle⟩ := by
          unfold pStep; rw [if_neg hpn, if_pos ⟨hcd.1, hcd.2.1, hpd⟩]
        rw [e1, e2]
        simp only
        have e3 := planeRot_equivariant (hE.on n hnn) ((O n).angle * W n - (O n).angle)
          (q p).base (q p).angle (q p).base.b0
        have e4 : ((q p).base.map
            (planeRot (O n).base ((O n).angle * W n - (O n).angle))).b0
            = planeRot (O n).base ((O n).angle * W n - (O n).angle) (q p).base.b0 := rfl
        rw [e4, e3, ← hl]; rfl
      · have hpd : ¬ (0 < W n ∧ W n < 1 ∧ Descendant t n p) := by
          rintro ⟨h1, h3, h4⟩
          exact hcd ⟨h1, h3, h4.tail hp⟩
        have e1 : pStep t W O q n c = q c := by
          unfold pStep; rw [if_neg hcn, if_neg hcd]
        have e2 : pStep t W O q n p = q p := by
          unfold pStep; rw [if_neg hpn, if_neg hpd]
        rw [e1, e2]; exact hl

lemma chain_fold (h : RootedTree t r) (hE : ExactInner t r O) (hW : GoodWeights t r W)
    (L : List I) (hL : ∀ n ∈ L, n ∈ t.nodes) (S : List I) (hnd : L.Nodup)
    (hdis : ∀ n ∈ L, n ∉ S)
    (hord : ∀ pre n post, L = pre ++ n :: post → ∀ m, Descendant t n m → m ∈ S ∨ m ∈ pre)
    (q : I → Rot (Vec d)) (hi : ChainInv t r W O S q) :
    ChainInv t r W O (L.reverse ++ S) (L.foldl (pStep t W O) q) := by
  induction L generalizing S q with
  | nil => simpa using hi
  | cons n L ih =>
    have h3 := hi.step h hE hW (hL n List.mem_cons_self) (hdis n List.mem_cons_self)
      (by
        intro m hm
        rcases hord [] n L rfl m hm with e | e
        · exact e
        · simp at e)
    have h5 := ih (fun m hm => hL m (List.mem_cons_of_mem _ hm)) (n :: S)
      (List.nodup_cons.mp hnd).2
      (by
        intro m hm hms
        rcases List.mem_cons.mp hms with e | e
        · rw [e] at hm; exact (List.nodup_cons.mp hnd).1 hm
        · exact hdis m (List.mem_cons_of_mem _ hm) e)
      (by
        intro pre m post hl x hx
        rcases hord (n :: pre) m post (by rw [hl]; rfl) x hx with e | e
        · exact Or.inl (List.mem_cons_of_mem _ e)
        · rcases List.mem_cons.mp e with e | e
          · left; rw [e]; exact List.mem_cons_self
          · exact Or.inr e)
      _ h3
    rw [List.foldl_cons, List.reverse_cons, List.append_assoc]; exact h5

/-- The partial rotations of all nodes: their angles, and the fact that each one starts where
the partial rotation of the parent ends. -/
structure Linked (t : Tree I d) (r : I) (W : I → ℝ) (O : I → Rot (Vec d))
    (q : I → Rot (Vec d)) : Prop where
  on : ∀ m ∈ t.nodes, (q m).base.ON
  ang : ∀ m ∈ t.nodes, (q m).angle = (O m).angle * W m
  root : (q r).base.b0 = dirOf t r
  link : ∀ p c, IsParent t p c → 0 < W c →
    (q c).base.b0 = planeRot (q p).base (q p).angle (q p).base.b0

lemma partOf_linked (h : RootedTree t r) (hE : ExactInner t r O) (hW : GoodWeights t r W)
    {sorted : List I} (hs : Ascending t sorted) : Linked t r W O (partOf t W O sorted) := by
  have hi := chain_fold h hE hW sorted.reverse
    (fun n hn => hs.mem_iff.mp (List.mem_reverse.mp hn)) [] (List.nodup_reverse.mpr (hs.nodup h))
    (by simp) (fun pre n post hl m hm => Or.inr (hs.reverse_order h pre n post hl m hm)) O
    ⟨by simp, by simp, by simp, by simp, by simp, by simp⟩
  simp only [List.reverse_reverse, List.append_nil] at hi
  refine ⟨fun m hm => hi.on m (hs.mem_iff.mpr hm), fun m hm => hi.ang m (hs.mem_iff.mpr hm), ?_,
    fun p c hp hWc => hi.link p c hp (hs.mem_iff.mpr (h.edge_snd _ _ hp))
      (hs.mem_iff.mpr (h.edge_fst _ _ hp)) hWc⟩
  have := hi.root (hs.mem_iff.mpr h.root_mem)
  unfold partOf
  rw [this, hE.root_first h]

/-- If all weights are zero or one nothing is rotated. -/
lemma partOf_zero_one (hW : ∀ n, W n = 0 ∨ W n = 1) (sorted : List I) (m : I) :
    (partOf t W O sorted m).base = (O m).base := by
  unfold partOf
  generalize sorted.reverse = L
  suffices ∀ q : I → Rot (Vec d), (∀ m, (q m).base = (O m).base) →
      ∀ m, (L.foldl (pStep t W O) q m).base = (O m).base from this O (fun _ => rfl) m
  induction L with
  | nil => intro q hq m; exact hq m
  | cons n L ih =>
    intro q hq m
    rw [List.foldl_cons]
    apply ih
    intro x
    unfold pStep
    split_ifs with h1 h3
    · rw [h1]
    · rcases hW n with e | e <;> rw [e] at h3 <;> norm_num at h3
    · exact hq x

/-- Only the orientations of weighted nodes matter. -/
lemma partOf_congr {t' : Tree I d} (hdesc : ∀ a b, Descendant t a b ↔ Descendant t' a b)
    {O' : I → Rot (Vec d)} (hO : ∀ n, W n ≠ 0 → O n = O' n) (sorted : List I) (m : I)
    (hm : W m ≠ 0) : partOf t W O sorted m = partOf t' W O' sorted m := by
  unfold partOf
  generalize sorted.reverse = L
  suffices ∀ q q' : I → Rot (Vec d), (∀ m, W m ≠ 0 → q m = q' m) → ∀ m, W m ≠ 0 →
      L.foldl (pStep t W O) q m = L.foldl (pStep t' W O') q' m from this O O' hO m hm
  induction L with
  | nil => intro q q' hq m hm; exact hq m hm
  | cons n L ih =>
    intro q q' hq m hm
    rw [List.foldl_cons, List.foldl_cons]
    apply ih _ _ _ m hm
    intro x hx
    unfold pStep
    by_cases h1 : x = n
    · subst h1; rw [if_pos rfl, if_pos rfl, hO x hx]
    · rw [if_neg h1, if_neg h1]
      by_cases h3 : 0 < W n ∧ W n < 1 ∧ Descendant t n x
      · rw [if_pos h3, if_pos ⟨h3.1, h3.2.1, (hdesc _ _).mp h3.2.2⟩, hO n (ne_of_gt h3.1), hq x hx]
      · rw [if_neg h3, if_neg (fun h4 => h3 ⟨h4.1, h4.2.1, (hdesc _ _).mpr h4.2.2⟩), hq x hx]

end Chain
end Verif
