import Verif.Lemmas.TreeChain

/-! # Helper lemmas: one level of `evaluate_graph_summing` -/

open Verif.Spec
open scoped RealInnerProductSpace

set_option linter.unusedSectionVars false

namespace Verif

open Spec.RootedTree (lev)

variable {I : Type} [DecidableEq I] {d : ℕ} {t : Tree I d} {r : I}

open Classical in
/-- The weighted nodes of a level. -/
noncomputable def idsAt (t : Tree I d) (W : I → ℝ) (sorted : List I) (l : ℤ) : List I :=
  sorted.filter (fun n => t.level n = some l ∧ W n ≠ 0)

lemma mem_idsAt (h : RootedTree t r) {W : I → ℝ} {sorted : List I} (hs : Ascending t sorted)
    {l : ℤ} {n : I} : n ∈ idsAt t W sorted l ↔ n ∈ t.nodes ∧ lev t n = l ∧ W n ≠ 0 := by
  unfold idsAt
  simp only [List.mem_filter, decide_eq_true_eq, hs.mem_iff]
  constructor
  · rintro ⟨h1, h3, h4⟩
    exact ⟨h1, by rw [h.level_eq h1] at h3; exact Option.some.inj h3, h4⟩
  · rintro ⟨h1, h3, h4⟩
    exact ⟨h1, by rw [h.level_eq h1, h3], h4⟩

lemma idsAt_nodup (h : RootedTree t r) {W : I → ℝ} {sorted : List I} (hs : Ascending t sorted)
    (l : ℤ) : (idsAt t W sorted l).Nodup := (hs.nodup h).filter _

open Classical in
/-- Rotating the descendants of the nodes `ids` back, without the error cases. -/
noncomputable def unrot (t : Tree I d) (ids : List I) (q : I → Rot (Vec d)) : I → Rot (Vec d) :=
  ids.foldl (fun q n m => if Descendant t n m then
    ⟨(q m).base.map (planeRot (q n).base ((-1) * (q n).angle)), (q m).angle⟩ else q m) q

lemma unrot_cons (n : I) (ids : List I) (q : I → Rot (Vec d)) :
    unrot t (n :: ids) q = unrot t ids (unrot t [n] q) := rfl

lemma unrot_not (ids : List I) (q : I → Rot (Vec d)) (m : I)
    (hm : ∀ n ∈ ids, ¬ Descendant t n m) : unrot t ids q m = q m := by
  induction ids generalizing q with
  | nil => rfl
  | cons n ids ih =>
    rw [unrot_cons, ih _ (fun x hx => hm x (List.mem_cons_of_mem _ hx))]
    simp [unrot, hm n List.mem_cons_self]

lemma unrot_desc (h : RootedTree t r) (l : ℤ) (ids : List I) (hnd : ids.Nodup)
    (hl : ∀ n ∈ ids, lev t n = l) (q : I → Rot (Vec d)) (n0 m : I) (hn : n0 ∈ ids)
    (hm : Descendant t n0 m) :
    unrot t ids q m = ⟨(q m).base.map (planeRot (q n0).base ((-1) * (q n0).angle)), (q m).angle⟩ := by
  induction ids generalizing q with
  | nil => simp at hn
  | cons n ids ih =>
    have hnd' := List.nodup_cons.mp hnd
    have hl' : ∀ x ∈ ids, lev t x = l := fun x hx => hl x (List.mem_cons_of_mem _ hx)
    rw [unrot_cons]
    by_cases hnn : n = n0
    · subst hnn
      rw [unrot_not]
      · simp [unrot, hm]
      · intro x hx hxm
        have := h.desc_same_level hm hxm (by rw [hl n List.mem_cons_self, hl' x hx])
        rw [this] at hnd'; exact hnd'.1 hx
    · have hn' : n0 ∈ ids := by
        rcases List.mem_cons.mp hn with e | e
        · exact absurd e.symm hnn
        · exact e
      have hlev : lev t n = lev t n0 := by rw [hl n List.mem_cons_self, hl' n0 hn']
      rw [ih hnd'.2 hl' _ hn']
      have e1 : unrot t [n] q m = q m := by
        apply unrot_not
        intro x hx hxm
        rw [List.mem_singleton] at hx
        subst hx
        exact hnn (h.desc_same_level hxm hm hlev)
      have e2 : unrot t [n] q n0 = q n0 := by
        apply unrot_not
        intro x hx hxm
        rw [List.mem_singleton] at hx
        subst hx
        have := h.lev_desc hxm; omega
      rw [e1, e2]

lemma unrotate_eq (h : RootedTree t r) (ids : List I) (hids : ∀ n ∈ ids, n ∈ t.nodes)
    (part : I → Option (Rot (Vec d))) (q : I → Rot (Vec d))
    (hq : ∀ m ∈ t.nodes, part m = some (q m)) (hon : ∀ m ∈ t.nodes, (q m).base.ON) :
    ∃ part', t.unrotate part ids = .ok part' ∧ (∀ m ∈ t.nodes, part' m = some (unrot t ids q m))
      ∧ ∀ m ∈ t.nodes, (unrot t ids q m).base.ON := by
  induction ids generalizing part q with
  | nil => exact ⟨part, rfl, hq, hon⟩
  | cons n ids ih =>
    have hn := hids n List.mem_cons_self
    obtain ⟨ds, hds, hnd, hmem⟩ := getAllChildsChildren_spec h n
    have hrot := rotateParts_eq ds hnd part q
      (fun m hm => hq m (h.desc_mem_right ((hmem m).mp hm)))
      (fun m hm => hon m (h.desc_mem_right ((hmem m).mp hm))) (q n).base ((-1) * (q n).angle)
    obtain ⟨part', g1, g2, g3⟩ := ih (fun x hx => hids x (List.mem_cons_of_mem _ hx))
      (fun m => if m ∈ ds then
        some ⟨(q m).base.map (planeRot (q n).base ((-1) * (q n).angle)), (q m).angle⟩ else part m)
      (unrot t [n] q)
      (by
        intro m hm
        by_cases hd : Descendant t n m
        · simp [unrot, (hmem m).mpr hd, hd]
        · have : m ∉ ds := fun e => hd ((hmem m).mp e)
          simp [unrot, this, hd, hq m hm])
      (by
        intro m hm
        simp only [unrot, List.foldl_cons, List.foldl_nil]
        split_ifs
        · exact (hon n hn).planeRot (hon m hm) _
        · exact hon m hm)
    refine ⟨part', ?_, g2, g3⟩
    unfold Tree.unrotate at g1 ⊢
    rw [List.foldlM_cons]
    simp only [hq n hn, hds, hrot]
    exact g1

lemma allSuccessors_eq (h : RootedTree t r) (l : ℤ) (ids : List I) (hnd : ids.Nodup)
    (hl : ∀ n ∈ ids, lev t n = l) :
    ∃ all, t.allSuccessors ids = some all ∧ all.Nodup
      ∧ ∀ m, m ∈ all ↔ ∃ n ∈ ids, Descendant t n m := by
  choose f hf1 hf2 hf3 using fun n => getAllChildsChildren_spec h n
  refine ⟨(ids.map f).flatten, ?_, ?_, ?_⟩
  · unfold Tree.allSuccessors
    rw [mapM_some _ f ids (fun n _ => hf1 n)]; rfl
  · rw [List.nodup_flatten]
    constructor
    · intro x hx
      obtain ⟨n, _, rfl⟩ := List.mem_map.mp hx
      exact hf2 n
    · rw [List.pairwise_map]
      refine List.Pairwise.imp_of_mem ?_ hnd
      intro a b ha hb hab x hxa hxb
      exact hab (h.desc_same_level ((hf3 a x).mp hxa) ((hf3 b x).mp hxb) (by rw [hl a ha, hl b hb]))
  · intro m
    simp only [List.mem_flatten, List.mem_map]
    constructor
    · rintro ⟨x, ⟨n, hn, rfl⟩, hm⟩; exact ⟨n, hn, (hf3 n m).mp hm⟩
    · rintro ⟨n, hn, hm⟩; exact ⟨f n, ⟨n, hn, rfl⟩, (hf3 n m).mpr hm⟩

/-! ### One level, without the error cases -/

/-- The mean rotation vector of a level. -/
noncomputable def meanOf (q : I → Rot (Vec d)) (ids : List I) : Vec d :=
  (ids.map (fun n => (q n).angle • (q n).base.b1)).sum

open Classical in
/-- The averaged rotation of a level. -/
noncomputable def levelRot (q : I → Rot (Vec d)) (ids : List I) (first : Vec d) : Rot (Vec d) :=
  ⟨⟨first, if ‖meanOf q ids‖ = 0 then (1 / ‖first‖) • first
    else (1 / ‖meanOf q ids‖) • meanOf q ids⟩, ‖meanOf q ids‖⟩

open Classical in
/-- The partial rotations after a level. -/
noncomputable def levelParts (t : Tree I d) (q : I → Rot (Vec d)) (ids : List I) (R : Rot (Vec d)) :
    I → Rot (Vec d) := fun m =>
  if ∃ n ∈ ids, Descendant t n m then
    ⟨(unrot t ids q m).base.map (planeRot R.base R.angle), (unrot t ids q m).angle⟩
  else q m

/-- The state of `evaluate_graph_summing` between two levels, without the error cases. -/
structure PState (I : Type) (d : ℕ) where
  q : I → Rot (Vec d)
  seq : RotSeq (Vec d)
  last : Option (Rot (Vec d))

open Classical in
/-- One level of `evaluate_graph_summing`, without the error cases. -/
noncomputable def pureLevel (t : Tree I d) (W : I → ℝ) (sorted : List I) (s : PState I d) (l : ℤ) :
    PState I d :=
  match idsAt t W sorted l with
  | [] => s
  | n0 :: rest =>
    let R := levelRot s.q (n0 :: rest) (s.q n0).base.b0
    if ∀ n ∈ n0 :: rest, ∀ m, ¬ Descendant t n m then { s with last := some R }
    else if R.angle = 0 then ⟨levelParts t s.q (n0 :: rest) R, s.seq, some R⟩
    else ⟨levelParts t s.q (n0 :: rest) R, s.seq ++ [R], some R⟩

/-- The model state `s` is described by `p`. -/
structure Rel (t : Tree I d) (s : Tree.SumState I d) (p : PState I d) : Prop where
  part : ∀ m ∈ t.nodes, s.part m = some (p.q m)
  seq : s.seq = p.seq
  last : s.last = p.last

lemma sumLevel_rel (h : RootedTree t r) {W weight : I → ℝ} (hweight : ∀ n ∈ t.nodes, weight n = W n)
    {sorted : List I} (hs : Ascending t sorted) (s : Tree.SumState I d) (p : PState I d) (l : ℤ)
    (hr : Rel t s p) (hon : ∀ m ∈ t.nodes, (p.q m).base.ON) :
    ∃ s', t.sumLevel weight sorted s l = .ok s' ∧ Rel t s' (pureLevel t W sorted p l) := by
  have hids : sorted.filter (fun n => t.level n = some l ∧ weight n ≠ 0) = idsAt t W sorted l := by
    unfold idsAt
    apply List.filter_congr
    intro n hn
    rw [hweight n (hs.mem_iff.mp hn)]
  unfold Tree.sumLevel
  simp only [hids]
  have hnd := idsAt_nodup (W := W) h hs l
  have hm := fun n => mem_idsAt (W := W) h hs (l := l) (n := n)
  unfold pureLevel
  cases hl : idsAt t W sorted l with
  | nil => exact ⟨s, rfl, hr⟩
  | cons n0 rest =>
    rw [hl] at hnd hm
    have hnodes : ∀ n ∈ n0 :: rest, n ∈ t.nodes := fun n hn => ((hm n).mp hn).1
    have hlev : ∀ n ∈ n0 :: rest, lev t n = l := fun n hn => ((hm n).mp hn).2.1
    have hmean : Tree.localMean s.part (n0 :: rest) = meanOf p.q (n0 :: rest) := by
      unfold Tree.localMean meanOf
      congr 1
      apply List.map_congr_left
      intro n hn
      rw [hr.part n (hnodes n hn)]
    obtain ⟨part', u1, u2, u3⟩ := unrotate_eq h (n0 :: rest) hnodes s.part p.q hr.part hon
    obtain ⟨all, a1, a2, a3⟩ := allSuccessors_eq h l (n0 :: rest) hnd hlev
    simp only [hr.part n0 (hnodes n0 List.mem_cons_self), hmean, u1, a1]
    have hall : all = [] ↔ ∀ n ∈ n0 :: rest, ∀ m, ¬ Descendant t n m := by
      rw [List.eq_nil_iff_forall_not_mem]
      constructor
      · intro hh n hn m hd; exact hh m ((a3 m).mpr ⟨n, hn, hd⟩)
      · intro hh m hm'
        obtain ⟨n, hn, hd⟩ := (a3 m).mp hm'
        exact hh n hn m hd
    by_cases he : all = []
    · rw [if_pos he, if_pos (hall.mp he)]
      exact ⟨_, rfl, hr.part, hr.seq, rfl⟩
    · rw [if_neg he, if_neg (fun e => he (hall.mpr e))]
      have hunrot : ∀ m ∈ t.nodes, (¬ ∃ n ∈ n0 :: rest, Descendant t n m) →
          unrot t (n0 :: rest) p.q m = p.q m := by
        intro m _ hne
        exact unrot_not _ _ _ (fun n hn hd => hne ⟨n, hn, hd⟩)
      have hang : (levelRot p.q (n0 :: rest) (p.q n0).base.b0).angle
        = ‖meanOf p.q (n0 :: rest)‖ := rfl
      rw [hang]
      by_cases h0 : ‖meanOf p.q (n0 :: rest)‖ = 0
      · simp only [if_pos h0]
        refine ⟨_, rfl, ?_, hr.seq, by simp only [levelRot, if_pos h0]⟩
        intro m hmn
        simp only [levelParts, u2 m hmn]
        split_ifs with hd
        · simp only [levelRot, h0]
          congr 1
          ext <;> simp [Base.map]
        · rw [hunrot m hmn hd]
      · simp only [if_neg h0]
        have hrot := rotateParts_eq all a2 part' (unrot t (n0 :: rest) p.q)
          (fun m hm' => by
            obtain ⟨n, _, hd⟩ := (a3 m).mp hm'
            exact u2 m (h.desc_mem_right hd))
          (fun m hm' => by
            obtain ⟨n, _, hd⟩ := (a3 m).mp hm'
            exact u3 m (h.desc_mem_right hd))
          (levelRot p.q (n0 :: rest) (p.q n0).base.b0).base ‖meanOf p.q (n0 :: rest)‖
        have hb : (⟨(p.q n0).base.b0, (1 / ‖meanOf p.q (n0 :: rest)‖) • meanOf p.q (n0 :: rest)⟩ :
            Base (Vec d)) = (levelRot p.q (n0 :: rest) (p.q n0).base.b0).base := by
          simp only [levelRot, if_neg h0]
        simp only [hb, hrot]
        refine ⟨_, rfl, ?_, ?_, rfl⟩
        · intro m hmn
          simp only [levelParts, ← a3 m]
          split_ifs with hd
          · rfl
          · rw [u2 m hmn, hunrot m hmn (fun e => hd ((a3 m).mpr e))]
        · rw [hr.seq]; rfl

/-! ### Invariant of the levels -/

/-- What holds before level `l` is processed. -/
structure LevelInv (t : Tree I d) (W : I → ℝ) (O : I → Rot (Vec d)) (l : ℤ)
    (q : I → Rot (Vec d)) (S : Vec d) : Prop where
  on : ∀ m ∈ t.nodes, (q m).base.ON
  ang : ∀ m ∈ t.nodes, (q m).angle = (O m).angle * W m
  shared : ∀ n ∈ t.nodes, lev t n = l → W n ≠ 0 → (q n).base.b0 = S
  link : ∀ p c, IsParent t p c → l ≤ lev t p → W c ≠ 0 →
    (q c).base.b0 = planeRot (q p).base (q p).angle (q p).base.b0

lemma inner_list_sum {V : Type*} [NormedAddCommGroup V] [InnerProductSpace ℝ V] {α : Type*}
    (l : List α) (f : α → V) (v : V) (hv : ∀ a ∈ l, ⟪v, f a⟫ = 0) :
    ⟪v, (l.map f).sum⟫ = 0 := by
  induction l with
  | nil => simp
  | cons a l ih =>
    rw [List.map_cons, List.sum_cons, inner_add_right, hv a List.mem_cons_self,
      ih (fun b hb => hv b (List.mem_cons_of_mem _ hb)), add_zero]

lemma LevelInv.mean_orth {W : I → ℝ} {O : I → Rot (Vec d)} {l : ℤ} {q : I → Rot (Vec d)}
    {S : Vec d} (hi : LevelInv t W O l q S) (ids : List I)
    (hids : ∀ n ∈ ids, n ∈ t.nodes ∧ lev t n = l ∧ W n ≠ 0) : ⟪S, meanOf q ids⟫ = 0 := by
  unfold meanOf
  apply inner_list_sum
  intro n hn
  obtain ⟨h1, h3, h4⟩ := hids n hn
  rw [inner_smul_right, ← hi.shared n h1 h3 h4, (hi.on n h1).orth, mul_zero]

lemma LevelInv.rot_on {W : I → ℝ} {O : I → Rot (Vec d)} {l : ℤ} {q : I → Rot (Vec d)}
    {S : Vec d} (hi : LevelInv t W O l q S) (ids : List I) (hS : ‖S‖ = 1)
    (hids : ∀ n ∈ ids, n ∈ t.nodes ∧ lev t n = l ∧ W n ≠ 0) (h0 : ‖meanOf q ids‖ ≠ 0) :
    (levelRot q ids S).base.ON := by
  have ho := hi.mean_orth ids hids
  refine ⟨hS, ?_, ?_⟩
  · simp only [levelRot, if_neg h0]
    exact unit_norm (norm_ne_zero_iff.mp h0)
  · simp only [levelRot, if_neg h0, inner_smul_right, ho, mul_zero]

lemma LevelInv.norm_shared {W : I → ℝ} {O : I → Rot (Vec d)} {l : ℤ} {q : I → Rot (Vec d)}
    {S : Vec d} (hi : LevelInv t W O l q S) {n : I} (hn : n ∈ t.nodes) (hl : lev t n = l)
    (hW : W n ≠ 0) : ‖S‖ = 1 := by
  rw [← hi.shared n hn hl hW]; exact (hi.on n hn).norm_fst

lemma map_map_planeRot {A B C : Base (Vec d)} (a b : ℝ) :
    (C.map (planeRot A a)).map (planeRot B b) = C.map (fun v => planeRot B b (planeRot A a v)) := rfl

/-- After a level the invariant holds for the next level. -/
lemma LevelInv.next (h : RootedTree t r) {W : I → ℝ} {O : I → Rot (Vec d)}
    (hmono : ∀ p c, IsParent t p c → W c ≠ 0 → W p ≠ 0) {l : ℤ}
    {q : I → Rot (Vec d)} {S : Vec d} (hi : LevelInv t W O l q S) (ids : List I) (hnd : ids.Nodup)
    (hids : ∀ n, n ∈ ids ↔ n ∈ t.nodes ∧ lev t n = l ∧ W n ≠ 0) (hne : ids ≠ []) :
    LevelInv t W O (l + 1) (levelParts t q ids (levelRot q ids S))
      (planeRot (levelRot q ids S).base (levelRot q ids S).angle S) := by
  have hS : ‖S‖ = 1 := by
    obtain ⟨n, hn⟩ := List.exists_mem_of_ne_nil ids hne
    obtain ⟨h1, h3, h4⟩ := (hids n).mp hn
    exact hi.norm_shared h1 h3 h4
  have hlev : ∀ n ∈ ids, lev t n = l := fun n hn => ((hids n).mp hn).2.1
  have hnod : ∀ n ∈ ids, n ∈ t.nodes := fun n hn => ((hids n).mp hn).1
  set R := levelRot q ids S with hR
  -- the rotation of the level is an isometry, even when it degenerates
  have hRcase : R.base.ON ∨ R.angle = 0 := by
    by_cases h0 : ‖meanOf q ids‖ = 0
    · right; exact h0
    · left; exact hi.rot_on ids hS (fun n hn => (hids n).mp hn) h0
  have hRon : ∀ B : Base (Vec d), B.ON → (B.map (planeRot R.base R.angle)).ON := by
    intro B hB
    rcases hRcase with e | e
    · exact e.planeRot hB _
    · rw [e, Base.map_id]; exact hB
  have hReq : ∀ (B : Base (Vec d)) (θ : ℝ) (v : Vec d),
      planeRot (B.map (planeRot R.base R.angle)) θ (planeRot R.base R.angle v)
        = planeRot R.base R.angle (planeRot B θ v) := by
    intro B θ v
    rcases hRcase with e | e
    · exact planeRot_equivariant e _ _ _ _
    · rw [e, Base.map_id, planeRot_zero, planeRot_zero]
  have hin : ∀ n ∈ ids, ∀ m, Descendant t n m → levelParts t q ids R m =
      ⟨((q m).base.map (planeRot (q n).base ((-1) * (q n).angle))).map (planeRot R.base R.angle),
        (q m).angle⟩ := by
    intro n hn m hd
    unfold levelParts
    rw [if_pos ⟨n, hn, hd⟩, unrot_desc h l ids hnd hlev q n m hn hd]
  have hout : ∀ m, (¬ ∃ n ∈ ids, Descendant t n m) → levelParts t q ids R m = q m := by
    intro m hm; unfold levelParts; rw [if_neg hm]
  have hon : ∀ m ∈ t.nodes, (levelParts t q ids R m).base.ON
      ∧ (levelParts t q ids R m).angle = (q m).angle := by
    intro m hm
    by_cases hd : ∃ n ∈ ids, Descendant t n m
    · obtain ⟨n, hn, hd⟩ := hd
      rw [hin n hn m hd]
      exact ⟨hRon _ ((hi.on n (hnod n hn)).planeRot (hi.on m hm) _), rfl⟩
    · rw [hout m hd]; exact ⟨hi.on m hm, rfl⟩
  refine ⟨fun m hm => (hon m hm).1, fun m hm => by rw [(hon m hm).2]; exact hi.ang m hm, ?_, ?_⟩
  · intro c hc hcl hWc
    have hcr : c ≠ r := by
      rintro rfl
      rw [h.lev_root] at hcl
      obtain ⟨n, hn⟩ := List.exists_mem_of_ne_nil ids hne
      have h1 := Ascending.lev_nonneg h (hnod n hn)
      have h3 := hlev n hn
      omega
    obtain ⟨p, hp⟩ := h.has_parent c hc hcr
    have hpl : lev t p = l := by have := h.lev_child hp; omega
    have hpn := h.edge_fst _ _ hp
    have hpi : p ∈ ids := (hids p).mpr ⟨hpn, hpl, hmono p c hp hWc⟩
    rw [hin p hpi c (.single hp)]
    simp only [Base.map]
    rw [hi.link p c hp (le_of_eq hpl.symm) hWc, planeRot_planeRot (hi.on p hpn)]
    rw [show (q p).angle + (-1) * (q p).angle = 0 by ring, planeRot_zero,
      hi.shared p hpn hpl (hmono p c hp hWc)]
  · intro p c hp hpl hWc
    have hl := hi.link p c hp (by omega) hWc
    by_cases hd : ∃ n ∈ ids, Descendant t n p
    · obtain ⟨n, hn, hd⟩ := hd
      rw [hin n hn p hd, hin n hn c (hd.tail hp)]
      simp only
      have e1 := hReq ((q p).base.map (planeRot (q n).base ((-1) * (q n).angle))) (q p).angle
        (planeRot (q n).base ((-1) * (q n).angle) (q p).base.b0)
      rw [planeRot_equivariant (hi.on n (hnod n hn))] at e1
      have e2 : ((Base.map (planeRot R.base R.angle)
        (Base.map (planeRot (q n).base (-1 * (q n).angle)) (q p).base))).b0
        = planeRot R.base R.angle (planeRot (q n).base (-1 * (q n).angle) (q p).base.b0) := rfl
      rw [e2, e1, ← hl]; rfl
    · have hd' : ¬ ∃ n ∈ ids, Descendant t n c := by
        rintro ⟨n, hn, hnc⟩
        rcases h.desc_parent hnc hp with e | e
        · subst e; have := hlev p hn; omega
        · exact hd ⟨n, hn, e⟩
      rw [hout p hd, hout c hd']; exact hl

end Verif
