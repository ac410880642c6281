import Verif.Lemmas.TreeResult

/-!
# Trees that differ in the names and the order of their nodes
-/

open scoped RealInnerProductSpace

namespace Verif

open Spec
open Spec.RootedTree (lev)

variable {I J : Type} [DecidableEq I] [DecidableEq J] {d : ℕ}

/-- Two trees with the same directions up to the names and the order of the nodes. -/
structure TreeIso (f : I ≃ J) (t : Tree I d) (t' : Tree J d) : Prop where
  nodes : t'.nodes.Perm (t.nodes.map f)
  edges : t'.edges.Perm (t.edges.map (Prod.map f f))
  level : ∀ n, t'.level (f n) = t.level n
  dir : ∀ n, t'.dir (f n) = t.dir n
  root : t'.root = t.root.map f

/-- Folds over two arrangements of the same elements agree if neighbouring elements of the same
rank can be exchanged. -/
lemma foldl_rank_perm {α β : Type*} (g : β → α → β) (rank : α → ℤ) (P : α → Prop)
    (hcomm : ∀ a b q, P a → P b → a ≠ b → rank a = rank b → g (g q a) b = g (g q b) a)
    (l₁ l₂ : List α) (hp : l₁.Perm l₂) (hnd : l₁.Nodup) (hP : ∀ a ∈ l₁, P a)
    (h1 : l₁.Pairwise (fun a b => rank b ≤ rank a)) (h2 : l₂.Pairwise (fun a b => rank b ≤ rank a))
    (q : β) : l₁.foldl g q = l₂.foldl g q := by
  induction l₁ generalizing l₂ q with
  | nil => rw [List.nil_perm.mp hp]
  | cons a l₁ ih =>
    have ha : a ∈ l₂ := hp.mem_iff.mp List.mem_cons_self
    obtain ⟨pre, post, rfl⟩ := List.append_of_mem ha
    have hnd' := List.nodup_cons.mp hnd
    have hp' : l₁.Perm (pre ++ post) := by
      have := hp.trans List.perm_middle
      exact List.Perm.cons_inv this
    have hpre : ∀ b ∈ pre, P b ∧ b ≠ a ∧ rank b = rank a := by
      intro b hb
      have hbl : b ∈ l₁ := hp'.mem_iff.mpr (List.mem_append_left _ hb)
      refine ⟨hP b (List.mem_cons_of_mem _ hbl), fun e => hnd'.1 (e ▸ hbl), ?_⟩
      have e1 := (List.pairwise_cons.mp h1).1 b hbl
      have e2 := (List.pairwise_append.mp h2).2.2 b hb a List.mem_cons_self
      omega
    have hmove : ∀ (pre : List α) (q : β), (∀ b ∈ pre, P b ∧ b ≠ a ∧ rank b = rank a) →
        g (pre.foldl g q) a = pre.foldl g (g q a) := by
      intro pre
      induction pre with
      | nil => intros; rfl
      | cons b pre ihp =>
        intro q hb
        rw [List.foldl_cons, List.foldl_cons, ihp _ (fun x hx => hb x (List.mem_cons_of_mem _ hx))]
        obtain ⟨c1, c2, c3⟩ := hb b List.mem_cons_self
        rw [hcomm b a q c1 (hP a List.mem_cons_self) c2 c3]
    rw [List.foldl_cons, List.foldl_append, List.foldl_cons, hmove pre q hpre, ← List.foldl_append]
    apply ih _ hp' hnd'.2 (fun x hx => hP x (List.mem_cons_of_mem _ hx)) (List.pairwise_cons.mp h1).2
    have := List.pairwise_append.mp h2
    exact List.pairwise_append.mpr ⟨this.1, (List.pairwise_cons.mp this.2.1).2,
      fun x hx y hy => this.2.2 x hx y (List.mem_cons_of_mem _ hy)⟩

namespace TreeIso

variable {f : I ≃ J} {t : Tree I d} {t' : Tree J d} {r : I}

lemma mem_nodes (iso : TreeIso f t t') {n : I} : f n ∈ t'.nodes ↔ n ∈ t.nodes := by
  rw [iso.nodes.mem_iff, List.mem_map]
  exact ⟨fun ⟨m, h1, h2⟩ => f.injective h2 ▸ h1, fun h => ⟨n, h, rfl⟩⟩

lemma isParent (iso : TreeIso f t t') {p c : I} : IsParent t' (f p) (f c) ↔ IsParent t p c := by
  unfold IsParent
  rw [iso.edges.mem_iff, List.mem_map]
  constructor
  · rintro ⟨⟨a, b⟩, h1, h2⟩
    simp only [Prod.map, Prod.mk.injEq] at h2
    rw [f.injective h2.1, f.injective h2.2] at h1
    exact h1
  · intro h; exact ⟨(p, c), h, rfl⟩

lemma desc (iso : TreeIso f t t') {a b : I} : Descendant t' (f a) (f b) ↔ Descendant t a b := by
  constructor
  · intro h
    have : ∀ x y, Descendant t' x y → Descendant t (f.symm x) (f.symm y) := by
      intro x y hxy
      induction hxy with
      | single h1 =>
        refine .single (iso.isParent.mp ?_)
        simpa using h1
      | tail _ h1 ih =>
        refine .tail ih (iso.isParent.mp ?_)
        simpa using h1
    simpa using this _ _ h
  · intro h
    induction h with
    | single h1 => exact .single (iso.isParent.mpr h1)
    | tail _ h1 ih => exact .tail ih (iso.isParent.mpr h1)

lemma lev_eq (iso : TreeIso f t t') (n : I) : lev t' (f n) = lev t n := by
  unfold lev; rw [iso.level]

lemma dirOf_eq (iso : TreeIso f t t') (n : I) : dirOf t' (f n) = dirOf t n := by
  unfold dirOf; rw [iso.dir]

lemma forall_iff (iso : TreeIso f t t') (P : J → Prop) : (∀ m, P m) ↔ ∀ n, P (f n) :=
  ⟨fun h n => h _, fun h m => by have := h (f.symm m); simpa using this⟩

variable [h2 : Fact (2 ≤ d)]

lemma defined (iso : TreeIso f t t') (hd : Defined t) : Defined t' := by
  intro p c hp
  obtain ⟨p, rfl⟩ := f.surjective p
  obtain ⟨c, rfl⟩ := f.surjective c
  rw [iso.dirOf_eq, iso.dirOf_eq]
  exact hd p c (iso.isParent.mp hp)

lemma orientOf_eq (iso : TreeIso f t t') (h : RootedTree t r) (h' : RootedTree t' (f r))
    (hd : Defined t) {n : I} (hn : n ∈ t.nodes) : orientOf t' (f r) (f n) = orientOf t r n := by
  have hO := orientOf_isOrient h hd
  have hO' := orientOf_isOrient h' (iso.defined hd)
  by_cases hr : n = r
  · subst hr; rw [hO.root, hO'.root, iso.dirOf_eq]
  · obtain ⟨p, hp⟩ := h.has_parent n hn hr
    have e1 := hO.child p n hp
    have e2 := hO'.child (f p) (f n) (iso.isParent.mpr hp)
    rw [iso.dirOf_eq, iso.dirOf_eq, e1] at e2
    exact (Option.some.inj e2).symm

lemma exactInner (iso : TreeIso f t t') (h : RootedTree t r) (h' : RootedTree t' (f r))
    (hd : Defined t) (hE : ExactInner t r (orientOf t r)) :
    ExactInner t' (f r) (orientOf t' (f r)) := by
  have hO := fun {n} hn => iso.orientOf_eq h h' hd (n := n) hn
  refine ⟨fun n hn => ?_, fun p c hp => ?_, fun n hn hc => ?_, ?_, fun p c hp he => ?_⟩
  · obtain ⟨n, rfl⟩ := f.surjective n
    rw [hO (iso.mem_nodes.mp hn)]; exact hE.on n (iso.mem_nodes.mp hn)
  · obtain ⟨p, rfl⟩ := f.surjective p
    obtain ⟨c, rfl⟩ := f.surjective c
    have hp' := iso.isParent.mp hp
    rw [hO (h.edge_snd _ _ hp'), iso.dirOf_eq]; exact hE.first p c hp'
  · obtain ⟨n, rfl⟩ := f.surjective n
    rw [hO (iso.mem_nodes.mp hn), iso.dirOf_eq]
    apply hE.maps n (iso.mem_nodes.mp hn)
    rcases hc with e | ⟨c, e⟩
    · exact Or.inl (f.injective e)
    · obtain ⟨c, rfl⟩ := f.surjective c
      exact Or.inr ⟨c, iso.isParent.mp e⟩
  · rw [hO h.root_mem]; exact hE.root_angle
  · obtain ⟨p, rfl⟩ := f.surjective p
    obtain ⟨c, rfl⟩ := f.surjective c
    have hp' := iso.isParent.mp hp
    rw [iso.dirOf_eq, iso.dirOf_eq] at he
    rw [hO (h.edge_snd _ _ hp')]; exact hE.still p c hp' he

omit h2

lemma givenWeight_map (given : List (I × ℝ)) (n : I) :
    givenWeight (given.map (Prod.map f id)) (f n) = givenWeight given n := by
  induction given with
  | nil => rfl
  | cons p l ih =>
    obtain ⟨m, w⟩ := p
    simp only [List.map_cons, Prod.map, givenWeight, id]
    rw [ih]
    have e : f n ∈ List.map Prod.fst (List.map (Prod.map (⇑f) id) l) ↔ n ∈ List.map Prod.fst l := by
      simp [List.mem_map, Prod.map]
    simp only [e, f.injective.eq_iff]

lemma givenWeight_perm {g₁ g₂ : List (I × ℝ)} (hp : g₁.Perm g₂)
    (hnd : (g₁.map Prod.fst).Nodup) (n : I) : givenWeight g₁ n = givenWeight g₂ n := by
  by_cases hn : n ∈ g₁.map Prod.fst
  · obtain ⟨p, hp1, rfl⟩ := List.mem_map.mp hn
    rw [givenWeight_of_mem hnd hp1, givenWeight_of_mem ((hp.map _).nodup_iff.mp hnd) (hp.mem_iff.mp hp1)]
  · rw [givenWeight_not_mem _ _ hn, givenWeight_not_mem _ _ (fun e => hn ((hp.map _).mem_iff.mpr e))]

lemma branchWeight_eq (iso : TreeIso f t t') {given : List (I × ℝ)} {given' : List (J × ℝ)}
    (hg : given'.Perm (given.map (Prod.map f id))) (hnd : (given.map Prod.fst).Nodup) (n : I) :
    branchWeight t' given' (f n) = branchWeight t given n := by
  have hnd' : (given'.map Prod.fst).Nodup := by
    rw [(hg.map _).nodup_iff, List.map_map]
    have : (Prod.fst ∘ Prod.map f id : I × ℝ → J) = f ∘ Prod.fst := rfl
    rw [this, ← List.map_map]
    exact hnd.map f.injective
  unfold branchWeight
  symm
  apply Finset.sum_bij (fun m _ => f m)
  · intro m hm
    simp only [Finset.mem_filter, List.mem_toFinset] at hm ⊢
    exact ⟨iso.mem_nodes.mpr hm.1, hm.2.imp (congrArg f) iso.desc.mpr⟩
  · intro a _ b _ e; exact f.injective e
  · intro m hm
    obtain ⟨m, rfl⟩ := f.surjective m
    simp only [Finset.mem_filter, List.mem_toFinset] at hm
    exact ⟨m, by
      simp only [Finset.mem_filter, List.mem_toFinset]
      exact ⟨iso.mem_nodes.mp hm.1, hm.2.imp (fun e => f.injective e) iso.desc.mp⟩, rfl⟩
  · intro m _
    rw [givenWeight_perm hg hnd', givenWeight_map]

/-! ### The partial rotations -/

variable {W : I → ℝ} {W' : J → ℝ} {O : I → Rot (Vec d)} {O' : J → Rot (Vec d)}

/-- The order of the nodes of a level does not matter for the partial rotations. -/
lemma partOf_order (h : RootedTree t r) (W : I → ℝ) (O : I → Rot (Vec d)) {s₁ s₂ : List I}
    (h1 : Ascending t s₁) (h2 : Ascending t s₂) : partOf t W O s₁ = partOf t W O s₂ := by
  unfold partOf
  apply foldl_rank_perm _ (lev t) (fun n => n ∈ t.nodes)
  · intro a b q ha hb hne hl
    have hab : ¬ Descendant t a b := fun e => by have := h.lev_desc e; omega
    have hba : ¬ Descendant t b a := fun e => by have := h.lev_desc e; omega
    funext m
    unfold pStep
    by_cases hma : m = a
    · subst hma
      rw [if_neg hne, if_pos rfl, if_neg (fun e => hba e.2.2), if_pos rfl]
    · by_cases hmb : m = b
      · subst hmb
        rw [if_pos rfl, if_neg hma, if_neg (fun e => hab e.2.2), if_pos rfl]
      · simp only [if_neg hma, if_neg hmb]
        by_cases e1 : 0 < W b ∧ W b < 1 ∧ Descendant t b m
        · have e2 : ¬ (0 < W a ∧ W a < 1 ∧ Descendant t a m) :=
            fun e => hne (h.desc_same_level e.2.2 e1.2.2 hl)
          simp only [if_pos e1, if_neg e2]
        · simp only [if_neg e1]
  · exact (List.reverse_perm _).trans ((h1.perm.trans h2.perm.symm).trans (List.reverse_perm _).symm)
  · exact List.nodup_reverse.mpr (h1.nodup h)
  · intro a ha; exact h1.mem_iff.mp (List.mem_reverse.mp ha)
  · exact List.pairwise_reverse.mpr h1.asc
  · exact List.pairwise_reverse.mpr h2.asc

lemma ascending_map (iso : TreeIso f t t') {sorted : List I} (hs : Ascending t sorted) :
    Ascending t' (sorted.map f) := by
  refine ⟨(hs.perm.map f).trans iso.nodes.symm, ?_⟩
  rw [List.pairwise_map]
  simp only [iso.lev_eq]
  exact hs.asc

lemma partOf_eq (iso : TreeIso f t t') (h' : RootedTree t' (f r))
    (hW : ∀ n, W' (f n) = W n) (hO : ∀ n ∈ t.nodes, O' (f n) = O n) {s : List I} {s' : List J}
    (hs : Ascending t s) (hs' : Ascending t' s') {m : I} (hm : m ∈ t.nodes) :
    partOf t' W' O' s' (f m) = partOf t W O s m := by
  rw [partOf_order h' W' O' hs' (iso.ascending_map hs)]
  unfold partOf
  rw [← List.map_reverse, List.foldl_map]
  have hmem : ∀ n ∈ s.reverse, n ∈ t.nodes := fun n hn => hs.mem_iff.mp (List.mem_reverse.mp hn)
  generalize s.reverse = L at hmem
  suffices ∀ (q : I → Rot (Vec d)) (q' : J → Rot (Vec d)), (∀ m ∈ t.nodes, q' (f m) = q m) →
      ∀ m ∈ t.nodes, L.foldl (fun q n => pStep t' W' O' q (f n)) q' (f m)
        = L.foldl (pStep t W O) q m from this O O' hO m hm
  induction L with
  | nil => intro q q' hq m hm; exact hq m hm
  | cons n L ih =>
    intro q q' hq m hm
    rw [List.foldl_cons, List.foldl_cons]
    apply ih (fun x hx => hmem x (List.mem_cons_of_mem _ hx)) _ _ _ m hm
    intro x hx
    have hn := hmem n List.mem_cons_self
    unfold pStep
    by_cases h1 : x = n
    · subst h1; rw [if_pos rfl, if_pos rfl, hO x hx, hW]
    · rw [if_neg h1, if_neg (fun e => h1 (f.injective e))]
      by_cases h3 : 0 < W n ∧ W n < 1 ∧ Descendant t n x
      · rw [if_pos h3, if_pos ⟨by rw [hW]; exact h3.1, by rw [hW]; exact h3.2.1, iso.desc.mpr h3.2.2⟩,
          hO n hn, hq x hx, hW]
      · rw [if_neg h3, if_neg (fun h4 => h3 ⟨by rw [← hW]; exact h4.1, by rw [← hW]; exact h4.2.1,
          iso.desc.mp h4.2.2⟩), hq x hx]

/-! ### The levels -/

lemma idsAt_perm (iso : TreeIso f t t') (h : RootedTree t r) (h' : RootedTree t' (f r))
    (hW : ∀ n, W' (f n) = W n) {s : List I} {s' : List J}
    (hs : Ascending t s) (hs' : Ascending t' s') (l : ℤ) :
    (idsAt t' W' s' l).Perm ((idsAt t W s l).map f) := by
  rw [List.perm_ext_iff_of_nodup (idsAt_nodup h' hs' l) ((idsAt_nodup h hs l).map f.injective)]
  intro m
  obtain ⟨m, rfl⟩ := f.surjective m
  rw [mem_idsAt h' hs', List.mem_map, iso.mem_nodes, iso.lev_eq, hW]
  constructor
  · intro e; exact ⟨m, (mem_idsAt h hs).mpr e, rfl⟩
  · rintro ⟨x, hx, e⟩
    rw [← f.injective e]; exact (mem_idsAt h hs).mp hx

lemma meanOf_eq {q : I → Rot (Vec d)} {q' : J → Rot (Vec d)} {ids : List I} {ids' : List J}
    (hp : ids'.Perm (ids.map f)) (hq : ∀ n ∈ ids, q' (f n) = q n) : meanOf q' ids' = meanOf q ids := by
  unfold meanOf
  rw [(hp.map _).sum_eq, List.map_map]
  congr 1
  apply List.map_congr_left
  intro n hn
  simp only [Function.comp, hq n hn]

lemma unrot_eq (iso : TreeIso f t t') (h : RootedTree t r) (h' : RootedTree t' (f r)) {l : ℤ}
    {q : I → Rot (Vec d)} {q' : J → Rot (Vec d)} {ids : List I} {ids' : List J}
    (hp : ids'.Perm (ids.map f)) (hnd : ids.Nodup) (hl : ∀ n ∈ ids, lev t n = l)
    (hq : ∀ n ∈ t.nodes, q' (f n) = q n) {m : I} (hm : m ∈ t.nodes) :
    unrot t' ids' q' (f m) = unrot t ids q m := by
  have hnd' : ids'.Nodup := hp.nodup_iff.mpr (hnd.map f.injective)
  have hl' : ∀ n ∈ ids', lev t' n = l := by
    intro n hn
    obtain ⟨x, hx, rfl⟩ := List.mem_map.mp (hp.mem_iff.mp hn)
    rw [iso.lev_eq]; exact hl x hx
  by_cases hd : ∃ n ∈ ids, Descendant t n m
  · obtain ⟨n, hn, hnm⟩ := hd
    rw [unrot_desc h l ids hnd hl q n m hn hnm,
      unrot_desc h' l ids' hnd' hl' q' (f n) (f m) (hp.mem_iff.mpr (List.mem_map.mpr ⟨n, hn, rfl⟩))
        (iso.desc.mpr hnm), hq m hm, hq n (h.desc_mem_left hnm)]
  · rw [unrot_not ids q m (fun n hn e => hd ⟨n, hn, e⟩), unrot_not, hq m hm]
    intro n hn e
    obtain ⟨x, hx, rfl⟩ := List.mem_map.mp (hp.mem_iff.mp hn)
    exact hd ⟨x, hx, iso.desc.mp e⟩

lemma levelParts_eq (iso : TreeIso f t t') (h : RootedTree t r) (h' : RootedTree t' (f r)) {l : ℤ}
    {q : I → Rot (Vec d)} {q' : J → Rot (Vec d)} {ids : List I} {ids' : List J}
    (hp : ids'.Perm (ids.map f)) (hnd : ids.Nodup) (hl : ∀ n ∈ ids, lev t n = l)
    (hq : ∀ n ∈ t.nodes, q' (f n) = q n) (R : Rot (Vec d)) {m : I} (hm : m ∈ t.nodes) :
    levelParts t' q' ids' R (f m) = levelParts t q ids R m := by
  unfold levelParts
  rw [iso.unrot_eq h h' hp hnd hl hq hm, hq m hm]
  have e : (∃ n ∈ ids', Descendant t' n (f m)) ↔ ∃ n ∈ ids, Descendant t n m := by
    constructor
    · rintro ⟨n, hn, hd⟩
      obtain ⟨x, hx, rfl⟩ := List.mem_map.mp (hp.mem_iff.mp hn)
      exact ⟨x, hx, iso.desc.mp hd⟩
    · rintro ⟨n, hn, hd⟩
      exact ⟨f n, hp.mem_iff.mpr (List.mem_map.mpr ⟨n, hn, rfl⟩), iso.desc.mpr hd⟩
  by_cases hd : ∃ n ∈ ids, Descendant t n m
  · rw [if_pos hd, if_pos (e.mpr hd)]
  · rw [if_neg hd, if_neg (fun x => hd (e.mp x))]

lemma leaves_iff (iso : TreeIso f t t') {ids : List I} {ids' : List J}
    (hp : ids'.Perm (ids.map f)) :
    (∀ n ∈ ids', ∀ m, ¬ Descendant t' n m) ↔ ∀ n ∈ ids, ∀ m, ¬ Descendant t n m := by
  constructor
  · intro hh n hn m e
    exact hh (f n) (hp.mem_iff.mpr (List.mem_map.mpr ⟨n, hn, rfl⟩)) (f m) (iso.desc.mpr e)
  · intro hh n hn m e
    obtain ⟨x, hx, rfl⟩ := List.mem_map.mp (hp.mem_iff.mp hn)
    obtain ⟨m, rfl⟩ := f.surjective m
    exact hh x hx m (iso.desc.mp e)

/-- Two states of the loop over the levels with the same content. -/
structure SameState (f : I ≃ J) (t : Tree I d) (s : PState I d) (s' : PState J d) : Prop where
  q : ∀ n ∈ t.nodes, s'.q (f n) = s.q n
  seq : s'.seq = s.seq

variable [h2 : Fact (2 ≤ d)]

lemma pureLevel_eq (iso : TreeIso f t t') (h : RootedTree t r) (h' : RootedTree t' (f r))
    (hW : ∀ n, W' (f n) = W n) {so : List I} {so' : List J}
    (hs : Ascending t so) (hs' : Ascending t' so') {s : PState I d} {s' : PState J d}
    (hss : SameState f t s s') {l : ℤ} {S : Vec d} (hi : LevelInv t W O l s.q S) :
    SameState f t (pureLevel t W so s l) (pureLevel t' W' so' s' l) := by
  have hp := iso.idsAt_perm h h' hW hs hs' l
  have hids : ∀ n ∈ idsAt t W so l, n ∈ t.nodes ∧ lev t n = l ∧ W n ≠ 0 :=
    fun n hn => (mem_idsAt h hs).mp hn
  by_cases hne : idsAt t W so l = []
  · rw [hne, List.map_nil, List.perm_nil] at hp
    rw [pureLevel_nil s l hne, pureLevel_nil s' l hp]; exact hss
  · have hne' : idsAt t' W' so' l ≠ [] := by
      intro e; rw [e] at hp
      have := hp.symm.eq_nil
      rw [List.map_eq_nil_iff] at this; exact hne this
    set R := levelRot s.q (idsAt t W so l) S with hR
    have hR' : R = levelRot s'.q (idsAt t' W' so' l) S := by
      rw [hR]; unfold levelRot
      rw [meanOf_eq hp (fun n hn => hss.q n (hids n hn).1)]
    have hb0 : ∀ n ∈ idsAt t' W' so' l, (s'.q n).base.b0 = S := by
      intro n hn
      obtain ⟨x, hx, rfl⟩ := List.mem_map.mp (hp.mem_iff.mp hn)
      rw [hss.q x (hids x hx).1]
      exact hi.shared x (hids x hx).1 (hids x hx).2.1 (hids x hx).2.2
    have e' : pureLevel t' W' so' s' l =
        open Classical in
        if ∀ n ∈ idsAt t' W' so' l, ∀ m, ¬ Descendant t' n m then { s' with last := some R }
        else if R.angle = 0 then ⟨levelParts t' s'.q (idsAt t' W' so' l) R, s'.seq, some R⟩
        else ⟨levelParts t' s'.q (idsAt t' W' so' l) R, s'.seq ++ [R], some R⟩ := by
      rw [hR']
      unfold pureLevel
      cases hl : idsAt t' W' so' l with
      | nil => exact absurd hl hne'
      | cons n0 rest =>
        have := hb0 n0 (by rw [hl]; simp)
        simp only [this]
    rw [pureLevel_cons h hs hi hne R hR, e']
    have hparts : ∀ n ∈ t.nodes, levelParts t' s'.q (idsAt t' W' so' l) R (f n)
        = levelParts t s.q (idsAt t W so l) R n := fun n hn =>
      iso.levelParts_eq h h' hp (idsAt_nodup h hs l) (fun x hx => (hids x hx).2.1) hss.q R hn
    by_cases hd : ∀ n ∈ idsAt t W so l, ∀ m, ¬ Descendant t n m
    · rw [if_pos hd, if_pos ((iso.leaves_iff hp).mpr hd)]; exact ⟨hss.q, hss.seq⟩
    · rw [if_neg hd, if_neg (fun x => hd ((iso.leaves_iff hp).mp x))]
      by_cases h0 : R.angle = 0
      · rw [if_pos h0, if_pos h0]; exact ⟨hparts, hss.seq⟩
      · rw [if_neg h0, if_neg h0]; exact ⟨hparts, by simp only [hss.seq]⟩

lemma levelsUpTo_eq (iso : TreeIso f t t') (h : RootedTree t r) (h' : RootedTree t' (f r))
    (hW : ∀ n, W' (f n) = W n) {so : List I} {so' : List J}
    (hs : Ascending t so) (hs' : Ascending t' so') (hgw : GoodWeights t r W)
    (hO : ∀ n ∈ t.nodes, 0 ≤ (O n).angle) {q : I → Rot (Vec d)} {q' : J → Rot (Vec d)}
    (hq : Linked t r W O q) (hqq : ∀ n ∈ t.nodes, q' (f n) = q n) (K : ℕ)
    (hK : ∀ l : ℤ, (∃ n ∈ t.nodes, lev t n = l ∧ W n ≠ 0) ↔ 0 ≤ l ∧ l < K) (j : ℕ) (hj : j ≤ K) :
    SameState f t (levelsUpTo t W so ⟨q, [], none⟩ j) (levelsUpTo t' W' so' ⟨q', [], none⟩ j) := by
  induction j with
  | zero => exact ⟨hqq, rfl⟩
  | succ j ih =>
    rw [levelsUpTo_succ, levelsUpTo_succ]
    obtain ⟨S, hS⟩ := loop_inv h hs hgw.nonneg hgw.mono' hO hq K hK j (by omega)
    exact iso.pureLevel_eq h h' hW hs hs' (ih (by omega)) hS.level

lemma goodWeights (iso : TreeIso f t t') (hW : ∀ n, W' (f n) = W n) (hgw : GoodWeights t r W) :
    GoodWeights t' (f r) W' := by
  refine ⟨fun n => ?_, fun p c hp => ?_, fun n hn hr => ?_⟩
  · obtain ⟨n, rfl⟩ := f.surjective n
    rw [hW]; exact hgw.nonneg n
  · obtain ⟨p, rfl⟩ := f.surjective p
    obtain ⟨c, rfl⟩ := f.surjective c
    rw [hW, hW]; exact hgw.mono p c (iso.isParent.mp hp)
  · obtain ⟨n, rfl⟩ := f.surjective n
    rw [hW]
    refine (hgw.le_one n (iso.mem_nodes.mp hn) (fun e => hr (congrArg f e))).imp_right ?_
    rintro ⟨p, hp, e⟩
    exact ⟨f p, iso.isParent.mpr hp, by rw [iso.dirOf_eq, iso.dirOf_eq, e]⟩

/-- The reduction of a tree does not depend on the names and the order of the nodes. -/
lemma reduce_eq (iso : TreeIso f t t') (h : RootedTree t r) (h' : RootedTree t' (f r))
    (hd : Defined t) (hE : ExactInner t r (orientOf t r)) {argsort : List ℤ → List ℕ}
    (has : ArgsortSpec argsort) (st : NodeState I d) (st' : NodeState J d) {ns : List I}
    {ns' : List J} {ws ws' : List ℝ} (hlen : ns.length = ws.length)
    (hknown : ∀ n ∈ ns, n ∈ t.nodes) (hlen' : ns'.length = ws'.length) (hnd : ns.Nodup)
    (hgiven : (ns'.zip ws').Perm ((ns.zip ws).map (Prod.map f id)))
    (hgw : GoodWeights t r (branchWeight t (ns.zip ws)))
    (hr : branchWeight t (ns.zip ws) r ≠ 0) :
    t'.reduceWeightedToSequence argsort st' ns' ws' = t.reduceWeightedToSequence argsort st ns ws := by
  have hnd' : ((ns.zip ws).map Prod.fst).Nodup := by
    rw [List.map_fst_zip (by omega)]; exact hnd
  have hW : ∀ n, branchWeight t' (ns'.zip ws') (f n) = branchWeight t (ns.zip ws) n :=
    fun n => iso.branchWeight_eq hgiven hnd' n
  have hknown' : ∀ n ∈ ns', n ∈ t'.nodes := by
    intro n hn
    have e : ns' = (ns'.zip ws').map Prod.fst := (List.map_fst_zip (by omega)).symm
    rw [e, (hgiven.map Prod.fst).mem_iff, List.map_map] at hn
    obtain ⟨p, hp, rfl⟩ := List.mem_map.mp hn
    exact iso.mem_nodes.mpr (hknown _ (zip_fst_mem hp).1)
  obtain ⟨L, hL⟩ := exists_deepest h hgw hr
  have hL' : ∀ l : ℤ, (∃ n ∈ t'.nodes, lev t' n = l ∧ branchWeight t' (ns'.zip ws') n ≠ 0)
      ↔ 0 ≤ l ∧ l < (L + 1 : ℕ) := by
    intro l
    rw [← hL l]
    constructor
    · rintro ⟨n, h1, h3, h4⟩
      obtain ⟨n, rfl⟩ := f.surjective n
      exact ⟨n, iso.mem_nodes.mp h1, by rw [← iso.lev_eq]; exact h3, by rw [← hW]; exact h4⟩
    · rintro ⟨n, h1, h3, h4⟩
      exact ⟨f n, iso.mem_nodes.mpr h1, by rw [iso.lev_eq]; exact h3, by rw [hW]; exact h4⟩
  obtain ⟨so, S, R, -, a1, a2, a3, a4, a5, a6, a7⟩ :=
    reduce_spec_inner h hd hE has st hlen hknown hgw rfl L hL
  obtain ⟨so', S', R', -, b1, b2, b3, b4, b5, b6, b7⟩ :=
    reduce_spec_inner h' (iso.defined hd) (iso.exactInner h h' hd hE) has st' hlen' hknown'
      (iso.goodWeights hW hgw) rfl L hL'
  have hp := iso.idsAt_perm h h' hW a1 b1 L
  have hss := iso.levelsUpTo_eq h h' hW a1 b1 hgw
    (fun n hn => (orientOf_isOrient h hd).angle_nonneg h hn) a2
    (fun n hn => iso.partOf_eq h' hW (fun m hm => iso.orientOf_eq h h' hd hm) a1 b1 hn)
    (L + 1) hL L (by omega)
  have hSS : S' = S := by
    obtain ⟨n, h1, h3, h4⟩ := (hL L).mpr ⟨by omega, by push_cast; omega⟩
    rw [← a3.level.shared n h1 h3 h4, ← hss.q n h1]
    exact (b3.level.shared (f n) (iso.mem_nodes.mpr h1) (by rw [iso.lev_eq]; exact h3)
      (by rw [hW]; exact h4)).symm
  have hRR : R' = R := by
    rw [a4, b4, hSS]; unfold levelRot
    rw [meanOf_eq hp (fun n hn => hss.q n ((mem_idsAt h a1).mp hn).1)]
  rw [a7, b7, hRR, hss.seq]
  by_cases hc : (∀ n ∈ idsAt t (branchWeight t (ns.zip ws)) so L, ∀ m, ¬ Descendant t n m)
      ∨ R.angle = 0
  · rw [if_pos hc, if_pos (hc.imp_left (iso.leaves_iff hp).mpr)]
  · rw [if_neg hc, if_neg (fun e => hc (e.imp_left (iso.leaves_iff hp).mp))]

end TreeIso
end Verif
