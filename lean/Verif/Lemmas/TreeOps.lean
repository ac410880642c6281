import Verif.Lemmas.TreeIso
import Verif.Lemmas.AvoiderStar

/-!
# Growing a tree in a different order and with different names
-/

open scoped RealInnerProductSpace

namespace Verif
open Spec

variable {d k : ℕ} [Fact (2 ≤ d)]
set_option linter.unusedSectionVars false

/-- A successful call of `add_node`: the node with its direction, parent and level. -/
structure Op (d : ℕ) where
  node : NodeId
  dir : Vec d
  parent : NodeId
  level : ℤ

/-- The call with other names. -/
def Op.rename (f : NodeId ≃ NodeId) (o : Op d) : Op d := ⟨f o.node, o.dir, f o.parent, o.level⟩

/-- The effect of a successful call. -/
def insertOp (t : Tree NodeId d) (o : Op d) : Tree NodeId d :=
  { nodes := t.nodes ++ [o.node]
    edges := t.edges ++ [(o.parent, o.node)]
    level := Function.update t.level o.node (some o.level)
    dir := Function.update t.dir o.node (some o.dir)
    root := t.root }

/-- The effect of several calls. -/
def applyOps (t : Tree NodeId d) (ops : List (Op d)) : Tree NodeId d := ops.foldl insertOp t

lemma applyOps_append (t : Tree NodeId d) (l₁ l₂ : List (Op d)) :
    applyOps t (l₁ ++ l₂) = applyOps (applyOps t l₁) l₂ := by
  unfold applyOps; rw [List.foldl_append]

lemma applyOps_nodes (t : Tree NodeId d) (ops : List (Op d)) :
    (applyOps t ops).nodes = t.nodes ++ ops.map Op.node := by
  induction ops generalizing t with
  | nil => simp [applyOps]
  | cons o ops ih =>
    change (applyOps (insertOp t o) ops).nodes = _
    rw [ih]; simp [insertOp]

lemma applyOps_edges (t : Tree NodeId d) (ops : List (Op d)) :
    (applyOps t ops).edges = t.edges ++ ops.map (fun o => (o.parent, o.node)) := by
  induction ops generalizing t with
  | nil => simp [applyOps]
  | cons o ops ih =>
    change (applyOps (insertOp t o) ops).edges = _
    rw [ih]; simp [insertOp]

lemma applyOps_root (t : Tree NodeId d) (ops : List (Op d)) : (applyOps t ops).root = t.root := by
  induction ops generalizing t with
  | nil => rfl
  | cons o ops ih =>
    change (applyOps (insertOp t o) ops).root = _
    rw [ih]; rfl

lemma applyOps_not (t : Tree NodeId d) (ops : List (Op d)) (m : NodeId)
    (hm : ∀ o ∈ ops, o.node ≠ m) :
    (applyOps t ops).level m = t.level m ∧ (applyOps t ops).dir m = t.dir m := by
  induction ops generalizing t with
  | nil => exact ⟨rfl, rfl⟩
  | cons o ops ih =>
    change (applyOps (insertOp t o) ops).level m = _ ∧ (applyOps (insertOp t o) ops).dir m = _
    have h1 := ih (insertOp t o) (fun x hx => hm x (List.mem_cons_of_mem _ hx))
    have h3 := hm o List.mem_cons_self
    rw [h1.1, h1.2]
    exact ⟨Function.update_of_ne (Ne.symm h3) _ _, Function.update_of_ne (Ne.symm h3) _ _⟩

lemma applyOps_mem (t : Tree NodeId d) (ops : List (Op d)) (hnd : (ops.map Op.node).Nodup) (o : Op d)
    (ho : o ∈ ops) :
    (applyOps t ops).level o.node = some o.level ∧ (applyOps t ops).dir o.node = some o.dir := by
  induction ops generalizing t with
  | nil => simp at ho
  | cons p ops ih =>
    change (applyOps (insertOp t p) ops).level o.node = _ ∧ (applyOps (insertOp t p) ops).dir o.node = _
    rw [List.map_cons, List.nodup_cons] at hnd
    rcases List.mem_cons.mp ho with e | e
    · subst e
      have := applyOps_not (insertOp t o) ops o.node
        (fun x hx e => hnd.1 (List.mem_map.mpr ⟨x, hx, e⟩))
      rw [this.1, this.2]
      exact ⟨Function.update_self _ _ _, Function.update_self _ _ _⟩
    · exact ih _ hnd.2 e

/-- Two trees look the same on the nodes in `V`, up to the names. -/
def Agree (f : NodeId ≃ NodeId) (V : NodeId → Prop) (t t' : Tree NodeId d) : Prop :=
  ∀ n, V n → (f n ∈ t'.nodes ↔ n ∈ t.nodes) ∧ t'.level (f n) = t.level n ∧ t'.dir (f n) = t.dir n

lemma Agree.insert {f : NodeId ≃ NodeId} {V : NodeId → Prop} {t t' : Tree NodeId d}
    (h : Agree f V t t') (o : Op d) : Agree f V (insertOp t o) (insertOp t' (o.rename f)) := by
  intro n hn
  obtain ⟨h1, h2, h3⟩ := h n hn
  by_cases e : n = o.node
  · subst e
    simp [insertOp, Op.rename]
  · have e' : f n ≠ f o.node := fun x => e (f.injective x)
    simp [insertOp, Op.rename, e, h1, h2, h3]

lemma Agree.ops {f : NodeId ≃ NodeId} {V : NodeId → Prop} {t t' : Tree NodeId d}
    (h : Agree f V t t') (ops : List (Op d)) :
    Agree f V (applyOps t ops) (applyOps t' (ops.map (Op.rename f))) := by
  induction ops generalizing t t' with
  | nil => exact h
  | cons o ops ih => exact ih (h.insert o)

/-- Calls for nodes outside of `V` do not matter. -/
lemma Agree.other {f : NodeId ≃ NodeId} {V : NodeId → Prop} {t t' : Tree NodeId d}
    (h : Agree f V t t') (ops : List (Op d)) (ho : ∀ o ∈ ops, ∀ n, V n → o.node ≠ f n) :
    Agree f V t (applyOps t' ops) := by
  intro n hn
  obtain ⟨h1, h2, h3⟩ := h n hn
  have := applyOps_not t' ops (f n) (fun o h => ho o h n hn)
  refine ⟨?_, this.1.trans h2, this.2.trans h3⟩
  rw [applyOps_nodes, List.mem_append, ← h1]
  refine ⟨fun e => e.resolve_right ?_, Or.inl⟩
  intro e
  obtain ⟨o, h4, h5⟩ := List.mem_map.mp e
  exact ho o h4 n hn h5

lemma Agree.other_left {f : NodeId ≃ NodeId} {V : NodeId → Prop} {t t' : Tree NodeId d}
    (h : Agree f V t t') (ops : List (Op d)) (ho : ∀ o ∈ ops, ¬ V o.node) :
    Agree f V (applyOps t ops) t' := by
  intro n hn
  obtain ⟨h1, h2, h3⟩ := h n hn
  have := applyOps_not t ops n (fun o h e => ho o h (e ▸ hn))
  refine ⟨?_, h2.trans this.1.symm, h3.trans this.2.symm⟩
  rw [applyOps_nodes, List.mem_append, h1]
  refine ⟨Or.inl, fun e => e.resolve_right ?_⟩
  intro e
  obtain ⟨o, h4, h5⟩ := List.mem_map.mp e
  exact ho o h4 (h5 ▸ hn)

/-- The tree `t1` arises from `t` by calls for nodes in `A`; the renamed calls lead from every tree
`t'` that looks like `t` on `V` to a tree `t1'` with `Q t' t1'`. -/
def Runs (f : NodeId ≃ NodeId) (A V : NodeId → Prop) (r : NodeId) (t t1 : Tree NodeId d)
    (Q : Tree NodeId d → Tree NodeId d → Prop) : Prop :=
  RootedTree t1 r ∧ ∃ ops : List (Op d), (∀ o ∈ ops, A o.node) ∧ t1 = applyOps t ops
    ∧ ∀ t', RootedTree t' (f r) → Agree f V t t' →
      RootedTree (applyOps t' (ops.map (Op.rename f))) (f r)
        ∧ Q t' (applyOps t' (ops.map (Op.rename f)))

lemma Runs.refl {f : NodeId ≃ NodeId} {A V : NodeId → Prop} {r : NodeId} {t : Tree NodeId d}
    (h : RootedTree t r) : Runs f A V r t t (fun a b => b = a) :=
  ⟨h, [], by simp, rfl, fun _ h' _ => ⟨h', rfl⟩⟩

lemma Runs.mono {f : NodeId ≃ NodeId} {A V : NodeId → Prop} {r : NodeId} {t t1 : Tree NodeId d}
    {Q Q' : Tree NodeId d → Tree NodeId d → Prop} (h : Runs f A V r t t1 Q)
    (hQ : ∀ a b, Q a b → Q' a b) : Runs f A V r t t1 Q' := by
  obtain ⟨h1, ops, h2, h3, h4⟩ := h
  exact ⟨h1, ops, h2, h3, fun t' a b => ⟨(h4 t' a b).1, hQ _ _ (h4 t' a b).2⟩⟩

lemma Runs.trans {f : NodeId ≃ NodeId} {A V : NodeId → Prop} {r : NodeId} {t t1 t2 : Tree NodeId d}
    {Q Q' : Tree NodeId d → Tree NodeId d → Prop} (h : Runs f A V r t t1 Q)
    (h' : Runs f A V r t1 t2 Q') : Runs f A V r t t2 (fun a c => ∃ b, Q a b ∧ Q' b c) := by
  obtain ⟨h1, ops, h2, h3, h4⟩ := h
  obtain ⟨g1, ops', g2, g3, g4⟩ := h'
  refine ⟨g1, ops ++ ops', ?_, ?_, ?_⟩
  · intro o ho
    rcases List.mem_append.mp ho with e | e
    · exact h2 o e
    · exact g2 o e
  · rw [applyOps_append, ← h3, ← g3]
  · intro t' ht' hag
    obtain ⟨e1, e2⟩ := h4 t' ht' hag
    have hag' := hag.ops ops
    rw [← h3] at hag'
    obtain ⟨e3, e4⟩ := g4 _ e1 hag'
    rw [List.map_append, applyOps_append]
    exact ⟨e3, _, e2, e4⟩

/-- One call of `add_node`. -/
lemma addNode_runs {f : NodeId ≃ NodeId} {A V : NodeId → Prop} {r n p : NodeId} {v : Vec d}
    {t t1 : Tree NodeId d} (h : RootedTree t r) (hA : A n) (hn : V n) (hp : V p)
    (hok : orRaise (t.addNode n v (some p)) = .ok t1) :
    Runs f A V r t t1 (fun a b => orRaise (a.addNode (f n) v (some (f p))) = .ok b) := by
  obtain ⟨e1, e2⟩ := orRaise_ok.mp hok
  subst e1
  have hform : ∀ (t : Tree NodeId d) (r n p : NodeId), RootedTree t r →
      (t.addNode n v (some p)).2 = .ok () → ∀ l, t.level p = some l →
      (t.addNode n v (some p)).1 = insertOp t ⟨n, unit v, p, l + 1⟩ := by
    intro t r n p h hok l hl
    have he := C17_add_node_effect t r h n p v hok
    have hr := C17_add_node t r h n p v hok
    have hi := (C17_add_node_ok_iff t r h n p v).mp hok
    obtain ⟨f1, f2, f3, f4, f5⟩ := he
    obtain ⟨l', c1, c2⟩ := hr.child_level p n (by unfold IsParent; rw [f2]; simp)
    have hpn : p ≠ n := fun e => hi.2.1 (e ▸ hi.2.2.1)
    rw [(f4 p hpn).2, hl] at c1
    have c1 := Option.some.inj c1
    subst c1
    generalize (t.addNode n v (some p)).1 = T at *
    obtain ⟨Tn, Te, Tl, Td, Tr⟩ := T
    simp only at f1 f2 f3 f4 f5 c2
    subst f1 f2 f5
    unfold insertOp
    congr 1
    · funext m
      by_cases e : m = n
      · subst e; rw [Function.update_self, c2]
      · rw [Function.update_of_ne e, (f4 m e).2]
    · funext m
      by_cases e : m = n
      · subst e; rw [Function.update_self, f3]
      · rw [Function.update_of_ne e, (f4 m e).1]
  obtain ⟨i1, i2, i3, l, i4, i5⟩ := (C17_add_node_ok_iff t r h n p v).mp e2
  refine ⟨C17_add_node t r h n p v e2, [⟨n, unit v, p, l + 1⟩], by simpa using hA, ?_, ?_⟩
  · rw [hform t r n p h e2 l i4]; rfl
  · intro t' ht' hag
    have hok' : (t'.addNode (f n) v (some (f p))).2 = .ok () := by
      rw [C17_add_node_ok_iff t' (f r) ht']
      exact ⟨i1, fun e => i2 ((hag n hn).1.mp e), (hag p hp).1.mpr i3, l, by rw [(hag p hp).2.1, i4], i5⟩
    have hf := hform t' (f r) (f n) (f p) ht' hok' l (by rw [(hag p hp).2.1, i4])
    have : applyOps t' (List.map (Op.rename f) [⟨n, unit v, p, l + 1⟩])
        = (t'.addNode (f n) v (some (f p))).1 := by rw [hf]; rfl
    rw [this]
    exact ⟨C17_add_node t' (f r) ht' _ _ _ hok', orRaise_ok.mpr ⟨rfl, hok'⟩⟩

/-! ### The loop over the obstacles -/

/-- A loop which grows a tree and collects data. -/
def foldRun {P D : Type} (run : P → Tree NodeId d → Except PyErr (Tree NodeId d × D))
    (t : Tree NodeId d) : List P → Except PyErr (Tree NodeId d × List D)
  | [] => .ok (t, [])
  | p :: l =>
    match run p t with
    | .error e => .error e
    | .ok (t1, D) =>
      match foldRun run t1 l with
      | .error e => .error e
      | .ok (t2, Ds) => .ok (t2, D :: Ds)

lemma exists_perm_map {α β : Type*} (g : α → β) : ∀ (l' : List β) (E : List α), l'.Perm (E.map g) →
    ∃ E' : List α, E'.Perm E ∧ E'.map g = l' := by
  intro l'
  induction l' with
  | nil =>
    intro E h
    have := h.symm.eq_nil
    rw [List.map_eq_nil_iff] at this
    exact ⟨[], by rw [this], rfl⟩
  | cons b l' ih =>
    intro E h
    have hb : b ∈ E.map g := h.mem_iff.mp List.mem_cons_self
    obtain ⟨e, he, rfl⟩ := List.mem_map.mp hb
    obtain ⟨pre, post, rfl⟩ := List.append_of_mem he
    have h' : l'.Perm ((pre ++ post).map g) := by
      have h3 : ((pre ++ e :: post).map g).Perm (g e :: (pre ++ post).map g) := by
        rw [List.map_append, List.map_cons, List.map_append]; exact List.perm_middle
      exact (h.trans h3).cons_inv
    obtain ⟨E', h1, h2⟩ := ih _ h'
    exact ⟨e :: E', (h1.cons e).trans List.perm_middle.symm, by rw [List.map_cons, h2]⟩

/-- The loop over the obstacles may be run in a different order and with different names. -/
lemma foldRun_perm {P D : Type} {f : NodeId ≃ NodeId} {r : NodeId} {idx : P → ℤ} {ix : NodeId → ℤ}
    {run : P → Tree NodeId d → Except PyErr (Tree NodeId d × D)} {φ : P → P} {ψ : D → D} {l l' : List P}
    (hrun : ∀ p ∈ l, ∀ t t1 D, RootedTree t r → run p t = .ok (t1, D) →
      Runs f (fun n => ix n = idx p) (fun n => ix n = idx p ∨ n = r) r t t1
        (fun a b => run (φ p) a = .ok (b, ψ D)))
    (hidx : (l.map idx).Nodup) (hroot : ix r ∉ l.map idx) (hp : l'.Perm (l.map φ))
    {t0 t0' t1 : Tree NodeId d} {Ds : List D} (h0 : RootedTree t0 r) (h0' : RootedTree t0' (f r))
    (hiso : TreeIso f t0 t0') (hok : foldRun run t0 l = .ok (t1, Ds)) :
    ∃ t1' Ds', foldRun run t0' l' = .ok (t1', Ds') ∧ Ds'.Perm (Ds.map ψ) ∧ TreeIso f t1 t1'
      ∧ RootedTree t1 r ∧ RootedTree t1' (f r) := by
  -- the calls of every obstacle
  have hE : ∀ (l : List P) (pre : List (Op d)) (t1 : Tree NodeId d) (Ds : List D),
      (∀ p ∈ l, ∀ t t1 D, RootedTree t r → run p t = .ok (t1, D) →
      Runs f (fun n => ix n = idx p) (fun n => ix n = idx p ∨ n = r) r t t1
        (fun a b => run (φ p) a = .ok (b, ψ D))) → (l.map idx).Nodup → ix r ∉ l.map idx →
      (∀ o ∈ pre, o.node ≠ r ∧ ix o.node ∉ l.map idx) → RootedTree (applyOps t0 pre) r →
      foldRun run (applyOps t0 pre) l = .ok (t1, Ds) →
      ∃ E : List (P × List (Op d) × D), E.map Prod.fst = l ∧ E.map (fun e => e.2.2) = Ds
        ∧ t1 = applyOps t0 (pre ++ E.flatMap (fun e => e.2.1)) ∧ RootedTree t1 r
        ∧ ∀ e ∈ E, (∀ o ∈ e.2.1, ix o.node = idx e.1) ∧ ∀ t', RootedTree t' (f r) →
          Agree f (fun n => ix n = idx e.1 ∨ n = r) t0 t' →
          RootedTree (applyOps t' (e.2.1.map (Op.rename f))) (f r)
            ∧ run (φ e.1) t' = .ok (applyOps t' (e.2.1.map (Op.rename f)), ψ e.2.2) := by
    intro l
    induction l with
    | nil =>
      intro pre t1 Ds _ _ _ _ hr hok
      unfold foldRun at hok
      cases hok
      exact ⟨[], rfl, rfl, by simp, hr, by simp⟩
    | cons p l ih =>
      intro pre t1 Ds hrun hidx hroot hpre hr hok
      unfold foldRun at hok
      cases h1 : run p (applyOps t0 pre) with
      | error e => rw [h1] at hok; cases hok
      | ok w =>
        obtain ⟨t2, D⟩ := w
        rw [h1] at hok
        simp only at hok
        obtain ⟨g1, ops, g2, g3, g4⟩ := hrun p List.mem_cons_self _ _ _ hr h1
        cases h3 : foldRun run t2 l with
        | error e => rw [h3] at hok; cases hok
        | ok w =>
          obtain ⟨t3, Ds'⟩ := w
          rw [h3] at hok
          cases hok
          rw [g3, ← applyOps_append] at h3
          rw [g3, ← applyOps_append] at g1
          rw [List.map_cons, List.nodup_cons] at hidx
          rw [List.map_cons, List.mem_cons, not_or] at hroot
          obtain ⟨E, a1, a2, a3, a4, a5⟩ := ih (pre ++ ops) _ _
            (fun q hq => hrun q (List.mem_cons_of_mem _ hq)) hidx.2 hroot.2 (by
              intro o ho
              rcases List.mem_append.mp ho with e | e
              · exact ⟨(hpre o e).1, fun x => (hpre o e).2 (List.mem_cons_of_mem _ x)⟩
              · refine ⟨fun x => hroot.1 ?_, ?_⟩
                · rw [← x]; exact g2 o e
                · rw [g2 o e]; exact hidx.1) g1 h3
          refine ⟨(p, ops, D) :: E, by simp [a1], by simp [a2], ?_, a4, ?_⟩
          · rw [a3]; simp
          · intro e he
            rcases List.mem_cons.mp he with e' | e'
            · subst e'
              refine ⟨g2, fun t' ht' hag => ?_⟩
              apply g4 t' ht'
              apply hag.other_left
              rintro o ho (e' | e')
              · exact (hpre o ho).2 (by rw [e']; simp)
              · exact (hpre o ho).1 e'
            · exact a5 e e'
  obtain ⟨E, a1, a2, a3, a4, a5⟩ := hE l [] t1 Ds hrun hidx hroot (by simp) h0 hok
  rw [List.nil_append] at a3
  rw [← a1, List.map_map] at hp
  obtain ⟨E', hE', hmap⟩ := exists_perm_map _ l' E hp
  have hidx' : (E'.map (fun e => idx e.1)).Nodup := by
    rw [(hE'.map _).nodup_iff]
    rw [← a1, List.map_map] at hidx
    exact hidx
  -- the other loop
  have hrunE : ∀ (E1 : List (P × List (Op d) × D)) (pre : List (Op d)), (∀ e ∈ E1, e ∈ E) →
      (E1.map (fun e => idx e.1)).Nodup →
      (∀ o ∈ pre, o.node ≠ r ∧ ix o.node ∉ E1.map (fun e => idx e.1)) →
      RootedTree (applyOps t0' (pre.map (Op.rename f))) (f r) →
      foldRun run (applyOps t0' (pre.map (Op.rename f))) (E1.map (φ ∘ Prod.fst))
        = .ok (applyOps t0' ((pre ++ E1.flatMap (fun e => e.2.1)).map (Op.rename f)), E1.map (fun e => ψ e.2.2))
      ∧ RootedTree (applyOps t0' ((pre ++ E1.flatMap (fun e => e.2.1)).map (Op.rename f))) (f r) := by
    intro E1
    induction E1 with
    | nil => intro pre _ _ _ hr; simpa [foldRun] using hr
    | cons e E1 ih =>
      intro pre hmem hnd hpre hr
      rw [List.map_cons, List.nodup_cons] at hnd
      have he := a5 e (hmem e List.mem_cons_self)
      have hag : Agree f (fun n => ix n = idx e.1 ∨ n = r) t0 (applyOps t0' (pre.map (Op.rename f))) := by
        apply Agree.other
        · intro n _
          exact ⟨hiso.mem_nodes, hiso.level n, hiso.dir n⟩
        · intro o ho n hn e'
          obtain ⟨o', ho', rfl⟩ := List.mem_map.mp ho
          have := f.injective e'
          rcases hn with hn | hn
          · exact (hpre o' ho').2 (by rw [this, hn]; simp)
          · exact (hpre o' ho').1 (this.trans hn)
      obtain ⟨b1, b2⟩ := he.2 _ hr hag
      rw [← applyOps_append, ← List.map_append] at b1 b2
      have hroot' : ix r ∉ E.map (fun e => idx e.1) := by
        rw [← a1, List.map_map] at hroot; exact hroot
      obtain ⟨c1, c2⟩ := ih (pre ++ e.2.1) (fun x hx => hmem x (List.mem_cons_of_mem _ hx)) hnd.2 (by
        intro o ho
        rcases List.mem_append.mp ho with e' | e'
        · exact ⟨(hpre o e').1, fun x => (hpre o e').2 (List.mem_cons_of_mem _ x)⟩
        · refine ⟨fun x => hroot' ?_, ?_⟩
          · rw [← x, he.1 o e']; exact List.mem_map.mpr ⟨e, hmem e List.mem_cons_self, rfl⟩
          · rw [he.1 o e']; exact hnd.1) b1
      rw [List.map_cons]
      unfold foldRun
      simp only [Function.comp, b2]
      rw [List.append_assoc] at c1 c2
      rw [c1]
      refine ⟨by simp, by simpa using c2⟩
  obtain ⟨b1, b2⟩ := hrunE E' [] (fun e he => hE'.mem_iff.mp he) hidx' (by simp) h0'
  rw [hmap] at b1
  rw [List.nil_append] at b1 b2
  have hops : (E'.flatMap (fun e => e.2.1)).Perm (E.flatMap (fun e => e.2.1)) := hE'.flatMap_right _
  refine ⟨_, _, b1, ?_, ?_, a4, b2⟩
  · rw [← a2, List.map_map]
    exact hE'.map _
  · set ops := E.flatMap (fun e => e.2.1) with hopsdef
    set ops' := E'.flatMap (fun e => e.2.1) with hopsdef'
    have hnd : (ops.map Op.node).Nodup := by
      have := a4.nodup
      rw [a3, applyOps_nodes, List.nodup_append] at this
      exact this.2.1
    have hnd' : ((ops'.map (Op.rename f)).map Op.node).Nodup := by
      have := b2.nodup
      rw [applyOps_nodes, List.nodup_append] at this
      exact this.2.1
    have hattr : ∀ n, (applyOps t0' (ops'.map (Op.rename f))).level (f n) = t1.level n
        ∧ (applyOps t0' (ops'.map (Op.rename f))).dir (f n) = t1.dir n := by
      intro n
      rw [a3]
      by_cases hn : ∃ o ∈ ops, o.node = n
      · obtain ⟨o, ho, rfl⟩ := hn
        have e1 := applyOps_mem t0 ops hnd o ho
        have e2 := applyOps_mem t0' (ops'.map (Op.rename f)) hnd' (o.rename f)
          (List.mem_map.mpr ⟨o, hops.mem_iff.mpr ho, rfl⟩)
        rw [e1.1, e1.2]
        exact e2
      · push Not at hn
        have e1 := applyOps_not t0 ops n hn
        have e2 := applyOps_not t0' (ops'.map (Op.rename f)) (f n) (by
          intro o ho e
          obtain ⟨o', ho', rfl⟩ := List.mem_map.mp ho
          exact hn o' (hops.mem_iff.mp ho') (f.injective e))
        rw [e1.1, e1.2, e2.1, e2.2]
        exact ⟨hiso.level n, hiso.dir n⟩
    refine ⟨?_, ?_, fun n => (hattr n).1, fun n => (hattr n).2, ?_⟩
    · rw [a3, applyOps_nodes, applyOps_nodes, List.map_append, List.map_map, List.map_map]
      exact hiso.nodes.append (hops.map _)
    · rw [a3, applyOps_edges, applyOps_edges, List.map_append, List.map_map, List.map_map]
      exact hiso.edges.append (hops.map _)
    · rw [a3, applyOps_root, applyOps_root]; exact hiso.root

end Verif
