import Verif.Lemmas.GraphElement

/-!
# C133: parents and children of graph elements
-/

namespace Verif.Elements
open Spec

variable {α : Type} [DecidableEq α]

/-- C133: `parent.add_child(child)` and `child.set_parent(parent)` have the same effect. -/
theorem C133_same (h : Heap α) (p c : ℕ) : setParent h c p = addChild h p c := setParent_eq h p c

private lemma history {limit : ℕ} (hlim : 2 ≤ limit) (cs : List Call) : ∀ (h : Heap α) (gone : Finset ℕ),
    Linked h gone → Intended limit h gone cs → Linked (run limit h cs) (gone ∪ expelled cs) := by
  induction cs with
  | nil => intro h gone hl _; simpa [run, expelled] using hl
  | cons c cs ih =>
    intro h gone hl hi
    cases c with
    | addChild p c =>
      obtain ⟨h1, h2, h3, h4, h5⟩ := hi
      exact ih _ _ (linked_addChild hl h1 h2 h3 h4) h5
    | setParent c p =>
      obtain ⟨h1, h2, h3, h4, h5⟩ := hi
      rw [setParent_eq] at h5
      have := ih _ _ (linked_addChild hl h1 h2 h3 h4) h5
      rw [← setParent_eq] at this
      exact this
    | expel e =>
      obtain ⟨h1, h2, h3⟩ := hi
      have := ih _ _ (linked_expel hl h1 hlim h2) h3
      have he : gone ∪ expelled (.expel e :: cs) = insert e gone ∪ expelled cs := by
        simp [expelled, Finset.insert_union, Finset.union_insert]
      rw [he]
      exact this

/-- C133: after every history of the intended use, parents and children agree for all elements which have not been
expelled, and none of them refers to an expelled one.  Missing: a second parent (`C133_second_parent`), equal siblings
(`C133_twin`) and the expelled elements themselves (`C133_expel_keeps`), for which the claim fails. -/
theorem C133_history_partial (limit : ℕ) (hlim : 2 ≤ limit) (values : ℕ → α) (cs : List Call)
    (hi : Intended limit (fresh values) ∅ cs) : Linked (run limit (fresh values) cs) (expelled cs) := by
  have := history hlim cs (fresh values) ∅
    ⟨fun c _ p hp => (by cases hp), fun p _ c hc => (by cases hc), fun p _ => List.nodup_nil,
      fun c _ => (by simp [fresh])⟩ hi
  simpa using this

/-- C133: the call `expel` of an element returns in linked elements, clears the parent of its children and removes one
member of the list of its parent: the first one which is the element itself or, if the element has no children, a
sibling of the same value without children. -/
theorem C133_expel (limit : ℕ) (hlim : 2 ≤ limit) (h : Heap α) (gone : Finset ℕ) (hl : Linked h gone) (e : ℕ)
    (he : e ∉ gone) :
    (expel limit h e).2 = .ok ()
    ∧ (∀ a, ((expel limit h e).1 a).parent = if a ∈ (h e).children then none else (h a).parent)
    ∧ (∀ p, (h e).parent = some p → ((expel limit h e).1 p).children = (h p).children.eraseP (fun a =>
        a = e ∨ ((h a).value = (h e).value ∧ (h a).children = [] ∧ (h e).children = [])))
    ∧ (∀ a, (h e).parent ≠ some a → ((expel limit h e).1 a).children = (h a).children) := by
  obtain ⟨h1, _, h3, h4⟩ := expel_linked hl he hlim
  refine ⟨h1, h3, fun p hp => ?_, fun a ha => ?_⟩
  · rw [h4, if_pos hp]; rfl
  · rw [h4, if_neg ha]

/-- C133: if no sibling has the same value, no other element refers to the element after `expel`. -/
theorem C133_expel_unreferenced (limit : ℕ) (hlim : 2 ≤ limit) (h : Heap α) (gone : Finset ℕ) (hl : Linked h gone)
    (e : ℕ) (he : e ∉ gone) (hlone : Lone h e) (a : ℕ) (ha : a ∉ gone) (hae : a ≠ e) :
    ((expel limit h e).1 a).parent ≠ some e ∧ e ∉ ((expel limit h e).1 a).children := by
  have hl' := linked_expel hl he hlim hlone
  have ha' : a ∉ insert e gone := by rw [Finset.mem_insert, not_or]; exact ⟨hae, ha⟩
  exact ⟨fun hp => (hl'.listed a ha' e hp).1 (Finset.mem_insert_self e gone),
    fun hm => (hl'.back a ha' e hm).1 (Finset.mem_insert_self e gone)⟩

/-- C133, negative result: the expelled element itself keeps its parent and its children ("removes all connection" of
the documentation is violated). -/
theorem C133_expel_keeps (limit : ℕ) (hlim : 2 ≤ limit) (h : Heap α) (gone : Finset ℕ) (hl : Linked h gone) (e : ℕ)
    (he : e ∉ gone) :
    ((expel limit h e).1 e).parent = (h e).parent ∧ ((expel limit h e).1 e).children = (h e).children := by
  obtain ⟨_, _, h3, h4⟩ := expel_linked hl he hlim
  rw [h3, h4, if_neg (Linked.not_own hl he), if_neg (hl.other e he)]
  exact ⟨rfl, rfl⟩

/-- C133, negative result: of two siblings with the same value and without children the first one is removed from the
list of the parent, also if the other one is expelled: this one stays in the list, and the first one still names the
parent. -/
theorem C133_twin (limit : ℕ) (hlim : 2 ≤ limit) (h : Heap α) (gone : Finset ℕ) (hl : Linked h gone) (e s p : ℕ)
    (he : e ∉ gone) (hs : s ≠ e) (l m : List ℕ) (hp : (h e).parent = some p) (hch : (h p).children = s :: l ++ e :: m)
    (hv : (h s).value = (h e).value) (hcs : (h s).children = []) (hce : (h e).children = []) :
    ((expel limit h e).1 p).children = l ++ e :: m ∧ ((expel limit h e).1 s).parent = some p := by
  obtain ⟨_, _, h3, h4⟩ := expel_linked hl he hlim
  rw [h3, h4, if_pos hp, hch]
  refine ⟨?_, ?_⟩
  · rw [List.cons_append, List.eraseP_cons_of_pos]
    simp [takenFor, hv, hcs, hce]
  · rw [hce, if_neg (by simp)]
    exact (hl.back p (hl.listed e he p hp).1 s (by rw [hch]; simp)).2

/-- C133, negative result: an element which gets a second parent stays in the list of the first one. -/
theorem C133_second_parent (h : Heap α) (gone : Finset ℕ) (hl : Linked h gone) (c p q : ℕ) (hc : c ∉ gone)
    (hp : (h c).parent = some p) (hq : q ≠ p) :
    (addChild h q c c).parent = some q ∧ c ∈ (addChild h q c p).children ∧ c ∈ (addChild h q c q).children := by
  rw [addChild_parent, addChild_children, addChild_children, if_pos rfl, if_pos rfl, if_neg (Ne.symm hq)]
  exact ⟨rfl, (hl.listed c hc p hp).2, by simp⟩

/-- C133, negative result: `expel` fails with ValueError if it is called again on the same element, unlike for elements
without parent. -/
theorem C133_twice (limit : ℕ) (hlim : 2 ≤ limit) (h : Heap α) (gone : Finset ℕ) (hl : Linked h gone) (e p : ℕ)
    (he : e ∉ gone) (hp : (h e).parent = some p) (hlone : Lone h e) :
    (expel limit (expel limit h e).1 e).2 = .error .valueError := by
  obtain ⟨limit, rfl⟩ : ∃ l, limit = l + 1 := ⟨limit - 1, by omega⟩
  obtain ⟨_, hval, hpar, _⟩ := expel_linked hl he hlim
  have hch := expel_children_lone hl he hlim hlone
  set h' := (expel (limit + 1) h e).1 with hh'
  have hown := Linked.not_own hl he
  have hpe : p ≠ e := by rintro rfl; exact hl.other p he hp
  have hce : (h' e).children = (h e).children := by
    rw [hch, if_neg (hl.other e he)]
  have hpe' : (cleared h' e e).parent = some p := by
    rw [cleared_parent, hce, if_neg hown, hpar, if_neg hown, hp]
  have hcp : (cleared h' e p).children = (h p).children.erase e := by
    rw [cleared_children, hch, if_pos hp]
  have hrem : pyRemove (cleared h' e) (limit + 1) e (cleared h' e p).children = .error .valueError := by
    rw [hcp]
    refine pyRemove_missing _ (fun a ha => ?_)
    have hpg := (hl.listed e he p hp).1
    have hae : a ≠ e := by
      rintro rfl
      exact List.Nodup.not_mem_erase (hl.once p hpg) ha
    have hap := (hl.back p hpg a (List.mem_of_mem_erase ha)).2
    refine same_of_value hae ?_
    rw [cleared_value, cleared_value, hval, hval]
    exact hlone a hae (by rw [hap, hp]) (by rw [hap]; simp)
  unfold expel
  unfold cleared at hpe' hrem
  simp only [hpe', hrem]

/-- Two generations: `1` and `2` are children of `0`, `3` is a child of `1`; then `1` is expelled. -/
def family : List Call := [.addChild 0 1, .setParent 2 0, .addChild 1 3, .expel 1]

/-- `C133_history_partial` is not vacuous. -/
example : Linked (run 1000 (fresh (fun i => i)) family) {1} := by
  have := C133_history_partial 1000 (by norm_num) (fun i => i) family (by
    simp only [family, Intended]
    refine ⟨by decide, by decide, by decide, rfl, by decide, by decide, by decide, rfl, by decide, by decide,
      by decide, rfl, by decide, ?_, trivial⟩
    intro s hs _ _
    have hv : ∀ a, (addChild (setParent (addChild (fresh (fun i => i)) 0 1) 2 0) 1 3 a).value = a := by
      intro a
      rw [addChild_value, setParent_eq, addChild_value, addChild_value]
      rfl
    rw [hv, hv]
    exact hs)
  simpa [family, expelled] using this

/-- `C133_twin` is not vacuous: two children with the value zero; the second one is expelled, the first one is missing
afterwards. -/
example : (run 1000 (fresh (fun _ => 0)) [.addChild 0 1, .addChild 0 2, .expel 2] 0).children = [2] := by
  have hl := C133_history_partial 1000 (by norm_num) (fun _ => 0) [.addChild 0 1, .addChild 0 2] (by
    simp only [Intended]
    exact ⟨by decide, by decide, by decide, rfl, by decide, by decide, by decide, rfl, trivial⟩)
  exact (C133_twin 1000 (by norm_num) _ _ hl 2 1 0 (by decide) (by decide) [] [] rfl rfl rfl rfl rfl).1

/-! ## The handler -/

private lemma handler_children (limit : ℕ) (cs : List (HandlerCall α)) : ∀ s : Handler α,
    (∀ a, (s.heap a).children = []) → ∀ a, ((s.run limit cs).heap a).children = [] := by
  induction cs with
  | nil => intro s hs; exact hs
  | cons c cs ih =>
    intro s hs
    refine ih _ (fun a => ?_)
    have hcreate : ∀ v p b, (s.create v p b a).children = [] := by
      intro v p b
      unfold Handler.create
      by_cases hab : a = b
      · subst hab; simp
      · rw [Function.update_of_ne hab, hs]
    cases c with
    | setRoot v b => exact hcreate v none b
    | addElement v p b => exact hcreate v p b
    | deleteElement e =>
      have hx : (expel limit s.heap e).1 = s.heap := by
        unfold expel
        simp only [hs e, List.foldl_nil]
        cases hp : (s.heap e).parent with
        | none => rfl
        | some p => simp only [hs p, pyRemove]
      change (((s.deleteElement limit e).1).heap a).children = []
      unfold Handler.deleteElement
      have : ∀ r, expel limit s.heap e = ((expel limit s.heap e).1, r) → (expel limit s.heap e).2 = r := by
        intro r hr; rw [hr]
      cases hr : expel limit s.heap e with
      | mk h r =>
        have hh : h = s.heap := by rw [← hx, hr]
        subst hh
        cases r with
        | error er => exact hs a
        | ok u =>
          simp only
          cases pyRemove s.heap limit e s.graph with
          | error er => exact hs a
          | ok g => exact hs a

/-- C133, negative result: `BasicGraphHandler` never tells a parent about its children; after every history of calls
all lists of children are empty. -/
theorem C133_handler_childless (limit : ℕ) (values : ℕ → α) (cs : List (HandlerCall α)) (a : ℕ) :
    (((Handler.mk (fresh values) none []).run limit cs).heap a).children = [] :=
  handler_children limit cs _ (fun _ => rfl) a

/-- C133, negative result: after every history of calls `delete_element` fails with ValueError for every element with
a parent, and nothing changes. -/
theorem C133_handler_delete (limit : ℕ) (values : ℕ → α) (cs : List (HandlerCall α)) (e p : ℕ)
    (hp : (((Handler.mk (fresh values) none []).run limit cs).heap e).parent = some p) :
    ((Handler.mk (fresh values) none []).run limit cs).deleteElement limit e
      = ((Handler.mk (fresh values) none []).run limit cs, .error .valueError) := by
  have hc := C133_handler_childless limit values cs
  set s := (Handler.mk (fresh values) none []).run limit cs
  have hx : expel limit s.heap e = (s.heap, .error .valueError) := by
    unfold expel
    simp only [hc e, List.foldl_nil, hp, hc p, pyRemove]
  unfold Handler.deleteElement
  rw [hx]

/-- C133, negative result: deleting the root removes it from the list of the handler, but `root` still returns it. -/
theorem C133_handler_root (limit : ℕ) (values : ℕ → α) (v : α) (address : ℕ) :
    let s := (Handler.mk (fresh values) none []).setRoot v address
    (s.deleteElement limit address).2 = .ok () ∧ (s.deleteElement limit address).1.graph = []
      ∧ (s.deleteElement limit address).1.root = some address := by
  intro s
  have hx : expel limit s.heap address = (s.heap, .ok ()) := by
    have h1 : s.heap address = { value := v } := by
      change Function.update _ _ _ _ = _
      rw [Function.update_self]
    unfold expel
    simp only [h1, List.foldl_nil]
  have hr : pyRemove s.heap limit address s.graph = .ok [] := by
    change pyRemove s.heap limit address [address] = _
    unfold pyRemove same
    rw [if_pos rfl]
  unfold Handler.deleteElement
  rw [hx]
  simp only [hr]
  exact ⟨trivial, trivial, rfl⟩

private lemma handler_graph (limit : ℕ) (cs : List (HandlerCall α)) : ∀ s : Handler α,
    (∀ c ∈ cs, ∀ e, c ≠ .deleteElement e) →
    (s.run limit cs).graph = s.graph ++ cs.filterMap (fun c => match c with
      | .setRoot _ a => some a
      | .addElement _ _ a => some a
      | .deleteElement _ => none) := by
  induction cs with
  | nil => intro s _; simp [Handler.run]
  | cons c cs ih =>
    intro s h
    have h' : ∀ c ∈ cs, ∀ e, c ≠ .deleteElement e := fun c hc => h c (List.mem_cons_of_mem _ hc)
    have := ih (s.step limit c) h'
    unfold Handler.run at this ⊢
    rw [List.foldl_cons, this]
    cases c with
    | setRoot v a => simp [Handler.step, Handler.setRoot]
    | addElement v p a => simp [Handler.step, Handler.addElement]
    | deleteElement e => exact absurd rfl (h _ List.mem_cons_self e)

/-- C133: without deletions the list of the handler contains every element ever created, in this order; a root set
later does not remove the former one, and a new element is found with its value and its parent. -/
theorem C133_handler_listed (limit : ℕ) (values : ℕ → α) (cs : List (HandlerCall α))
    (h : ∀ c ∈ cs, ∀ e, c ≠ .deleteElement e) (v : α) (p : Option ℕ) (address : ℕ) :
    let s := (Handler.mk (fresh values) none []).run limit cs
    s.graph = cs.filterMap (fun c => match c with
      | .setRoot _ a => some a
      | .addElement _ _ a => some a
      | .deleteElement _ => none)
    ∧ (s.setRoot v address).root = some address ∧ (s.addElement v p address).root = s.root
    ∧ ((s.setRoot v address).heap address).value = v ∧ ((s.setRoot v address).heap address).parent = none
    ∧ ((s.addElement v p address).heap address).value = v ∧ ((s.addElement v p address).heap address).parent = p
    ∧ ∀ a, a ≠ address → (s.setRoot v address).heap a = s.heap a ∧ (s.addElement v p address).heap a = s.heap a := by
  intro s
  refine ⟨by simpa using handler_graph limit cs (Handler.mk (fresh values) none []) h, rfl, rfl, ?_, ?_, ?_, ?_, ?_⟩
  · simp [Handler.setRoot, Handler.create]
  · simp [Handler.setRoot, Handler.create]
  · simp [Handler.addElement, Handler.create]
  · simp [Handler.addElement, Handler.create]
  · intro a ha
    simp [Handler.setRoot, Handler.addElement, Handler.create, ha]

/-- `C133_handler_listed` is not vacuous: two roots and an element in between. -/
example : ((Handler.mk (fresh (fun _ : ℕ => 0)) none []).run 1000
    [.setRoot 5 0, .addElement 6 (some 0) 1, .setRoot 7 2]).graph = [0, 1, 2] :=
  (C133_handler_listed 1000 _ [.setRoot 5 0, .addElement 6 (some 0) 1, .setRoot 7 2] (by simp) 8 none 3).1

/-- `C133_handler_delete` is not vacuous: a root and an element below it. -/
example : ((((Handler.mk (fresh (fun _ : ℕ => 0)) none []).run 1000 [.setRoot 5 0, .addElement 6 (some 0) 1]).deleteElement
    1000 1).2) = .error .valueError := by
  rw [C133_handler_delete 1000 _ [.setRoot 5 0, .addElement 6 (some 0) 1] 1 0 rfl]

end Verif.Elements
