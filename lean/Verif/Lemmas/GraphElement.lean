import Verif.Spec.GraphElement

/-!
# Lemmas about `Model/GraphElement`
-/

namespace Verif.Elements
open Spec

variable {α : Type} [DecidableEq α]

lemma assignParent_apply (h : Heap α) (c a : ℕ) (p : Option ℕ) :
    assignParent h c p a = if a = c then { h a with parent := p } else h a := by
  unfold assignParent
  by_cases hac : a = c
  · subst hac; simp
  · rw [if_neg hac, Function.update_of_ne hac]

lemma assignChildren_apply (h : Heap α) (p a : ℕ) (cs : List ℕ) :
    assignChildren h p cs a = if a = p then { h a with children := cs } else h a := by
  unfold assignChildren
  by_cases hac : a = p
  · subst hac; simp
  · rw [if_neg hac, Function.update_of_ne hac]

lemma addChild_parent (h : Heap α) (p c a : ℕ) :
    (addChild h p c a).parent = if a = c then some p else (h a).parent := by
  unfold addChild
  rw [assignParent_apply]
  split_ifs <;> simp [assignChildren_apply] <;> split_ifs <;> rfl

lemma addChild_children (h : Heap α) (p c a : ℕ) :
    (addChild h p c a).children = if a = p then (h p).children ++ [c] else (h a).children := by
  unfold addChild
  rw [assignParent_apply]
  split_ifs with h1 h2 h2 <;> simp [assignChildren_apply, h2]

lemma addChild_value (h : Heap α) (p c a : ℕ) : (addChild h p c a).value = (h a).value := by
  unfold addChild
  rw [assignParent_apply]
  split_ifs <;> simp [assignChildren_apply] <;> split_ifs <;> rfl

lemma setParent_eq (h : Heap α) (p c : ℕ) : setParent h c p = addChild h p c := by
  funext a
  unfold setParent addChild
  simp only [assignParent_apply, assignChildren_apply]
  by_cases h2 : a = p
  · subst h2
    by_cases h1 : a = c <;> simp [h1]
  · by_cases h1 : a = c
    · subst h1
      simp [h2]
    · simp [h1, h2]

/-- The loop over the children. -/
lemma clear_apply (cs : List ℕ) (h : Heap α) (a : ℕ) :
    cs.foldl (fun h c => assignParent h c none) h a = if a ∈ cs then { h a with parent := none } else h a := by
  induction cs generalizing h with
  | nil => simp
  | cons c cs ih =>
    rw [List.foldl_cons, ih, assignParent_apply]
    by_cases h1 : a = c
    · subst h1
      by_cases h2 : a ∈ cs <;> simp [h2]
    · by_cases h2 : a ∈ cs <;> simp [h2, h1]

lemma pyRemove_eraseP {h : Heap α} {limit x : ℕ} {f : ℕ → Bool} (l : List ℕ)
    (hf : ∀ a ∈ l, same (elementEq h limit) a x = some (f a)) (hx : ∃ a ∈ l, f a = true) :
    pyRemove h limit x l = .ok (l.eraseP f) := by
  induction l with
  | nil => obtain ⟨a, ha, _⟩ := hx; simp at ha
  | cons a as ih =>
    unfold pyRemove
    rw [hf a (by simp)]
    cases hfa : f a with
    | true => simp [hfa]
    | false =>
      simp only
      rw [ih (fun b hb => hf b (by simp [hb])) (by
        obtain ⟨b, hb, hfb⟩ := hx
        rcases List.mem_cons.mp hb with rfl | hb
        · rw [hfb] at hfa; cases hfa
        · exact ⟨b, hb, hfb⟩)]
      simp [hfa, Except.map]

lemma pyRemove_missing {h : Heap α} {limit x : ℕ} (l : List ℕ)
    (hf : ∀ a ∈ l, same (elementEq h limit) a x = some false) :
    pyRemove h limit x l = .error .valueError := by
  induction l with
  | nil => rfl
  | cons a as ih =>
    unfold pyRemove
    rw [hf a (by simp)]
    simp only
    rw [ih (fun b hb => hf b (by simp [hb]))]
    rfl

lemma same_of_value {h : Heap α} {limit a b : ℕ} (hne : a ≠ b) (hv : (h a).value ≠ (h b).value) :
    same (elementEq h (limit + 1)) a b = some false := by
  unfold same elementEq
  rw [if_neg hne, if_pos hv]

/-- The heap after the loop over the children of `e`. -/
def cleared (h : Heap α) (e : ℕ) : Heap α := (h e).children.foldl (fun h c => assignParent h c none) h

lemma cleared_apply (h : Heap α) (e a : ℕ) :
    cleared h e a = if a ∈ (h e).children then { h a with parent := none } else h a := clear_apply _ _ _

lemma cleared_children (h : Heap α) (e a : ℕ) : (cleared h e a).children = (h a).children := by
  rw [cleared_apply]; split_ifs <;> rfl

lemma cleared_value (h : Heap α) (e a : ℕ) : (cleared h e a).value = (h a).value := by
  rw [cleared_apply]; split_ifs <;> rfl

lemma cleared_parent (h : Heap α) (e a : ℕ) :
    (cleared h e a).parent = if a ∈ (h e).children then none else (h a).parent := by
  rw [cleared_apply]; split_ifs <;> rfl

/-- The siblings which are taken for `e`. -/
def takenFor (h : Heap α) (e a : ℕ) : Bool :=
  decide (a = e ∨ ((h a).value = (h e).value ∧ (h a).children = [] ∧ (h e).children = []))

variable {h : Heap α} {gone : Finset ℕ} {e p limit : ℕ}

lemma Linked.not_own (hl : Linked h gone) (he : e ∉ gone) : e ∉ (h e).children :=
  fun hm => hl.other e he (hl.back e he e hm).2

lemma same_sibling (hl : Linked h gone) (he : e ∉ gone) (hp : (h e).parent = some p) (a : ℕ)
    (ha : a ∈ (h p).children) : same (elementEq (cleared h e) (limit + 2)) a e = some (takenFor h e a) := by
  obtain ⟨hpg, _⟩ := hl.listed e he p hp
  obtain ⟨hag, hap⟩ := hl.back p hpg a ha
  have hpe : p ≠ e := by rintro rfl; exact hl.other p he hp
  unfold same takenFor
  by_cases hae : a = e
  · simp [hae]
  rw [if_neg hae]
  have hac : a ∉ (h e).children := fun hm => by
    have := (hl.back e he a hm).2
    rw [hap] at this
    exact hpe (Option.some.inj this)
  unfold elementEq
  simp only [cleared_value, cleared_children, cleared_parent, if_neg hac, if_neg (Linked.not_own hl he), hap, hp]
  by_cases hv : (h a).value = (h e).value
  · simp only [hv, ne_eq, not_true_eq_false, if_false, same, if_true]
    cases hca : (h a).children with
    | nil =>
      cases hce : (h e).children with
      | nil => simp [allEqual]
      | cons e1 es => simp [hae]
    | cons a1 as =>
      cases hce : (h e).children with
      | nil => simp [hae]
      | cons e1 es =>
        have ha1 : (h a1).parent = some a := (hl.back a hag a1 (by rw [hca]; simp)).2
        have he1 : (h e1).parent = some e := (hl.back e he e1 (by rw [hce]; simp)).2
        have hne : a1 ≠ e1 := by
          rintro rfl
          rw [ha1] at he1
          exact hae (Option.some.inj he1)
        have ha1c : a1 ∉ (h e).children := fun hm => by
          have := (hl.back e he a1 hm).2
          rw [ha1] at this
          exact hae (Option.some.inj this)
        have he1c : e1 ∈ (h e).children := by rw [hce]; simp
        have hfin : elementEq (cleared h e) (limit + 1) a1 e1 = some false := by
          unfold elementEq
          simp only [cleared_value, cleared_children, cleared_parent, if_neg ha1c, if_pos he1c, ha1]
          split_ifs <;> rfl
        have hsame : same (elementEq (cleared h e) (limit + 1)) a1 e1 = some false := by
          unfold same
          rw [if_neg hne, hfin]
        have hall : allEqual (same (elementEq (cleared h e) (limit + 1))) (a1 :: as) (e1 :: es) = some false := by
          simp [allEqual, hsame]
        simp [hall, hae]
  · simp [hv, hae]

/-- `expel` in linked elements. -/
lemma expel_linked (hl : Linked h gone) (he : e ∉ gone) (hlim : 2 ≤ limit) :
    (expel limit h e).2 = .ok ()
    ∧ (∀ a, ((expel limit h e).1 a).value = (h a).value)
    ∧ (∀ a, ((expel limit h e).1 a).parent = if a ∈ (h e).children then none else (h a).parent)
    ∧ (∀ a, ((expel limit h e).1 a).children
        = if (h e).parent = some a then (h a).children.eraseP (takenFor h e) else (h a).children) := by
  obtain ⟨limit, rfl⟩ : ∃ l, limit = l + 2 := ⟨limit - 2, by omega⟩
  have hown := Linked.not_own hl he
  have hpar : (cleared h e e).parent = (h e).parent := by rw [cleared_parent, if_neg hown]
  cases hp : (h e).parent with
  | none =>
    have hx : expel (limit + 2) h e = (cleared h e, .ok ()) := by
      unfold expel
      have : (cleared h e e).parent = none := by rw [hpar, hp]
      unfold cleared at this ⊢
      simp only [this]
    rw [hx]
    refine ⟨rfl, fun a => cleared_value h e a, fun a => cleared_parent h e a, fun a => ?_⟩
    rw [if_neg (by simp)]
    exact cleared_children h e a
  | some p =>
    have hrem : pyRemove (cleared h e) (limit + 2) e (cleared h e p).children
        = .ok ((h p).children.eraseP (takenFor h e)) := by
      rw [cleared_children]
      exact pyRemove_eraseP _ (fun a ha => same_sibling hl he hp a ha)
        ⟨e, (hl.listed e he p hp).2, by simp [takenFor]⟩
    have hx : expel (limit + 2) h e
        = (assignChildren (cleared h e) p ((h p).children.eraseP (takenFor h e)), .ok ()) := by
      unfold expel
      have : (cleared h e e).parent = some p := by rw [hpar, hp]
      unfold cleared at this hrem ⊢
      simp only [this, hrem]
    rw [hx]
    refine ⟨rfl, fun a => ?_, fun a => ?_, fun a => ?_⟩
    · change (assignChildren _ _ _ a).value = _
      rw [assignChildren_apply]
      split_ifs <;> exact cleared_value h e a
    · change (assignChildren _ _ _ a).parent = _
      rw [assignChildren_apply, ← cleared_parent]
      split_ifs <;> rfl
    · change (assignChildren _ _ _ a).children = _
      rw [assignChildren_apply]
      by_cases hap : a = p
      · subst hap
        rw [if_pos rfl, if_pos rfl]
      · rw [if_neg hap, if_neg (by intro hh; exact hap (Option.some.inj hh).symm)]
        exact cleared_children h e a

lemma takenFor_lone (hl : Linked h gone) (he : e ∉ gone) (hlone : Lone h e) (hp : (h e).parent = some p) :
    ∀ a ∈ (h p).children, takenFor h e a = decide (a = e) := by
  intro a ha
  have hap := (hl.back p (hl.listed e he p hp).1 a ha).2
  unfold takenFor
  by_cases hae : a = e
  · simp [hae]
  · have := hlone a hae (by rw [hap, hp]) (by rw [hap]; simp)
    simp [hae, this]

lemma eraseP_eq_erase (l : List ℕ) (f : ℕ → Bool) (hf : ∀ a ∈ l, f a = decide (a = e)) : l.eraseP f = l.erase e := by
  induction l with
  | nil => rfl
  | cons a as ih =>
    have ha := hf a (by simp)
    by_cases hae : a = e
    · subst hae
      rw [List.eraseP_cons_of_pos (by simp [ha]), List.erase_cons_head]
    · rw [List.eraseP_cons_of_neg (by simp [ha, hae]), List.erase_cons_tail (by simp [hae]),
        ih (fun b hb => hf b (by simp [hb]))]

lemma expel_children_lone (hl : Linked h gone) (he : e ∉ gone) (hlim : 2 ≤ limit) (hlone : Lone h e) (a : ℕ) :
    ((expel limit h e).1 a).children = if (h e).parent = some a then (h a).children.erase e else (h a).children := by
  rw [(expel_linked hl he hlim).2.2.2 a]
  by_cases hp : (h e).parent = some a
  · rw [if_pos hp, if_pos hp]
    exact eraseP_eq_erase _ _ (takenFor_lone hl he hlone hp)
  · rw [if_neg hp, if_neg hp]

lemma linked_addChild {c : ℕ} (hl : Linked h gone) (hc : c ∉ gone) (hp : p ∉ gone) (hne : c ≠ p)
    (hfree : (h c).parent = none) : Linked (addChild h p c) gone := by
  have hcp : ∀ q ∉ gone, c ∉ (h q).children := fun q hq hm => by
    have := (hl.back q hq c hm).2
    rw [hfree] at this; cases this
  refine ⟨fun a ha q hq => ?_, fun q hq a ha => ?_, fun q hq => ?_, fun a ha => ?_⟩
  · rw [addChild_parent] at hq
    rw [addChild_children]
    by_cases hac : a = c
    · rw [if_pos hac] at hq
      have hq := Option.some.inj hq
      subst hq hac
      exact ⟨hp, by simp⟩
    · rw [if_neg hac] at hq
      obtain ⟨h1, h2⟩ := hl.listed a ha q hq
      refine ⟨h1, ?_⟩
      split_ifs with hqp
      · subst hqp; simp [h2]
      · exact h2
  · rw [addChild_children] at ha
    rw [addChild_parent]
    by_cases hqp : q = p
    · rw [if_pos hqp, List.mem_append, List.mem_singleton] at ha
      subst hqp
      by_cases hac : a = c
      · subst hac; simp [hc]
      · rw [if_neg hac]
        exact hl.back q hq a (ha.resolve_right hac)
    · rw [if_neg hqp] at ha
      rw [if_neg (by rintro rfl; exact hcp q hq ha)]
      exact hl.back q hq a ha
  · rw [addChild_children]
    split_ifs with hqp
    · subst hqp
      rw [List.nodup_append]
      refine ⟨hl.once q hq, by simp, ?_⟩
      intro a ha b hb
      rw [List.mem_singleton] at hb
      rintro rfl
      subst hb
      exact hcp q hq ha
    · exact hl.once q hq
  · rw [addChild_parent]
    split_ifs with hac
    · subst hac
      intro hh
      exact hne (Option.some.inj hh).symm
    · exact hl.other a ha

lemma linked_expel (hl : Linked h gone) (he : e ∉ gone) (hlim : 2 ≤ limit) (hlone : Lone h e) :
    Linked (expel limit h e).1 (insert e gone) := by
  obtain ⟨_, _, hpar, _⟩ := expel_linked hl he hlim
  have hch := expel_children_lone hl he hlim hlone
  refine ⟨fun a ha q hq => ?_, fun q hq a ha => ?_, fun q hq => ?_, fun a ha => ?_⟩
  · rw [Finset.mem_insert, not_or] at ha
    rw [hpar] at hq
    rw [hch, Finset.mem_insert, not_or]
    by_cases hac : a ∈ (h e).children
    · rw [if_pos hac] at hq; cases hq
    · rw [if_neg hac] at hq
      obtain ⟨h1, h2⟩ := hl.listed a ha.2 q hq
      refine ⟨⟨?_, h1⟩, ?_⟩
      · rintro rfl; exact hac h2
      · split_ifs
        · exact (List.mem_erase_of_ne ha.1).mpr h2
        · exact h2
  · rw [Finset.mem_insert, not_or] at hq ⊢
    rw [hch] at ha
    rw [hpar]
    have hm : a ∈ (h q).children := by
      split_ifs at ha
      · exact List.mem_of_mem_erase ha
      · exact ha
    obtain ⟨h1, h2⟩ := hl.back q hq.2 a hm
    have hae : a ≠ e := by
      rintro rfl
      rw [if_pos h2] at ha
      exact (List.Nodup.not_mem_erase (hl.once q hq.2)) ha
    refine ⟨⟨hae, h1⟩, ?_⟩
    rw [if_neg]
    · exact h2
    · intro hm'
      have := (hl.back e he a hm').2
      rw [h2] at this
      exact hq.1 (Option.some.inj this)
  · rw [Finset.mem_insert, not_or] at hq
    rw [hch]
    split_ifs
    · exact (hl.once q hq.2).erase e
    · exact hl.once q hq.2
  · rw [Finset.mem_insert, not_or] at ha
    rw [hpar]
    split_ifs
    · simp
    · exact hl.other a ha.2

end Verif.Elements
