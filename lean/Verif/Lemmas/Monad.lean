import Mathlib.Data.List.Forall2
import Mathlib.Data.List.GetD

/-!
# Helper lemmas: successful runs of computations in `Except`
-/

namespace Verif

lemma bind_ok {ε α β : Type} {x : Except ε α} {f : α → Except ε β} {b : β} :
    (x >>= f) = .ok b ↔ ∃ a, x = .ok a ∧ f a = .ok b := by
  cases x with
  | error e => constructor
               · intro h; cases h
               · rintro ⟨a, h, _⟩; cases h
  | ok a => constructor
            · intro h; exact ⟨a, rfl, h⟩
            · rintro ⟨a', h, h'⟩; cases h; exact h'

/-- An invariant, indexed by the processed prefix, of a successful loop. -/
lemma foldlM_prefix {ε α β : Type} {f : β → α → Except ε β} (P : List α → β → Prop)
    {l : List α} (hstep : ∀ pre a b b', a ∈ l → P pre b → f b a = .ok b' → P (pre ++ [a]) b')
    {b b' : β} (h0 : P [] b) (h : l.foldlM f b = .ok b') : P l b' := by
  suffices H : ∀ (l' pre : List α) (b b' : β), (∀ a ∈ l', a ∈ l) → P pre b →
      l'.foldlM f b = .ok b' → P (pre ++ l') b' by
    simpa using H l [] b b' (fun _ h => h) h0 h
  intro l'
  induction l' with
  | nil => intro pre b b' _ hp h; cases h; simpa using hp
  | cons a l' ih =>
    intro pre b b' hm hp h
    rw [List.foldlM_cons] at h
    obtain ⟨b1, h1, h2⟩ := bind_ok.mp h
    have := ih (pre ++ [a]) b1 b' (fun x hx => hm x (List.mem_cons_of_mem _ hx))
      (hstep pre a b b1 (hm a List.mem_cons_self) hp h1) h2
    simpa using this

/-- An invariant of a successful loop. -/
lemma foldlM_inv {ε α β : Type} {f : β → α → Except ε β} (P : β → Prop)
    {l : List α} (hstep : ∀ a b b', a ∈ l → P b → f b a = .ok b' → P b')
    {b b' : β} (h0 : P b) (h : l.foldlM f b = .ok b') : P b' :=
  foldlM_prefix (fun _ => P) (fun _ a b b' ha hb hf => hstep a b b' ha hb hf) h0 h

lemma mapM_ok {ε α β : Type} {f : α → Except ε β} {l : List α} {out : List β} :
    l.mapM f = .ok out ↔ List.Forall₂ (fun a b => f a = .ok b) l out := by
  induction l generalizing out with
  | nil =>
    constructor
    · intro h; cases h; exact .nil
    · intro h; cases h; rfl
  | cons a l ih =>
    rw [List.mapM_cons, bind_ok]
    constructor
    · rintro ⟨b, hb, h⟩
      obtain ⟨bs, hbs, h⟩ := bind_ok.mp h
      cases h
      exact .cons hb (ih.mp hbs)
    · intro h
      cases h with
      | cons hb hbs => exact ⟨_, hb, bind_ok.mpr ⟨_, ih.mpr hbs, rfl⟩⟩

lemma forall₂_snoc {α β : Type} {R : α → β → Prop} {l : List α} {l' : List β} {a : α} {b : β}
    (h : List.Forall₂ R l l') (hab : R a b) : List.Forall₂ R (l ++ [a]) (l' ++ [b]) :=
  List.rel_append h (.cons hab .nil)

end Verif
