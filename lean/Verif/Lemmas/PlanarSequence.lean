import Verif.Lemmas.PlanarTree
import Verif.Lemmas.ConvergenceReduction

/-! # Helper lemmas: sequences of rotations in trees of planar directions -/

open Verif.Spec
open scoped RealInnerProductSpace

set_option linter.unusedSectionVars false

namespace Verif

open Spec.RootedTree (lev)

/-! ### Signed angles -/

lemma signedAngle_turn {u : Vec 2} (hu : ‖u‖ = 1) {α : ℝ} (hα : |α| < Real.pi) :
    signedAngle u (turnBy α u) = α := by
  have hn := norm_sq_two u
  rw [hu] at hn
  have h : (⟨u 0 * turnBy α u 0 + u 1 * turnBy α u 1, u 0 * turnBy α u 1 - u 1 * turnBy α u 0⟩ : ℂ)
      = Complex.exp (α * Complex.I) := by
    rw [Complex.exp_mul_I, ← Complex.ofReal_cos, ← Complex.ofReal_sin]
    apply Complex.ext
    · simp [turnBy, -Complex.ofReal_cos, -Complex.ofReal_sin]
      linear_combination (- Real.cos α) * hn
    · simp [turnBy, -Complex.ofReal_cos, -Complex.ofReal_sin]
      linear_combination (- Real.sin α) * hn
  unfold signedAngle
  rw [h, Complex.arg_exp_mul_I, toIocMod_eq_self]
  have := abs_lt.mp hα
  constructor
  · linarith [this.1]
  · linarith [this.2]

@[simp] lemma signedAngle_self {u : Vec 2} (hu : ‖u‖ = 1) : signedAngle u u = 0 := by
  have := signedAngle_turn hu (α := 0) (by rw [abs_zero]; exact Real.pi_pos)
  rwa [turnBy_zero] at this

lemma turnBy_signedAngle {u v : Vec 2} (hu : ‖u‖ = 1) (hv : ‖v‖ = 1) :
    turnBy (signedAngle u v) u = v := by
  have hn := norm_sq_two u
  have hm := norm_sq_two v
  rw [hu] at hn
  rw [hv] at hm
  have habs : ‖(⟨u 0 * v 0 + u 1 * v 1, u 0 * v 1 - u 1 * v 0⟩ : ℂ)‖ = 1 := by
    rw [Complex.norm_def, Complex.normSq_mk, Real.sqrt_eq_one]
    linear_combination (-(v 0 ^ 2 + v 1 ^ 2)) * hn - hm
  have hc := Complex.norm_mul_cos_arg ⟨u 0 * v 0 + u 1 * v 1, u 0 * v 1 - u 1 * v 0⟩
  have hs := Complex.norm_mul_sin_arg ⟨u 0 * v 0 + u 1 * v 1, u 0 * v 1 - u 1 * v 0⟩
  rw [habs, one_mul] at hc hs
  simp only at hc hs
  ext i
  fin_cases i
  · simp only [turnBy, signedAngle, hc, hs]
    simp; linear_combination (- v 0) * hn
  · simp only [turnBy, signedAngle, hc, hs]
    simp; linear_combination (- v 1) * hn

lemma signedAngle_lt {u v : Vec 2} (hu : ‖u‖ = 1) (hv : ‖v‖ = 1) (h : ¬ Opposite u v) :
    |signedAngle u v| < Real.pi := by
  refine lt_of_le_of_ne (Complex.abs_arg_le_pi _) ?_
  intro he
  apply h
  refine ⟨1, one_pos, ?_⟩
  have ht := turnBy_signedAngle hu hv
  rw [neg_smul, one_smul, ← ht]
  have hcs : Real.cos (signedAngle u v) = -1 ∧ Real.sin (signedAngle u v) = 0 := by
    rcases abs_eq Real.pi_pos.le |>.mp he with e | e
    · change signedAngle u v = _ at e; rw [e]; simp
    · change signedAngle u v = _ at e; rw [e]; simp
  ext i
  fin_cases i <;> simp [turnBy, hcs.1, hcs.2]

/-! ### Turning along lists -/

lemma turning_snoc (l : List (Vec 2)) (u v : Vec 2) :
    turning (l ++ [u] ++ [v]) = turning (l ++ [u]) + signedAngle u v := by
  induction l with
  | nil => simp [turning]
  | cons a l ih =>
    cases l with
    | nil => simp [turning]
    | cons b l =>
      change signedAngle a b + turning (b :: l ++ [u] ++ [v])
        = signedAngle a b + turning (b :: l ++ [u]) + _
      rw [ih]; ring

variable {I : Type} [DecidableEq I] {t : Tree I 2} {r : I}

lemma Spec.PathAngles.signed {Θ : I → ℝ} (hΘ : PathAngles t r Θ) {p c : I} (hp : IsParent t p c)
    (hn : ‖dirOf t p‖ = 1) : Θ c = Θ p + signedAngle (dirOf t p) (dirOf t c) := by
  obtain ⟨h1, h3⟩ := hΘ.edge p c hp
  rw [h3, signedAngle_turn hn h1]; ring

/-- The angles along the paths of a tree without opposite neighbours. -/
lemma exists_pathAngles (h : RootedTree t r) (hg : ∀ p c, IsParent t p c → ¬ Opposite (dirOf t p) (dirOf t c)) :
    ∃ Θ, PathAngles t r Θ := by
  classical
  -- build the angles along the list of nodes
  have key : ∀ k ≤ t.nodes.length, ∃ Θ : I → ℝ, Θ r = 0 ∧ ∀ p c, IsParent t p c → t.nodes.idxOf c < k →
      Θ c - Θ p = signedAngle (dirOf t p) (dirOf t c) := by
    intro k
    induction k with
    | zero => intro _; exact ⟨fun _ => 0, rfl, fun p c _ hc => absurd hc (Nat.not_lt_zero _)⟩
    | succ k ih =>
      intro hk
      obtain ⟨Θ, h0, hΘ⟩ := ih (by omega)
      have hkl : k < t.nodes.length := by omega
      set m := t.nodes[k] with hm
      have hmn : m ∈ t.nodes := List.getElem_mem hkl
      have hidx : t.nodes.idxOf m = k := h.nodup.idxOf_getElem k hkl
      have hinj : ∀ c ∈ t.nodes, t.nodes.idxOf c = k → c = m := by
        intro c hc e
        have := List.getElem_idxOf (List.idxOf_lt_length_iff.mpr hc)
        rw [← this, hm]
        congr 1
      by_cases hmr : m = r
      · refine ⟨Θ, h0, fun p c hp hc => ?_⟩
        have : t.nodes.idxOf c ≠ k := by
          intro e
          have := hinj c (h.edge_snd _ _ hp) e
          rw [this, hmr] at hp
          exact h.root_no_parent p hp
        exact hΘ p c hp (by omega)
      · obtain ⟨q, hq⟩ := h.has_parent m hmn hmr
        refine ⟨Function.update Θ m (Θ q + signedAngle (dirOf t q) (dirOf t m)), ?_, ?_⟩
        · rw [Function.update_of_ne (Ne.symm hmr)]; exact h0
        · intro p c hp hc
          have hpm : p ≠ m := by
            rintro rfl
            have := h.parent_before _ _ hp
            rw [hidx] at this; omega
          rw [Function.update_of_ne hpm]
          by_cases e : t.nodes.idxOf c = k
          · have hcm := hinj c (h.edge_snd _ _ hp) e
            subst hcm
            have hpq : p = q := h.parent_unique hp hq
            rw [Function.update_self, hpq]; ring
          · have hcm : c ≠ m := by rintro rfl; exact e hidx
            rw [Function.update_of_ne hcm]
            exact hΘ p c hp (by omega)
  obtain ⟨Θ, h0, hΘ⟩ := key _ (le_refl _)
  refine ⟨Θ, h0, fun p c hp => ?_⟩
  have hc := h.edge_snd _ _ hp
  rw [hΘ p c hp (List.idxOf_lt_length_iff.mpr hc)]
  have hpn := (dir_eq h (h.edge_fst _ _ hp)).2
  have hcn := (dir_eq h hc).2
  exact ⟨signedAngle_lt hpn hcn (hg p c hp), (turnBy_signedAngle hpn hcn).symm⟩

/-! ### Sequences added to a tree -/

section Add
variable {t t' T : Tree NodeId 2} {r n p : NodeId} {Θ : NodeId → ℝ}

lemma loop_angle (hT : RootedTree T r) (hΘ : PathAngles T r Θ) (s : RotSeq (Vec 2))
    (hs : ∀ q ∈ s, ‖q.base.b0‖ = 1) {ii : ℕ} {p p' : NodeId} {t t' : Tree NodeId 2} (h : RootedTree t r)
    (hok : Tree.addSequenceLoop interId n s ii p t = (t', .ok p')) (hg : Grows t' T) :
    ∃ l v, dirOf T p :: s.map (fun q => q.base.b0) = l ++ [v] ∧ dirOf T p' = v
      ∧ Θ p' = Θ p + turning (l ++ [v]) := by
  induction s generalizing ii p t with
  | nil =>
    unfold Tree.addSequenceLoop at hok
    cases hok
    exact ⟨[], _, rfl, rfl, by simp [turning]⟩
  | cons q s ih =>
    unfold Tree.addSequenceLoop at hok
    split at hok
    · cases hok
    · rename_i t1 h1
      obtain ⟨a1, a2, a3, a4, a5, a6⟩ := addNode_full (t' := t1) h (by rw [h1]; rfl)
      obtain ⟨l, v, b1, b2, b3⟩ := ih (fun x hx => hs x (List.mem_cons_of_mem _ hx)) a1 hok
      have g1 := (addSequenceLoop_grows s a1 hok).2.trans hg
      have hmem := a1.edge_snd _ _ a4
      have hd : dirOf T (interId n ii) = q.base.b0 := by
        rw [g1.dirs _ hmem, a5, unit_of_norm_one (hs q List.mem_cons_self)]
      have hpar := g1.edges _ _ a4
      have hpn := (dir_eq hT (hT.edge_fst _ _ hpar)).2
      rw [hd] at b1
      refine ⟨dirOf T p :: l, v, ?_, b2, ?_⟩
      · simp only [List.map_cons, List.cons_append]
        rw [← b1]
      · rw [b3, hΘ.signed hpar hpn, hd]
        have : dirOf T p :: l ++ [v] = dirOf T p :: (q.base.b0 :: s.map (fun q => q.base.b0)) := by
          rw [List.cons_append, ← b1]
        rw [this, ← b1]
        simp only [turning]
        ring

lemma pathVectors_cons (q : Rot (Vec 2)) (s : RotSeq (Vec 2)) {v : Vec 2}
    (hv : RotSeq.getEndVector (q :: s) = .ok v) :
    pathVectors (q :: s) = q.base.b0 :: s.map (fun q => q.base.b0) ++ [v] := by
  rw [endVector_of_ne (q :: s) (by simp)] at hv
  have hv := Except.ok.inj hv
  unfold pathVectors
  rw [List.getLast?_eq_getLast_of_ne_nil (by simp : q :: s ≠ []), ← hv]
  simp [Rot.getFirstVector]

/-- A sequence added below a node whose direction is its first vector. -/
lemma addSequence_angle (hT : RootedTree T r) (hΘ : PathAngles T r Θ) (h : RootedTree t r)
    {s : RotSeq (Vec 2)} (hon : ∀ q ∈ s, ‖q.getFirstVector‖ = 1 ∧ ‖q.getSecondVector‖ = 1)
    (hok : t.addSequence interId n s p true = (t', .ok ())) (hg : Grows t' T)
    (hhead : ∀ q, s.head? = some q → q.getFirstVector = dirOf T p) : Θ n = Θ p + pathTurn s := by
  classical
  unfold Tree.addSequence at hok
  simp only [if_true] at hok
  cases s with
  | nil => cases hok
  | cons q s =>
    simp only at hok
    cases hd : t.dir p with
    | none => rw [hd] at hok; cases hok
    | some v =>
      rw [hd] at hok
      simp only at hok
      split_ifs at hok with hc
      · cases h1 : Tree.addSequenceLoop interId n (List.drop 1 (q :: s)) 1 p t with
        | mk t1 e1 =>
          rw [h1] at hok
          cases e1 with
          | error e => cases hok
          | ok p1 =>
            simp only at hok
            obtain ⟨a1, a2⟩ := addSequenceLoop_grows _ h h1
            cases he : RotSeq.getEndVector (q :: s) with
            | error e => rw [he] at hok; cases hok
            | ok w =>
              rw [he] at hok
              simp only at hok
              obtain ⟨b1, b2, b3, b4, b5, b6⟩ := addNode_full (t' := t') a1 (by rw [hok]; rfl)
              have hdrop : List.drop 1 (q :: s) = s := rfl
              rw [hdrop] at h1
              obtain ⟨l, u, c1, c2, c3⟩ := loop_angle hT hΘ s
                (fun x hx => (hon x (List.mem_cons_of_mem _ hx)).1) h h1 (b2.trans hg)
              have hpar := hg.edges _ _ b4
              have hpn := (dir_eq hT (hT.edge_fst _ _ hpar)).2
              have hwn : ‖w‖ = 1 := by
                have := he
                rw [endVector_of_ne (q :: s) (by simp)] at this
                rw [← Except.ok.inj this]
                exact (hon _ (List.getLast_mem _)).2
              have hdn : dirOf T n = w := by
                rw [hg.dirs _ (b1.edge_snd _ _ b4), b5, unit_of_norm_one hwn]
              have hf : q.base.b0 = dirOf T p := hhead q rfl
              rw [hΘ.signed hpar hpn, c3, c2, hdn]
              unfold pathTurn
              rw [pathVectors_cons q s he, hf, c1, turning_snoc]
              ring
      · cases hok

end Add
end Verif
