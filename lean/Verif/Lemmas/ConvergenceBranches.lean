import Verif.Lemmas.ConvergenceReduction
import Verif.Lemmas.BranchSums

/-! # Helper lemmas: the branches of the tree of convergence directions belong to single components -/

open scoped RealInnerProductSpace

namespace Verif
open Spec

variable {d k : ℕ} [Fact (2 ≤ d)]
set_option linter.unusedSectionVars false

/-- The obstacle and the component a node belongs to. -/
def ownerOf : NodeId → ℤ × ℤ
  | .num z => (z, 0)
  | .pair (.num z) c => if z < 0 then (z, 0) else (z, c)
  | .pair (.pair a c) _ => ownerOf (.pair a c)
  | .pair (.key i c _) _ => (i, c)
  | .key i c _ => (i, c)

/-- The owners of the edges of the tree of convergence directions. -/
abbrev ConvOwned (t : Tree NodeId d) : Prop := RootedTree t (.num (-10)) ∧ OwnedEdges ownerOf (.num (-10)) t

lemma addNode_owned {t t' : Tree NodeId d} {n p : NodeId} {v : Vec d} (h : ConvOwned t)
    (hp : p = .num (-10) ∨ ownerOf p = ownerOf n) (hok : orRaise (t.addNode n v (some p)) = .ok t') :
    ConvOwned t' := by
  obtain ⟨h1, _, _, _, _, h2⟩ := addNode_full h.1 hok
  refine ⟨h1, fun a c hac => ?_⟩
  rcases h2 a c hac with h3 | ⟨rfl, rfl⟩
  · exact h.2 a c h3
  · exact hp

lemma addSequenceLoop_owned {n : NodeId} (hn : ∀ ii, ownerOf (interId n ii) = ownerOf n) (s : RotSeq (Vec d)) {ii : ℕ}
    {p p' : NodeId} {t t' : Tree NodeId d} (h : ConvOwned t) (hp : p = .num (-10) ∨ ownerOf p = ownerOf n)
    (hok : Tree.addSequenceLoop interId n s ii p t = (t', .ok p')) :
    ConvOwned t' ∧ (p' = .num (-10) ∨ ownerOf p' = ownerOf n) := by
  induction s generalizing ii p t with
  | nil =>
    unfold Tree.addSequenceLoop at hok
    cases hok
    exact ⟨h, hp⟩
  | cons q s ih =>
    unfold Tree.addSequenceLoop at hok
    split at hok
    · cases hok
    · rename_i t1 h1
      have hf := addNode_owned (t' := t1) (p := p) (v := q.base.b0) h (n := interId n ii)
        (by rw [hn]; exact hp) (by rw [h1]; rfl)
      exact ih hf (Or.inr (hn ii)) hok

lemma addSequence_owned {n p : NodeId} (hn : ∀ ii, ownerOf (interId n ii) = ownerOf n) {s : RotSeq (Vec d)}
    {t t' : Tree NodeId d} (h : ConvOwned t) (hp : p = .num (-10) ∨ ownerOf p = ownerOf n)
    (hok : t.addSequence interId n s p true = (t', .ok ())) : ConvOwned t' := by
  classical
  unfold Tree.addSequence at hok
  simp only [if_true] at hok
  cases s with
  | nil => cases hok
  | cons q s =>
    simp only at hok
    cases hd : t.dir p with
    | none => rw [hd] at hok; cases hok
    | some v =>
      rw [hd] at hok
      simp only at hok
      split_ifs at hok with hc
      · cases h1 : Tree.addSequenceLoop interId n (List.drop 1 (q :: s)) 1 p t with
        | mk t1 e1 =>
          rw [h1] at hok
          cases e1 with
          | error e => cases hok
          | ok p1 =>
            simp only at hok
            obtain ⟨a1, a2⟩ := addSequenceLoop_owned hn _ h hp h1
            cases he : RotSeq.getEndVector (q :: s) with
            | error e => rw [he] at hok; cases hok
            | ok w =>
              rw [he] at hok
              simp only at hok
              exact addNode_owned (t' := t') a1 a2 (by rw [hok]; rfl)
      · cases hok

lemma parentChain_owned {a : Avoider d} {ot : ObstacleTree d} {iTree iCom : ℕ} :
    ∀ (fuel pp iObs : ℕ) (pred : NodeId) (point : Vec d) (t t' : Tree NodeId d) (n : NodeId), ConvOwned t →
      (pred = .num (-10) ∨ ownerOf pred = ((iTree : ℤ), (iCom : ℤ))) →
      parentChain a ot iTree iCom fuel pp iObs pred point t = .ok (t', n) →
      ConvOwned t' ∧ (n = .num (-10) ∨ ownerOf n = ((iTree : ℤ), (iCom : ℤ))) := by
  intro fuel
  induction fuel with
  | zero =>
    intro pp iObs pred point t t' n h hp hok
    unfold parentChain at hok
    cases hok
    exact ⟨h, hp⟩
  | succ fuel ih =>
    intro pp iObs pred point t t' n h hpr hok
    unfold parentChain at hok
    obtain ⟨o, _, hok⟩ := bind_ok.mp hok
    obtain ⟨tr, _, hok⟩ := bind_ok.mp hok
    cases tr with
    | none => cases hok
    | some trafo =>
      obtain ⟨t1, h1, hok⟩ := bind_ok.mp hok
      have hf := addNode_owned h (n := .key iTree iCom pp) hpr h1
      cases hp : ot.parentIdx iObs with
      | none => rw [hp] at hok; cases hok; exact ⟨hf, Or.inr rfl⟩
      | some parent =>
        rw [hp] at hok
        exact ih _ _ _ _ _ _ _ hf (Or.inr rfl) hok

lemma owner_pair (i c : ℕ) : ownerOf (.pair (.num i) c) = ((i : ℤ), (c : ℤ)) := by
  simp [ownerOf]

lemma convComponent_owned {a : Avoider d} {x : Vec d} {st st' : ConvState d} {i : ℕ}
    {ot : ObstacleTree d} {tw : ℝ} {conv : Option (RotSeq (Vec d))} {c : Obstacle d × ℕ}
    (h : ConvOwned st.tree) (hok : convComponent a x i ot tw conv st c = .ok st') : ConvOwned st'.tree := by
  classical
  unfold convComponent at hok
  split_ifs at hok with h0
  · cases hok; exact h
  · obtain ⟨w, hw, hok⟩ := bind_ok.mp hok
    split_ifs at hok with h1
    · cases hok; exact h
    · obtain ⟨⟨t1, pred⟩, hp, hok⟩ := bind_ok.mp hok
      obtain ⟨g1, g2⟩ := parentChain_owned _ _ _ _ _ _ _ _ h (Or.inl rfl) hp
      cases conv with
      | none => cases hok
      | some s =>
        simp only at hok
        cases ha : t1.addSequence interId (.pair (.num i) c.2) s pred with
        | mk t2 e =>
          rw [ha] at hok
          cases e with
          | error e => cases hok
          | ok u =>
            cases hok
            exact addSequence_owned (fun ii => rfl) g1 (by rw [owner_pair]; exact g2) ha

lemma convTree_owned {ext : Ext d k} {a : Avoider d} {x : Vec d} {s : RotSeq (Vec d)}
    {st st' : ConvState d} {p : ObstacleTree d × ℕ} (h : ConvOwned st.tree)
    (hok : convTree ext a x s st p = .ok st') : ConvOwned st'.tree := by
  classical
  unfold convTree at hok
  obtain ⟨tw, htw, hok⟩ := bind_ok.mp hok
  split_ifs at hok with h0
  · cases hok; exact h
  · obtain ⟨root, hroot, hok⟩ := bind_ok.mp hok
    obtain ⟨w, hw, hok⟩ := bind_ok.mp hok
    obtain ⟨trafo, htr, hok⟩ := bind_ok.mp hok
    obtain ⟨conv, hconv, hok⟩ := bind_ok.mp hok
    cases hr : vectorRotationReduction ext.argsort s trafo conv w with
    | error e => rw [hr] at hok; cases hok
    | ok cont =>
      rw [hr] at hok
      simp only at hok
      obtain ⟨t1, h1, hok⟩ := bind_ok.mp hok
      have h1' := orRaise_ok.mp h1
      have g := addSequence_owned (t' := t1) (fun ii => rfl) h (Or.inl rfl) (Prod.ext h1'.1 h1'.2)
      refine foldlM_inv (f := convComponent a x p.2 p.1 tw conv) (l := p.1.components.zipIdx)
        (P := fun s' => ConvOwned s'.tree) (fun c b b' _ hb hb' => convComponent_owned hb hb') ?_ hok
      by_cases hgt : w > 1e-6
      · rw [if_pos hgt]; exact g
      · rw [if_neg hgt]; exact g

lemma convergence_owned {ext : Ext d k} {a : Avoider d} {x : Vec d} {s : RotSeq (Vec d)} {t0 : Tree NodeId d}
    {st : ConvState d} (h : Tree.fromSequence interId (.num (-10)) (.num (-1)) s = .ok t0)
    (hok : a.trees.zipIdx.foldlM (convTree ext a x s) ⟨t0, [], []⟩ = .ok st) : ConvOwned st.tree := by
  refine foldlM_inv (f := convTree ext a x s) (P := fun s' => ConvOwned s'.tree)
    (fun c b b' _ hb hb' => convTree_owned hb hb') ?_ hok
  unfold Tree.fromSequence at h
  cases s with
  | nil => cases h
  | cons q s =>
    simp only at h
    cases h1 : (Tree.empty : Tree NodeId d).setRoot (.num (-10)) q.base.b0 with
    | error e => rw [h1] at h; cases h
    | ok t0 =>
      rw [h1] at h
      simp only at h
      cases h2 : t0.addSequence interId (.num (-1)) (q :: s) (.num (-10)) true with
      | mk t1 e =>
        rw [h2] at h
        cases e with
        | error e => cases h
        | ok u =>
          cases h
          refine addSequence_owned (fun ii => rfl) ⟨C17_set_root _ _ _ h1, fun p c hpc => ?_⟩ (Or.inl rfl) h2
          exact absurd hpc (setRoot_no_edge h1 p c)

lemma conv_nonneg {a : Avoider d} {x : Vec d} {t0 : Tree NodeId d} {st : ConvState d} (h : ConvInv a x t0 st) :
    Nonneg st.weights := by
  intro w hw
  obtain ⟨i, hi, rfl⟩ := List.getElem_of_mem hw
  have hi' : i < st.nodes.length := by rw [h.len]; exact hi
  obtain ⟨_, _, _, _, _, _, _, p, g, _, _, hp, hg, e⟩ := h.origin (st.nodes[i], st.weights[i])
    (List.mem_iff_getElem.mpr ⟨i, by rw [List.length_zip]; omega, by simp⟩)
  change st.weights[i] = p * g at e
  rw [e]
  have : (0 : ℝ) < p := lt_trans (by norm_num) hp
  have : (0 : ℝ) < g := lt_trans (by norm_num) hg
  positivity

lemma conv_nodes {a : Avoider d} {x : Vec d} {t0 : Tree NodeId d} {st : ConvState d} (h : ConvInv a x t0 st)
    (h0 : NodeId.num (-1) ∈ t0.nodes) :
    (st.nodes ++ [NodeId.num (-1)]).Nodup ∧ ∀ n ∈ st.nodes ++ [NodeId.num (-1)], n ∈ st.tree.nodes := by
  constructor
  · rw [List.nodup_append]
    refine ⟨h.nodup, by simp, ?_⟩
    rintro m hm _ hm' rfl
    rw [List.mem_singleton] at hm'
    subst hm'
    exact (h.mem _ hm).2 h0
  · intro n hn
    rw [List.mem_append, List.mem_singleton] at hn
    rcases hn with hn | rfl
    · exact (h.mem n hn).1
    · exact h.grows.nodes _ h0

/-- The weights of the directions of convergence, without any assumption on contacts. -/
lemma convergenceWeights_le {ws : List ℝ} (h : Nonneg ws) : ∀ w ∈ convergenceWeights ws, w ≤ 1 := by
  classical
  by_cases hs : ∃ w ∈ ws, 1 ≤ w
  · obtain ⟨w, hw, hw1⟩ := hs
    rw [convergenceWeights_saturated h hw hw1]
    intro x hx
    rw [List.mem_append, List.mem_singleton] at hx
    rcases hx with hx | rfl
    · unfold indicator at hx
      obtain ⟨y, _, rfl⟩ := List.mem_map.1 hx
      split_ifs <;> norm_num
    · norm_num
  · push Not at hs
    have hf : ws.filter (fun w => w ≥ 1) = [] := by
      rw [List.filter_eq_nil_iff]
      intro w hw
      simpa using hs w hw
    obtain ⟨_, c2, c3⟩ := convergenceWeights_spec h (by
      rw [List.length_eq_zero_iff.2]
      · norm_num
      · convert hf)
    intro w hw
    rw [← c3]
    exact le_sum_of_mem c2 hw

/-- The weights of the avoider are admissible for the tree of convergence directions, whatever the number of
contacts. -/
lemma convergence_args {ext : Ext d k} {a : Avoider d} {x : Vec d} {s : RotSeq (Vec d)} {st : ConvState d}
    (hst : ConvergenceTree ext a x s st) :
    RootedTree st.tree (.num (-10))
      ∧ Args st.tree (.num (-10)) (st.nodes ++ [NodeId.num (-1)]) (convergenceWeights st.weights)
      ∧ 1 ≤ branchWeight st.tree ((st.nodes ++ [NodeId.num (-1)]).zip (convergenceWeights st.weights)) (.num (-10)) := by
  classical
  obtain ⟨t0, ht0, hf⟩ := id hst
  obtain ⟨r0, m0, _⟩ := fromSequence_facts ht0
  obtain ⟨inv, -⟩ := convFold r0 hf
  have hnn := conv_nonneg inv
  obtain ⟨c1, c2, c3⟩ := convergenceWeights_total hnn
  obtain ⟨n1, n2⟩ := conv_nodes inv m0
  have hlen : (st.nodes ++ [NodeId.num (-1)]).length = (convergenceWeights st.weights).length := by
    rw [c1, List.length_append, inv.len]; rfl
  have hown := convergence_owned ht0 hf
  have hfst : ((st.nodes ++ [NodeId.num (-1)]).zip (convergenceWeights st.weights)).map Prod.fst
      = st.nodes ++ [NodeId.num (-1)] := List.map_fst_zip hlen.le
  have hform : ∀ n ∈ st.nodes, ∃ j c : ℕ, n = .pair (.num j) c := by
    intro n hn
    rw [← List.map_fst_zip inv.len.le] at hn
    obtain ⟨q, hq, rfl⟩ := List.mem_map.1 hn
    obtain ⟨j, _, c, _, _, _, e, _⟩ := inv.origin q hq
    exact ⟨j, c, e⟩
  refine ⟨inv.rooted, ⟨hlen, n2, c2, fun n _ hn => ?_⟩, ?_⟩
  · refine owned_branch_le inv.rooted hown.2 (by rw [hfst]; exact n1) (fun e he => n2 _ (zip_fst_mem he).1) ?_
      (fun e he => convergenceWeights_le hnn _ (zip_fst_mem he).2) hn
    intro e he e' he' h
    have h1 := (zip_fst_mem he).1
    have h2 := (zip_fst_mem he').1
    rw [List.mem_append, List.mem_singleton] at h1 h2
    rcases h1 with h1 | h1 <;> rcases h2 with h2 | h2
    · obtain ⟨j, c, e1⟩ := hform _ h1
      obtain ⟨j', c', e2⟩ := hform _ h2
      rw [e1, e2, owner_pair, owner_pair] at h
      rw [e1, e2]
      obtain ⟨h3, h4⟩ := Prod.mk.inj h
      rw [h3, show c = c' from by exact_mod_cast h4]
    · obtain ⟨j, c, e1⟩ := hform _ h1
      rw [e1, h2, owner_pair] at h
      have := (Prod.mk.inj h).1
      omega
    · obtain ⟨j, c, e1⟩ := hform _ h2
      rw [e1, h1, owner_pair] at h
      have := (Prod.mk.inj h).1
      omega
    · rw [h1, h2]
  · rw [C20_root_total st.tree _ inv.rooted _ _ hlen n1 n2]
    exact c3

end Verif
