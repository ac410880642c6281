import Verif.Lemmas.TreeOps
import Verif.Lemmas.Convergence

/-!
# Helper lemmas: the loops of the avoider with other numbers of the obstacles
-/

open scoped RealInnerProductSpace

namespace Verif
open Spec

variable {d k : ℕ} [Fact (2 ≤ d)]
set_option linter.unusedSectionVars false

/-- Other numbers in a node identifier. -/
def renameFun (σ : ℤ → ℤ) : NodeId → NodeId
  | .num z => .num (σ z)
  | .pair a i => .pair (renameFun σ a) i
  | .key o c l => .key (σ o) c l

lemma renameFun_inv {σ τ : ℤ → ℤ} (h : ∀ z, τ (σ z) = z) (n : NodeId) :
    renameFun τ (renameFun σ n) = n := by
  induction n with
  | num z => simp [renameFun, h]
  | pair a i ih => simp [renameFun, ih]
  | key o c l => simp [renameFun, h]

/-- Other numbers in a node identifier, as a bijection. -/
def renameId (σ : Equiv.Perm ℤ) : NodeId ≃ NodeId where
  toFun := renameFun σ
  invFun := renameFun σ.symm
  left_inv := renameFun_inv (by simp)
  right_inv := renameFun_inv (by simp)

/-- The number of the obstacle in a node identifier. -/
def ixOf : NodeId → ℤ
  | .num z => z
  | .pair a _ => ixOf a
  | .key o _ _ => o

section Tangent
variable {σ : Equiv.Perm ℤ} {i j : ℕ}

/-- The nodes of an obstacle, and those it may read. -/
abbrev Own (i : ℕ) : NodeId → Prop := fun n => ixOf n = i
abbrev SeenBefore (i : ℕ) (r : NodeId) : NodeId → Prop := fun n => ixOf n = i ∨ n = r

lemma rename_key (hij : σ i = j) (c l : ℤ) : renameId σ (.key i c l) = .key j c l := by
  simp [renameId, renameFun, hij]

lemma branchSteps_runs (hij : σ i = j) {comp : ℕ} {r : NodeId} (l : List (BranchEntry d × BranchEntry d)) :
    ∀ {t t' : Tree NodeId d} {v v' : Vec d} {n n' : NodeId}, RootedTree t r → ixOf n = i →
      l.foldlM (branchStep i comp) (t, v, n) = .ok (t', v', n') →
      ixOf n' = i ∧ Runs (renameId σ) (Own i) (SeenBefore i r) r t t'
        (fun A B => l.foldlM (branchStep j comp) (A, v, renameId σ n) = .ok (B, v', renameId σ n')) := by
  induction l with
  | nil =>
    intro t t' v v' n n' h hn hok
    cases hok
    exact ⟨hn, (Runs.refl h).mono (fun A B e => by rw [e]; rfl)⟩
  | cons e l ih =>
    intro t t' v v' n n' h hn hok
    rw [List.foldlM_cons] at hok
    obtain ⟨⟨t1, v1, n1⟩, h1, hok⟩ := bind_ok.mp hok
    unfold branchStep at h1
    cases hf : fromDirections e.2.reference e.1.reference with
    | none => rw [hf] at h1; cases h1
    | some rot =>
      rw [hf] at h1
      obtain ⟨t2, h2, h1⟩ := bind_ok.mp h1
      cases h1
      have hrun := addNode_runs (f := renameId σ) (A := Own i) (V := SeenBefore i r) h (n := .key i comp e.2.idx)
        rfl (Or.inl rfl) (Or.inl hn) h2
      obtain ⟨g1, g2⟩ := ih hrun.1 (n := .key i comp e.2.idx) rfl hok
      refine ⟨g1, (hrun.trans g2).mono ?_⟩
      rintro A C ⟨B, b1, b2⟩
      rw [rename_key hij] at b1 b2
      rw [List.foldlM_cons]
      refine bind_ok.mpr ⟨(B, rot.rotate v, .key j comp e.2.idx), ?_, b2⟩
      unfold branchStep
      rw [hf]
      exact bind_ok.mpr ⟨B, b1, rfl⟩

lemma intermediateNode_runs (hij : σ i = j) {ext : Ext d k} {v : Vec d} {e0 : BranchEntry d} {comp : ℕ}
    {radius : ℝ} {r : NodeId} {t t' : Tree NodeId d} {n n' : NodeId} (h : RootedTree t r) (hn : ixOf n = i)
    (hok : intermediateNode ext v e0 i comp radius t n = .ok (t', n')) :
    ixOf n' = i ∧ Runs (renameId σ) (Own i) (SeenBefore i r) r t t'
      (fun A B => intermediateNode ext v e0 j comp radius A (renameId σ n) = .ok (B, renameId σ n')) := by
  classical
  unfold intermediateNode at hok
  by_cases hr : radius > Real.pi * 0.5
  · rw [if_pos hr] at hok
    obtain ⟨tan, h1, hok⟩ := bind_ok.mp hok
    obtain ⟨t1, h2, hok⟩ := bind_ok.mp hok
    cases hok
    refine ⟨rfl, (addNode_runs (f := renameId σ) (A := Own i) (V := SeenBefore i r) h (n := .key i comp (-1)) rfl
      (Or.inl rfl) (Or.inl hn) h2).mono ?_⟩
    intro A B b1
    unfold intermediateNode
    rw [if_pos hr]
    rw [rename_key hij] at b1 ⊢
    exact bind_ok.mpr ⟨tan, h1, bind_ok.mpr ⟨B, b1, rfl⟩⟩
  · rw [if_neg hr] at hok
    cases hok
    refine ⟨hn, (Runs.refl h).mono ?_⟩
    intro A B e
    unfold intermediateNode
    rw [if_neg hr, e]

lemma tangentBranch_runs (hij : σ i = j) {ext : Ext d k} {x v : Vec d} {comp : ℕ} {ot : ObstacleTree d}
    {radius : ℝ} {r : NodeId} {t t' : Tree NodeId d} {nv : Vec d} (h : RootedTree t r)
    (hok : tangentBranch ext x comp v ot i radius t = .ok (t', nv)) :
    Runs (renameId σ) (Own i) (SeenBefore i r) r t t'
      (fun A B => tangentBranch ext x comp v ot j radius A = .ok (B, nv)) := by
  classical
  unfold tangentBranch at hok
  obtain ⟨entries, h1, hok⟩ := bind_ok.mp hok
  cases entries with
  | nil => cases hok
  | cons e0 rest =>
    obtain ⟨⟨t1, v1, n1⟩, h2, hok⟩ := bind_ok.mp hok
    obtain ⟨o, h3, hok⟩ := bind_ok.mp hok
    obtain ⟨g1, g2⟩ := branchSteps_runs hij (r := r) _ h (n := .key i (-1) (-1)) rfl h2
    rw [rename_key hij] at g2
    by_cases hc : o.tailEffect = true ∨ ⟪e0.normal, v1⟫ < 0
    · rw [if_pos hc] at hok
      obtain ⟨⟨t2, n2⟩, h4, hok⟩ := bind_ok.mp hok
      obtain ⟨av, h5, hok⟩ := bind_ok.mp hok
      obtain ⟨t3, h6, hok⟩ := bind_ok.mp hok
      cases hok
      obtain ⟨i1, i2⟩ := intermediateNode_runs hij (r := r) g2.1 g1 h4
      have a1 := addNode_runs (f := renameId σ) (A := Own i) (V := SeenBefore i r) i2.1 (n := .key i comp e0.idx)
        rfl (Or.inl rfl) (Or.inl i1) h6
      refine ((g2.trans i2).trans a1).mono ?_
      rintro A D ⟨C, ⟨B, b1, b2⟩, b3⟩
      rw [rename_key hij] at b3
      unfold tangentBranch
      refine bind_ok.mpr ⟨_, h1, bind_ok.mpr ⟨_, b1, bind_ok.mpr ⟨_, h3, ?_⟩⟩⟩
      simp only
      rw [if_pos hc]
      exact bind_ok.mpr ⟨_, b2, bind_ok.mpr ⟨_, h5, bind_ok.mpr ⟨_, b3, rfl⟩⟩⟩
    · rw [if_neg hc] at hok
      obtain ⟨t3, h6, hok⟩ := bind_ok.mp hok
      cases hok
      have a1 := addNode_runs (f := renameId σ) (A := Own i) (V := SeenBefore i r) g2.1 (n := .key i comp e0.idx)
        rfl (Or.inl rfl) (Or.inl g1) h6
      refine (g2.trans a1).mono ?_
      rintro A D ⟨B, b1, b3⟩
      rw [rename_key hij] at b3
      unfold tangentBranch
      refine bind_ok.mpr ⟨_, h1, bind_ok.mpr ⟨_, b1, bind_ok.mpr ⟨_, h3, ?_⟩⟩⟩
      simp only
      rw [if_neg hc]
      exact bind_ok.mpr ⟨_, b3, rfl⟩

lemma populateSteps_runs (hij : σ i = j) {ext : Ext d k} {x v : Vec d} {ot : ObstacleTree d} {r : NodeId}
    (l : List (ℕ × ℝ × ℝ)) :
    ∀ {t t' : Tree NodeId d} {ns ns' : List NodeId} {nv nv' : List (Vec d)}, RootedTree t r →
      l.foldlM (populateStep ext x v ot i) (t, ns, nv) = .ok (t', ns', nv') →
      ∃ a b, ns' = ns ++ a ∧ nv' = nv ++ b ∧ Runs (renameId σ) (Own i) (SeenBefore i r) r t t'
        (fun A B => ∀ ms mv, l.foldlM (populateStep ext x v ot j) (A, ms, mv)
          = .ok (B, ms ++ a.map (renameId σ), mv ++ b)) := by
  classical
  induction l with
  | nil =>
    intro t t' ns ns' nv nv' h hok
    cases hok
    exact ⟨[], [], by simp, by simp, (Runs.refl h).mono (fun A B e ms mv => by rw [e]; simp; rfl)⟩
  | cons c l ih =>
    intro t t' ns ns' nv nv' h hok
    rw [List.foldlM_cons] at hok
    obtain ⟨⟨t1, ns1, nv1⟩, h1, hok⟩ := bind_ok.mp hok
    unfold populateStep at h1
    by_cases hc : c.2.1 ≤ 0
    · rw [if_pos hc] at h1
      cases h1
      obtain ⟨a, b, e1, e2, e3⟩ := ih h hok
      refine ⟨a, b, e1, e2, e3.mono ?_⟩
      intro A B hb ms mv
      rw [List.foldlM_cons]
      refine bind_ok.mpr ⟨(A, ms, mv), ?_, hb ms mv⟩
      unfold populateStep; rw [if_pos hc]
    · rw [if_neg hc] at h1
      obtain ⟨⟨t2, n2⟩, h2, h1⟩ := bind_ok.mp h1
      cases h1
      have g := tangentBranch_runs hij (r := r) h h2
      obtain ⟨a, b, e1, e2, e3⟩ := ih g.1 hok
      refine ⟨.key i c.1 c.1 :: a, n2 :: b, by simp [e1], by simp [e2], (g.trans e3).mono ?_⟩
      rintro A C ⟨B, b1, b2⟩ ms mv
      rw [List.foldlM_cons]
      refine bind_ok.mpr ⟨(B, ms ++ [.key j c.1 c.1], mv ++ [n2]), ?_, ?_⟩
      · unfold populateStep; rw [if_neg hc]
        exact bind_ok.mpr ⟨_, b1, rfl⟩
      · rw [b2, List.map_cons, rename_key hij]; simp

/-- The contribution of one obstacle to the tangent tree. -/
noncomputable def tangentRun (ext : Ext d k) (a : Avoider d) (x v : Vec d) (p : ObstacleTree d × ℕ)
    (t : Tree NodeId d) : Except PyErr (Tree NodeId d × TreeData d) := do
  let (gammas, gw, slow) ← computeGammaAndWeights ext a.power x p.1 v
  let occlusion ← computeParentOcclusionWeight x p.1
  let weights := List.zipWith (· * ·) gw occlusion
  let (t, nodes, normals) ← populateTangentTree ext a x v p.1 p.2 weights gammas (t, [], [])
  .ok (t, ⟨nodes, normals, slow, weights⟩)

/-- The contribution with other names. -/
def TreeData.rename (f : NodeId ≃ NodeId) (D : TreeData d) : TreeData d :=
  ⟨D.nodes.map f, D.normals, D.slow, D.weights⟩

lemma tangentRun_runs (hij : σ i = j) (h1 : σ (-1) = -1) {ext : Ext d k} {a : Avoider d} {x v : Vec d}
    {ot : ObstacleTree d} {t t' : Tree NodeId d} {D : TreeData d} (h : RootedTree t baseId)
    (hok : tangentRun ext a x v (ot, i) t = .ok (t', D)) :
    Runs (renameId σ) (Own i) (SeenBefore i baseId) baseId t t'
      (fun A B => tangentRun ext a x v (ot, j) A = .ok (B, D.rename (renameId σ))) := by
  unfold tangentRun at hok
  obtain ⟨⟨gammas, gw, slow⟩, e1, hok⟩ := bind_ok.mp hok
  obtain ⟨occ, e2, hok⟩ := bind_ok.mp hok
  obtain ⟨⟨t1, ns, nv⟩, e3, hok⟩ := bind_ok.mp hok
  cases hok
  unfold populateTangentTree at e3
  obtain ⟨t2, e4, e3⟩ := bind_ok.mp e3
  obtain ⟨radii, e5, e3⟩ := bind_ok.mp e3
  have g := addNode_runs (f := renameId σ) (A := Own i) (V := SeenBefore i baseId) h (n := .key i (-1) (-1)) rfl
    (Or.inl rfl) (Or.inr rfl) e4
  obtain ⟨na, nb, f1, f2, f3⟩ := populateSteps_runs hij (r := baseId) _ g.1 e3
  rw [List.nil_append] at f1 f2
  subst f1 f2
  refine (g.trans f3).mono ?_
  rintro A C ⟨B, b1, b2⟩
  have hb : renameId σ baseId = baseId := by simp [renameId, renameFun, h1]
  rw [rename_key hij, hb] at b1
  unfold tangentRun
  refine bind_ok.mpr ⟨_, e1, bind_ok.mpr ⟨_, e2, bind_ok.mpr ⟨(C, ns.map (renameId σ), nv), ?_, rfl⟩⟩⟩
  unfold populateTangentTree
  refine bind_ok.mpr ⟨_, b1, bind_ok.mpr ⟨_, e5, ?_⟩⟩
  have := b2 [] []
  rw [List.nil_append, List.nil_append] at this
  exact this

/-- The lists are only extended. -/
lemma populateSteps_append {ext : Ext d k} {x v : Vec d} {ot : ObstacleTree d} (l : List (ℕ × ℝ × ℝ)) :
    ∀ {t t' : Tree NodeId d} {ns ns' : List NodeId} {nv nv' : List (Vec d)} (ms : List NodeId) (mv : List (Vec d)),
      l.foldlM (populateStep ext x v ot i) (t, ns, nv) = .ok (t', ns', nv') →
      l.foldlM (populateStep ext x v ot i) (t, ms ++ ns, mv ++ nv) = .ok (t', ms ++ ns', mv ++ nv') := by
  classical
  induction l with
  | nil =>
    intro t t' ns ns' nv nv' ms mv hok
    cases hok; rfl
  | cons c l ih =>
    intro t t' ns ns' nv nv' ms mv hok
    rw [List.foldlM_cons] at hok ⊢
    obtain ⟨⟨t1, ns1, nv1⟩, h1, hok⟩ := bind_ok.mp hok
    refine bind_ok.mpr ⟨(t1, ms ++ ns1, mv ++ nv1), ?_, ih ms mv hok⟩
    unfold populateStep at h1 ⊢
    by_cases hc : c.2.1 ≤ 0
    · rw [if_pos hc] at h1 ⊢; cases h1; rfl
    · rw [if_neg hc] at h1 ⊢
      obtain ⟨⟨t2, n2⟩, h2, h1⟩ := bind_ok.mp h1
      cases h1
      exact bind_ok.mpr ⟨_, h2, by simp⟩

lemma populateSteps_split {ext : Ext d k} {x v : Vec d} {ot : ObstacleTree d} (l : List (ℕ × ℝ × ℝ)) :
    ∀ {t t' : Tree NodeId d} {ns : List NodeId} {nv : List (Vec d)} (ms : List NodeId) (mv : List (Vec d))
      {ns' : List NodeId} {nv' : List (Vec d)},
      l.foldlM (populateStep ext x v ot i) (t, ms ++ ns, mv ++ nv) = .ok (t', ns', nv') →
      ∃ a b, ns' = ms ++ a ∧ nv' = mv ++ b ∧ l.foldlM (populateStep ext x v ot i) (t, ns, nv) = .ok (t', a, b) := by
  classical
  induction l with
  | nil =>
    intro t t' ns nv ms mv ns' nv' hok
    cases hok; exact ⟨ns, nv, rfl, rfl, rfl⟩
  | cons c l ih =>
    intro t t' ns nv ms mv ns' nv' hok
    rw [List.foldlM_cons] at hok
    obtain ⟨⟨t1, ns1, nv1⟩, h1, hok⟩ := bind_ok.mp hok
    unfold populateStep at h1
    by_cases hc : c.2.1 ≤ 0
    · rw [if_pos hc] at h1; cases h1
      obtain ⟨a, b, e1, e2, e3⟩ := ih ms mv hok
      refine ⟨a, b, e1, e2, ?_⟩
      rw [List.foldlM_cons]
      refine bind_ok.mpr ⟨(t, ns, nv), ?_, e3⟩
      unfold populateStep; rw [if_pos hc]
    · rw [if_neg hc] at h1
      obtain ⟨⟨t2, n2⟩, h2, h1⟩ := bind_ok.mp h1
      cases h1
      simp only [List.append_assoc] at hok
      obtain ⟨a, b, e1, e2, e3⟩ := ih ms mv hok
      refine ⟨a, b, e1, e2, ?_⟩
      rw [List.foldlM_cons]
      refine bind_ok.mpr ⟨(_, ns ++ [.key i c.1 c.1], nv ++ [n2]), ?_, e3⟩
      unfold populateStep; rw [if_neg hc]
      exact bind_ok.mpr ⟨_, h2, rfl⟩

lemma tangentStep_iff {ext : Ext d k} {a : Avoider d} {x v : Vec d} {p : ObstacleTree d × ℕ}
    {t : Tree NodeId d} {Ds : List (TreeData d)} {st : TangentState d} :
    tangentStep ext a x v (stateOf t Ds) p = .ok st ↔
      ∃ t' D, tangentRun ext a x v p t = .ok (t', D) ∧ st = stateOf t' (Ds ++ [D]) := by
  classical
  constructor
  · intro h
    unfold tangentStep at h
    obtain ⟨⟨gammas, gw, slow⟩, e1, h⟩ := bind_ok.mp h
    obtain ⟨occ, e2, h⟩ := bind_ok.mp h
    obtain ⟨⟨t1, ns, nv⟩, e3, h⟩ := bind_ok.mp h
    cases h
    unfold populateTangentTree at e3
    obtain ⟨t2, e4, e3⟩ := bind_ok.mp e3
    obtain ⟨radii, e5, e3⟩ := bind_ok.mp e3
    simp only at e3 e4
    rw [← List.append_nil (stateOf t Ds).nodes, ← List.append_nil (stateOf t Ds).normals] at e3
    obtain ⟨na, nb, f1, f2, f3⟩ := populateSteps_split _ _ _ e3
    refine ⟨t1, ⟨na, nb, slow, List.zipWith (· * ·) gw occ⟩, ?_, ?_⟩
    · unfold tangentRun
      refine bind_ok.mpr ⟨_, e1, bind_ok.mpr ⟨_, e2, bind_ok.mpr ⟨(t1, na, nb), ?_, rfl⟩⟩⟩
      unfold populateTangentTree
      exact bind_ok.mpr ⟨_, e4, bind_ok.mpr ⟨_, e5, f3⟩⟩
    · subst f1 f2
      simp [stateOf]
  · rintro ⟨t', D, h, rfl⟩
    unfold tangentRun at h
    obtain ⟨⟨gammas, gw, slow⟩, e1, h⟩ := bind_ok.mp h
    obtain ⟨occ, e2, h⟩ := bind_ok.mp h
    obtain ⟨⟨t1, ns, nv⟩, e3, h⟩ := bind_ok.mp h
    cases h
    unfold populateTangentTree at e3
    obtain ⟨t2, e4, e3⟩ := bind_ok.mp e3
    obtain ⟨radii, e5, e3⟩ := bind_ok.mp e3
    have := populateSteps_append _ (stateOf t Ds).nodes (stateOf t Ds).normals e3
    rw [List.append_nil, List.append_nil] at this
    unfold tangentStep
    refine bind_ok.mpr ⟨_, e1, bind_ok.mpr ⟨_, e2, bind_ok.mpr
      ⟨(t', (stateOf t Ds).nodes ++ ns, (stateOf t Ds).normals ++ nv), ?_, ?_⟩⟩⟩
    · unfold populateTangentTree
      exact bind_ok.mpr ⟨_, e4, bind_ok.mpr ⟨_, e5, this⟩⟩
    · simp [stateOf]

lemma tangentFold_iff {ext : Ext d k} {a : Avoider d} {x v : Vec d} (l : List (ObstacleTree d × ℕ)) :
    ∀ {t : Tree NodeId d} {Ds : List (TreeData d)} {st : TangentState d},
    l.foldlM (tangentStep ext a x v) (stateOf t Ds) = .ok st ↔
      ∃ t' Ds', foldRun (tangentRun ext a x v) t l = .ok (t', Ds') ∧ st = stateOf t' (Ds ++ Ds') := by
  induction l with
  | nil =>
    intro t Ds st
    constructor
    · intro h; cases h; exact ⟨t, [], rfl, by simp⟩
    · rintro ⟨t', Ds', h, rfl⟩
      cases h; simp; rfl
  | cons p l ih =>
    intro t Ds st
    rw [List.foldlM_cons]
    constructor
    · intro h
      obtain ⟨s1, h1, h⟩ := bind_ok.mp h
      obtain ⟨t1, D, e1, rfl⟩ := tangentStep_iff.mp h1
      obtain ⟨t2, Ds2, e2, rfl⟩ := ih.mp h
      refine ⟨t2, D :: Ds2, ?_, by simp⟩
      simp only [foldRun, e1, e2]
    · rintro ⟨t', Ds', h, rfl⟩
      unfold foldRun at h
      cases e1 : tangentRun ext a x v p t with
      | error e => rw [e1] at h; cases h
      | ok w =>
        obtain ⟨t1, D⟩ := w
        rw [e1] at h
        simp only at h
        cases e2 : foldRun (tangentRun ext a x v) t1 l with
        | error e => rw [e2] at h; cases h
        | ok w =>
          obtain ⟨t2, Ds2⟩ := w
          rw [e2] at h
          cases h
          exact bind_ok.mpr ⟨_, tangentStep_iff.mpr ⟨t1, D, e1, rfl⟩, ih.mpr ⟨_, _, e2, by simp⟩⟩

end Tangent

section Conv
variable {σ : Equiv.Perm ℤ} {i j : ℕ}

lemma rename_inter (n : NodeId) (m : ℕ) : renameId σ (interId n m) = interId (renameId σ n) m := rfl

lemma addSequenceLoop_runs {n r : NodeId} (hn : ixOf n = i) (s : RotSeq (Vec d)) :
    ∀ {ii : ℕ} {p p' : NodeId} {t t' : Tree NodeId d}, RootedTree t r → SeenBefore i r p →
      Tree.addSequenceLoop interId n s ii p t = (t', .ok p') →
      SeenBefore i r p' ∧ Runs (renameId σ) (Own i) (SeenBefore i r) r t t'
        (fun A B => Tree.addSequenceLoop interId (renameId σ n) s ii (renameId σ p) A = (B, .ok (renameId σ p'))) := by
  induction s with
  | nil =>
    intro ii p p' t t' h hp hok
    unfold Tree.addSequenceLoop at hok
    cases hok
    exact ⟨hp, (Runs.refl h).mono (fun A B e => by rw [e]; rfl)⟩
  | cons q s ih =>
    intro ii p p' t t' h hp hok
    unfold Tree.addSequenceLoop at hok
    split at hok
    · cases hok
    · rename_i t1 h1
      have hi : ixOf (interId n ii) = i := hn
      have g := addNode_runs (f := renameId σ) (A := Own i) (V := SeenBefore i r) (t1 := t1) h (n := interId n ii) hi
        (Or.inl hi) hp (by rw [h1]; rfl)
      obtain ⟨g1, g2⟩ := ih g.1 (Or.inl hi) hok
      refine ⟨g1, (g.trans g2).mono ?_⟩
      rintro A C ⟨B, b1, b2⟩
      obtain ⟨c1, c2⟩ := orRaise_ok.mp b1
      rw [rename_inter] at b2 c1 c2
      have : A.addNode (interId (renameId σ n) ii) q.base.b0 (some (renameId σ p)) = (B, .ok ()) :=
        Prod.ext c1 c2
      unfold Tree.addSequenceLoop
      rw [this]
      exact b2

lemma addSequence_runs {n r p : NodeId} (hn : ixOf n = i) {s : RotSeq (Vec d)} {t t' : Tree NodeId d}
    (h : RootedTree t r) (hp : SeenBefore i r p) (hok : t.addSequence interId n s p true = (t', .ok ())) :
    Runs (renameId σ) (Own i) (SeenBefore i r) r t t'
      (fun A B => A.addSequence interId (renameId σ n) s (renameId σ p) true = (B, .ok ())) := by
  classical
  unfold Tree.addSequence at hok
  simp only [if_true] at hok
  cases s with
  | nil => cases hok
  | cons q s =>
    simp only at hok
    cases hd : t.dir p with
    | none => rw [hd] at hok; cases hok
    | some v =>
      rw [hd] at hok
      simp only at hok
      split_ifs at hok with hc
      · cases h1 : Tree.addSequenceLoop interId n (List.drop 1 (q :: s)) 1 p t with
        | mk t1 e1 =>
          rw [h1] at hok
          cases e1 with
          | error e => cases hok
          | ok p1 =>
            simp only at hok
            obtain ⟨a1, a2⟩ := addSequenceLoop_runs (σ := σ) hn _ h hp h1
            cases he : RotSeq.getEndVector (q :: s) with
            | error e => rw [he] at hok; cases hok
            | ok w =>
              rw [he] at hok
              simp only at hok
              have g := addNode_runs (f := renameId σ) (A := Own i) (V := SeenBefore i r) (t1 := t') a2.1 (n := n) hn
                (Or.inl hn) a1 (by rw [hok]; rfl)
              obtain ⟨u1, ops, u2, u3, u4⟩ := a2.trans g
              refine ⟨u1, ops, u2, u3, fun A hA hag => ?_⟩
              obtain ⟨w1, B, b1, b2⟩ := u4 A hA hag
              refine ⟨w1, ?_⟩
              obtain ⟨c1, c2⟩ := orRaise_ok.mp b2
              unfold Tree.addSequence
              simp only [if_true]
              rw [(hag p hp).2.2, hd]
              simp only
              rw [if_pos hc, b1]
              simp only [he]
              exact Prod.ext c1 c2
      · cases hok

lemma parentChain_runs (hij : σ i = j) {a : Avoider d} {ot : ObstacleTree d} {iCom : ℕ} {r : NodeId} :
    ∀ (fuel pp iObs : ℕ) (pred : NodeId) (point : Vec d) (t t' : Tree NodeId d) (n : NodeId), RootedTree t r →
      SeenBefore i r pred → parentChain a ot i iCom fuel pp iObs pred point t = .ok (t', n) →
      SeenBefore i r n ∧ Runs (renameId σ) (Own i) (SeenBefore i r) r t t'
        (fun A B => parentChain a ot j iCom fuel pp iObs (renameId σ pred) point A = .ok (B, renameId σ n)) := by
  intro fuel
  induction fuel with
  | zero =>
    intro pp iObs pred point t t' n h hp hok
    unfold parentChain at hok
    cases hok
    exact ⟨hp, (Runs.refl h).mono (fun A B e => by rw [e]; rfl)⟩
  | succ fuel ih =>
    intro pp iObs pred point t t' n h hp hok
    unfold parentChain at hok
    obtain ⟨o, h1, hok⟩ := bind_ok.mp hok
    obtain ⟨tr, h2, hok⟩ := bind_ok.mp hok
    cases tr with
    | none => cases hok
    | some trafo =>
      obtain ⟨t1, h3, hok⟩ := bind_ok.mp hok
      have g := addNode_runs (f := renameId σ) (A := Own i) (V := SeenBefore i r) h (n := .key i iCom pp) rfl
        (Or.inl rfl) hp h3
      cases hpi : ot.parentIdx iObs with
      | none =>
        rw [hpi] at hok; cases hok
        refine ⟨Or.inl rfl, g.mono ?_⟩
        intro A B b1
        rw [rename_key hij] at b1 ⊢
        unfold parentChain
        refine bind_ok.mpr ⟨_, h1, bind_ok.mpr ⟨_, h2, bind_ok.mpr ⟨B, b1, ?_⟩⟩⟩
        rw [hpi]
      | some parent =>
        rw [hpi] at hok
        obtain ⟨g1, g2⟩ := ih _ _ _ _ _ _ _ g.1 (Or.inl rfl) hok
        refine ⟨g1, (g.trans g2).mono ?_⟩
        rintro A C ⟨B, b1, b2⟩
        rw [rename_key hij] at b1 b2
        unfold parentChain
        refine bind_ok.mpr ⟨_, h1, bind_ok.mpr ⟨_, h2, bind_ok.mpr ⟨B, b1, ?_⟩⟩⟩
        rw [hpi]; exact b2

abbrev convBase : NodeId := .num (-10)

lemma rename_pair (hij : σ i = j) (c : ℕ) : renameId σ (.pair (.num i) c) = .pair (.num j) c := by
  simp [renameId, renameFun, hij]

lemma convComponent_runs (hij : σ i = j) (h10 : σ (-10) = -10) {a : Avoider d} {x : Vec d} {ot : ObstacleTree d}
    {tw : ℝ} {conv : Option (RotSeq (Vec d))} {c : Obstacle d × ℕ} {st st' : ConvState d}
    (h : RootedTree st.tree convBase) (hok : convComponent a x i ot tw conv st c = .ok st') :
    ∃ da dw, st'.nodes = st.nodes ++ da ∧ st'.weights = st.weights ++ dw
      ∧ Runs (renameId σ) (Own i) (SeenBefore i convBase) convBase st.tree st'.tree
        (fun A B => ∀ ms mw, convComponent a x j ot tw conv ⟨A, ms, mw⟩ c
          = .ok ⟨B, ms ++ da.map (renameId σ), mw ++ dw⟩) := by
  classical
  unfold convComponent at hok
  by_cases h0 : c.2 = ot.rootIdx
  · rw [if_pos h0] at hok
    cases hok
    refine ⟨[], [], by simp, by simp, (Runs.refl h).mono (fun A B e ms mw => ?_)⟩
    unfold convComponent; rw [if_pos h0, e]; simp
  · rw [if_neg h0] at hok
    obtain ⟨w, hw, hok⟩ := bind_ok.mp hok
    by_cases h1 : w ≤ 1e-2
    · rw [if_pos h1] at hok
      cases hok
      refine ⟨[], [], by simp, by simp, (Runs.refl h).mono (fun A B e ms mw => ?_)⟩
      unfold convComponent; rw [if_neg h0]
      refine bind_ok.mpr ⟨w, hw, ?_⟩
      rw [if_pos h1, e]; simp
    · rw [if_neg h1] at hok
      obtain ⟨⟨t1, pred⟩, hp, hok⟩ := bind_ok.mp hok
      obtain ⟨g1, g2⟩ := parentChain_runs hij (r := convBase) _ _ _ _ _ _ _ _ h (Or.inr rfl) hp
      cases conv with
      | none => cases hok
      | some s =>
        simp only at hok
        cases ha : t1.addSequence interId (.pair (.num i) c.2) s pred with
        | mk t2 e =>
          rw [ha] at hok
          cases e with
          | error e => cases hok
          | ok u =>
            cases hok
            have hi : ixOf (.pair (.num i) c.2) = i := rfl
            have g3 := addSequence_runs (σ := σ) hi g2.1 g1 ha
            refine ⟨[.pair (.num i) c.2], [w * tw], rfl, rfl, (g2.trans g3).mono ?_⟩
            rintro A C ⟨B, b1, b2⟩ ms mw
            have hb : renameId σ (.num (-10)) = .num (-10) := by simp [renameId, renameFun, h10]
            rw [hb] at b1
            rw [rename_pair hij] at b2
            unfold convComponent; rw [if_neg h0]
            refine bind_ok.mpr ⟨w, hw, ?_⟩
            rw [if_neg h1]
            refine bind_ok.mpr ⟨_, b1, ?_⟩
            simp only [b2, List.map_cons, List.map_nil, rename_pair hij]

lemma convComponents_runs (hij : σ i = j) (h10 : σ (-10) = -10) {a : Avoider d} {x : Vec d} {ot : ObstacleTree d}
    {tw : ℝ} {conv : Option (RotSeq (Vec d))} (l : List (Obstacle d × ℕ)) :
    ∀ {st st' : ConvState d}, RootedTree st.tree convBase →
      l.foldlM (convComponent a x i ot tw conv) st = .ok st' →
    ∃ da dw, st'.nodes = st.nodes ++ da ∧ st'.weights = st.weights ++ dw
      ∧ Runs (renameId σ) (Own i) (SeenBefore i convBase) convBase st.tree st'.tree
        (fun A B => ∀ ms mw, l.foldlM (convComponent a x j ot tw conv) ⟨A, ms, mw⟩
          = .ok ⟨B, ms ++ da.map (renameId σ), mw ++ dw⟩) := by
  induction l with
  | nil =>
    intro st st' h hok
    cases hok
    refine ⟨[], [], by simp, by simp, (Runs.refl h).mono (fun A B e ms mw => ?_)⟩
    rw [e]; simp; rfl
  | cons c l ih =>
    intro st st' h hok
    rw [List.foldlM_cons] at hok
    obtain ⟨s1, h1, hok⟩ := bind_ok.mp hok
    obtain ⟨da, dw, e1, e2, e3⟩ := convComponent_runs hij h10 h h1
    obtain ⟨da', dw', f1, f2, f3⟩ := ih e3.1 hok
    refine ⟨da ++ da', dw ++ dw', by rw [f1, e1, List.append_assoc], by rw [f2, e2, List.append_assoc],
      (e3.trans f3).mono ?_⟩
    rintro A C ⟨B, b1, b2⟩ ms mw
    rw [List.foldlM_cons]
    refine bind_ok.mpr ⟨_, b1 ms mw, ?_⟩
    rw [b2]; simp

lemma convTree_runs (hij : σ i = j) (h10 : σ (-10) = -10) {ext : Ext d k} {a : Avoider d} {x : Vec d}
    {s : RotSeq (Vec d)} {ot : ObstacleTree d} {st st' : ConvState d} (h : RootedTree st.tree convBase)
    (hok : convTree ext a x s st (ot, i) = .ok st') :
    ∃ da dw, st'.nodes = st.nodes ++ da ∧ st'.weights = st.weights ++ dw
      ∧ Runs (renameId σ) (Own i) (SeenBefore i convBase) convBase st.tree st'.tree
        (fun A B => ∀ ms mw, convTree ext a x s ⟨A, ms, mw⟩ (ot, j)
          = .ok ⟨B, ms ++ da.map (renameId σ), mw ++ dw⟩) := by
  classical
  unfold convTree at hok
  obtain ⟨tw, htw, hok⟩ := bind_ok.mp hok
  by_cases h0 : tw ≤ 1e-6
  · rw [if_pos h0] at hok
    cases hok
    refine ⟨[], [], by simp, by simp, (Runs.refl h).mono (fun A B e ms mw => ?_)⟩
    unfold convTree
    refine bind_ok.mpr ⟨tw, htw, ?_⟩
    rw [if_pos h0, e]; simp
  · rw [if_neg h0] at hok
    obtain ⟨root, hroot, hok⟩ := bind_ok.mp hok
    obtain ⟨w, hw, hok⟩ := bind_ok.mp hok
    obtain ⟨trafo, htr, hok⟩ := bind_ok.mp hok
    obtain ⟨conv, hconv, hok⟩ := bind_ok.mp hok
    cases hr : vectorRotationReduction ext.argsort s trafo conv w with
    | error e => rw [hr] at hok; cases hok
    | ok cont =>
      rw [hr] at hok
      simp only at hok
      obtain ⟨t1, h1, hok⟩ := bind_ok.mp hok
      have h1' := orRaise_ok.mp h1
      have hi : ixOf (.pair (.num i) ot.rootIdx) = i := rfl
      have g := addSequence_runs (σ := σ) (t' := t1) (r := convBase) hi h (Or.inr rfl) (Prod.ext h1'.1 h1'.2)
      have hb : renameId σ (.num (-10)) = .num (-10) := by simp [renameId, renameFun, h10]
      by_cases hgt : w > 1e-6
      · rw [if_pos hgt] at hok
        obtain ⟨da, dw, e1, e2, e3⟩ := convComponents_runs hij h10 _ (by exact g.1) hok
        refine ⟨.pair (.num i) ot.rootIdx :: da, (w * tw) :: dw, by simp [e1], by simp [e2], (g.trans e3).mono ?_⟩
        rintro A C ⟨B, b1, b2⟩ ms mw
        rw [rename_pair hij, hb] at b1
        unfold convTree
        refine bind_ok.mpr ⟨tw, htw, ?_⟩
        rw [if_neg h0]
        refine bind_ok.mpr ⟨_, hroot, bind_ok.mpr ⟨_, hw, bind_ok.mpr ⟨_, htr, bind_ok.mpr ⟨_, hconv, ?_⟩⟩⟩⟩
        rw [hr]
        refine bind_ok.mpr ⟨B, by simp only [b1]; rfl, ?_⟩
        rw [if_pos hgt, b2]
        simp [rename_pair hij]
      · rw [if_neg hgt] at hok
        obtain ⟨da, dw, e1, e2, e3⟩ := convComponents_runs hij h10 _ (by exact g.1) hok
        refine ⟨da, dw, e1, e2, (g.trans e3).mono ?_⟩
        rintro A C ⟨B, b1, b2⟩ ms mw
        rw [rename_pair hij, hb] at b1
        unfold convTree
        refine bind_ok.mpr ⟨tw, htw, ?_⟩
        rw [if_neg h0]
        refine bind_ok.mpr ⟨_, hroot, bind_ok.mpr ⟨_, hw, bind_ok.mpr ⟨_, htr, bind_ok.mpr ⟨_, hconv, ?_⟩⟩⟩⟩
        rw [hr]
        refine bind_ok.mpr ⟨B, by simp only [b1]; rfl, ?_⟩
        rw [if_neg hgt, b2]

/-- The contribution of one obstacle to the tree of convergence directions. -/
noncomputable def convRun (ext : Ext d k) (a : Avoider d) (x : Vec d) (s : RotSeq (Vec d))
    (p : ObstacleTree d × ℕ) (t : Tree NodeId d) : Except PyErr (Tree NodeId d × (List NodeId × List ℝ)) :=
  match convTree ext a x s ⟨t, [], []⟩ p with
  | .error e => .error e
  | .ok st => .ok (st.tree, st.nodes, st.weights)

lemma convRun_ok {ext : Ext d k} {a : Avoider d} {x : Vec d} {s : RotSeq (Vec d)}
    {p : ObstacleTree d × ℕ} {t t' : Tree NodeId d} {D : List NodeId × List ℝ} :
    convRun ext a x s p t = .ok (t', D) ↔ convTree ext a x s ⟨t, [], []⟩ p = .ok ⟨t', D.1, D.2⟩ := by
  unfold convRun
  cases h : convTree ext a x s ⟨t, [], []⟩ p with
  | error e => simp
  | ok st =>
    obtain ⟨a, b, c⟩ := st
    obtain ⟨u, v⟩ := D
    simp

lemma rename_one (n : NodeId) : renameId 1 n = n := by
  induction n with
  | num z => rfl
  | pair a m ih =>
    change NodeId.pair (renameId 1 a) m = _
    rw [ih]
  | key o c l => rfl

lemma convRun_runs (hij : σ i = j) (h10 : σ (-10) = -10) {ext : Ext d k} {a : Avoider d} {x : Vec d}
    {s : RotSeq (Vec d)} {ot : ObstacleTree d} {t t' : Tree NodeId d} {D : List NodeId × List ℝ}
    (h : RootedTree t convBase) (hok : convRun ext a x s (ot, i) t = .ok (t', D)) :
    Runs (renameId σ) (Own i) (SeenBefore i convBase) convBase t t'
      (fun A B => convRun ext a x s (ot, j) A = .ok (B, (D.1.map (renameId σ), D.2))) := by
  rw [convRun_ok] at hok
  obtain ⟨da, dw, e1, e2, e3⟩ := convTree_runs hij h10 (by exact h) hok
  simp only [List.nil_append] at e1 e2
  refine e3.mono ?_
  intro A B hb
  rw [convRun_ok]
  have := hb [] []
  rw [List.nil_append, List.nil_append] at this
  rw [this, e1, e2]

/-- The lists are only extended. -/
lemma convTree_append {ext : Ext d k} {a : Avoider d} {x : Vec d} {s : RotSeq (Vec d)}
    {p : ObstacleTree d × ℕ} {t : Tree NodeId d} {ns : List NodeId} {ws : List ℝ} {st : ConvState d}
    (h : RootedTree t convBase) (hok : convTree ext a x s ⟨t, ns, ws⟩ p = .ok st) :
    ∃ da dw, st.nodes = ns ++ da ∧ st.weights = ws ++ dw ∧ RootedTree st.tree convBase
      ∧ ∀ ms mw, convTree ext a x s ⟨t, ms, mw⟩ p = .ok ⟨st.tree, ms ++ da, mw ++ dw⟩ := by
  obtain ⟨ot, i⟩ := p
  obtain ⟨da, dw, e1, e2, e3, ops, e4, e5, e6⟩ :=
    convTree_runs (σ := 1) (i := i) (j := i) rfl rfl (by exact h) hok
  refine ⟨da, dw, e1, e2, e3, ?_⟩
  have hr : ∀ o : Op d, Op.rename (renameId 1) o = o := by
    intro o; simp [Op.rename, rename_one]
  have hm : ops.map (Op.rename (renameId 1)) = ops := by
    conv_rhs => rw [← List.map_id ops]
    apply List.map_congr_left; intro o _; exact hr o
  have hm' : da.map (renameId 1) = da := by
    conv_rhs => rw [← List.map_id da]
    apply List.map_congr_left; intro o _; exact rename_one o
  have := (e6 t (by rw [rename_one]; exact h) (fun n _ => by rw [rename_one]; exact ⟨Iff.rfl, rfl, rfl⟩)).2
  simp only at e5
  rw [hm, ← e5, hm'] at this
  exact this

lemma convFold_iff {ext : Ext d k} {a : Avoider d} {x : Vec d} {s : RotSeq (Vec d)}
    (l : List (ObstacleTree d × ℕ)) :
    ∀ {t : Tree NodeId d} {ns : List NodeId} {ws : List ℝ} {st : ConvState d}, RootedTree t convBase →
    (l.foldlM (convTree ext a x s) ⟨t, ns, ws⟩ = .ok st ↔
      ∃ t' Ds, foldRun (convRun ext a x s) t l = .ok (t', Ds)
        ∧ st = ⟨t', ns ++ Ds.flatMap Prod.fst, ws ++ Ds.flatMap Prod.snd⟩) := by
  induction l with
  | nil =>
    intro t ns ws st _
    constructor
    · intro h; cases h; exact ⟨t, [], rfl, by simp⟩
    · rintro ⟨t', Ds', h, rfl⟩
      cases h; simp; rfl
  | cons p l ih =>
    intro t ns ws st h0
    rw [List.foldlM_cons]
    constructor
    · intro h
      obtain ⟨⟨t1, n1, w1⟩, h1, h⟩ := bind_ok.mp h
      obtain ⟨da, dw, e1, e2, e3, e4⟩ := convTree_append h0 h1
      simp only at e1 e2
      subst e1 e2
      obtain ⟨t2, Ds2, e5, rfl⟩ := (ih e3).mp h
      have e6 : convRun ext a x s p t = .ok (t1, (da, dw)) := by
        rw [convRun_ok]
        have := e4 [] []
        rw [List.nil_append, List.nil_append] at this
        exact this
      refine ⟨t2, (da, dw) :: Ds2, ?_, by simp⟩
      simp only [foldRun, e6, e5]
    · rintro ⟨t', Ds', h, rfl⟩
      unfold foldRun at h
      cases e1 : convRun ext a x s p t with
      | error e => rw [e1] at h; cases h
      | ok w =>
        obtain ⟨t1, D⟩ := w
        rw [e1] at h
        simp only at h
        cases e2 : foldRun (convRun ext a x s) t1 l with
        | error e => rw [e2] at h; cases h
        | ok w =>
          obtain ⟨t2, Ds2⟩ := w
          rw [e2] at h
          cases h
          obtain ⟨da, dw, f1, f2, f3, f4⟩ := convTree_append h0 (convRun_ok.mp e1)
          simp only [List.nil_append] at f1 f2
          have := f4 ns ws
          rw [← f1, ← f2] at this
          exact bind_ok.mpr ⟨_, this, (ih f3).mpr ⟨_, _, e2, by simp⟩⟩

end Conv
end Verif
