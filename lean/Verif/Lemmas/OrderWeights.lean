import Verif.Model.Avoider
import Verif.Lemmas.ConvergenceReduction
import Verif.Lemmas.AvoiderOrder

/-!
# Helper lemmas: the weights in another order
-/

open scoped RealInnerProductSpace

namespace Verif
open Spec

/-! ### Lists -/

lemma zip_flatMap {α β γ : Type*} (g : α → List β) (h : α → List γ) (l : List α)
    (hl : ∀ a ∈ l, (g a).length = (h a).length) :
    (l.flatMap g).zip (l.flatMap h) = l.flatMap (fun a => (g a).zip (h a)) := by
  induction l with
  | nil => rfl
  | cons a l ih =>
    rw [List.flatMap_cons, List.flatMap_cons, List.flatMap_cons, List.zip_append (hl a List.mem_cons_self),
      ih (fun b hb => hl b (List.mem_cons_of_mem _ hb))]

lemma zipWith_flatMap {α β γ δ : Type*} (F : β → γ → δ) (g : α → List β) (h : α → List γ) (l : List α)
    (hl : ∀ a ∈ l, (g a).length = (h a).length) :
    List.zipWith F (l.flatMap g) (l.flatMap h) = l.flatMap (fun a => List.zipWith F (g a) (h a)) := by
  induction l with
  | nil => rfl
  | cons a l ih =>
    rw [List.flatMap_cons, List.flatMap_cons, List.flatMap_cons, List.zipWith_append (hl a List.mem_cons_self),
      ih (fun b hb => hl b (List.mem_cons_of_mem _ hb))]

lemma perm_max? {l l' : List ℝ} (h : l'.Perm l) : l'.max? = l.max? := by
  cases e : l.max? with
  | none =>
    rw [List.max?_eq_none_iff] at e ⊢
    subst e; exact h.eq_nil
  | some m =>
    rw [List.max?_eq_some_iff] at e ⊢
    exact ⟨h.mem_iff.mpr e.1, fun b hb => e.2 b (h.mem_iff.mp hb)⟩

lemma perm_min? {l l' : List ℝ} (h : l'.Perm l) : l'.min? = l.min? := by
  cases e : l.min? with
  | none =>
    rw [List.min?_eq_none_iff] at e ⊢
    subst e; exact h.eq_nil
  | some m =>
    rw [List.min?_eq_some_iff] at e ⊢
    exact ⟨h.mem_iff.mpr e.1, fun b hb => e.2 b (h.mem_iff.mp hb)⟩

lemma perm_mapM_some {α β : Type} (g : α → Option β) {l l' : List α} (h : l.Perm l') {out : List β}
    (hm : l.mapM g = some out) : ∃ out', l'.mapM g = some out' ∧ out'.Perm out := by
  induction h generalizing out with
  | nil => exact ⟨out, hm, List.Perm.refl _⟩
  | cons a _ ih =>
    rw [List.mapM_cons] at hm
    cases e : g a with
    | none => rw [e] at hm; cases hm
    | some b =>
      rw [e] at hm
      simp only [Option.bind_eq_bind, Option.bind_some] at hm
      obtain ⟨o1, e1, e2⟩ := Option.bind_eq_some_iff.mp hm
      cases e2
      obtain ⟨o2, f1, f2⟩ := ih e1
      exact ⟨b :: o2, by rw [List.mapM_cons, e, f1]; rfl, f2.cons b⟩
  | swap a b l =>
    rw [List.mapM_cons, List.mapM_cons] at hm
    cases e : g b with
    | none => rw [e] at hm; cases hm
    | some b' =>
      cases e' : g a with
      | none => rw [e, e'] at hm; cases hm
      | some a' =>
        cases e3 : l.mapM g with
        | none => rw [e, e', e3] at hm; cases hm
        | some o =>
          rw [e, e', e3] at hm
          cases hm
          exact ⟨a' :: b' :: o, by rw [List.mapM_cons, List.mapM_cons, e, e', e3]; rfl, List.Perm.swap _ _ _⟩
  | trans _ _ ih1 ih2 =>
    obtain ⟨o1, e1, e2⟩ := ih1 hm
    obtain ⟨o2, f1, f2⟩ := ih2 e1
    exact ⟨o2, f1, f2.trans e2⟩

lemma slowfactor_perm {l l' : List (ℝ × ℝ)} (h : l'.Perm l) {p m : ℝ}
    (hm : slowfactorFromConvergence l p = .ok m) : slowfactorFromConvergence l' p = .ok m := by
  classical
  unfold slowfactorFromConvergence at hm ⊢
  split at hm
  · cases hm
  · rename_i scaling e
    obtain ⟨o, e1, e2⟩ := perm_mapM_some _ h.symm e
    rw [e1]
    simp only
    rw [perm_min? e2]
    exact hm

/-! ### Limited weights -/

open Classical in
/-- What `get_limited_weights_to_max_sum` does with one weight. -/
noncomputable def limited (l : List ℝ) : ℝ → ℝ :=
  if l.sum < 1 then id
  else if ∃ w ∈ l, w ≥ 1 then fun x => if x ≥ 1 then 1 else 0
  else fun w => (1 / (1 - w) - 1) / (l.map (fun w => 1 / (1 - w) - 1)).sum

lemma limited_map (l : List ℝ) : (getLimitedWeightsToMaxSum l).1 = l.map (limited l) := by
  classical
  unfold getLimitedWeightsToMaxSum limited
  split_ifs
  · simp
  · rfl
  · unfold normalised
    rw [List.map_map]; rfl

lemma limited_perm {l l' : List ℝ} (h : l'.Perm l) : limited l' = limited l := by
  classical
  unfold limited
  have e : (∃ w ∈ l', w ≥ 1) ↔ ∃ w ∈ l, w ≥ 1 := by
    constructor <;> rintro ⟨w, h1, h2⟩
    · exact ⟨w, h.mem_iff.mp h1, h2⟩
    · exact ⟨w, h.mem_iff.mpr h1, h2⟩
  rw [h.sum_eq, (h.map _).sum_eq]
  simp only [e]

lemma limited_total_perm {l l' : List ℝ} (h : l'.Perm l) :
    (getLimitedWeightsToMaxSum l').2 = (getLimitedWeightsToMaxSum l).2 := by
  classical
  unfold getLimitedWeightsToMaxSum
  have e : (∃ w ∈ l', w ≥ 1) ↔ ∃ w ∈ l, w ≥ 1 := by
    constructor <;> rintro ⟨w, h1, h2⟩
    · exact ⟨w, h.mem_iff.mp h1, h2⟩
    · exact ⟨w, h.mem_iff.mpr h1, h2⟩
  rw [h.sum_eq]
  simp only [e]
  split_ifs <;> rfl

lemma convergenceWeights_eq (ws : List ℝ) : convergenceWeights ws
    = ws.map (limited (ws ++ [0])) ++ [limited (ws ++ [0]) 0 + (1 - (getLimitedWeightsToMaxSum (ws ++ [0])).2)] := by
  unfold convergenceWeights
  simp only
  rw [limited_map, List.map_append, List.map_singleton, addToLast_append]

/-- The given weights of the tree of convergence directions in another order. -/
lemma convergenceGiven_perm {I J : Type} {f : I → J} {ns : List I} {ns' : List J} {ws ws' : List ℝ}
    (hl : ns.length = ws.length) (hl' : ns'.length = ws'.length) {n : I} {m : J} (hm : m = f n)
    (h : (ns'.zip ws').Perm ((ns.zip ws).map (Prod.map f id))) :
    ((ns' ++ [m]).zip (convergenceWeights ws')).Perm
      (((ns ++ [n]).zip (convergenceWeights ws)).map (Prod.map f id)) := by
  have hw : ws'.Perm ws := by
    have := h.map Prod.snd
    rw [List.map_snd_zip (by omega), List.map_map] at this
    have e : (Prod.snd ∘ Prod.map f id : I × ℝ → ℝ) = Prod.snd := by funext p; rfl
    rw [e, List.map_snd_zip (by omega)] at this
    exact this
  have hw0 : (ws' ++ [0]).Perm (ws ++ [0]) := hw.append_right _
  rw [convergenceWeights_eq, convergenceWeights_eq, limited_perm hw0, limited_total_perm hw0,
    List.zip_append (by rw [List.length_map]; exact hl'), List.zip_append (by rw [List.length_map]; exact hl),
    List.zip_map_right, List.zip_map_right, List.map_append, hm]
  refine List.Perm.append ?_ (by simp)
  have := h.map (Prod.map id (limited (ws ++ [0])))
  rw [List.map_map] at this ⊢
  exact this

/-! ### Cluster weights -/

section
variable {d k : ℕ} [Fact (2 ≤ d)]
set_option linter.unusedSectionVars false

open Classical in
/-- The weights of the components of one obstacle. -/
noncomputable def clusterOf (g : ℝ → ℝ) (D : TreeData d) : List ℝ :=
  (normalised (D.weights.filter (fun w => w > 0))).map (fun w => g D.weights.sum * w)

lemma cluster_eq (t : Tree NodeId d) (Ds : List (TreeData d)) :
    clusterWeights (stateOf t Ds).influence (stateOf t Ds).componentWeights
      = Ds.flatMap (clusterOf (limited (Ds.map (fun D => D.weights.sum)))) := by
  classical
  unfold clusterWeights stateOf
  simp only
  rw [limited_map, List.map_map, List.zipWith_map, List.zipWith_self, List.flatMap_def]
  rfl

/-- As many nodes and normals as positive weights. -/
def Matching (D : TreeData d) : Prop :=
  open Classical in
  D.nodes.length = (D.weights.filter (fun w => w > 0)).length
    ∧ D.normals.length = (D.weights.filter (fun w => w > 0)).length

lemma clusterOf_length (g : ℝ → ℝ) {D : TreeData d} (h : Matching D) :
    D.nodes.length = (clusterOf g D).length ∧ D.normals.length = (clusterOf g D).length := by
  classical
  unfold clusterOf normalised
  simp only [List.length_map]
  exact h

lemma perm_sums {f : NodeId ≃ NodeId} {Ds Ds' : List (TreeData d)} (h : Ds'.Perm (Ds.map (TreeData.rename f))) :
    (Ds'.map (fun D => D.weights.sum)).Perm (Ds.map (fun D => D.weights.sum)) := by
  have := h.map (fun D : TreeData d => D.weights.sum)
  rw [List.map_map] at this
  exact this

lemma perm_matching {f : NodeId ≃ NodeId} {Ds Ds' : List (TreeData d)} (h : Ds'.Perm (Ds.map (TreeData.rename f)))
    (hm : ∀ D ∈ Ds, Matching D) : ∀ D ∈ Ds', Matching D := by
  intro D hD
  obtain ⟨E, hE, rfl⟩ := List.mem_map.mp (h.mem_iff.mp hD)
  have := hm E hE
  unfold Matching at this ⊢
  unfold TreeData.rename
  simp only [List.length_map]
  exact this

lemma perm_cluster {f : NodeId ≃ NodeId} {Ds Ds' : List (TreeData d)} (h : Ds'.Perm (Ds.map (TreeData.rename f))) :
    (Ds'.flatMap (clusterOf (limited (Ds'.map (fun D => D.weights.sum))))).Perm
      (Ds.flatMap (clusterOf (limited (Ds.map (fun D => D.weights.sum))))) := by
  rw [limited_perm (perm_sums h)]
  have := h.flatMap_right (clusterOf (limited (Ds.map (fun D => D.weights.sum))))
  rw [List.flatMap_map] at this
  exact this

lemma perm_avoidanceGiven {f : NodeId ≃ NodeId} {Ds Ds' : List (TreeData d)}
    (h : Ds'.Perm (Ds.map (TreeData.rename f))) (hm : ∀ D ∈ Ds, Matching D) {n : NodeId} (hn : f n = n) :
    ((Ds'.flatMap TreeData.nodes ++ [n]).zip
      (avoidanceWeights (Ds'.flatMap (clusterOf (limited (Ds'.map (fun D => D.weights.sum))))))).Perm
    (((Ds.flatMap TreeData.nodes ++ [n]).zip
      (avoidanceWeights (Ds.flatMap (clusterOf (limited (Ds.map (fun D => D.weights.sum))))))).map
        (Prod.map f id)) := by
  have hm' := perm_matching h hm
  unfold avoidanceWeights
  rw [(perm_cluster h).sum_eq, limited_perm (perm_sums h)]
  set g := limited (Ds.map (fun D => D.weights.sum)) with hg
  have hl : ∀ Ds : List (TreeData d), (∀ D ∈ Ds, Matching D) →
      (Ds.flatMap TreeData.nodes).length = (Ds.flatMap (clusterOf g)).length := by
    intro Ds hm
    rw [List.length_flatMap, List.length_flatMap]
    congr 1
    exact List.map_congr_left (fun D hD => (clusterOf_length g (hm D hD)).1)
  rw [List.zip_append (hl _ hm'), List.zip_append (hl _ hm), List.map_append,
    zip_flatMap _ _ _ (fun D hD => (clusterOf_length g (hm' D hD)).1),
    zip_flatMap _ _ _ (fun D hD => (clusterOf_length g (hm D hD)).1)]
  refine List.Perm.append ?_ (by simp [hn])
  have := h.flatMap_right (fun D : TreeData d => D.nodes.zip (clusterOf g D))
  refine this.trans ?_
  rw [List.flatMap_map, List.map_flatMap]
  apply List.Perm.of_eq
  congr 1
  funext D
  change (D.nodes.map f).zip (clusterOf g D) = _
  rw [List.zip_map_left]

lemma perm_averaged {f : NodeId ≃ NodeId} {Ds Ds' : List (TreeData d)}
    (h : Ds'.Perm (Ds.map (TreeData.rename f))) (hm : ∀ D ∈ Ds, Matching D) :
    (List.zipWith (fun (n : Vec d) w => w • n) (Ds'.flatMap TreeData.normals)
      (Ds'.flatMap (clusterOf (limited (Ds'.map (fun D => D.weights.sum)))))).sum
    = (List.zipWith (fun (n : Vec d) w => w • n) (Ds.flatMap TreeData.normals)
      (Ds.flatMap (clusterOf (limited (Ds.map (fun D => D.weights.sum)))))).sum := by
  have hm' := perm_matching h hm
  rw [limited_perm (perm_sums h)]
  set g := limited (Ds.map (fun D => D.weights.sum)) with hg
  rw [zipWith_flatMap _ _ _ _ (fun D hD => (clusterOf_length g (hm' D hD)).2),
    zipWith_flatMap _ _ _ _ (fun D hD => (clusterOf_length g (hm D hD)).2)]
  apply List.Perm.sum_eq
  have := h.flatMap_right (fun D : TreeData d => List.zipWith (fun (n : Vec d) w => w • n) D.normals (clusterOf g D))
  rw [List.flatMap_map] at this
  exact this

/-! ### Relative velocity -/

open Classical in
/-- What `compute_gamma_weights` does with one value. -/
noncomputable def gammaWeight (l : List ℝ) : ℝ → ℝ :=
  let cs := (indicator (· ≤ 1) l).sum
  let ws := (l.map (fun x => (1 / (x - 1)) ^ (1 : ℝ))).sum
  if cs ≠ 0 then
    if cs ≥ 2 then fun x => (if x ≤ 1 then 1 else 0) * 1 / cs else fun x => if x ≤ 1 then 1 else 0
  else if ws ≤ 1 then fun x => (1 / (x - 1)) ^ (1 : ℝ) else fun x => (1 / (x - 1)) ^ (1 : ℝ) / ws

lemma gammaWeight_map (l : List ℝ) : computeGammaWeights l 1 = l.map (gammaWeight l) := by
  classical
  unfold computeGammaWeights gammaWeight normalised
  simp only [List.map_map]
  by_cases h1 : (indicator (· ≤ 1) l).sum ≠ 0
  · rw [if_pos h1, if_pos h1]
    by_cases h2 : (indicator (· ≤ 1) l).sum ≥ 2
    · rw [if_pos h2, if_pos h2]
      conv_lhs => unfold indicator
      rw [List.map_map]; rfl
    · rw [if_neg h2, if_neg h2]; rfl
  · rw [if_neg h1, if_neg h1]
    simp only [Function.comp_def]
    split_ifs <;> rfl

lemma gammaWeight_perm {l l' : List ℝ} (h : l'.Perm l) : gammaWeight l' = gammaWeight l := by
  classical
  unfold gammaWeight
  have e : (indicator (· ≤ 1) l').sum = (indicator (· ≤ 1) l).sum := by
    unfold indicator; exact (h.map _).sum_eq
  rw [e, (h.map _).sum_eq]

lemma relativeStep_add {d : ℕ} (x acc b : Vec d) (p : ObstacleTree d × ℝ × ℝ) {w : Vec d}
    (h : relativeStep x acc p = .ok w) : relativeStep x (acc + b) p = .ok (w + b) := by
  classical
  unfold relativeStep at h ⊢
  simp only at h ⊢
  by_cases hw : p.2.2 ≤ 0
  · rw [if_pos hw] at h ⊢
    cases h; rfl
  · rw [if_neg hw] at h ⊢
    rcases ht : p.1.twist with _ | ⟨lin, _ | om⟩
    · rw [ht] at h
      simp only at h ⊢
      cases hr : p.1.deformationRate <;> rw [hr] at h <;> cases h
      · rfl
      · simp only; congr 1; abel
    · rw [ht] at h
      simp only at h ⊢
      cases hr : p.1.deformationRate <;> rw [hr] at h <;> cases h
      · simp only; congr 1; abel
      · simp only; congr 1; abel
    · rw [ht] at h
      simp only at h ⊢
      cases ha : angularVelocity om (x - p.1.position) with
      | error e => rw [ha] at h; cases h
      | ok v =>
        rw [ha] at h
        simp only at h ⊢
        cases hr : p.1.deformationRate <;> rw [hr] at h <;> cases h
        · simp only; congr 1; abel
        · simp only; congr 1; abel

lemma relativeFold_perm {d : ℕ} (x : Vec d) {l l' : List (ObstacleTree d × ℝ × ℝ)} (h : l.Perm l') :
    ∀ {acc w : Vec d}, l.foldlM (relativeStep x) acc = .ok w → l'.foldlM (relativeStep x) acc = .ok w := by
  induction h with
  | nil => intro acc w hw; exact hw
  | cons a _ ih =>
    intro acc w hw
    rw [List.foldlM_cons] at hw ⊢
    obtain ⟨v, h1, h2⟩ := bind_ok.mp hw
    exact bind_ok.mpr ⟨v, h1, ih h2⟩
  | swap a b l =>
    intro acc w hw
    rw [List.foldlM_cons] at hw
    obtain ⟨v, h1, hw⟩ := bind_ok.mp hw
    rw [List.foldlM_cons] at hw
    obtain ⟨u, h2, hw⟩ := bind_ok.mp hw
    have e1 := relativeStep_add x v (acc - v) a h2
    have e2 := relativeStep_add x acc (u - v) b h1
    rw [show v + (acc - v) = acc by abel, show u + (acc - v) = acc + (u - v) by abel] at e1
    rw [show v + (u - v) = u by abel] at e2
    rw [List.foldlM_cons]
    refine bind_ok.mpr ⟨_, e1, ?_⟩
    rw [List.foldlM_cons]
    exact bind_ok.mpr ⟨_, e2, hw⟩
  | trans _ _ ih1 ih2 => intro acc w hw; exact ih2 (ih1 hw)

lemma mapM_ok_perm {ε α β : Type} {f : α → Except ε β} {l l' : List α} (h : l.Perm l') {out : List β}
    (hm : l.mapM f = .ok out) :
    ∃ out', l'.mapM f = .ok out' ∧ (l.zip out).Perm (l'.zip out') := by
  induction h generalizing out with
  | nil => exact ⟨out, hm, List.Perm.refl _⟩
  | cons a _ ih =>
    rw [List.mapM_cons] at hm
    obtain ⟨b, h1, hm⟩ := bind_ok.mp hm
    obtain ⟨o, h2, hm⟩ := bind_ok.mp hm
    cases hm
    obtain ⟨o', e1, e2⟩ := ih h2
    refine ⟨b :: o', ?_, e2.cons _⟩
    rw [List.mapM_cons]
    exact bind_ok.mpr ⟨_, h1, bind_ok.mpr ⟨_, e1, rfl⟩⟩
  | swap a b l =>
    rw [List.mapM_cons] at hm
    obtain ⟨u, h1, hm⟩ := bind_ok.mp hm
    obtain ⟨o, h2, hm⟩ := bind_ok.mp hm
    cases hm
    rw [List.mapM_cons] at h2
    obtain ⟨v, h3, h2⟩ := bind_ok.mp h2
    obtain ⟨o', h4, h2⟩ := bind_ok.mp h2
    cases h2
    refine ⟨v :: u :: o', ?_, List.Perm.swap _ _ _⟩
    rw [List.mapM_cons]
    refine bind_ok.mpr ⟨_, h3, bind_ok.mpr ⟨u :: o', ?_, rfl⟩⟩
    rw [List.mapM_cons]
    exact bind_ok.mpr ⟨_, h1, bind_ok.mpr ⟨_, h4, rfl⟩⟩
  | trans _ _ ih1 ih2 =>
    obtain ⟨o1, e1, e2⟩ := ih1 hm
    obtain ⟨o2, f1, f2⟩ := ih2 e1
    exact ⟨o2, f1, e2.trans f2⟩

lemma relativeVelocity_perm {d : ℕ} (x : Vec d) {l l' : List (ObstacleTree d)} (h : l.Perm l') {w : Vec d}
    (hw : relativeVelocity x l = .ok w) : relativeVelocity x l' = .ok w := by
  unfold relativeVelocity at hw ⊢
  obtain ⟨gs, h1, hw⟩ := bind_ok.mp hw
  obtain ⟨gs', h2, h3⟩ := mapM_ok_perm h h1
  refine bind_ok.mpr ⟨gs', h2, relativeFold_perm x ?_ hw⟩
  have l1 := (mapM_ok.mp h1).length_eq
  have l2 := (mapM_ok.mp h2).length_eq
  have hg : gs.Perm gs' := by
    have := h3.map Prod.snd
    rwa [List.map_snd_zip (by omega), List.map_snd_zip (by omega)] at this
  have key : ∀ (l : List (ObstacleTree d)) (gs : List ℝ) (g : ℝ → ℝ),
      l.zip (gs.zip (gs.map g)) = (l.zip gs).map (fun p => (p.1, p.2, g p.2)) := by
    intro l
    induction l with
    | nil => intros; simp
    | cons a l ih =>
      intro gs g
      cases gs with
      | nil => simp
      | cons b gs => simp [ih]
  rw [gammaWeight_map, gammaWeight_map, key, key, gammaWeight_perm hg]
  exact h3.map _

end
end Verif
