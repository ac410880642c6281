import Verif.Props.Hull
import Verif.Props.Rotation

/-!
# C78, C79: local attractors and velocity of a hull with inner obstacles
-/

open scoped RealInnerProductSpace
open Verif.Spec

namespace Verif
open Hull Hull.MultiHull

variable {d : ℕ}

/-- The local attractor that is stored for an inner obstacle. -/
def localAttractorOf (m : MultiHull d) (i : ℕ) : Option (Vec d) :=
  (m.graph.bind (fun g => g.attr i)).bind (fun a => a.localAttractor)

/-- C78: along a simple path every inner obstacle that has no local attractor yet (up to the first
one that has) is led to the point of its surface towards its intersection with the next element of
the path.  Missing: attractors in two elements and positions outside (`C78_two_elements`,
`C78_from_outside`). -/
theorem C78_assign_partial (m m' : MultiHull d) (g : HullGraph d) (hg : m.graph = some g)
    (path : List Node) (hnd : path.Nodup) (h : m.assignAlongPath path = .ok m')
    (j : ℕ) (hj : j + 1 < path.length)
    (hinner : ∀ k (hk : k ≤ j), ∃ i, path[k]'(by omega) = .inl i ∧ localAttractorOf m i = none) :
    ∃ i o x, path[j]'(by omega) = .inl i ∧ m.inner[i]? = some o
      ∧ edgeIntersection g (.inl i) (key path[j + 1]) = .ok x
      ∧ localAttractorOf m' i = some (o.surface x) := by
  induction path generalizing m g j with
  | nil => simp at hj
  | cons a l ih =>
    cases l with
    | nil => simp at hj
    | cons b rest =>
      obtain ⟨i, hi, hnone⟩ := hinner 0 (by omega)
      simp only [List.getElem_cons_zero] at hi
      subst hi
      unfold assignAlongPath at h
      rw [hg] at h
      simp only at h
      cases ha : g.attr i with
      | none => rw [ha] at h; cases h
      | some at' =>
        cases hio : m.inner[i]? with
        | none => rw [ha, hio] at h; cases h
        | some o =>
          rw [ha, hio] at h
          simp only at h
          have hl : at'.localAttractor = none := by
            unfold localAttractorOf at hnone
            rw [hg] at hnone
            simpa [ha] using hnone
          rw [hl] at h
          obtain ⟨x, hx, h2⟩ := bind_ok.mp h
          cases j with
          | zero =>
            refine ⟨i, o, x, rfl, hio, hx, ?_⟩
            have hk := assignAlongPath_keeps _ _ _ h2
            obtain ⟨g', hg', hat⟩ := hk.graph _ rfl
            obtain ⟨a', h3, _, h5⟩ := hat i ⟨some (o.surface x), at'.contains⟩ (by simp [setNode])
            unfold localAttractorOf
            rw [hg']
            simp [h3, h5 _ rfl]
          | succ j =>
            have hnd2 := (List.nodup_cons.mp hnd)
            have hprev : ∀ k (hk : k ≤ j), ∃ i', (b :: rest)[k]'(by simp at hj ⊢; omega) = .inl i'
                ∧ localAttractorOf { m with
                  graph := some (setNode g i ⟨some (o.surface x), at'.contains⟩) } i' = none := by
              intro k hk
              obtain ⟨i', h6, h7⟩ := hinner (k + 1) (by omega)
              rw [List.getElem_cons_succ] at h6
              refine ⟨i', h6, ?_⟩
              have hne : i' ≠ i := by
                rintro rfl
                apply hnd2.1
                rw [← h6]; exact List.getElem_mem _
              unfold localAttractorOf at h7 ⊢
              rw [hg] at h7
              simpa [setNode, hne] using h7
            obtain ⟨i', o', x', e1, e2, e3, e4⟩ := ih
              { m with graph := some (setNode g i ⟨some (o.surface x), at'.contains⟩) }
              (setNode g i ⟨some (o.surface x), at'.contains⟩) rfl hnd2.2 h2 j
              (by simpa using hj) hprev
            exact ⟨i', o', x', by simpa using e1, e2, e3, e4⟩

lemma ok_then {ε α β : Type} (a : α) (f : α → Except ε β) :
    ((Except.ok a : Except ε α) >>= f) = f a := rfl

lemma error_then {ε α β : Type} (e : ε) (f : α → Except ε β) :
    ((Except.error e : Except ε α) >>= f) = .error e := rfl

lemma mapM_mem {ε α β : Type} {f : α → Except ε β} {l : List α} {out : List β}
    (h : l.mapM f = .ok out) : ∀ b ∈ out, ∃ a ∈ l, f a = .ok b := by
  have := mapM_ok.mp h
  clear h
  induction this with
  | nil => simp
  | cons hab _ ih =>
    intro b hb
    rcases List.mem_cons.mp hb with rfl | hb
    · exact ⟨_, by simp, hab⟩
    · obtain ⟨a, ha, h⟩ := ih b hb
      exact ⟨a, by simp [ha], h⟩

/-- What the code needs from `networkx.shortest_path`: the result is a simple path from the source to
the target. -/
structure PathSpec (S : Search d) : Prop where
  path : ∀ g a b p, S.path g a b = some p → p.Nodup ∧ p.head? = some a ∧ p.getLast? = some b

/-- C78: whenever the search from an inner obstacle without local attractor succeeds, the obstacle
has got a local attractor: a point on its surface. -/
theorem C78_found (S : Search d) (hS : PathSpec S) (m m' : MultiHull d) (g : HullGraph d)
    (hg : m.graph = some g) (i : ℕ) (a : NodeAttr d) (ha : g.attr i = some a)
    (hc : a.contains = false) (hn : a.localAttractor = none) (h : updatePath S m i = .ok m') :
    ∃ o x, m.inner[i]? = some o ∧ localAttractorOf m' i = some (o.surface x) := by
  unfold updatePath at h
  rw [hg] at h
  simp only at h
  obtain ⟨inner, hin, h⟩ := bind_ok.mp h
  obtain ⟨outer, hout, h⟩ := bind_ok.mp h
  obtain ⟨ind, _, h⟩ := bind_ok.mp h
  cases hcc : (inner ++ outer)[ind]? with
  | none => rw [hcc] at h; cases h
  | some c =>
    rw [hcc] at h
    simp only at h
    cases hp : S.path g (.inl i) c.2 with
    | none => rw [hp] at h; cases h
    | some p =>
      rw [hp] at h
      obtain ⟨h1, h2, h3⟩ := hS.path _ _ _ _ hp
      have hne : c.2 ≠ .inl i := by
        have hmem := List.mem_of_getElem? hcc
        rcases List.mem_append.mp hmem with hm | hm
        · have key : ∀ (l : List ℕ) out, innerCandidates g l = .ok out → ∀ c ∈ out,
              ∃ j b, c.2 = .inl j ∧ g.attr j = some b ∧ b.contains = true := by
            intro l
            induction l with
            | nil => intro out ho c hc; cases ho; simp at hc
            | cons j l ih =>
              intro out ho c hc
              unfold innerCandidates at ho
              cases hj : g.attr j with
              | none => rw [hj] at ho; cases ho
              | some b =>
                rw [hj] at ho
                obtain ⟨l', hl', ho⟩ := bind_ok.mp ho
                by_cases hb : b.contains = true
                · rw [if_pos hb] at ho
                  cases ho
                  rcases List.mem_cons.mp hc with rfl | hc
                  · exact ⟨j, b, rfl, hj, hb⟩
                  · exact ih _ hl' c hc
                · rw [if_neg hb] at ho; cases ho; exact ih _ hl' c hc
          obtain ⟨j, b, e1, e2, e3⟩ := key _ _ hin c hm
          intro h0
          rw [e1] at h0; cases h0
          rw [ha] at e2; cases e2
          rw [hc] at e3; cases e3
        · unfold outerCandidates at hout
          split_ifs at hout
          · obtain ⟨k, _, hr⟩ := mapM_mem hout c hm
            unfold outerCandidate at hr
            obtain ⟨x, _, hr⟩ := bind_ok.mp hr
            cases hoa : m.outsideAttractor with
            | none => rw [hoa] at hr; cases hr
            | some q =>
              rw [hoa] at hr
              simp only at hr
              cases hl : S.length g (.inl i) (.inr k) with
              | none => rw [hl] at hr; cases hr
              | some r => rw [hl] at hr; cases hr; simp
          · cases hout; simp at hm
      cases p with
      | nil => simp at h2
      | cons q l =>
        cases l with
        | nil => simp at h2 h3; subst h2; exact absurd h3.symm hne
        | cons r rest =>
          simp only [List.head?_cons, Option.some.injEq] at h2
          obtain ⟨i', o, x, e1, e2, e3, e4⟩ := C78_assign_partial m m' g hg _ h1 h 0 (by simp) (by
            intro k hk
            have : k = 0 := by omega
            subst this
            refine ⟨i, by simpa using h2, ?_⟩
            unfold localAttractorOf; rw [hg]; simp [ha, hn])
          simp only [List.getElem_cons_zero] at e1
          rw [h2] at e1; cases e1
          exact ⟨o, x, e2, e4⟩

/-- C78: violated by the code: as soon as the attractor is in the free space of two inner obstacles,
the search from any other element raises `TypeError` (dictionaries are compared). -/
theorem C78_two_elements (S : Search d) (m : MultiHull d) (g : HullGraph d) (hg : m.graph = some g)
    (hattr : ∀ i < m.inner.length, (g.attr i).isSome)
    (i j k : ℕ) (hij : i < j) (hj : j < m.inner.length) (a b : NodeAttr d)
    (hi : g.attr i = some a) (hj' : g.attr j = some b) (ha : a.contains = true)
    (hb : b.contains = true) (ho : m.isOutside = false) :
    updatePath S m k = .error .typeError := by
  have hsome : ∀ l : List ℕ, (∀ n ∈ l, (g.attr n).isSome) → ∃ out, innerCandidates g l = .ok out
      ∧ (∀ c ∈ out, c.1 = none)
      ∧ out.length = (l.filter (fun n => ((g.attr n).map NodeAttr.contains).getD false)).length := by
    intro l
    induction l with
    | nil => intro _; exact ⟨[], rfl, by simp, rfl⟩
    | cons n l ih =>
      intro h
      obtain ⟨out, h1, h2, h3⟩ := ih fun n hn => h n (by simp [hn])
      obtain ⟨c, hc⟩ := Option.isSome_iff_exists.mp (h n (by simp))
      unfold innerCandidates
      rw [hc]
      simp only
      rw [h1]
      by_cases hcc : c.contains = true
      · refine ⟨(none, .inl n) :: out, ?_, ?_, ?_⟩
        · change (if c.contains = true then _ else _) = _
          rw [if_pos hcc]; rfl
        · intro x hx
          rcases List.mem_cons.mp hx with rfl | hx
          · rfl
          · exact h2 x hx
        · rw [List.filter_cons, if_pos (by simp [hc, hcc]), List.length_cons, List.length_cons, h3]
      · refine ⟨out, ?_, h2, ?_⟩
        · change (if c.contains = true then _ else _) = _
          rw [if_neg hcc]; rfl
        · rw [List.filter_cons, if_neg (by simp [hc, hcc]), h3]
  obtain ⟨out, h1, h2, h3⟩ := hsome (List.range m.inner.length)
    (fun n hn => hattr n (by simpa using hn))
  have hlen : 2 ≤ out.length := by
    rw [h3]
    have hsub : [i, j] ⊆ (List.range m.inner.length).filter
        (fun n => ((g.attr n).map NodeAttr.contains).getD false) := by
      intro n hn
      simp only [List.mem_cons, List.not_mem_nil, or_false] at hn
      rw [List.mem_filter]
      rcases hn with rfl | rfl
      · exact ⟨by simp; omega, by simp [hi, ha]⟩
      · exact ⟨by simpa using hj, by simp [hj', hb]⟩
    have hnd : [i, j].Nodup := by simp; omega
    exact (hnd.subperm hsub).length_le
  unfold updatePath
  rw [hg]
  simp only
  rw [h1]
  have hout : outerCandidates S m g (.inl k) = .ok [] := by
    unfold outerCandidates; rw [ho]; rfl
  rw [ok_then, hout, ok_then]
  have harg : argminMixed ((out ++ []).map Prod.fst) = .error .typeError := by
    rw [List.append_nil]
    match out, hlen, h2 with
    | c1 :: c2 :: rest, _, h2 =>
      unfold argminMixed
      simp [h2 c1 (by simp)]
  rw [harg, error_then]

/-- C78: violated by the code: from the outside the path always leads to the inner obstacle number
0, wherever the attractor is. -/
theorem C78_from_outside (S : Search d) (m m' : MultiHull d) (x : Vec d)
    (h : updatePathFromOutside S m x = .ok m') :
    ∃ g k p, m.graph = some g ∧ S.path g (.inr k) (.inl 0) = some p
      ∧ m.assignAlongPath p = .ok m' := by
  unfold updatePathFromOutside at h
  cases hg : m.graph with
  | none =>
    rw [hg] at h
    simp only at h
    split_ifs at h
  | some g =>
    rw [hg] at h
    simp only at h
    obtain ⟨lists, hlists, h⟩ := bind_ok.mp h
    cases ha : argmin (lists.flatten.map fun c => c.1) with
    | error e => rw [ha] at h; cases h
    | ok ind =>
      rw [ha] at h
      simp only at h
      cases hc : lists.flatten[ind]? with
      | none => rw [hc] at h; cases h
      | some c =>
        rw [hc] at h
        simp only at h
        cases hp : S.path g c.2.1 c.2.2 with
        | none => rw [hp] at h; cases h
        | some p =>
          rw [hp] at h
          -- before every candidate with target `i + 1` comes the same one with target `i`
          have key : ∀ (L : List (List (ℝ × Node × Node))),
              (∀ l ∈ L, ∃ D k, l = (List.range m.inner.length).map (fun i => ((D, Sum.inr k, Sum.inl i) : ℝ × Node × Node))) →
              ∀ (ind : ℕ) (c : ℝ × Node × Node), L.flatten[ind]? = some c → ∃ (D : ℝ) (k i : ℕ), c = (D, Sum.inr k, Sum.inl i)
                ∧ ∀ i', i = i' + 1 → ∃ ind' < ind, ∃ c' : ℝ × Node × Node, L.flatten[ind']? = some c' ∧ c'.1 = D := by
            intro L
            induction L with
            | nil => intro _ ind c h; simp at h
            | cons l L ih =>
              intro hL ind c hc
              obtain ⟨D, k, hl⟩ := hL l (by simp)
              rw [List.flatten_cons] at hc
              by_cases hlt : ind < l.length
              · rw [List.getElem?_append_left hlt, hl, List.getElem?_map,
                  List.getElem?_range (by rw [hl] at hlt; simpa using hlt)] at hc
                simp only [Option.map_some, Option.some.injEq] at hc
                refine ⟨D, k, ind, hc.symm, ?_⟩
                intro i' hi'
                refine ⟨i', by omega, (D, .inr k, .inl i'), ?_, rfl⟩
                have hlt' : i' < l.length := by omega
                rw [List.flatten_cons, List.getElem?_append_left hlt', hl, List.getElem?_map,
                  List.getElem?_range (by rw [hl] at hlt'; simpa using hlt')]
                rfl
              · rw [List.getElem?_append_right (by omega)] at hc
                obtain ⟨D', k', i, e1, e2⟩ := ih (fun l' hl' => hL l' (by simp [hl'])) _ _ hc
                refine ⟨D', k', i, e1, fun i' hi' => ?_⟩
                obtain ⟨ind', h1, c', h2, h3⟩ := e2 i' hi'
                refine ⟨ind' + l.length, by omega, c', ?_, h3⟩
                rw [List.flatten_cons, List.getElem?_append_right (by omega)]
                simpa using h2
          obtain ⟨D, k, i, e1, e2⟩ := key lists (by
            intro l hl
            obtain ⟨k, _, hk⟩ := mapM_mem hlists l hl
            unfold entranceCandidates at hk
            obtain ⟨y, _, hk⟩ := bind_ok.mp hk
            cases hlen : S.length g (.inr k) (.inr k) with
            | none => rw [hlen] at hk; cases hk
            | some r => rw [hlen] at hk; cases hk; exact ⟨_, k, rfl⟩) ind c hc
          have hi0 : i = 0 := by
            cases i with
            | zero => rfl
            | succ i' =>
              obtain ⟨ind', hlt, c', hc', hD⟩ := e2 i' rfl
              have hne : lists.flatten.map (fun c => c.1) ≠ [] := by
                intro h0
                rw [List.map_eq_nil_iff] at h0
                rw [h0] at hc; simp at hc
              obtain ⟨j, hj, hjl, _, hfirst⟩ := argmin_spec hne
              rw [ha] at hj; cases hj
              have := hfirst ind' hlt
              have h1 : (lists.flatten.map (fun c => c.1))[ind]? = some D := by
                rw [List.getElem?_map, hc, e1]; rfl
              have h2 : (lists.flatten.map (fun c => c.1))[ind']? = some D := by
                rw [List.getElem?_map, hc', ← hD]; rfl
              rw [List.getElem?_eq_some_iff] at h1 h2
              obtain ⟨_, h1⟩ := h1
              obtain ⟨_, h2⟩ := h2
              rw [h1, h2] at this
              exact absurd this (lt_irrefl _)
          subst hi0
          refine ⟨g, k, p, rfl, ?_, h⟩
          rw [e1] at hp; exact hp

/-! ### The velocity -/

/-- C79: in the wall the velocity is zero. -/
theorem C79_wall (D : Vec d → List (Vec d) → List ℝ → Vec d) (S : Search d) (m : MultiHull d)
    (x : Vec d) (gf : Bool)
    (hw : ∀ o ∈ m.inner ++ [m.outer], o.gamma (localPosition m x gf) ≤ 1) :
    m.evaluate D S x gf = .ok (m, 0) := by
  have h0 := (C53_sum m (localPosition m x gf)).2 hw
  unfold MultiHull.evaluate evaluateLocal
  unfold localPosition at h0
  cases gf with
  | true =>
    simp only [if_true] at h0 ⊢
    rw [if_pos h0, ok_then]; simp
  | false =>
    simp only [Bool.false_eq_true, if_false] at h0 ⊢
    rw [if_pos h0]

lemma localDynamics_ok {D : Vec d → List (Vec d) → List ℝ → Vec d} {o : Elem d}
    {a : Option (Vec d)} {x v : Vec d} {γ : ℝ} (hD : ∀ n vs ws, ‖D n vs ws‖ = 1)
    (h : localDynamics D o a x γ = .ok v) : ‖v‖ = 1 := by
  unfold localDynamics at h
  cases a with
  | none => cases h
  | some a => cases h; exact hD _ _ _

lemma keeps_weights {m m' : MultiHull d} (h : Keeps m m') (x : Vec d) :
    m'.evaluateWeights x = m.evaluateWeights x := by
  unfold evaluateWeights gammaList allObstacles
  rw [h.inner, h.outer]

lemma sum_getD_zipIdx {α : Type} (l : List α) (W : List ℝ) (k : ℕ)
    (h : W.length = k + l.length) :
    ((l.zipIdx k).map (fun e => W.getD e.2 0)).sum = (W.drop k).sum := by
  induction l generalizing k with
  | nil =>
    simp at h
    simp [List.drop_eq_nil_of_le h.le]
  | cons a l ih =>
    rw [List.length_cons] at h
    rw [List.zipIdx_cons, List.map_cons, List.sum_cons, ih (k + 1) (by omega)]
    have hk : k < W.length := by omega
    rw [List.drop_eq_getElem_cons hk, List.sum_cons]
    simp [List.getD_eq_getElem?_getD, hk]

/-- What `evaluate` combines: unit velocities with weights that sum to one. -/
lemma evaluateLocal_parts {D : Vec d → List (Vec d) → List ℝ → Vec d} {S : Search d}
    {m m' : MultiHull d} {x v : Vec d} (hD : ∀ n vs ws, ‖D n vs ws‖ = 1)
    (hfree : ∃ o ∈ m.inner ++ [m.outer], 1 < o.gamma x)
    (h : m.evaluateLocal D S x = .ok (m', v)) :
    ∃ l : List (ℝ × Vec d), combine l = .ok v ∧ (l.map Prod.fst).sum = 1
      ∧ ∀ e ∈ l, ‖e.2‖ = 1 ∧ 0 < e.1 := by
  have h0 := (C53_sum m x).1 hfree
  obtain ⟨hlen, hr⟩ := C53_range m x
  have hnn : ∀ i, 0 ≤ (m.evaluateWeights x).getD i 0 := by
    intro i
    rw [List.getD_eq_getElem?_getD]
    cases hi : (m.evaluateWeights x)[i]? with
    | none => simp
    | some w => simpa using (hr w (List.mem_of_getElem? hi)).1
  unfold evaluateLocal at h
  rw [if_neg (by rw [h0]; norm_num)] at h
  obtain ⟨s1, h1, h⟩ := bind_ok.mp h
  obtain ⟨s2, h2, h⟩ := bind_ok.mp h
  obtain ⟨v', h3, h⟩ := bind_ok.mp h
  cases h
  have inv := foldlM_prefix (fun pre s => Keeps m s.1
      ∧ (s.2.map Prod.fst).sum = (pre.map (fun e : Elem d × ℕ => (m.evaluateWeights x).getD e.2 0)).sum
      ∧ ∀ e ∈ s.2, ‖e.2‖ = 1 ∧ 0 < e.1) (by
    intro pre e s s' _ hs hf
    obtain ⟨k1, k2, k3⟩ := hs
    have k4 := evaluateStep_keeps D S x s s' e hf
    refine ⟨k1.trans k4, ?_⟩
    unfold evaluateStep at hf
    simp only at hf
    rw [keeps_weights k1] at hf
    by_cases hw : (m.evaluateWeights x).getD e.2 0 = 0
    · rw [if_pos hw] at hf
      cases hf
      refine ⟨?_, k3⟩
      rw [List.map_append, List.sum_append, k2, List.map_singleton, List.sum_singleton, hw, add_zero]
    · rw [if_neg hw] at hf
      obtain ⟨_, _, hf⟩ := bind_ok.mp hf
      obtain ⟨_, _, hf⟩ := bind_ok.mp hf
      obtain ⟨_, _, hf⟩ := bind_ok.mp hf
      obtain ⟨v1, hv1, hf⟩ := bind_ok.mp hf
      cases hf
      refine ⟨?_, ?_⟩
      · rw [List.map_append, List.sum_append, List.map_append, List.sum_append, k2]
        simp
      · intro q hq
        rcases List.mem_append.mp hq with hq | hq
        · exact k3 q hq
        · simp at hq; subst hq
          exact ⟨localDynamics_ok hD hv1, lt_of_le_of_ne (hnn _) (Ne.symm hw)⟩) ⟨Keeps.refl m, by simp, by simp⟩ h1
  obtain ⟨k1, k2, k3⟩ := inv
  have hsum : (m.inner.zipIdx.map (fun e : Elem d × ℕ => (m.evaluateWeights x).getD e.2 0)).sum
      + (m.evaluateWeights x).getD m.inner.length 0 = 1 := by
    have := sum_getD_zipIdx (m.inner ++ [m.outer]) (m.evaluateWeights x) 0 (by simp [hlen])
    rw [List.drop_zero, h0, List.zipIdx_append] at this
    simpa using this
  unfold evaluateOuter at h2
  simp only at h2
  rw [keeps_weights k1, k1.inner] at h2
  by_cases hw : (m.evaluateWeights x).getD m.inner.length 0 = 0
  · rw [if_pos hw] at h2
    cases h2
    refine ⟨_, h3, ?_, k3⟩
    rw [k2]; rw [hw, add_zero] at hsum; exact hsum
  · rw [if_neg hw] at h2
    obtain ⟨m3, _, h2⟩ := bind_ok.mp h2
    obtain ⟨v3, hv3, h2⟩ := bind_ok.mp h2
    cases h2
    refine ⟨_, h3, ?_, ?_⟩
    · rw [List.map_append, List.sum_append, k2]; simpa using hsum
    · intro q hq
      rcases List.mem_append.mp hq with hq | hq
      · exact k3 q hq
      · simp at hq; subst hq
        exact ⟨localDynamics_ok hD hv3, lt_of_le_of_ne (hnn _) (Ne.symm hw)⟩

lemma combine_norm {l : List (ℝ × Vec d)} {v : Vec d} (h : combine l = .ok v)
    (hs : (l.map Prod.fst).sum = 1) (hl : ∀ e ∈ l, ‖e.2‖ = 1 ∧ 0 < e.1) : ‖v‖ = 1 := by
  unfold combine at h
  simp only at h
  have hm : (l.map (fun e => e.1 * ‖e.2‖)).sum = 1 := by
    rw [← hs]
    congr 1
    apply List.map_congr_left
    intro e he
    rw [(hl e he).1, mul_one]
  rw [hm] at h
  by_cases h0 : ‖(l.map (fun e => e.1 • e.2)).sum‖ = 0
  · rw [if_pos h0] at h; split_ifs at h
  · rw [if_neg h0] at h
    cases h
    rw [norm_smul, Real.norm_eq_abs, abs_of_nonneg (by positivity)]
    field_simp

/-- C79: violated by the code: wherever in free space the velocity is defined it has speed one, however
close to the attractor (the limited velocity is computed and dropped). -/
theorem C79_speed (D : Vec d → List (Vec d) → List ℝ → Vec d) (hD : ∀ n vs ws, ‖D n vs ws‖ = 1)
    (S : Search d) (m m' : MultiHull d) (x v : Vec d) (gf : Bool)
    (hfree : ∃ o ∈ m.inner ++ [m.outer], 1 < o.gamma (localPosition m x gf))
    (h : m.evaluate D S x gf = .ok (m', v)) : ‖v‖ = 1 := by
  unfold MultiHull.evaluate at h
  unfold localPosition at hfree
  cases gf with
  | true =>
    simp only [if_true] at h hfree
    obtain ⟨r, h1, h⟩ := bind_ok.mp h
    cases h
    obtain ⟨l, e1, e2, e3⟩ := evaluateLocal_parts hD hfree h1
    rw [LinearIsometryEquiv.norm_map]
    exact combine_norm e1 e2 e3
  | false =>
    simp only [Bool.false_eq_true, if_false] at h hfree
    obtain ⟨l, e1, e2, e3⟩ := evaluateLocal_parts hD hfree h
    exact combine_norm e1 e2 e3

/-- C79: the corrected velocity of an element is tangent to its surface and differs from the velocity
towards the local attractor only along the reference direction. -/
theorem C79_tangent (n r v : Vec d) (h : ⟪r, n⟫ ≠ 0) :
    ⟪tangentVelocity n r v, n⟫ = 0 ∧ ∃ c : ℝ, v - tangentVelocity n r v = c • r := by
  unfold tangentVelocity
  refine ⟨?_, ⟪v, n⟫ / ⟪r, n⟫, by abel⟩
  rw [inner_sub_left, inner_smul_left]
  simp only [RCLike.conj_to_real]
  field_simp
  ring

/-- C79: on the surface of an element its own contribution is the tangent direction. -/
theorem C79_surface (D : Vec d → List (Vec d) → List ℝ → Vec d)
    (hD : ∀ n a b, D n [a, b] [0, 1] = unit b) (o : Elem d) (a x : Vec d) :
    localDynamics D o (some a) x 1
      = .ok (unit (tangentVelocity (o.normal x) (o.reference x) (a - x))) := by
  unfold localDynamics
  simp only [div_one, sub_self]
  rw [hD]

/-- C79: the velocity for a position in the global frame is the velocity at the local position turned
by the *inverse* of the orientation of the obstacle. -/
theorem C79_frame (D : Vec d → List (Vec d) → List ℝ → Vec d) (S : Search d) (m m' : MultiHull d)
    (x v : Vec d) (h : m.evaluate D S (m.pose.toRelative x) false = .ok (m', v)) :
    m.evaluate D S x true = .ok (m', m.pose.orientation.symm v) := by
  unfold MultiHull.evaluate at h ⊢
  simp only [Bool.false_eq_true, if_false] at h
  simp only [if_true]
  rw [h, ok_then]

/-- An element with free space everywhere, normal and reference direction `e1`. -/
noncomputable def openElem : Elem 3 where
  gamma _ := 2
  inside _ := false
  surface x := x
  normal _ := e3 1
  reference _ := e3 1

/-- The cyclic permutation of the axes: a rotation by 120 degrees. -/
noncomputable def cyclic : Vec 3 ≃ₗᵢ[ℝ] Vec 3 :=
  LinearIsometryEquiv.piLpCongrLeft 2 ℝ ℝ (finRotate 3)

lemma cyclic_e3 (i : Fin 3) : cyclic (e3 i) = e3 (i + 1) := by
  unfold cyclic e3
  rw [EuclideanSpace.piLpCongrLeft_single]
  simp

/-- C79: violated by the code: the velocity of a turned obstacle points in a wrong direction (it
should be `cyclic (e3 0) = e3 1`, the direction of the attractor). -/
theorem C79_wrong_frame : ∃ (D : Vec 3 → List (Vec 3) → List ℝ → Vec 3) (m m' : MultiHull 3)
    (S : Search 3),
    (∀ n vs ws, vs ≠ [] → (∀ a ∈ vs, ∀ b ∈ vs, a = b) → D n vs ws = unit (vs.headD 0))
      ∧ m.getAttractor = .ok (some (e3 0)) ∧ m.pose.fromRelative (e3 0) = e3 1
      ∧ m.evaluate D S 0 true = .ok (m', e3 2) := by
  refine ⟨fun _ vs _ => unit (vs.headD 0),
    ⟨[], openElem, ⟨0, cyclic⟩, none, some (e3 0), true, 0⟩,
    ⟨[], openElem, ⟨0, cyclic⟩, none, some (e3 0), true, 0⟩,
    ⟨fun _ _ _ => none, fun _ _ _ => none⟩, fun _ _ _ _ _ => rfl, rfl, ?_, ?_⟩
  · simp [Pose.fromRelative, cyclic_e3]
  · have hsymm : cyclic.symm (e3 0) = e3 2 := by
      rw [LinearIsometryEquiv.symm_apply_eq, cyclic_e3]; rfl
    rw [← hsymm]
    apply C79_frame
    simp only [Pose.toRelative, sub_zero, map_zero]
    unfold MultiHull.evaluate evaluateLocal
    simp [evaluateWeights, gammaList, allObstacles, openElem, evaluateOuter, ensureOutside,
      localDynamics, combine]
    rw [if_neg (by norm_num), if_neg (by norm_num)]
    simp only [ok_then, e3_unit]
    have h1 : (2 - 1 : ℝ) / (2 - 1) = 1 := by norm_num
    simp [h1, e3_ne_zero, ok_then]

/-- Two elements that meet; the attractor is in the second one. -/
noncomputable def twoRooms : MultiHull 3 where
  inner := [openElem, openElem]
  outer := openElem
  pose := .trivial
  graph := some ⟨fun i => if i = 0 then some ⟨none, false⟩ else some ⟨some (e3 2), true⟩,
    [(.inl 0, .inl 1, 1, e3 0)]⟩

/-- A search that finds direct connections. -/
def directSearch : Search 3 := ⟨fun _ _ _ => some 0, fun _ a b => some (if a = b then [a] else [a, b])⟩

/-- C78 is not vacuous: the search from the first of two rooms gives it a local attractor. -/
example : PathSpec directSearch ∧ ∃ m', updatePath directSearch twoRooms 0 = .ok m'
    ∧ localAttractorOf m' 0 = some (e3 0) := by
  refine ⟨⟨fun g a b p h => ?_⟩, ?_⟩
  · simp only [directSearch, Option.some.injEq] at h
    subst h
    split_ifs with hab <;> simp [hab]
  · refine ⟨{ twoRooms with graph := some (setNode ⟨fun i => if i = 0 then some ⟨none, false⟩ else some ⟨some (e3 2), true⟩,
    [(.inl 0, .inl 1, 1, e3 0)]⟩ 0 ⟨some (e3 0), false⟩) }, ?_, ?_⟩
    · unfold updatePath
      simp [twoRooms, List.range_succ, innerCandidates, outerCandidates, ok_then, argminMixed,
        directSearch, assignAlongPath, edgeIntersection, key, openElem]
    · simp [localAttractorOf, setNode]

end Verif
