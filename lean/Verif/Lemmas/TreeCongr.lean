import Verif.Lemmas.TreeResult

/-! # Helper lemma: a reduction depends only on the weight given to every node -/

open Verif.Spec

namespace Verif

variable {I : Type} [DecidableEq I] {d : ℕ}

lemma reduce_congr [Fact (2 ≤ d)] (argsort : List ℤ → List ℕ) (t : Tree I d) (st : NodeState I d)
    (ns ns' : List I) (ws ws' : List ℝ) (hl : ns.length = ws.length) (hl' : ns'.length = ws'.length)
    (hn : ∀ n ∈ ns, n ∈ t.nodes) (hn' : ∀ n ∈ ns', n ∈ t.nodes)
    (hw : ∀ n, givenWeight (ns.zip ws) n = givenWeight (ns'.zip ws') n) :
    t.reduceWeightedToSequence argsort st ns ws = t.reduceWeightedToSequence argsort st ns' ws' := by
  obtain ⟨s1, e1, a1, a2, a3, a4⟩ := assignWeights_ok t st ns ws
    (fun p hp => hn _ (List.of_mem_zip hp).1)
  obtain ⟨s2, e2, b1, b2, b3, b4⟩ := assignWeights_ok t st ns' ws'
    (fun p hp => hn' _ (List.of_mem_zip hp).1)
  have : s1 = s2 := by
    cases s1; cases s2
    simp only at a1 a2 a3 a4 b1 b2 b3 b4
    have hf := funext fun n => (a4 n).trans ((hw n).trans (b4 n).symm)
    subst a1 a2 a3 b1 b2 b3
    cases hf; rfl
  unfold Tree.reduceWeightedToSequence
  rw [if_neg (not_not.mpr hl), if_neg (not_not.mpr hl')]
  unfold Tree.updatePartialRotations
  rw [e1, e2, this]

/-- Full weight on one of several distinct nodes. -/
lemma one_hot_reduce [Fact (2 ≤ d)] (argsort : List ℤ → List ℕ) (t : Tree I d) (st : NodeState I d)
    (ns : List I) (ws : List ℝ) (hl : ns.length = ws.length) (hnd : ns.Nodup)
    (hn : ∀ n ∈ ns, n ∈ t.nodes) (n : I) (h1 : (n, (1 : ℝ)) ∈ ns.zip ws)
    (h0 : ∀ p ∈ ns.zip ws, p.1 ≠ n → p.2 = 0) :
    t.reduceWeightedToSequence argsort st ns ws = t.reduceWeightedToSequence argsort st [n] [1] := by
  have hfst : (ns.zip ws).map Prod.fst = ns := List.map_fst_zip (by omega)
  have hnn := (List.of_mem_zip h1).1
  refine reduce_congr argsort t st ns [n] ws [1] hl rfl hn (by simpa using hn n hnn) fun m => ?_
  by_cases hm : m ∈ ns
  · have hm' := hm
    rw [← hfst] at hm
    obtain ⟨p, hp, rfl⟩ := List.mem_map.mp hm
    rw [givenWeight_of_mem (by rw [hfst]; exact hnd) hp]
    by_cases he : p.1 = n
    · have h2 := givenWeight_of_mem (by rw [hfst]; exact hnd) hp
      have h3 := givenWeight_of_mem (by rw [hfst]; exact hnd) h1
      rw [he] at h2
      simp only at h3
      rw [← h2, h3]; simp [givenWeight, he]
    · rw [h0 p hp he]; simp [givenWeight, he]
  · rw [givenWeight_not_mem _ _ (by rw [hfst]; exact hm)]
    have : m ≠ n := fun e => hm (e ▸ hnn)
    simp [givenWeight, this]

end Verif
