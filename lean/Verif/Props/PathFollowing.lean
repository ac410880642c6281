import Verif.Props.Segments
import Verif.Props.TreeReduce

/-!
# C76: following a path
-/

open scoped RealInnerProductSpace
open Verif.Spec

set_option linter.unusedSectionVars false

namespace Verif
open Segments

variable {d : ℕ} [Fact (2 ≤ d)]

lemma setRoot_ok {I : Type} [DecidableEq I] (r : I) (v : Vec d) (hv : v ≠ 0) :
    ∃ t, (Tree.empty : Tree I d).setRoot r v = .ok t ∧ RootedTree t r ∧ t.nodes = [r]
      ∧ t.level r = some 0 ∧ t.dir r = some (unit v) ∧ GoodDirections t := by
  have h := fromDirections_close hv hv (allclose_refl _)
  have hs : (Tree.empty : Tree I d).setRoot r v = .ok ((Tree.empty : Tree I d).setRootOrientation r
      ⟨⟨unit v, parallelPerp (unit v)⟩, InnerProductGeometry.angle v v⟩) := by
    unfold Tree.setRoot; rw [h]
  refine ⟨_, hs, C17_set_root _ _ _ hs, ?_, ?_, ?_, ?_⟩
  · simp [Tree.setRootOrientation, Tree.setAttr, Tree.touch, Tree.empty]
  · simp [Tree.setRootOrientation, Tree.setAttr, Tree.touch, Tree.empty]
  · simp [Tree.setRootOrientation, Tree.setAttr, Tree.touch, Tree.empty]
  · intro p c hp
    simp [IsParent, Tree.setRootOrientation, Tree.setAttr, Tree.touch, Tree.empty] at hp

/-- Neighbouring directions of a path are admissible for the direction tree at `x`: not opposite,
and equal or further apart than the tolerance. -/
def GoodPath (root : Vec d) (x : Vec d) : List (Segment d) → Prop
  | [] => True
  | s :: rest =>
    GoodPair ((rest.head?.map Segment.direction).getD root) s.direction
      ∧ GoodPair s.direction (s.evaluate x) ∧ GoodPath root x rest

/-- What the loop over the segments from index `k` on has built. -/
structure Built (root x : Vec d) (k : ℕ) (segs : List (Segment d)) (t : Tree Path.Id d) : Prop where
  rooted : RootedTree t (.inr (k + segs.length))
  nodes : ∀ m, m ∈ t.nodes ↔ m = .inr (k + segs.length)
    ∨ ∃ j, k ≤ j ∧ j < k + segs.length ∧ (m = .inl j ∨ m = .inr j)
  level : t.level (.inr k) = some segs.length
  rootDir : t.dir (.inr (k + segs.length)) = some root
  dirs : ∀ j s, segs[j]? = some s →
    t.dir (.inl (k + j)) = some (s.evaluate x) ∧ t.dir (.inr (k + j)) = some s.direction
  good : GoodPath root x segs → GoodDirections t
  chain : ∀ j, j < segs.length → IsParent t (.inr (k + j + 1)) (.inr (k + j))

lemma Built.first {root x : Vec d} {k : ℕ} {segs : List (Segment d)} {t : Tree Path.Id d}
    (h : Built root x k segs t) :
    t.dir (.inr k) = some ((segs.head?.map Segment.direction).getD root) := by
  cases segs with
  | nil => simpa using h.rootDir
  | cons s l => simpa using (h.dirs 0 s rfl).2

/-- One pass of the loop. -/
lemma addSegment_step {root x : Vec d} {k : ℕ} {segs : List (Segment d)} {t : Tree Path.Id d}
    (h : Built root x (k + 1) segs t) (s : Segment d) (hs : ∃ a b, Segment.create a b = .ok s)
    (hlen : segs.length + 1 ≤ 98) :
    ∃ t', Path.addSegment x t (s, k) = .ok t' ∧ Built root x k (s :: segs) t' := by
  obtain ⟨a, b, hs⟩ := hs
  have hdir : ‖s.direction‖ = 1 := by
    obtain ⟨hne, rfl⟩ := segment_create_ok hs
    exact unit_norm (sub_ne_zero.mpr hne.symm)
  have hev := (C74_evaluate a b s hs x).1
  have hk : k + 1 + segs.length = k + (s :: segs).length := by simp; omega
  have hn1 : (Sum.inr k : Path.Id) ∉ t.nodes := by
    rw [h.nodes]
    rintro (h1 | ⟨j, h1, h2, h3 | h3⟩)
    · injection h1; omega
    · cases h3
    · injection h3; omega
  have hp1 : (Sum.inr (k + 1) : Path.Id) ∈ t.nodes := by
    by_contra hc
    have := (h.rooted.no_attr _ hc).1
    rw [h.level] at this; cases this
  obtain ⟨t1, e1, r1, n1, l1, d1, o1, g1⟩ := addNode_step t _ h.rooted (.inr k) (.inr (k + 1))
    s.direction hdir hn1 hp1 segs.length h.level (by omega)
  have hn2 : (Sum.inl k : Path.Id) ∉ t1.nodes := by
    rw [n1, List.mem_append, h.nodes]
    rintro ((h1 | ⟨j, h1, h2, h3 | h3⟩) | h3)
    · cases h1
    · injection h3; omega
    · cases h3
    · simp at h3
  have hp2 : (Sum.inr k : Path.Id) ∈ t1.nodes := by rw [n1]; simp
  obtain ⟨t2, e2, r2, n2, l2, d2, o2, g2⟩ := addNode_step t1 _ r1 (.inl k) (.inr k)
    (s.evaluate x) hev hn2 hp2 (segs.length + 1) l1 (by omega)
  have hedges : t2.edges = t.edges ++ [(.inr (k + 1), .inr k)] ++ [(.inr k, .inl k)] := by
    have f1 := (C17_add_node_effect t _ h.rooted (.inr k) (.inr (k + 1)) s.direction (by rw [e1])).2.1
    have f2 := (C17_add_node_effect t1 _ r1 (.inl k) (.inr k) (s.evaluate x) (by rw [e2])).2.1
    rw [e1] at f1
    rw [e2] at f2
    simp only at f1 f2
    rw [f2, f1]
  have hold : ∀ m ∈ t.nodes, t2.dir m = t.dir m ∧ t2.level m = t.level m := by
    intro m hm
    have hm1 : m ∈ t1.nodes := by rw [n1]; simp [hm]
    exact ⟨(o2 m hm1).1.trans (o1 m hm).1, (o2 m hm1).2.trans (o1 m hm).2⟩
  refine ⟨t2, ?_, ?_⟩
  · unfold Path.addSegment
    simp only
    rw [e1]
    simp only
    rw [e2]
  · constructor
    · rw [← hk]; exact r2
    · intro m
      rw [n2, n1, List.mem_append, List.mem_append, h.nodes, ← hk]
      simp only [List.mem_singleton]
      constructor
      · rintro (((h1 | ⟨j, h1, h2, h3⟩) | h1) | h1)
        · exact Or.inl h1
        · exact Or.inr ⟨j, by omega, h2, h3⟩
        · exact Or.inr ⟨k, le_refl _, by omega, Or.inr h1⟩
        · exact Or.inr ⟨k, le_refl _, by omega, Or.inl h1⟩
      · rintro (h1 | ⟨j, h1, h2, h3⟩)
        · exact Or.inl (Or.inl (Or.inl h1))
        · rcases Nat.lt_or_ge k j with h4 | h4
          · exact Or.inl (Or.inl (Or.inr ⟨j, by omega, h2, h3⟩))
          · have : j = k := by omega
            subst this
            rcases h3 with h3 | h3
            · exact Or.inr h3
            · exact Or.inl (Or.inr h3)
    · rw [(o2 _ hp2).2, l1]; simp
    · rw [← hk, (hold _ ((h.nodes _).mpr (Or.inl rfl))).1]; exact h.rootDir
    · intro j s' hj
      cases j with
      | zero =>
        simp at hj; subst hj
        exact ⟨d2, by rw [add_zero, (o2 _ hp2).1, d1]⟩
      | succ j =>
        rw [List.getElem?_cons_succ] at hj
        have hjl : j < segs.length := (List.getElem?_eq_some_iff.mp hj).1
        have := h.dirs j s' hj
        rw [show k + (j + 1) = k + 1 + j by omega]
        rw [(hold _ ((h.nodes _).mpr (Or.inr ⟨k + 1 + j, by omega, by omega, Or.inl rfl⟩))).1,
          (hold _ ((h.nodes _).mpr (Or.inr ⟨k + 1 + j, by omega, by omega, Or.inr rfl⟩))).1]
        exact this
    · rintro ⟨h1, h2, h3⟩
      refine g2 (g1 (h.good h3) ?_) ?_
      · unfold dirOf; rw [h.first]; exact h1
      · unfold dirOf; rw [d1]; exact h2
    · intro j hj
      unfold IsParent
      rw [hedges]
      cases j with
      | zero => simp
      | succ j =>
        have := h.chain j (by simpa using hj)
        rw [show k + 1 + j + 1 = k + (j + 1) + 1 by omega, show k + 1 + j = k + (j + 1) by omega] at this
        rw [List.append_assoc]
        exact List.mem_append_left _ this

lemma zipIdx_reverse_cons {α : Type} (a : α) (l : List α) (k : ℕ) :
    ((a :: l).zipIdx k).reverse = (l.zipIdx (k + 1)).reverse ++ [(a, k)] := by
  rw [List.zipIdx_cons, List.reverse_cons]

lemma build_loop {root x : Vec d} (segs : List (Segment d)) (k : ℕ) (t : Tree Path.Id d)
    (h0 : Built root x (k + segs.length) [] t)
    (hs : ∀ s ∈ segs, ∃ a b, Segment.create a b = .ok s) (hlen : segs.length ≤ 98) :
    ∃ t', (segs.zipIdx k).reverse.foldlM (Path.addSegment x) t = .ok t'
      ∧ Built root x k segs t' := by
  induction segs generalizing k with
  | nil => exact ⟨t, rfl, by simpa using h0⟩
  | cons s l ih =>
    rw [List.length_cons] at hlen
    obtain ⟨t1, e1, b1⟩ := ih (k + 1) (by rw [List.length_cons] at h0; convert h0 using 1; omega)
      (fun s hs' => hs s (by simp [hs'])) (by omega)
    obtain ⟨t2, e2, b2⟩ := addSegment_step b1 s (hs s (by simp)) hlen
    refine ⟨t2, ?_, b2⟩
    rw [zipIdx_reverse_cons, List.foldlM_append, e1]
    change [(s, k)].foldlM (Path.addSegment x) t1 = _
    rw [List.foldlM_cons, e2]; rfl

lemma built_empty (root x : Vec d) (k : ℕ) (hr : root ≠ 0) :
    ∃ t, (Tree.empty : Tree Path.Id d).setRoot (.inr k) root = .ok t
      ∧ Built (unit root) x k [] t := by
  obtain ⟨t, h1, h2, h3, h4, h5, h6⟩ := setRoot_ok (I := Path.Id) (.inr k) root hr
  refine ⟨t, h1, ⟨h2, ?_, h4, h5, by simp, fun _ => h6, by simp⟩⟩
  intro m
  rw [h3]
  simp only [List.mem_singleton, List.length_nil, add_zero]
  constructor
  · exact Or.inl
  · rintro (h | ⟨j, h, h', _⟩)
    · exact h
    · omega

lemma globalDynamics_unit (p : Path d) {x : Vec d} (hx : x ≠ p.attractor) :
    p.globalDynamics x = unit (p.attractor - x) := by
  unfold Path.globalDynamics
  simp only
  rw [if_neg (norm_ne_zero_iff.mpr (sub_ne_zero.mpr hx.symm))]; rfl

/-- C76: away from the attractor, and for at most 98 segments, the direction tree is built. -/
lemma buildTree_ok (p : Path d) (h : ProperPath p) (hn : p.segments.length ≤ 98) (x : Vec d)
    (hx : x ≠ p.attractor) :
    ∃ t, p.buildTree x = .ok t ∧ Built (unit (p.attractor - x)) x 0 p.segments t := by
  have hu : unit (p.attractor - x) ≠ 0 := unit_ne_zero (sub_ne_zero.mpr hx.symm)
  obtain ⟨t0, e0, b0⟩ := built_empty (unit (p.attractor - x)) x p.segments.length hu
  rw [unit_unit (sub_ne_zero.mpr hx.symm)] at b0
  obtain ⟨t, e, b⟩ := build_loop p.segments 0 t0 (by simpa using b0) h.1 hn
  refine ⟨t, ?_, b⟩
  unfold Path.buildTree
  rw [globalDynamics_unit p hx, e0]
  exact e

/-- The nodes that get weights. -/
lemma leaves_facts (n : ℕ) : ((List.range n).map Sum.inl ++ [Sum.inr n] : List Path.Id).Nodup
    ∧ ((List.range n).map Sum.inl ++ [Sum.inr n] : List Path.Id).length = n + 1 := by
  refine ⟨?_, by simp⟩
  rw [List.nodup_append]
  refine ⟨(List.nodup_range).map Sum.inl_injective, by simp, ?_⟩
  intro a ha b hb
  obtain ⟨j, _, rfl⟩ := List.mem_map.mp ha
  simp at hb
  subst hb
  simp

lemma leaves_mem {root x : Vec d} {segs : List (Segment d)} {t : Tree Path.Id d}
    (b : Built root x 0 segs t) :
    ∀ m ∈ ((List.range segs.length).map Sum.inl ++ [Sum.inr segs.length] : List Path.Id),
      m ∈ t.nodes := by
  intro m hm
  rw [b.nodes]
  rcases List.mem_append.mp hm with hm | hm
  · obtain ⟨j, hj, rfl⟩ := List.mem_map.mp hm
    exact Or.inr ⟨j, by omega, by simpa using hj, Or.inl rfl⟩
  · simp at hm; subst hm; simp

lemma path_evaluate_eq (argsort : List ℤ → List ℕ) (st : NodeState Path.Id d) (p : Path d)
    (x : Vec d) (t : Tree Path.Id d) (ht : p.buildTree x = .ok t) (hm : p.magnitude x ≠ 0)
    (v : Vec d)
    (hv : t.getWeightedMean argsort st
      ((List.range p.segments.length).map Sum.inl ++ [.inr p.segments.length])
      (p.getWeights x) = .ok v) :
    p.evaluate argsort st x = .ok (.inr (p.magnitude x • v)) := by
  unfold Path.evaluate
  simp only
  rw [if_neg (abs_ne_zero.mpr hm)]
  unfold Path.evaluateSequence
  rw [ht]
  obtain ⟨s, h1, h2⟩ := bind_ok.mp hv
  change (do
    let s ← t.reduceWeightedToSequence argsort st _ _
    let v ← s.getEndVector
    Except.ok (Sum.inr (p.magnitude x • v))) = _
  rw [h1]
  change (do
    let v ← s.getEndVector
    Except.ok (Sum.inr (p.magnitude x • v))) = _
  rw [h2]; rfl

/-- C76: the speed is the maximum velocity, reduced linearly within the slow-down distance of the
attractor; it is zero exactly at the attractor. -/
theorem C76_magnitude (p : Path d) (h : ProperPath p) (x : Vec d) :
    p.magnitude x = min 1 ‖x - p.attractor‖ ∧ (p.magnitude x = 0 ↔ x = p.attractor) := by
  have hp : p.slowdownDistance = 1 ∧ p.maximumVelocity = 1 := by
    have := h.2
    unfold Path.create at this
    cases hl : p.segments.getLast? with
    | none => rw [hl] at this; cases this
    | some l =>
      rw [hl] at this
      rw [← Except.ok.inj this]; exact ⟨rfl, rfl⟩
  have e : p.magnitude x = min 1 ‖x - p.attractor‖ := by
    unfold Path.magnitude
    simp only
    rw [hp.1, hp.2]
    split_ifs with h1
    · rw [min_eq_left h1.le]
    · rw [min_eq_right (not_lt.mp h1)]; ring
  refine ⟨e, ?_⟩
  rw [e]
  constructor
  · intro h0
    rcases min_choice 1 ‖x - p.attractor‖ with h1 | h1 <;> rw [h1] at h0
    · norm_num at h0
    · exact sub_eq_zero.mp (norm_eq_zero.mp h0)
  · intro h0; rw [h0]; simp

/-- C76: off all segments (and away from the attractor) the velocity has exactly this speed, for
every path of at most 98 segments with admissible neighbouring directions.

Missing: positions where neighbouring directions are within the tolerance without being equal; paths which turn back
(`C76_reversal`), longer paths (`C76_too_long`) and positions straight beyond the end (`C76_beyond`), for which it
fails. -/
theorem C76_speed_partial (argsort : List ℤ → List ℕ) (has : ArgsortSpec argsort)
    (st : NodeState Path.Id d) (p : Path d) (h : ProperPath p) (hn : p.segments.length ≤ 98)
    (x : Vec d) (hx : x ≠ p.attractor) (hg : GoodPath (unit (p.attractor - x)) x p.segments)
    (hz : ∀ s ∈ p.segments, s.getDistance x ≠ 0) :
    ∃ v, p.evaluate argsort st x = .ok (.inr v) ∧ ‖v‖ = min 1 ‖x - p.attractor‖ := by
  obtain ⟨t, e, b⟩ := buildTree_ok p h hn x hx
  obtain ⟨nd, hl⟩ := leaves_facts p.segments.length
  have hr := C52_range p h x
  have hs := C52_sum p x hz
  have hroot := b.rooted
  obtain ⟨v, hv, hv1⟩ := C22_unit_convex t _ hroot (b.good hg).inner argsort has st _ (p.getWeights x)
    (by rw [hl, hr.1]) nd (leaves_mem b) (fun w hw => (hr.2 w hw).1) (by rw [hs]; norm_num) hs.le
  have hm := C76_magnitude p h x
  refine ⟨_, path_evaluate_eq argsort st p x t e (fun h0 => hx (hm.2.mp h0)) v hv, ?_⟩
  rw [norm_smul, hv1, mul_one, Real.norm_eq_abs, hm.1, abs_of_nonneg (le_min zero_le_one (norm_nonneg _))]

/-- C76: on exactly one segment (other than at the attractor) the velocity follows this segment. -/
theorem C76_on_segment (argsort : List ℤ → List ℕ) (has : ArgsortSpec argsort)
    (st : NodeState Path.Id d) (p : Path d) (h : ProperPath p) (hn : p.segments.length ≤ 98)
    (x : Vec d) (hx : x ≠ p.attractor) (hg : GoodPath (unit (p.attractor - x)) x p.segments)
    (i : ℕ) (hi : i < p.segments.length)
    (hon : ∀ j (hj : j < p.segments.length), p.segments[j].getDistance x = 0 ↔ j = i) :
    p.evaluate argsort st x
      = .ok (.inr (min 1 ‖x - p.attractor‖ • p.segments[i].direction)) := by
  obtain ⟨t, e, b⟩ := buildTree_ok p h hn x hx
  obtain ⟨nd, hl⟩ := leaves_facts p.segments.length
  have hr := C52_range p h x
  obtain ⟨_, hget⟩ := C52_on_segment p x i hi hon
  have hm := C76_magnitude p h x
  obtain ⟨a, c, hseg⟩ := h.1 p.segments[i] (List.getElem_mem _)
  have hev : p.segments[i].evaluate x = p.segments[i].direction := by
    have hx0 := ((C74_distance_zero a c _ hseg x).2.mp ((hon i hi).mpr rfl))
    rw [segment_eq_image'] at hx0
    obtain ⟨t, _, ht⟩ := hx0
    have h3 := ((C74_evaluate a c _ hseg x).2.2 x ⟨t, ht.symm⟩ (by simp)).2 rfl
    obtain ⟨_, hseg⟩ := segment_create_ok hseg
    rw [h3, hseg]
  have hd := (b.dirs i _ (List.getElem?_eq_getElem hi)).1
  rw [zero_add, hev] at hd
  have hzip : ∀ q ∈ ((List.range p.segments.length).map Sum.inl ++ [Sum.inr p.segments.length]
      : List Path.Id).zip (p.getWeights x), q.2 = if q.1 = .inl i then 1 else 0 := by
    intro q hq
    obtain ⟨j, hj, rfl⟩ := List.getElem_of_mem hq
    have hjl : j < p.segments.length + 1 := by
      rw [List.length_zip, hl, hr.1] at hj; omega
    rw [List.getElem_zip]
    simp only
    rw [hget j (by rw [hr.1]; exact hjl), List.getElem_append]
    by_cases h2 : j < ((List.range p.segments.length).map Sum.inl : List Path.Id).length
    · rw [dif_pos h2]
      simp only [List.getElem_map, List.getElem_range, Sum.inl.injEq]
    · rw [dif_neg h2]
      have : j ≠ i := by rintro rfl; simp at h2; omega
      simp [this]
  have hv := C21_one_hot t _ b.rooted (b.good hg) argsort has st _ (p.getWeights x)
    (by rw [hl, hr.1]) nd (leaves_mem b) (.inl i) ?_ ?_ _ hd
  · rw [path_evaluate_eq argsort st p x t e (fun h0 => hx (hm.2.mp h0)) _ hv, hm.1]
  · have hlz : i < (((List.range p.segments.length).map Sum.inl ++ [Sum.inr p.segments.length]
      : List Path.Id).zip (p.getWeights x)).length := by
      rw [List.length_zip, hl, hr.1]; omega
    have := List.getElem_mem hlz
    rw [List.getElem_zip, List.getElem_append_left (by simpa using hi)] at this
    simp only [List.getElem_map, List.getElem_range] at this
    rwa [hget i (by rw [hr.1]; omega), if_pos rfl] at this
  · intro q hq hne
    rw [hzip q hq, if_neg hne]

/-- C76: violated by the code: at the attractor the *number* zero is returned instead of a velocity
vector. -/
theorem C76_attractor (argsort : List ℤ → List ℕ) (st : NodeState Path.Id d) (p : Path d)
    (h : ProperPath p) : p.evaluate argsort st p.attractor = .ok (.inl 0) := by
  have := (C76_magnitude p h p.attractor).2.mpr rfl
  unfold Path.evaluate
  simp only
  rw [this, abs_zero, if_pos rfl]

/-- C76: violated by the code: a path of 99 or more segments cannot be evaluated anywhere but at the
attractor, because the direction tree is limited to 100 levels. -/
theorem C76_too_long (argsort : List ℤ → List ℕ) (st : NodeState Path.Id d) (p : Path d)
    (h : ProperPath p) (hn : 99 ≤ p.segments.length) (x : Vec d) (hx : x ≠ p.attractor) :
    p.evaluate argsort st x = .error .valueError := by
  obtain ⟨pre, post, hsplit, hpost⟩ : ∃ pre post, p.segments = pre ++ post ∧ post.length = 98 :=
    ⟨p.segments.take (p.segments.length - 98), p.segments.drop (p.segments.length - 98),
      (List.take_append_drop _ _).symm, by rw [List.length_drop]; omega⟩
  have hpre : pre ≠ [] := by
    intro h0; rw [hsplit, h0] at hn; simp at hn; omega
  obtain ⟨init, s, rfl⟩ : ∃ init s, pre = init ++ [s] :=
    ⟨pre.dropLast, pre.getLast hpre, (List.dropLast_append_getLast hpre).symm⟩
  have hu : unit (p.attractor - x) ≠ 0 := unit_ne_zero (sub_ne_zero.mpr hx.symm)
  obtain ⟨t0, e0, b0⟩ := built_empty (unit (p.attractor - x)) x p.segments.length hu
  rw [unit_unit (sub_ne_zero.mpr hx.symm)] at b0
  have hmem : ∀ q ∈ post, q ∈ p.segments := fun q hq => by rw [hsplit]; simp [hq]
  obtain ⟨t1, e1, b1⟩ := build_loop post (init.length + 1) t0
    (by rw [hsplit] at b0; simp only [List.length_append, List.length_cons, List.length_nil] at b0
        simpa using b0)
    (fun q hq => h.1 q (hmem q hq)) (by omega)
  obtain ⟨a, b, hs⟩ := h.1 s (by rw [hsplit]; simp)
  have hdir : ‖s.direction‖ = 1 := by
    obtain ⟨hne, rfl⟩ := segment_create_ok hs
    exact unit_norm (sub_ne_zero.mpr hne.symm)
  have hev : s.evaluate x ≠ 0 := by
    intro h0; have := (C74_evaluate a b s hs x).1; rw [h0] at this; simp at this
  have hn1 : (Sum.inr init.length : Path.Id) ∉ t1.nodes := by
    rw [b1.nodes]
    rintro (h1 | ⟨j, h1, h2, h3 | h3⟩)
    · injection h1; omega
    · cases h3
    · injection h3; omega
  have hp1 : (Sum.inr (init.length + 1) : Path.Id) ∈ t1.nodes := by
    by_contra hc
    have := (b1.rooted.no_attr _ hc).1
    rw [b1.level] at this; cases this
  obtain ⟨t2, e2, r2, n2, l2, d2, o2, g2⟩ := addNode_step t1 _ b1.rooted (.inr init.length)
    (.inr (init.length + 1)) s.direction hdir hn1 hp1 post.length b1.level (by omega)
  have hn2 : (Sum.inl init.length : Path.Id) ∉ t2.nodes := by
    rw [n2, List.mem_append, b1.nodes]
    rintro ((h1 | ⟨j, h1, h2, h3 | h3⟩) | h3)
    · cases h1
    · injection h3; omega
    · cases h3
    · simp at h3
  have e3 := addNode_limit t2 (.inl init.length) (.inr init.length) (s.evaluate x) hev hn2 _ l2
    (by omega)
  have hstep : Path.addSegment x t1 (s, init.length) = .error .valueError := by
    unfold Path.addSegment
    simp only
    rw [e2]
    simp only
    rcases hq : t2.addNode (Sum.inl init.length) (s.evaluate x) (some (Sum.inr init.length))
      with ⟨t3, r⟩
    rw [hq] at e3
    simp only at e3
    rw [e3]
  have hbuild : p.buildTree x = .error .valueError := by
    unfold Path.buildTree
    rw [globalDynamics_unit p hx, e0]
    change p.segments.zipIdx.reverse.foldlM (Path.addSegment x) t0 = _
    rw [hsplit, List.zipIdx_append, List.zipIdx_append, List.reverse_append, List.reverse_append,
      List.foldlM_append]
    have : (0 + (init ++ [s]).length) = init.length + 1 := by simp
    rw [this, e1]
    change List.foldlM (Path.addSegment x) t1
      (([s].zipIdx (0 + init.length)).reverse ++ init.zipIdx.reverse) = _
    rw [zero_add]
    change List.foldlM (Path.addSegment x) t1 ((s, init.length) :: init.zipIdx.reverse) = _
    rw [List.foldlM_cons, hstep]; rfl
  unfold Path.evaluate
  simp only
  rw [if_neg (abs_ne_zero.mpr fun h0 => hx ((C76_magnitude p h x).2.mp h0))]
  unfold Path.evaluateSequence
  rw [hbuild]; rfl


/-- If two neighbouring directions of the tree are opposite the evaluation stops. -/
lemma path_opposite (argsort : List ℤ → List ℕ) (has : ArgsortSpec argsort) (st : NodeState Path.Id d)
    (hd : d ≤ 10 ^ 15) (p : Path d) (h : ProperPath p) (hn : p.segments.length ≤ 98) (x : Vec d)
    (hx : x ≠ p.attractor) (j : ℕ) (s : Segment d) (hj : p.segments[j]? = some s)
    (ho : Opposite ((p.segments[j + 1]?.map Segment.direction).getD (unit (p.attractor - x))) s.direction) :
    p.evaluate argsort st x = .error .breakpoint := by
  obtain ⟨t, e, b⟩ := buildTree_ok p h hn x hx
  obtain ⟨nd, hl⟩ := leaves_facts p.segments.length
  have hr := C52_range p h x
  have hjl : j < p.segments.length := (List.getElem?_eq_some_iff.mp hj).1
  have hc : dirOf t (.inr (0 + j)) = s.direction := by
    unfold dirOf; rw [(b.dirs j s hj).2]; rfl
  have hp : dirOf t (.inr (0 + j + 1)) = (p.segments[j + 1]?.map Segment.direction).getD (unit (p.attractor - x)) := by
    unfold dirOf
    cases hs : p.segments[j + 1]? with
    | none =>
      have : p.segments.length = j + 1 := by
        have := List.getElem?_eq_none_iff.mp hs; omega
      have hroot := b.rootDir
      rw [this, show 0 + (j + 1) = 0 + j + 1 by omega] at hroot
      rw [hroot]; rfl
    | some s' =>
      have := (b.dirs (j + 1) s' hs).2
      rw [show 0 + (j + 1) = 0 + j + 1 by omega] at this
      rw [this]; rfl
  have hred := C25_opposite hd t _ b.rooted argsort has st _ (p.getWeights x) (by rw [hl, hr.1]) (leaves_mem b) _ _
    (b.chain j hjl) (by rw [hc, hp]; exact ho)
  have hm := C76_magnitude p h x
  unfold Path.evaluate
  simp only
  rw [if_neg (abs_ne_zero.mpr (fun h0 => hx (hm.2.mp h0)))]
  unfold Path.evaluateSequence
  rw [e]
  change (do
    let s ← t.reduceWeightedToSequence argsort st _ _
    let v ← s.getEndVector
    Except.ok (Sum.inr (p.magnitude x • v))) = _
  rw [hred]; rfl

/-- C76: violated by the code: a path which turns back (two consecutive segments in opposite directions) cannot be
followed at all: the evaluation stops at a `breakpoint()` at every position but the attractor. -/
theorem C76_reversal (argsort : List ℤ → List ℕ) (has : ArgsortSpec argsort) (st : NodeState Path.Id d)
    (hd : d ≤ 10 ^ 15) (p : Path d) (h : ProperPath p) (hn : p.segments.length ≤ 98) (j : ℕ) (s s' : Segment d)
    (hj : p.segments[j]? = some s) (hj' : p.segments[j + 1]? = some s') (ho : s.direction = -s'.direction) (x : Vec d)
    (hx : x ≠ p.attractor) : p.evaluate argsort st x = .error .breakpoint := by
  refine path_opposite argsort has st hd p h hn x hx j s hj ?_
  rw [hj']
  exact ⟨1, one_pos, by simpa using ho⟩

/-- C76: violated by the code: straight beyond the end of the path, on the extension of the last segment, the evaluation
stops at a `breakpoint()`, for every path and at every distance. -/
theorem C76_beyond (argsort : List ℤ → List ℕ) (has : ArgsortSpec argsort) (st : NodeState Path.Id d)
    (hd : d ≤ 10 ^ 15) (p : Path d) (h : ProperPath p) (hn : p.segments.length ≤ 98) (s : Segment d)
    (hs : p.segments.getLast? = some s) (c : ℝ) (hc : 0 < c) :
    p.evaluate argsort st (p.attractor + c • s.direction) = .error .breakpoint := by
  obtain ⟨a, b, hseg⟩ := h.1 s (List.mem_of_getLast? hs)
  have hdir : ‖s.direction‖ = 1 := by
    obtain ⟨hne, rfl⟩ := segment_create_ok hseg
    exact unit_norm (sub_ne_zero.mpr hne.symm)
  have hd0 : s.direction ≠ 0 := by intro h0; rw [h0, norm_zero] at hdir; norm_num at hdir
  have hlen : 0 < p.segments.length := List.length_pos_of_mem (List.mem_of_getLast? hs)
  refine path_opposite argsort has st hd p h hn _ ?_ (p.segments.length - 1) s ?_ ?_
  · intro h0
    rw [add_eq_left, smul_eq_zero] at h0
    rcases h0 with h0 | h0
    · exact hc.ne' h0
    · exact hd0 h0
  · rw [← List.getLast?_eq_getElem?]; exact hs
  · rw [show p.segments.length - 1 + 1 = p.segments.length by omega, List.getElem?_eq_none (le_refl _)]
    have e : p.attractor - (p.attractor + c • s.direction) = (-c) • s.direction := by module
    have hu : unit ((-c) • s.direction) = (-1 : ℝ) • s.direction := by
      unfold unit
      rw [norm_smul, hdir, mul_one, Real.norm_eq_abs, abs_neg, abs_of_pos hc, smul_smul]
      congr 1
      field_simp
    refine ⟨1, one_pos, ?_⟩
    simp only [Option.map_none, Option.getD_none]
    rw [e, hu]
    module

lemma goodPair_of_coord {u v : Vec d} (hu : u ≠ 0) (hv : v ≠ 0) (h : 0 ≤ ⟪u, v⟫) (i : Fin d)
    (hi : ¬ isclose (u i) (v i)) : GoodPair u v := by
  refine ⟨?_, Or.inr fun hc => hi (hc i)⟩
  rintro ⟨c, hc, rfl⟩
  rw [inner_smul_right, real_inner_self_eq_norm_sq] at h
  have h1 := norm_pos_iff.mpr hu
  nlinarith [mul_pos hc (pow_pos h1 2)]

/-- C76 is not vacuous: beside the end of the one-segment path the hypotheses of `C76_speed_partial`
hold (and the three directions of the tree differ), at its start those of `C76_on_segment`. -/
example : ProperPath shortPath ∧ e3 0 + e3 1 ≠ shortPath.attractor
    ∧ GoodPath (unit (shortPath.attractor - (e3 0 + e3 1))) (e3 0 + e3 1) shortPath.segments
    ∧ (∀ s ∈ shortPath.segments, s.getDistance (e3 0 + e3 1) ≠ 0) := by
  have h01 : ⟪e3 1, e3 0⟫ = 0 := (e3_on (by decide : (1 : Fin 3) ≠ 0)).orth
  have h10 : ⟪e3 0, e3 1⟫ = 0 := (e3_on (by decide : (0 : Fin 3) ≠ 1)).orth
  have hn : ∀ i, ‖e3 i‖ = 1 := by intro i; simp [e3]
  have hroot : unit (shortPath.attractor - (e3 0 + e3 1)) = -e3 1 := by
    have : shortPath.attractor - (e3 0 + e3 1) = -e3 1 := by
      change e3 0 - _ = _; abel
    rw [this]; unfold unit; rw [norm_neg, hn]; simp
  have hd : ⟪e3 0 + e3 1, e3 0⟫ = 1 := by
    rw [inner_add_left, h01, real_inner_self_eq_norm_sq, hn]; norm_num
  refine ⟨shortPath_proper, ?_, ?_, ?_⟩
  · intro h
    have : e3 0 + e3 1 = e3 0 := h
    exact e3_ne_zero 1 (by simpa using this)
  · rw [hroot]
    refine ⟨?_, ?_, trivial⟩
    · refine goodPair_of_coord (neg_ne_zero.mpr (e3_ne_zero 1)) (e3_ne_zero 0) ?_ 0 ?_
      · change 0 ≤ ⟪-e3 1, e3 0⟫
        rw [inner_neg_left, h01]; simp
      · change ¬ isclose ((-e3 1) 0) (e3 0 0)
        simp [e3, isclose]; norm_num
    · set s : Segment 3 := ⟨0, e3 0, e3 0, 1⟩ with hs
      have hw : s.evaluate (e3 0 + e3 1) = unit ((-3 : ℝ) • e3 1 + e3 0) := by
        unfold Segment.evaluate perpendicularFactor
        simp only [hs, sub_zero, hd, zero_add, one_smul]
        have : (3 : ℝ) • (e3 0 - (e3 0 + e3 1)) + e3 0 = (-3 : ℝ) • e3 1 + e3 0 := by module
        rw [this]; rfl
      rw [hw]
      have hne : (-3 : ℝ) • e3 1 + e3 0 ≠ 0 := by
        intro h
        have := congrArg (fun v => ⟪v, e3 0⟫) h
        simp only [inner_add_left, inner_smul_left, h01, inner_zero_left,
          real_inner_self_eq_norm_sq, hn] at this
        norm_num at this
      have hnorm : ‖(-3 : ℝ) • e3 1 + e3 0‖ ^ 2 = 10 := by
        rw [norm_add_sq_real, norm_smul, inner_smul_left, h01, hn, hn]; norm_num
      refine goodPair_of_coord (e3_ne_zero 0) (unit_ne_zero hne) ?_ 1 ?_
      · unfold unit
        rw [inner_smul_right, inner_add_right, inner_smul_right, h10,
          real_inner_self_eq_norm_sq, hn]
        have := norm_nonneg ((-3 : ℝ) • e3 1 + e3 0)
        simp only [mul_zero, zero_add, one_pow, mul_one]; positivity
      · have hp : 0 < ‖(-3 : ℝ) • e3 1 + e3 0‖ := norm_pos_iff.mpr hne
        have h4 : ‖(-3 : ℝ) • e3 1 + e3 0‖ < 4 := by nlinarith
        have hc : (unit ((-3 : ℝ) • e3 1 + e3 0)) 1 = -3 / ‖(-3 : ℝ) • e3 1 + e3 0‖ := by
          unfold unit
          simp [e3]; ring
        change ¬ isclose (e3 0 1) _
        rw [hc]
        have h5 : (3 : ℝ) / 4 < 3 / ‖(-3 : ℝ) • e3 1 + e3 0‖ :=
          div_lt_div_of_pos_left (by norm_num) hp h4
        have h6 : e3 0 1 = 0 := by simp [e3]
        rw [h6]
        unfold isclose
        rw [zero_sub, abs_neg, neg_div, abs_neg, abs_of_pos (by linarith)]
        generalize (3 : ℝ) / ‖(-3 : ℝ) • e3 1 + e3 0‖ = q at h5
        norm_num
        linarith
  · intro s hs
    simp [shortPath] at hs
    subst hs
    unfold Segment.getDistance
    simp only [sub_zero, hd]
    simp [e3_ne_zero]

example : GoodPath (unit (shortPath.attractor - 0)) 0 shortPath.segments
    ∧ (0 : Vec 3) ≠ shortPath.attractor := by
  have hn : ‖e3 0‖ = 1 := by simp [e3]
  have hroot : unit (shortPath.attractor - 0) = e3 0 := by
    rw [sub_zero]; change unit (e3 0) = _; unfold unit; rw [hn]; simp
  have hself : GoodPair (e3 0) (e3 0) := by
    refine ⟨?_, Or.inl rfl⟩
    rw [opposite_iff_inner (e3_ne_zero 0) (e3_ne_zero 0), e3_unit, real_inner_self_eq_norm_sq, hn]; norm_num
  refine ⟨?_, (e3_ne_zero 0).symm⟩
  rw [hroot]
  refine ⟨hself, ?_, trivial⟩
  have : (⟨0, e3 0, e3 0, 1⟩ : Segment 3).evaluate 0 = e3 0 := by
    simp [Segment.evaluate, hn]
  rw [this]; exact hself

/-- The path from the origin to `e0` and back. -/
noncomputable def turningPath : Path 3 where
  segments := [⟨0, e3 0, e3 0, 1⟩, ⟨e3 0, 0, -e3 0, 1⟩]
  last := ⟨e3 0, 0, -e3 0, 1⟩
  attractor := 0

/-- The hypotheses of `C76_reversal` are met by a path which turns back, those of `C76_beyond` by a path with one
segment. -/
example : ProperPath turningPath ∧ turningPath.segments.length ≤ 98 ∧ 3 ≤ 10 ^ 15
    ∧ (∃ s s' : Segment 3, turningPath.segments[0]? = some s ∧ turningPath.segments[0 + 1]? = some s' ∧ s.direction = -s'.direction)
    ∧ e3 1 ≠ turningPath.attractor ∧ ProperPath shortPath ∧ ∃ s, shortPath.segments.getLast? = some s := by
  have h1 : ‖e3 0‖ = 1 := by simp [e3]
  have hs : Segment.create (0 : Vec 3) (e3 0) = .ok ⟨0, e3 0, e3 0, 1⟩ := by
    unfold Segment.create
    simp only [sub_zero]
    rw [h1]
    simp
  have hs' : Segment.create (e3 0) (0 : Vec 3) = .ok ⟨e3 0, 0, -e3 0, 1⟩ := by
    unfold Segment.create
    simp only [zero_sub]
    rw [norm_neg, h1]
    simp
  refine ⟨⟨?_, rfl⟩, by simp [turningPath], by norm_num, ⟨_, _, rfl, rfl, (neg_neg _).symm⟩, e3_ne_zero 1, shortPath_proper, _, rfl⟩
  intro s hmem
  simp only [turningPath, List.mem_cons, List.not_mem_nil, or_false] at hmem
  rcases hmem with rfl | rfl
  · exact ⟨_, _, hs⟩
  · exact ⟨_, _, hs'⟩

end Verif
