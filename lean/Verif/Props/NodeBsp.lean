import Verif.Lemmas.NodeBspLocate
import Verif.Lemmas.NodeBspPaint
import Verif.Lemmas.NodeBspTri
import Verif.Lemmas.NodeBspScore

/-!
# Trees with the segments at the nodes

`geometrix/algorithm/node_bsp_tree_2d.hpp`.
-/

set_option linter.unusedSectionVars false

namespace Geometrix
open Spec

variable {K : Type*} [Field K] [LinearOrder K] [IsStrictOrderedRing K]

/-- C83: with exact arithmetic the constructor succeeds for every list of segments that is not empty and has
no segment without length, and a tree made in this way accepts further such segments. -/
theorem C83_total {sel : EdgeSelector K} (hsel : SelectsEdge sel) {sides : List (P2 K × P2 K)}
    (hne : ∀ e ∈ sides, e.1 ≠ e.2) :
    (sides ≠ [] → ∃ t, nodeBsp Cmp.direct sel sides = .ok t) ∧
    ∀ t, GrownTree Cmp.direct sides t → ∀ more : List (P2 K × P2 K), (∀ e ∈ more, e.1 ≠ e.2) →
      ∃ t', insertNode Cmp.direct sel [] t more = .ok t' := by
  constructor
  · intro hl
    obtain ⟨t, h, -⟩ := buildNode_of hsel (sides.length + 1) [] sides (by omega) hl hne
    exact ⟨t, h⟩
  · intro t ht more hm
    obtain ⟨t', h, -⟩ := insertNode_of hsel t [] sides more (ht.nodeOf hne).1 hm
    exact ⟨t', h⟩

/-- C83: a segment without length that is chosen to divide the others fails an assertion; with the selector that takes the
first segment this is so when the first segment has no length. -/
theorem C83_flat (cmp : Cmp K) {sel : EdgeSelector K} {sides : List (P2 K × P2 K)} {a : P2 K} :
    (sel [] sides = .ok (a, a) → nodeBsp cmp sel sides = .error .assertFailed) ∧
    nodeBsp cmp firstSelector ((a, a) :: sides) = .error .assertFailed := by
  constructor
  · intro h
    simp [nodeBsp, buildNode, h]
  · simp [nodeBsp, buildNode, firstSelector]

example : nodeBsp (K := ℚ) Cmp.direct firstSelector [(⟨1, 2⟩, ⟨1, 2⟩), (⟨0, 0⟩, ⟨1, 0⟩)] = .error .assertFailed :=
  (C83_flat Cmp.direct (sel := firstSelector)).2

/-- C83: the selectors of the library answer with one of the segments. -/
theorem C83_selectors : SelectsEdge (K := K) firstSelector ∧ SelectsEdge (K := K) (scoredEdgeSelector Cmp.direct) :=
  ⟨firstSelector_selects, scoredEdgeSelector_selects⟩

/-- The sides of two triangles; a corner of the second is on the line through the first side of the first. -/
example : LeftBorderOf (triSides (⟨0, 0⟩ : P2 ℚ) ⟨1, 0⟩ ⟨0, 1⟩ ++ triSides ⟨2, -1⟩ ⟨3, -1⟩ ⟨5/2, 0⟩)
    (fun p => InTri ⟨0, 0⟩ ⟨1, 0⟩ ⟨0, 1⟩ p ∨ InTri ⟨2, -1⟩ ⟨3, -1⟩ ⟨5/2, 0⟩ p) := by
  have h1 : 0 < area2 (⟨0, 0⟩ : P2 ℚ) ⟨1, 0⟩ ⟨0, 1⟩ := by norm_num [area2]
  have h2 : 0 < area2 (⟨2, -1⟩ : P2 ℚ) ⟨3, -1⟩ ⟨5/2, 0⟩ := by norm_num [area2]
  refine leftBorderOf_append (m := 3/2) (leftBorderOf_tri h1) (leftBorderOf_tri h2) ?_ ?_ ?_ ?_
  · simp only [triSides, List.mem_cons, List.not_mem_nil, or_false]
    rintro s (rfl | rfl | rfl) <;> norm_num
  · simp only [triSides, List.mem_cons, List.not_mem_nil, or_false]
    rintro s (rfl | rfl | rfl) <;> norm_num
  · intro p hp
    exact lt_of_le_of_lt ((inTri_x h1 hp (m := 1)).1 (by norm_num) (by norm_num) (by norm_num)) (by norm_num)
  · intro p hp
    exact lt_of_lt_of_le (by norm_num) ((inTri_x h2 hp (m := 2)).2 (by norm_num) (by norm_num) (by norm_num))

/-- C83: for a tree made of the sides of a border whose inside is to the left, `locate_point` is right about
every point which is not on the border. It says inside for the points inside, and outside for the others. -/
theorem C83_off_border {sides : List (P2 K × P2 K)} {inside : P2 K → Prop} (hb : LeftBorderOf sides inside)
    {t : NodeTree K} (ht : GrownTree Cmp.direct sides t) {p : P2 K} (hp : ¬OnBorder sides p) :
    (inside p → locatePoint Cmp.direct t p = .inside) ∧ (¬inside p → locatePoint Cmp.direct t p = .outside) := by
  have hne := leftBorderOf_ne hb
  obtain ⟨h1, h2⟩ := ht.nodeOf hne
  have := locateNode_off hb hp t sides [] .boundary h1 (partsIn_root hne) (by simp [InClosure]) (fun h => absurd h h2)
  rw [locatePoint, this]
  exact ⟨fun h => by simp [locationOf, h], fun h => by simp [locationOf, h]⟩

/-- C83, in part: `locate_point` says boundary for a point of the border. Missing are the points of the border
which are also on the line through a side which does not contain them. -/
theorem C83_on_border_partial {sides : List (P2 K × P2 K)} (hne : ∀ e ∈ sides, e.1 ≠ e.2) {t : NodeTree K}
    (ht : GrownTree Cmp.direct sides t) {p : P2 K} (hp : OnBorder sides p) (hown : OnlyOwnLines sides p) :
    locatePoint Cmp.direct t p = .boundary := by
  obtain ⟨e, he, hpe⟩ := hp
  exact locateNode_on hown he hpe t sides [] .boundary (ht.nodeOf hne).1 (partsIn_root hne) (by simp [InClosure])
    ⟨p, hpe, by simp [InCell]⟩

/-- All points of the border of a triangle are on the lines of their own sides only. -/
example : OnBorder (triSides (⟨0, 0⟩ : P2 ℚ) ⟨1, 0⟩ ⟨0, 1⟩) ⟨1/2, 1/2⟩ ∧
    OnlyOwnLines (triSides (⟨0, 0⟩ : P2 ℚ) ⟨1, 0⟩ ⟨0, 1⟩) ⟨1/2, 1/2⟩ ∧
    ∃ t, GrownTree Cmp.direct (triSides (⟨0, 0⟩ : P2 ℚ) ⟨1, 0⟩ ⟨0, 1⟩) t := by
  refine ⟨⟨(⟨1, 0⟩, ⟨0, 1⟩), by simp [triSides], 1/2, by norm_num, by norm_num, by ext <;> norm_num⟩, ?_, ?_⟩
  · simp only [OnlyOwnLines, triSides, List.mem_cons, List.not_mem_nil, or_false]
    rintro s (rfl | rfl | rfl)
    · norm_num [area2]
    · intro _
      exact ⟨1/2, by norm_num, by norm_num, by ext <;> norm_num⟩
    · norm_num [area2]
  · obtain ⟨t, ht⟩ := (C83_total (K := ℚ) firstSelector_selects (sides := triSides ⟨0, 0⟩ ⟨1, 0⟩ ⟨0, 1⟩) (by
      simp only [triSides, List.mem_cons, List.not_mem_nil, or_false]
      rintro e (rfl | rfl | rfl) <;> decide)).1 (by simp [triSides])
    exact ⟨t, .built firstSelector_selects (by simp [triSides]) ht⟩

/-- C83 is false in general: a corner of a triangle which touches the line through a side of another triangle
from its right is reported to be outside. `locate_point` passes a point on a splitting line to the positive
child only. -/
theorem C83_on_border_refuted : ∃ (sides : List (P2 ℚ × P2 ℚ)) (inside : P2 ℚ → Prop) (t : NodeTree ℚ) (p : P2 ℚ),
    LeftBorderOf sides inside ∧ nodeBsp Cmp.direct firstSelector sides = .ok t ∧ GrownTree Cmp.direct sides t ∧
    OnBorder sides p ∧ locatePoint Cmp.direct t p = .outside := by
  have h1 : 0 < area2 (⟨0, 0⟩ : P2 ℚ) ⟨1, 0⟩ ⟨0, 1⟩ := by norm_num [area2]
  have h2 : 0 < area2 (⟨2, -1⟩ : P2 ℚ) ⟨3, -1⟩ ⟨5/2, 0⟩ := by norm_num [area2]
  have hb : LeftBorderOf (triSides (⟨0, 0⟩ : P2 ℚ) ⟨1, 0⟩ ⟨0, 1⟩ ++ triSides ⟨2, -1⟩ ⟨3, -1⟩ ⟨5/2, 0⟩)
      (fun p => InTri ⟨0, 0⟩ ⟨1, 0⟩ ⟨0, 1⟩ p ∨ InTri ⟨2, -1⟩ ⟨3, -1⟩ ⟨5/2, 0⟩ p) := by
    refine leftBorderOf_append (m := 3/2) (leftBorderOf_tri h1) (leftBorderOf_tri h2) ?_ ?_ ?_ ?_
    · simp only [triSides, List.mem_cons, List.not_mem_nil, or_false]
      rintro s (rfl | rfl | rfl) <;> norm_num
    · simp only [triSides, List.mem_cons, List.not_mem_nil, or_false]
      rintro s (rfl | rfl | rfl) <;> norm_num
    · intro p hp
      exact lt_of_le_of_lt ((inTri_x h1 hp (m := 1)).1 (by norm_num) (by norm_num) (by norm_num)) (by norm_num)
    · intro p hp
      exact lt_of_lt_of_le (by norm_num) ((inTri_x h2 hp (m := 2)).2 (by norm_num) (by norm_num) (by norm_num))
  have hok : ∃ t, nodeBsp Cmp.direct firstSelector
      (triSides (⟨0, 0⟩ : P2 ℚ) ⟨1, 0⟩ ⟨0, 1⟩ ++ triSides ⟨2, -1⟩ ⟨3, -1⟩ ⟨5/2, 0⟩) = .ok t ∧
      locatePoint Cmp.direct t ⟨5/2, 0⟩ = .outside := by
    refine ⟨.node (⟨0, 0⟩, ⟨1, 0⟩) [(⟨0, 0⟩, ⟨1, 0⟩)]
      (.node (⟨1, 0⟩, ⟨0, 1⟩) [(⟨1, 0⟩, ⟨0, 1⟩)] (.node (⟨0, 1⟩, ⟨0, 0⟩) [(⟨0, 1⟩, ⟨0, 0⟩)] .nil .nil) .nil)
      (.node (⟨2, -1⟩, ⟨3, -1⟩) [(⟨2, -1⟩, ⟨3, -1⟩)]
        (.node (⟨3, -1⟩, ⟨5/2, 0⟩) [(⟨3, -1⟩, ⟨5/2, 0⟩)]
          (.node (⟨5/2, 0⟩, ⟨2, -1⟩) [(⟨5/2, 0⟩, ⟨2, -1⟩)] .nil .nil) .nil) .nil), ?_, ?_⟩ <;> decide +kernel
  obtain ⟨t, ht, hl⟩ := hok
  exact ⟨_, _, t, ⟨5/2, 0⟩, hb, ht, .built firstSelector_selects (by simp [triSides]) ht,
    ⟨(⟨3, -1⟩, ⟨5/2, 0⟩), by simp [triSides], 1, by norm_num, by norm_num, by ext <;> norm_num⟩, hl⟩

/-- C84: seen from a point on no line of a side, `painters_traversal` visits every part of every side exactly
once: the segments visited arise from the sides by cutting. -/
theorem C84_visits {sides : List (P2 K × P2 K)} (hne : ∀ e ∈ sides, e.1 ≠ e.2) {t : NodeTree K}
    (ht : GrownTree Cmp.direct sides t) {v : P2 K} (hv : OffLines sides v) :
    CutInto sides (painters Cmp.direct v t) := by
  obtain ⟨h1, -⟩ := ht.nodeOf hne
  obtain ⟨sk, h2, h3⟩ := painters_cut v t sides h1 hne
  suffices sk = [] by rwa [this, List.append_nil] at h2
  have key : ∀ (l m : List (P2 K × P2 K)), CutInto l m → OffLines l v → OffLines m v := by
    intro l m h
    induction h with
    | done h => exact fun ho f hf => ho f (h.mem_iff.2 hf)
    | @cut l m a b x rest h hx next ih =>
      intro ho
      apply ih
      have hab := ho (a, b) (h.mem_iff.2 List.mem_cons_self)
      intro f hf
      rcases List.mem_cons.1 hf with rfl | hf
      · obtain ⟨k, hk, hd⟩ := (part_first (e := (a, b)) hx).dist
        rw [hd]
        exact mul_ne_zero hk.ne' hab
      · rcases List.mem_cons.1 hf with rfl | hf
        · obtain ⟨k, hk, hd⟩ := (part_last (e := (a, b)) hx).dist
          rw [hd]
          exact mul_ne_zero hk.ne' hab
        · exact ho f (h.mem_iff.2 (List.mem_cons_of_mem _ hf))
  have ho := key _ _ h2 hv
  cases sk with
  | nil => rfl
  | cons f sk => exact absurd (h3 f List.mem_cons_self) (ho f (by simp))

/-- C84: seen from a point on no line of a side, no point of a segment is in front of a point of a segment
that is visited later: the segments come from the back to the front. -/
theorem C84_order {sides : List (P2 K × P2 K)} (hne : ∀ e ∈ sides, e.1 ≠ e.2) {t : NodeTree K}
    (ht : GrownTree Cmp.direct sides t) {v : P2 K} (hv : OffLines sides v) :
    (painters Cmp.direct v t).Pairwise fun f g => ∀ x y, OnSegment f.1 f.2 x → OnSegment g.1 g.2 y → ¬InFrontOf v x y :=
  painters_order_off t sides (ht.nodeOf hne).1 hv

/-- A tree and a viewpoint on no line of its sides, with a side that is cut. -/
example : ∃ t, GrownTree Cmp.direct [((⟨0, 0⟩, ⟨1, 0⟩) : P2 ℚ × P2 ℚ), (⟨2, -1⟩, ⟨3, 1⟩)] t ∧
    OffLines [((⟨0, 0⟩, ⟨1, 0⟩) : P2 ℚ × P2 ℚ), (⟨2, -1⟩, ⟨3, 1⟩)] ⟨0, 2⟩ ∧
    painters Cmp.direct ⟨0, 2⟩ t = [(⟨2, -1⟩, ⟨5/2, 0⟩), (⟨0, 0⟩, ⟨1, 0⟩), (⟨5/2, 0⟩, ⟨3, 1⟩)] := by
  refine ⟨.node (⟨0, 0⟩, ⟨1, 0⟩) [(⟨0, 0⟩, ⟨1, 0⟩)] (.node (⟨5/2, 0⟩, ⟨3, 1⟩) [(⟨5/2, 0⟩, ⟨3, 1⟩)] .nil .nil)
    (.node (⟨2, -1⟩, ⟨5/2, 0⟩) [(⟨2, -1⟩, ⟨5/2, 0⟩)] .nil .nil), ?_, ?_, ?_⟩
  · exact .built firstSelector_selects (by simp) (by decide +kernel)
  · simp only [OffLines, List.mem_cons, List.not_mem_nil, or_false]
    rintro s (rfl | rfl) <;> norm_num [area2]
  · decide +kernel

/-- C84, in part, for any viewpoint: the segments visited, together with some segments on lines through the
viewpoint, arise from the sides by cutting. Missing: the segments on lines through the viewpoint. -/
theorem C84_visits_any_partial {sides : List (P2 K × P2 K)} (hne : ∀ e ∈ sides, e.1 ≠ e.2) {t : NodeTree K}
    (ht : GrownTree Cmp.direct sides t) (v : P2 K) :
    ∃ skipped, CutInto sides (painters Cmp.direct v t ++ skipped) ∧ ∀ f ∈ skipped, area2 f.1 f.2 v = 0 :=
  painters_cut v t sides (ht.nodeOf hne).1 hne

/-- C84, in part, for any viewpoint: no point inside a segment is in front of a point of a segment that is
visited later, except when both are on lines through the viewpoint. -/
theorem C84_order_any_partial {sides : List (P2 K × P2 K)} (hne : ∀ e ∈ sides, e.1 ≠ e.2) {t : NodeTree K}
    (ht : GrownTree Cmp.direct sides t) (v : P2 K) :
    (painters Cmp.direct v t).Pairwise fun f g => ∀ x y, InsideSegment f.1 f.2 x → OnSegment g.1 g.2 y →
      InFrontOf v x y → area2 f.1 f.2 v = 0 ∧ area2 g.1 g.2 v = 0 :=
  painters_order t sides (ht.nodeOf hne).1 hne

/-- C84 is false for a viewpoint on a splitting line: the segments on this line are not visited, unless the
node has no children. -/
theorem C84_skipped_refuted : ∃ (sides : List (P2 ℚ × P2 ℚ)) (t : NodeTree ℚ) (v : P2 ℚ),
    (∀ e ∈ sides, e.1 ≠ e.2) ∧ GrownTree Cmp.direct sides t ∧ ¬CutInto sides (painters Cmp.direct v t) ∧
    ∃ e ∈ sides, ∀ x, OnSegment e.1 e.2 x → ∀ f ∈ painters Cmp.direct v t, ¬OnSegment f.1 f.2 x := by
  have hnever : ∀ x : P2 ℚ, OnSegment ⟨0, 0⟩ ⟨1, 0⟩ x → ¬OnSegment ⟨2, 1⟩ ⟨3, 1⟩ x := by
    rintro x ⟨t, -, -, rfl⟩ ⟨u, -, -, h⟩
    have := congrArg P2.y h
    norm_num at this
  refine ⟨[(⟨0, 0⟩, ⟨1, 0⟩), (⟨2, 1⟩, ⟨3, 1⟩)],
    .node (⟨0, 0⟩, ⟨1, 0⟩) [(⟨0, 0⟩, ⟨1, 0⟩)] (.node (⟨2, 1⟩, ⟨3, 1⟩) [(⟨2, 1⟩, ⟨3, 1⟩)] .nil .nil) .nil, ⟨5, 0⟩, ?_, ?_, ?_, ?_⟩
  · simp only [List.mem_cons, List.not_mem_nil, or_false]
    rintro e (rfl | rfl) <;> decide
  · exact .built firstSelector_selects (by simp) (by decide +kernel)
  · have hp : painters Cmp.direct (⟨5, 0⟩ : P2 ℚ) (.node (⟨0, 0⟩, ⟨1, 0⟩) [(⟨0, 0⟩, ⟨1, 0⟩)]
        (.node (⟨2, 1⟩, ⟨3, 1⟩) [(⟨2, 1⟩, ⟨3, 1⟩)] .nil .nil) .nil) = [(⟨2, 1⟩, ⟨3, 1⟩)] := by decide +kernel
    rw [hp]
    have len : ∀ l m : List (P2 ℚ × P2 ℚ), CutInto l m → l.length ≤ m.length := by
      intro l m h
      induction h with
      | done h => exact h.length_eq.le
      | cut h hx next ih =>
        rw [h.length_eq]
        simp only [List.length_cons] at *
        omega
    intro h
    have := len _ _ h
    simp at this
  · refine ⟨(⟨0, 0⟩, ⟨1, 0⟩), by simp, ?_⟩
    intro x hx f hf
    have hp : painters Cmp.direct (⟨5, 0⟩ : P2 ℚ) (.node (⟨0, 0⟩, ⟨1, 0⟩) [(⟨0, 0⟩, ⟨1, 0⟩)]
        (.node (⟨2, 1⟩, ⟨3, 1⟩) [(⟨2, 1⟩, ⟨3, 1⟩)] .nil .nil) .nil) = [(⟨2, 1⟩, ⟨3, 1⟩)] := by decide +kernel
    rw [hp] at hf
    rw [List.mem_singleton.1 hf]
    exact hnever x hx

/-- C84 is false for a viewpoint on the line of several sides: at a node without children they are visited in
the order in which they were given, also if the first hides the second. -/
theorem C84_order_refuted : ∃ (sides : List (P2 ℚ × P2 ℚ)) (t : NodeTree ℚ) (v : P2 ℚ),
    (∀ e ∈ sides, e.1 ≠ e.2) ∧ GrownTree Cmp.direct sides t ∧
    ¬(painters Cmp.direct v t).Pairwise fun f g => ∀ x y, InsideSegment f.1 f.2 x → InsideSegment g.1 g.2 y →
      ¬InFrontOf v x y := by
  refine ⟨[(⟨1, 0⟩, ⟨2, 0⟩), (⟨3, 0⟩, ⟨4, 0⟩)],
    .node (⟨1, 0⟩, ⟨2, 0⟩) [(⟨1, 0⟩, ⟨2, 0⟩), (⟨3, 0⟩, ⟨4, 0⟩)] .nil .nil, ⟨0, 0⟩, ?_, ?_, ?_⟩
  · simp only [List.mem_cons, List.not_mem_nil, or_false]
    rintro e (rfl | rfl) <;> decide
  · exact .built firstSelector_selects (by simp) (by decide +kernel)
  · have hp : painters Cmp.direct (⟨0, 0⟩ : P2 ℚ) (.node (⟨1, 0⟩, ⟨2, 0⟩) [(⟨1, 0⟩, ⟨2, 0⟩), (⟨3, 0⟩, ⟨4, 0⟩)] .nil .nil)
        = [(⟨1, 0⟩, ⟨2, 0⟩), (⟨3, 0⟩, ⟨4, 0⟩)] := by decide +kernel
    rw [hp]
    intro h
    have := (List.pairwise_cons.1 h).1 (⟨3, 0⟩, ⟨4, 0⟩) (by simp)
    exact this ⟨3/2, 0⟩ ⟨7/2, 0⟩ ⟨1/2, by norm_num, by norm_num, by ext <;> norm_num⟩
      ⟨1/2, by norm_num, by norm_num, by ext <;> norm_num⟩ ⟨3/7, by norm_num, by norm_num, by ext <;> norm_num⟩

/-- C85, in part: the scored selector answers with the first of the segments which have the smallest score, but
the score is the one with the roles exchanged. Missing: the score of the description. -/
theorem C85_exchanged_partial (path : List Bool) {l : List (P2 K × P2 K)} (hl : l ≠ []) :
    ∃ i s, scoredEdgeSelector Cmp.direct path l = .ok s ∧ l[i]? = some s ∧
      (∀ j e, l[j]? = some e → exchangedScore l i s ≤ exchangedScore l j e) ∧
      ∀ j e, l[j]? = some e → exchangedScore l i s = exchangedScore l j e → i ≤ j := by
  obtain ⟨i, s, h1, h2, h3⟩ := scoredEdgeLoop_min l hl
  refine ⟨i, s, by rw [scoredEdgeSelector, h1], h2, fun j e hj => ?_, fun j e hj he => ?_⟩
  · rcases h3 j e hj with h | h
    · exact h.le
    · exact h.1
  · rcases h3 j e hj with h | h
    · exact absurd he h.ne
    · exact h.2

example : ([((⟨2, 1⟩, ⟨1, 3⟩) : P2 ℚ × P2 ℚ), (⟨2, 0⟩, ⟨3, 0⟩)]) ≠ [] := by simp

/-- C85 is false: the selector looks at which lines of other segments cut a segment, not at which segments
its line cuts. Here the line of the second segment cuts nothing; the line of the selected first one cuts
the second. -/
theorem C85_refuted : ∃ (l : List (P2 ℚ × P2 ℚ)) (s e : P2 ℚ × P2 ℚ),
    (∀ e ∈ l, e.1 ≠ e.2) ∧ l = [s, e] ∧ s ≠ e ∧ scoredEdgeSelector Cmp.direct [] l = .ok s ∧
    cutCount l 0 s = 1 ∧ cutCount l 1 e = 0 ∧ splitScore l 1 e < splitScore l 0 s := by
  refine ⟨[(⟨2, 1⟩, ⟨1, 3⟩), (⟨2, 0⟩, ⟨3, 0⟩)], (⟨2, 1⟩, ⟨1, 3⟩), (⟨2, 0⟩, ⟨3, 0⟩), ?_, rfl, ?_, ?_, ?_, ?_, ?_⟩
  · simp only [List.mem_cons, List.not_mem_nil, or_false]
    rintro e (rfl | rfl) <;> decide
  all_goals decide +kernel

end Geometrix
