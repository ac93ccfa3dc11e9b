import Verif.Model.RemoveCollinear
import Verif.Spec.RemoveCollinear
import Verif.Lemmas.Distance
import Verif.Lemmas.LineIntersection

/-!
# Helper lemmas about removing collinear points
-/

set_option linter.unusedSectionVars false

namespace Geometrix

open Spec

variable {K : Type*} [Field K] [LinearOrder K] [IsStrictOrderedRing K]

theorem isCollinear_direct (A B C : P2 K) :
    isCollinear Cmp.direct A B C = true ↔ Collinear A B C := by
  simp [isCollinear, Collinear, area2, cross]

theorem sameDir_trans {u v w : P2 K} (h : SameDirection u v) (h' : SameDirection v w) :
    SameDirection u w := by
  obtain ⟨r, hr, rfl⟩ := h
  obtain ⟨s, hs, rfl⟩ := h'
  exact ⟨s * r, mul_pos hs hr, by ext <;> simp <;> ring⟩

theorem sameDir_symm {u v : P2 K} (h : SameDirection u v) : SameDirection v u := by
  obtain ⟨r, hr, rfl⟩ := h
  refine ⟨r⁻¹, inv_pos.mpr hr, ?_⟩
  ext <;> simp <;> field_simp

theorem sameDir_refl (u : P2 K) : SameDirection u u := ⟨1, one_pos, by ext <;> simp⟩

/-- Inside a segment means going on in the same direction. -/
theorem inside_sameDir {A B C : P2 K} (h : InsideSegment A C B) : SameDirection (B - A) (C - B) := by
  obtain ⟨t, h0, h1, rfl⟩ := h
  refine ⟨(1 - t) / t, div_pos (by linarith) h0, ?_⟩
  ext <;> simp <;> field_simp <;> ring

theorem sameDir_inside {A B C : P2 K} (h : SameDirection (B - A) (C - B)) : InsideSegment A C B := by
  obtain ⟨r, hr, h⟩ := h
  have hx : C.x - B.x = r * (B.x - A.x) := by simpa using congrArg P2.x h
  have hy : C.y - B.y = r * (B.y - A.y) := by simpa using congrArg P2.y h
  have h1 : (0 : K) < 1 + r := by linarith
  refine ⟨1 / (1 + r), by positivity, by rw [div_lt_one h1]; linarith, ?_⟩
  ext
  · simp only [P2.add_x, P2.smul_x, P2.sub_x]
    field_simp; linear_combination -hx
  · simp only [P2.add_y, P2.smul_y, P2.sub_y]
    field_simp; linear_combination -hy

theorem inside_sameDir' {A B C : P2 K} (h : InsideSegment A C B) :
    SameDirection (B - A) (C - A) ∧ SameDirection (C - B) (C - A) := by
  have h1 := inside_sameDir h
  have h2 : SameDirection (B - A) (C - A) := by
    obtain ⟨t, h0, _, rfl⟩ := h
    refine ⟨t⁻¹, inv_pos.mpr h0, ?_⟩
    ext <;> simp <;> field_simp
  exact ⟨h2, sameDir_trans (sameDir_symm h1) h2⟩

/-- Collinearity depends only on the directions of the two steps. -/
theorem collinear_steps {A B C A' B' C' : P2 K} (h1 : SameDirection (B - A) (B' - A'))
    (h2 : SameDirection (C - B) (C' - B')) : Collinear A B C ↔ Collinear A' B' C' := by
  obtain ⟨r, hr, h1⟩ := h1
  obtain ⟨s, hs, h2⟩ := h2
  have hx : B'.x - A'.x = r * (B.x - A.x) := by simpa using congrArg P2.x h1
  have hy : B'.y - A'.y = r * (B.y - A.y) := by simpa using congrArg P2.y h1
  have kx : C'.x - B'.x = s * (C.x - B.x) := by simpa using congrArg P2.x h2
  have ky : C'.y - B'.y = s * (C.y - B.y) := by simpa using congrArg P2.y h2
  have key : area2 A' B' C' = (r * s) * area2 A B C := by
    have e1 : area2 A' B' C' = (B'.x - A'.x) * (C'.y - B'.y) - (B'.y - A'.y) * (C'.x - B'.x) := by
      unfold area2; ring
    rw [e1, hx, hy, kx, ky]; unfold area2; ring
  unfold Collinear
  rw [key]
  simp [hr.ne', hs.ne']

/-- A point inside a segment splits it in two. -/
theorem onSegment_split {A B C : P2 K} (h : InsideSegment A C B) (P : P2 K) :
    OnSegment A C P ↔ OnSegment A B P ∨ OnSegment B C P := by
  obtain ⟨t, h0, h1, rfl⟩ := h
  have h1' : 0 < 1 - t := by linarith
  constructor
  · rintro ⟨s, hs0, hs1, rfl⟩
    rcases le_total s t with hst | hst
    · refine Or.inl ⟨s / t, by positivity, (div_le_one h0).mpr hst, ?_⟩
      ext <;> simp <;> field_simp
    · refine Or.inr ⟨(s - t) / (1 - t), div_nonneg (by linarith) h1'.le,
        (div_le_one h1').mpr (by linarith), ?_⟩
      ext <;> simp <;> field_simp <;> ring
  · rintro (⟨s, hs0, hs1, rfl⟩ | ⟨s, hs0, hs1, rfl⟩)
    · refine ⟨s * t, by positivity, by nlinarith, ?_⟩
      ext <;> simp <;> ring
    · refine ⟨t + s * (1 - t), by positivity, by nlinarith, ?_⟩
      ext <;> simp <;> ring

theorem onPolyline_cons (a b : P2 K) (l : List (P2 K)) (P : P2 K) :
    OnPolyline (a :: b :: l) P ↔ OnSegment a b P ∨ OnPolyline (b :: l) P := by
  simp [onPolyline_iff, openEdges]

theorem onPolyline_single (a : P2 K) (P : P2 K) : ¬ OnPolyline [a] P := by
  simp [onPolyline_iff, openEdges]

/-- The result of the loop begins with `a`. -/
theorem removeLoop_cons (cmp : Cmp K) (rest : List (P2 K)) (a b : P2 K) :
    ∃ x l, removeCollinearLoop cmp a b rest = a :: x :: l := by
  induction rest generalizing a b with
  | nil => exact ⟨b, [], rfl⟩
  | cons c rest ih =>
    unfold removeCollinearLoop
    split
    · obtain ⟨x, l, h⟩ := ih b c
      exact ⟨b, x :: l, by rw [h]⟩
    · exact ih a c

theorem removeLoop_sublist (cmp : Cmp K) (rest : List (P2 K)) (a b : P2 K) :
    (removeCollinearLoop cmp a b rest).Sublist (a :: b :: rest) := by
  induction rest generalizing a b with
  | nil => exact List.Sublist.refl _
  | cons c rest ih =>
    unfold removeCollinearLoop
    split
    · exact (ih b c).cons_cons a
    · exact (ih a c).trans (((List.Sublist.refl _).cons b).cons_cons a)

theorem removeLoop_last (cmp : Cmp K) (rest : List (P2 K)) (a b : P2 K) :
    (removeCollinearLoop cmp a b rest).getLast? = (b :: rest).getLast? := by
  induction rest generalizing a b with
  | nil => rfl
  | cons c rest ih =>
    unfold removeCollinearLoop
    split
    · obtain ⟨x, l, h⟩ := removeLoop_cons cmp rest b c
      rw [h, List.getLast?_cons_cons, ← h, ih b c, List.getLast?_cons_cons]
    · rw [ih a c, List.getLast?_cons_cons]

/-- The loop keeps the curve and leaves no straight corners, while the walk is onward. `p` is the
input vertex before `b`. -/
theorem removeLoop_spec (rest : List (P2 K)) (p a b : P2 K) (hdir : SameDirection (b - p) (b - a))
    (hon : EveryTriple Onward (p :: b :: rest)) :
    (∀ P, OnPolyline (removeCollinearLoop Cmp.direct a b rest) P ↔
      OnSegment a b P ∨ OnPolyline (b :: rest) P) ∧
    (∃ x l, removeCollinearLoop Cmp.direct a b rest = a :: x :: l ∧
      SameDirection (b - a) (x - a) ∧ EveryTriple (fun A B C => ¬ Collinear A B C) (a :: x :: l)) := by
  induction rest generalizing p a b with
  | nil =>
    refine ⟨fun P => by simp [removeCollinearLoop, onPolyline_cons], b, [], rfl, sameDir_refl _, ?_⟩
    simp [EveryTriple]
  | cons c rest ih =>
    obtain ⟨⟨hpb, hbc, hcol⟩, hrest⟩ := hon
    unfold removeCollinearLoop
    by_cases hc : isCollinear Cmp.direct a b c = true
    · have hc' := (isCollinear_direct a b c).mp hc
      rw [← collinear_steps hdir (sameDir_refl (c - b))] at hc'
      have h1 := inside_sameDir (hcol hc')
      have h2 : SameDirection (b - a) (c - b) := sameDir_trans (sameDir_symm hdir) h1
      have h3 := sameDir_inside h2
      obtain ⟨h4, h5⟩ := inside_sameDir' h3
      obtain ⟨k1, x, l, k2, k3, k4⟩ := ih b a c h5 hrest
      simp only [hc, Bool.not_true, Bool.false_eq_true, if_false]
      refine ⟨fun P => ?_, x, l, k2, sameDir_trans h4 k3, k4⟩
      rw [k1, onSegment_split h3, onPolyline_cons, or_assoc]
    · obtain ⟨k1, x, l, k2, k3, k4⟩ := ih b b c (sameDir_refl _) hrest
      have hc' : ¬ Collinear a b c := by rwa [isCollinear_direct] at hc
      simp only [hc, Bool.not_false, if_true]
      refine ⟨fun P => ?_, b, x :: l, by rw [k2], sameDir_refl _, ?_, k4⟩
      · rw [k2, onPolyline_cons, ← k2, k1, onPolyline_cons]
      · show ¬ Collinear a b x
        rwa [← collinear_steps (sameDir_refl _) k3]

theorem removeLoop_of_corners (rest : List (P2 K)) (a b : P2 K)
    (h : EveryTriple (fun A B C => ¬ Collinear A B C) (a :: b :: rest)) :
    removeCollinearLoop Cmp.direct a b rest = a :: b :: rest := by
  induction rest generalizing a b with
  | nil => rfl
  | cons c rest ih =>
    obtain ⟨h1, h2⟩ := h
    unfold removeCollinearLoop
    rw [← isCollinear_direct] at h1
    rw [if_pos (by simpa using h1), ih b c h2]

theorem removePolyline_of_corners (l : List (P2 K))
    (h : EveryTriple (fun A B C => ¬ Collinear A B C) l) :
    removeCollinearPolyline Cmp.direct l = l := by
  match l, h with
  | [], _ => rfl
  | [_], _ => rfl
  | [_, _], _ => rfl
  | a :: b :: c :: rest, h => exact removeLoop_of_corners (c :: rest) a b h

theorem distSq_gt_iff (a b : P2 K) : Cmp.direct.gt (distSq a b) 0 = true ↔ a ≠ b := by
  rw [direct_gt]
  unfold distSq
  constructor
  · rintro h rfl
    have : a - a = 0 := by ext <;> simp
    rw [this] at h
    simp [normSq, dot] at h
  · intro h
    exact normSq_pos (sub_ne_zero_P2 h)

theorem coalesceLoop_cons (cmp : Cmp K) (rest : List (P2 K)) (a : P2 K) :
    ∃ l, coalesceLoop cmp a rest = a :: l := by
  induction rest generalizing a with
  | nil => exact ⟨[], rfl⟩
  | cons b rest ih =>
    unfold coalesceLoop
    split
    · exact ⟨_, rfl⟩
    · exact ih a

theorem coalesceLoop_sublist (cmp : Cmp K) (rest : List (P2 K)) (a : P2 K) :
    (coalesceLoop cmp a rest).Sublist (a :: rest) := by
  induction rest generalizing a with
  | nil => exact List.Sublist.refl _
  | cons b rest ih =>
    unfold coalesceLoop
    split
    · exact (ih b).cons_cons a
    · exact (ih a).trans (((List.Sublist.refl _).cons b).cons_cons a)

theorem coalesceLoop_spec (rest : List (P2 K)) (a : P2 K) :
    (coalesceLoop Cmp.direct a rest).IsChain (· ≠ ·) ∧
    (coalesceLoop Cmp.direct a rest).getLast? = (a :: rest).getLast? ∧
    (∀ P, OnPolyline (coalesceLoop Cmp.direct a rest) P ∨ P = a ↔
      OnPolyline (a :: rest) P ∨ P = a) := by
  induction rest generalizing a with
  | nil => exact ⟨List.isChain_singleton a, rfl, fun P => Iff.rfl⟩
  | cons b rest ih =>
    unfold coalesceLoop
    by_cases h : a = b
    · subst h
      have hn : ¬ (Cmp.direct.gt (distSq a a) 0 = true) := by
        rw [distSq_gt_iff]; simp
      rw [if_neg hn]
      obtain ⟨h1, h2, h3⟩ := ih a
      refine ⟨h1, by rw [h2, List.getLast?_cons_cons], fun P => ?_⟩
      rw [h3, onPolyline_cons]
      have : OnSegment a a P ↔ P = a := by
        constructor
        · rintro ⟨t, -, -, rfl⟩; ext <;> simp
        · rintro rfl; exact onSegment_start _ _
      rw [this]; tauto
    · rw [if_pos ((distSq_gt_iff a b).mpr h)]
      obtain ⟨h1, h2, h3⟩ := ih b
      obtain ⟨l, hl⟩ := coalesceLoop_cons Cmp.direct rest b
      rw [hl] at h1 h2 h3 ⊢
      refine ⟨List.isChain_cons_cons.mpr ⟨h, h1⟩, by
        rw [List.getLast?_cons_cons, h2, List.getLast?_cons_cons], fun P => ?_⟩
      rw [onPolyline_cons, onPolyline_cons]
      have hb := h3 P
      have : P = b → OnSegment a b P := by
        rintro rfl; exact ⟨1, zero_le_one, le_rfl, by ext <;> simp⟩
      tauto

theorem coalesce_of_chain (l : List (P2 K)) (h : l.IsChain (· ≠ ·)) :
    coalescePolyline Cmp.direct l = l := by
  have key : ∀ (rest : List (P2 K)) (a : P2 K), (a :: rest).IsChain (· ≠ ·) →
      coalesceLoop Cmp.direct a rest = a :: rest := by
    intro rest
    induction rest with
    | nil => intro a _; rfl
    | cons b rest ih =>
      intro a h
      rw [List.isChain_cons_cons] at h
      unfold coalesceLoop
      rw [if_pos ((distSq_gt_iff a b).mpr h.1), ih b h.2]
  match l, h with
  | [], _ => rfl
  | [_], _ => rfl
  | [_, _], _ => rfl
  | a :: b :: c :: rest, h => exact key _ a h

/-- Corners have no repeated points. -/
theorem chain_of_corners (l : List (P2 K)) (h3 : 3 ≤ l.length)
    (h : EveryTriple (fun A B C => ¬ Collinear A B C) l) : l.IsChain (· ≠ ·) := by
  have key : ∀ A B C : P2 K, ¬ Collinear A B C → A ≠ B ∧ B ≠ C := by
    intro A B C h
    constructor
    · rintro rfl; exact h (by simp [Collinear, area2])
    · rintro rfl; exact h (by simp [Collinear, area2]; ring)
  have main : ∀ (rest : List (P2 K)) (a b c : P2 K),
      EveryTriple (fun A B C => ¬ Collinear A B C) (a :: b :: c :: rest) →
      (a :: b :: c :: rest).IsChain (· ≠ ·) := by
    intro rest
    induction rest with
    | nil =>
      intro a b c h
      obtain ⟨h1, h2⟩ := key _ _ _ h.1
      simp [List.isChain_cons_cons, h1, h2]
    | cons d rest ih =>
      intro a b c h
      exact List.isChain_cons_cons.mpr ⟨(key _ _ _ h.1).1, ih b c d h.2⟩
  match l, h3, h with
  | a :: b :: c :: rest, _, h => exact main rest a b c h

theorem everyTriple_of_append {α : Type*} {p : α → α → α → Prop} (l m : List α)
    (h : EveryTriple p (l ++ m)) : EveryTriple p l := by
  match l, h with
  | [], _ => trivial
  | [_], _ => trivial
  | [_, _], _ => trivial
  | a :: b :: c :: rest, h => exact ⟨h.1, everyTriple_of_append (b :: c :: rest) m h.2⟩

theorem everyTriple_concat {α : Type*} {p : α → α → α → Prop} (l : List α) (z f x : α)
    (hz : l.getLast? = some z) (h : EveryTriple p (l ++ [f])) (hp : p z f x) :
    EveryTriple p (l ++ [f, x]) := by
  match l, hz, h with
  | [a], hz, h =>
    simp only [List.getLast?_singleton, Option.some.injEq] at hz
    subst hz
    exact ⟨hp, trivial⟩
  | [a, b], hz, h =>
    simp only [List.getLast?_cons_cons, List.getLast?_singleton, Option.some.injEq] at hz
    subst hz
    exact ⟨h.1, hp, trivial⟩
  | a :: b :: c :: rest, hz, h =>
    exact ⟨h.1, everyTriple_concat (b :: c :: rest) z f x (by simpa using hz) h.2 hp⟩

theorem onPolyline_concat (l : List (P2 K)) (z f : P2 K) (hz : l.getLast? = some z) (P : P2 K) :
    OnPolyline (l ++ [f]) P ↔ OnPolyline l P ∨ OnSegment z f P := by
  match l, hz with
  | [a], hz =>
    simp only [List.getLast?_singleton, Option.some.injEq] at hz
    subst hz
    simp [onPolyline_cons, onPolyline_single]
  | a :: b :: rest, hz =>
    have := onPolyline_concat (b :: rest) z f (by simpa using hz) P
    rw [List.cons_append] at this
    rw [List.cons_append, List.cons_append, onPolyline_cons, this, onPolyline_cons, or_assoc]

/-- The boundary of a polygon is the polyline closed by its first vertex. -/
theorem onBoundary_closed (f : P2 K) (l : List (P2 K)) (P : P2 K) :
    OnBoundary (f :: l) P ↔ OnPolyline (f :: l ++ [f]) P := by
  obtain ⟨z, hz⟩ : ∃ z, (f :: l).getLast? = some z := ⟨_, List.getLast?_eq_getLast_of_ne_nil (by simp)⟩
  rw [onPolyline_concat _ z f hz, onBoundary_iff, closedEdges, hz, onPolyline_iff]
  simp [openEdges, or_comm]

theorem removePolygonLoop_cons (cmp : Cmp K) (front : P2 K) (rest : List (P2 K)) (a b : P2 K) :
    ∃ x l, removeCollinearPolygonLoop cmp front a b rest = a :: x :: l := by
  induction rest generalizing a b with
  | nil => exact ⟨b, [], rfl⟩
  | cons c rest ih =>
    unfold removeCollinearPolygonLoop
    split
    · split
      · obtain ⟨x, l, h⟩ := ih b c
        exact ⟨b, x :: l, by rw [h]⟩
      · exact ih a b
    · exact ih a c

theorem removePolygonLoop_sublist (cmp : Cmp K) (front : P2 K) (rest : List (P2 K)) (a b : P2 K) :
    (removeCollinearPolygonLoop cmp front a b rest).Sublist (a :: b :: rest) := by
  induction rest generalizing a b with
  | nil => exact List.Sublist.refl _
  | cons c rest ih =>
    unfold removeCollinearPolygonLoop
    split
    · split
      · exact (ih b c).cons_cons a
      · exact (ih a b).trans ((((List.Sublist.refl _).cons c).cons_cons b).cons_cons a)
    · exact (ih a c).trans (((List.Sublist.refl _).cons b).cons_cons a)

/-- Among the last three vertices and the first one there are no two straight corners in a row. -/
def LastCornerOk (front : P2 K) (l : List (P2 K)) : Prop :=
  ∀ q r s, [q, r, s] <:+ l → ¬ (Collinear q r s ∧ Collinear r s front)

/-- The loop over a polygon keeps the closed curve. -/
theorem removePolygonLoop_spec (front : P2 K) (rest : List (P2 K)) (hne : rest ≠ []) (p a b : P2 K)
    (hdir : SameDirection (b - p) (b - a)) (hon : EveryTriple Onward (p :: b :: (rest ++ [front]))) :
    (∀ P, OnPolyline (removeCollinearPolygonLoop Cmp.direct front a b rest ++ [front]) P ↔
      OnSegment a b P ∨ OnPolyline (b :: (rest ++ [front])) P) ∧
    (∃ x l, removeCollinearPolygonLoop Cmp.direct front a b rest = a :: x :: l ∧
      SameDirection (b - a) (x - a) ∧ EveryTriple (fun A B C => ¬ Collinear A B C) (a :: x :: l) ∧
      (LastCornerOk front (p :: b :: rest) →
        EveryTriple (fun A B C => ¬ Collinear A B C) (a :: x :: l ++ [front]))) ∧
    (∃ z w, (removeCollinearPolygonLoop Cmp.direct front a b rest).getLast? = some z ∧
      rest.getLast? = some w ∧ SameDirection (front - w) (front - z)) := by
  induction rest generalizing p a b with
  | nil => exact absurd rfl hne
  | cons c rest ih =>
    obtain ⟨⟨hpb, hbc, hcol⟩, hrest⟩ := hon
    have hsuf : LastCornerOk front (p :: b :: c :: rest) → LastCornerOk front (b :: c :: rest) :=
      fun h q r s hs => h q r s (hs.trans (List.suffix_cons _ _))
    unfold removeCollinearPolygonLoop
    by_cases hc : isCollinear Cmp.direct a b c = true
    · have hc' := (isCollinear_direct a b c).mp hc
      rw [← collinear_steps hdir (sameDir_refl (c - b))] at hc'
      have h1 := inside_sameDir (hcol hc')
      have h2 : SameDirection (b - a) (c - b) := sameDir_trans (sameDir_symm hdir) h1
      have h3 := sameDir_inside h2
      obtain ⟨h4, h5⟩ := inside_sameDir' h3
      simp only [hc, Bool.not_true, Bool.false_eq_true, if_false]
      by_cases hr : rest = []
      · subst hr
        refine ⟨fun P => ?_, ⟨c, [], rfl, h4, trivial, fun hl => ⟨?_, trivial⟩⟩, c, c, rfl, rfl,
          sameDir_refl _⟩
        · simp only [removeCollinearPolygonLoop, List.cons_append, List.nil_append]
          rw [onPolyline_cons a c, onSegment_split h3, onPolyline_cons b c, or_assoc]
        · have := hl p b c (List.suffix_refl _)
          have h6 : ¬ Collinear b c front := fun h => this ⟨hc', h⟩
          rwa [collinear_steps h5 (sameDir_refl (front - c))] at h6
      · obtain ⟨k1, ⟨x, l, k2, k3, k4, k5⟩, z, w, k6, k7, k8⟩ := ih hr b a c h5 hrest
        refine ⟨fun P => ?_, ⟨x, l, k2, sameDir_trans h4 k3, k4, fun h => k5 (hsuf h)⟩, z, w, k6, ?_, k8⟩
        · rw [k1, onSegment_split h3, List.cons_append, onPolyline_cons, or_assoc]
        · rw [List.getLast?_cons_of_ne_nil hr]; exact k7
    · have hc' : ¬ Collinear a b c := by rwa [isCollinear_direct] at hc
      simp only [hc, Bool.not_false, if_true]
      by_cases hr : rest = []
      · subst hr
        by_cases hf : isCollinear Cmp.direct b c front = true
        · simp only [hf, List.isEmpty_nil, Bool.not_true, Bool.or_self, Bool.false_eq_true, if_false]
          have h1 := hrest.1.2.2 ((isCollinear_direct b c front).mp hf)
          obtain ⟨h2, h3⟩ := inside_sameDir' h1
          refine ⟨fun P => ?_, ⟨b, [], rfl, sameDir_refl _, trivial, fun hl => ⟨?_, trivial⟩⟩, b, c, rfl,
            rfl, h3⟩
          · simp only [removeCollinearPolygonLoop, List.cons_append, List.nil_append]
            rw [onPolyline_cons, onPolyline_cons, onPolyline_cons b c, onPolyline_cons c front,
              onSegment_split h1, or_assoc]
          · show ¬ Collinear a b front
            rwa [collinear_steps (sameDir_refl (b - a)) h2] at hc'
        · simp only [hf, List.isEmpty_nil, Bool.not_true, Bool.not_false, Bool.or_true, if_true]
          refine ⟨fun P => ?_, ⟨b, [c], rfl, sameDir_refl _, ⟨hc', trivial⟩,
            fun hl => ⟨hc', ?_, trivial⟩⟩, c, c, rfl, rfl, sameDir_refl _⟩
          · simp only [removeCollinearPolygonLoop, List.cons_append, List.nil_append]
            rw [onPolyline_cons]
          · show ¬ Collinear b c front
            rwa [isCollinear_direct] at hf
      · have he : rest.isEmpty = false := by simpa using hr
        simp only [he, Bool.not_false, Bool.true_or, if_true]
        obtain ⟨k1, ⟨x, l, k2, k3, k4, k5⟩, z, w, k6, k7, k8⟩ :=
          ih hr b b c (sameDir_refl _) hrest
        have hx : ¬ Collinear a b x := by rwa [← collinear_steps (sameDir_refl _) k3]
        refine ⟨fun P => ?_, ⟨b, x :: l, by rw [k2], sameDir_refl _, ⟨hx, k4⟩,
          fun h => ⟨hx, k5 (hsuf h)⟩⟩, z, w, ?_, ?_, k8⟩
        · rw [k2] at k1 ⊢
          rw [List.cons_append, List.cons_append, onPolyline_cons, ← List.cons_append, k1,
            List.cons_append, onPolyline_cons]
        · rw [k2, List.getLast?_cons_cons, ← k2, k6]
        · rw [List.getLast?_cons_of_ne_nil hr]; exact k7

theorem removePolygon_of_corners (l : List (P2 K))
    (h : EveryCyclicTriple (fun A B C => ¬ Collinear A B C) l) :
    removeCollinearPolygon Cmp.direct l = l := by
  have key : ∀ (rest : List (P2 K)) (f a b : P2 K),
      EveryTriple (fun A B C => ¬ Collinear A B C) (a :: b :: (rest ++ [f])) →
      removeCollinearPolygonLoop Cmp.direct f a b rest = a :: b :: rest := by
    intro rest
    induction rest with
    | nil => intro f a b _; rfl
    | cons c rest ih =>
      intro f a b h
      obtain ⟨h1, h2⟩ := h
      unfold removeCollinearPolygonLoop
      rw [← isCollinear_direct] at h1
      rw [if_pos (by simpa using h1)]
      rw [if_pos, ih f b c h2]
      cases rest with
      | nil =>
        have : ¬ Collinear b c f := h2.1
        rw [← isCollinear_direct] at this
        simpa using this
      | cons => simp
  match l, h with
  | [], _ => rfl
  | [_], _ => rfl
  | [_, _], _ => rfl
  | [_, _, _], _ => rfl
  | a :: b :: c :: d :: rest, h =>
    refine key (c :: d :: rest) a a b (everyTriple_of_append _ [b] ?_)
    simpa [EveryCyclicTriple] using h

theorem coalescePolygon_of_chain (l : List (P2 K)) (h : (l ++ l.take 1).IsChain (· ≠ ·)) :
    coalescePolygon Cmp.direct l = l := by
  have key : ∀ (rest : List (P2 K)) (f a : P2 K), (a :: (rest ++ [f])).IsChain (· ≠ ·) →
      coalescePolygonLoop Cmp.direct f a rest = a :: rest := by
    intro rest
    induction rest with
    | nil => intro f a _; rfl
    | cons b rest ih =>
      intro f a h
      rw [List.cons_append, List.isChain_cons_cons] at h
      unfold coalescePolygonLoop
      rw [if_pos ((distSq_gt_iff a b).mpr h.1), if_pos, ih f b h.2]
      cases rest with
      | nil =>
        have : b ≠ f := by simpa using h.2
        rw [(distSq_gt_iff b f).mpr this]; simp
      | cons => simp
  match l, h with
  | [], _ => rfl
  | [_], _ => rfl
  | [_, _], _ => rfl
  | [_, _, _], _ => rfl
  | a :: b :: c :: d :: rest, h => exact key _ a a (by simpa using h)

theorem identifyAdjacentLoop_ge (cmp : Cmp K) (front : P2 K) (rest : List (P2 K)) (i : Nat) (a : P2 K) :
    ∀ j ∈ identifyAdjacentLoop cmp front i a rest, i ≤ j := by
  induction rest generalizing i a with
  | nil => simp [identifyAdjacentLoop]
  | cons b rest ih =>
    intro j hj
    unfold identifyAdjacentLoop at hj
    split at hj
    · split at hj
      · have := ih (i + 1) b j hj; omega
      · rcases List.mem_cons.mp hj with rfl | hj
        · exact le_rfl
        · have := ih (i + 1) a j hj; omega
    · rcases List.mem_cons.mp hj with rfl | hj
      · exact le_rfl
      · have := ih (i + 1) a j hj; omega

theorem identifyAdjacentLoop_spec (cmp : Cmp K) (front : P2 K) (rest : List (P2 K)) (i : Nat) (a : P2 K)
    (ids : List Nat)
    (hids : ∀ j, i ≤ j → (j ∈ ids ↔ j ∈ identifyAdjacentLoop cmp front i a rest)) :
    a :: ((rest.zipIdx i).filter fun e => e.2 ∉ ids).map Prod.fst =
      coalescePolygonLoop cmp front a rest := by
  induction rest generalizing i a with
  | nil => rfl
  | cons b rest ih =>
    have hge : ∀ c, i ∉ identifyAdjacentLoop cmp front (i + 1) c rest := fun c hi => by
      have := identifyAdjacentLoop_ge cmp front rest (i + 1) c i hi; omega
    have hi := hids i le_rfl
    unfold identifyAdjacentLoop at hids hi
    unfold coalescePolygonLoop
    rw [List.zipIdx_cons, List.filter_cons]
    by_cases h1 : cmp.gt (distSq a b) 0 = true
    · by_cases h2 : (!rest.isEmpty || cmp.gt (distSq b front) 0) = true
      · rw [if_pos h1, if_pos h2] at hi hids ⊢
        have hn : i ∉ ids := fun h => hge b (hi.mp h)
        rw [if_pos (by simpa using hn), List.map_cons,
          ih (i + 1) b (fun j hj => hids j (by omega))]
      · rw [if_pos h1, if_neg h2] at hi hids ⊢
        have hn : i ∈ ids := hi.mpr List.mem_cons_self
        rw [if_neg (by simpa using hn)]
        refine ih (i + 1) a (fun j hj => ?_)
        rw [hids j (by omega), List.mem_cons]
        constructor
        · rintro (rfl | h)
          · omega
          · exact h
        · exact Or.inr
    · rw [if_neg h1] at hi hids ⊢
      have hn : i ∈ ids := hi.mpr List.mem_cons_self
      rw [if_neg (by simpa using hn)]
      refine ih (i + 1) a (fun j hj => ?_)
      rw [hids j (by omega), List.mem_cons]
      constructor
      · rintro (rfl | h)
        · omega
        · exact h
      · exact Or.inr

theorem identifyCollinearLoop_length (cmp : Cmp K) (front : P2 K) (rest : List (P2 K)) (i : Nat)
    (a b : P2 K) :
    (identifyCollinearLoop cmp front i a b rest).length +
      (removeCollinearPolygonLoop cmp front a b rest).length = rest.length + 2 := by
  induction rest generalizing i a b with
  | nil => rfl
  | cons c rest ih =>
    unfold identifyCollinearLoop removeCollinearPolygonLoop
    split
    · split
      · have := ih (i + 1) b c
        simp only [List.length_cons]; omega
      · have := ih (i + 1) a b
        simp only [List.length_cons]; omega
    · have := ih (i + 1) a c
      simp only [List.length_cons]; omega

end Geometrix
