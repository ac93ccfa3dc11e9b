import Verif.Model.PointInPolygon
import Verif.Spec.PointInPolygon
import Verif.Lemmas.Vec
import Verif.Lemmas.Distance
import Verif.Lemmas.Orientation
import Mathlib.Algebra.Ring.Parity
import Mathlib.Tactic.Linarith
import Mathlib.Tactic.LinearCombination
import Mathlib.Tactic.FieldSimp
import Mathlib.Tactic.Ring
import Mathlib.Tactic.Push

/-!
# Lemmas about points in polygons
-/

set_option linter.unusedSectionVars false

namespace Geometrix
open Spec

variable {K : Type*} [Field K] [LinearOrder K] [IsStrictOrderedRing K]

/-! ## Counting -/

theorem countP_xor {α : Type*} (f g : α → Bool) (l : List α) :
    l.countP (fun e => f e ^^ g e) % 2 = (l.countP f + l.countP g) % 2 := by
  induction l with
  | nil => rfl
  | cons a l ih =>
    simp only [List.countP_cons]
    cases f a <;> cases g a <;> simp <;> omega

/-- Along an open chain the number of changes of `d` is odd when the ends differ. -/
theorem changes_open {α : Type*} (d : α → Bool) (a : α) (l : List α) :
    (openEdges (a :: l)).countP (fun e => d e.1 ^^ d e.2) % 2 =
      if d a ^^ d ((a :: l).getLast (by simp)) then 1 else 0 := by
  induction l generalizing a with
  | nil => simp [openEdges]
  | cons b l ih =>
    rw [openEdges, List.countP_cons]
    have h := ih b
    rw [List.getLast_cons (by simp : b :: l ≠ [])]
    simp only at h ⊢
    cases ha : d a <;> cases hb : d b <;> cases hc : d ((b :: l).getLast (by simp)) <;>
      rw [hb, hc] at h <;> simp at h ⊢ <;> omega

theorem changes_closed {α : Type*} (d : α → Bool) (l : List α) :
    (closedEdges l).countP (fun e => d e.1 ^^ d e.2) % 2 = 0 := by
  unfold closedEdges
  cases hl : l.getLast? with
  | none => rfl
  | some z =>
    simp only
    rw [changes_open]
    have hne : l ≠ [] := by rintro rfl; simp at hl
    have : (z :: l).getLast (by simp) = z := by
      rw [List.getLast_cons hne]
      rw [List.getLast?_eq_getLast_of_ne_nil hne] at hl
      exact Option.some.inj hl
    rw [this]; simp

theorem zip_append_one {α : Type*} (a b : α) (l : List α) :
    (a :: l).zip (l ++ [b]) = openEdges (a :: l) ++ [((a :: l).getLast (by simp), b)] := by
  induction l generalizing a with
  | nil => simp [openEdges]
  | cons c l ih =>
    rw [List.cons_append, List.zip_cons_cons, ih c, openEdges, List.getLast_cons (by simp : c :: l ≠ [])]
    rfl

theorem sides_perm {α : Type*} (l : List α) : (closedEdges l).Perm (sides l) := by
  cases l with
  | nil => exact List.Perm.refl _
  | cons a l =>
    unfold sides closedEdges
    rw [List.getLast?_eq_getLast_of_ne_nil (by simp), List.rotate_cons_succ, List.rotate_zero,
      zip_append_one]
    simp only
    rw [openEdges]
    exact (List.perm_append_singleton _ _).symm

open Classical in
theorem sideCount_eq {α : Type*} (l : List α) (φ : α → α → Prop) :
    sideCount l φ = (closedEdges l).countP fun e => decide (φ e.1 e.2) := by
  unfold sideCount
  exact ((sides_perm l).countP_eq _).symm

theorem zip_rotate {α β : Type*} (l : List α) (l' : List β) (n : Nat) (h : l.length = l'.length) :
    (l.zip l').rotate n = (l.rotate n).zip (l'.rotate n) := by
  rw [List.zip_eq_zipWith, List.zip_eq_zipWith, List.zipWith_rotate_distrib _ _ _ _ h]

theorem sides_rotate {α : Type*} (l : List α) (n : Nat) : sides (l.rotate n) = (sides l).rotate n := by
  unfold sides
  rw [zip_rotate _ _ _ (by simp), List.rotate_rotate, List.rotate_rotate, Nat.add_comm]

theorem sides_reverse {α : Type*} (l : List α) : (sides l.reverse).Perm ((sides l).map Prod.swap) := by
  cases l with
  | nil => exact List.Perm.refl _
  | cons a l =>
    unfold sides
    have h1 : (a :: l).reverse.rotate 1 = ((a :: l).rotate l.length).reverse := by
      rw [List.rotate_reverse]
      rcases Nat.eq_zero_or_pos l.length with h | h
      · have : l = [] := List.length_eq_zero_iff.1 h
        subst this; simp
      · rw [List.length_cons, Nat.mod_eq_of_lt (by omega : 1 < l.length + 1), Nat.add_sub_cancel]
    have h2 : (a :: l) = ((a :: l).rotate l.length).rotate 1 := by
      rw [List.rotate_rotate]
      have := List.rotate_length (a :: l)
      rw [List.length_cons] at this
      exact this.symm
    have hrev : (a :: l).reverse.zip ((a :: l).rotate l.length).reverse =
        ((a :: l).zip ((a :: l).rotate l.length)).reverse := by
      rw [List.zip_eq_zipWith, List.zip_eq_zipWith, List.reverse_zipWith (by simp)]
    rw [h1, hrev]
    refine (List.reverse_perm _).trans ?_
    have h3 : (a :: l).zip ((a :: l).rotate l.length) =
        (((a :: l).rotate 1).zip (a :: l)).rotate l.length := by
      rw [zip_rotate _ _ _ (by simp), List.rotate_rotate, Nat.add_comm 1, ← List.rotate_rotate, ← h2]
    rw [h3]
    refine (List.rotate_perm _ _).trans ?_
    rw [List.zip_swap]

theorem odd_countP_perm {α : Type*} {l l' : List α} (h : l.Perm l') (f : α → Bool) :
    Odd (l.countP f) ↔ Odd (l'.countP f) := by
  rw [h.countP_eq]

/-! ## Segments in coordinates -/

theorem onSegment_iff_box (A B P : P2 K) : OnSegment A B P ↔
    area2 A B P = 0 ∧ min A.x B.x ≤ P.x ∧ P.x ≤ max A.x B.x ∧ min A.y B.y ≤ P.y ∧ P.y ≤ max A.y B.y := by
  unfold area2
  constructor
  · rintro ⟨t, h0, h1, rfl⟩
    simp only [P2.add_x, P2.add_y, P2.smul_x, P2.smul_y, P2.sub_x, P2.sub_y]
    refine ⟨by ring, ?_, ?_, ?_, ?_⟩
    · rcases le_total A.x B.x with h | h
      · rw [min_eq_left h]; nlinarith
      · rw [min_eq_right h]; nlinarith
    · rcases le_total A.x B.x with h | h
      · rw [max_eq_right h]; nlinarith
      · rw [max_eq_left h]; nlinarith
    · rcases le_total A.y B.y with h | h
      · rw [min_eq_left h]; nlinarith
      · rw [min_eq_right h]; nlinarith
    · rcases le_total A.y B.y with h | h
      · rw [max_eq_right h]; nlinarith
      · rw [max_eq_left h]; nlinarith
  · rintro ⟨h0, h1, h2, h3, h4⟩
    have frac : ∀ a b p : K, a ≠ b → min a b ≤ p → p ≤ max a b →
        0 ≤ (p - a) / (b - a) ∧ (p - a) / (b - a) ≤ 1 := by
      intro a b p hab hl hu
      rcases lt_or_gt_of_ne hab with h | h
      · rw [min_eq_left h.le] at hl
        rw [max_eq_right h.le] at hu
        exact ⟨div_nonneg (by linarith) (by linarith), (div_le_one (by linarith)).2 (by linarith)⟩
      · rw [min_eq_right h.le] at hl
        rw [max_eq_left h.le] at hu
        exact ⟨div_nonneg_of_nonpos (by linarith) (by linarith),
          (div_le_one_of_neg (by linarith)).2 (by linarith)⟩
    by_cases hx : A.x = B.x
    · by_cases hy : A.y = B.y
      · refine ⟨0, le_refl _, zero_le_one, ?_⟩
        rw [hx, min_self] at h1; rw [hx, max_self] at h2
        rw [hy, min_self] at h3; rw [hy, max_self] at h4
        ext <;> simp <;> linarith
      · obtain ⟨f1, f2⟩ := frac A.y B.y P.y hy h3 h4
        refine ⟨_, f1, f2, ?_⟩
        have hy' : B.y - A.y ≠ 0 := sub_ne_zero.2 (Ne.symm hy)
        ext
        · simp only [P2.add_x, P2.smul_x, P2.sub_x]
          rw [hx, min_self] at h1; rw [hx, max_self] at h2
          rw [hx]; linarith
        · simp only [P2.add_y, P2.smul_y, P2.sub_y]
          field_simp; ring
    · obtain ⟨f1, f2⟩ := frac A.x B.x P.x hx h1 h2
      refine ⟨_, f1, f2, ?_⟩
      have hx' : B.x - A.x ≠ 0 := sub_ne_zero.2 (Ne.symm hx)
      ext
      · simp only [P2.add_x, P2.smul_x, P2.sub_x]
        field_simp; ring
      · simp only [P2.add_y, P2.smul_y, P2.sub_y]
        field_simp; linear_combination h0

theorem onSegment_swap (A B P : P2 K) : OnSegment A B P ↔ OnSegment B A P := by
  rw [onSegment_iff_box, onSegment_iff_box, min_comm, max_comm, min_comm A.y, max_comm A.y]
  have : area2 A B P = 0 ↔ area2 B A P = 0 := by
    unfold area2; constructor <;> intro h <;> linear_combination -h
  rw [this]

theorem crossesRay_swap (A p q : P2 K) : CrossesRay A p q ↔ CrossesRay A q p := by
  unfold CrossesRay
  simp only [onSegment_swap p q]
  rw [or_comm]

theorem segmentsMeet_swap (A B p q : P2 K) : SegmentsMeet A B p q ↔ SegmentsMeet A B q p := by
  unfold SegmentsMeet
  simp only [onSegment_swap p q]

/-- The point of a rising segment at a given height. -/
theorem cutAt {p q : P2 K} {h : K} (hpq : p.y < q.y) (h1 : p.y ≤ h) (h2 : h ≤ q.y) :
    ∃ X : P2 K, X.y = h ∧ OnSegment p q X ∧ (∀ P : P2 K, OnSegment p q P → P.y = h → P = X) ∧
      (∀ P : P2 K, (OnSegment p q P ∧ h ≤ P.y) ↔ OnSegment X q P) ∧
      (∀ P : P2 K, (OnSegment p q P ∧ P.y ≤ h) ↔ OnSegment p X P) ∧
      ∀ R : P2 K, R.y = h → area2 p q R = (q.y - p.y) * (X.x - R.x) := by
  have hd : q.y - p.y ≠ 0 := by intro h; linarith
  have hpos : 0 < q.y - p.y := by linarith
  obtain ⟨s, hs⟩ : ∃ s, s = (h - p.y) / (q.y - p.y) := ⟨_, rfl⟩
  have hs0 : 0 ≤ s := by rw [hs]; exact div_nonneg (by linarith) hpos.le
  have hs1 : s ≤ 1 := by rw [hs]; exact (div_le_one hpos).2 (by linarith)
  have hsh : s * (q.y - p.y) = h - p.y := by rw [hs]; field_simp
  refine ⟨p + s • (q - p), ?_, ⟨s, hs0, hs1, rfl⟩, ?_, ?_, ?_, ?_⟩
  · simp only [P2.add_y, P2.smul_y, P2.sub_y]; linarith
  · rintro P ⟨t, -, -, rfl⟩ hP
    simp only [P2.add_y, P2.smul_y, P2.sub_y] at hP
    have : t = s := by
      have : t * (q.y - p.y) = s * (q.y - p.y) := by linarith
      exact mul_right_cancel₀ hd this
    rw [this]
  · intro P
    constructor
    · rintro ⟨⟨t, h3, h4, rfl⟩, h5⟩
      simp only [P2.add_y, P2.smul_y, P2.sub_y] at h5
      have hst : s ≤ t := by
        have : s * (q.y - p.y) ≤ t * (q.y - p.y) := by linarith
        exact le_of_mul_le_mul_right this hpos
      by_cases hs1' : s = 1
      · have : t = 1 := by linarith
        refine ⟨0, le_refl _, zero_le_one, ?_⟩
        rw [this, hs1']; ext <;> simp
      · have h1s : 0 < 1 - s := by
          rcases lt_or_eq_of_le hs1 with h | h
          · linarith
          · exact absurd h hs1'
        refine ⟨(t - s) / (1 - s), div_nonneg (by linarith) h1s.le, (div_le_one h1s).2 (by linarith), ?_⟩
        have : (t - s) / (1 - s) * (1 - s) = t - s := div_mul_cancel₀ _ h1s.ne'
        ext
        · simp only [P2.add_x, P2.smul_x, P2.sub_x]
          linear_combination -(q.x - p.x) * this
        · simp only [P2.add_y, P2.smul_y, P2.sub_y]
          linear_combination -(q.y - p.y) * this
    · rintro ⟨t, h3, h4, rfl⟩
      refine ⟨⟨s + t * (1 - s), by nlinarith, by nlinarith, ?_⟩, ?_⟩
      · ext
        · simp only [P2.add_x, P2.smul_x, P2.sub_x]; ring
        · simp only [P2.add_y, P2.smul_y, P2.sub_y]; ring
      · simp only [P2.add_y, P2.smul_y, P2.sub_y]
        nlinarith [mul_nonneg h3 (by linarith : (0 : K) ≤ q.y - h)]
  · intro P
    constructor
    · rintro ⟨⟨t, h3, h4, rfl⟩, h5⟩
      simp only [P2.add_y, P2.smul_y, P2.sub_y] at h5
      have hst : t ≤ s := by
        have : t * (q.y - p.y) ≤ s * (q.y - p.y) := by linarith
        exact le_of_mul_le_mul_right this hpos
      by_cases hs0' : s = 0
      · have : t = 0 := by linarith
        refine ⟨0, le_refl _, zero_le_one, ?_⟩
        rw [this]; ext <;> simp
      · have h1s : 0 < s := lt_of_le_of_ne hs0 (Ne.symm hs0')
        refine ⟨t / s, div_nonneg h3 h1s.le, (div_le_one h1s).2 hst, ?_⟩
        have : t / s * s = t := div_mul_cancel₀ _ h1s.ne'
        ext
        · simp only [P2.add_x, P2.smul_x, P2.sub_x]
          linear_combination -(q.x - p.x) * this
        · simp only [P2.add_y, P2.smul_y, P2.sub_y]
          linear_combination -(q.y - p.y) * this
    · rintro ⟨t, h3, h4, rfl⟩
      refine ⟨⟨t * s, by nlinarith, by nlinarith, ?_⟩, ?_⟩
      · ext
        · simp only [P2.add_x, P2.smul_x, P2.sub_x]; ring
        · simp only [P2.add_y, P2.smul_y, P2.sub_y]; ring
      · simp only [P2.add_y, P2.smul_y, P2.sub_y]
        nlinarith
  · intro R hR
    unfold area2
    simp only [P2.add_x, P2.smul_x, P2.sub_x, hR]
    linear_combination -(q.x - p.x) * hsh

theorem crossesRay_iff {A p q : P2 K} (hpq : p.y ≤ q.y) :
    CrossesRay A p q ↔ p.y ≤ A.y ∧ A.y < q.y ∧ 0 < area2 p q A := by
  unfold CrossesRay
  constructor
  · rintro ⟨hor, x, hx, hs⟩
    have h : p.y ≤ A.y ∧ A.y < q.y := by
      rcases hor with h | h
      · exact h
      · exact absurd (lt_of_le_of_lt h.1 h.2) (not_lt.2 hpq)
    obtain ⟨X, hX, -, h1, -, -, h2⟩ := cutAt (h := A.y) (by linarith : p.y < q.y) h.1 h.2.le
    refine ⟨h.1, h.2, ?_⟩
    rw [h2 A rfl, ← h1 _ hs rfl]
    exact mul_pos (by linarith) (by simp only; linarith)
  · rintro ⟨h1, h2, h3⟩
    obtain ⟨X, hX, h4, -, -, -, h5⟩ := cutAt (h := A.y) (by linarith : p.y < q.y) h1 h2.le
    rw [h5 A rfl] at h3
    have := pos_of_mul_pos_right h3 (by linarith : (0 : K) ≤ q.y - p.y)
    refine ⟨Or.inl ⟨h1, h2⟩, X.x, by linarith, ?_⟩
    have : X = ⟨X.x, A.y⟩ := by ext <;> simp [hX]
    rw [← this]; exact h4

theorem rayEdge_iff (A u0 u1 : P2 K) : rayEdge A u0 u1 = true ↔ CrossesRay A u1 u0 := by
  unfold rayEdge
  by_cases h1 : A.y < u1.y
  · rw [if_pos h1]
    by_cases h2 : u0.y ≤ A.y
    · rw [if_pos h2, crossesRay_swap, crossesRay_iff (by linarith), decide_eq_true_eq]
      unfold area2
      constructor
      · intro h; exact ⟨h2, h1, by linarith⟩
      · rintro ⟨-, -, h⟩; linarith
    · rw [if_neg h2]
      simp only [Bool.false_eq_true, false_iff]
      rintro ⟨h | h, -⟩ <;> linarith [h.1, h.2]
  · rw [if_neg h1]
    by_cases h2 : A.y < u0.y
    · rw [if_pos h2, crossesRay_iff (by linarith), decide_eq_true_eq]
      unfold area2
      constructor
      · intro h; exact ⟨by linarith, h2, by linarith⟩
      · rintro ⟨-, -, h⟩; linarith
    · rw [if_neg h2]
      simp only [Bool.false_eq_true, false_iff]
      rintro ⟨h | h, -⟩ <;> linarith [h.1, h.2]

theorem pipLoop_eq (A : P2 K) (l : List (P2 K × P2 K)) (b : Bool) :
    pipLoop A l b = (b ^^ decide (Odd (l.countP fun e => rayEdge A e.2 e.1))) := by
  induction l generalizing b with
  | nil => simp [pipLoop]
  | cons e l ih =>
    obtain ⟨u1, u0⟩ := e
    rw [pipLoop, ih, List.countP_cons]
    cases rayEdge A u0 u1
    · simp
    · simp only [if_true, Nat.odd_add_one, decide_not, Bool.not_xor, Bool.xor_not]

theorem pointInPolygon_iff (A : P2 K) (poly : List (P2 K)) :
    pointInPolygon A poly = true ↔ Odd (sideCount poly (CrossesRay A)) := by
  classical
  rw [sideCount_eq]
  have hfun : (fun e : P2 K × P2 K => decide (CrossesRay A e.1 e.2)) = fun e => rayEdge A e.2 e.1 := by
    funext e
    rw [Bool.eq_iff_iff, decide_eq_true_eq, rayEdge_iff]
  unfold pointInPolygon
  by_cases h : poly.length < 3
  · rw [if_pos h]
    simp only [Bool.false_eq_true, false_iff]
    match poly, h with
    | [], _ => simp [closedEdges]
    | [a], _ =>
      simp only [closedEdges, List.getLast?_singleton, openEdges, List.countP_cons, List.countP_nil]
      rw [if_neg]
      · simp
      · rw [decide_eq_true_eq]
        rintro ⟨h | h, -⟩ <;> linarith [h.1, h.2]
    | [a, b], _ =>
      simp only [closedEdges, List.getLast?_cons_cons, List.getLast?_singleton, openEdges,
        List.countP_cons, List.countP_nil]
      simp only [crossesRay_swap A b a]
      split_ifs <;> decide
  · rw [if_neg h, pipLoop_eq, hfun]
    simp

/-! ## Moving the point -/

/-- A segment inside the horizontal strip between `A` and `B` with no end on the line `A B`. -/
theorem meet_strip {A B p q : P2 K} (hAB : A.y < B.y) (hp1 : A.y ≤ p.y) (hp2 : p.y ≤ B.y)
    (hq1 : A.y ≤ q.y) (hq2 : q.y ≤ B.y) (hp : area2 A B p ≠ 0) (hq : area2 A B q ≠ 0) :
    SegmentsMeet A B p q ↔ ¬ (area2 A B p < 0 ↔ area2 A B q < 0) := by
  constructor
  · rintro ⟨P, h1, t, h2, h3, rfl⟩
    have h0 := ((onSegment_iff_box A B _).1 h1).1
    have : area2 A B (p + t • (q - p)) = (1 - t) * area2 A B p + t * area2 A B q := by
      unfold area2; simp only [P2.add_x, P2.add_y, P2.smul_x, P2.smul_y, P2.sub_x, P2.sub_y]; ring
    rw [this] at h0
    intro hiff
    rcases lt_or_gt_of_ne hp with h | h
    · have h' := hiff.1 h
      rcases eq_or_lt_of_le h2 with h4 | h4
      · rw [← h4] at h0; apply hp; linarith
      · nlinarith [mul_pos_of_neg_of_neg h (by linarith : -1 < (0:K))]
    · have h' : 0 < area2 A B q := by
        rcases lt_or_gt_of_ne hq with h5 | h5
        · exact absurd (hiff.2 h5) (not_lt.2 h.le)
        · exact h5
      rcases eq_or_lt_of_le h2 with h4 | h4
      · rw [← h4] at h0; apply hp; linarith
      · nlinarith
  · intro hne
    have hsub : area2 A B p - area2 A B q ≠ 0 := by
      intro h
      apply hne
      rw [sub_eq_zero.1 h]
    obtain ⟨t, ht⟩ : ∃ t, t = area2 A B p / (area2 A B p - area2 A B q) := ⟨_, rfl⟩
    have ht' : t * (area2 A B p - area2 A B q) = area2 A B p := by
      rw [ht]; exact div_mul_cancel₀ _ hsub
    have h01 : 0 ≤ t ∧ t ≤ 1 := by
      rcases lt_or_gt_of_ne hp with h | h
      · have h' : 0 < area2 A B q := by
          rcases lt_or_gt_of_ne hq with h5 | h5
          · exact absurd ⟨fun _ => h5, fun _ => h⟩ hne
          · exact h5
        rw [ht]
        exact ⟨div_nonneg_of_nonpos h.le (by linarith), (div_le_one_of_neg (by linarith)).2 (by linarith)⟩
      · have h' : area2 A B q < 0 := by
          rcases lt_or_gt_of_ne hq with h5 | h5
          · exact h5
          · exact absurd ⟨fun h6 => absurd h6 (not_lt.2 h.le), fun h6 => absurd h6 (not_lt.2 h5.le)⟩ hne
        rw [ht]
        exact ⟨div_nonneg h.le (by linarith), (div_le_one (by linarith)).2 (by linarith)⟩
    refine ⟨p + t • (q - p), ?_, t, h01.1, h01.2, rfl⟩
    have hd : B.y - A.y ≠ 0 := by intro h; linarith
    have hpos : 0 < B.y - A.y := by linarith
    have hy1 : A.y ≤ p.y + t * (q.y - p.y) := by
      nlinarith [mul_nonneg h01.1 (sub_nonneg.2 hq1), mul_nonneg (sub_nonneg.2 h01.2) (sub_nonneg.2 hp1)]
    have hy2 : p.y + t * (q.y - p.y) ≤ B.y := by
      nlinarith [mul_nonneg h01.1 (sub_nonneg.2 hq2), mul_nonneg (sub_nonneg.2 h01.2) (sub_nonneg.2 hp2)]
    refine ⟨(p.y + t * (q.y - p.y) - A.y) / (B.y - A.y), div_nonneg (by linarith) hpos.le,
      (div_le_one hpos).2 (by linarith), ?_⟩
    have hc : (p.y + t * (q.y - p.y) - A.y) / (B.y - A.y) * (B.y - A.y) =
        p.y + t * (q.y - p.y) - A.y := div_mul_cancel₀ _ hd
    ext
    · simp only [P2.add_x, P2.smul_x, P2.sub_x]
      have : (p.x + t * (q.x - p.x) - A.x) * (B.y - A.y) =
          (B.x - A.x) * (p.y + t * (q.y - p.y) - A.y) := by
        unfold area2 at ht'
        linear_combination ht'
      apply mul_right_cancel₀ hd
      linear_combination this - (B.x - A.x) * hc
    · simp only [P2.add_y, P2.smul_y, P2.sub_y]
      linear_combination -hc

/-- A vertex at a height between `A` and `B` that is to the right of the segment. -/
def RightOf (A B v : P2 K) : Prop := A.y < v.y ∧ v.y ≤ B.y ∧ area2 A B v < 0

theorem strip_area_ne {A B v : P2 K} (hAB : A.y < B.y) (h1 : A.y ≤ v.y) (h2 : v.y ≤ B.y)
    (hv : ¬ OnSegment A B v) : area2 A B v ≠ 0 := by
  intro h0
  apply hv
  have hd : B.y - A.y ≠ 0 := by intro h; linarith
  have hpos : 0 < B.y - A.y := by linarith
  refine ⟨(v.y - A.y) / (B.y - A.y), div_nonneg (by linarith) hpos.le,
      (div_le_one hpos).2 (by linarith), ?_⟩
  have hc : (v.y - A.y) / (B.y - A.y) * (B.y - A.y) = v.y - A.y := div_mul_cancel₀ _ hd
  unfold area2 at h0
  ext
  · simp only [P2.add_x, P2.smul_x, P2.sub_x]
    apply mul_right_cancel₀ hd
    linear_combination -h0 - (B.x - A.x) * hc
  · simp only [P2.add_y, P2.smul_y, P2.sub_y]
    linear_combination -hc

theorem onSegment_y {A B P : P2 K} (h : A.y ≤ B.y) (hP : OnSegment A B P) : A.y ≤ P.y ∧ P.y ≤ B.y := by
  have := (onSegment_iff_box A B P).1 hP
  rw [min_eq_left h, max_eq_right h] at this
  exact ⟨this.2.2.2.1, this.2.2.2.2⟩

theorem onSegment_left (A B : P2 K) : OnSegment A B A :=
  ⟨0, le_refl _, zero_le_one, by ext <;> simp⟩

theorem onSegment_right (A B : P2 K) : OnSegment A B B :=
  ⟨1, zero_le_one, le_refl _, by ext <;> simp⟩

/-- One side of the polygon when the point moves up, for a side that does not fall. -/
theorem edge_move_up {A B p q : P2 K} (hAB : A.y < B.y) (hpq : p.y ≤ q.y) (hp : ¬ OnSegment A B p)
    (hq : ¬ OnSegment A B q) (hA : ¬ OnSegment p q A) (hB : ¬ OnSegment p q B) :
    Xor (Xor (CrossesRay A p q) (CrossesRay B p q)) (SegmentsMeet A B p q) ↔
      Xor (RightOf A B p) (RightOf A B q) := by
  rw [crossesRay_iff hpq, crossesRay_iff hpq]
  unfold RightOf
  have areaA : ∀ X : P2 K, X.y = A.y → area2 A B X = -((B.y - A.y) * (X.x - A.x)) := by
    intro X h; unfold area2; rw [h]; ring
  have areaB : ∀ X : P2 K, X.y = B.y → area2 A B X = -((B.y - A.y) * (X.x - B.x)) := by
    intro X h; unfold area2; rw [h]; ring
  have hpos : 0 < B.y - A.y := by linarith
  by_cases hqA : q.y ≤ A.y
  · -- the side is not above `A`
    have hno : ¬ SegmentsMeet A B p q := by
      rintro ⟨P, h1, h2⟩
      have h3 := onSegment_y hAB.le h1
      have h4 := onSegment_y hpq h2
      have hPy : P.y = A.y := by linarith
      have : P = A := by
        obtain ⟨t, ht0, ht1, rfl⟩ := h1
        simp only [P2.add_y, P2.smul_y, P2.sub_y] at hPy
        have : t * (B.y - A.y) = 0 := by linarith
        rcases mul_eq_zero.1 this with h | h
        · rw [h]; ext <;> simp
        · linarith
      exact hA (this ▸ h2)
    have e1 : ¬ (A.y < q.y) := by linarith
    have e2 : ¬ (B.y < q.y) := by linarith
    have e3 : ¬ (A.y < p.y) := by linarith
    simp only [Xor, hno, e1, e2, e3, false_and, and_false, not_false_eq_true, or_self]
  · push Not at hqA
    by_cases hpB : B.y < p.y
    · have hno : ¬ SegmentsMeet A B p q := by
        rintro ⟨P, h1, h2⟩
        have h3 := onSegment_y hAB.le h1
        have h4 := onSegment_y hpq h2
        linarith
      have e1 : ¬ (p.y ≤ A.y) := by linarith
      have e2 : ¬ (p.y ≤ B.y) := by linarith
      have e3 : ¬ (q.y ≤ B.y) := by linarith
      simp only [Xor, hno, e1, e2, e3, false_and, and_false, not_false_eq_true, or_self]
    · push Not at hpB
      -- clip the lower end
      obtain ⟨p', hp'1, hp'2, hp'0, hp'm, hp'r⟩ : ∃ p' : P2 K, A.y ≤ p'.y ∧ p'.y ≤ B.y ∧
          area2 A B p' ≠ 0 ∧ (∀ P : P2 K, A.y ≤ P.y → (OnSegment p q P ↔ OnSegment p' q P)) ∧
          (area2 A B p' < 0 ↔ ((p.y ≤ A.y ∧ 0 < area2 p q A) ∨ (A.y < p.y ∧ area2 A B p < 0))) := by
        by_cases hpA : p.y ≤ A.y
        · obtain ⟨X, hX, h1, h2, h3, -, h5⟩ := cutAt (h := A.y) (by linarith : p.y < q.y) hpA hqA.le
          have hne : X.x - A.x ≠ 0 := by
            intro h
            apply hA
            have : X = A := by ext; linarith; exact hX
            exact this ▸ h1
          refine ⟨X, hX.ge, by linarith, ?_, fun P hP => ?_, ?_⟩
          · rw [areaA X hX]; exact neg_ne_zero.2 (mul_ne_zero hpos.ne' hne)
          · rw [← h3 P]; simp [hP]
          · rw [areaA X hX, h5 A rfl]
            have hqp : 0 < q.y - p.y := by linarith
            constructor
            · intro h
              left; refine ⟨hpA, mul_pos hqp ?_⟩
              have : 0 < (B.y - A.y) * (X.x - A.x) := by linarith
              exact pos_of_mul_pos_right this hpos.le
            · rintro (⟨-, h⟩ | ⟨h, -⟩)
              · have := pos_of_mul_pos_right h hqp.le
                have := mul_pos hpos this
                linarith
              · linarith
        · push Not at hpA
          refine ⟨p, hpA.le, hpB, strip_area_ne hAB hpA.le hpB hp, fun _ _ => Iff.rfl, ?_⟩
          constructor
          · intro h; exact Or.inr ⟨hpA, h⟩
          · rintro (⟨h, -⟩ | ⟨-, h⟩)
            · linarith
            · exact h
      obtain ⟨q', hq'1, hq'2, hq'0, hq'm, hq'r⟩ : ∃ q' : P2 K, A.y ≤ q'.y ∧ q'.y ≤ B.y ∧
          area2 A B q' ≠ 0 ∧ (∀ P : P2 K, P.y ≤ B.y → (OnSegment p' q P ↔ OnSegment p' q' P)) ∧
          (area2 A B q' < 0 ↔ ((B.y < q.y ∧ 0 < area2 p q B) ∨ (q.y ≤ B.y ∧ area2 A B q < 0))) := by
        by_cases hqB : B.y < q.y
        · obtain ⟨X, hX, h1, h2, -, h4, h5⟩ := cutAt (h := B.y) (by linarith : p.y < q.y) hpB hqB.le
          obtain ⟨X', hX', h1', h2', -, h4', h5'⟩ :=
            cutAt (h := B.y) (by linarith : p'.y < q.y) hp'2 hqB.le
          have hXX : X' = X := h2 X' ((hp'm X' (by linarith)).2 h1') hX'
          subst hXX
          have hne : X'.x - B.x ≠ 0 := by
            intro h
            apply hB
            have : X' = B := by ext; linarith; exact hX
            exact this ▸ h1
          refine ⟨X', by linarith, by linarith, ?_, fun P hP => ?_, ?_⟩
          · rw [areaB X' hX]; exact neg_ne_zero.2 (mul_ne_zero hpos.ne' hne)
          · rw [← h4' P]; simp [hP]
          · rw [areaB X' hX, h5 B rfl]
            have hqp : 0 < q.y - p.y := by linarith
            constructor
            · intro h
              left; refine ⟨hqB, mul_pos hqp ?_⟩
              have : 0 < (B.y - A.y) * (X'.x - B.x) := by linarith
              exact pos_of_mul_pos_right this hpos.le
            · rintro (⟨-, h⟩ | ⟨h, -⟩)
              · have := pos_of_mul_pos_right h hqp.le
                have := mul_pos hpos this
                linarith
              · linarith
        · push Not at hqB
          refine ⟨q, hqA.le, hqB, strip_area_ne hAB hqA.le hqB hq, fun _ _ => Iff.rfl, ?_⟩
          constructor
          · intro h; exact Or.inr ⟨hqB, h⟩
          · rintro (⟨h, -⟩ | ⟨-, h⟩)
            · linarith
            · exact h
      have hmeet : SegmentsMeet A B p q ↔ ¬ (area2 A B p' < 0 ↔ area2 A B q' < 0) := by
        rw [← meet_strip hAB hp'1 hp'2 hq'1 hq'2 hp'0 hq'0]
        unfold SegmentsMeet
        constructor
        · rintro ⟨P, h1, h2⟩
          have h3 := onSegment_y hAB.le h1
          exact ⟨P, h1, (hq'm P h3.2).1 ((hp'm P h3.1).1 h2)⟩
        · rintro ⟨P, h1, h2⟩
          have h3 := onSegment_y hAB.le h1
          exact ⟨P, h1, (hp'm P h3.1).2 ((hq'm P h3.2).2 h2)⟩
      rw [hmeet, hp'r, hq'r]
      have e1 : A.y < p.y ↔ ¬ p.y ≤ A.y := not_le.symm
      have e2 : B.y < q.y ↔ ¬ q.y ≤ B.y := not_le.symm
      simp only [hqA, hpB, e1, e2, true_and]
      generalize (p.y ≤ A.y) = a
      generalize (q.y ≤ B.y) = b
      generalize (0 < area2 p q A) = c
      generalize (0 < area2 p q B) = d
      generalize (area2 A B p < 0) = e
      generalize (area2 A B q < 0) = f
      unfold Xor
      by_cases a <;> by_cases b <;> by_cases c <;> by_cases d <;> by_cases e <;> by_cases f <;> simp [*]

theorem onSegment_level {A B P : P2 K} (h : A.y = B.y) : OnSegment A B P ↔
    P.y = A.y ∧ min A.x B.x ≤ P.x ∧ P.x ≤ max A.x B.x := by
  rw [onSegment_iff_box, h, min_self, max_self]
  unfold area2
  rw [h]
  constructor
  · rintro ⟨-, h1, h2, h3, h4⟩; exact ⟨le_antisymm h4 h3, h1, h2⟩
  · rintro ⟨h1, h2, h3⟩; exact ⟨by rw [h1]; ring, h2, h3, h1.ge, h1.le⟩

/-- One side of the polygon when the point moves along its level, for a side that does not fall. -/
theorem edge_move_level {A B p q : P2 K} (hAB : A.y = B.y) (hpq : p.y ≤ q.y) (hp : ¬ OnSegment A B p)
    (hq : ¬ OnSegment A B q) (hA : ¬ OnSegment p q A) (hB : ¬ OnSegment p q B) :
    Xor (Xor (CrossesRay A p q) (CrossesRay B p q)) (SegmentsMeet A B p q) ↔ False := by
  rw [crossesRay_iff hpq, crossesRay_iff hpq, ← hAB]
  by_cases hst : p.y ≤ A.y ∧ A.y < q.y
  · obtain ⟨X, hX, h1, h2, -, -, h5⟩ := cutAt (h := A.y) (by linarith : p.y < q.y) hst.1 hst.2.le
    have hqp : 0 < q.y - p.y := by linarith
    have sgn : ∀ R : P2 K, R.y = A.y → (0 < area2 p q R ↔ R.x < X.x) := by
      intro R hR
      rw [h5 R hR]
      constructor
      · intro h; have := pos_of_mul_pos_right h hqp.le; linarith
      · intro h; exact mul_pos hqp (by linarith)
    rw [sgn A rfl, sgn B hAB.symm]
    have hXA : X.x ≠ A.x := by
      intro h; apply hA
      have : X = A := by ext; exact h; exact hX
      exact this ▸ h1
    have hXB : X.x ≠ B.x := by
      intro h; apply hB
      have : X = B := by ext; exact h; exact hX.trans hAB
      exact this ▸ h1
    have hm : SegmentsMeet A B p q ↔ min A.x B.x ≤ X.x ∧ X.x ≤ max A.x B.x := by
      unfold SegmentsMeet
      constructor
      · rintro ⟨P, h3, h4⟩
        rw [onSegment_level hAB] at h3
        have := h2 P h4 h3.1
        rw [← this]; exact h3.2
      · intro h; exact ⟨X, (onSegment_level hAB).2 ⟨hX, h⟩, h1⟩
    rw [hm]
    simp only [hst.1, hst.2, true_and]
    unfold Xor
    rcases le_total A.x B.x with h | h
    · rw [min_eq_left h, max_eq_right h]
      rcases lt_or_gt_of_ne hXA with h6 | h6 <;> rcases lt_or_gt_of_ne hXB with h7 | h7
      · simp [not_lt.2 h6.le, not_lt.2 h7.le, not_le.2 h6]
      · exact absurd (lt_trans (lt_of_lt_of_le h6 h) h7) (lt_irrefl _)
      · simp [h6, not_lt.2 h7.le, h6.le, h7.le]
      · simp [h6, h7, not_le.2 h7]
    · rw [min_eq_right h, max_eq_left h]
      rcases lt_or_gt_of_ne hXA with h6 | h6 <;> rcases lt_or_gt_of_ne hXB with h7 | h7
      · simp [not_lt.2 h6.le, not_lt.2 h7.le, not_le.2 h7]
      · simp [not_lt.2 h6.le, h7, h6.le, h7.le]
      · exact absurd (lt_trans (lt_of_lt_of_le h7 h) h6) (lt_irrefl _)
      · simp [h6, h7, not_le.2 h6]
  · have hno : ¬ SegmentsMeet A B p q := by
      rintro ⟨P, h1, h2⟩
      have h1' := (onSegment_level hAB).1 h1
      have h4 := onSegment_y hpq h2
      have hqA : q.y ≤ A.y := by
        by_contra hc
        exact hst ⟨by linarith [h1'.1], not_le.1 hc⟩
      have hqA' : q.y = A.y := by linarith [h1'.1]
      by_cases hpA : p.y = A.y
      · have h2' := (onSegment_level (hpA.trans hqA'.symm)).1 h2
        rw [onSegment_level hAB] at hp hq
        rw [onSegment_level (hpA.trans hqA'.symm)] at hA hB
        simp only [hpA, hqA', ← hAB, true_and, not_and_or, not_le, lt_min_iff, max_lt_iff] at hp hq hA hB
        have h3 := h1'.2
        have h5 := h2'.2
        rw [min_le_iff, le_max_iff] at h3 h5
        grind
      · have hlt : p.y < q.y := lt_of_le_of_ne hpq (by rw [hqA']; exact hpA)
        obtain ⟨X, -, h5, h6, -⟩ := cutAt (h := q.y) hlt hlt.le (le_refl _)
        have e1 : P = X := h6 P h2 (by linarith [h1'.1])
        have e2 : q = X := h6 q (onSegment_right p q) rfl
        exact hq (by rw [e2, ← e1]; exact h1)
    unfold Xor
    have e : ∀ r : Prop, (p.y ≤ A.y ∧ A.y < q.y ∧ r) ↔ False := by
      intro r
      constructor
      · rintro ⟨a, b, -⟩; exact hst ⟨a, b⟩
      · exact False.elim
    simp only [e, hno, false_and, and_false, not_false_eq_true, or_self]

theorem segmentsMeet_swap' (A B p q : P2 K) : SegmentsMeet A B p q ↔ SegmentsMeet B A p q := by
  unfold SegmentsMeet
  simp only [onSegment_swap A B]

theorem edge_move {A B p q : P2 K} (hAB : A.y ≤ B.y) (hp : ¬ OnSegment A B p)
    (hq : ¬ OnSegment A B q) (hA : ¬ OnSegment p q A) (hB : ¬ OnSegment p q B) :
    Xor (Xor (CrossesRay A p q) (CrossesRay B p q)) (SegmentsMeet A B p q) ↔
      Xor (RightOf A B p) (RightOf A B q) := by
  rcases lt_or_eq_of_le hAB with h | h
  · rcases le_total p.y q.y with h' | h'
    · exact edge_move_up h h' hp hq hA hB
    · rw [crossesRay_swap A, crossesRay_swap B, segmentsMeet_swap, xor_comm (RightOf A B p)]
      rw [onSegment_swap] at hA hB
      exact edge_move_up h h' hq hp hA hB
  · have hr : ∀ v, ¬ RightOf A B v := by
      rintro v ⟨h1, h2, -⟩; linarith
    have : Xor (RightOf A B p) (RightOf A B q) ↔ False := by
      unfold Xor; simp [hr]
    rw [this]
    rcases le_total p.y q.y with h' | h'
    · exact edge_move_level h h' hp hq hA hB
    · rw [crossesRay_swap A, crossesRay_swap B, segmentsMeet_swap]
      rw [onSegment_swap] at hA hB
      exact edge_move_level h h' hq hp hA hB

theorem mem_sides_iff (poly : List (P2 K)) (e : P2 K × P2 K) :
    e ∈ sides poly ↔ ∃ i, IsPolygonEdge poly i e.1 e.2 := by
  unfold sides IsPolygonEdge
  rw [List.mem_iff_getElem?]
  constructor
  · rintro ⟨i, hi⟩
    rw [List.getElem?_zip_eq_some] at hi
    have hlt : i < poly.length := by
      by_contra hc
      rw [List.getElem?_eq_none (by omega)] at hi
      simp at hi
    rw [List.getElem?_rotate hlt] at hi
    exact ⟨i, hi⟩
  · rintro ⟨i, hi⟩
    refine ⟨i, ?_⟩
    have hlt : i < poly.length := by
      by_contra hc
      rw [List.getElem?_eq_none (by omega)] at hi
      simp at hi
    rw [List.getElem?_zip_eq_some, List.getElem?_rotate hlt]
    exact hi

theorem vertex_of_side {poly : List (P2 K)} {e : P2 K × P2 K} (he : e ∈ sides poly) :
    e.1 ∈ poly ∧ e.2 ∈ poly := by
  obtain ⟨i, h1, h2⟩ := (mem_sides_iff poly e).1 he
  exact ⟨List.mem_of_getElem? h1, List.mem_of_getElem? h2⟩

theorem crossing_parity {A B : P2 K} {poly : List (P2 K)} (hAB : A.y ≤ B.y)
    (hv : ∀ v ∈ poly, ¬ OnSegment A B v) (hA : ¬ OnBoundary poly A) (hB : ¬ OnBoundary poly B) :
    ¬ (Odd (sideCount poly (CrossesRay A)) ↔ Odd (sideCount poly (CrossesRay B))) ↔
      Odd (sideCount poly (SegmentsMeet A B)) := by
  classical
  have key := changes_closed (fun v => decide (RightOf A B v)) poly
  have hcongr : (closedEdges poly).countP (fun e => decide (RightOf A B e.1) ^^ decide (RightOf A B e.2)) =
      (closedEdges poly).countP (fun e => (decide (CrossesRay A e.1 e.2) ^^ decide (CrossesRay B e.1 e.2))
        ^^ decide (SegmentsMeet A B e.1 e.2)) := by
    apply List.countP_congr
    intro e he
    have he' := (sides_perm poly).mem_iff.1 he
    obtain ⟨h1, h2⟩ := vertex_of_side he'
    obtain ⟨i, hi⟩ := (mem_sides_iff poly e).1 he'
    have := edge_move hAB (hv _ h1) (hv _ h2) (fun h => hA ⟨i, _, _, hi, h⟩) (fun h => hB ⟨i, _, _, hi, h⟩)
    unfold Xor at this
    by_cases a1 : CrossesRay A e.1 e.2 <;> by_cases a2 : CrossesRay B e.1 e.2 <;>
      by_cases a3 : SegmentsMeet A B e.1 e.2 <;> by_cases a4 : RightOf A B e.1 <;>
      by_cases a5 : RightOf A B e.2 <;> simp [a1, a2, a3, a4, a5] at this ⊢
  rw [hcongr, countP_xor, Nat.add_mod, countP_xor] at key
  rw [sideCount_eq, sideCount_eq, sideCount_eq, Nat.odd_iff, Nat.odd_iff, Nat.odd_iff]
  omega

theorem crossing_parity' {A B : P2 K} {poly : List (P2 K)}
    (hv : ∀ v ∈ poly, ¬ OnSegment A B v) (hA : ¬ OnBoundary poly A) (hB : ¬ OnBoundary poly B) :
    ¬ (Odd (sideCount poly (CrossesRay A)) ↔ Odd (sideCount poly (CrossesRay B))) ↔
      Odd (sideCount poly (SegmentsMeet A B)) := by
  rcases le_total A.y B.y with h | h
  · exact crossing_parity h hv hA hB
  · have h1 : SegmentsMeet A B = SegmentsMeet B A := by
      funext p q; exact propext (segmentsMeet_swap' A B p q)
    rw [h1, ← crossing_parity h (fun v h2 => by rw [onSegment_swap]; exact hv v h2) hB hA]
    exact not_congr iff_comm

/-! ## The classifying version -/

/-- The segment from `p` to `q` crosses the ray that goes from `A` to the left; an end point at the
height of `A` counts as above it. -/
def CrossesLeft (A p q : P2 K) : Prop :=
  (p.y < A.y ∧ A.y ≤ q.y ∨ q.y < A.y ∧ A.y ≤ p.y) ∧ ∃ x, x < A.x ∧ OnSegment p q ⟨x, A.y⟩

theorem crossesLeft_swap (A p q : P2 K) : CrossesLeft A p q ↔ CrossesLeft A q p := by
  unfold CrossesLeft
  simp only [onSegment_swap p q]
  rw [or_comm]

theorem crossesLeft_iff {A p q : P2 K} (hpq : p.y ≤ q.y) :
    CrossesLeft A p q ↔ p.y < A.y ∧ A.y ≤ q.y ∧ area2 p q A < 0 := by
  unfold CrossesLeft
  constructor
  · rintro ⟨hor, x, hx, hs⟩
    have h : p.y < A.y ∧ A.y ≤ q.y := by
      rcases hor with h | h
      · exact h
      · exact absurd (lt_of_lt_of_le h.1 h.2) (not_lt.2 hpq)
    obtain ⟨X, hX, -, h1, -, -, h2⟩ := cutAt (h := A.y) (by linarith : p.y < q.y) h.1.le h.2
    refine ⟨h.1, h.2, ?_⟩
    rw [h2 A rfl, ← h1 _ hs rfl]
    exact mul_neg_of_pos_of_neg (by linarith) (by simp only; linarith)
  · rintro ⟨h1, h2, h3⟩
    obtain ⟨X, hX, h4, -, -, -, h5⟩ := cutAt (h := A.y) (by linarith : p.y < q.y) h1.le h2
    rw [h5 A rfl] at h3
    have := neg_of_mul_neg_right h3 (by linarith : (0 : K) ≤ q.y - p.y)
    refine ⟨Or.inl ⟨h1, h2⟩, X.x, by linarith, ?_⟩
    have : X = ⟨X.x, A.y⟩ := by ext <;> simp [hX]
    rw [← this]; exact h4

/-- Above `A`, or at its height and left of it. -/
def UpperLeft (A v : P2 K) : Prop := A.y < v.y ∨ (v.y = A.y ∧ v.x < A.x)

theorem edge_border_up {A p q : P2 K} (hpq : p.y ≤ q.y) (hp : p ≠ A) (hq : q ≠ A) :
    Xor (Xor (CrossesRay A p q) (CrossesLeft A p q)) (OnSegment p q A) ↔
      Xor (UpperLeft A p) (UpperLeft A q) := by
  rw [crossesRay_iff hpq, crossesLeft_iff hpq]
  unfold UpperLeft
  by_cases hlow : q.y < A.y
  · have hon : ¬ OnSegment p q A := fun h => by linarith [(onSegment_y hpq h).2]
    have e1 : ¬ A.y < q.y := by linarith
    have e2 : ¬ A.y ≤ q.y := by linarith
    have e3 : ¬ A.y < p.y := by linarith
    have e4 : p.y ≠ A.y := by intro h; linarith
    have e5 : q.y ≠ A.y := by intro h; linarith
    simp [Xor, hon, e1, e2, e3, e4, e5]
  · push Not at hlow
    by_cases hhigh : A.y < p.y
    · have hon : ¬ OnSegment p q A := fun h => by linarith [(onSegment_y hpq h).1]
      have e1 : A.y < q.y := by linarith
      have e2 : ¬ p.y ≤ A.y := by linarith
      have e3 : ¬ p.y < A.y := by linarith
      simp [Xor, hon, e1, e2, e3, hhigh]
    · push Not at hhigh
      rcases lt_or_eq_of_le hpq with hlt | heq
      · obtain ⟨X, hX, h1, h2, -, -, h5⟩ := cutAt (h := A.y) hlt hhigh hlow
        have hqp : 0 < q.y - p.y := by linarith
        have e0 : 0 < area2 p q A ↔ A.x < X.x := by
          rw [h5 A rfl]
          constructor
          · intro h; have := pos_of_mul_pos_right h hqp.le; linarith
          · intro h; exact mul_pos hqp (by linarith)
        have e0' : area2 p q A < 0 ↔ X.x < A.x := by
          rw [h5 A rfl]
          constructor
          · intro h; have := neg_of_mul_neg_right h hqp.le; linarith
          · intro h; exact mul_neg_of_pos_of_neg hqp (by linarith)
        have eon : OnSegment p q A ↔ X.x = A.x := by
          constructor
          · intro h; rw [h2 A h rfl]
          · intro h
            have : X = A := by ext; exact h; exact hX
            exact this ▸ h1
        rw [e0, e0', eon]
        rcases lt_or_eq_of_le hhigh with hpl | hpe
        · rcases lt_or_eq_of_le hlow with hql | hqe
          · have n1 : ¬ A.y < p.y := by linarith
            have n2 : p.y ≠ A.y := by intro h; linarith
            simp only [hhigh, hql, hpl, hlow, n1, n2, true_and, false_and, true_or, or_self]
            rcases lt_trichotomy X.x A.x with h | h | h
            · simp [Xor, h, h.ne, not_lt.2 h.le]
            · simp [Xor, h]
            · simp [Xor, h, h.ne', not_lt.2 h.le]
          · -- `q` is at the height of `A`
            have hXq : q = X := h2 q (onSegment_right p q) hqe.symm
            have n1 : ¬ A.y < p.y := by linarith
            have n2 : p.y ≠ A.y := by intro h; linarith
            have n3 : ¬ A.y < q.y := by linarith
            have n4 : q.x ≠ A.x := by
              intro h; apply hq; ext; exact h; exact hqe.symm
            simp only [n1, n2, n3, hpl, hlow, hqe.symm, ← hXq, true_and, false_and, and_false, or_self]
            simp [Xor, n4]
        · have hXp : p = X := h2 p (onSegment_left p q) hpe
          have n1 : ¬ A.y < p.y := by linarith
          have n2 : ¬ p.y < A.y := by linarith
          have n3 : A.y < q.y := by linarith
          have n4 : p.x ≠ A.x := by
            intro h; apply hp; ext; exact h; exact hpe
          simp only [n1, n2, n3, hpe, hlow, ← hXp, true_and, false_and, le_refl, or_false, false_or, true_or]
          rcases lt_or_gt_of_ne n4 with h | h
          · simp [Xor, h, h.ne, not_lt.2 h.le]
          · simp [Xor, h, h.ne', not_lt.2 h.le]
      · have hpA : p.y = A.y := by linarith
        have hqA : q.y = A.y := by linarith
        have n4 : p.x ≠ A.x := by
          intro h; apply hp; ext; exact h; exact hpA
        have n5 : q.x ≠ A.x := by
          intro h; apply hq; ext; exact h; exact hqA
        rw [onSegment_level heq, min_le_iff, le_max_iff]
        simp only [hpA, hqA, lt_irrefl, false_and, and_false, true_and, false_or]
        rcases lt_or_gt_of_ne n4 with h | h <;> rcases lt_or_gt_of_ne n5 with h' | h'
        · simp [Xor, h, h', h.le, h'.le, not_le.2 h, not_le.2 h']
        · simp [Xor, h, h'.le, h.le, not_lt.2 h'.le, not_le.2 h']
        · simp [Xor, h', h'.le, h.le, not_lt.2 h.le, not_le.2 h]
        · simp [Xor, not_lt.2 h.le, not_lt.2 h'.le, not_le.2 h, not_le.2 h']

theorem edge_border {A p q : P2 K} (hp : p ≠ A) (hq : q ≠ A) :
    Xor (Xor (CrossesRay A p q) (CrossesLeft A p q)) (OnSegment p q A) ↔
      Xor (UpperLeft A p) (UpperLeft A q) := by
  rcases le_total p.y q.y with h | h
  · exact edge_border_up h hp hq
  · rw [crossesRay_swap, crossesLeft_swap, onSegment_swap, xor_comm (UpperLeft A p)]
    exact edge_border_up h hq hp

theorem border_parity {A : P2 K} {poly : List (P2 K)} (hA : A ∉ poly) :
    (sideCount poly (CrossesRay A) + sideCount poly (CrossesLeft A)) % 2 =
      sideCount poly (fun p q => OnSegment p q A) % 2 := by
  classical
  have key := changes_closed (fun v => decide (UpperLeft A v)) poly
  have hcongr : (closedEdges poly).countP (fun e => decide (UpperLeft A e.1) ^^ decide (UpperLeft A e.2)) =
      (closedEdges poly).countP (fun e => (decide (CrossesRay A e.1 e.2) ^^ decide (CrossesLeft A e.1 e.2))
        ^^ decide (OnSegment e.1 e.2 A)) := by
    apply List.countP_congr
    intro e he
    obtain ⟨h1, h2⟩ := vertex_of_side ((sides_perm poly).mem_iff.1 he)
    have := edge_border (A := A) (p := e.1) (q := e.2) (fun h => hA (h ▸ h1)) (fun h => hA (h ▸ h2))
    unfold Xor at this
    by_cases a1 : CrossesRay A e.1 e.2 <;> by_cases a2 : CrossesLeft A e.1 e.2 <;>
      by_cases a3 : OnSegment e.1 e.2 A <;> by_cases a4 : UpperLeft A e.1 <;>
      by_cases a5 : UpperLeft A e.2 <;> simp [a1, a2, a3, a4, a5] at this ⊢
  rw [hcongr, countP_xor, Nat.add_mod, countP_xor] at key
  rw [sideCount_eq, sideCount_eq, sideCount_eq]
  omega

/-- The body of the loop for an edge that does not end in the point. -/
theorem contain_edge (A h i : P2 K) :
    let rstrad := (Cmp.direct (K := K)).gt i.y A.y != Cmp.direct.gt h.y A.y
    let lstrad := (Cmp.direct (K := K)).lt i.y A.y != Cmp.direct.lt h.y A.y
    ((rstrad || lstrad) = true → h.y - i.y ≠ 0 ∧
      ((rstrad && Cmp.direct.gt ((h.x - i.x) / (h.y - i.y) * (A.y - i.y) + i.x) A.x) = true ↔
        CrossesRay A h i) ∧
      ((lstrad && Cmp.direct.lt ((h.x - i.x) / (h.y - i.y) * (A.y - i.y) + i.x) A.x) = true ↔
        CrossesLeft A h i)) ∧
    ((rstrad || lstrad) = false → ¬ CrossesRay A h i ∧ ¬ CrossesLeft A h i) := by
  have rs : ((Cmp.direct (K := K)).gt i.y A.y != Cmp.direct.gt h.y A.y) = true ↔
      (h.y ≤ A.y ∧ A.y < i.y ∨ i.y ≤ A.y ∧ A.y < h.y) := by
    rw [bne_iff_ne, ne_eq, Bool.eq_iff_iff, direct_gt, direct_gt]
    grind
  have ls : ((Cmp.direct (K := K)).lt i.y A.y != Cmp.direct.lt h.y A.y) = true ↔
      (h.y < A.y ∧ A.y ≤ i.y ∨ i.y < A.y ∧ A.y ≤ h.y) := by
    rw [bne_iff_ne, ne_eq, Bool.eq_iff_iff, direct_lt, direct_lt]
    grind
  intro rstrad lstrad
  constructor
  · intro hor
    rw [Bool.or_eq_true, rs, ls] at hor
    have hd : h.y - i.y ≠ 0 := by
      intro hc
      rcases hor with (h1 | h1) | (h1 | h1) <;> linarith [h1.1, h1.2]
    obtain ⟨s, hs⟩ : ∃ s, s = (h.x - i.x) / (h.y - i.y) := ⟨_, rfl⟩
    have hs' : s * (h.y - i.y) = h.x - i.x := by rw [hs]; exact div_mul_cancel₀ _ hd
    rw [← hs]
    refine ⟨hd, ?_, ?_⟩
    · rw [Bool.and_eq_true, rs, direct_gt]
      rcases lt_or_gt_of_ne hd with hd' | hd'
      · rw [crossesRay_iff (by linarith)]
        have ha : area2 h i A = (i.y - h.y) * (s * (A.y - i.y) + i.x - A.x) := by
          unfold area2; linear_combination (A.y - i.y) * hs'
        rw [ha]
        constructor
        · rintro ⟨h1 | h1, h2⟩
          · exact ⟨h1.1, h1.2, mul_pos (by linarith) (by linarith)⟩
          · linarith [h1.1, h1.2]
        · rintro ⟨h1, h2, h3⟩
          have := pos_of_mul_pos_right h3 (by linarith : (0 : K) ≤ i.y - h.y)
          exact ⟨Or.inl ⟨h1, h2⟩, by linarith⟩
      · rw [crossesRay_swap, crossesRay_iff (by linarith)]
        have ha : area2 i h A = (h.y - i.y) * (s * (A.y - i.y) + i.x - A.x) := by
          unfold area2; linear_combination -(A.y - i.y) * hs'
        rw [ha]
        constructor
        · rintro ⟨h1 | h1, h2⟩
          · linarith [h1.1, h1.2]
          · exact ⟨h1.1, h1.2, mul_pos (by linarith) (by linarith)⟩
        · rintro ⟨h1, h2, h3⟩
          have := pos_of_mul_pos_right h3 (by linarith : (0 : K) ≤ h.y - i.y)
          exact ⟨Or.inr ⟨h1, h2⟩, by linarith⟩
    · rw [Bool.and_eq_true, ls, direct_lt]
      rcases lt_or_gt_of_ne hd with hd' | hd'
      · rw [crossesLeft_iff (by linarith)]
        have ha : area2 h i A = (i.y - h.y) * (s * (A.y - i.y) + i.x - A.x) := by
          unfold area2; linear_combination (A.y - i.y) * hs'
        rw [ha]
        constructor
        · rintro ⟨h1 | h1, h2⟩
          · exact ⟨h1.1, h1.2, mul_neg_of_pos_of_neg (by linarith) (by linarith)⟩
          · linarith [h1.1, h1.2]
        · rintro ⟨h1, h2, h3⟩
          have := neg_of_mul_neg_right h3 (by linarith : (0 : K) ≤ i.y - h.y)
          exact ⟨Or.inl ⟨h1, h2⟩, by linarith⟩
      · rw [crossesLeft_swap, crossesLeft_iff (by linarith)]
        have ha : area2 i h A = (h.y - i.y) * (s * (A.y - i.y) + i.x - A.x) := by
          unfold area2; linear_combination -(A.y - i.y) * hs'
        rw [ha]
        constructor
        · rintro ⟨h1 | h1, h2⟩
          · linarith [h1.1, h1.2]
          · exact ⟨h1.1, h1.2, mul_neg_of_pos_of_neg (by linarith) (by linarith)⟩
        · rintro ⟨h1, h2, h3⟩
          have := neg_of_mul_neg_right h3 (by linarith : (0 : K) ≤ h.y - i.y)
          exact ⟨Or.inr ⟨h1, h2⟩, by linarith⟩
  · intro hor
    rw [Bool.or_eq_false_iff] at hor
    constructor
    · rintro ⟨h1, -⟩
      exact absurd (rs.2 h1) (Bool.eq_false_iff.1 hor.1)
    · rintro ⟨h1, -⟩
      exact absurd (ls.2 h1) (Bool.eq_false_iff.1 hor.2)

open Classical in
theorem containLoop_eq (eps : K) (A : P2 K) : ∀ (l : List (P2 K × P2 K)) (r c : Nat),
    containLoop Cmp.direct eps A l r c =
      if ∃ e ∈ l, e.2 = A then .ok .vertex
      else containLoop Cmp.direct eps A [] (r + l.countP fun e => decide (CrossesRay A e.1 e.2))
        (c + l.countP fun e => decide (CrossesLeft A e.1 e.2)) := by
  intro l
  induction l with
  | nil => intro r c; simp
  | cons e l ih =>
    intro r c
    obtain ⟨h, i⟩ := e
    conv_lhs => rw [containLoop]
    by_cases hv : A = i
    · rw [if_pos ((seqEquals_direct A i).2 hv), if_pos ⟨(h, i), List.mem_cons_self, hv.symm⟩]
    · rw [if_neg (by rw [seqEquals_direct]; exact hv)]
      have hex : (∃ e ∈ (h, i) :: l, e.2 = A) ↔ ∃ e ∈ l, e.2 = A := by
        simp only [List.mem_cons, exists_eq_or_imp]
        constructor
        · rintro (h1 | h1)
          · exact absurd h1.symm hv
          · exact h1
        · exact Or.inr
      obtain ⟨h1, h2⟩ := contain_edge A h i
      simp only [hex, List.countP_cons]
      by_cases hst : ((Cmp.direct (K := K)).gt i.y A.y != Cmp.direct.gt h.y A.y ||
          Cmp.direct.lt i.y A.y != Cmp.direct.lt h.y A.y) = true
      · obtain ⟨hd, hr, hl⟩ := h1 hst
        rw [if_pos hst, if_neg hd, cdiv_ok hd]
        simp only
        rw [ih]
        have e1 : (if ((Cmp.direct (K := K)).gt i.y A.y != Cmp.direct.gt h.y A.y &&
            Cmp.direct.gt ((h.x - i.x) / (h.y - i.y) * (A.y - i.y) + i.x) A.x) = true then r + 1 else r) =
            r + if CrossesRay A h i then 1 else 0 := by
          by_cases hc : CrossesRay A h i
          · rw [if_pos (hr.2 hc), if_pos hc]
          · rw [if_neg (mt hr.1 hc), if_neg hc, Nat.add_zero]
        have e2 : (if ((Cmp.direct (K := K)).lt i.y A.y != Cmp.direct.lt h.y A.y &&
            Cmp.direct.lt ((h.x - i.x) / (h.y - i.y) * (A.y - i.y) + i.x) A.x) = true then c + 1 else c) =
            c + if CrossesLeft A h i then 1 else 0 := by
          by_cases hc : CrossesLeft A h i
          · rw [if_pos (hl.2 hc), if_pos hc]
          · rw [if_neg (mt hl.1 hc), if_neg hc, Nat.add_zero]
        rw [e1, e2]
        simp only [decide_eq_true_eq]
        congr 2 <;> omega
      · rw [if_neg hst, ih]
        obtain ⟨n1, n2⟩ := h2 (by simpa using hst)
        simp [n1, n2]

theorem mem_closedEdges_snd (poly : List (P2 K)) (A : P2 K) :
    (∃ e ∈ closedEdges poly, e.2 = A) ↔ A ∈ poly := by
  constructor
  · rintro ⟨e, he, rfl⟩
    exact (vertex_of_side ((sides_perm poly).mem_iff.1 he)).2
  · intro hA
    obtain ⟨i, hi, rfl⟩ := List.mem_iff_getElem.1 hA
    have hpos : 0 < poly.length := by omega
    have hmem : (poly[(i + (poly.length - 1)) % poly.length]'(Nat.mod_lt _ hpos), poly[i]) ∈ sides poly := by
      rw [mem_sides_iff]
      refine ⟨(i + (poly.length - 1)) % poly.length, List.getElem?_eq_getElem _, ?_⟩
      have : ((i + (poly.length - 1)) % poly.length + 1) % poly.length = i := by
        rw [Nat.mod_add_mod, show i + (poly.length - 1) + 1 = i + poly.length by omega,
          Nat.add_mod_right, Nat.mod_eq_of_lt hi]
      simp only [this]
      exact List.getElem?_eq_getElem hi
    exact ⟨_, (sides_perm poly).mem_iff.2 hmem, rfl⟩

theorem polygonContainment_eq (eps : K) (A : P2 K) (poly : List (P2 K)) (hl : 2 < poly.length) :
    (A ∈ poly → polygonContainment Cmp.direct eps A poly = .ok .vertex) ∧
    (A ∉ poly → polygonContainment Cmp.direct eps A poly =
      if Odd (sideCount poly (fun p q => OnSegment p q A)) then .ok .border
      else if pointInPolygon A poly then .ok .interior else .ok .exterior) := by
  unfold polygonContainment
  rw [if_neg (by omega), containLoop_eq]
  constructor
  · intro h
    rw [if_pos ((mem_closedEdges_snd poly A).2 h)]
  · intro h
    rw [if_neg (mt (mem_closedEdges_snd poly A).1 h), ← sideCount_eq, ← sideCount_eq, containLoop,
      Nat.zero_add, Nat.zero_add]
    have hb := border_parity h
    have e1 : sideCount poly (CrossesRay A) % 2 ≠ sideCount poly (CrossesLeft A) % 2 ↔
        Odd (sideCount poly (fun p q => OnSegment p q A)) := by
      rw [Nat.odd_iff]; omega
    have e2 : sideCount poly (CrossesRay A) % 2 = 1 ↔ pointInPolygon A poly = true := by
      rw [pointInPolygon_iff, Nat.odd_iff]
    simp only [e1, e2]

/-! ## Points away from the polygon -/

theorem pip_outside {A : P2 K} {poly : List (P2 K)}
    (h : (∀ v ∈ poly, v.x < A.x) ∨ (∀ v ∈ poly, A.x < v.x) ∨ (∀ v ∈ poly, v.y < A.y) ∨
      (∀ v ∈ poly, A.y < v.y)) : pointInPolygon A poly = false := by
  classical
  rw [← Bool.not_eq_true, pointInPolygon_iff]
  have hv : ∀ e ∈ closedEdges poly, e.1 ∈ poly ∧ e.2 ∈ poly := fun e he =>
    vertex_of_side ((sides_perm poly).mem_iff.1 he)
  rw [sideCount_eq]
  rcases h with h | h | h | h
  · rw [List.countP_eq_zero.2]
    · simp
    · intro e he
      rw [decide_eq_true_eq]
      rintro ⟨-, x, hx, hs⟩
      have := ((onSegment_iff_box _ _ _).1 hs).2.2.1
      simp only [le_max_iff] at this
      rcases this with h1 | h1
      · linarith [h _ (hv e he).1]
      · linarith [h _ (hv e he).2]
  · have hc : (closedEdges poly).countP (fun e => decide (CrossesRay A e.1 e.2)) =
        (closedEdges poly).countP (fun e => decide (A.y < e.1.y) ^^ decide (A.y < e.2.y)) := by
      apply List.countP_congr
      intro e he
      have hx1 := h _ (hv e he).1
      have hx2 := h _ (hv e he).2
      have : CrossesRay A e.1 e.2 ↔ (e.1.y ≤ A.y ∧ A.y < e.2.y ∨ e.2.y ≤ A.y ∧ A.y < e.1.y) := by
        constructor
        · exact fun h => h.1
        · have key : ∀ p q : P2 K, A.x < p.x → A.x < q.x → p.y ≤ A.y → A.y < q.y → CrossesRay A p q := by
            intro p q h1 h2 h3 h4
            rw [crossesRay_iff (by linarith)]
            refine ⟨h3, h4, ?_⟩
            unfold area2
            nlinarith [mul_nonneg (sub_nonneg.2 h3) (sub_nonneg.2 h2.le), mul_pos (sub_pos.2 h4) (sub_pos.2 h1)]
          rintro (h1 | h1)
          · exact key _ _ hx1 hx2 h1.1 h1.2
          · rw [crossesRay_swap]; exact key _ _ hx2 hx1 h1.1 h1.2
      rw [decide_eq_true_eq, this]
      by_cases h1 : A.y < e.1.y <;> by_cases h2 : A.y < e.2.y <;> simp [h1, h2] <;> linarith
    have := changes_closed (fun v : P2 K => decide (A.y < v.y)) poly
    rw [hc, Nat.odd_iff]
    omega
  · rw [List.countP_eq_zero.2]
    · simp
    · intro e he
      rw [decide_eq_true_eq]
      rintro ⟨h1 | h1, -⟩
      · linarith [h _ (hv e he).2, h1.2]
      · linarith [h _ (hv e he).1, h1.2]
  · rw [List.countP_eq_zero.2]
    · simp
    · intro e he
      rw [decide_eq_true_eq]
      rintro ⟨h1 | h1, -⟩
      · linarith [h _ (hv e he).1, h1.1]
      · linarith [h _ (hv e he).2, h1.1]

theorem pip_rotate (A : P2 K) (poly : List (P2 K)) (n : Nat) :
    pointInPolygon A (poly.rotate n) = pointInPolygon A poly := by
  rw [Bool.eq_iff_iff, pointInPolygon_iff, pointInPolygon_iff]
  unfold sideCount
  rw [sides_rotate, (List.rotate_perm _ _).countP_eq]

theorem sideCount_rotate {α : Type*} (poly : List α) (n : Nat) (φ : α → α → Prop) :
    sideCount (poly.rotate n) φ = sideCount poly φ := by
  unfold sideCount
  rw [sides_rotate, (List.rotate_perm _ _).countP_eq]

theorem sideCount_reverse {α : Type*} (poly : List α) (φ : α → α → Prop) (h : ∀ p q, φ p q ↔ φ q p) :
    sideCount poly.reverse φ = sideCount poly φ := by
  classical
  unfold sideCount
  rw [(sides_reverse poly).countP_eq, List.countP_map]
  apply List.countP_congr
  intro e _
  simp only [Function.comp, Prod.fst_swap, Prod.snd_swap, decide_eq_true_eq]
  exact h _ _

theorem pip_reverse (A : P2 K) (poly : List (P2 K)) :
    pointInPolygon A poly.reverse = pointInPolygon A poly := by
  rw [Bool.eq_iff_iff, pointInPolygon_iff, pointInPolygon_iff, sideCount_reverse _ _ (crossesRay_swap A)]

end Geometrix
