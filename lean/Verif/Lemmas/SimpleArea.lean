import Verif.Lemmas.SimpleBorder
import Verif.Lemmas.PointSequence
import Mathlib.Algebra.BigOperators.Fin
import Mathlib.Algebra.Order.BigOperators.Group.Finset

/-!
# The sign of the area of a simple polygon
-/

set_option linter.unusedSectionVars false

namespace Geometrix

open Spec

variable {K : Type*} [Field K] [LinearOrder K] [IsStrictOrderedRing K]

/-! ## The area below a height -/

/-- The `x` of the line through a side at the height `h`. -/
def sideX (h : K) (p q : P2 K) : K := p.x + (h - p.y) / (q.y - p.y) * (q.x - p.x)

/-- The side passes through the height `h`. -/
def PassesAt (h : K) (e : P2 K × P2 K) : Prop := e.1.y < h ∧ h < e.2.y ∨ e.2.y < h ∧ h < e.1.y

instance (h : K) (e : P2 K × P2 K) : Decidable (PassesAt h e) := by unfold PassesAt; infer_instance

def upSign (e : P2 K × P2 K) : K := if e.1.y < e.2.y then 1 else -1

/-- Twice the area between a rising side, below the height `h`, and the axis. -/
def belowUp (h : K) (p q : P2 K) : K :=
  (max p.y (min h q.y) - p.y) * (p.x + sideX (max p.y (min h q.y)) p q)

def below (h : K) (e : P2 K × P2 K) : K :=
  if e.1.y < e.2.y then belowUp h e.1 e.2 else if e.2.y < e.1.y then -belowUp h e.2 e.1 else 0

theorem belowUp_top {h : K} {p q : P2 K} (hpq : p.y < q.y) (hq : q.y ≤ h) : belowUp h p q = (q.y - p.y) * (p.x + q.x) := by
  unfold belowUp sideX
  rw [min_eq_right hq, max_eq_right hpq.le, div_self (sub_pos.2 hpq).ne', one_mul]; ring

theorem belowUp_bottom {h : K} {p q : P2 K} (hpq : p.y < q.y) (hp : h ≤ p.y) : belowUp h p q = 0 := by
  unfold belowUp
  rw [min_eq_left (hp.trans hpq.le), max_eq_left hp, sub_self, zero_mul]

theorem below_top {h : K} {e : P2 K × P2 K} (h1 : e.1.y ≤ h) (h2 : e.2.y ≤ h) :
    below h e = (e.2.y - e.1.y) * (e.1.x + e.2.x) := by
  unfold below
  rcases lt_trichotomy e.1.y e.2.y with k | k | k
  · rw [if_pos k, belowUp_top k h2]
  · rw [if_neg k.not_lt, if_neg k.not_gt, k, sub_self, zero_mul]
  · rw [if_neg k.le.not_gt, if_pos k, belowUp_top k h1]; ring

theorem below_bottom {h : K} {e : P2 K × P2 K} (h1 : h ≤ e.1.y) (h2 : h ≤ e.2.y) : below h e = 0 := by
  unfold below
  rcases lt_trichotomy e.1.y e.2.y with k | k | k
  · rw [if_pos k, belowUp_bottom k h1]
  · rw [if_neg k.not_lt, if_neg k.not_gt]
  · rw [if_neg k.le.not_gt, if_pos k, belowUp_bottom k h2, neg_zero]

theorem belowUp_slab {h1 h2 : K} {p q : P2 K} (hpq : p.y < q.y) (h : h1 < h2) (hp : p.y ≤ h1 ∨ h2 ≤ p.y)
    (hq : q.y ≤ h1 ∨ h2 ≤ q.y) : belowUp h2 p q - belowUp h1 p q =
      if p.y < (h1 + h2) / 2 ∧ (h1 + h2) / 2 < q.y then 2 * (h2 - h1) * sideX ((h1 + h2) / 2) p q else 0 := by
  rcases hq with hq | hq
  · rw [belowUp_top hpq hq, belowUp_top hpq (hq.trans h.le), sub_self, if_neg]
    rintro ⟨-, k⟩; linarith
  rcases hp with hp | hp
  · rw [if_pos ⟨by linarith, by linarith⟩]
    unfold belowUp sideX
    rw [min_eq_left hq, min_eq_left (h.le.trans hq), max_eq_right hp, max_eq_right (hp.trans h.le)]
    have hne : q.y - p.y ≠ 0 := (sub_pos.2 hpq).ne'
    field_simp
    ring
  · rw [belowUp_bottom hpq hp, belowUp_bottom hpq (h.le.trans hp), sub_self, if_neg]
    rintro ⟨k, -⟩; linarith

theorem sideX_swap {h : K} {p q : P2 K} (hpq : p.y ≠ q.y) : sideX h p q = sideX h q p := by
  unfold sideX
  have h1 : q.y - p.y ≠ 0 := sub_ne_zero.2 (Ne.symm hpq)
  have h2 : p.y - q.y ≠ 0 := sub_ne_zero.2 hpq
  field_simp
  ring

theorem below_slab {h1 h2 : K} {e : P2 K × P2 K} (h : h1 < h2) (hp : e.1.y ≤ h1 ∨ h2 ≤ e.1.y)
    (hq : e.2.y ≤ h1 ∨ h2 ≤ e.2.y) : below h2 e - below h1 e =
      2 * (h2 - h1) * (if PassesAt ((h1 + h2) / 2) e then upSign e * sideX ((h1 + h2) / 2) e.1 e.2 else 0) := by
  unfold below PassesAt upSign
  rcases lt_trichotomy e.1.y e.2.y with k | k | k
  · simp only [if_pos k]
    rw [belowUp_slab k h hp hq]
    by_cases c : e.1.y < (h1 + h2) / 2 ∧ (h1 + h2) / 2 < e.2.y
    · rw [if_pos c, if_pos (Or.inl c), one_mul]
    · rw [if_neg c, if_neg, mul_zero]
      rintro (d | d)
      · exact c d
      · linarith [d.1, d.2]
  · simp only [if_neg k.not_lt, if_neg k.not_gt]
    rw [if_neg, sub_self, mul_zero]
    rintro (d | d) <;> linarith [d.1, d.2]
  · simp only [if_neg k.le.not_gt, if_pos k]
    have := belowUp_slab k h hq hp
    rw [sideX_swap k.ne']
    by_cases c : e.2.y < (h1 + h2) / 2 ∧ (h1 + h2) / 2 < e.1.y
    · rw [if_pos c] at this
      rw [if_pos (Or.inr c)]; linarith
    · rw [if_neg c] at this
      rw [if_neg, mul_zero]
      · linarith
      · rintro (d | d)
        · linarith [d.1, d.2]
        · exact c d

/-! ## Alternating sums -/

/-- Numbers with alternating signs, the greatest with a plus, add up to a positive number if there is an even number of them. -/
theorem alternating_pos : ∀ (n : Nat) (T : Finset K), T.card = 2 * n → ∀ w : K → K,
    (∀ x ∈ T, w x = if Odd (T.filter (fun y => x ≤ y)).card then 1 else -1) →
      0 ≤ ∑ x ∈ T, w x * x ∧ (T.Nonempty → 0 < ∑ x ∈ T, w x * x) := by
  intro n
  induction n with
  | zero =>
    intro T hT w _
    have : T = ∅ := Finset.card_eq_zero.1 (by simpa using hT)
    subst this
    simp
  | succ n ih =>
    intro T hT w hw
    have hne : T.Nonempty := Finset.card_pos.1 (by omega)
    set a := T.min' hne with ha
    have haT : a ∈ T := T.min'_mem hne
    have hc1 : (T.erase a).card = 2 * n + 1 := by rw [Finset.card_erase_of_mem haT]; omega
    have hne1 : (T.erase a).Nonempty := Finset.card_pos.1 (by omega)
    set b := (T.erase a).min' hne1 with hb
    have hbT : b ∈ T.erase a := (T.erase a).min'_mem hne1
    have hc2 : ((T.erase a).erase b).card = 2 * n := by rw [Finset.card_erase_of_mem hbT]; omega
    have hab : a < b := lt_of_le_of_ne (T.min'_le b (Finset.mem_of_mem_erase hbT)) (Finset.ne_of_mem_erase hbT).symm
    have fa : T.filter (fun y => a ≤ y) = T := Finset.filter_true_of_mem fun y hy => T.min'_le y hy
    have fb : T.filter (fun y => b ≤ y) = T.erase a := by
      ext y
      simp only [Finset.mem_filter, Finset.mem_erase]
      constructor
      · rintro ⟨h1, h2⟩; exact ⟨fun h => by rw [h] at h2; exact absurd hab (not_lt.2 h2), h1⟩
      · rintro ⟨h1, h2⟩; exact ⟨h2, (T.erase a).min'_le y (Finset.mem_erase.2 ⟨h1, h2⟩)⟩
    have wa : w a = -1 := by
      rw [hw a haT, fa, hT, if_neg]; rw [Nat.not_odd_iff_even]; exact ⟨n + 1, by ring⟩
    have wb : w b = 1 := by
      rw [hw b (Finset.mem_of_mem_erase hbT), fb, hc1, if_pos]; exact ⟨n, rfl⟩
    have hrest := (ih _ hc2 w (by
      intro x hx
      have hx1 := Finset.mem_of_mem_erase hx
      rw [hw x (Finset.mem_of_mem_erase hx1)]
      congr 3
      ext y
      simp only [Finset.mem_filter, Finset.mem_erase]
      have hbx : b < x := lt_of_le_of_ne ((T.erase a).min'_le x hx1) (Finset.ne_of_mem_erase hx).symm
      constructor
      · rintro ⟨h1, h2⟩
        exact ⟨⟨fun h => by rw [h] at h2; exact absurd hbx (not_lt.2 h2), fun h => by rw [h] at h2; exact absurd (hab.trans hbx) (not_lt.2 h2), h1⟩, h2⟩
      · rintro ⟨⟨-, -, h1⟩, h2⟩; exact ⟨h1, h2⟩)).1
    have hsum : ∑ x ∈ T, w x * x = w a * a + (w b * b + ∑ x ∈ (T.erase a).erase b, w x * x) := by
      rw [← Finset.add_sum_erase T _ haT, ← Finset.add_sum_erase (T.erase a) _ hbT]
    rw [hsum, wa, wb]
    exact ⟨by linarith, fun _ => by linarith⟩

theorem sum_map_fin {α M : Type*} [AddCommMonoid M] (l : List α) (f : α → M) :
    (l.map f).sum = ∑ i : Fin l.length, f l[i] := by
  induction l with
  | nil => simp
  | cons a l ih => rw [List.map_cons, List.sum_cons, ih]; simp [Fin.sum_univ_succ]

theorem countP_fin {α : Type*} (l : List α) (f : α → Bool) :
    l.countP f = (Finset.univ.filter (fun i : Fin l.length => f l[i] = true)).card := by
  rw [Finset.card_filter, ← sum_map_fin l (fun x => if f x = true then 1 else 0)]
  induction l with
  | nil => simp
  | cons a l ih => rw [List.countP_cons, ih, List.map_cons, List.sum_cons, add_comm]

end Geometrix
