import Verif.Model.TupleCompare
import Verif.Spec.TupleCompare
import Verif.Lemmas.TupleCompare

/-!
# C141: comparison of tuples and pairs
-/

namespace Geometrix

open Spec

variable {α β : Type*}

/-- `lexicographical_compare` of `n` values, `n` not zero, is true if and only if at the first place where the values are not equivalent
the first one is less. -/
theorem C141_lexicographical (lt : Nat → α → α → Bool) (h : ∀ i, SortOrder fun a b => lt i a b = true) (n : Nat) (hn : 0 < n)
    (a b : Nat → α) :
    ∃ r, lexVariadic lt 0 ((List.range n).map fun k => (a k, b k)) = .ok r ∧
      (r = true ↔ LexBefore (fun i x y => lt i x y = true) n a b) := by
  obtain ⟨m, rfl⟩ : ∃ m, n = m + 1 := ⟨n - 1, by omega⟩
  have hasym : ∀ i x y, lt i x y = true → lt i y x = false := by
    intro i x y hxy
    by_contra hne
    exact (h i).irrefl x ((h i).trans x y x hxy (by simpa using hne))
  obtain ⟨r, hr, hiff⟩ := lexVariadic_eq lt hasym m 0 a b
  simp only [Nat.zero_add] at hr hiff
  refine ⟨r, hr, ?_⟩
  rw [hiff]
  simp only [LexBefore, Bool.not_eq_true]

/-- It is an order that can be used to sort. -/
theorem C141_order (lt : Nat → α → α → Bool) (h : ∀ i, SortOrder fun a b => lt i a b = true) (n : Nat) (hn : 0 < n) :
    SortOrder fun a b : Nat → α => lexVariadic lt 0 ((List.range n).map fun k => (a k, b k)) = .ok true := by
  have e : (fun a b : Nat → α => lexVariadic lt 0 ((List.range n).map fun k => (a k, b k)) = .ok true) =
      LexBefore (fun i x y => lt i x y = true) n := by
    funext a b
    obtain ⟨r, hr, hiff⟩ := C141_lexicographical lt h n hn a b
    rw [hr, ← hiff]
    simp
  rw [e]
  exact lexBefore_sortOrder h n

example : ∀ i : Nat, SortOrder fun a b : Int => (fun _ x y => decide (x < y)) i a b = true := by
  intro i
  refine ⟨?_, ?_, ?_⟩ <;> intros <;> simp at * <;> omega

example : lexVariadic (fun _ x y => decide (x < y)) 0 [((1 : Int), 1), (2, 3), (9, 0)] = .ok true := rfl

/-- `pair_first_compare` and `pair_second_compare` order pairs by one component, which can be used to sort. -/
theorem C141_pairs (c : α → α → Bool) (d : β → β → Bool) (hc : SortOrder fun a b => c a b = true) (hd : SortOrder fun a b => d a b = true) :
    (∀ p q : α × β, pairFirst c p q = c p.1 q.1 ∧ pairSecond d p q = d p.2 q.2) ∧
    SortOrder (fun p q : α × β => pairFirst c p q = true) ∧ SortOrder (fun p q : α × β => pairSecond d p q = true) :=
  ⟨fun _ _ => ⟨rfl, rfl⟩,
   ⟨fun p => hc.irrefl p.1, fun p q r => hc.trans p.1 q.1 r.1, fun p q r => hc.incomp p.1 q.1 r.1⟩,
   ⟨fun p => hd.irrefl p.2, fun p q r => hd.trans p.2 q.2 r.2, fun p q r => hd.incomp p.2 q.2 r.2⟩⟩

example : SortOrder fun a b : Int => decide (a < b) = true := by
  refine ⟨?_, ?_, ?_⟩ <;> intros <;> simp at * <;> omega

end Geometrix
