import Verif.Lemmas.Memoize
import Mathlib.Algebra.Order.Field.Rat

/-!
# C46: memoization
-/

namespace Geometrix

open Spec

variable {α β κ : Type*}

/-- Every sequence of calls of a memoized function gives the values of the wrapped function `g`; it is
evaluated only for arguments of the sequence, in their order, at most once per key, for no key that is in
the cache at the beginning, and once for every other key. The function must give the same value for arguments
with the same key, and the entries in the cache at the beginning must be its values. -/
theorem C46_transparent (lt : κ → κ → Bool) (hs : StrictWeakOrder lt) (mk : α → κ) (g : α → β)
    (hg : ∀ a b, SameKey lt (mk a) (mk b) → g a = g b) (args : List α)
    (cache : List (κ × β)) (hc : ValidCache lt mk (fun _ => True) g cache) : ∃ cache' log,
      memoRun lt mk (fun a => .ok (g a)) cache args = .ok (args.map g, cache', log) ∧
      log.Sublist args ∧ log.Pairwise (fun a b => ¬ SameKey lt (mk a) (mk b)) ∧
      (∀ a ∈ log, ∀ e ∈ cache, ¬ SameKey lt (mk a) e.1) ∧
      (∀ a ∈ args, (∃ e ∈ cache, SameKey lt (mk a) e.1) ∨ ∃ b ∈ log, SameKey lt (mk a) (mk b)) := by
  obtain ⟨c, l, h1, -, h2⟩ := memoRun_spec hs mk (fun a => .ok (g a)) g (fun _ => True) (fun _ _ => rfl)
    (fun a b _ _ => hg a b) args (fun _ _ => trivial) cache hc
  exact ⟨c, l, h1, h2⟩

/-- Squares of integers, with an entry in the cache. -/
example : ValidCache (fun a b : Int => decide (a < b)) id (fun _ => True) (fun n : Int => n * n) [(3, 9)] := by
  refine ⟨List.pairwise_singleton _ _, ?_⟩
  intro e he a _ h
  simp only [List.mem_singleton] at he
  subst he
  simp only [SameKey, id, decide_eq_false_iff_not, not_lt] at h
  have : a = 3 := le_antisymm h.2 h.1
  subst this; rfl

/-- The usual case: an empty cache and a total order of the arguments. The values are those of the function,
and it is evaluated exactly once for each argument of the sequence. -/
theorem C46_once [LinearOrder α] (g : α → β) (args : List α) : ∃ cache' log,
    memoRun (fun a b => decide (a < b)) id (fun a => .ok (g a)) [] args = .ok (args.map g, cache', log) ∧
    log.Nodup ∧ ∀ a, a ∈ log ↔ a ∈ args := by
  have hkey : ∀ a b : α, SameKey (fun a b => decide (a < b)) a b ↔ a = b := by
    intro a b
    simp only [SameKey, decide_eq_false_iff_not, not_lt]
    exact ⟨fun h => le_antisymm h.2 h.1, fun h => by rw [h]; exact ⟨le_refl _, le_refl _⟩⟩
  have hs : StrictWeakOrder (fun a b : α => decide (a < b)) := by
    refine ⟨by simp, ?_, ?_⟩
    · intro a b c h1 h2
      simp only [decide_eq_true_eq] at *
      exact lt_trans h1 h2
    · intro a b c h1 h2
      have e1 := (hkey a b).1 h1
      have e2 := (hkey b c).1 h2
      exact (hkey a c).2 (e1.trans e2)
  obtain ⟨c, l, h1, h2, h3, -, h5⟩ := C46_transparent (fun a b : α => decide (a < b)) hs id g
    (fun a b h => by rw [(hkey a b).1 h]) args [] ⟨List.Pairwise.nil, by simp⟩
  refine ⟨c, l, h1, ?_, ?_⟩
  · refine h3.imp ?_
    intro a b h hab
    exact h ((hkey a b).2 hab)
  · intro a
    refine ⟨fun h => h2.subset h, fun h => ?_⟩
    rcases h5 a h with ⟨e, he, -⟩ | ⟨b, hb, hsame⟩
    · simp at he
    · rw [(hkey a b).1 hsame]; exact hb

example : ((memoRun (fun a b => decide (a < b)) id (fun a : Int => .ok (a * a)) [] [2, 3, 2]).toOption.map
    fun r => (r.1, r.2.2)) = some ([4, 9, 4], [2, 3]) := by decide +kernel

/-- The condition on the keys is needed: with a key type that identifies arguments on which the function
differs, a call returns the value of another argument. -/
theorem C46_key_refuted : ∃ (mk : Int → Int) (g : Int → Int) (args vs : List Int) (c : List (Int × Int))
    (l : List Int), memoRun (fun a b => decide (a < b)) mk (fun a => .ok (g a)) [] args = .ok (vs, c, l) ∧
    vs ≠ args.map g :=
  ⟨fun a => a * a, id, [1, -1], [1, 1], [(1, 1)], [1], by decide +kernel, by decide +kernel⟩

example : (fun a : Int => a * a) 1 = (fun a : Int => a * a) (-1) := by decide

end Geometrix
