import Verif.Lemmas.TaggedQuantity
import Mathlib.Data.Rat.Floor

/-!
# C135: quantities with a tag
-/

namespace Geometrix

open Spec

variable {K : Type*} [Field K] [DecidableEq K]

/-- The tags do not change the number: an expression over numbers and quantities has the value that it has without the names, and fails only
if there is a division by zero. -/
theorem C135_value (F : Nat → K → K) (G : Nat → K → K → K) (e : TqExpr K) :
    (∀ x, plainValue F G e = some x ↔ ∃ t, e.eval F G = .ok ⟨t, x⟩) ∧
    (plainValue F G e = none ↔ e.eval F G = .error .divByZero) := by
  obtain ⟨h1, h2⟩ := eval_value F G e
  refine ⟨fun x => ⟨h1 x, ?_⟩, ⟨h2, ?_⟩⟩
  · rintro ⟨t, ht⟩
    cases h : plainValue F G e with
    | none => rw [h2 h] at ht; cases ht
    | some y =>
      obtain ⟨u, hu⟩ := h1 y h
      rw [hu] at ht
      rw [(Tq.mk.inj (Except.ok.inj ht)).2]
  · intro he
    cases h : plainValue F G e with
    | none => rfl
    | some y =>
      obtain ⟨u, hu⟩ := h1 y h
      rw [hu] at he; cases he

example : plainValue (fun _ x => x) (fun _ x _ => x) (.op .div (.quantity 0 (6 : ℚ)) (.op .add (.quantity 1 1) (.number 2))) = some 2 := by
  decide +kernel

/-- An expression can be assigned to a quantity with the name `n` exactly if there is no other name in it and no function has been applied to a
part with a name; the quantity then holds the value. -/
theorem C135_assign (F : Nat → K → K) (G : Nat → K → K → K) (e : TqExpr K) (q : Tq K) (he : e.eval F G = .ok q) (n : Nat) (x : K) :
    tqAssign (.name n) q = some x ↔ x = q.value ∧ (∀ m ∈ names e, m = n) ∧ NoFunction e := by
  have h := eval_tag F G e q he
  have e1 : (q.tag = none ∨ q.tag = some (.name n)) ↔ (∀ m ∈ names e, m = n) ∧ NoFunction e := by
    constructor
    · rintro (h1 | h1) <;> rw [h1] at h
      · have h' : names e = [] := h
        exact ⟨by simp [h'], noFunction_of_empty e h'⟩
      · exact h.2
    · rintro ⟨h1, h2⟩
      cases ht : q.tag with
      | none => exact Or.inl rfl
      | some t =>
        rw [ht] at h
        refine Or.inr (congrArg some ?_)
        by_cases hk : ∃ k, t = .name k
        · obtain ⟨k, rfl⟩ := hk
          obtain ⟨m, hm⟩ := List.exists_mem_of_ne_nil _ h.1
          rw [← h.2.1 m hm, h1 m hm]
        · push Not at hk
          exact absurd ⟨h1, h2⟩ (of_tagSays_compound hk h n).1
  rw [tqAssign]
  by_cases hc : q.tag = none ∨ q.tag = some (.name n)
  · rw [if_pos hc]
    exact ⟨fun hx => ⟨(Option.some.inj hx).symm, e1.mp hc⟩, fun hx => by rw [hx.1]⟩
  · rw [if_neg hc]
    exact ⟨fun hx => by simp at hx, fun hx => absurd (e1.mpr hx.2) hc⟩

example : (names (.op .mul (.quantity 3 (2 : ℚ)) (.op .add (.number 1) (.quantity 3 5))) = [3, 3]) ∧
    NoFunction (.op .mul (.quantity 3 (2 : ℚ)) (.op .add (.number 1) (.quantity 3 5))) :=
  ⟨rfl, trivial, trivial, trivial⟩

/-- A quantity with a name can be initialised with `=` from an expression exactly if it could be assigned to it and there is a name in it. -/
theorem C135_init (F : Nat → K → K) (G : Nat → K → K → K) (e : TqExpr K) (q : Tq K) (he : e.eval F G = .ok q) (n : Nat) (x : K) :
    tqInit (.name n) q = some x ↔ tqAssign (.name n) q = some x ∧ names e ≠ [] := by
  have h := eval_tag F G e q he
  rw [tqInit, tqAssign]
  cases ht : q.tag with
  | none =>
    rw [ht] at h
    have h' : names e = [] := h
    simp [h']
  | some t =>
    rw [ht] at h
    simp [tagSays_nonempty h]

/-- `q o= e` compiles exactly if `q = e` does, and it then is `q = q o e`, with the same failures. -/
theorem C135_compound (o : TqOp) (n : Nat) (x : K) (e : Tq K) :
    (tqCompound o ⟨some (.name n), x⟩ e = none ↔ tqAssign (.name n) e = none) ∧
    (∀ r, tqCompound o ⟨some (.name n), x⟩ e = some r → tqOp o ⟨some (.name n), x⟩ e = r) := by
  constructor
  · simp only [tqCompound, tqAssign]
    split_ifs <;> simp
  · intro r hr
    simp only [tqCompound] at hr
    split_ifs at hr with hc
    rw [← Option.some.inj hr, tqOp]
    have e1 : opTag o (some (.name n)) e.tag = some (.name n) := by
      rcases hc with hc | hc <;> rw [hc] <;> simp [opTag, makeOpTag]
    simp only [e1]

example : tqCompound .div ⟨some (.name 1), (6 : ℚ)⟩ ⟨none, 3⟩ ≠ none := by simp [tqCompound]

/-- Two expressions with the same single name and no functions can be compared, as numbers; those of two different names cannot. -/
theorem C135_compare (F : Nat → K → K) (G : Nat → K → K → K) (r : K → K → Bool) (a b : TqExpr K) (p q : Tq K)
    (ha : a.eval F G = .ok p) (hb : b.eval F G = .ok q) (n m : Nat) (han : ∀ k ∈ names a, k = n) (hbn : ∀ k ∈ names b, k = m)
    (hna : NoFunction a) (hnb : NoFunction b) :
    tqCompare r p q = if n = m ∨ names a = [] ∨ names b = [] then some (r p.value q.value) else none := by
  have h1 := eval_tag F G a p ha
  have h2 := eval_tag F G b q hb
  have key : ∀ {c : TqExpr K} {t : TqTag} {n : Nat}, TagSays c (some t) → (∀ m ∈ names c, m = n) → NoFunction c → t = .name n := by
    intro c t n hc h1 h2
    by_cases ht : ∃ k, t = .name k
    · obtain ⟨k, rfl⟩ := ht
      obtain ⟨m, hm⟩ := List.exists_mem_of_ne_nil _ hc.1
      rw [← hc.2.1 m hm, h1 m hm]
    · push Not at ht
      exact absurd ⟨h1, h2⟩ (of_tagSays_compound ht hc n).1
  rw [tqCompare]
  cases hp : p.tag with
  | none =>
    rw [hp] at h1
    simp [show names a = [] from h1]
  | some s =>
    rw [hp] at h1
    cases hq : q.tag with
    | none =>
      rw [hq] at h2
      simp [show names b = [] from h2]
    | some t =>
      rw [hq] at h2
      rw [key h1 han hna, key h2 hbn hnb]
      simp [tagSays_nonempty h1, tagSays_nonempty h2]

example : tqCompare (fun x y => decide (x < y)) ⟨some (.name 1), (6 : ℚ)⟩ ⟨some (.name 2), 7⟩ = none := by simp [tqCompare]

/-- What one might expect of strong types and what does not hold. A product of two lengths is a length. A sum of a length and a time is not
rejected. The absolute value of a length cannot be assigned to a length, nor compared with one. A difference of sums of the same two
quantities in another order has a tag of its own, so that `a + b` cannot be compared with `b + a`. And a number can be assigned to a length
though the conversion is explicit. -/
theorem C135_strong_types_refuted (F : Nat → ℚ → ℚ) (G : Nat → ℚ → ℚ → ℚ) (f : Nat) (r : ℚ → ℚ → Bool) :
    -- length 2 * length 3
    (∃ q, (TqExpr.op .mul (.quantity 0 (2 : ℚ)) (.quantity 0 3)).eval F G = .ok q ∧ tqAssign (.name 0) q = some 6) ∧
    -- length 2 + time 3
    (∃ q, (TqExpr.op .add (.quantity 0 (2 : ℚ)) (.quantity 1 3)).eval F G = .ok q ∧ q.value = 5) ∧
    -- abs(length 2)
    (∃ p q, (TqExpr.fn f (.quantity 0 (2 : ℚ))).eval F G = .ok p ∧ (TqExpr.quantity 0 (2 : ℚ)).eval F G = .ok q ∧
      tqAssign (.name 0) p = none ∧ tqCompare r p q = none) ∧
    -- length 2 + time 3 and time 3 + length 2
    (∃ p q, (TqExpr.op .add (.quantity 0 (2 : ℚ)) (.quantity 1 3)).eval F G = .ok p ∧
      (TqExpr.op .add (.quantity 1 (3 : ℚ)) (.quantity 0 2)).eval F G = .ok q ∧ tqCompare r p q = none) ∧
    -- 5
    (tqAssign (.name 0) ⟨none, (5 : ℚ)⟩ = some 5 ∧ tqInit (.name 0) ⟨none, (5 : ℚ)⟩ = none) := by
  refine ⟨⟨⟨some (.name 0), 6⟩, ?_, ?_⟩, ⟨⟨some (.op .add (.name 0) (.name 1)), 5⟩, ?_, rfl⟩,
    ⟨⟨some (.fn f (.name 0)), F f 2⟩, ⟨some (.name 0), 2⟩, rfl, rfl, ?_, ?_⟩,
    ⟨⟨some (.op .add (.name 0) (.name 1)), 5⟩, ⟨some (.op .add (.name 1) (.name 0)), 5⟩, ?_, ?_, ?_⟩, ?_, ?_⟩
  · norm_num [TqExpr.eval, tqOp, opNumber, opTag, makeOpTag]
  · simp [tqAssign]
  · norm_num [TqExpr.eval, tqOp, opNumber, opTag, makeOpTag]
  · simp [tqAssign]
  · simp [tqCompare]
  · norm_num [TqExpr.eval, tqOp, opNumber, opTag, makeOpTag]
  · norm_num [TqExpr.eval, tqOp, opNumber, opTag, makeOpTag]
  · simp [tqCompare]
  · simp [tqAssign]
  · simp [tqInit]

end Geometrix
