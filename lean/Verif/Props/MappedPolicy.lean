import Verif.Spec.MappedPolicy
import Verif.Props.Policy
import Mathlib.Data.Rat.Floor

/-!
# C136: comparison policies by type
-/

namespace Geometrix

open Spec

variable {K : Type*}

/-- Numbers of the same unit can be compared, others do not compile. -/
theorem C136_compiles (m : MappedPolicy K) (u v : TypedNum K) : (mappedEquals m u v ≠ none ↔ SameUnit u.ty v.ty) ∧
    (mappedLt m u v ≠ none ↔ SameUnit u.ty v.ty) ∧ (mappedLe m u v ≠ none ↔ SameUnit u.ty v.ty) ∧
    (mappedGt m u v ≠ none ↔ SameUnit u.ty v.ty) ∧ (mappedGe m u v ≠ none ↔ SameUnit u.ty v.ty) := by
  have h : areComparable u.ty v.ty = true ↔ SameUnit u.ty v.ty := by
    cases u.ty <;> cases v.ty <;> simp [areComparable, SameUnit]
  simp only [mappedEquals, mappedLt, mappedLe, mappedGt, mappedGe, ← h]
  cases areComparable u.ty v.ty <;> simp

example : SameUnit (.quantity 0 1) (.plain 2) := rfl

/-- Two numbers of one type are compared by the policy of the type, or by the default one if the type has none. -/
theorem C136_policy (m : MappedPolicy K) (t : NumTy) (x y : K) (c : Cmp K)
    (hc : ((t, c) ∈ m.entries ∧ (m.entries.map Prod.fst).Nodup) ∨ (t ∉ m.entries.map Prod.fst ∧ c = m.dflt)) :
    mappedEquals m ⟨t, x⟩ ⟨t, y⟩ = some (c.equals x y) ∧ mappedLt m ⟨t, x⟩ ⟨t, y⟩ = some (c.lt x y) ∧
    mappedLe m ⟨t, x⟩ ⟨t, y⟩ = some (c.le x y) ∧ mappedGt m ⟨t, x⟩ ⟨t, y⟩ = some (c.gt x y) ∧
    mappedGe m ⟨t, x⟩ ⟨t, y⟩ = some (c.ge x y) := by
  have h1 : areComparable t t = true := by cases t <;> simp [areComparable]
  have h2 : resolvePolicy m t = c := by
    rw [resolvePolicy]
    rcases hc with ⟨h, hn⟩ | ⟨h, rfl⟩
    · have key : ∀ l : List (NumTy × Cmp K), (t, c) ∈ l → (l.map Prod.fst).Nodup → findPolicy t l = some c := by
        intro l
        induction l with
        | nil => intro h; cases h
        | cons e rest ih =>
          intro h hn
          rw [findPolicy]
          rw [List.map_cons, List.nodup_cons] at hn
          rcases List.mem_cons.mp h with h | h
          · rw [← h, if_pos rfl]
          · have hne : e.1 ≠ t := fun he => hn.1 (he ▸ List.mem_map_of_mem (f := Prod.fst) h)
            rw [if_neg hne]
            exact ih h hn.2
      rw [key _ h hn]
    · have key : ∀ l : List (NumTy × Cmp K), t ∉ l.map Prod.fst → findPolicy t l = none := by
        intro l
        induction l with
        | nil => intro _; rfl
        | cons e rest ih =>
          intro h
          rw [List.map_cons, List.mem_cons, not_or] at h
          rw [findPolicy, if_neg (Ne.symm h.1)]
          exact ih h.2
      rw [key _ h]
  simp only [mappedEquals, mappedLt, mappedLe, mappedGt, mappedGe, h1, h2, if_true, and_self]

example : ((NumTy.quantity 1 0, (Cmp.direct : Cmp ℚ)) ∈ [(NumTy.quantity 1 0, (Cmp.direct : Cmp ℚ))]) := by simp

/-- Two numbers whose types have the same, coherent, policy are compared coherently. In particular numbers of one type. -/
theorem C136_coherent_partial (m : MappedPolicy K) (u v : TypedNum K) (h : resolvePolicy m u.ty = resolvePolicy m v.ty)
    (hc : Coherent (resolvePolicy m u.ty)) : CoherentFor m u v := by
  have hs : areComparable u.ty v.ty = areComparable v.ty u.ty := by
    cases u.ty <;> cases v.ty <;> simp [areComparable, eq_comm]
  cases ha : areComparable u.ty v.ty with
  | false =>
    have hb : areComparable v.ty u.ty = false := by rw [← hs, ha]
    constructor <;> simp [mappedEquals, mappedLt, mappedLe, mappedGt, mappedGe, ha, hb]
  | true =>
    have hb : areComparable v.ty u.ty = true := by rw [← hs, ha]
    have e1 := hc.symm u.value v.value
    have e2 := hc.swap u.value v.value
    constructor <;> simp only [mappedEquals, mappedLt, mappedLe, mappedGt, mappedGe, ha, hb, if_true, Option.some.injEq, ← h]
    · simp
    · exact fun _ => hc.trichotomy _ _
    · exact hc.le_iff _ _
    · exact hc.ge_iff _ _
    · exact e1
    · exact e2

example : resolvePolicy (K := ℚ) ⟨Cmp.direct, [(.plain 1, Cmp.absolute 1)]⟩ (.plain 2) =
    resolvePolicy ⟨Cmp.direct, [(.plain 1, Cmp.absolute 1)]⟩ (.plain 3) := rfl

/-- A policy made from one tolerance with policies of one kind compares all numbers coherently, of whatever types. -/
theorem C136_tolerance [Field K] [LinearOrder K] [IsStrictOrderedRing K] (e : K) (he : 0 ≤ e) (tys : List NumTy) (u v : TypedNum K) :
    CoherentFor (mappedOfTolerance e Cmp.absolute (tys.map fun t => (t, Cmp.absolute))) u v ∧
    CoherentFor (mappedOfTolerance e Cmp.relative (tys.map fun t => (t, Cmp.relative))) u v := by
  have key : ∀ (mk : K → Cmp K) (t : NumTy), resolvePolicy (mappedOfTolerance e mk (tys.map fun t => (t, mk))) t = mk e := by
    intro mk t
    have h : ∀ l : List NumTy, findPolicy t ((l.map fun t => (t, mk)).map fun x => (x.1, x.2 e)) = none ∨
        findPolicy t ((l.map fun t => (t, mk)).map fun x => (x.1, x.2 e)) = some (mk e) := by
      intro l
      induction l with
      | nil => exact Or.inl rfl
      | cons a l ih =>
        simp only [List.map_cons, findPolicy]
        split_ifs
        · exact Or.inr rfl
        · exact ih
    rw [resolvePolicy, mappedOfTolerance]
    rcases h tys with h | h <;> rw [h]
  constructor
  · apply C136_coherent_partial
    · rw [key, key]
    · rw [key]; exact C01_absolute_coherent e he
  · apply C136_coherent_partial
    · rw [key, key]
    · rw [key]; exact C01_relative_coherent e he

example : (0 : ℚ) ≤ 1 / 100 := by norm_num

/-- Numbers of two types with different policies are not compared coherently: the policy is that of the first number. With a tolerance of 1
for one type and none for another, 0 of the first type equals 1 of the second, but 1 of the second does not equal 0 of the first; and
`less_than(u, v)` is not `greater_than(v, u)`. -/
theorem C136_mixed_refuted :
    ∃ (m : MappedPolicy ℚ) (u v : TypedNum ℚ), SameUnit u.ty v.ty ∧ (∀ t, Coherent (resolvePolicy m t)) ∧
      mappedEquals m u v = some true ∧ mappedEquals m v u = some false ∧
      mappedLt m u v = some false ∧ mappedGt m v u = some true := by
  refine ⟨⟨Cmp.direct, [(.plain 1, Cmp.absolute 1)]⟩, ⟨.plain 1, 0⟩, ⟨.plain 2, 1⟩, trivial, ?_, ?_, ?_, ?_, ?_⟩
  · intro t
    simp only [resolvePolicy, findPolicy]
    split_ifs
    · exact C01_absolute_coherent 1 (by norm_num)
    · exact C01_direct_coherent
  all_goals norm_num [mappedEquals, mappedLt, mappedGt, areComparable, resolvePolicy, findPolicy, Cmp.absolute, Cmp.direct, absoluteValue]

end Geometrix
