import Verif.Lemmas.SolidBsp
import Verif.Spec.BspSelector

set_option linter.unusedSectionVars false

namespace Geometrix

open Spec

variable {K : Type*} [Field K] [LinearOrder K] [IsStrictOrderedRing K]

theorem bspScore_eq (items : List (BspItem K)) (i : Nat) (it : BspItem K) :
    bspScore Cmp.direct items i it = lineScore (items.map fun o => (o.a, o.b)) i it.plane.n it.plane.d := by
  unfold bspScore lineScore
  dsimp only
  rw [List.eraseIdx_map, List.countP_map, List.countP_map, List.countP_map]
  have hf : ∀ p : P2 K, it.plane.n.x * p.x + it.plane.n.y * p.y - it.plane.d = planeDist it.plane p := by
    intro p; simp [planeDist, dot]; ring
  have h1 : ∀ o : BspItem K, (classifySimplex Cmp.direct [o.a, o.b] it.plane = .coplanar ∨
      classifySimplex Cmp.direct [o.a, o.b] it.plane = .front) ↔
      (0 ≤ planeDist it.plane o.a ∧ 0 ≤ planeDist it.plane o.b) := by
    intro o
    rcases classifySegment_cases o.a o.b it.plane with ⟨h, h1, h2⟩ | ⟨h, h1, h2, -⟩ | ⟨h, h1, h2, h3⟩ | ⟨h, h1⟩
    · simp [h, h1, h2]
    · simp [h, h1, h2]
    · simp only [h, reduceCtorEq, or_self, false_iff]
      rintro ⟨k1, k2⟩
      rcases h3 with h3 | h3 <;> linarith
    · simp only [h, reduceCtorEq, or_self, false_iff]
      rintro ⟨k1, k2⟩
      rcases h1 with h3 | h3 <;> linarith [h3.1, h3.2]
  have h2 : ∀ o : BspItem K, (classifySimplex Cmp.direct [o.a, o.b] it.plane = .back) ↔
      (planeDist it.plane o.a ≤ 0 ∧ planeDist it.plane o.b ≤ 0 ∧
        (planeDist it.plane o.a < 0 ∨ planeDist it.plane o.b < 0)) := by
    intro o
    rcases classifySegment_cases o.a o.b it.plane with ⟨h, h1, h2⟩ | ⟨h, h1, h2, h3⟩ | ⟨h, h1, h2, h3⟩ | ⟨h, h1⟩
    · simp [h, h1, h2]
    · simp only [h, reduceCtorEq, false_iff]
      rintro ⟨k1, k2, -⟩
      rcases h3 with h3 | h3 <;> linarith
    · simp [h, h1, h2, h3]
    · simp only [h, reduceCtorEq, false_iff]
      rintro ⟨k1, k2, -⟩
      rcases h1 with h3 | h3 <;> linarith [h3.1, h3.2]
  have h3 : ∀ o : BspItem K, (classifySimplex Cmp.direct [o.a, o.b] it.plane = .straddling) ↔
      planeDist it.plane o.a * planeDist it.plane o.b < 0 := by
    intro o
    rw [mul_neg_iff]
    rcases classifySegment_cases o.a o.b it.plane with ⟨h, h1, h2⟩ | ⟨h, h1, h2, h3⟩ | ⟨h, h1, h2, h3⟩ | ⟨h, h1⟩
    · simp [h, h1, h2]
    · simp only [h, reduceCtorEq, false_iff]
      rintro (⟨k1, k2⟩ | ⟨k1, k2⟩) <;> linarith
    · simp only [h, reduceCtorEq, false_iff]
      rintro (⟨k1, k2⟩ | ⟨k1, k2⟩) <;> linarith
    · simp [h, h1]
  simp only [Function.comp_def, hf, h1, h2, h3]

/-- The loop keeps the first of the best. -/
theorem scoredLoop_min (cmp : Cmp K) (items : List (BspItem K)) : ∀ (l : List (BspItem K)) (i : Nat)
    (best : Option (Nat × K)), l = items.drop i →
    (∀ b, best = some b → b.1 < i ∧ (∃ it, items[b.1]? = some it ∧ it.used = false ∧ b.2 = bspScore cmp items b.1 it) ∧
      ∀ j jt, items[j]? = some jt → jt.used = false → j < i →
        b.2 ≤ bspScore cmp items j jt ∧ (j < b.1 → b.2 < bspScore cmp items j jt)) →
    (best = none → ∀ j jt, items[j]? = some jt → j < i → jt.used = true) →
    ∀ b, scoredLoop cmp items l i best = some b →
      (∃ it, items[b.1]? = some it ∧ it.used = false ∧ b.2 = bspScore cmp items b.1 it) ∧
      ∀ j jt, items[j]? = some jt → jt.used = false →
        b.2 ≤ bspScore cmp items j jt ∧ (j < b.1 → b.2 < bspScore cmp items j jt)
  | [], i, best, hl, hb, hn, b, h => by
    have hi : items.length ≤ i := List.drop_eq_nil_iff.1 hl.symm
    unfold scoredLoop at h
    obtain ⟨-, h1, h2⟩ := hb b h
    refine ⟨h1, fun j jt hj hu => h2 j jt hj hu ?_⟩
    have := (List.getElem?_eq_some_iff.1 hj).1
    omega
  | it :: rest, i, best, hl, hb, hn, b, h => by
    have hi : items[i]? = some it := by
      have : (items.drop i)[0]? = some it := by rw [← hl]; rfl
      simpa using this
    have hr : rest = items.drop (i + 1) := by
      have : (items.drop i).tail = rest := by rw [← hl]; rfl
      rw [← this, List.tail_drop]
    unfold scoredLoop at h
    by_cases hu : it.used = true
    · rw [if_pos hu] at h
      refine scoredLoop_min cmp items rest (i + 1) best hr ?_ ?_ b h
      · intro b hbb
        obtain ⟨h1, h2, h3⟩ := hb b hbb
        refine ⟨by omega, h2, fun j jt hj hju hji => ?_⟩
        by_cases he : j = i
        · subst he
          rw [hi] at hj
          cases hj
          rw [hu] at hju
          simp at hju
        · exact h3 j jt hj hju (by omega)
      · intro hbn j jt hj hji
        by_cases he : j = i
        · subst he
          rw [hi] at hj
          cases hj
          exact hu
        · exact hn hbn j jt hj (by omega)
    · rw [if_neg hu] at h
      have hf : it.used = false := by simpa using hu
      dsimp only at h
      cases best with
      | none =>
        dsimp only at h
        refine scoredLoop_min cmp items rest (i + 1) _ hr ?_ (by simp) b h
        intro b hbb
        obtain rfl := Option.some.inj hbb
        refine ⟨Nat.lt_succ_self i, ⟨it, hi, hf, rfl⟩, fun j jt hj hju hji => ?_⟩
        by_cases he : j = i
        · subst he
          rw [hi] at hj
          cases hj
          exact ⟨le_rfl, fun h => absurd h (lt_irrefl _)⟩
        · have := hn rfl j jt hj (by omega)
          rw [hju] at this
          simp at this
      | some c =>
        dsimp only at h
        obtain ⟨h1, h2, h3⟩ := hb c rfl
        by_cases hs : bspScore cmp items i it < c.2
        · rw [if_pos hs] at h
          refine scoredLoop_min cmp items rest (i + 1) _ hr ?_ (by simp) b h
          intro b hbb
          obtain rfl := Option.some.inj hbb
          refine ⟨Nat.lt_succ_self i, ⟨it, hi, hf, rfl⟩, fun j jt hj hju hji => ?_⟩
          by_cases he : j = i
          · subst he
            rw [hi] at hj
            cases hj
            exact ⟨le_rfl, fun h => absurd h (lt_irrefl _)⟩
          · have := (h3 j jt hj hju (by omega)).1
            exact ⟨(lt_of_lt_of_le hs this).le, fun _ => lt_of_lt_of_le hs this⟩
        · rw [if_neg hs] at h
          refine scoredLoop_min cmp items rest (i + 1) _ hr ?_ (by simp) b h
          intro b hbb
          obtain rfl := Option.some.inj hbb
          refine ⟨by omega, h2, fun j jt hj hju hji => ?_⟩
          by_cases he : j = i
          · subst he
            rw [hi] at hj
            cases hj
            exact ⟨not_lt.1 hs, fun h => by omega⟩
          · exact h3 j jt hj hju (by omega)

end Geometrix
