import Verif.Lemmas.Vec
import Verif.Spec.Lexicographic

/-!
# Helper lemmas about the lexicographic order
-/

set_option linter.unusedSectionVars false

namespace Geometrix

open Spec

variable {K : Type*} [Field K] [LinearOrder K] [IsStrictOrderedRing K]

theorem lexCompare_iff (p q : P2 K) : lexCompare Cmp.direct p q = true ↔ LexLT p q := by
  unfold lexCompare LexLT
  simp only [direct_lt, direct_equals]
  split_ifs with h1 h2 h3 h4
  · simp [h1]
  · simp [h2, h3]
  · simp [h2, h4]
  · simp [h2, h3]
  · simp [h1, h2]

theorem lexLT_asymm {p q : P2 K} (h1 : LexLT p q) : ¬ LexLT q p := by
  rintro (h2 | ⟨h2, h3⟩) <;> rcases h1 with h1 | ⟨h1, h4⟩
  · exact lt_asymm h1 h2
  · exact h2.ne h1.symm
  · exact h1.ne h2.symm
  · exact lt_asymm h3 h4

theorem lexLT_trichotomy (p q : P2 K) : LexLT p q ∨ p = q ∨ LexLT q p := by
  rcases lt_trichotomy p.x q.x with h | h | h
  · exact Or.inl (Or.inl h)
  · rcases lt_trichotomy p.y q.y with h' | h' | h'
    · exact Or.inl (Or.inr ⟨h, h'⟩)
    · exact Or.inr (Or.inl (P2.ext h h'))
    · exact Or.inr (Or.inr (Or.inr ⟨h.symm, h'⟩))
  · exact Or.inr (Or.inr (Or.inl h))

end Geometrix
