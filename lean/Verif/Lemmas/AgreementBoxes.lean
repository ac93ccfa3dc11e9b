import Verif.Lemmas.Agreement
import Verif.Spec.BoxAsObb

/-!
# Lemmas about boxes as oriented boxes
-/

set_option linter.unusedSectionVars false

namespace Geometrix

open Spec

variable {K : Type*} [Field K] [LinearOrder K] [IsStrictOrderedRing K]

theorem validObb_asObb {b : Box K} (hb : ValidBox b) : ValidObb (asObb b) := by
  obtain ⟨h1, h2⟩ := hb
  refine ⟨by simp [asObb, dot], by simp [asObb, dot], by simp [asObb, dot], ?_, ?_⟩ <;>
    simp only [asObb] <;> linarith

theorem inObb_asObb (b : Box K) (P : P2 K) : InObb (asObb b) P ↔ InBox b P := by
  constructor
  · rintro ⟨s, t, hs, ht, rfl⟩
    simp only [asObb] at hs ht
    rw [abs_le] at hs ht
    simp only [InBox, asObb, P2.add_x, P2.add_y, P2.smul_x, P2.smul_y]
    refine ⟨?_, ?_, ?_, ?_⟩ <;> linarith
  · rintro ⟨h1, h2, h3, h4⟩
    refine ⟨P.x - (b.lo.x + b.hi.x) / 2, P.y - (b.lo.y + b.hi.y) / 2, ?_, ?_, ?_⟩
    · simp only [asObb]; rw [abs_le]; constructor <;> linarith
    · simp only [asObb]; rw [abs_le]; constructor <;> linarith
    · apply P2.ext <;> simp [asObb]

theorem isMinOver_unique {α : Type*} {S : α → Prop} {f : α → K} {m n : K} (h : IsMinOver S f m)
    (h' : IsMinOver S f n) : m = n := by
  obtain ⟨⟨a, ha, rfl⟩, h1⟩ := h
  obtain ⟨⟨b, hb, rfl⟩, h2⟩ := h'
  exact le_antisymm (h1 b hb) (h2 a ha)

end Geometrix
