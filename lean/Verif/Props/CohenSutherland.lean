import Verif.Lemmas.CohenSutherland
import Mathlib.Data.Rat.Cast.Order

/-!
# C16: Cohen–Sutherland clipping
-/

set_option linter.unusedSectionVars false

namespace Geometrix

open Spec

variable {K : Type*} [Field K] [LinearOrder K] [IsStrictOrderedRing K]

/-- The routine always ends without a fault. When it accepts, the two points it leaves are points of
the segment and the segment between them is exactly the part of the given segment in the window. When
it rejects, no point of the given segment is in the window. -/
theorem C16_clip {b : Box K} (hb : ValidBox b) (p0 p1 : P2 K) :
    ∃ acc q0 q1, cohenSutherland Cmp.direct b p0 p1 = .ok (acc, q0, q1) ∧
      (acc = true → ∀ Q, OnSegment q0 q1 Q ↔ OnSegment p0 p1 Q ∧ InBox b Q) ∧
      (acc = false → ¬ ∃ Q, OnSegment p0 p1 Q ∧ InBox b Q) := by
  obtain ⟨acc, s, t, h0, hst, h1, e, ha, hn⟩ := cohenSutherland_spec hb p0 p1
  refine ⟨acc, _, _, e, ?_, ?_⟩
  · intro hacc
    obtain ⟨i0, i1, hu⟩ := ha hacc
    intro Q
    constructor
    · rintro ⟨u, u0, u1, rfl⟩
      refine ⟨⟨s + u * (t - s), by nlinarith, by nlinarith, ?_⟩, ?_⟩
      · ext
        · simp [along_x]; ring
        · simp [along_y]; ring
      · obtain ⟨a1, a2, a3, a4⟩ := i0
        obtain ⟨c1, c2, c3, c4⟩ := i1
        have u1' : 0 ≤ 1 - u := by linarith
        refine ⟨?_, ?_, ?_, ?_⟩ <;>
          simp only [P2.add_x, P2.add_y, P2.sub_x, P2.sub_y, P2.smul_x, P2.smul_y] <;> nlinarith
    · rintro ⟨⟨u, u0, u1, rfl⟩, hin⟩
      obtain ⟨k1, k2⟩ := hu u u0 u1 hin
      rcases eq_or_lt_of_le hst with h | h
      · have : u = s := le_antisymm (h ▸ k2) k1
        subst this; subst h
        refine ⟨0, le_rfl, zero_le_one, ?_⟩
        ext <;> simp [along_x, along_y]
      · have hd : 0 < t - s := by linarith
        refine ⟨(u - s) / (t - s), div_nonneg (by linarith) hd.le,
          (div_le_one hd).mpr (by linarith), ?_⟩
        ext
        · simp [along_x]; field_simp; ring
        · simp [along_y]; field_simp; ring
  · rintro hacc ⟨Q, ⟨u, u0, u1, rfl⟩, hin⟩
    exact hn hacc u u0 u1 hin

/-- The first point left stays nearer the first end: the segment is not turned round. -/
theorem C16_direction {b : Box K} (hb : ValidBox b) (p0 p1 : P2 K) :
    ∃ (acc : Bool) (s t : K), 0 ≤ s ∧ s ≤ t ∧ t ≤ 1 ∧
      cohenSutherland Cmp.direct b p0 p1 =
        .ok (acc, p0 + s • (p1 - p0), p0 + t • (p1 - p0)) := by
  obtain ⟨acc, s, t, h0, hst, h1, e, -, -⟩ := cohenSutherland_spec hb p0 p1
  exact ⟨acc, s, t, h0, hst, h1, e⟩

/-- A segment with both ends in the window is accepted unchanged. -/
theorem C16_inside {b : Box K} (hb : ValidBox b) (p0 p1 : P2 K) (h0 : InBox b p0)
    (h1 : InBox b p1) : cohenSutherland Cmp.direct b p0 p1 = .ok (true, p0, p1) := by
  rw [inBox_iff_outCode hb] at h0 h1
  simp [cohenSutherland, clipLoop, h0, h1]

/-- To clip a segment that was clipped changes nothing. -/
theorem C16_idempotent {b : Box K} (hb : ValidBox b) (p0 p1 q0 q1 : P2 K)
    (h : cohenSutherland Cmp.direct b p0 p1 = .ok (true, q0, q1)) :
    cohenSutherland Cmp.direct b q0 q1 = .ok (true, q0, q1) := by
  obtain ⟨acc, s, t, h0, hst, h1, e, ha, hn⟩ := cohenSutherland_spec hb p0 p1
  rw [e] at h
  have h' := Except.ok.inj h
  simp only [Prod.mk.injEq] at h'
  obtain ⟨hacc, rfl, rfl⟩ := h'
  obtain ⟨i0, i1, -⟩ := ha hacc
  exact C16_inside hb _ _ i0 i1

/-- A segment that passes two sides of the unit square, and one that passes by a corner. -/
example : ValidBox (⟨⟨0, 0⟩, ⟨1, 1⟩⟩ : Box ℚ) ∧
    (match cohenSutherland Cmp.direct (⟨⟨0, 0⟩, ⟨1, 1⟩⟩ : Box ℚ) ⟨-1, -1 / 2⟩ ⟨2, 1⟩ with
      | .ok c => c == (true, ⟨0, 0⟩, ⟨1, 1 / 2⟩) | _ => false) = true ∧
    (match cohenSutherland Cmp.direct (⟨⟨0, 0⟩, ⟨1, 1⟩⟩ : Box ℚ) ⟨-1, 1⟩ ⟨1, 5 / 2⟩ with
      | .ok c => c.1 == false | _ => false) = true := by
  refine ⟨by constructor <;> norm_num, by decide +kernel, by decide +kernel⟩

/-- With a window whose corners are the wrong way round (the precondition `ValidBox` does not hold)
the routine rejects a point that is between the corners; so the precondition is needed. -/
theorem C16_invalid_window :
    ∃ (b : Box ℚ) (p0 p1 : P2 ℚ), ¬ ValidBox b ∧
      ∃ Q, OnSegment p0 p1 Q ∧ InBox ⟨b.hi, b.lo⟩ Q ∧
        (match cohenSutherland Cmp.direct b p0 p1 with | .ok c => c.1 == false | _ => false) =
          true := by
  refine ⟨⟨⟨1, 1⟩, ⟨0, 0⟩⟩, ⟨1 / 2, 1 / 2⟩, ⟨1 / 2, 1 / 2⟩, ?_, ⟨1 / 2, 1 / 2⟩, ?_, ?_, ?_⟩
  · rintro ⟨h, -⟩; norm_num at h
  · exact ⟨0, le_rfl, zero_le_one, by ext <;> simp⟩
  · refine ⟨?_, ?_, ?_, ?_⟩ <;> norm_num
  · decide +kernel

end Geometrix
