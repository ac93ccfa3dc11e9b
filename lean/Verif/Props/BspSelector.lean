import Verif.Lemmas.BspSelector

/-!
# C99: which segment divides the others in a solid leaf tree
-/

set_option linter.unusedSectionVars false

namespace Geometrix

open Spec

variable {K : Type*} [Field K] [LinearOrder K] [IsStrictOrderedRing K]

/-- `autopartition_policy` selects the first segment that is not used; if there is none, it selects none. -/
theorem C99_first (items : List (BspItem K)) :
    (autoSelect items = none → ∀ it ∈ items, it.used = true) ∧
    ∀ k, autoSelect items = some k → (∃ it, items[k]? = some it ∧ it.used = false) ∧
      ∀ j it, items[j]? = some it → j < k → it.used = true := by
  unfold autoSelect
  constructor
  · intro hk it hit
    rw [List.findIdx?_eq_none_iff] at hk
    simpa using hk it hit
  · intro k hk
    rw [List.findIdx?_eq_some_iff_getElem] at hk
    obtain ⟨h1, h2, h3⟩ := hk
    refine ⟨⟨items[k], List.getElem?_eq_getElem h1, by simpa using h2⟩, ?_⟩
    intro j it hj hjk
    have := h3 j hjk
    obtain ⟨hj1, hj2⟩ := List.getElem?_eq_some_iff.1 hj
    rw [← hj2]
    simpa using this

example : autoSelect [(⟨⟨0, 0⟩, ⟨1, 0⟩, true, 0, ⟨⟨0, 1⟩, 0⟩⟩ : BspItem ℚ), ⟨⟨0, 1⟩, ⟨1, 1⟩, false, 1, ⟨⟨0, 1⟩, 1⟩⟩] = some 1 := by
  decide +kernel

/-- `scored_selector_policy` selects, of the segments that are not used, the first with the lowest score; if there is none,
it selects none. -/
theorem C99_scored (items : List (BspItem K)) :
    (scoredSelect Cmp.direct items = none → ∀ it ∈ items, it.used = true) ∧
    ∀ k, scoredSelect Cmp.direct items = some k →
      ∃ it, items[k]? = some it ∧ it.used = false ∧ ∀ j jt, items[j]? = some jt → jt.used = false →
        lineScore (items.map fun o => (o.a, o.b)) k it.plane.n it.plane.d ≤
          lineScore (items.map fun o => (o.a, o.b)) j jt.plane.n jt.plane.d ∧
        (j < k → lineScore (items.map fun o => (o.a, o.b)) k it.plane.n it.plane.d <
          lineScore (items.map fun o => (o.a, o.b)) j jt.plane.n jt.plane.d) := by
  refine ⟨(scoredSelect_selects Cmp.direct items).2, fun k h => ?_⟩
  unfold scoredSelect at h
  rw [Option.map_eq_some_iff] at h
  obtain ⟨b, hb, rfl⟩ := h
  obtain ⟨⟨it, h1, h2, h3⟩, h4⟩ := scoredLoop_min Cmp.direct items items 0 none (by simp) (by simp) (by simp) b hb
  refine ⟨it, h1, h2, fun j jt hj hu => ?_⟩
  have := h4 j jt hj hu
  rw [h3, bspScore_eq, bspScore_eq] at this
  exact this

/-- Of three segments, the line of the first cuts the third, the other two lines cut nothing. -/
example : scoredSelect Cmp.direct [(⟨⟨0, 0⟩, ⟨1, 0⟩, false, 0, ⟨⟨0, 1⟩, 0⟩⟩ : BspItem ℚ),
    ⟨⟨0, 5⟩, ⟨1, 5⟩, false, 1, ⟨⟨0, 1⟩, 5⟩⟩, ⟨⟨3, -1⟩, ⟨3, 1⟩, false, 2, ⟨⟨-1, 0⟩, -3⟩⟩] = some 1 := by
  decide +kernel

end Geometrix
