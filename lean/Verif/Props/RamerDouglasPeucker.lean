import Verif.Lemmas.RamerDouglasPeucker

/-!
# C29: line simplification
-/

set_option linter.unusedSectionVars false

namespace Geometrix

open Spec

/-- Whenever the routine returns, the result is a subsequence of the input with the same first and last
vertex. -/
theorem C29_subsequence (checked : Bool) (poly r : List (P2 ℝ)) (epsilon : ℝ) (he : 0 ≤ epsilon)
    (h2 : 2 ≤ poly.length) (hr : ramerDouglasPeucker checked poly epsilon = .ok r) :
    r.Sublist poly ∧ r.head? = poly.head? ∧ r.getLast? = poly.getLast? := by
  obtain ⟨-, -, h, -⟩ := rdp_spec checked poly epsilon he (poly.length + 1) 0 poly.length (by omega)
    le_rfl (by omega)
  obtain ⟨-, k2, k3, -, k5⟩ := h r hr
  refine ⟨?_, ?_, ?_⟩
  · have := k5 (by omega)
    simpa [seg] using this
  · rw [k2, List.head?_eq_getElem?]
  · rw [k3, List.getLast?_eq_getElem?]

/-- It always comes to an end, and the only thing that can go wrong for two or more vertices is a failed
assertion. -/
theorem C29_terminates (checked : Bool) (poly : List (P2 ℝ)) (epsilon : ℝ) (he : 0 ≤ epsilon)
    (h2 : 2 ≤ poly.length) :
    (∃ r, ramerDouglasPeucker checked poly epsilon = .ok r) ∨
    ramerDouglasPeucker checked poly epsilon = .error .assertFailed := by
  obtain ⟨-, -, -, h⟩ := rdp_spec checked poly epsilon he (poly.length + 1) 0 poly.length (by omega)
    le_rfl (by omega)
  match hr : ramerDouglasPeucker checked poly epsilon with
  | .ok r => exact Or.inl ⟨r, rfl⟩
  | .error e => exact Or.inr (by rw [(h e hr).1])

/-- Without the range assertion (`NDEBUG`), and without two equal vertices, it always returns. -/
theorem C29_unchecked (poly : List (P2 ℝ)) (epsilon : ℝ) (he : 0 ≤ epsilon) (h2 : 2 ≤ poly.length)
    (hd : poly.Nodup) : ∃ r, ramerDouglasPeucker false poly epsilon = .ok r := by
  obtain ⟨-, -, -, h⟩ := rdp_spec false poly epsilon he (poly.length + 1) 0 poly.length (by omega)
    le_rfl (by omega)
  match hr : ramerDouglasPeucker false poly epsilon with
  | .ok r => exact ⟨r, rfl⟩
  | .error e =>
    rcases (h e hr).2 with h' | ⟨i, j, -, h3, h4, h5⟩
    · simp at h'
    · have := (List.nodup_iff_getElem?_ne_getElem?.mp hd) i (j - 1) (by omega) (by omega)
      exact absurd h5 this

example : (0 : ℝ) ≤ 1 ∧ 2 ≤ [(⟨0, 0⟩ : P2 ℝ), ⟨1, 5⟩, ⟨2, 0⟩].length ∧
    [(⟨0, 0⟩ : P2 ℝ), ⟨1, 5⟩, ⟨2, 0⟩].Nodup := by
  refine ⟨zero_le_one, by simp, ?_⟩
  simp [P2.ext_iff]

/-- Full claim: every removed vertex is within epsilon of the segment of the output that replaces it.
Proved only when everything between the first and the last vertex is removed, and for the line through
them; in general it is false (`C29_epsilon_refuted`). -/
theorem C29_epsilon_partial (checked : Bool) (poly : List (P2 ℝ)) (epsilon : ℝ) (he : 0 ≤ epsilon)
    (A B : P2 ℝ) (h2 : 2 ≤ poly.length)
    (hr : ramerDouglasPeucker checked poly epsilon = .ok [A, B]) :
    ∀ p ∈ poly, NearLine epsilon A B p := by
  have hs := (C29_subsequence checked poly _ epsilon he h2 hr).2
  have e1 : poly[0]? = some A := by rw [← List.head?_eq_getElem?, ← hs.1]; rfl
  have e2 : poly[poly.length - 1]? = some B := by rw [← List.getLast?_eq_getElem?, ← hs.2]; rfl
  have hself : Spec.dist A A ≤ epsilon := by rw [dist_self']; exact he
  have hself' : Spec.dist B B ≤ epsilon := by rw [dist_self']; exact he
  intro p hp
  obtain ⟨i, hi, rfl⟩ := List.getElem_of_mem hp
  by_cases h0 : i = 0
  · subst h0
    rw [List.getElem?_eq_getElem hi] at e1
    obtain rfl := Option.some.inj e1
    exact ⟨poly[0], ⟨0, by ext <;> simp⟩, hself⟩
  by_cases hn : i = poly.length - 1
  · subst hn
    rw [List.getElem?_eq_getElem hi] at e2
    obtain rfl := Option.some.inj e2
    exact ⟨_, ⟨1, by ext <;> simp⟩, hself'⟩
  unfold ramerDouglasPeucker rdp at hr
  rcases rdpFar_spec poly 0 poly.length (by omega) le_rfl (by omega) with ⟨hf, -, -⟩ |
      ⟨index, dmax, hf, hd0, hd1, hd2⟩
  · rw [hf] at hr; simp at hr
  · rw [hf] at hr
    simp only at hr
    by_cases hgt : dmax > epsilon
    · rw [if_pos hgt] at hr
      obtain ⟨i1, i2⟩ := hd1 (lt_of_le_of_lt he hgt)
      obtain ⟨-, -, L3, -⟩ := rdp_spec checked poly epsilon he poly.length 0 index i1 (by omega) (by omega)
      obtain ⟨-, -, R3, -⟩ := rdp_spec checked poly epsilon he poly.length index poly.length (by omega)
        le_rfl (by omega)
      cases hl : rdp checked poly epsilon poly.length 0 index with
      | error e => rw [hl] at hr; simp at hr
      | ok left =>
        cases hrr : rdp checked poly epsilon poly.length index poly.length with
        | error e => rw [hl, hrr] at hr; simp at hr
        | ok right =>
          rw [hl, hrr] at hr
          have hlen := congrArg List.length (Except.ok.inj hr)
          have l1 := (L3 left hl).1
          have r1 := (R3 right hrr).1
          simp only [List.length_append, List.length_dropLast, List.length_cons, List.length_nil] at hlen
          omega
    · obtain ⟨Q, q1, q2⟩ := hd2 i poly[i] (by omega) (by omega) (List.getElem?_eq_getElem hi)
      have a1 : poly[0] = A := by
        rw [List.getElem?_eq_getElem (by omega)] at e1; exact Option.some.inj e1
      have a2 : poly[poly.length - 1] = B := by
        rw [List.getElem?_eq_getElem (by omega)] at e2; exact Option.some.inj e2
      rw [a1, a2] at q1
      exact ⟨Q, q1, by linarith⟩

/-- What is guaranteed for every polyline: let `i < j` be the positions of two vertices that follow each other in
the result. The removed vertices between them are within epsilon of the line through vertex `i` and vertex `j - 1`,
or vertex `j` if that is the last of all. So of each gap only the last removed vertex is without a bound, and the
others have theirs with respect to another line than the one that replaces them. -/
theorem C29_chord_partial (checked : Bool) (poly r : List (P2 ℝ)) (epsilon : ℝ) (he : 0 ≤ epsilon)
    (h2 : 2 ≤ poly.length) (hr : ramerDouglasPeucker checked poly epsilon = .ok r) :
    ∃ idx : List Nat, idx.map (fun i => poly[i]?) = r.map some ∧ idx.Pairwise (· < ·) ∧
      idx.head? = some 0 ∧ idx.getLast? = some (poly.length - 1) ∧
      ∀ k i j, idx[k]? = some i → idx[k + 1]? = some j →
        (∀ m A B p, i < m → m + 1 < j → poly[i]? = some A → poly[j - 1]? = some B → poly[m]? = some p →
          j ≠ poly.length - 1 → NearLine epsilon A B p) ∧
        (∀ m A B p, i < m → m < j → poly[i]? = some A → poly[j]? = some B → poly[m]? = some p →
          j = poly.length - 1 → NearLine epsilon A B p) := by
  obtain ⟨idx, h1, h3, h4, h5⟩ := rdp_kept checked poly epsilon he (poly.length + 1) 0 poly.length r (by omega)
    le_rfl (by omega) hr
  refine ⟨idx, h1, List.isChain_iff_pairwise.1 (h5.imp fun _ _ h => h.1), h3, h4, fun k i j hi hj => ?_⟩
  obtain ⟨hk, rfl⟩ := List.getElem?_eq_some_iff.1 hi
  obtain ⟨hk', rfl⟩ := List.getElem?_eq_some_iff.1 hj
  have hp := List.isChain_iff_getElem.1 h5 k (by omega)
  refine ⟨fun m A B p g1 g2 gA gB gp gj => ?_, fun m A B p g1 g2 gA gB gp gj => ?_⟩
  · have e : chordEnd (poly.length - 1) idx[k + 1] = idx[k + 1] - 1 := if_neg gj
    exact hp.2 m A B p g1 (by rw [e]; omega) gA (by rw [e]; exact gB) gp
  · have e : chordEnd (poly.length - 1) idx[k + 1] = idx[k + 1] := if_pos gj
    exact hp.2 m A B p g1 (by rw [e]; exact g2) gA (by rw [e]; exact gB) gp

example : (0 : ℝ) ≤ 1 ∧ 2 ≤ [(⟨0, 0⟩ : P2 ℝ), ⟨1, 1⟩, ⟨2, 2⟩, ⟨2, 9⟩, ⟨20, 0⟩].length := ⟨zero_le_one, by simp⟩

/-- The simplification of `(0,0) (1,1) (2,2) (2,9) (20,0)` with epsilon 1 is `(0,0) (2,9) (20,0)`, but the
removed vertex `(2,2)` is further than 1 from every point of the first edge of the result: the first
part is simplified without the vertex that splits the polyline, and its own last vertex is dropped
afterwards. -/
theorem C29_epsilon_refuted (checked : Bool) :
    ramerDouglasPeucker checked [(⟨0, 0⟩ : P2 ℝ), ⟨1, 1⟩, ⟨2, 2⟩, ⟨2, 9⟩, ⟨20, 0⟩] 1 =
      .ok [⟨0, 0⟩, ⟨2, 9⟩, ⟨20, 0⟩] ∧
    ¬ NearSegment 1 (⟨0, 0⟩ : P2 ℝ) ⟨2, 9⟩ ⟨2, 2⟩ ∧
    ¬ NearSegment 1 (⟨2, 9⟩ : P2 ℝ) ⟨20, 0⟩ ⟨2, 2⟩ := by
  have key : ∀ (x y X Y t : ℝ), 1 < (x - X) ^ 2 + (y - Y) ^ 2 →
      ¬ Spec.dist (⟨x, y⟩ : P2 ℝ) ⟨X, Y⟩ ≤ 1 := by
    intro x y X Y _ h hle
    have h1 := dist_sq' (⟨x, y⟩ : P2 ℝ) ⟨X, Y⟩
    have h2 := dist_nonneg' (⟨x, y⟩ : P2 ℝ) ⟨X, Y⟩
    simp only at h1
    nlinarith
  refine ⟨?_, ?_, ?_⟩
  · have d1 : Spec.dist (⟨0, 0⟩ : P2 ℝ) ⟨20, 0⟩ = 20 := by
      rw [Spec.dist, show ((20 : ℝ) - 0) ^ 2 + (0 - 0) ^ 2 = 20 ^ 2 by norm_num,
        Real.sqrt_sq (by norm_num)]
    have f1 : rdpFar [(⟨0, 0⟩ : P2 ℝ), ⟨1, 1⟩, ⟨2, 2⟩, ⟨2, 9⟩, ⟨20, 0⟩] 0 5 = .ok (3, 9) := by
      have hne : (⟨0, 0⟩ : P2 ℝ) ≠ ⟨20, 0⟩ := by simp [P2.ext_iff]
      norm_num [rdpFar, makeLine_ok hne, List.range', rdpScan, pointLineDist, signedPointLineDist, dot, leftNormal, d1]
    have f2 : rdpFar [(⟨0, 0⟩ : P2 ℝ), ⟨1, 1⟩, ⟨2, 2⟩, ⟨2, 9⟩, ⟨20, 0⟩] 0 3 = .ok (0, 0) := by
      have hne : (⟨0, 0⟩ : P2 ℝ) ≠ ⟨2, 2⟩ := by simp [P2.ext_iff]
      norm_num [rdpFar, makeLine_ok hne, List.range', rdpScan, pointLineDist, signedPointLineDist, dot, leftNormal]
    have f3 : rdpFar [(⟨0, 0⟩ : P2 ℝ), ⟨1, 1⟩, ⟨2, 2⟩, ⟨2, 9⟩, ⟨20, 0⟩] 3 5 = .ok (0, 0) := by
      simp [rdpFar]
    unfold ramerDouglasPeucker
    simp only [List.length_cons, List.length_nil]
    unfold rdp
    norm_num [f1]
    unfold rdp
    norm_num [f2, f3]
  · rintro ⟨Q, ⟨t, h0, h1, rfl⟩, h⟩
    refine key 2 2 _ _ t ?_ h
    norm_num
    nlinarith [sq_nonneg (t - 22 / 85)]
  · rintro ⟨Q, ⟨t, h0, h1, rfl⟩, h⟩
    refine key 2 2 _ _ t ?_ h
    norm_num
    nlinarith [sq_nonneg (t - 1 / 5)]

/-- With assertions on, the routine aborts whenever the second vertex is the one to keep, here for a
triangle shaped polyline of three vertices. -/
theorem C29_assert_refuted :
    ramerDouglasPeucker true [(⟨0, 0⟩ : P2 ℝ), ⟨1, 5⟩, ⟨2, 0⟩] 1 = .error .assertFailed := by
  have d1 : Spec.dist (⟨0, 0⟩ : P2 ℝ) ⟨2, 0⟩ = 2 := by
    rw [Spec.dist, show ((2 : ℝ) - 0) ^ 2 + (0 - 0) ^ 2 = 2 ^ 2 by norm_num,
      Real.sqrt_sq (by norm_num)]
  have f1 : rdpFar [(⟨0, 0⟩ : P2 ℝ), ⟨1, 5⟩, ⟨2, 0⟩] 0 3 = .ok (1, 5) := by
    have hne : (⟨0, 0⟩ : P2 ℝ) ≠ ⟨2, 0⟩ := by simp [P2.ext_iff]
    norm_num [rdpFar, makeLine_ok hne, List.range', rdpScan, pointLineDist, signedPointLineDist, dot, leftNormal, d1]
  have f2 : rdpFar [(⟨0, 0⟩ : P2 ℝ), ⟨1, 5⟩, ⟨2, 0⟩] 0 1 = .ok (0, 0) := by simp [rdpFar]
  unfold ramerDouglasPeucker
  simp only [List.length_cons, List.length_nil]
  unfold rdp
  norm_num [f1]
  unfold rdp
  norm_num [f2]

end Geometrix
