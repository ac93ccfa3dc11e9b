import Verif.Lemmas.Views

/-!
# C143: views of matrices
-/

namespace Geometrix

open Spec

variable {K : Type*}

/-- C143, reading: a view gives the element that it shows, and there is exactly one.

The full property has no condition `SoundView`. A minor that excludes a row that does not exist has wrong numbers of rows
(`C143_excluded_refuted`), blocks with many edges are laid out wrongly (C124), and a vector of `2 ^ 31` elements cannot be read (C134). -/
theorem C143_get_partial {depth : Nat} {v : View} (hS : SoundView depth v) {i j : Nat} (hi : i < v.rows) (hj : j < v.cols) :
    ∃ x, StandsFor v i j x ∧ (∀ y, StandsFor v i j y → y = x) ∧
      ∀ env : Nat → Nat → Nat → K, viewGet depth env v i j = some (.ok (env x.1 x.2.1 x.2.2)) := by
  obtain ⟨x, hx⟩ := (standsFor_iff hS).2 ⟨hi, hj⟩
  have h := (viewAt_iff hS).2 hx
  refine ⟨x, hx, fun y hy => ?_, fun env => ?_⟩
  · have := (viewAt_iff hS).2 hy
    rw [h] at this
    exact (Except.ok.inj (Option.some.inj this)).symm
  · rw [viewGet, h]; rfl

example : SoundView 30 (exampleView (.minor 0 1 (.mat 4 4 0))) :=
  exampleView_sound (by simp [SoundView, View.rows, View.cols]) rfl rfl

/-- Row 2 and column 1 of the minor without row 0 and column 1 is row 3 and column 2 of the matrix. -/
example : viewGet 30 (fun k i j => 100 * k + 10 * i + j) (exampleView (.minor 0 1 (.mat 4 4 0))) 2 1 = some (.ok 32) ∧
    viewGet 30 (fun k i j => 100 * k + 10 * i + j) (exampleView (.minor 0 1 (.mat 4 4 0))) 2 3 = some (.ok 120) ∧
    viewGet 30 (fun k i j => 100 * k + 10 * i + j) (exampleView (.minor 0 1 (.mat 4 4 0))) 3 2 = some (.ok 220) := by
  refine ⟨rfl, rfl, rfl⟩

/-- Outside its rows and columns a view shows nothing, and reading there does not compile or fails when it runs. -/
theorem C143_outside {depth : Nat} {v : View} (hS : SoundView depth v) {i j : Nat} (h : ¬ (i < v.rows ∧ j < v.cols))
    (env : Nat → Nat → Nat → K) :
    (∀ x, ¬ StandsFor v i j x) ∧ (viewGet depth env v i j = none ∨ ∃ e, viewGet depth env v i j = some (.error e)) := by
  have hno : ∀ x, ¬ StandsFor v i j x := fun x hx => h ((standsFor_iff hS).1 ⟨x, hx⟩)
  refine ⟨hno, ?_⟩
  rw [viewGet]
  cases hv : viewAt depth v i j with
  | none => exact Or.inl rfl
  | some r =>
    cases r with
    | error e => exact Or.inr ⟨e, rfl⟩
    | ok x => exact absurd ((viewAt_iff hS).1 hv) (hno x)

/-- C143, writing through a view without minors: the element that it shows has the value afterwards, and no other element changes. -/
theorem C143_set_partial {depth : Nat} {v : View} (hS : SoundView depth v) (hM : MinorFree v) {i j : Nat} (hi : i < v.rows)
    (hj : j < v.cols) (env : Nat → Nat → Nat → K) (a : K) {x : Nat × Nat × Nat} (hx : StandsFor v i j x) :
    ∃ env', viewSet depth env v i j a = some (.ok env') ∧ env' x.1 x.2.1 x.2.2 = a ∧
      ∀ k p q, (k, p, q) ≠ x → env' k p q = env k p q := by
  refine ⟨setPlace env x a, ?_, ?_, fun k p q h => ?_⟩
  · rw [viewSet, if_pos (viewWritable_of_minorFree hS hM hi hj), (viewAt_iff hS).2 hx]; rfl
  · simp [setPlace]
  · simp [setPlace, h]

example : SoundView 30 (exampleView (.mat 3 3 0)) ∧ MinorFree (exampleView (.mat 3 3 0)) := by
  refine ⟨exampleView_sound (by simp [SoundView]) rfl rfl, fun k => ?_⟩
  match k with
  | 0 => trivial
  | 1 => trivial
  | 2 => trivial

/-- So a value that is written through a view is what all views of this element show afterwards, also views of other kinds. -/
theorem C143_set_get_partial {depth : Nat} {v w : View} (hS : SoundView depth v) (hM : MinorFree v) (hW : SoundView depth w)
    {i j p q : Nat} {x : Nat × Nat × Nat} (hx : StandsFor v i j x) (hy : StandsFor w p q x)
    (env : Nat → Nat → Nat → K) (a : K) :
    ∃ env', viewSet depth env v i j a = some (.ok env') ∧ viewGet depth env' w p q = some (.ok a) := by
  obtain ⟨hi, hj⟩ := (standsFor_iff hS).1 ⟨x, hx⟩
  obtain ⟨env', h1, h2, -⟩ := C143_set_partial hS hM hi hj env a hx
  refine ⟨env', h1, ?_⟩
  rw [viewGet, (viewAt_iff hW).2 hy]
  exact congrArg (fun b => some (Except.ok b)) h2

example : StandsFor (.colVec 3 1) 2 0 (1, 2, 0) ∧ StandsFor (.rowVec 3 1) 0 2 (1, 2, 0) := by
  simp [StandsFor]

/-- Writing outside does not compile or fails when it runs. -/
theorem C143_set_outside {depth : Nat} {v : View} (hS : SoundView depth v) {i j : Nat} (h : ¬ (i < v.rows ∧ j < v.cols))
    (env : Nat → Nat → Nat → K) (a : K) :
    viewSet depth env v i j a = none ∨ ∃ e, viewSet depth env v i j a = some (.error e) := by
  rw [viewSet]
  split_ifs with hw
  · cases hv : viewAt depth v i j with
    | none => exact Or.inl rfl
    | some r =>
      cases r with
      | error e => exact Or.inr ⟨e, rfl⟩
      | ok x => exact absurd ((standsFor_iff hS).1 ⟨x, (viewAt_iff hS).1 hv⟩) h
  · exact Or.inl rfl

/-- Writing through a minor does not compile. -/
theorem C143_minor_set (depth : Nat) (er ec : Nat) (v : View) (i j : Nat) (env : Nat → Nat → Nat → K) (a : K) :
    viewSet depth env (.minor er ec v) i j a = none := by
  simp [viewSet, viewWritable]

/-- C143, rows and columns: those of a matrix and of a matrix of blocks show the elements of the matrix.

The full property has no condition on `v`. It is false for minors (`C143_row_refuted`) and for vectors (`C143_row_vector_refuted`). -/
theorem C143_row_partial {depth : Nat} {v : View} (hS : SoundView depth v)
    (hv : (∃ r c k, v = .mat r c k) ∨ ∃ r c n blocks, v = .composite r c n blocks)
    {i j : Nat} {x : Nat × Nat × Nat} (hx : StandsFor v i j x) (env : Nat → Nat → Nat → K) :
    rowGet depth env v i j = some (.ok (env x.1 x.2.1 x.2.2)) ∧ colGet depth env v j i = some (.ok (env x.1 x.2.1 x.2.2)) := by
  have h := (viewAt_iff hS).2 hx
  rcases hv with ⟨r, c, k, rfl⟩ | ⟨r, c, n, blocks, rfl⟩
  · simp only [rowGet, colGet, rowAt, colAt, h]; exact ⟨rfl, rfl⟩
  · simp only [rowGet, colGet, rowAt, colAt, h]; exact ⟨rfl, rfl⟩

/-- The rows and columns of a minor show other elements than the minor. Of a matrix of 3 rows and columns, without the first row and the
first column, the first element is at row 1 and column 1; `get<0>` of the first row and of the first column is the element at row 0 and
column 0, in the row and column that are excluded. -/
theorem C143_row_refuted :
    ∃ (v : View) (x : Nat × Nat × Nat), SoundView 9 v ∧ StandsFor v 0 0 x ∧
      let env : Nat → Nat → Nat → ℤ := fun _ i j => 10 * i + j
      viewGet 9 env v 0 0 = some (.ok 11) ∧ env x.1 x.2.1 x.2.2 = 11 ∧
      rowGet 9 env v 0 0 = some (.ok 0) ∧ colGet 9 env v 0 0 = some (.ok 0) := by
  refine ⟨.minor 0 0 (.mat 3 3 0), (0, 1, 1), ?_, ?_, ?_⟩
  · simp [SoundView, View.rows, View.cols]
  · exact ⟨1, 1, Or.inr ⟨by decide, rfl⟩, Or.inr ⟨by decide, rfl⟩, by decide, by decide, rfl⟩
  · refine ⟨rfl, rfl, rfl, rfl⟩

/-- C143, products: the element of the product of two matrices or matrices of blocks is the sum of the products of the elements that
they show, in their order.

The full property has no conditions `hV` and `hW`; without them it is false (`C143_product_refuted`, `C143_product_vector_refuted`). -/
theorem C143_product_partial [Semiring K] {depth : Nat} {v w : View} (hS : SoundView depth v) (hW : SoundView depth w)
    (hV : (∃ r c k, v = .mat r c k) ∨ ∃ r c n blocks, v = .composite r c n blocks)
    (hW' : (∃ r c k, w = .mat r c k) ∨ ∃ r c n blocks, w = .composite r c n blocks)
    (hc : v.cols = w.rows) {i j : Nat} (x y : Nat → Nat × Nat × Nat) (hx : ∀ k < v.cols, StandsFor v i k (x k))
    (hy : ∀ k < v.cols, StandsFor w k j (y k)) (env : Nat → Nat → Nat → K) :
    viewProductAt depth env v w i j =
      some (.ok (((List.range v.cols).map fun k =>
        env (x k).1 (x k).2.1 (x k).2.2 * env (y k).1 (y k).2.1 (y k).2.2).sum)) := by
  rw [viewProductAt, if_pos hc]
  apply product_fold
  intro k hk
  exact ⟨(C143_row_partial hS hV (hx k (List.mem_range.1 hk)) env).1, (C143_row_partial hW hW' (hy k (List.mem_range.1 hk)) env).2⟩

example : SoundView 30 (.mat 2 3 0) ∧ SoundView 30 (.mat 3 1 1) ∧ (View.mat 2 3 0).cols = (View.mat 3 1 1).rows ∧
    (∀ k < 3, StandsFor (.mat 2 3 0) 1 k (0, 1, k)) ∧ ∀ k < 3, StandsFor (.mat 3 1 1) k 0 (1, k, 0) := by
  refine ⟨trivial, trivial, rfl, fun k hk => ⟨by decide, hk, rfl⟩, fun k hk => ⟨hk, by decide, rfl⟩⟩

/-- The product of a minor and a matrix is not that of the matrices they show: for a minor with the one element 11 and a matrix with the
one element 100 the product is 0. -/
theorem C143_product_refuted :
    ∃ v w : View, SoundView 9 v ∧ SoundView 9 w ∧ v.rows = 1 ∧ v.cols = 1 ∧ w.rows = 1 ∧ w.cols = 1 ∧
      let env : Nat → Nat → Nat → ℤ := fun k i j => 100 * k + 10 * i + j
      viewGet 9 env v 0 0 = some (.ok 11) ∧ viewGet 9 env w 0 0 = some (.ok 100) ∧
      viewProductAt 9 env v w 0 0 = some (.ok 0) := by
  refine ⟨.minor 0 0 (.mat 2 2 0), .mat 1 1 1, ?_, trivial, rfl, rfl, rfl, rfl, rfl, rfl, rfl⟩
  simp [SoundView, View.rows, View.cols]

/-- The product of a column vector and a row vector does not compile. -/
theorem C143_product_vector_refuted [Semiring K] (depth n m k l i j : Nat) (env : Nat → Nat → Nat → K) :
    viewProductAt depth env (.colVec n k) (.rowVec m l) i j = none :=
  rfl

/-- The rows and columns of a vector that is seen as a matrix cannot be read with `get`. -/
theorem C143_row_vector_refuted (depth n k i j : Nat) (env : Nat → Nat → Nat → K) :
    rowGet depth env (.colVec n k) i j = none ∧ colGet depth env (.colVec n k) j i = none ∧
    rowGet depth env (.rowVec n k) i j = none ∧ colGet depth env (.rowVec n k) j i = none :=
  ⟨rfl, rfl, rfl, rfl⟩

/-- C143, the member function of the rows: it gives the element that the view shows, for all views. -/
theorem C143_member_partial {depth : Nat} {v : View} (hS : SoundView depth v) {i j : Nat} {x : Nat × Nat × Nat}
    (hx : StandsFor v i j x) (env : Nat → Nat → Nat → K) :
    rowMemberGet depth env v i j = some (.ok (env x.1 x.2.1 x.2.2)) := by
  have h := (viewAt_iff hS).2 hx
  cases v with
  | mat r c k => simp only [rowMemberGet, rowMemberAt, h]; rfl
  | colVec n k =>
    obtain ⟨h1, rfl, rfl⟩ := hx
    simp only [rowMemberGet, rowMemberAt, (vectorIndex_ok hS).2 ⟨h1, rfl⟩]; rfl
  | rowVec n k => simp only [rowMemberGet, rowMemberAt, h]; rfl
  | minor er ec v =>
    simp only [viewAt] at h
    simp only [rowMemberGet, rowMemberAt, h]; rfl
  | composite r c n blocks => simp only [rowMemberGet, rowMemberAt, h]; rfl

/-- The member function of a row of a column vector gives an element also outside the one column. -/
theorem C143_member_refuted :
    ∃ v : View, SoundView 9 v ∧ v.cols = 1 ∧ (∀ x, ¬ StandsFor v 0 7 x) ∧
      rowMemberGet 9 (fun _ i _ => (i : ℤ) + 5) v 0 7 = some (.ok 5) := by
  refine ⟨.colVec 3 0, by simp [SoundView], rfl, fun x hx => ?_, rfl⟩
  exact absurd hx.2.1 (by decide)

/-- The elements of a row of a matrix cannot be written, though the row has a function for it; … -/
theorem C143_row_set_refuted (depth r c k i j : Nat) (env : Nat → Nat → Nat → K) (a : K) :
    rowSet depth env (.mat r c k) i j a = none :=
  rfl

/-- … those of a row of a matrix of blocks can. -/
theorem C143_row_set_partial {depth r c n : Nat} {blocks : Fin n → View} (hS : SoundView depth (.composite r c n blocks))
    (hM : MinorFree (.composite r c n blocks)) {i j : Nat} (hi : i < r) (hj : j < c) (env : Nat → Nat → Nat → K) (a : K)
    {x : Nat × Nat × Nat} (hx : StandsFor (.composite r c n blocks) i j x) :
    ∃ env', rowSet depth env (.composite r c n blocks) i j a = some (.ok env') ∧ env' x.1 x.2.1 x.2.2 = a ∧
      ∀ k p q, (k, p, q) ≠ x → env' k p q = env k p q :=
  C143_set_partial hS hM hi hj env a hx

/-- A minor may exclude a row that its matrix does not have. It counts one row less, and gives an element in the row behind its last. -/
theorem C143_excluded_refuted :
    ∃ v : View, v.rows = 1 ∧ viewGet 9 (fun _ i j => (10 * i + j : ℤ)) v 1 0 = some (.ok 11) :=
  ⟨.minor 5 0 (.mat 2 2 0), rfl, rfl⟩

end Geometrix
