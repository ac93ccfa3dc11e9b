import Verif.Lemmas.ExpressionsSound

/-!
# Products of expressions mean what linear algebra says
-/

set_option linter.unusedSectionVars false

namespace Geometrix

open Spec Finset

variable {K : Type*} [Field K] [LinearOrder K] [IsStrictOrderedRing K]
variable {sq : K → K} {env : Nat → Nat → Nat → K}

theorem agrees_congr {s : Shape} {v v' : Nat → Nat → Res K} {m : Option (Nat → Nat → K)} (h : Agrees s v m)
    (hv : ∀ i < s.rows, ∀ j < s.cols, v' i j = v i j) : Agrees s v' m := by
  cases m with
  | some f => intro i hi j hj; rw [hv i hi j hj]; exact h i hi j hj
  | none =>
    obtain ⟨i, hi, j, hj, e, he⟩ := h
    exact ⟨i, hi, j, hj, e, by rw [hv i hi j hj]; exact he⟩

/-- A number combined with every element, on the left. -/
theorem agrees_left {u : Shape} (hu : Positive u) {op : K → K → K} {v w : Nat → Nat → Res K}
    {m m' : Option (Nat → Nat → K)} (h : Agrees .scalar v m) (h' : Agrees u w m') :
    Agrees u (fun i j => both (fun x y => .ok (op x y)) (v 0 0) (w i j))
      (m.bind fun f => m'.bind fun g => some fun i j => op (f 0 0) (g i j)) := by
  cases m with
  | none =>
    obtain ⟨i, hi, j, hj, e, he⟩ := h
    obtain rfl : i = 0 := by simpa [Shape.rows] using hi
    obtain rfl : j = 0 := by simpa [Shape.cols] using hj
    obtain ⟨e', he'⟩ := both_left (fun x y => .ok (op x y)) (y := w 0 0) ⟨e, he⟩
    exact ⟨0, Positive.rows hu, 0, Positive.cols hu, e', he'⟩
  | some f =>
    have hf : v 0 0 = .ok (f 0 0) := h 0 (by simp [Shape.rows]) 0 (by simp [Shape.cols])
    cases m' with
    | none =>
      obtain ⟨i, hi, j, hj, e, he⟩ := h'
      obtain ⟨e', he'⟩ := both_right (fun x y => .ok (op x y)) (x := v 0 0) ⟨e, he⟩
      exact ⟨i, hi, j, hj, e', he'⟩
    | some g =>
      intro i hi j hj
      simp only [hf, h' i hi j hj, both_ok]

/-- A number combined with every element, on the right. -/
theorem agrees_right {u : Shape} (hu : Positive u) {op : K → K → K} {v w : Nat → Nat → Res K}
    {m m' : Option (Nat → Nat → K)} (h : Agrees u v m) (h' : Agrees .scalar w m') :
    Agrees u (fun i j => both (fun x y => .ok (op x y)) (v i j) (w 0 0))
      (m.bind fun f => m'.bind fun g => some fun i j => op (f i j) (g 0 0)) := by
  cases m with
  | none =>
    obtain ⟨i, hi, j, hj, e, he⟩ := h
    obtain ⟨e', he'⟩ := both_left (fun x y => .ok (op x y)) (y := w 0 0) ⟨e, he⟩
    exact ⟨i, hi, j, hj, e', he'⟩
  | some f =>
    cases m' with
    | none =>
      obtain ⟨i, hi, j, hj, e, he⟩ := h'
      obtain rfl : i = 0 := by simpa [Shape.rows] using hi
      obtain rfl : j = 0 := by simpa [Shape.cols] using hj
      obtain ⟨e', he'⟩ := both_right (fun x y => .ok (op x y)) (x := v 0 0) ⟨e, he⟩
      exact ⟨0, Positive.rows hu, 0, Positive.cols hu, e', he'⟩
    | some g =>
      have hg : w 0 0 = .ok (g 0 0) := h' 0 (by simp [Shape.rows]) 0 (by simp [Shape.cols])
      intro i hi j hj
      simp only [hg, h i hi j hj, both_ok]

/-- Sums of products of a row and a column. -/
theorem agrees_product {r n c : Nat} (hr : 1 ≤ r) (hn : 2 ≤ n) (hc : 1 ≤ c) {v w : Nat → Nat → Res K}
    {m m' : Option (Nat → Nat → K)} (P Q : (Nat → Nat → K) → Nat → Nat → K)
    (h : Agrees (.mat r n) v (m.map P)) (h' : Agrees (.mat n c) w (m'.map Q)) :
    Agrees (.mat r c) (fun i j => dotValue n (fun k => v i k) (fun k => w k j))
      (m.bind fun f => m'.bind fun g => some fun i j => ∑ k ∈ range n, P f i k * Q g k j) := by
  cases m with
  | none =>
    obtain ⟨i, hi, k, hk, e, he⟩ := h
    obtain ⟨e', he'⟩ := dotValue_left (n := n) (f := fun k => v i k) (g := fun k => w k 0) ⟨k, hk, e, he⟩
    exact ⟨i, hi, 0, hc, e', he'⟩
  | some f =>
    cases m' with
    | none =>
      obtain ⟨k, hk, j, hj, e, he⟩ := h'
      obtain ⟨e', he'⟩ := dotValue_right (n := n) (f := fun k => v 0 k) (g := fun k => w k j) ⟨k, hk, e, he⟩
      exact ⟨0, hr, j, hj, e', he'⟩
    | some g =>
      intro i hi j hj
      exact dotValue_ok hn (fun k hk => h i hi k hk) (fun k hk => h' k hk j hj)

/-- A column read as a row. -/
theorem agrees_row {n : Nat} {v : Nat → Nat → Res K} {m : Option (Nat → Nat → K)} (h : Agrees (.vec n) v m) :
    Agrees (.mat 1 n) (fun _ k => v k 0) (m.map fun f _ k => f k 0) := by
  cases m with
  | none =>
    obtain ⟨i, hi, j, hj, e, he⟩ := h
    obtain rfl : j = 0 := by simpa [Shape.cols] using hj
    exact ⟨0, by simp [Shape.rows], i, hi, e, he⟩
  | some f =>
    intro i hi j hj
    exact h j hj 0 (by simp [Shape.cols])

/-- A column read as a matrix of one column. -/
theorem agrees_column {n : Nat} {v : Nat → Nat → Res K} {m : Option (Nat → Nat → K)} (h : Agrees (.vec n) v m) :
    Agrees (.mat n 1) (fun k _ => v k 0) (m.map fun f k j => f k j) := by
  cases m with
  | none =>
    obtain ⟨i, hi, j, hj, e, he⟩ := h
    obtain rfl : j = 0 := by simpa [Shape.cols] using hj
    exact ⟨i, hi, 0, by simp [Shape.cols], e, he⟩
  | some f =>
    intro i hi j hj
    obtain rfl : j = 0 := by simpa [Shape.cols] using hj
    exact h i hi 0 (by simp [Shape.cols])

theorem agrees_self {s : Shape} {v : Nat → Nat → Res K} {m : Option (Nat → Nat → K)} (h : Agrees s v m) :
    Agrees s v (m.map fun f i j => f i j) := by
  cases m with
  | none => exact h
  | some f => exact h

theorem good_mul {a b : Tx} {s t u : Shape} (ha : GoodExpr sq env a s) (hb : GoodExpr sq env b t)
    (hma : meaningShape a = some s) (hmb : meaningShape b = some t)
    (hu : productShape s t = some u) (hsup : SupportedProduct s t) : GoodExpr sq env (.mul a b) u := by
  obtain ⟨h1, h2, h3, h4⟩ := ha
  obtain ⟨k1, k2, k3, k4⟩ := hb
  rcases s with _ | m | m | ⟨r, c⟩ <;> rcases t with _ | n | n | ⟨r', c'⟩ <;>
    simp only [productShape, reduceCtorEq, Option.some.injEq] at hu
  · -- scalar, scalar
    subst hu
    have hsh : shapeOf (.mul a b) = some .scalar := by simp [shapeOf, h1, k1, mulShape]
    refine ⟨hsh, trivial, ?_, ?_⟩
    · intro i hi j hj
      simp only [compiles, inRange_of hsh hi hj, h1, k1, h3 0 (by simp [Shape.rows]) 0 (by simp [Shape.cols]),
        k3 0 (by simp [Shape.rows]) 0 (by simp [Shape.cols]), Bool.and_self]
    · have := agrees_left (u := .scalar) trivial (op := fun x y => x * y) h4 k4
      unfold meaning
      simp only [hma, hmb, Option.bind_some]
      refine agrees_congr this ?_
      intro i hi j hj
      obtain rfl : i = 0 := by simpa [Shape.rows] using hi
      obtain rfl : j = 0 := by simpa [Shape.cols] using hj
      simp only [value, h1, k1]
  · -- scalar, vector
    subst hu
    have hsh : shapeOf (.mul a b) = some (.vec n) := by simp [shapeOf, h1, k1, mulShape]
    refine ⟨hsh, k2, ?_, ?_⟩
    · intro i hi j hj
      simp only [compiles, inRange_of hsh hi hj, h1, k1, h3 0 (by simp [Shape.rows]) 0 (by simp [Shape.cols]),
        k3 i hi 0 (by simp [Shape.cols]), Bool.and_self]
    · have := agrees_left k2 (op := fun x y => x * y) h4 k4
      unfold meaning
      simp only [hma, hmb, Option.bind_some]
      refine agrees_congr this ?_
      intro i hi j hj
      obtain rfl : j = 0 := by simpa [Shape.cols] using hj
      simp only [value, h1, k1]
  · -- scalar, matrix
    subst hu
    have hsh : shapeOf (.mul a b) = some (.mat r' c') := by simp [shapeOf, h1, k1, mulShape]
    refine ⟨hsh, k2, ?_, ?_⟩
    · intro i hi j hj
      simp only [compiles, inRange_of hsh hi hj, h1, k1, h3 0 (by simp [Shape.rows]) 0 (by simp [Shape.cols]),
        k3 i hi j hj, Bool.and_self]
    · have := agrees_left k2 (op := fun x y => x * y) h4 k4
      unfold meaning
      simp only [hma, hmb, Option.bind_some]
      refine agrees_congr this ?_
      intro i hi j hj
      simp only [value, h1, k1]
  · -- vector, scalar
    subst hu
    have hsh : shapeOf (.mul a b) = some (.vec m) := by simp [shapeOf, h1, k1, mulShape]
    refine ⟨hsh, h2, ?_, ?_⟩
    · intro i hi j hj
      simp only [compiles, inRange_of hsh hi hj, h1, k1, h3 i hi 0 (by simp [Shape.cols]),
        k3 0 (by simp [Shape.rows]) 0 (by simp [Shape.cols]), Bool.and_self]
    · have := agrees_right h2 (op := fun x y => x * y) h4 k4
      unfold meaning
      simp only [hma, hmb, Option.bind_some]
      refine agrees_congr this ?_
      intro i hi j hj
      obtain rfl : j = 0 := by simpa [Shape.cols] using hj
      simp only [value, h1, k1]
  · -- vector, vector
    split at hu
    · next hmn =>
      subst hmn
      obtain rfl : .scalar = u := by simpa using hu
      have hsh : shapeOf (.mul a b) = some .scalar := by simp [shapeOf, h1, k1, mulShape]
      refine ⟨hsh, trivial, ?_, ?_⟩
      · intro i hi j hj
        simp only [compiles, inRange_of hsh hi hj, h1, k1, Bool.true_and]
        exact dotCompiles_eq hsup (fun k hk => h3 k hk 0 (by simp [Shape.cols])) (fun k hk => k3 k hk 0 (by simp [Shape.cols]))
      · have := agrees_product (c := 1) (le_refl 1) hsup (le_refl 1) _ (fun g k _ => g k 0) (agrees_row h4)
          (w := fun k _ => value sq env b k 0) (m' := meaning sq env b) (by
            have := agrees_column k4
            cases hm : meaning sq env b with
            | none => rw [hm] at this; exact this
            | some g =>
              rw [hm] at this
              intro i hi j hj
              obtain rfl : j = 0 := by simpa [Shape.cols] using hj
              exact this i hi 0 (by simp [Shape.cols]))
        unfold meaning
        simp only [hma, hmb, Option.bind_some]
        refine agrees_congr (s := .scalar) this ?_
        intro i hi j hj
        simp only [value, h1, k1]
    · simp at hu
  · -- vector, matrix
    split at hu
    · next hmn =>
      subst hmn
      obtain rfl : .mat 1 c' = u := by simpa using hu
      have hsh : shapeOf (.mul a b) = some (.mat 1 c') := by simp [shapeOf, h1, k1, mulShape]
      refine ⟨hsh, ⟨le_refl 1, k2.2⟩, ?_, ?_⟩
      · intro i hi j hj
        simp only [compiles, inRange_of hsh hi hj, h1, k1, Bool.true_and]
        exact dotCompiles_eq hsup (fun k hk => h3 k hk 0 (by simp [Shape.cols])) (fun k hk => k3 k hk j hj)
      · have := agrees_product (le_refl 1) hsup k2.2 _ _ (agrees_row h4) (agrees_self k4)
        unfold meaning
        simp only [hma, hmb, Option.bind_some]
        refine agrees_congr this ?_
        intro i hi j hj
        simp only [value, h1, k1]
    · simp at hu
  · exact absurd hsup (by simp [SupportedProduct])
  · -- matrix, vector
    split at hu
    · next hmn =>
      subst hmn
      obtain ⟨rfl, hc⟩ := hsup
      obtain rfl : .vec r = u := by simpa using hu
      have hsh : shapeOf (.mul a b) = some (.vec r) := by simp [shapeOf, h1, k1, mulShape]
      refine ⟨hsh, k2, ?_, ?_⟩
      · intro i hi j hj
        simp only [compiles, inRange_of hsh hi hj, h1, k1, Bool.true_and]
        exact dotCompiles_eq hc (fun k hk => h3 i hi k hk) (fun k hk => k3 k hk 0 (by simp [Shape.cols]))
      · have := agrees_product h2.1 hc (le_refl 1) _ _ (agrees_self h4) (agrees_column k4)
        unfold meaning
        simp only [hma, hmb, Option.bind_some]
        refine agrees_congr (s := .vec r) this ?_
        intro i hi j hj
        simp only [value, h1, k1]
    · simp at hu
  · -- matrix, point
    split at hu
    · next hmn =>
      subst hmn
      obtain ⟨rfl, hc⟩ := hsup
      obtain rfl : .point r = u := by simpa using hu
      have hsh : shapeOf (.mul a b) = some (.point r) := by simp [shapeOf, h1, k1, mulShape]
      refine ⟨hsh, k2, ?_, ?_⟩
      · intro i hi j hj
        simp only [compiles, inRange_of hsh hi hj, h1, k1, Bool.true_and]
        exact dotCompiles_eq hc (fun k hk => h3 i hi k hk) (fun k hk => k3 k hk 0 (by simp [Shape.cols]))
      · have k4' : Agrees (.vec r) (value sq env b) (meaning sq env b) := by
          cases hm : meaning sq env b with
          | none => rw [hm] at k4; exact k4
          | some g => rw [hm] at k4; exact k4
        have := agrees_product h2.1 hc (le_refl 1) _ _ (agrees_self h4) (agrees_column k4')
        unfold meaning
        simp only [hma, hmb, Option.bind_some]
        have h5 : Agrees (.point r) (fun i j => dotValue r (fun k => value sq env a i k) (fun k => value sq env b k 0))
          ((meaning sq env a).bind fun f => (meaning sq env b).bind fun g =>
            some fun i j => ∑ k ∈ range r, f i k * g k j) := by
          generalize ((meaning sq env a).bind fun f => (meaning sq env b).bind fun g =>
            some fun i j => ∑ k ∈ range r, f i k * g k j) = x at this ⊢
          cases x <;> exact this
        refine agrees_congr h5 ?_
        intro i hi j hj
        simp only [value, h1, k1]
    · simp at hu
  · -- matrix, matrix
    split at hu
    · next hmn =>
      subst hmn
      obtain rfl : .mat r c' = u := by simpa using hu
      have hsh : shapeOf (.mul a b) = some (.mat r c') := by simp [shapeOf, h1, k1, mulShape]
      refine ⟨hsh, ⟨h2.1, k2.2⟩, ?_, ?_⟩
      · intro i hi j hj
        simp only [compiles, inRange_of hsh hi hj, h1, k1, Bool.true_and]
        exact dotCompiles_eq hsup (fun k hk => h3 i hi k hk) (fun k hk => k3 k hk j hj)
      · have := agrees_product h2.1 hsup k2.2 _ _ (agrees_self h4) (agrees_self k4)
        unfold meaning
        simp only [hma, hmb, Option.bind_some]
        refine agrees_congr this ?_
        intro i hi j hj
        simp only [value, h1, k1]
    · simp at hu

end Geometrix
