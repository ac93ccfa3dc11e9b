import Verif.Lemmas.Expressions

/-!
# Expressions mean what linear algebra says
-/

set_option linter.unusedSectionVars false

namespace Geometrix

open Spec Finset

variable {K : Type*} [Field K] [LinearOrder K] [IsStrictOrderedRing K]

/-- An expression has the shape `s`, all its elements can be read, and they are what is meant. -/
def GoodExpr (sq : K → K) (env : Nat → Nat → Nat → K) (e : Tx) (s : Shape) : Prop :=
  shapeOf e = some s ∧ Positive s ∧ (∀ i < s.rows, ∀ j < s.cols, compiles e i j = true) ∧
    Agrees s (value sq env e) (meaning sq env e)

variable {sq : K → K} {env : Nat → Nat → Nat → K}

theorem good_var {s : Shape} {k : Nat} (h : Positive s) : GoodExpr sq env (.var s k) s := by
  refine ⟨rfl, h, ?_, ?_⟩
  · intro i hi j hj
    simp only [compiles]
    exact inRange_of rfl hi hj
  · intro i _ j _
    rfl

theorem good_neg {a : Tx} {s : Shape} (h : GoodExpr sq env a s) (hs : negShape s = some s) : GoodExpr sq env (.neg a) s := by
  obtain ⟨h1, h2, h3, h4⟩ := h
  have hsh : shapeOf (.neg a) = some s := by simp [shapeOf, h1, hs]
  refine ⟨hsh, h2, ?_, ?_⟩
  · intro i hi j hj
    simp only [compiles, inRange_of hsh hi hj, h3 i hi j hj, Bool.and_self]
  · unfold meaning
    cases hm : meaning sq env a with
    | some f =>
      rw [hm] at h4
      intro i hi j hj
      simp only [value, h4 i hi j hj]
    | none =>
      rw [hm] at h4
      obtain ⟨i, hi, j, hj, e, he⟩ := h4
      refine ⟨i, hi, j, hj, e, ?_⟩
      simp only [value, he]

theorem good_abs {a : Tx} {s : Shape} (h : GoodExpr sq env a s) (hs : absShape s = some s) : GoodExpr sq env (.abs a) s := by
  obtain ⟨h1, h2, h3, h4⟩ := h
  have hsh : shapeOf (.abs a) = some s := by simp [shapeOf, h1, hs]
  refine ⟨hsh, h2, ?_, ?_⟩
  · intro i hi j hj
    simp only [compiles, inRange_of hsh hi hj, h3 i hi j hj, Bool.and_self]
  · unfold meaning
    cases hm : meaning sq env a with
    | some f =>
      rw [hm] at h4
      intro i hi j hj
      simp only [value, h4 i hi j hj]
    | none =>
      rw [hm] at h4
      obtain ⟨i, hi, j, hj, e, he⟩ := h4
      refine ⟨i, hi, j, hj, e, ?_⟩
      simp only [value, he]

theorem good_recip {a : Tx} {s : Shape} (h : GoodExpr sq env a s) (hm : meaningShape a = some s) :
    GoodExpr sq env (.recip a) s := by
  obtain ⟨h1, h2, h3, h4⟩ := h
  have hsh : shapeOf (.recip a) = some s := by simp [shapeOf, h1]
  refine ⟨hsh, h2, ?_, ?_⟩
  · intro i hi j hj
    simp only [compiles, inRange_of hsh hi hj, h3 i hi j hj, Bool.and_self]
  · unfold meaning
    rw [hm]
    cases hm : meaning sq env a with
    | some f =>
      rw [hm] at h4
      simp only [Option.bind_some]
      by_cases h0 : ∀ i < s.rows, ∀ j < s.cols, f i j ≠ 0
      · rw [if_pos h0]
        intro i hi j hj
        simp only [value, h4 i hi j hj, cdiv_ok (h0 i hi j hj)]
      · rw [if_neg h0]
        push Not at h0
        obtain ⟨i, hi, j, hj, h0⟩ := h0
        refine ⟨i, hi, j, hj, .divByZero, ?_⟩
        simp only [value, h4 i hi j hj, h0, cdiv, if_true]
    | none =>
      rw [hm] at h4
      obtain ⟨i, hi, j, hj, e, he⟩ := h4
      refine ⟨i, hi, j, hj, e, ?_⟩
      simp only [value, he]

theorem good_trans {a : Tx} {r c : Nat} (h : GoodExpr sq env a (.mat r c)) : GoodExpr sq env (.trans a) (.mat c r) := by
  obtain ⟨h1, h2, h3, h4⟩ := h
  have hsh : shapeOf (.trans a) = some (.mat c r) := by simp [shapeOf, h1, transShape]
  refine ⟨hsh, ⟨h2.2, h2.1⟩, ?_, ?_⟩
  · intro i hi j hj
    simp only [compiles, inRange_of hsh hi hj, h3 j hj i hi, Bool.and_self]
  · unfold meaning
    cases hm : meaning sq env a with
    | some f =>
      rw [hm] at h4
      intro i hi j hj
      simp only [value, h4 j hj i hi]
    | none =>
      rw [hm] at h4
      obtain ⟨i, hi, j, hj, e, he⟩ := h4
      refine ⟨j, hj, i, hi, e, ?_⟩
      simp only [value, he]

theorem good_det {a : Tx} {n : Nat} (h : GoodExpr sq env a (.mat n n)) (hm : meaningShape a = some (.mat n n))
    (hn : n ≤ 10) : GoodExpr sq env (.det a) .scalar := by
  obtain ⟨h1, h2, h3, h4⟩ := h
  have hsh : shapeOf (.det a) = some .scalar := by simp [shapeOf, h1, detShape, h2.1, hn]
  refine ⟨hsh, trivial, ?_, ?_⟩
  · intro i hi j hj
    simp only [compiles, inRange_of hsh hi hj, h1, Bool.true_and]
    rw [allBelow_eq]; exact h3
  · unfold meaning
    rw [hm]
    obtain ⟨f, w, hf, hw, hww⟩ | ⟨hf, e, he⟩ := agrees_readAll h4
    · rw [hf]
      intro i hi j hj
      simp only [Shape.rows, Shape.cols] at hw hww
      simp only [value, h1, hw]
      obtain ⟨k, rfl⟩ : ∃ k, n = k + 1 := ⟨n - 1, by have := h2.1; omega⟩
      rw [Nat.add_sub_cancel, determinant_congr hww]
      rfl
    · rw [hf]
      refine ⟨0, by simp [Shape.rows], 0, by simp [Shape.cols], e, ?_⟩
      simp only [Shape.rows, Shape.cols] at he
      simp only [value, h1, he]

theorem good_inv {a : Tx} {n : Nat} (h : GoodExpr sq env a (.mat n n)) (hm : meaningShape a = some (.mat n n))
    (hn2 : 2 ≤ n) (hn : n ≤ 10) : GoodExpr sq env (.inv a) (.mat n n) := by
  obtain ⟨h1, h2, h3, h4⟩ := h
  have hsh : shapeOf (.inv a) = some (.mat n n) := by simp [shapeOf, h1, invShape, hn2, hn]
  refine ⟨hsh, h2, ?_, ?_⟩
  · intro i hi j hj
    simp only [compiles, inRange_of hsh hi hj, h1, Bool.true_and]
    rw [allBelow_eq]; exact h3
  · unfold meaning
    rw [hm]
    obtain ⟨k, rfl⟩ : ∃ k, n = k + 2 := ⟨n - 2, by omega⟩
    obtain ⟨f, w, hf, hw, hww⟩ | ⟨hf, e, he⟩ := agrees_readAll h4
    · rw [hf]
      simp only [Shape.rows, Shape.cols] at hw hww
      simp only [Option.bind_some]
      by_cases hd : leibniz (Shape.mat (k + 2) (k + 2)).rows f ≠ 0
      · rw [if_pos hd]
        intro i hi j hj
        simp only [value, h1, hw]
        rw [Nat.add_sub_cancel, inverseAt_eq hww hd hi hj]
        rfl
      · rw [if_neg hd]
        refine ⟨0, by simp [Shape.rows], 0, by simp [Shape.cols], .thrown, ?_⟩
        simp only [value, h1, hw]
        rw [Nat.add_sub_cancel, inverseAt_error hww (not_not.1 hd)]
    · rw [hf]
      refine ⟨0, by simp [Shape.rows], 0, by simp [Shape.cols], e, ?_⟩
      simp only [Shape.rows, Shape.cols] at he
      simp only [value, h1, he]

theorem magnitude_congr {n : Nat} (hn : 1 ≤ n) {f w : Nat → Nat → K} (h : ∀ i < n, ∀ j < 1, w i j = f i j) :
    magnitudeSqrdUpTo (fun k => w k 0) (n - 1) = ∑ k ∈ range n, f k 0 ^ 2 := by
  rw [magnitudeSqrd_eq, Nat.sub_add_cancel hn]
  refine sum_congr rfl fun k hk => ?_
  rw [h k (mem_range.1 hk) 0 (by omega)]

theorem good_mag {a : Tx} {n : Nat} (h : GoodExpr sq env a (.vec n)) (hm : meaningShape a = some (.vec n)) :
    GoodExpr sq env (.mag a) .scalar := by
  obtain ⟨h1, h2, h3, h4⟩ := h
  have h2' : 1 ≤ n := h2
  have hsh : shapeOf (.mag a) = some .scalar := by simp [shapeOf, h1, magShape, h2']
  refine ⟨hsh, trivial, ?_, ?_⟩
  · intro i hi j hj
    simp only [compiles, inRange_of hsh hi hj, h1, Bool.true_and]
    rw [allBelow_eq]; exact h3
  · unfold meaning
    rw [hm]
    obtain ⟨f, w, hf, hw, hww⟩ | ⟨hf, e, he⟩ := agrees_readAll h4
    · rw [hf]
      intro i hi j hj
      simp only [Shape.rows, Shape.cols] at hw hww
      simp only [value, h1, hw, magnitude_congr h2 hww, Shape.rows]
    · rw [hf]
      refine ⟨0, by simp [Shape.rows], 0, by simp [Shape.cols], e, ?_⟩
      simp only [Shape.rows, Shape.cols] at he
      simp only [value, h1, he]

theorem good_norm {a : Tx} {n : Nat} (h : GoodExpr sq env a (.vec n)) (hm : meaningShape a = some (.vec n)) :
    GoodExpr sq env (.norm a) (.vec n) := by
  obtain ⟨h1, h2, h3, h4⟩ := h
  have h2' : 1 ≤ n := h2
  have hsh : shapeOf (.norm a) = some (.vec n) := by simp [shapeOf, h1, normShape, h2']
  refine ⟨hsh, h2, ?_, ?_⟩
  · intro i hi j hj
    simp only [compiles, inRange_of hsh hi hj, h1, Bool.true_and]
    rw [allBelow_eq]; exact h3
  · unfold meaning
    rw [hm]
    obtain ⟨f, w, hf, hw, hww⟩ | ⟨hf, e, he⟩ := agrees_readAll h4
    · rw [hf]
      simp only [Shape.rows, Shape.cols] at hw hww
      simp only [Option.bind_some]
      by_cases hd : sq (∑ k ∈ range (Shape.vec n).rows, f k 0 ^ 2) ≠ 0
      · rw [if_pos hd]
        intro i hi j hj
        have hj0 : j = 0 := by simpa [Shape.cols] using hj
        subst hj0
        have hd' : sq (∑ k ∈ range n, f k 0 ^ 2) ≠ 0 := hd
        simp only [value, h1, hw, magnitude_congr h2 hww, if_neg hd', cdiv_ok hd', hww i hi 0 (by omega), Shape.rows]
      · rw [if_neg hd]
        refine ⟨0, h2, 0, by simp [Shape.cols], .assertFailed, ?_⟩
        have hd' : sq (∑ k ∈ range n, f k 0 ^ 2) = 0 := not_not.1 hd
        simp only [value, h1, hw, magnitude_congr h2 hww, hd', if_true]
    · rw [hf]
      refine ⟨0, h2, 0, by simp [Shape.cols], e, ?_⟩
      simp only [Shape.rows, Shape.cols] at he
      simp only [value, h1, he]

/-- Two operands of which the elements at the same place are combined. -/
theorem agrees_zip {s t u : Shape} (hr : s.rows = u.rows) (hc : s.cols = u.cols) (hr' : t.rows = u.rows)
    (hc' : t.cols = u.cols) {op : K → K → K} {v w : Nat → Nat → Res K} {m m' : Option (Nat → Nat → K)}
    (h : Agrees s v m) (h' : Agrees t w m') :
    Agrees u (fun i j => both (fun x y => .ok (op x y)) (v i j) (w i j))
      (m.bind fun f => m'.bind fun g => some fun i j => op (f i j) (g i j)) := by
  cases m with
  | none =>
    obtain ⟨i, hi, j, hj, e, he⟩ := h
    obtain ⟨e', he'⟩ := both_left (fun x y => .ok (op x y)) (y := w i j) ⟨e, he⟩
    exact ⟨i, hr ▸ hi, j, hc ▸ hj, e', he'⟩
  | some f =>
    cases m' with
    | none =>
      obtain ⟨i, hi, j, hj, e, he⟩ := h'
      obtain ⟨e', he'⟩ := both_right (fun x y => .ok (op x y)) (x := v i j) ⟨e, he⟩
      exact ⟨i, hr' ▸ hi, j, hc' ▸ hj, e', he'⟩
    | some g =>
      intro i hi j hj
      simp only [h i (hr ▸ hi) j (hc ▸ hj), h' i (hr' ▸ hi) j (hc' ▸ hj), both_ok]

theorem good_add {a b : Tx} {s t u : Shape} (ha : GoodExpr sq env a s) (hb : GoodExpr sq env b t)
    (hu : sumShape s t = some u) : GoodExpr sq env (.add a b) u := by
  obtain ⟨h1, h2, h3, h4⟩ := ha
  obtain ⟨k1, k2, k3, k4⟩ := hb
  obtain ⟨hadd, hp, e1, e2, e3, e4⟩ : addShape s t = some u ∧ Positive u ∧ s.rows = u.rows ∧ s.cols = u.cols ∧
      t.rows = u.rows ∧ t.cols = u.cols := by
    cases s <;> cases t <;> simp only [sumShape] at hu <;> (try split at hu) <;> simp_all [addShape] <;>
      subst hu <;> simp_all [Shape.rows, Shape.cols, Positive]
  have hsh : shapeOf (.add a b) = some u := by simp [shapeOf, h1, k1, hadd]
  refine ⟨hsh, hp, ?_, ?_⟩
  · intro i hi j hj
    simp only [compiles, inRange_of hsh hi hj, h3 i (e1 ▸ hi) j (e2 ▸ hj), k3 i (e3 ▸ hi) j (e4 ▸ hj), Bool.and_self]
  · have := agrees_zip e1 e2 e3 e4 (op := fun x y => x + y) h4 k4
    unfold meaning
    simpa only [value] using this

theorem good_sub {a b : Tx} {s t u : Shape} (ha : GoodExpr sq env a s) (hb : GoodExpr sq env b t)
    (hu : differenceShape s t = some u) : GoodExpr sq env (.sub a b) u := by
  obtain ⟨h1, h2, h3, h4⟩ := ha
  obtain ⟨k1, k2, k3, k4⟩ := hb
  obtain ⟨hadd, hp, e1, e2, e3, e4⟩ : subShape s t = some u ∧ Positive u ∧ s.rows = u.rows ∧ s.cols = u.cols ∧
      t.rows = u.rows ∧ t.cols = u.cols := by
    cases s <;> cases t <;> simp only [differenceShape] at hu <;> (try split at hu) <;> simp_all [subShape] <;>
      subst hu <;> simp_all [Shape.rows, Shape.cols, Positive]
  have hsh : shapeOf (.sub a b) = some u := by simp [shapeOf, h1, k1, hadd]
  refine ⟨hsh, hp, ?_, ?_⟩
  · intro i hi j hj
    simp only [compiles, inRange_of hsh hi hj, h3 i (e1 ▸ hi) j (e2 ▸ hj), k3 i (e3 ▸ hi) j (e4 ▸ hj), Bool.and_self]
  · have := agrees_zip e1 e2 e3 e4 (op := fun x y => x - y) h4 k4
    unfold meaning
    simpa only [value] using this

end Geometrix
