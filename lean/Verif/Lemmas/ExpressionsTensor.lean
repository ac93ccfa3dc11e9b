import Verif.Lemmas.ExpressionsProduct

/-!
# Quotients, cross products and tensor products of expressions, and all expressions together
-/

set_option linter.unusedSectionVars false

namespace Geometrix

open Spec Finset

variable {K : Type*} [Field K] [LinearOrder K] [IsStrictOrderedRing K]
variable {sq : K → K} {env : Nat → Nat → Nat → K}

theorem good_div {a b : Tx} {s : Shape} (ha : GoodExpr sq env a s) (hb : GoodExpr sq env b .scalar)
    (hs : divShape s .scalar = some s) : GoodExpr sq env (.div a b) s := by
  obtain ⟨h1, h2, h3, h4⟩ := ha
  obtain ⟨k1, k2, k3, k4⟩ := hb
  have hsh : shapeOf (.div a b) = some s := by simp [shapeOf, h1, k1, hs]
  refine ⟨hsh, h2, ?_, ?_⟩
  · intro i hi j hj
    simp only [compiles, inRange_of hsh hi hj, h3 i hi j hj, k3 0 (by simp [Shape.rows]) 0 (by simp [Shape.cols]),
      Bool.and_self]
  · unfold meaning
    cases hm : meaning sq env a with
    | none =>
      rw [hm] at h4
      obtain ⟨i, hi, j, hj, e, he⟩ := h4
      obtain ⟨e', he'⟩ := both_left (fun x y : K => cdiv x y) (y := value sq env b 0 0) ⟨e, he⟩
      exact ⟨i, hi, j, hj, e', by simp only [value]; exact he'⟩
    | some f =>
      rw [hm] at h4
      cases hm' : meaning sq env b with
      | none =>
        rw [hm'] at k4
        obtain ⟨i, hi, j, hj, e, he⟩ := k4
        obtain rfl : i = 0 := by simpa [Shape.rows] using hi
        obtain rfl : j = 0 := by simpa [Shape.cols] using hj
        obtain ⟨e', he'⟩ := both_right (fun x y : K => cdiv x y) (x := value sq env a 0 0) ⟨e, he⟩
        exact ⟨0, Positive.rows h2, 0, Positive.cols h2, e', by simp only [value]; exact he'⟩
      | some g =>
        rw [hm'] at k4
        have hg : value sq env b 0 0 = .ok (g 0 0) := k4 0 (by simp [Shape.rows]) 0 (by simp [Shape.cols])
        simp only [Option.bind_some]
        by_cases h0 : g 0 0 = 0
        · simp only [h0, ne_eq, not_true_eq_false, if_false]
          refine ⟨0, Positive.rows h2, 0, Positive.cols h2, .divByZero, ?_⟩
          simp only [value, hg, h4 0 (Positive.rows h2) 0 (Positive.cols h2), both_ok, h0, cdiv, if_true]
        · simp only [ne_eq, h0, not_false_eq_true, if_true]
          intro i hi j hj
          simp only [value, hg, h4 i hi j hj, both_ok, cdiv_ok h0]

theorem good_cross {a b : Tx} (ha : GoodExpr sq env a (.vec 3)) (hb : GoodExpr sq env b (.vec 3)) :
    GoodExpr sq env (.cross a b) (.vec 3) := by
  obtain ⟨h1, h2, h3, h4⟩ := ha
  obtain ⟨k1, k2, k3, k4⟩ := hb
  have hsh : shapeOf (.cross a b) = some (.vec 3) := by simp [shapeOf, h1, k1, crossShape]
  have ca : ∀ i < 3, compiles a i 0 = true := fun i hi => h3 i hi 0 (by simp [Shape.cols])
  have cb : ∀ i < 3, compiles b i 0 = true := fun i hi => k3 i hi 0 (by simp [Shape.cols])
  refine ⟨hsh, by decide, ?_, ?_⟩
  · intro i hi j hj
    have hi' : i < 3 := hi
    simp only [compiles, inRange_of hsh hi hj, Bool.true_and]
    interval_cases i <;> simp [ca 0, ca 1, ca 2, cb 0, cb 1, cb 2]
  · unfold meaning
    cases hm : meaning sq env a with
    | none =>
      rw [hm] at h4
      obtain ⟨i, hi, j, hj, e, he⟩ := h4
      obtain rfl : j = 0 := by simpa [Shape.cols] using hj
      have hi' : i < 3 := hi
      interval_cases i
      · obtain ⟨e', he'⟩ := both_left (fun x y : K => .ok (x * y)) (y := value sq env b 2 0) ⟨e, he⟩
        obtain ⟨e'', he''⟩ := both_right (fun x y : K => .ok (x - y))
          (x := both (fun x y : K => .ok (x * y)) (value sq env a 2 0) (value sq env b 0 0)) ⟨e', he'⟩
        exact ⟨1, by simp [Shape.rows], 0, by simp [Shape.cols], e'', by simp only [value]; exact he''⟩
      · obtain ⟨e', he'⟩ := both_left (fun x y : K => .ok (x * y)) (y := value sq env b 2 0) ⟨e, he⟩
        obtain ⟨e'', he''⟩ := both_left (fun x y : K => .ok (x - y))
          (y := both (fun x y : K => .ok (x * y)) (value sq env a 2 0) (value sq env b 1 0)) ⟨e', he'⟩
        exact ⟨0, by simp [Shape.rows], 0, by simp [Shape.cols], e'', by simp only [value]; exact he''⟩
      · obtain ⟨e', he'⟩ := both_left (fun x y : K => .ok (x * y)) (y := value sq env b 1 0) ⟨e, he⟩
        obtain ⟨e'', he''⟩ := both_right (fun x y : K => .ok (x - y))
          (x := both (fun x y : K => .ok (x * y)) (value sq env a 1 0) (value sq env b 2 0)) ⟨e', he'⟩
        exact ⟨0, by simp [Shape.rows], 0, by simp [Shape.cols], e'', by simp only [value]; exact he''⟩
    | some f =>
      rw [hm] at h4
      cases hm' : meaning sq env b with
      | none =>
        rw [hm'] at k4
        obtain ⟨i, hi, j, hj, e, he⟩ := k4
        obtain rfl : j = 0 := by simpa [Shape.cols] using hj
        have hi' : i < 3 := hi
        interval_cases i
        · obtain ⟨e', he'⟩ := both_right (fun x y : K => .ok (x * y)) (x := value sq env a 2 0) ⟨e, he⟩
          obtain ⟨e'', he''⟩ := both_left (fun x y : K => .ok (x - y))
            (y := both (fun x y : K => .ok (x * y)) (value sq env a 0 0) (value sq env b 2 0)) ⟨e', he'⟩
          exact ⟨1, by simp [Shape.rows], 0, by simp [Shape.cols], e'', by simp only [value]; exact he''⟩
        · obtain ⟨e', he'⟩ := both_right (fun x y : K => .ok (x * y)) (x := value sq env a 2 0) ⟨e, he⟩
          obtain ⟨e'', he''⟩ := both_right (fun x y : K => .ok (x - y))
            (x := both (fun x y : K => .ok (x * y)) (value sq env a 1 0) (value sq env b 2 0)) ⟨e', he'⟩
          exact ⟨0, by simp [Shape.rows], 0, by simp [Shape.cols], e'', by simp only [value]; exact he''⟩
        · obtain ⟨e', he'⟩ := both_right (fun x y : K => .ok (x * y)) (x := value sq env a 1 0) ⟨e, he⟩
          obtain ⟨e'', he''⟩ := both_left (fun x y : K => .ok (x - y))
            (y := both (fun x y : K => .ok (x * y)) (value sq env a 2 0) (value sq env b 1 0)) ⟨e', he'⟩
          exact ⟨0, by simp [Shape.rows], 0, by simp [Shape.cols], e'', by simp only [value]; exact he''⟩
      | some g =>
        rw [hm'] at k4
        have va : ∀ i < 3, value sq env a i 0 = .ok (f i 0) := fun i hi => h4 i hi 0 (by simp [Shape.cols])
        have vb : ∀ i < 3, value sq env b i 0 = .ok (g i 0) := fun i hi => k4 i hi 0 (by simp [Shape.cols])
        intro i hi j hj
        have hi' : i < 3 := hi
        interval_cases i <;>
          simp [value, va 0, va 1, va 2, vb 0, vb 1, vb 2, both_ok]

theorem agrees_tensor {r c r' c' : Nat} (hr : 1 ≤ r) (hc : 1 ≤ c) (hr' : 1 ≤ r') (hc' : 1 ≤ c')
    {v w : Nat → Nat → Res K} {m m' : Option (Nat → Nat → K)} (P Q : (Nat → Nat → K) → Nat → Nat → K)
    (h : Agrees (.mat r c) v (m.map P)) (h' : Agrees (.mat r' c') w (m'.map Q)) :
    Agrees (.mat (r * r') (c * c'))
      (fun i j => both (fun x y => .ok (x * y)) (v (i / r') (j / c')) (w (i % r') (j % c')))
      (m.bind fun f => m'.bind fun g => some fun i j => P f (i / r') (j / c') * Q g (i % r') (j % c')) := by
  cases m with
  | none =>
    obtain ⟨i, hi, j, hj, e, he⟩ := h
    have hi' : i < r := hi
    have hj' : j < c := hj
    obtain ⟨e', he'⟩ := both_left (fun x y : K => .ok (x * y)) (y := w 0 0) ⟨e, he⟩
    refine ⟨i * r', Nat.mul_lt_mul_of_pos_right hi' hr', j * c', Nat.mul_lt_mul_of_pos_right hj' hc', e', ?_⟩
    simp only [Nat.mul_div_cancel _ hr', Nat.mul_div_cancel _ hc', Nat.mul_mod_left]
    exact he'
  | some f =>
    cases m' with
    | none =>
      obtain ⟨i, hi, j, hj, e, he⟩ := h'
      have hi' : i < r' := hi
      have hj' : j < c' := hj
      obtain ⟨e', he'⟩ := both_right (fun x y : K => .ok (x * y)) (x := v 0 0) ⟨e, he⟩
      refine ⟨i, lt_of_lt_of_le hi' (Nat.le_mul_of_pos_left _ hr), j, lt_of_lt_of_le hj' (Nat.le_mul_of_pos_left _ hc),
        e', ?_⟩
      simp only [Nat.div_eq_of_lt hi', Nat.div_eq_of_lt hj', Nat.mod_eq_of_lt hi', Nat.mod_eq_of_lt hj']
      exact he'
    | some g =>
      intro i hi j hj
      have hi' : i < r * r' := hi
      have hj' : j < c * c' := hj
      have e1 := h (i / r') (Nat.div_lt_of_lt_mul (by rwa [Nat.mul_comm])) (j / c')
        (Nat.div_lt_of_lt_mul (by rwa [Nat.mul_comm]))
      have e2 := h' (i % r') (Nat.mod_lt _ hr') (j % c') (Nat.mod_lt _ hc')
      simp only [e1, e2, both_ok]

theorem good_tensor {a b : Tx} {s t u : Shape} (ha : GoodExpr sq env a s) (hb : GoodExpr sq env b t)
    (hma : meaningShape a = some s) (hmb : meaningShape b = some t)
    (hu : meaningShape (.tens a b) = some u) (hsup : SupportedTensor s t) : GoodExpr sq env (.tens a b) u := by
  obtain ⟨h1, h2, h3, h4⟩ := ha
  obtain ⟨k1, k2, k3, k4⟩ := hb
  simp only [meaningShape, hma, hmb, Option.bind_some] at hu
  rcases s with _ | m | m | ⟨r, c⟩ <;> rcases t with _ | n | n | ⟨r', c'⟩ <;>
    simp only [reduceCtorEq, Option.some.injEq] at hu
  · exact absurd hsup (by simp [SupportedTensor])
  · -- vector, matrix
    subst hu
    have hsh : shapeOf (.tens a b) = some (.mat (m * r') c') := by simp [shapeOf, h1, k1, tensShape]
    have hp : 1 ≤ m * r' := Nat.mul_pos h2 k2.1
    refine ⟨hsh, ⟨hp, k2.2⟩, ?_, ?_⟩
    · intro i hi j hj
      have hi' : i < m * r' := hi
      have hj' : j < c' := hj
      simp only [compiles, inRange_of hsh hi hj, h1, k1, Bool.true_and, Bool.and_eq_true, decide_eq_true_eq]
      refine ⟨⟨lt_of_lt_of_le (Nat.mod_lt _ k2.2) hsup, ?_⟩, ?_⟩
      · exact h3 _ (Nat.div_lt_of_lt_mul (by rwa [Nat.mul_comm])) 0 (by simp [Shape.cols])
      · exact k3 _ (Nat.mod_lt _ k2.1) _ (Nat.mod_lt _ k2.2)
    · have := agrees_tensor h2 (le_refl 1) k2.1 k2.2 _ _ (agrees_column h4) (agrees_self k4)
      unfold meaning
      simp only [hma, hmb, Option.bind_some]
      rw [Nat.one_mul] at this
      have e1 : Agrees (.mat (m * r') c') (value sq env (.tens a b))
          ((meaning sq env a).bind fun f => (meaning sq env b).bind fun g =>
            some fun i j => f (i / r') (j / c') * g (i % r') (j % c')) := by
        refine agrees_congr this ?_
        intro i hi j hj
        simp only [value, h1, k1]
      cases hm : meaning sq env a with
      | none => rw [hm] at e1; exact e1
      | some f =>
        cases hm' : meaning sq env b with
        | none => rw [hm, hm'] at e1; exact e1
        | some g =>
          rw [hm, hm'] at e1
          intro i hi j hj
          have hj' : j < c' := hj
          rw [e1 i hi j hj]
          simp only [Nat.div_eq_of_lt hj', Nat.mod_eq_of_lt hj']
  · -- matrix, vector
    subst hu
    have hsh : shapeOf (.tens a b) = some (.mat r (c * n)) := by simp [shapeOf, h1, k1, tensShape]
    have hp : 1 ≤ c * n := Nat.mul_pos h2.2 k2
    have hn : 1 ≤ n := k2
    refine ⟨hsh, ⟨h2.1, hp⟩, ?_, ?_⟩
    · intro i hi j hj
      have hi' : i < r := hi
      have hj' : j < c * n := hj
      simp only [compiles, inRange_of hsh hi hj, h1, k1, Bool.true_and, Bool.and_eq_true, Nat.div_one]
      exact ⟨h3 _ hi' _ (Nat.div_lt_of_lt_mul (by rwa [Nat.mul_comm])), k3 _ (Nat.mod_lt _ hn) 0 (by simp [Shape.cols])⟩
    · have := agrees_tensor h2.1 h2.2 (le_refl 1) hn _ _ (agrees_self h4) (agrees_row k4)
      unfold meaning
      simp only [hma, hmb, Option.bind_some]
      simp only [Nat.mul_one, Nat.div_one] at this
      refine agrees_congr this ?_
      intro i hi j hj
      simp only [value, h1, k1, Nat.div_one]
  · -- matrix, matrix
    subst hu
    have hsh : shapeOf (.tens a b) = some (.mat (r * r') (c * c')) := by simp [shapeOf, h1, k1, tensShape]
    refine ⟨hsh, ⟨Nat.mul_pos h2.1 k2.1, Nat.mul_pos h2.2 k2.2⟩, ?_, ?_⟩
    · intro i hi j hj
      have hi' : i < r * r' := hi
      have hj' : j < c * c' := hj
      simp only [compiles, inRange_of hsh hi hj, h1, k1, Bool.true_and, Bool.and_eq_true]
      exact ⟨h3 _ (Nat.div_lt_of_lt_mul (by rwa [Nat.mul_comm])) _ (Nat.div_lt_of_lt_mul (by rwa [Nat.mul_comm])),
        k3 _ (Nat.mod_lt _ k2.1) _ (Nat.mod_lt _ k2.2)⟩
    · have := agrees_tensor h2.1 h2.2 k2.1 k2.2 _ _ (agrees_self h4) (agrees_self k4)
      unfold meaning
      simp only [hma, hmb, Option.bind_some]
      refine agrees_congr this ?_
      intro i hi j hj
      simp only [value, h1, k1]

/-- Every supported expression with a meaning is good. -/
theorem good_of_supported (sq : K → K) (env : Nat → Nat → Nat → K) :
    ∀ (e : Tx) (s : Shape), meaningShape e = some s → Supported e → GoodExpr sq env e s
  | .var s k, u, h, _ => by
    simp only [meaningShape] at h
    split at h
    · next hp => obtain rfl : s = u := by simpa using h
                 exact good_var hp
    · simp at h
  | .neg a, u, h, hs => by
    simp only [meaningShape, Option.bind_eq_some_iff] at h
    obtain ⟨s, hs', h⟩ := h
    have hg := good_of_supported sq env a s hs' hs
    cases s <;> simp only [reduceCtorEq, Option.some.injEq] at h <;> subst h <;> exact good_neg hg rfl
  | .abs a, u, h, hs => by
    simp only [meaningShape, Option.bind_eq_some_iff] at h
    obtain ⟨s, hs', h⟩ := h
    have hg := good_of_supported sq env a s hs' hs
    cases s <;> simp only [reduceCtorEq, Option.some.injEq] at h <;> subst h <;> exact good_abs hg rfl
  | .recip a, u, h, hs => by
    simp only [meaningShape] at h
    exact good_recip (good_of_supported sq env a u h hs) h
  | .trans a, u, h, hs => by
    simp only [meaningShape, Option.bind_eq_some_iff] at h
    obtain ⟨s, hs', h⟩ := h
    have hg := good_of_supported sq env a s hs' hs
    cases s <;> simp only [reduceCtorEq, Option.some.injEq] at h
    subst h
    exact good_trans hg
  | .det a, u, h, hs => by
    simp only [meaningShape, Option.bind_eq_some_iff] at h
    obtain ⟨s, hs', h⟩ := h
    have hg := good_of_supported sq env a s hs' hs.1
    have hb := hs.2 s hs'
    cases s <;> simp only [reduceCtorEq] at h
    split at h
    · next hrc =>
      subst hrc
      obtain rfl : .scalar = u := by simpa using h
      exact good_det hg hs' hb
    · simp at h
  | .inv a, u, h, hs => by
    simp only [meaningShape, Option.bind_eq_some_iff] at h
    obtain ⟨s, hs', h⟩ := h
    have hg := good_of_supported sq env a s hs' hs.1
    have hb := hs.2 s hs'
    cases s <;> simp only [reduceCtorEq] at h
    split at h
    · next hrc =>
      subst hrc
      simp only [Option.some.injEq] at h
      subst h
      exact good_inv hg hs' hb.1 hb.2
    · simp at h
  | .mag a, u, h, hs => by
    simp only [meaningShape, Option.bind_eq_some_iff] at h
    obtain ⟨s, hs', h⟩ := h
    have hg := good_of_supported sq env a s hs' hs
    cases s <;> simp only [reduceCtorEq, Option.some.injEq] at h
    subst h
    exact good_mag hg hs'
  | .norm a, u, h, hs => by
    simp only [meaningShape, Option.bind_eq_some_iff] at h
    obtain ⟨s, hs', h⟩ := h
    have hg := good_of_supported sq env a s hs' hs
    cases s <;> simp only [reduceCtorEq, Option.some.injEq] at h
    subst h
    exact good_norm hg hs'
  | .add a b, u, h, hs => by
    simp only [meaningShape, Option.bind_eq_some_iff] at h
    obtain ⟨s, hs', t, ht', h⟩ := h
    exact good_add (good_of_supported sq env a s hs' hs.1) (good_of_supported sq env b t ht' hs.2) h
  | .sub a b, u, h, hs => by
    simp only [meaningShape, Option.bind_eq_some_iff] at h
    obtain ⟨s, hs', t, ht', h⟩ := h
    exact good_sub (good_of_supported sq env a s hs' hs.1) (good_of_supported sq env b t ht' hs.2) h
  | .mul a b, u, h, hs => by
    simp only [meaningShape, Option.bind_eq_some_iff] at h
    obtain ⟨s, hs', t, ht', h⟩ := h
    exact good_mul (good_of_supported sq env a s hs' hs.1) (good_of_supported sq env b t ht' hs.2.1) hs' ht' h
      (hs.2.2 s t hs' ht')
  | .div a b, u, h, hs => by
    simp only [meaningShape, Option.bind_eq_some_iff] at h
    obtain ⟨s, hs', t, ht', h⟩ := h
    have ga := good_of_supported sq env a s hs' hs.1
    have gb := good_of_supported sq env b t ht' hs.2
    cases s <;> cases t <;> simp only [reduceCtorEq, Option.some.injEq] at h <;> subst h <;> exact good_div ga gb rfl
  | .cross a b, u, h, hs => by
    simp only [meaningShape, Option.bind_eq_some_iff] at h
    obtain ⟨s, hs', t, ht', h⟩ := h
    have ga := good_of_supported sq env a s hs' hs.1
    have gb := good_of_supported sq env b t ht' hs.2
    split at h
    · simp only [Option.some.injEq] at h
      subst h
      exact good_cross ga gb
    · simp at h
  | .tens a b, u, h, hs => by
    have hu := h
    simp only [meaningShape, Option.bind_eq_some_iff] at h
    obtain ⟨s, hs', t, ht', h⟩ := h
    exact good_tensor (good_of_supported sq env a s hs' hs.1) (good_of_supported sq env b t ht' hs.2.1) hs' ht' hu
      (hs.2.2 s t hs' ht')

theorem sameKind_self (s : Shape) : sameKind s s = true := by cases s <;> rfl

end Geometrix
