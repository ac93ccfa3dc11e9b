import Verif.Lemmas.ExactProduct

/-!
Expansions: last bits, and sums of the components below a component.
-/

set_option linter.unusedSectionVars false

namespace Geometrix

open Spec

variable {K : Type*} [Field K] [LinearOrder K] [IsStrictOrderedRing K]

/-- `2 ^ e` is the last bit of `x`. -/
def Low (e : ℤ) (x : K) : Prop := OnGrid e x ∧ ∀ e', OnGrid e' x → e' ≤ e

theorem Low.le_abs {e : ℤ} {x : K} (h : Low e x) (hx : x ≠ 0) : 2 ^ e ≤ |x| := h.1.le_abs hx

theorem exists_low_aux {x : K} (hx : x ≠ 0) : ∀ (n : Nat) (e : ℤ), OnGrid e x → |x| < 2 ^ (e + n) → ∃ e, Low e x
  | 0, e, h, hn => by
    rw [Nat.cast_zero, add_zero] at hn
    exact absurd (h.le_abs hx) (not_le.2 hn)
  | n + 1, e, h, hn => by
    by_cases h' : OnGrid (e + 1) x
    · exact exists_low_aux hx n (e + 1) h' (by rw [show e + 1 + (n : ℤ) = e + ((n + 1 : ℕ) : ℤ) by push_cast; ring]; exact hn)
    · refine ⟨e, h, fun e' he' => ?_⟩
      by_contra hc
      exact h' (he'.mono (by omega))

theorem Spec.IsFloat.exists_low {p : Nat} {x : K} (h : IsFloat p x) (hx : x ≠ 0) :
    ∃ e, Low e x ∧ |x| < 2 ^ (p + e : ℤ) := by
  obtain ⟨e, h1, h2⟩ := h.grid
  obtain ⟨e', h3⟩ := exists_low_aux hx p e h1 (by rwa [add_comm] at h2)
  exact ⟨e', h3, h2.trans_le (two_zpow_le (by have := h3.2 e h1; omega))⟩

theorem Spec.HalfBelow.le {a b : K} (h : HalfBelow a b) {e : ℤ} (he : Low e b) : |a| ≤ 2 ^ (e - 1) := by
  obtain ⟨e', h1, h2⟩ := h
  exact h2.trans (two_zpow_le (by have := he.2 e' h1; omega))

theorem Spec.WellBelow.lt {a b : K} (h : WellBelow a b) {e : ℤ} (he : Low e b) : |a| < 2 ^ (e - 1) := by
  obtain ⟨e', h1, h2⟩ := h
  exact h2.trans_le (two_zpow_le (by have := he.2 e' h1; omega))

theorem Spec.WellBelow.halfBelow {a b : K} (h : WellBelow a b) : HalfBelow a b := by
  obtain ⟨e, h1, h2⟩ := h
  exact ⟨e, h1, h2.le⟩

theorem Spec.HalfBelow.below {a b : K} (h : HalfBelow a b) : Below a b := by
  obtain ⟨e, h1, h2⟩ := h
  exact ⟨e, h1, h2.trans_lt (two_zpow_lt (by omega))⟩

theorem Spec.HalfBelow.add {a b c : K} (h : HalfBelow a b) (h' : HalfBelow a c) : HalfBelow a (b + c) := by
  obtain ⟨e, h1, h2⟩ := h
  obtain ⟨e', h3, h4⟩ := h'
  rcases le_total e e' with hle | hle
  · exact ⟨e, h1.add (h3.mono hle), h2⟩
  · exact ⟨e', (h1.mono hle).add h3, h4⟩

theorem Spec.WellBelow.add {a b c : K} (h : WellBelow a b) (h' : WellBelow a c) : WellBelow a (b + c) := by
  obtain ⟨e, h1, h2⟩ := h
  obtain ⟨e', h3, h4⟩ := h'
  rcases le_total e e' with hle | hle
  · exact ⟨e, h1.add (h3.mono hle), h2⟩
  · exact ⟨e', (h1.mono hle).add h3, h4⟩

theorem Spec.WellBelow.of_le {a a' b : K} (h : WellBelow a b) (h' : |a'| ≤ |a|) : WellBelow a' b := by
  obtain ⟨e, h1, h2⟩ := h
  exact ⟨e, h1, h'.trans_lt h2⟩

theorem Spec.HalfBelow.of_le {a a' b : K} (h : HalfBelow a b) (h' : |a'| ≤ |a|) : HalfBelow a' b := by
  obtain ⟨e, h1, h2⟩ := h
  exact ⟨e, h1, h'.trans h2⟩

theorem Spec.WellBelow.neg {a b : K} (h : WellBelow a b) : WellBelow a (-b) := by
  obtain ⟨e, h1, h2⟩ := h
  exact ⟨e, h1.neg, h2⟩

theorem Spec.HalfBelow.neg {a b : K} (h : HalfBelow a b) : HalfBelow a (-b) := by
  obtain ⟨e, h1, h2⟩ := h
  exact ⟨e, h1.neg, h2⟩

/-- The next but one component is more than one bit away. -/
theorem Spec.HalfBelow.two_abs_le {a b : K} (h : HalfBelow a b) (hb : b ≠ 0) : 2 * |a| ≤ |b| := by
  obtain ⟨e, h1, h2⟩ := h
  have := h1.le_abs hb
  rw [two_zpow_pred] at h2
  linarith

/-- Components of an expansion without zeros, the largest first: each comes at most up to the last bit of the next larger one,
and does not touch two others. -/
def RevNear : List K → Prop
  | [] => True
  | [_] => True
  | b :: a :: l => HalfBelow a b ∧ (WellBelow a b ∨ ∀ z ∈ l.head?, WellBelow z a) ∧ RevNear (a :: l)

theorem RevNear.tail {b : K} {l : List K} (h : RevNear (b :: l)) : RevNear l := by
  cases l with
  | nil => trivial
  | cons a l => exact h.2.2

theorem RevNear.drop {l : List K} : ∀ (m : List K), RevNear (m ++ l) → RevNear l
  | [], h => h
  | _ :: m, h => RevNear.drop m h.tail

/-- The sum of the components below one. -/
theorem RevNear.sum {p : Nat} : ∀ (l : List K) (b : K), RevNear (b :: l) → (∀ a ∈ b :: l, IsFloat p a ∧ a ≠ 0) →
    ∀ e, Low e b → |l.sum| < 3 / 4 * 2 ^ e ∧ ((∀ z ∈ l.head?, WellBelow z b) → |l.sum| < 1 / 2 * 2 ^ e)
  | [], b, _, _, e, _ => by
    have := two_zpow_pos (K := K) e
    simp only [List.sum_nil, abs_zero]
    exact ⟨by positivity, fun _ => by positivity⟩
  | a :: l, b, h, hf, e, he => by
    obtain ⟨h1, h2, h3⟩ := h
    obtain ⟨fa, a0⟩ := hf a (by simp)
    obtain ⟨α, hα, -⟩ := fa.exists_low a0
    obtain ⟨k1, k2⟩ := RevNear.sum l a h3 (fun x hx => hf x (by simp at hx ⊢; tauto)) α hα
    have ha := h1.le he
    have haα := hα.le_abs a0
    have hpos := two_zpow_pos (K := K) e
    have htri : |(a :: l).sum| ≤ |a| + |l.sum| := by rw [List.sum_cons]; exact abs_add_le _ _
    have case1 : |a| < 2 ^ (e - 1) → |(a :: l).sum| < 1 / 2 * 2 ^ e := by
      intro hlt
      have hαe : α < e - 1 := two_zpow_lt_iff.1 (haα.trans_lt hlt)
      have := hα.1.abs.step (onGrid_pow (b := e - 1) (by omega)) hlt
      rw [two_zpow_pred] at this
      have := two_zpow_pos (K := K) α
      linarith
    constructor
    · rcases h2 with h2 | h2
      · have := case1 (h2.lt he)
        linarith
      · rcases ha.lt_or_eq with hlt | heq
        · have := case1 hlt
          linarith
        · have hαe : α ≤ e - 1 := by
            rw [← two_zpow_le_iff (K := K), ← heq]; exact haα
          have := k2 h2
          have := two_zpow_le (K := K) hαe
          rw [two_zpow_pred] at this heq
          linarith
    · intro hw
      exact case1 ((hw a (by simp)).lt he)

/-- Every component below one is at most half its last bit. -/
theorem RevNear.le_half {p : Nat} : ∀ (l : List K) (b : K), RevNear (b :: l) → (∀ a ∈ b :: l, IsFloat p a ∧ a ≠ 0) →
    ∀ e, Low e b → ∀ a ∈ l, |a| ≤ 2 ^ (e - 1)
  | [], _, _, _, _, _ => by simp
  | c :: l, b, h, hf, e, he => by
    obtain ⟨h1, h2, h3⟩ := h
    obtain ⟨fc, c0⟩ := hf c (by simp)
    obtain ⟨α, hα, -⟩ := fc.exists_low c0
    intro a ha
    have hc := h1.le he
    rcases List.mem_cons.1 ha with rfl | ha
    · exact hc
    · have := RevNear.le_half l c h3 (fun x hx => hf x (by simp at hx ⊢; tauto)) α hα a ha
      have h4 := hα.le_abs c0
      have h5 := two_zpow_pos (K := K) α
      rw [two_zpow_pred] at this
      linarith

/-- Sums of parts of the components below one. -/
theorem RevNear.sum_drop {p : Nat} {m l : List K} {b : K} (h : RevNear (b :: (m ++ l)))
    (hf : ∀ a ∈ b :: (m ++ l), IsFloat p a ∧ a ≠ 0) {e : ℤ} (he : Low e b) : |l.sum| < 3 / 4 * 2 ^ e := by
  rcases List.eq_nil_or_concat m with rfl | ⟨m', c, rfl⟩
  · exact (RevNear.sum l b h hf e he).1
  · rw [List.concat_eq_append] at h hf
    have hc : c ∈ m' ++ [c] ++ l := by simp
    have hc' := RevNear.le_half _ b h hf e he c hc
    have h' : RevNear (c :: l) := by
      have := h.tail
      rw [List.append_assoc] at this
      exact RevNear.drop m' this
    obtain ⟨fc, c0⟩ := hf c (by simp)
    obtain ⟨α, hα, -⟩ := fc.exists_low c0
    have := (RevNear.sum l c h' (fun x hx => hf x (by simp at hx ⊢; tauto)) α hα).1
    have h4 := hα.le_abs c0
    have h5 := two_zpow_pos (K := K) e
    rw [two_zpow_pred] at hc'
    linarith

/-- The sum of an expansion is dominated by its largest component. -/
theorem RevNear.sum_le {p : Nat} {l : List K} {b : K} (h : RevNear (b :: l)) (hf : ∀ a ∈ b :: l, IsFloat p a ∧ a ≠ 0) :
    |l.sum| < 3 / 4 * |b| := by
  obtain ⟨fb, b0⟩ := hf b (by simp)
  obtain ⟨e, he, -⟩ := fb.exists_low b0
  have := (RevNear.sum l b h hf e he).1
  have := he.le_abs b0
  linarith

theorem revNear_of_pairwise : ∀ (l : List K), l.Pairwise (fun b a => HalfBelow a b) →
    (∀ a b c, [c, b, a].Sublist l → WellBelow a b ∨ WellBelow b c) → RevNear l
  | [], _, _ => trivial
  | [_], _, _ => trivial
  | b :: a :: l, h, h' => by
    rw [List.pairwise_cons] at h
    refine ⟨h.1 a (by simp), ?_, revNear_of_pairwise _ h.2 fun x y z hs => h' x y z (hs.cons _)⟩
    cases l with
    | nil => right; simp
    | cons z l =>
      rcases h' z a b (by simp [List.Sublist.cons_cons]) with hw | hw
      · right; simpa using hw
      · left; exact hw

theorem RevNear.pairwise {p : Nat} : ∀ (l : List K), RevNear l → (∀ a ∈ l, IsFloat p a ∧ a ≠ 0) →
    l.Pairwise (fun b a => HalfBelow a b)
  | [], _, _ => List.Pairwise.nil
  | b :: l, h, hf => by
    rw [List.pairwise_cons]
    obtain ⟨fb, b0⟩ := hf b (by simp)
    obtain ⟨e, he, -⟩ := fb.exists_low b0
    exact ⟨fun a ha => ⟨e, he.1, RevNear.le_half l b h hf e he a ha⟩,
      RevNear.pairwise l h.tail fun a ha => hf a (by simp [ha])⟩

theorem RevNear.lonely {p : Nat} : ∀ (l : List K), RevNear l → (∀ a ∈ l, IsFloat p a ∧ a ≠ 0) →
    ∀ a b c, [c, b, a].Sublist l → WellBelow a b ∨ WellBelow b c
  | [], _, _, _, _, _, hs => by simp at hs
  | [_], _, _, _, _, _, hs => by have := hs.length_le; simp at this
  | x :: y :: l, h, hf, a, b, c, hs => by
    have hpw := RevNear.pairwise _ h hf
    have h' := h
    obtain ⟨h1, h2, h3⟩ := h'
    rcases List.sublist_cons_iff.1 hs with hs | ⟨r, hr, hs⟩
    · exact RevNear.lonely _ h3 (fun a ha => hf a (by simp at ha ⊢; tauto)) a b c hs
    · rw [List.cons.injEq] at hr
      obtain ⟨rfl, rfl⟩ := hr
      obtain ⟨fc, c0⟩ := hf c (by simp)
      obtain ⟨fy, y0⟩ := hf y (by simp)
      -- an element `z` with one between it and `w` is well below `w`
      have far : ∀ (w v : K) (l' : List K), (∀ a ∈ w :: v :: l', IsFloat p a ∧ a ≠ 0) → RevNear (w :: v :: l') → ∀ z ∈ l', WellBelow z w := by
        intro w v l' hf' hr z hz
        obtain ⟨fw, w0⟩ := hf' w (by simp)
        obtain ⟨fv, v0⟩ := hf' v (by simp)
        obtain ⟨e, he, -⟩ := fw.exists_low w0
        obtain ⟨ε, hε, -⟩ := fv.exists_low v0
        have k1 := hr.1.le he
        have k2 := RevNear.le_half l' v hr.2.2 (fun x hx => hf' x (by simp at hx ⊢; tauto)) ε hε z hz
        refine ⟨e, he.1, ?_⟩
        have k3 := hε.le_abs v0
        have k4 := two_zpow_pos (K := K) ε
        rw [two_zpow_pred] at k2
        linarith
      rcases List.sublist_cons_iff.1 hs with hs | ⟨r, hr, hs⟩
      · right
        exact far c y l hf h b (hs.subset (by simp))
      · rw [List.cons.injEq] at hr
        obtain ⟨rfl, rfl⟩ := hr
        have ha : a ∈ l := hs.subset (by simp)
        rcases h2 with h2 | h2
        · right; exact h2
        · left
          cases l with
          | nil => simp at ha
          | cons z l =>
            rcases List.mem_cons.1 ha with rfl | ha
            · exact h2 a (by simp)
            · exact far b z l (fun x hx => hf x (by simp at hx ⊢; tauto)) h3 a ha

end Geometrix
