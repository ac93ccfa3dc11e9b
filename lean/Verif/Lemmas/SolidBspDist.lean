import Verif.Lemmas.SolidBsp

/-!
# Helpers for solid leaf trees: the distance from the border
-/

set_option linter.unusedSectionVars false

namespace Geometrix
open Spec

variable {K : Type*} [Field K] [LinearOrder K] [IsStrictOrderedRing K]

/-- The distance found is the distance of the side with the number found. -/
def FoundSide (sides : List (P2 K × P2 K)) (p : P2 K) (m : Option (K × Nat)) : Prop :=
  ∀ d i, m = some (d, i) → ∃ s, sides[i]? = some s ∧ pointSegDistSq p s.1 s.2 = .ok d

/-- The distance found is at most the distance of `x`. -/
def FoundBelow (p : P2 K) (m : Option (K × Nat)) (x : P2 K) : Prop := ∃ d i, m = some (d, i) ∧ d ≤ sqDist p x

theorem closestOf_spec (sides : List (P2 K × P2 K)) (p : P2 K) : ∀ (l : List Nat) (m : Option (K × Nat)),
    (∀ i ∈ l, i < sides.length) → ∃ m', closestOf sides p l m = .ok m' ∧ (FoundSide sides p m → FoundSide sides p m') ∧
    (∀ x, FoundBelow p m x → FoundBelow p m' x) ∧
    ∀ i ∈ l, ∀ s, sides[i]? = some s → ∀ x, OnSegment s.1 s.2 x → FoundBelow p m' x
  | [], m, _ => ⟨m, rfl, id, fun _ => id, by simp⟩
  | i :: rest, m, hl => by
    have hi : i < sides.length := hl i (by simp)
    obtain ⟨d, hd, ⟨y, hy, hyd⟩, hmin⟩ := pointSegDistSq_spec p sides[i].1 sides[i].2
    obtain ⟨m', e1, e2, e3, e4⟩ := closestOf_spec sides p rest (if belowMin d m then some (d, i) else m)
      fun j hj => hl j (by simp [hj])
    refine ⟨m', ?_, ?_, ?_, ?_⟩
    · unfold closestOf
      rw [List.getElem?_eq_getElem hi]
      dsimp only
      rw [hd]
      exact e1
    · intro hm
      apply e2
      intro d' i' h
      split_ifs at h with hb
      · simp only [Option.some.injEq, Prod.mk.injEq] at h
        obtain ⟨rfl, rfl⟩ := h
        exact ⟨_, List.getElem?_eq_getElem hi, hd⟩
      · exact hm d' i' h
    · rintro x ⟨d', i', rfl, hx⟩
      apply e3
      by_cases hb : belowMin d (some (d', i')) = true
      · rw [if_pos hb]
        simp only [belowMin, decide_eq_true_eq] at hb
        exact ⟨d, i, rfl, hb.le.trans hx⟩
      · rw [if_neg hb]
        exact ⟨d', i', rfl, hx⟩
    · intro j hj s hs x hx
      rcases List.mem_cons.1 hj with rfl | hj
      · apply e3
        rw [List.getElem?_eq_getElem hi, Option.some.injEq] at hs
        subst hs
        have hdx := hmin x hx
        by_cases hb : belowMin d m = true
        · rw [if_pos hb]
          exact ⟨d, j, rfl, hdx⟩
        · rw [if_neg hb]
          cases m with
          | none => simp [belowMin] at hb
          | some q =>
            simp only [belowMin, decide_eq_true_eq, not_lt] at hb
            exact ⟨q.1, q.2, rfl, hb.trans hdx⟩
      · exact e4 j hj s hs x hx

theorem planeDist_sq_le {pl : Plane2 K} (hu : dot pl.n pl.n = 1) {p x : P2 K}
    (h : planeDist pl p < 0 ∧ 0 ≤ planeDist pl x ∨ 0 < planeDist pl p ∧ planeDist pl x ≤ 0) :
    planeDist pl p * planeDist pl p ≤ sqDist p x := by
  have e : planeDist pl x - planeDist pl p = (x.x - p.x) * pl.n.x + (x.y - p.y) * pl.n.y := by
    unfold planeDist dot; ring
  have hcs : (planeDist pl x - planeDist pl p) ^ 2 ≤ sqDist p x := by
    rw [e]
    unfold dot at hu
    unfold sqDist
    have : ((x.x - p.x) * pl.n.y - (x.y - p.y) * pl.n.x) ^ 2 ≥ 0 := sq_nonneg _
    have id : ((x.x - p.x) * pl.n.x + (x.y - p.y) * pl.n.y) ^ 2 + ((x.x - p.x) * pl.n.y - (x.y - p.y) * pl.n.x) ^ 2 =
        (x.x - p.x) ^ 2 + (x.y - p.y) ^ 2 := by
      linear_combination ((x.x - p.x) ^ 2 + (x.y - p.y) ^ 2) * hu
    have : (p.x - x.x) ^ 2 + (p.y - x.y) ^ 2 = (x.x - p.x) ^ 2 + (x.y - p.y) ^ 2 := by ring
    linarith
  rcases h with ⟨h1, h2⟩ | ⟨h1, h2⟩ <;> nlinarith

/-- The sizes of the trees on the stack. -/
def stackSize (stack : List (SolidTree K)) : Nat := (stack.map SolidTree.size).sum

theorem pushChildren_size (p : P2 K) (m : Option (K × Nat)) (t : SolidTree K) (stack : List (SolidTree K)) :
    stackSize (pushChildren Cmp.direct p m t stack) < t.size + stackSize stack := by
  unfold pushChildren
  cases t with
  | leaf is fl => simp [SolidTree.size, stackSize]
  | node pl is f b =>
    dsimp only
    split_ifs <;> simp only [stackSize, List.map_cons, List.sum_cons, SolidTree.size] <;> omega

theorem closestLoopBsp_spec (sides : List (P2 K × P2 K)) (p : P2 K) : ∀ (fuel : Nat) (stack : List (SolidTree K))
    (m : Option (K × Nat)), stackSize stack ≤ fuel → (∀ t ∈ stack, ∃ C flag items, Built sides C flag items t) →
    ∃ r, closestLoopBsp Cmp.direct sides p fuel stack m = .ok r ∧ (FoundSide sides p m → FoundSide sides p r) ∧
    (∀ x, FoundBelow p m x → FoundBelow p r x) ∧
    ∀ t ∈ stack, ∀ C flag items, Built sides C flag items t → ∀ it ∈ items, ∀ x, OnSegment it.a it.b x → FoundBelow p r x
  | fuel, [], m, _, _ => ⟨m, by unfold closestLoopBsp; cases fuel <;> rfl, id, fun _ => id, by simp⟩
  | 0, t :: stack, m, h, _ => by
    cases t <;> simp [stackSize, SolidTree.size] at h
  | fuel + 1, t :: stack, m, h, hb => by
    have hidx : ∀ i ∈ t.indices, i < sides.length := by
      obtain ⟨C, flag, items, h⟩ := hb t (by simp)
      cases h with
      | leaf _ _ _ ok used =>
        intro i hi
        simp only [SolidTree.indices, List.mem_map] at hi
        obtain ⟨it, hit, rfl⟩ := hi
        obtain ⟨s, hs, -⟩ := (ok it hit).side
        exact (List.getElem?_eq_some_iff.1 hs).1
      | node _ _ _ F B it Ix f b ok fresh mem unused inFront inBack cover indices =>
        intro i hi
        obtain ⟨s, hs, -⟩ := indices i hi
        exact (List.getElem?_eq_some_iff.1 hs).1
    obtain ⟨m', e1, e2, e3, e4⟩ := closestOf_spec sides p t.indices m hidx
    have hsub : ∀ u ∈ pushChildren Cmp.direct p m' t stack, ∃ C flag items, Built sides C flag items u := by
      obtain ⟨C, flag, items, h⟩ := hb t (by simp)
      have hst : ∀ u ∈ stack, ∃ C flag items, Built sides C flag items u := fun u hu => hb u (by simp [hu])
      cases h with
      | leaf _ _ _ ok used => exact hst
      | node _ _ _ F B it Ix f b ok fresh mem unused inFront inBack cover indices own front back =>
        intro u hu
        unfold pushChildren at hu
        dsimp only at hu
        have : u = f ∨ u = b ∨ u ∈ stack := by
          split_ifs at hu <;> (try simp only [List.mem_cons] at hu) <;> tauto
        rcases this with rfl | rfl | hu
        · exact ⟨_, _, _, front⟩
        · exact ⟨_, _, _, back⟩
        · exact hst u hu
    have hsz := pushChildren_size p m' t stack
    obtain ⟨r, f1, f2, f3, f4⟩ := closestLoopBsp_spec sides p fuel (pushChildren Cmp.direct p m' t stack) m'
      (by simp only [stackSize, List.map_cons, List.sum_cons] at h hsz ⊢; omega) hsub
    refine ⟨r, ?_, fun hm => f2 (e2 hm), fun x hx => f3 x (e3 x hx), ?_⟩
    · unfold closestLoopBsp
      rw [e1]
      exact f1
    · intro u hu C flag items hB it hit x hx
      rcases List.mem_cons.1 hu with rfl | hus
      · cases hB with
        | leaf _ _ _ ok used =>
          obtain ⟨s, hs, -, ha, hbb, -⟩ := (ok it hit).side
          exact f3 x (e4 it.idx (by simpa [SolidTree.indices] using ⟨it, hit, rfl⟩) s hs x (onSegment_trans ha hbb hx))
        | node _ _ _ F B jt Ix f b ok fresh mem unused inFront inBack cover indices own front back =>
          obtain ⟨s, -, hs, -⟩ := (ok jt mem).side
          have hu := hs.unit
          have pruned : belowMin (planeDist jt.plane p * planeDist jt.plane p) m' = false →
              planeDist jt.plane p * planeDist jt.plane p ≤ sqDist p x → FoundBelow p r x := by
            intro h1 h2
            apply f3
            cases m' with
            | none => simp [belowMin] at h1
            | some q =>
              simp only [belowMin, decide_eq_false_iff_not, not_lt] at h1
              exact ⟨q.1, q.2, rfl, h1.trans h2⟩
          rcases cover it hit x hx with ⟨hd, i, hi, hix⟩ | ⟨hd, i, hi, hix⟩
          · by_cases hc : (belowMin (planeDist jt.plane p * planeDist jt.plane p) m' ||
                !(!Cmp.direct.gt (planeDist jt.plane p) 0 && Cmp.direct.lt (planeDist jt.plane p) 0)) = true
            · refine f4 f ?_ _ _ _ front i hi x hix
              unfold pushChildren
              dsimp only
              rw [if_pos hc]
              simp
            · simp only [Bool.or_eq_true, Bool.not_eq_true', Bool.and_eq_false_iff, not_or, Bool.not_eq_true, Bool.not_eq_false'] at hc
              refine pruned hc.1 (planeDist_sq_le hu (Or.inl ⟨?_, hd⟩))
              have := hc.2.2
              rw [Bool.not_eq_false, direct_lt] at this
              exact this
          · by_cases hc : (belowMin (planeDist jt.plane p * planeDist jt.plane p) m' ||
                !Cmp.direct.gt (planeDist jt.plane p) 0) = true
            · refine f4 b ?_ _ _ _ back i hi x hix
              unfold pushChildren
              dsimp only
              rw [if_pos hc]
              split_ifs <;> simp
            · simp only [Bool.or_eq_true, Bool.not_eq_true', not_or, Bool.not_eq_true] at hc
              refine pruned hc.1 (planeDist_sq_le hu (Or.inr ⟨?_, hd⟩))
              have := hc.2
              rw [Bool.not_eq_false, direct_gt] at this
              exact this
      · refine f4 u ?_ C flag items hB it hit x hx
        unfold pushChildren
        cases t with
        | leaf is fl => exact hus
        | node pl is f b =>
          dsimp only
          split_ifs <;> simp [hus]

/-- The distance from a built tree. -/
theorem minDistToSolid_spec {sides : List (P2 K × P2 K)} (hs : sides ≠ []) {items : List (BspItem K)} {t : SolidTree K}
    (h : Built sides [] false items t) (hc : ∀ x, OnBorder sides x → ∃ it ∈ items, OnSegment it.a it.b x) (p : P2 K) :
    ∃ d i s, minDistToSolid Cmp.direct sides t p = .ok (some (d, i)) ∧ sides[i]? = some s ∧
      IsMinOver (OnSegment s.1 s.2) (sqDist p) d ∧ IsMinOver (OnBorder sides) (sqDist p) d := by
  obtain ⟨r, h1, h2, -, h4⟩ := closestLoopBsp_spec sides p t.size [t] none (by simp [stackSize])
    (fun u hu => by rw [List.mem_singleton.1 hu]; exact ⟨_, _, _, h⟩)
  obtain ⟨s0, l, rfl⟩ := List.exists_cons_of_ne_nil hs
  have hall : ∀ x, OnBorder (s0 :: l) x → FoundBelow p r x := by
    intro x hx
    obtain ⟨it, hit, hon⟩ := hc x hx
    exact h4 t (by simp) _ _ _ h it hit x hon
  obtain ⟨d, i, rfl, -⟩ := hall s0.1 ⟨s0, by simp, 0, le_refl _, zero_le_one, by ext <;> simp⟩
  obtain ⟨s, hi, hd⟩ := h2 (by intro d i h; simp at h) d i rfl
  obtain ⟨d', hd', hmin⟩ := pointSegDistSq_spec p s.1 s.2
  rw [hd] at hd'
  cases hd'
  refine ⟨d, i, s, h1, hi, hmin, ?_, ?_⟩
  · obtain ⟨y, hy, hyd⟩ := hmin.1
    exact ⟨y, ⟨s, List.mem_of_getElem? hi, hy⟩, hyd⟩
  · intro x hx
    obtain ⟨d2, i2, e, hle⟩ := hall x hx
    simp only [Option.some.injEq, Prod.mk.injEq] at e
    rw [e.1]
    exact hle

end Geometrix
