import Verif.Lemmas.GrahamScan
import Mathlib.Tactic.FieldSimp

/-!
# Lemmas on Graham's scan with several points on one ray
-/

set_option linter.unusedSectionVars false

namespace Geometrix

open Spec

variable {K : Type*} [Field K] [LinearOrder K] [IsStrictOrderedRing K]

/-- `p` is above `o`, or at the same height and on the left. -/
def Above (o p : P2 K) : Prop := o.y < p.y ∨ (o.y = p.y ∧ p.x < o.x)

theorem tie_trans {o a b c : P2 K} (hb : Above o b) (h1 : area2 o a b = 0) (h2 : area2 o b c = 0) :
    area2 o a c = 0 := by
  have id1 : (b.y - o.y) * area2 o a c = (c.y - o.y) * area2 o a b + (a.y - o.y) * area2 o b c := by
    unfold area2; ring
  have id2 : (b.x - o.x) * area2 o a c = (c.x - o.x) * area2 o a b + (a.x - o.x) * area2 o b c := by
    unfold area2; ring
  rw [h1, h2, mul_zero, mul_zero, add_zero] at id1 id2
  rcases hb with hb | ⟨_, hb⟩
  · exact (mul_eq_zero.1 id1).resolve_left (sub_pos.2 hb).ne'
  · exact (mul_eq_zero.1 id2).resolve_left (sub_neg.2 hb).ne

theorem area2_swap_about (o a b : P2 K) : area2 o b a = - area2 o a b := by unfold area2; ring

theorem strictWeak_of_above {o : P2 K} {t : List (P2 K)} (hl : LowestOf o t) :
    StrictWeakOn (grahamLess Cmp.direct o) t := by
  have tie : ∀ a b : P2 K, grahamLess Cmp.direct o a b = false → grahamLess Cmp.direct o b a = false →
      area2 o a b = 0 := by
    intro a b h1 h2
    rw [Bool.eq_false_iff, Ne, grahamLess_iff, not_lt] at h1 h2
    rw [area2_swap_about] at h2
    linarith
  refine ⟨?_, ?_, ?_⟩
  · intro a _
    rw [Bool.eq_false_iff, Ne, grahamLess_iff]
    have : area2 o a a = 0 := by unfold area2; ring
    rw [this]; exact lt_irrefl _
  · intro a ha b hb c hc h1 h2
    rw [grahamLess_iff] at *
    exact lowest_trans (hl a ha) (hl b hb) (hl c hc) h1 h2
  · intro a ha b hb c hc h1 h2 h3 h4
    have := tie_trans (hl b hb) (tie a b h1 h2) (tie b c h3 h4)
    constructor <;> rw [Bool.eq_false_iff, Ne, grahamLess_iff]
    · rw [this]; exact lt_irrefl _
    · rw [area2_swap_about, this, neg_zero]; exact lt_irrefl _

theorem before_trans {o x a b : P2 K} (hx : Above o x) (ha : Above o a) (hb : Above o b)
    (h1 : 0 < area2 o x a) (h2 : 0 ≤ area2 o a b) (h3 : 0 ≤ area2 o x b) : 0 < area2 o x b := by
  rcases h2.lt_or_eq with h | h
  · exact lowest_trans hx ha hb h1 h
  · refine lt_of_le_of_ne h3 fun h' => ?_
    have : area2 o b a = 0 := by rw [area2_swap_about, ← h, neg_zero]
    exact h1.ne' (tie_trans hb h'.symm this)

/-- What the scan leaves on the stack: a convex chain, with perhaps one more point on top of it, which is between
the lowest point and the last point of the chain. -/
def ScanResult (o : P2 K) (T hull core : List (P2 K)) : Prop :=
  hull = core ∨ ∃ near far x u', core = far :: x :: u' ++ [o] ∧ hull = near :: core ∧ near ∈ T ∧
    area2 o far near = 0 ∧ 0 < area2 x far near ∧ 0 < area2 o x near ∧ far ∈ T ∧
    ∀ y ∈ x :: u', 0 < area2 o y far

theorem near_inside {o x far near a b : P2 K} (h0 : area2 o far near = 0) (h1 : 0 < area2 x far near)
    (h2 : 0 < area2 o x near) (h3 : 0 < area2 o x far) (fo : 0 ≤ area2 a b o) (ff : 0 ≤ area2 a b far) :
    0 ≤ area2 a b near := by
  have id : area2 o x far * area2 a b near = area2 x far near * area2 a b o + area2 o x near * area2 a b far -
      area2 o far near * area2 a b x := by
    unfold area2; ring
  have : 0 ≤ area2 o x far * area2 a b near := by
    rw [id, h0]
    have := mul_nonneg h1.le fo
    have := mul_nonneg h2.le ff
    linarith
  exact nonneg_of_mul_nonneg_right this h3

theorem near_right {o x far near p : P2 K} (h0 : area2 o far near = 0) (h1 : 0 < area2 x far near)
    (h3 : 0 < area2 o x far) (hp : 0 ≤ area2 o far p) : ¬ 0 < area2 far near p := by
  have id : area2 o x far * area2 far near p = area2 o far near * area2 x far p - area2 x far near * area2 o far p := by
    unfold area2; ring
  intro h
  have := mul_pos h3 h
  rw [id, h0] at this
  have := mul_nonneg h1.le hp
  linarith

theorem grahamLoop_lines (o a0 : P2 K) (Q T : List (P2 K)) (hT : ∀ p ∈ T, Above o p) : ∀ (n : Nat) (rest u : List (P2 K)),
    u.getLast? = some a0 → 2 * rest.length + u.length ≤ n + 1 → ConvStack (u ++ [o]) → (∀ x ∈ u ++ rest, x ∈ T) →
    (∀ x ∈ u, ∀ r ∈ rest, 0 ≤ area2 o x r) → rest.Pairwise (fun a b => 0 ≤ area2 o a b) →
    (∀ r ∈ rest, 0 < area2 o a0 r) →
    (∀ q ∈ Q, ∀ a b : P2 K, (∀ x ∈ u ++ [o] ++ rest, 0 ≤ area2 a b x) → 0 ≤ area2 a b q) →
    ∃ hull core, grahamLoop Cmp.direct n rest (u ++ [o]) = .ok hull ∧ ScanResult o T hull core ∧ ConvStack core ∧
      ∀ q ∈ Q, ∀ a b : P2 K, (∀ x ∈ core, 0 ≤ area2 a b x) → 0 ≤ area2 a b q := by
  intro n
  induction n using Nat.strong_induction_on with
  | _ n ih =>
  intro rest u hu hn hc hm hs hr h0 hQ
  cases rest with
  | nil =>
    refine ⟨u ++ [o], u ++ [o], ?_, Or.inl rfl, hc, by simpa using hQ⟩
    cases n <;> rfl
  | cons p rest =>
    obtain ⟨hr1, hr2⟩ := List.pairwise_cons.1 hr
    have hpT : p ∈ T := hm p (by simp)
    obtain ⟨n, rfl⟩ : ∃ k, n = k + 1 := ⟨n - 1, by simp at hn; omega⟩
    -- a point that is pushed in the usual way
    have push : ∀ (p2 : P2 K) (u' : List (P2 K)), u = p2 :: u' → 0 < area2 o p2 p →
        (∀ p1, u'.head? = some p1 → 0 < area2 p1 p2 p) →
        ∃ hull core, grahamLoop Cmp.direct n rest (p :: u ++ [o]) = .ok hull ∧ ScanResult o T hull core ∧ ConvStack core ∧
          ∀ q ∈ Q, ∀ a b : P2 K, (∀ x ∈ core, 0 ≤ area2 a b x) → 0 ≤ area2 a b q := by
      rintro p2 u' rfl hlt htop
      have hstar := List.pairwise_cons.1 (ConvStack.star (u := p2 :: u') hc)
      have hall : ∀ x ∈ p2 :: u', 0 < area2 o x p := by
        intro x hx
        rcases List.mem_cons.1 hx with rfl | hx'
        · exact hlt
        · exact lowest_trans (hT x (hm x (by simp [hx']))) (hT p2 (hm p2 (by simp))) (hT p hpT) (hstar.1 x hx') hlt
      refine ih n (by omega) rest (p :: p2 :: u') (by rw [List.getLast?_cons_cons]; exact hu) (by simp at hn ⊢; omega)
        (push_lemma hc hall htop) ?_ ?_ hr2 (fun r hrm => h0 r (by simp [hrm])) ?_
      · intro x hx
        apply hm x
        simp only [List.mem_append, List.mem_cons] at hx ⊢
        tauto
      · intro x hx r hrm
        rcases List.mem_cons.1 hx with rfl | hx
        · exact hr1 r hrm
        · exact hs x hx r (by simp [hrm])
      · intro q hq a b hx
        refine hQ q hq a b fun x hx' => hx x ?_
        simp only [List.mem_append, List.mem_cons, List.mem_singleton] at hx' ⊢
        tauto
    match u, hu with
    | [a], hu =>
      obtain rfl : a = a0 := by simpa using hu
      have hlt := h0 p (by simp)
      have e : getOrientation Cmp.direct o a p = .left := ((orientation_sign o a p).1).2 hlt
      have := push a [] rfl hlt (by simp)
      simp only [List.cons_append, List.nil_append, grahamLoop, e, beq_self_eq_true, if_true]
      exact this
    | p2 :: p1 :: u', hu =>
      have hstar := List.pairwise_cons.1 (ConvStack.star (u := p2 :: p1 :: u') hc)
      have k3 : 0 < area2 o p1 p2 := hstar.1 p1 (by simp)
      have a2 := hT p2 (hm p2 (by simp))
      have a1 := hT p1 (hm p1 (by simp))
      have k1 := hs p2 (by simp) p (by simp)
      have k2 : 0 < area2 o p1 p := before_trans a1 a2 (hT p hpT) k3 k1 (hs p1 (by simp) p (by simp))
      by_cases hor : 0 < area2 p1 p2 p
      · have e : getOrientation Cmp.direct p1 p2 p = .left := ((orientation_sign p1 p2 p).1).2 hor
        simp only [List.cons_append, grahamLoop, e, beq_self_eq_true, if_true]
        rcases k1.lt_or_eq with hlt | htie
        · exact push p2 (p1 :: u') rfl hlt (by intro q hq; simp at hq; subst hq; exact hor)
        · -- the point is between the lowest point and the top of the stack
          have hQ' : ∀ q ∈ Q, ∀ a b : P2 K, (∀ x ∈ p2 :: p1 :: u' ++ [o] ++ rest, 0 ≤ area2 a b x) → 0 ≤ area2 a b q := by
            intro q hq a b hx
            refine hQ q hq a b fun x hx' => ?_
            by_cases hxp : x = p
            · subst hxp
              exact near_inside htie.symm hor k2 k3 (hx o (by simp)) (hx p2 (by simp))
            · refine hx x ?_
              simp only [List.mem_append, List.mem_cons, List.mem_singleton, List.cons_append] at hx' ⊢
              tauto
          cases rest with
          | nil =>
            refine ⟨p :: p2 :: p1 :: u' ++ [o], p2 :: p1 :: u' ++ [o], ?_, ?_, hc, by simpa using hQ'⟩
            · cases n <;> rfl
            · exact Or.inr ⟨p, p2, p1, u', rfl, rfl, hpT, htie.symm, hor, k2, hm p2 (by simp), hstar.1⟩
          | cons p' rest' =>
            obtain ⟨n, rfl⟩ : ∃ k, n = k + 1 := ⟨n - 1, by simp at hn; omega⟩
            have e : (getOrientation Cmp.direct p2 p p' == .left) = false := by
              rw [beq_eq_false_iff_ne]
              intro hh
              exact near_right htie.symm hor k3 (hs p2 (by simp) p' (by simp)) (((orientation_sign p2 p p').1).1 hh)
            simp only [grahamLoop, e, Bool.false_eq_true, if_false]
            exact ih n (by omega) (p' :: rest') (p2 :: p1 :: u') hu (by simp at hn ⊢; omega) hc
              (fun x hx => hm x (by
                simp only [List.mem_append, List.mem_cons] at hx ⊢
                tauto))
              (fun x hx r hrm => hs x hx r (by simp [List.mem_cons.1 hrm])) hr2 (fun r hrm => h0 r (by simp [List.mem_cons.1 hrm])) hQ'
      · have e : (getOrientation Cmp.direct p1 p2 p == .left) = false := by
          rw [beq_eq_false_iff_ne]
          intro hh
          exact hor (((orientation_sign p1 p2 p).1).1 hh)
        simp only [List.cons_append, grahamLoop, e, Bool.false_eq_true, if_false]
        refine ih n (by omega) (p :: rest) (p1 :: u') (by rw [List.getLast?_cons_cons] at hu; exact hu) (by simp at hn ⊢; omega) hc.2
          (fun x hx => hm x (by
            simp only [List.mem_append, List.mem_cons] at hx ⊢
            tauto))
          (fun x hx r hrm => hs x (by simp [List.mem_cons.1 hx]) r hrm) hr h0 ?_
        intro q hq a b hx
        refine hQ q hq a b fun x hx' => ?_
        by_cases hxp : x = p2
        · subst hxp
          have f1 := hx o (by simp)
          have f2 := hx p1 (by simp)
          have f3 := hx p (by simp)
          have id : area2 o p1 p * area2 a b x = (-area2 p1 x p) * area2 a b o +
              area2 o x p * area2 a b p1 + area2 o p1 x * area2 a b p := by
            unfold area2; ring
          have : 0 ≤ area2 o p1 p * area2 a b x := by
            rw [id]
            have := mul_nonneg (by linarith : 0 ≤ -area2 p1 x p) f1
            have := mul_nonneg k1 f2
            have := mul_nonneg k3.le f3
            linarith
          exact nonneg_of_mul_nonneg_right this k2
        · refine hx x ?_
          simp only [List.mem_append, List.mem_cons, List.mem_singleton, List.cons_append] at hx' ⊢
          tauto

theorem oneOnFirst_of_noLine {o : P2 K} {t : List (P2 K)} (h : NoLineThrough o t) : OneOnFirstRay o t :=
  List.Pairwise.imp (fun h h' => absurd h' h) h

theorem oneOnLast_of_noLine {o : P2 K} {t : List (P2 K)} (h : NoLineThrough o t) : OneOnLastRay o t :=
  List.Pairwise.imp (fun h h' => absurd h' h) h

theorem near_segment {o x far near : P2 K} (h0 : area2 o far near = 0) (h1 : 0 < area2 x far near)
    (h2 : 0 < area2 o x near) (h3 : 0 < area2 o x far) : InsideOf near o far := by
  have e : area2 x far near = area2 o x far - area2 o x near + area2 o far near := by unfold area2; ring
  refine ⟨area2 o x near / area2 o x far, div_pos h2 h3, ?_, ?_, ?_⟩
  · rw [div_lt_one h3]; linarith
  · have : area2 o x far * (near.x - o.x) = area2 o x near * (far.x - o.x) - area2 o far near * (x.x - o.x) := by
      unfold area2; ring
    rw [h0, zero_mul, sub_zero] at this
    field_simp
    linarith
  · have : area2 o x far * (near.y - o.y) = area2 o x near * (far.y - o.y) - area2 o far near * (x.y - o.y) := by
      unfold area2; ring
    rw [h0, zero_mul, sub_zero] at this
    field_simp
    linarith

/-- The scan with one point on the first ray. -/
theorem grahamHull_lines (sort : (P2 K → P2 K → Bool) → List (P2 K) → List (P2 K)) (hs : Sorts sort)
    (o : P2 K) (t : List (P2 K)) (ht : t ≠ []) (hl : LowestOf o t) (hf : OneOnFirstRay o t) :
    ∃ hull core, grahamHull Cmp.direct sort (o :: t) = .ok hull ∧ ScanResult o t hull core ∧ ConvStack core ∧
      (∀ v ∈ hull, v ∈ o :: t) ∧
      ∀ q ∈ o :: t, ∀ a b : P2 K, (∀ x ∈ core, 0 ≤ area2 a b x) → 0 ≤ area2 a b q := by
  unfold grahamHull
  rw [findLowest_id hl]
  simp only
  obtain ⟨hp, ho⟩ := hs (grahamLess Cmp.direct o) t
  have ho := ho (strictWeak_of_above hl)
  have hn' := hp.symm.pairwise hf (by
    intro a b h h'
    obtain ⟨c, hc, h1, h2⟩ := h (by rw [area2_swap_about, h', neg_zero])
    exact ⟨c, hc, h2, h1⟩)
  have hpos : (sort (grahamLess Cmp.direct o) t).Pairwise fun a b => 0 ≤ area2 o a b := by
    refine ho.imp ?_
    rintro a b h1
    rw [Bool.eq_false_iff, Ne, grahamLess_iff, area2_swap_about] at h1
    linarith
  cases hsrt : sort (grahamLess Cmp.direct o) t with
  | nil =>
    rw [hsrt] at hp
    exact absurd hp.symm.eq_nil ht
  | cons a rest =>
    rw [hsrt] at hpos hp hn'
    obtain ⟨h1, h2⟩ := List.pairwise_cons.1 hpos
    have hn1 := (List.pairwise_cons.1 hn').1
    simp only
    have hall : ∀ r ∈ rest, 0 < area2 o a r := by
      intro r hr
      refine lt_of_le_of_ne (h1 r hr) fun h => ?_
      obtain ⟨c, hc, hca, -⟩ := hn1 r hr h.symm
      rcases List.mem_cons.1 (hp.symm.subset hc) with rfl | hc'
      · have : area2 o c c = 0 := by unfold area2; ring
        rw [this] at hca; exact lt_irrefl _ hca
      · have := h1 c hc'
        rw [area2_swap_about] at hca
        linarith
    obtain ⟨hull, core, e, hr, hc, hQ⟩ := grahamLoop_lines o a (o :: t) t hl (2 * rest.length) rest [a] (by simp)
      (by simp) (by simp [ConvStack]) (fun x hx => hp.subset (by simpa using hx)) (by simpa using h1) h2 hall (by
        intro q hq u w hx
        refine hx q ?_
        rcases List.mem_cons.1 hq with rfl | hq
        · simp
        · have := hp.symm.subset hq
          rcases List.mem_cons.1 this with rfl | h
          · simp
          · simp [h])
    refine ⟨hull, core, e, hr, hc, ?_, hQ⟩
    intro v hv
    rcases grahamLoop_mem _ _ _ _ e v hv with h | h
    · exact List.mem_cons_of_mem _ (hp.subset (List.mem_cons_of_mem _ h))
    · simp only [List.cons_append, List.nil_append, List.mem_cons, List.not_mem_nil, or_false] at h
      rcases h with rfl | rfl
      · exact List.mem_cons_of_mem _ (hp.subset (by simp))
      · simp

end Geometrix
