import Verif.Lemmas.ConvexBorder
import Verif.Lemmas.Distance
import Verif.Spec.SimpleBorder
import Mathlib.Data.Prod.Lex

/-!
# The sides of a simple polygon are the border of its inside
-/

set_option linter.unusedSectionVars false

namespace Geometrix

open Spec

variable {K : Type*} [Field K] [LinearOrder K] [IsStrictOrderedRing K]

theorem sides_getElem {poly : List (P2 K)} {k : Nat} {c : P2 K × P2 K} (hk : (sides poly)[k]? = some c) :
    IsPolygonEdge poly k c.1 c.2 := by
  obtain ⟨hk', rfl⟩ := List.getElem?_eq_some_iff.1 hk
  constructor
  · simp [sides]
  · simp only [sides, List.getElem_zip, List.getElem_rotate]
    exact List.getElem?_eq_getElem _

theorem sqDist_nonneg' (P Q : P2 K) : 0 ≤ sqDist P Q := by unfold sqDist; positivity

theorem sqDist_pos {P Q : P2 K} (h : P ≠ Q) : 0 < sqDist P Q := by
  refine lt_of_le_of_ne (sqDist_nonneg' P Q) (Ne.symm ?_)
  rw [← dot_self_sub, Ne, dot_self_eq_zero, sub_eq_zero_P2]; exact Ne.symm h

/-- The segments of a list which do not meet a segment keep a distance from it. -/
theorem keep_away (p q : P2 K) (l : List (P2 K × P2 K)) : ∃ ρ : K, 0 < ρ ∧ ∀ s ∈ l,
    (¬ ∃ P, OnSegment p q P ∧ OnSegment s.1 s.2 P) → ∀ X Y, OnSegment p q X → OnSegment s.1 s.2 Y → ρ ≤ sqDist X Y := by
  induction l with
  | nil => exact ⟨1, one_pos, by simp⟩
  | cons a l ih =>
    obtain ⟨ρ, h0, h1⟩ := ih
    obtain ⟨d, -, ⟨⟨P, Q⟩, ⟨hP, hQ⟩, hd⟩, hmin⟩ := segSegDistSq_spec p q a.1 a.2
    by_cases hm : ∃ P, OnSegment p q P ∧ OnSegment a.1 a.2 P
    · refine ⟨ρ, h0, fun s hs => ?_⟩
      rcases List.mem_cons.1 hs with rfl | hs
      · exact fun h => absurd hm h
      · exact h1 s hs
    · have hd0 : 0 < d := by
        rw [← hd]
        refine sqDist_pos fun h => hm ⟨P, hP, ?_⟩
        simp only at h
        rw [h]; exact hQ
      refine ⟨min ρ d, lt_min h0 hd0, fun s hs => ?_⟩
      rcases List.mem_cons.1 hs with rfl | hs
      · exact fun _ X Y hX hY => (min_le_right _ _).trans (hmin (X, Y) ⟨hX, hY⟩)
      · exact fun h X Y hX hY => (min_le_left _ _).trans (h1 s hs h X Y hX hY)

theorem small_square {ρ D : K} (hρ : 0 < ρ) (hD : 0 ≤ D) : ∃ e0 : K, 0 < e0 ∧ ∀ e, |e| ≤ e0 → e ^ 2 * D < ρ := by
  have hD1 : 0 < D + 1 := by linarith
  refine ⟨min 1 (ρ / (D + 1)), lt_min one_pos (div_pos hρ hD1), fun e he => ?_⟩
  have h1 := he.trans (min_le_left _ _)
  have h2 := (le_div_iff₀ hD1).1 (he.trans (min_le_right _ _))
  have h3 : e ^ 2 ≤ |e| := by
    rw [← sq_abs]
    nlinarith [abs_nonneg e]
  rcases eq_or_lt_of_le (abs_nonneg e) with h0 | h0
  · have : e = 0 := abs_eq_zero.1 h0.symm
    rw [this]; simpa using hρ
  · nlinarith

/-- A way that meets no side does not change the answer of the even-odd test. -/
theorem pip_along {poly : List (P2 K)} {p q : P2 K} (hw : ∀ t : K, 0 ≤ t → t ≤ 1 → ¬ OnBorder (sides poly) (p + t • (q - p))) :
    pointInPolygon p poly = pointInPolygon q poly := by
  classical
  have hp : ¬ OnBoundary poly p := by
    have := hw 0 le_rfl zero_le_one
    rwa [onBorder_sides, P2.add_zero_param] at this
  have hq : ¬ OnBoundary poly q := by
    have := hw 1 zero_le_one le_rfl
    rwa [onBorder_sides, P2.add_sub_cancel_param] at this
  have hv : ∀ v ∈ poly, ¬ OnSegment p q v := by
    rintro v hv ⟨t, t0, t1, rfl⟩
    obtain ⟨i, hi, hiv⟩ := List.mem_iff_getElem.1 hv
    refine hw t t0 t1 ((onBorder_sides _ _).2 ⟨i, poly[i], _, ⟨List.getElem?_eq_getElem hi,
      List.getElem?_eq_getElem (Nat.mod_lt _ (by omega))⟩, ?_⟩)
    rw [hiv]
    exact onSegment_left _ _
  have h := crossing_parity' hv hp hq
  have h0 : ¬ Odd (sideCount poly (SegmentsMeet p q)) := by
    have : sideCount poly (SegmentsMeet p q) = 0 := by
      unfold sideCount
      rw [List.countP_eq_zero]
      intro e he hm
      rw [decide_eq_true_iff] at hm
      obtain ⟨P, ⟨t, t0, t1, rfl⟩, hP⟩ := hm
      exact hw t t0 t1 ⟨e, he, hP⟩
    rw [this]; simp
  have h1 := not_not.1 (mt h.1 h0)
  rw [Bool.eq_iff_iff, pointInPolygon_iff, pointInPolygon_iff, h1]

section simple

variable {poly : List (P2 K)} (hn : 2 < poly.length) (hp : ProperPolygon poly) (hs : SimplePolygon poly)
include hn hp hs

/-- No other side contains a point inside a side. -/
theorem simple_inner {i j : Nat} {p q r s x : P2 K} (h1 : IsPolygonEdge poly i p q) (h2 : IsPolygonEdge poly j r s) (hij : i ≠ j)
    (hx : InsideSegment p q x) : ¬ OnSegment r s x := by
  intro h
  obtain ⟨t, t0, t1, rfl⟩ := hx
  have hne := hp i p q h1
  have key : ∀ c : K, p + c • (q - p) = p → c = 0 := by
    intro c hc
    by_contra hc0
    apply hne
    have hx := congrArg P2.x hc
    have hy := congrArg P2.y hc
    simp only [P2.add_x, P2.add_y, P2.smul_x, P2.smul_y, P2.sub_x, P2.sub_y] at hx hy
    have hx' : c * (q.x - p.x) = 0 := by linarith
    have hy' : c * (q.y - p.y) = 0 := by linarith
    rcases mul_eq_zero.1 hx' with h | h
    · exact absurd h hc0
    · rcases mul_eq_zero.1 hy' with h' | h'
      · exact absurd h' hc0
      · ext <;> linarith
  have key1 : ∀ c : K, p + c • (q - p) = q → c = 1 := by
    intro c hc
    have := key (c - 1) (by
      have hx := congrArg P2.x hc
      have hy := congrArg P2.y hc
      simp only [P2.add_x, P2.add_y, P2.smul_x, P2.smul_y, P2.sub_x, P2.sub_y] at hx hy
      ext <;> simp only [P2.add_x, P2.add_y, P2.smul_x, P2.smul_y, P2.sub_x, P2.sub_y]
      · linear_combination hx
      · linear_combination hy)
    linarith
  rcases hs i j p q r s _ hij h1 h2 ⟨⟨t, t0.le, t1.le, rfl⟩, h⟩ with ⟨-, h'⟩ | ⟨h3, h'⟩
  · exact absurd (key1 t h') t1.ne
  · have : p = s := by
      have k1 := h1.1
      have k2 := h2.2
      rw [← h3] at k2
      exact Option.some.inj (k1.symm.trans k2)
    rw [← this] at h'
    exact absurd (key t h') t0.ne'

/-- Next to a part of the inside of a side there is no other side. -/
theorem simple_tube {i : Nat} {p q x y : P2 K} (h : IsPolygonEdge poly i p q) (hx : InsideSegment p q x) (hy : InsideSegment p q y) :
    ∃ e0 : K, 0 < e0 ∧ ∀ (z : P2 K) (τ : K), OnSegment x y z → |τ| ≤ e0 → (OnBorder (sides poly) (z + τ • toLeft (p, q)) ↔ τ = 0) := by
  obtain ⟨ρ, ρ0, hρ⟩ := keep_away x y (sides poly)
  have hL : 0 < dot (toLeft (p, q)) (toLeft (p, q)) := toLeft_pos (s := (p, q)) (hp i p q h)
  obtain ⟨e0, e1, e2⟩ := small_square ρ0 (D := dot (toLeft (p, q)) (toLeft (p, q))) hL.le
  have hin : ∀ z, OnSegment x y z → InsideSegment p q z := by
    obtain ⟨a, a0, a1, rfl⟩ := hx
    obtain ⟨b, b0, b1, rfl⟩ := hy
    rintro z ⟨t, t0, t1, rfl⟩
    refine ⟨a + t * (b - a), ?_, ?_, ?_⟩
    · rcases eq_or_lt_of_le t0 with h | h
      · rw [← h]; linarith
      · nlinarith
    · rcases eq_or_lt_of_le t0 with h | h
      · rw [← h]; linarith
      · nlinarith
    · ext <;> simp only [P2.add_x, P2.add_y, P2.smul_x, P2.smul_y, P2.sub_x, P2.sub_y] <;> ring
  refine ⟨e0, e1, fun z τ hz hτ => ⟨?_, ?_⟩⟩
  · rintro ⟨s, hs', hon⟩
    obtain ⟨j, hj⟩ := (mem_sides_iff poly s).1 hs'
    by_cases hij : i = j
    · subst hij
      have k1 := Option.some.inj (hj.1.symm.trans h.1)
      have k2 := Option.some.inj (hj.2.symm.trans h.2)
      rw [k1, k2] at hon
      obtain ⟨t, -, -, ht⟩ := hon
      obtain ⟨c, -, -, rfl⟩ := hin z hz
      have h0 : τ * dot (toLeft (p, q)) (toLeft (p, q)) = 0 := by
        have hx := congrArg P2.x ht
        have hy := congrArg P2.y ht
        simp only [toLeft, dot, P2.add_x, P2.add_y, P2.smul_x, P2.smul_y, P2.sub_x, P2.sub_y] at hx hy ⊢
        linear_combination (p.y - q.y) * hx + (q.x - p.x) * hy
      rcases mul_eq_zero.1 h0 with h0 | h0
      · exact h0
      · exact absurd h0 hL.ne'
    · exfalso
      have := hρ s hs' (fun ⟨P, h1, h2⟩ => simple_inner hn hp hs h hj hij (hin P h1) h2) z _ hz hon
      have e : sqDist z (z + τ • toLeft (p, q)) = τ ^ 2 * dot (toLeft (p, q)) (toLeft (p, q)) := by
        unfold sqDist dot; simp only [P2.add_x, P2.add_y, P2.smul_x, P2.smul_y]; ring
      rw [e] at this
      exact absurd (e2 τ hτ) (not_lt.2 this)
  · rintro rfl
    refine ⟨(p, q), (mem_sides_iff poly _).2 ⟨i, h⟩, ?_⟩
    obtain ⟨c, c0, c1, hc⟩ := hin z hz
    exact ⟨c, c0.le, c1.le, by rw [← hc]; ext <;> simp⟩

end simple

/-- Left of the side, close to it, the even-odd test gives the answer `b`. -/
def EvLeft (poly : List (P2 K)) (s : P2 K × P2 K) (b : Bool) : Prop :=
  ∀ x, InsideSegment s.1 s.2 x → ∃ e0 : K, 0 < e0 ∧ ∀ e, 0 < e → e < e0 → pointInPolygon (x + e • toLeft s) poly = b

section simple

variable {poly : List (P2 K)} (hn : 2 < poly.length) (hp : ProperPolygon poly) (hs : SimplePolygon poly)
include hn hp hs

theorem evLeft_of_weak {i : Nat} {p q x : P2 K} (h : IsPolygonEdge poly i p q) (hx : InsideSegment p q x) {b : Bool}
    (hw : ∀ e0 : K, 0 < e0 → ∃ e, 0 < e ∧ e < e0 ∧ pointInPolygon (x + e • toLeft (p, q)) poly = b) : EvLeft poly (p, q) b := by
  intro y hy
  obtain ⟨e0, e1, e2⟩ := simple_tube hn hp hs h hx hy
  obtain ⟨e, k0, k1, k2⟩ := hw e0 e1
  refine ⟨e0, e1, fun f f0 f1 => ?_⟩
  rw [← k2]
  refine (pip_along fun t t0 t1 => ?_).symm
  have e3 : x + e • toLeft (p, q) + t • (y + f • toLeft (p, q) - (x + e • toLeft (p, q))) =
      (x + t • (y - x)) + (e + t * (f - e)) • toLeft (p, q) := by
    ext <;> simp only [P2.add_x, P2.add_y, P2.smul_x, P2.smul_y, P2.sub_x, P2.sub_y] <;> ring
  have hpos : 0 < e + t * (f - e) := by
    rcases eq_or_lt_of_le t0 with h | h
    · rw [← h]; linarith
    · nlinarith
  have hle : e + t * (f - e) ≤ e0 := by
    nlinarith
  rw [e3, e2 _ _ ⟨t, t0, t1, rfl⟩ (by rw [abs_of_pos hpos]; exact hle)]
  exact hpos.ne'

/-- Crossing a side changes the answer. -/
theorem pip_flip {i : Nat} {p q x : P2 K} (h : IsPolygonEdge poly i p q) (hx : InsideSegment p q x) :
    ∃ e0 : K, 0 < e0 ∧ ∀ e, 0 < e → e < e0 → pointInPolygon (x - e • toLeft (p, q)) poly = !pointInPolygon (x + e • toLeft (p, q)) poly := by
  classical
  obtain ⟨e0, e1, e2⟩ := simple_tube hn hp hs h hx hx
  have hxx : OnSegment x x x := onSegment_left _ _
  refine ⟨e0, e1, fun e f0 f1 => ?_⟩
  have hminus : x - e • toLeft (p, q) = x + (-e) • toLeft (p, q) := by
    ext <;> simp only [P2.add_x, P2.add_y, P2.smul_x, P2.smul_y, P2.sub_x, P2.sub_y] <;> ring
  rw [hminus]
  set A := x + (-e) • toLeft (p, q) with hA
  set B := x + e • toLeft (p, q) with hB
  have hAB : ∀ P, OnSegment A B P → ∃ τ, |τ| ≤ e0 ∧ P = x + τ • toLeft (p, q) := by
    rintro P ⟨t, t0, t1, rfl⟩
    refine ⟨-e + 2 * t * e, ?_, ?_⟩
    · rw [abs_le]; constructor <;> nlinarith
    · rw [hA, hB]; ext <;> simp only [P2.add_x, P2.add_y, P2.smul_x, P2.smul_y, P2.sub_x, P2.sub_y] <;> ring
  have hoA : ¬ OnBoundary poly A := by
    rw [← onBorder_sides, e2 x (-e) hxx (by rw [abs_neg, abs_of_pos f0]; exact f1.le)]; linarith
  have hoB : ¬ OnBoundary poly B := by
    rw [← onBorder_sides, e2 x e hxx (by rw [abs_of_pos f0]; exact f1.le)]; linarith
  have honly : ∀ P, OnSegment A B P → OnBorder (sides poly) P → P = x := by
    intro P h1 h2
    obtain ⟨τ, h3, rfl⟩ := hAB P h1
    rw [(e2 x τ hxx h3).1 h2]
    ext <;> simp
  have hv : ∀ v ∈ poly, ¬ OnSegment A B v := by
    intro v hv hon
    obtain ⟨k, hk, hkv⟩ := List.mem_iff_getElem.1 hv
    have hk0 : poly[k]? = some v := by rw [List.getElem?_eq_getElem hk, hkv]
    have hk1 : IsPolygonEdge poly k v (poly[(k + 1) % poly.length]'(Nat.mod_lt _ (by omega))) :=
      ⟨hk0, List.getElem?_eq_getElem _⟩
    have hm : ((k + (poly.length - 1)) % poly.length + 1) % poly.length = k := by
      rw [Nat.mod_add_mod, show k + (poly.length - 1) + 1 = k + poly.length by omega, Nat.add_mod_right,
        Nat.mod_eq_of_lt hk]
    have hk2 : IsPolygonEdge poly ((k + (poly.length - 1)) % poly.length)
        (poly[(k + (poly.length - 1)) % poly.length]'(Nat.mod_lt _ (by omega))) v :=
      ⟨List.getElem?_eq_getElem _, by rw [hm]; exact hk0⟩
    have hvx : v = x := honly v hon ((onBorder_sides _ _).2 ⟨k, _, _, hk1, onSegment_left _ _⟩)
    by_cases hik : i = k
    · have : i ≠ (k + (poly.length - 1)) % poly.length := by
        intro h'
        rw [← h', ← hik] at hm
        rcases Nat.lt_or_ge (i + 1) poly.length with h'' | h''
        · rw [Nat.mod_eq_of_lt h''] at hm; omega
        · rw [show i + 1 = poly.length by omega, Nat.mod_self] at hm; omega
      exact simple_inner hn hp hs h hk2 this hx (by rw [← hvx]; exact onSegment_right _ _)
    · exact simple_inner hn hp hs h hk1 hik hx (by rw [← hvx]; exact onSegment_left _ _)
  have hcount : sideCount poly (SegmentsMeet A B) = 1 := by
    unfold sideCount
    have huniq : ∀ (k : Nat) (c : P2 K × P2 K), (sides poly)[k]? = some c → SegmentsMeet A B c.1 c.2 → k = i := by
      rintro k c hk ⟨P, h1, h2⟩
      by_contra hki
      have hP := honly P h1 ⟨c, List.mem_of_getElem? hk, h2⟩
      rw [hP] at h2
      exact simple_inner hn hp hs h (sides_getElem hk) (Ne.symm hki) hx h2
    refine countP_one _ _ ?_ ?_
    · intro k j a b ha hb h1 h2
      rw [decide_eq_true_iff] at h1 h2
      rw [huniq k a ha h1, huniq j b hb h2]
    · refine ⟨(p, q), (mem_sides_iff poly _).2 ⟨i, h⟩, ?_⟩
      rw [decide_eq_true_iff]
      obtain ⟨c, c0, c1, hc⟩ := hx
      refine ⟨x, ⟨1 / 2, by norm_num, by norm_num, ?_⟩, ⟨c, c0.le, c1.le, hc⟩⟩
      rw [hA, hB]
      ext <;> simp only [P2.add_x, P2.add_y, P2.smul_x, P2.smul_y, P2.sub_x, P2.sub_y] <;> ring
  have h3 := crossing_parity' hv hoA hoB
  rw [hcount, ← pointInPolygon_iff, ← pointInPolygon_iff] at h3
  have h4 := h3.2 odd_one
  revert h4
  cases pointInPolygon A poly <;> cases pointInPolygon B poly <;> simp

/-- Close to a vertex there are only the two sides which meet there. -/
theorem near_vertex {i : Nat} {u v w : P2 K} (h1 : IsPolygonEdge poly i u v)
    (h2 : IsPolygonEdge poly ((i + 1) % poly.length) v w) : ∃ ρ : K, 0 < ρ ∧ ∀ Y, OnBorder (sides poly) Y → sqDist v Y < ρ →
      OnSegment u v Y ∨ OnSegment v w Y := by
  obtain ⟨ρ, ρ0, hρ⟩ := keep_away v v (sides poly)
  refine ⟨ρ, ρ0, ?_⟩
  rintro Y ⟨s, hs', hY⟩ hd
  obtain ⟨k, hk⟩ := (mem_sides_iff poly s).1 hs'
  by_cases hk1 : k = i
  · subst hk1
    have e1 := Option.some.inj (hk.1.symm.trans h1.1)
    have e2 := Option.some.inj (hk.2.symm.trans h1.2)
    rw [e1, e2] at hY
    exact Or.inl hY
  by_cases hk2 : k = (i + 1) % poly.length
  · subst hk2
    have e1 := Option.some.inj (hk.1.symm.trans h2.1)
    have e2 := Option.some.inj (hk.2.symm.trans h2.2)
    rw [e1, e2] at hY
    exact Or.inr hY
  exfalso
  refine absurd hd (not_lt.2 (hρ s hs' ?_ v Y (onSegment_left _ _) hY))
  rintro ⟨P, ⟨t, -, -, rfl⟩, hP⟩
  have e : v + t • (v - v) = v := by ext <;> simp
  rw [e] at hP
  rcases hs i k u v s.1 s.2 v (Ne.symm hk1) h1 hk ⟨onSegment_right _ _, hP⟩ with ⟨h3, -⟩ | ⟨h3, h4⟩
  · exact hk2 h3
  · have k2 := hk.2
    rw [← h3] at k2
    have : u = s.2 := Option.some.inj (h1.1.symm.trans k2)
    exact hp i u v h1 (this.trans h4.symm)

/-- The two sides at a vertex do not overlap. -/
theorem vertex_dot {i : Nat} {u v w : P2 K} (h1 : IsPolygonEdge poly i u v)
    (h2 : IsPolygonEdge poly ((i + 1) % poly.length) v w) (h0 : area2 u v w = 0) : 0 < dot (v - u) (w - v) := by
  have huv := hp _ _ _ h1
  have hvw := hp _ _ _ h2
  have hi : i < poly.length := (List.getElem?_eq_some_iff.1 h1.1).1
  have hij : i ≠ (i + 1) % poly.length := by
    rcases Nat.lt_or_ge (i + 1) poly.length with h | h
    · rw [Nat.mod_eq_of_lt h]; omega
    · rw [show i + 1 = poly.length by omega, Nat.mod_self]; omega
  have hij2 : i ≠ ((i + 1) % poly.length + 1) % poly.length := by
    rw [Nat.mod_add_mod]
    rcases Nat.lt_or_ge (i + 1 + 1) poly.length with h' | h'
    · rw [Nat.mod_eq_of_lt h']; omega
    · rw [Nat.mod_eq_sub_mod h', Nat.mod_eq_of_lt (by omega)]; omega
  have hne : u - v ≠ 0 := sub_ne_zero_P2 (Ne.symm huv)
  have hcr : cross (u - v) (w - v) = 0 := by
    unfold area2 at h0; unfold cross; simp only [P2.sub_x, P2.sub_y]; linear_combination -h0
  obtain ⟨k, hk⟩ := (cross_eq_zero_iff hne).mp hcr
  have hpos : 0 < dot (u - v) (u - v) := by
    refine lt_of_le_of_ne (by unfold dot; nlinarith [sq_nonneg (u - v).x, sq_nonneg (u - v).y]) (Ne.symm ?_)
    rw [Ne, dot_self_eq_zero]; exact hne
  have hd : dot (v - u) (w - v) = -(k * dot (u - v) (u - v)) := by
    rw [hk]; unfold dot; simp only [P2.smul_x, P2.smul_y, P2.sub_x, P2.sub_y]; ring
  rw [hd]
  by_contra hcon
  have hk0 : 0 ≤ k := by
    by_contra hk0
    push Not at hk0 hcon
    have := mul_neg_of_neg_of_pos hk0 hpos
    linarith
  have hk1 : 0 < k := by
    refine lt_of_le_of_ne hk0 (Ne.symm ?_)
    rintro rfl
    apply hvw
    have hx := congrArg P2.x hk
    have hy := congrArg P2.y hk
    simp only [P2.smul_x, P2.smul_y, P2.sub_x, P2.sub_y, zero_mul] at hx hy
    ext <;> linarith
  -- a common point
  have hm : 0 < min 1 k := lt_min one_pos hk1
  have hc1 : OnSegment u v (v + min 1 k • (u - v)) := by
    refine ⟨1 - min 1 k, by linarith [min_le_left 1 k], by linarith, ?_⟩
    ext <;> simp only [P2.add_x, P2.add_y, P2.smul_x, P2.smul_y, P2.sub_x, P2.sub_y] <;> ring
  have hc2 : OnSegment v w (v + min 1 k • (u - v)) := by
    refine ⟨min 1 k / k, div_nonneg hm.le hk1.le, (div_le_one hk1).2 (min_le_right _ _), ?_⟩
    rw [hk]
    ext <;> simp only [P2.add_x, P2.add_y, P2.smul_x, P2.smul_y] <;> field_simp
  rcases hs i _ u v v w _ hij h1 h2 ⟨hc1, hc2⟩ with ⟨-, h⟩ | ⟨h, -⟩
  · apply hne
    have hx := congrArg P2.x h
    have hy := congrArg P2.y h
    simp only [P2.add_x, P2.add_y, P2.smul_x, P2.smul_y] at hx hy
    have hx' : min 1 k * (u - v).x = 0 := by linarith
    have hy' : min 1 k * (u - v).y = 0 := by linarith
    ext
    · exact (mul_eq_zero.1 hx').resolve_left hm.ne'
    · exact (mul_eq_zero.1 hy').resolve_left hm.ne'
  · exact hij2 h

end simple

/-- A way on the positive side of a line misses a segment on the other. -/
theorem way_misses {a b p q P Q : P2 K} {c : K} (hp : c * area2 a b p ≤ 0) (hq : c * area2 a b q ≤ 0) (hP : 0 < c * area2 a b P)
    (hQ : 0 < c * area2 a b Q) (t : K) (t0 : 0 ≤ t) (t1 : t ≤ 1) : ¬ OnSegment p q (P + t • (Q - P)) := by
  rintro ⟨r, r0, r1, h⟩
  have h1 : c * area2 a b (P + t • (Q - P)) = (1 - t) * (c * area2 a b P) + t * (c * area2 a b Q) := by
    rw [area2_along]; ring
  have h2 : c * area2 a b (p + r • (q - p)) = (1 - r) * (c * area2 a b p) + r * (c * area2 a b q) := by
    rw [area2_along]; ring
  rw [h, h2] at h1
  have k1 := mul_nonneg (sub_nonneg.2 r1) (neg_nonneg.2 hp)
  have k2 := mul_nonneg r0 (neg_nonneg.2 hq)
  have k3 : 0 < (1 - t) * (c * area2 a b P) + t * (c * area2 a b Q) := by
    rcases eq_or_lt_of_le t0 with h | h
    · rw [← h]; linarith
    · have := mul_pos h hQ
      have := mul_nonneg (sub_nonneg.2 t1) hP.le
      linarith
  linarith

theorem ball_small (v a b c : P2 K) {ρ : K} (hρ : 0 < ρ) : ∃ ε : K, 0 < ε ∧ ∀ α β γ, |α| ≤ ε → |β| ≤ ε → |γ| ≤ ε →
    sqDist v (v + α • a + β • b + γ • c) < ρ := by
  have hd : ∀ x : P2 K, 0 ≤ 3 * (x.x ^ 2 + x.y ^ 2) := fun x => by positivity
  obtain ⟨e1, h1, k1⟩ := small_square (show 0 < ρ / 3 by positivity) (hd a)
  obtain ⟨e2, h2, k2⟩ := small_square (show 0 < ρ / 3 by positivity) (hd b)
  obtain ⟨e3, h3, k3⟩ := small_square (show 0 < ρ / 3 by positivity) (hd c)
  refine ⟨min e1 (min e2 e3), lt_min h1 (lt_min h2 h3), fun α β γ hα hβ hγ => ?_⟩
  have m1 := k1 α (hα.trans (min_le_left _ _))
  have m2 := k2 β (hβ.trans ((min_le_right _ _).trans (min_le_left _ _)))
  have m3 := k3 γ (hγ.trans ((min_le_right _ _).trans (min_le_right _ _)))
  have key : ∀ x y z : K, (x + y + z) ^ 2 ≤ 3 * (x ^ 2 + y ^ 2 + z ^ 2) := by
    intro x y z; nlinarith [sq_nonneg (x - y), sq_nonneg (y - z), sq_nonneg (x - z)]
  have n1 := key (α * a.x) (β * b.x) (γ * c.x)
  have n2 := key (α * a.y) (β * b.y) (γ * c.y)
  have e : sqDist v (v + α • a + β • b + γ • c) =
      (α * a.x + β * b.x + γ * c.x) ^ 2 + (α * a.y + β * b.y + γ * c.y) ^ 2 := by
    unfold sqDist; simp only [P2.add_x, P2.add_y, P2.smul_x, P2.smul_y]; ring
  rw [e]
  nlinarith

theorem ball_convex {v P Q : P2 K} {ρ : K} (hP : sqDist v P < ρ) (hQ : sqDist v Q < ρ) {t : K} (t0 : 0 ≤ t) (t1 : t ≤ 1) :
    sqDist v (P + t • (Q - P)) < ρ := by
  have e : sqDist v (P + t • (Q - P)) = (1 - t) * sqDist v P + t * sqDist v Q - t * (1 - t) * sqDist P Q := by
    unfold sqDist; simp only [P2.add_x, P2.add_y, P2.smul_x, P2.smul_y, P2.sub_x, P2.sub_y]; ring
  have h1 := mul_nonneg (mul_nonneg t0 (sub_nonneg.2 t1)) (sqDist_nonneg' P Q)
  rw [e]
  rcases eq_or_lt_of_le t0 with h | h
  · rw [← h] at h1 ⊢; linarith
  · have := mul_lt_mul_of_pos_left hQ h
    have := mul_le_mul_of_nonneg_left hP.le (sub_nonneg.2 t1)
    linarith

theorem pip_near {poly : List (P2 K)} {u v w P Q : P2 K} {ρ : K}
    (hρ : ∀ Y, OnBorder (sides poly) Y → sqDist v Y < ρ → OnSegment u v Y ∨ OnSegment v w Y)
    (hP : sqDist v P < ρ) (hQ : sqDist v Q < ρ)
    (h1 : ∀ t : K, 0 ≤ t → t ≤ 1 → ¬ OnSegment u v (P + t • (Q - P)))
    (h2 : ∀ t : K, 0 ≤ t → t ≤ 1 → ¬ OnSegment v w (P + t • (Q - P))) :
    pointInPolygon P poly = pointInPolygon Q poly := by
  refine pip_along fun t t0 t1 hb => ?_
  rcases hρ _ hb (ball_convex hP hQ t0 t1) with h | h
  · exact h1 t t0 t1 h
  · exact h2 t t0 t1 h

section simple

variable {poly : List (P2 K)} (hn : 2 < poly.length) (hp : ProperPolygon poly) (hs : SimplePolygon poly)
include hn hp hs

/-- The left of a side and the left of the next side are on one side of the border. -/
theorem evLeft_next {i : Nat} {u v w : P2 K} (h1 : IsPolygonEdge poly i u v)
    (h2 : IsPolygonEdge poly ((i + 1) % poly.length) v w) {b : Bool} (hb : EvLeft poly (u, v) b) : EvLeft poly (v, w) b := by
  obtain ⟨ρ, ρ0, hρ⟩ := near_vertex hn hp hs h1 h2
  obtain ⟨ε1, ε1p, hε1⟩ := ball_small v (u - v) (w - v) (toLeft (u, v)) ρ0
  obtain ⟨ε2, ε2p, hε2⟩ := ball_small v (u - v) (w - v) (toLeft (v, w)) ρ0
  obtain ⟨ε, ε0, hε⟩ := exists_between (lt_min one_pos (lt_min ε1p ε2p))
  have hεa : ε < 1 := lt_of_lt_of_le hε (min_le_left _ _)
  have hεb : ε < ε1 := lt_of_lt_of_le hε ((min_le_right _ _).trans (min_le_left _ _))
  have hεc : ε < ε2 := lt_of_lt_of_le hε ((min_le_right _ _).trans (min_le_right _ _))
  have hxu : InsideSegment u v (v + ε • (u - v)) := by
    refine ⟨1 - ε, by linarith, by linarith, ?_⟩
    ext <;> simp only [P2.add_x, P2.add_y, P2.smul_x, P2.smul_y, P2.sub_x, P2.sub_y] <;> ring
  have hxw : InsideSegment v w (v + ε • (w - v)) := ⟨ε, ε0, hεa, rfl⟩
  obtain ⟨e1, e1p, he1⟩ := hb _ hxu
  refine evLeft_of_weak hn hp hs h2 hxw fun e0 e0p => ?_
  have hL1 : 0 < dot (toLeft (u, v)) (toLeft (u, v)) := toLeft_pos (s := (u, v)) (hp _ _ _ h1)
  have hL2 : 0 < dot (toLeft (v, w)) (toLeft (v, w)) := toLeft_pos (s := (v, w)) (hp _ _ _ h2)
  obtain ⟨e2, e2p, he2⟩ : ∃ e2 : K, 0 < e2 ∧ (0 < area2 u v w → ∀ e, 0 < e → e ≤ e2 →
      0 < ε * area2 u v w + e * cross (w - v) (toLeft (u, v)) ∧ 0 < ε * area2 u v w + e * cross (v - u) (toLeft (v, w))) := by
    by_cases ha : 0 < area2 u v w
    · obtain ⟨e2, k1, k2⟩ := short_step [(ε * area2 u v w, cross (w - v) (toLeft (u, v))),
        (ε * area2 u v w, cross (v - u) (toLeft (v, w)))] (by simp [mul_pos ε0 ha])
      refine ⟨e2, k1, fun _ e m1 m2 => ⟨?_, ?_⟩⟩
      · exact k2 (ε * area2 u v w, cross (w - v) (toLeft (u, v))) (by simp) e m1 m2
      · exact k2 (ε * area2 u v w, cross (v - u) (toLeft (v, w))) (by simp) e m1 m2
    · exact ⟨1, one_pos, fun h => absurd h ha⟩
  obtain ⟨e, ep, he⟩ := exists_between (lt_min (lt_min e0p e1p) (lt_min e2p ε0))
  have hea : e < e0 := lt_of_lt_of_le he ((min_le_left _ _).trans (min_le_left _ _))
  have heb : e < e1 := lt_of_lt_of_le he ((min_le_left _ _).trans (min_le_right _ _))
  have hec : e < e2 := lt_of_lt_of_le he ((min_le_right _ _).trans (min_le_left _ _))
  have hed : e < ε := lt_of_lt_of_le he ((min_le_right _ _).trans (min_le_right _ _))
  refine ⟨e, ep, hea, ?_⟩
  rw [← he1 e ep heb]
  set P := v + ε • (u - v) + e • toLeft (u, v) with hPdef
  set Q := v + ε • (w - v) + e • toLeft (v, w) with hQdef
  have hP : sqDist v P < ρ := by
    have := hε1 ε 0 e (by rw [abs_of_pos ε0]; exact hεb.le) (by rw [abs_zero]; exact ε1p.le) (by rw [abs_of_pos ep]; linarith)
    have k : v + ε • (u - v) + (0 : K) • (w - v) + e • toLeft (u, v) = P := by ext <;> simp [hPdef]
    rwa [k] at this
  have hQ : sqDist v Q < ρ := by
    have := hε2 0 ε e (by rw [abs_zero]; exact ε2p.le) (by rw [abs_of_pos ε0]; exact hεc.le) (by rw [abs_of_pos ep]; linarith)
    have k : v + (0 : K) • (u - v) + ε • (w - v) + e • toLeft (v, w) = Q := by ext <;> simp [hQdef]
    rwa [k] at this
  have a1 : area2 u v P = e * dot (toLeft (u, v)) (toLeft (u, v)) := by
    simp only [hPdef, area2, dot, toLeft, P2.add_x, P2.add_y, P2.smul_x, P2.smul_y, P2.sub_x, P2.sub_y]; ring
  have a2 : area2 v w P = ε * area2 u v w + e * cross (w - v) (toLeft (u, v)) := by
    simp only [hPdef, area2, cross, toLeft, P2.add_x, P2.add_y, P2.smul_x, P2.smul_y, P2.sub_x, P2.sub_y]; ring
  have a3 : area2 u v Q = ε * area2 u v w + e * cross (v - u) (toLeft (v, w)) := by
    simp only [hQdef, area2, cross, toLeft, P2.add_x, P2.add_y, P2.smul_x, P2.smul_y, P2.sub_x, P2.sub_y]; ring
  have a4 : area2 v w Q = e * dot (toLeft (v, w)) (toLeft (v, w)) := by
    simp only [hQdef, area2, dot, toLeft, P2.add_x, P2.add_y, P2.smul_x, P2.smul_y, P2.sub_x, P2.sub_y]; ring
  have p1 : 0 < area2 u v P := by rw [a1]; exact mul_pos ep hL1
  have p4 : 0 < area2 v w Q := by rw [a4]; exact mul_pos ep hL2
  have z1 : area2 u v u = 0 := by unfold area2; ring
  have z2 : area2 u v v = 0 := by unfold area2; ring
  have z3 : area2 v w v = 0 := by unfold area2; ring
  have z4 : area2 v w w = 0 := by unfold area2; ring
  have z5 : area2 v w u = area2 u v w := by unfold area2; ring
  rcases lt_trichotomy (area2 u v w) 0 with ha | ha | ha
  · set q := v + (-ε) • (u - v) + (-ε) • (w - v) with hqdef
    have hq : sqDist v q < ρ := by
      have := hε1 (-ε) (-ε) 0 (by rw [abs_neg, abs_of_pos ε0]; exact hεb.le) (by rw [abs_neg, abs_of_pos ε0]; exact hεb.le)
        (by rw [abs_zero]; exact ε1p.le)
      have k : v + (-ε) • (u - v) + (-ε) • (w - v) + (0 : K) • toLeft (u, v) = q := by ext <;> simp [hqdef]
      rwa [k] at this
    have b1 : area2 u v q = -ε * area2 u v w := by
      simp only [hqdef, area2, P2.add_x, P2.add_y, P2.smul_x, P2.smul_y, P2.sub_x, P2.sub_y]; ring
    have b2 : area2 v w q = -ε * area2 u v w := by
      simp only [hqdef, area2, P2.add_x, P2.add_y, P2.smul_x, P2.smul_y, P2.sub_x, P2.sub_y]; ring
    have hb0 : 0 < -ε * area2 u v w := mul_pos_of_neg_of_neg (by linarith) ha
    have s1 : pointInPolygon P poly = pointInPolygon q poly := by
      refine pip_near hρ hP hq ?_ ?_
      · exact way_misses (a := u) (b := v) (c := 1) (by rw [z1]; simp) (by rw [z2]; simp) (by rwa [one_mul]) (by rw [b1, one_mul]; exact hb0)
      · exact way_misses (a := u) (b := v) (c := 1) (by rw [z2]; simp) (by rw [one_mul]; exact ha.le) (by rwa [one_mul]) (by rw [b1, one_mul]; exact hb0)
    have s2 : pointInPolygon q poly = pointInPolygon Q poly := by
      refine pip_near hρ hq hQ ?_ ?_
      · exact way_misses (a := v) (b := w) (c := 1) (by rw [z5, one_mul]; exact ha.le) (by rw [z3]; simp) (by rw [b2, one_mul]; exact hb0) (by rwa [one_mul])
      · exact way_misses (a := v) (b := w) (c := 1) (by rw [z3]; simp) (by rw [z4]; simp) (by rw [b2, one_mul]; exact hb0) (by rwa [one_mul])
    exact (s1.trans s2).symm
  · have hdot := vertex_dot hn hp hs h1 h2 ha
    have hcr : cross (v - u) (toLeft (v, w)) = dot (v - u) (w - v) := by
      unfold cross dot toLeft; simp only [P2.sub_x, P2.sub_y]; ring
    have p3 : 0 < area2 u v Q := by rw [a3, ha, hcr, mul_zero, zero_add]; exact mul_pos ep hdot
    refine (pip_near hρ hP hQ ?_ ?_).symm
    · exact way_misses (a := u) (b := v) (c := 1) (by rw [z1]; simp) (by rw [z2]; simp) (by rwa [one_mul]) (by rwa [one_mul])
    · exact way_misses (a := u) (b := v) (c := 1) (by rw [z2]; simp) (by rw [one_mul]; exact ha.le) (by rwa [one_mul]) (by rwa [one_mul])
  · obtain ⟨p2, p3⟩ := he2 ha e ep hec.le
    rw [← a2] at p2
    rw [← a3] at p3
    refine (pip_near hρ hP hQ ?_ ?_).symm
    · exact way_misses (a := u) (b := v) (c := 1) (by rw [z1]; simp) (by rw [z2]; simp) (by rwa [one_mul]) (by rwa [one_mul])
    · exact way_misses (a := v) (b := w) (c := 1) (by rw [z3]; simp) (by rw [z4]; simp) (by rwa [one_mul]) (by rwa [one_mul])

/-- All sides have the inside on the same hand. -/
theorem evLeft_all {i : Nat} {u v : P2 K} (h1 : IsPolygonEdge poly i u v) {b : Bool} (hb : EvLeft poly (u, v) b) :
    ∀ s ∈ sides poly, EvLeft poly s b := by
  have hpos : 0 < poly.length := by omega
  have hi : i < poly.length := (List.getElem?_eq_some_iff.1 h1.1).1
  have key : ∀ k, ∃ p q, IsPolygonEdge poly ((i + k) % poly.length) p q ∧ EvLeft poly (p, q) b := by
    intro k
    induction k with
    | zero => exact ⟨u, v, by rw [Nat.add_zero, Nat.mod_eq_of_lt hi]; exact h1, hb⟩
    | succ k ih =>
      obtain ⟨p, q, e1, e2⟩ := ih
      obtain ⟨r, hr⟩ : ∃ r, poly[((i + (k + 1)) % poly.length + 1) % poly.length]? = some r :=
        ⟨_, List.getElem?_eq_getElem (Nat.mod_lt _ hpos)⟩
      have e3 : IsPolygonEdge poly ((i + (k + 1)) % poly.length) q r := by
        refine ⟨?_, hr⟩
        have := e1.2
        rwa [Nat.mod_add_mod] at this
      refine ⟨q, r, e3, evLeft_next hn hp hs e1 ?_ e2⟩
      rw [Nat.mod_add_mod]
      exact e3
  intro s hs'
  obtain ⟨j, hj⟩ := (mem_sides_iff poly s).1 hs'
  have hjl : j < poly.length := (List.getElem?_eq_some_iff.1 hj.1).1
  obtain ⟨p, q, e1, e2⟩ := key (poly.length - i + j)
  rw [show i + (poly.length - i + j) = j + poly.length by omega, Nat.add_mod_right, Nat.mod_eq_of_lt hjl] at e1
  have k1 := Option.some.inj (hj.1.symm.trans e1.1)
  have k2 := Option.some.inj (hj.2.symm.trans e1.2)
  have : s = (p, q) := Prod.ext k1 k2
  rw [this]; exact e2

/-- At the lowest vertex the inside is in the angle of the two sides. -/
theorem evLeft_bottom {u v w : P2 K} (hb : Bottom poly u v w) :
    (0 < area2 u v w → EvLeft poly (u, v) true) ∧ (area2 u v w < 0 → EvLeft poly (u, v) false) := by
  obtain ⟨⟨i, h1, h2⟩, hlow⟩ := hb
  obtain ⟨ρ, ρ0, hρ⟩ := near_vertex hn hp hs h1 h2
  obtain ⟨ε1, ε1p, hε1⟩ := ball_small v (u - v) (w - v) (toLeft (u, v)) ρ0
  obtain ⟨ε, ε0, hε⟩ := exists_between (lt_min one_pos ε1p)
  have hεa : ε < 1 := lt_of_lt_of_le hε (min_le_left _ _)
  have hεb : ε < ε1 := lt_of_lt_of_le hε (min_le_right _ _)
  have hxu : InsideSegment u v (v + ε • (u - v)) := by
    refine ⟨1 - ε, by linarith, by linarith, ?_⟩
    ext <;> simp only [P2.add_x, P2.add_y, P2.smul_x, P2.smul_y, P2.sub_x, P2.sub_y] <;> ring
  have hL1 : 0 < dot (toLeft (u, v)) (toLeft (u, v)) := toLeft_pos (s := (u, v)) (hp _ _ _ h1)
  have z1 : area2 u v u = 0 := by unfold area2; ring
  have z2 : area2 u v v = 0 := by unfold area2; ring
  have hu : u ∈ poly := List.mem_of_getElem? h1.1
  have hw : w ∈ poly := List.mem_of_getElem? h2.2
  have hyu : v.y ≤ u.y := by rcases hlow u hu with h | h <;> linarith
  have hyw : v.y ≤ w.y := by rcases hlow w hw with h | h <;> linarith
  set q := v + (-ε) • (u - v) + (-ε) • (w - v) with hqdef
  have hq : sqDist v q < ρ := by
    have := hε1 (-ε) (-ε) 0 (by rw [abs_neg, abs_of_pos ε0]; exact hεb.le) (by rw [abs_neg, abs_of_pos ε0]; exact hεb.le)
      (by rw [abs_zero]; exact ε1p.le)
    have k : v + (-ε) • (u - v) + (-ε) • (w - v) + (0 : K) • toLeft (u, v) = q := by ext <;> simp [hqdef]
    rwa [k] at this
  have b1 : area2 u v q = -ε * area2 u v w := by
    simp only [hqdef, area2, P2.add_x, P2.add_y, P2.smul_x, P2.smul_y, P2.sub_x, P2.sub_y]; ring
  have hout : area2 u v w ≠ 0 → pointInPolygon q poly = false := by
    intro ha
    have hlt : v.y < u.y ∨ v.y < w.y := by
      by_contra hcon
      push Not at hcon
      apply ha
      have k1 : u.y = v.y := le_antisymm hcon.1 hyu
      have k2 : w.y = v.y := le_antisymm hcon.2 hyw
      unfold area2; rw [k1, k2]; ring
    have hqy : q.y < v.y := by
      have : q.y = v.y - ε * ((u.y - v.y) + (w.y - v.y)) := by
        simp only [hqdef, P2.add_y, P2.smul_y, P2.sub_y]; ring
      rw [this]
      have := mul_pos ε0 (show 0 < (u.y - v.y) + (w.y - v.y) by rcases hlt with h | h <;> linarith)
      linarith
    refine pip_outside (Or.inr (Or.inr (Or.inr fun x hx => ?_)))
    rcases hlow x hx with h | h <;> linarith
  have hpt : ∀ τ, |τ| ≤ ε → sqDist v (v + ε • (u - v) + τ • toLeft (u, v)) < ρ ∧
      area2 u v (v + ε • (u - v) + τ • toLeft (u, v)) = τ * dot (toLeft (u, v)) (toLeft (u, v)) := by
    intro τ hτ
    refine ⟨?_, ?_⟩
    · have := hε1 ε 0 τ (by rw [abs_of_pos ε0]; exact hεb.le) (by rw [abs_zero]; exact ε1p.le) (hτ.trans hεb.le)
      have k : v + ε • (u - v) + (0 : K) • (w - v) + τ • toLeft (u, v) = v + ε • (u - v) + τ • toLeft (u, v) := by ext <;> simp
      rwa [k] at this
    · simp only [area2, dot, toLeft, P2.add_x, P2.add_y, P2.smul_x, P2.smul_y, P2.sub_x, P2.sub_y]; ring
  refine ⟨fun ha => ?_, fun ha => ?_⟩
  · refine evLeft_of_weak hn hp hs h1 hxu fun e0 e0p => ?_
    obtain ⟨e3, e3p, he3⟩ := pip_flip hn hp hs h1 hxu
    obtain ⟨e, ep, he⟩ := exists_between (lt_min (lt_min e0p e3p) ε0)
    have hea : e < e0 := lt_of_lt_of_le he ((min_le_left _ _).trans (min_le_left _ _))
    have heb : e < e3 := lt_of_lt_of_le he ((min_le_left _ _).trans (min_le_right _ _))
    have hec : e < ε := lt_of_lt_of_le he (min_le_right _ _)
    refine ⟨e, ep, hea, ?_⟩
    have hf := he3 e ep heb
    have hm : v + ε • (u - v) - e • toLeft (u, v) = v + ε • (u - v) + (-e) • toLeft (u, v) := by
      ext <;> simp only [P2.add_x, P2.add_y, P2.smul_x, P2.smul_y, P2.sub_x, P2.sub_y] <;> ring
    obtain ⟨c1, c2⟩ := hpt (-e) (by rw [abs_neg, abs_of_pos ep]; exact hec.le)
    have p1 : 0 < (-1) * area2 u v (v + ε • (u - v) + (-e) • toLeft (u, v)) := by
      rw [c2]; have := mul_pos ep hL1; linarith
    have p2 : 0 < (-1) * area2 u v q := by rw [b1]; have := mul_pos ε0 ha; linarith
    have hsame : pointInPolygon (v + ε • (u - v) + (-e) • toLeft (u, v)) poly = pointInPolygon q poly := by
      refine pip_near hρ c1 hq ?_ ?_
      · exact way_misses (a := u) (b := v) (c := -1) (by rw [z1]; simp) (by rw [z2]; simp) p1 p2
      · exact way_misses (a := u) (b := v) (c := -1) (by rw [z2]; simp) (by linarith) p1 p2
    rw [hm, hsame, hout ha.ne'] at hf
    exact Bool.not_eq_false_eq_eq_true .. ▸ (by simpa using hf.symm)
  · refine evLeft_of_weak hn hp hs h1 hxu fun e0 e0p => ?_
    obtain ⟨e, ep, he⟩ := exists_between (lt_min e0p ε0)
    have hea : e < e0 := lt_of_lt_of_le he (min_le_left _ _)
    have hec : e < ε := lt_of_lt_of_le he (min_le_right _ _)
    refine ⟨e, ep, hea, ?_⟩
    obtain ⟨c1, c2⟩ := hpt e (by rw [abs_of_pos ep]; exact hec.le)
    have p1 : 0 < 1 * area2 u v (v + ε • (u - v) + e • toLeft (u, v)) := by
      rw [c2, one_mul]; exact mul_pos ep hL1
    have p2 : 0 < 1 * area2 u v q := by
      rw [b1, one_mul]; exact mul_pos_of_neg_of_neg (by linarith) ha
    rw [← hout ha.ne]
    refine pip_near hρ c1 hq ?_ ?_
    · exact way_misses (a := u) (b := v) (c := 1) (by rw [z1]; simp) (by rw [z2]; simp) p1 p2
    · exact way_misses (a := u) (b := v) (c := 1) (by rw [z2]; simp) (by linarith) p1 p2

/-- The points next to a point inside a side. -/
theorem beside_side {b : Bool} (hall : ∀ s ∈ sides poly, EvLeft poly s b) {s : P2 K × P2 K} (hs' : s ∈ sides poly) {x : P2 K}
    (hx : InsideSegment s.1 s.2 x) {δ : K} (hδ : 0 < δ) : ∃ e : K, 0 < e ∧ e < δ ∧
      ¬ OnBorder (sides poly) (x + e • toLeft s) ∧ ¬ OnBorder (sides poly) (x - e • toLeft s) ∧
      pointInPolygon (x + e • toLeft s) poly = b ∧ pointInPolygon (x - e • toLeft s) poly = !b := by
  obtain ⟨i, hi⟩ := (mem_sides_iff poly s).1 hs'
  obtain ⟨e1, e1p, he1⟩ := hall s hs' x hx
  obtain ⟨e2, e2p, he2⟩ := pip_flip hn hp hs hi hx
  obtain ⟨e3, e3p, he3⟩ := simple_tube hn hp hs hi hx hx
  obtain ⟨e, ep, he⟩ := exists_between (lt_min (lt_min hδ e1p) (lt_min e2p e3p))
  have k0 : e < δ := lt_of_lt_of_le he ((min_le_left _ _).trans (min_le_left _ _))
  have k1 : e < e1 := lt_of_lt_of_le he ((min_le_left _ _).trans (min_le_right _ _))
  have k2 : e < e2 := lt_of_lt_of_le he ((min_le_right _ _).trans (min_le_left _ _))
  have k3 : e < e3 := lt_of_lt_of_le he ((min_le_right _ _).trans (min_le_right _ _))
  have hm : x - e • toLeft s = x + (-e) • toLeft s := by
    ext <;> simp only [P2.add_x, P2.add_y, P2.smul_x, P2.smul_y, P2.sub_x, P2.sub_y] <;> ring
  have h4 := he2 e ep k2
  refine ⟨e, ep, k0, ?_, ?_, he1 e ep k1, ?_⟩
  · exact fun h => ep.ne' ((he3 x e (onSegment_left _ _) (by rw [abs_of_pos ep]; exact k3.le)).1 h)
  · rw [hm]
    intro h
    have := (he3 x (-e) (onSegment_left _ _) (by rw [abs_neg, abs_of_pos ep]; exact k3.le)).1 h
    linarith
  · rw [← he1 e ep k1]; exact h4

/-- The sides of a simple polygon which turns left at the bottom are the border of the set of points for which the even-odd test
holds, which is on their left. -/
theorem leftBorderOf_simple (ho : BottomLeftTurn poly) : LeftBorderOf (sides poly) (fun x => pointInPolygon x poly = true) := by
  obtain ⟨u, v, w, hb, ha⟩ := ho
  have hall : ∀ s ∈ sides poly, EvLeft poly s true := by
    obtain ⟨i, h1, -⟩ := hb.1
    exact evLeft_all hn hp hs h1 ((evLeft_bottom hn hp hs hb).1 ha)
  refine ⟨fun p q hw => ?_, fun s hs' x hx δ hδ => ?_, fun s hs' x hx δ hδ => ?_⟩
  · simp only [pip_along hw]
  · obtain ⟨e, k0, k1, -, k2, -, k3⟩ := beside_side hn hp hs hall hs' hx hδ
    exact ⟨e, k0, k1, k2, by simp [k3]⟩
  · obtain ⟨e, k0, k1, k2, -, k3, -⟩ := beside_side hn hp hs hall hs' hx hδ
    exact ⟨e, k0, k1, k2, by simp [k3]⟩

/-- The same with the inside on the right. -/
theorem borderOf_simple (ho : BottomRightTurn poly) : BorderOf (sides poly) (fun x => pointInPolygon x poly = true) := by
  obtain ⟨u, v, w, hb, ha⟩ := ho
  have hall : ∀ s ∈ sides poly, EvLeft poly s false := by
    obtain ⟨i, h1, -⟩ := hb.1
    exact evLeft_all hn hp hs h1 ((evLeft_bottom hn hp hs hb).2 ha)
  refine ⟨fun p q hw => ?_, fun s hs' x hx δ hδ => ?_, fun s hs' x hx δ hδ => ?_⟩
  · simp only [pip_along hw]
  · obtain ⟨e, k0, k1, -, k2, -, k3⟩ := beside_side hn hp hs hall hs' hx hδ
    exact ⟨e, k0, k1, k2, by simp [k3]⟩
  · obtain ⟨e, k0, k1, k2, -, k3, -⟩ := beside_side hn hp hs hall hs' hx hδ
    exact ⟨e, k0, k1, k2, by simp [k3]⟩

/-- A simple polygon turns left or right at the bottom. -/
theorem bottom_turn : BottomLeftTurn poly ∨ BottomRightTurn poly := by
  classical
  have hpos : 0 < poly.length := by omega
  -- the lowest vertex
  have hlex : ∃ v ∈ poly, ∀ x ∈ poly, v.y < x.y ∨ v.y = x.y ∧ v.x ≤ x.x := by
    obtain ⟨v, hv, hmin⟩ := Finset.exists_min_image poly.toFinset (fun v => toLex (v.y, v.x))
      ⟨poly[0], List.mem_toFinset.2 (List.getElem_mem _)⟩
    refine ⟨v, List.mem_toFinset.1 hv, fun x hx => ?_⟩
    have := hmin x (List.mem_toFinset.2 hx)
    rw [Prod.Lex.le_iff] at this
    exact this
  obtain ⟨v, hv, hlow⟩ := hlex
  obtain ⟨k, hk, hkv⟩ := List.mem_iff_getElem.1 hv
  have hk0 : poly[k]? = some v := by rw [List.getElem?_eq_getElem hk, hkv]
  have hm : ((k + (poly.length - 1)) % poly.length + 1) % poly.length = k := by
    rw [Nat.mod_add_mod, show k + (poly.length - 1) + 1 = k + poly.length by omega, Nat.add_mod_right,
      Nat.mod_eq_of_lt hk]
  obtain ⟨u, hu⟩ : ∃ u, poly[(k + (poly.length - 1)) % poly.length]? = some u :=
    ⟨_, List.getElem?_eq_getElem (Nat.mod_lt _ hpos)⟩
  obtain ⟨w, hw⟩ : ∃ w, poly[(k + 1) % poly.length]? = some w := ⟨_, List.getElem?_eq_getElem (Nat.mod_lt _ hpos)⟩
  have h1 : IsPolygonEdge poly ((k + (poly.length - 1)) % poly.length) u v := ⟨hu, by rw [hm]; exact hk0⟩
  have h2 : IsPolygonEdge poly (((k + (poly.length - 1)) % poly.length + 1) % poly.length) v w := by
    rw [hm]; exact ⟨hk0, hw⟩
  have hb : Bottom poly u v w := ⟨⟨_, h1, h2⟩, hlow⟩
  rcases lt_trichotomy (area2 u v w) 0 with ha | ha | ha
  · exact Or.inr ⟨u, v, w, hb, ha⟩
  · exfalso
    have hd := vertex_dot hn hp hs h1 h2 ha
    have huv := hp _ _ _ h1
    have gu := hlow u (List.mem_of_getElem? hu)
    have gw := hlow w (List.mem_of_getElem? hw)
    unfold dot at hd
    simp only [P2.sub_x, P2.sub_y] at hd
    unfold area2 at ha
    have hyu : v.y ≤ u.y := by rcases gu with h | h <;> linarith
    have hyw : v.y ≤ w.y := by rcases gw with h | h <;> linarith
    have hy : (v.y - u.y) * (w.y - v.y) ≤ 0 := mul_nonpos_of_nonpos_of_nonneg (by linarith) (by linarith)
    have hx : 0 < (v.x - u.x) * (w.x - v.x) := by linarith
    rcases gu with gu | ⟨gu, gu'⟩ <;> rcases gw with gw | ⟨gw, gw'⟩
    · -- both higher: the product of the directions has the wrong sign
      have e : (v.x - u.x) * (w.y - v.y) = (v.y - u.y) * (w.x - v.x) := by linarith
      have e' : (v.x - u.x) * (w.x - v.x) * (w.y - v.y) = (v.y - u.y) * (w.x - v.x) ^ 2 := by
        linear_combination (w.x - v.x) * e
      have g1 := mul_pos hx (sub_pos.2 gw)
      have g2 := mul_nonneg (sub_pos.2 gu).le (sq_nonneg (w.x - v.x))
      linarith
    · have e : (v.y - u.y) * (w.x - v.x) = 0 := by rw [← gw] at ha; linarith
      rcases mul_eq_zero.1 e with h | h
      · linarith
      · rw [h, mul_zero] at hx; exact lt_irrefl _ hx
    · have e : (v.x - u.x) * (w.y - v.y) = 0 := by rw [← gu] at ha; linarith
      rcases mul_eq_zero.1 e with h | h
      · rw [h, zero_mul] at hx; exact lt_irrefl _ hx
      · linarith
    · nlinarith
  · exact Or.inl ⟨u, v, w, hb, ha⟩

/-- A point which is no vertex is on one side of a simple polygon at most. -/
theorem simple_one_side {x : P2 K} (hx : x ∉ poly) : sideCount poly (fun p q => OnSegment p q x) ≤ 1 := by
  classical
  refine countP_le_one _ _ ?_
  intro i j a b ha hb h1 h2
  rw [decide_eq_true_iff] at h1 h2
  by_contra hij
  have hin : InsideSegment a.1 a.2 x := by
    obtain ⟨t, t0, t1, rfl⟩ := h1
    have hm := vertex_of_side (List.mem_of_getElem? ha)
    refine ⟨t, lt_of_le_of_ne t0 ?_, lt_of_le_of_ne t1 ?_, rfl⟩
    · rintro rfl
      rw [P2.add_zero_param] at hx
      exact hx hm.1
    · rintro rfl
      rw [P2.add_sub_cancel_param] at hx
      exact hx hm.2
  exact simple_inner hn hp hs (sides_getElem ha) (sides_getElem hb) hij hin h2

theorem simple_side_ne : ∀ e ∈ sides poly, e.1 ≠ e.2 := by
  intro e he
  obtain ⟨i, hi⟩ := (mem_sides_iff poly e).1 he
  exact hp i _ _ hi

end simple

end Geometrix
