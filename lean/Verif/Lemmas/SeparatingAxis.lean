import Verif.Model.SeparatingAxis
import Verif.Spec.SeparatingAxis
import Verif.Lemmas.Convex
import Verif.Lemmas.MovingAxes
import Verif.Lemmas.PolygonContainment
import Mathlib.Analysis.Convex.Radon
import Mathlib.LinearAlgebra.Dimension.Constructions
import Mathlib.Tactic.Linarith
import Mathlib.Tactic.LinearCombination
import Mathlib.Tactic.IntervalCases

/-!
# Lemmas about convex polygons and separating axes
-/

set_option linter.unusedSectionVars false

namespace Geometrix
open Spec

variable {K : Type*} [Field K] [LinearOrder K] [IsStrictOrderedRing K]

/-! ## The mirror image of a polygon -/

/-- The reflection in the diagonal. -/
def flip (p : P2 K) : P2 K := ⟨p.y, p.x⟩

theorem flip_flip (p : P2 K) : flip (flip p) = p := rfl

theorem area2_flip (a b c : P2 K) : area2 (flip a) (flip b) (flip c) = -area2 a b c := by
  unfold area2 flip; ring

theorem convex_flip {P : List (P2 K)} (h : StrictlyConvexCw P) : StrictlyConvex (P.map flip) := by
  intro i j k a b c hij hjk ha hb hc
  rw [List.getElem?_map, Option.map_eq_some_iff] at ha hb hc
  obtain ⟨a, ha, rfl⟩ := ha
  obtain ⟨b, hb, rfl⟩ := hb
  obtain ⟨c, hc, rfl⟩ := hc
  rw [area2_flip]
  linarith [h i j k a b c hij hjk ha hb hc]

theorem side_flip {P : List (P2 K)} {e : P2 K × P2 K} :
    (flip e.1, flip e.2) ∈ sides (P.map flip) ↔ e ∈ sides P := by
  rw [mem_sides_iff, mem_sides_iff]
  unfold IsPolygonEdge
  simp only [List.getElem?_map, List.length_map, Option.map_eq_some_iff]
  constructor
  · rintro ⟨i, ⟨a, h1, e1⟩, b, h2, e2⟩
    have : a = e.1 := by rw [← flip_flip a, e1, flip_flip]
    subst this
    have : b = e.2 := by rw [← flip_flip b, e2, flip_flip]
    subst this
    exact ⟨i, h1, h2⟩
  · rintro ⟨i, h1, h2⟩
    exact ⟨i, ⟨_, h1, rfl⟩, _, h2, rfl⟩

theorem inTriangle_flip {A B C p : P2 K} (h : InTriangle (flip A) (flip B) (flip C) (flip p)) : InTriangle A B C p := by
  obtain ⟨a, b, c, ha, hb, hc, hs, e⟩ := h
  refine ⟨a, b, c, ha, hb, hc, hs, ?_⟩
  have e1 := congrArg P2.x e
  have e2 := congrArg P2.y e
  ext
  · exact e2
  · exact e1

/-! ## The points of a convex polygon -/

/-- What the two orders of the vertices have in common: the points of the polygon are those on the inner side of every
side, the inner side being the left one for `σ = 1` and the right one for `σ = -1`. -/
structure Oriented (σ : K) (P : List (P2 K)) : Prop where
  size : 2 < P.length
  vertex : ∀ e ∈ sides P, ∀ v ∈ P, 0 ≤ σ * area2 e.1 e.2 v
  inside : ∀ X, (∀ e ∈ sides P, 0 ≤ σ * area2 e.1 e.2 X) → InConvex P X

/-- Where a sequence that starts with a number which is not negative and ends with one which is not positive changes its
sign. -/
theorem sign_change (f : Nat → K) (n : Nat) (h0 : 0 ≤ f 1) : ∀ m, 1 ≤ m → m ≤ n → f m ≤ 0 → 2 ≤ m →
    ∃ i, 1 ≤ i ∧ i + 1 ≤ n ∧ 0 ≤ f i ∧ f (i + 1) ≤ 0 := by
  intro m
  induction m with
  | zero => intro h; omega
  | succ m ih =>
    intro _ h2 h3 h4
    rcases le_total 0 (f m) with h | h
    · exact ⟨m, by omega, h2, h, h3⟩
    · by_cases hm : m = 1
      · subst hm; exact ⟨1, le_refl _, h2, h0, h3⟩
      · exact ih (by omega) (by omega) h (by omega)

theorem inside_inConvex {P : List (P2 K)} (hn : 2 < P.length) (hc : StrictlyConvex P) (X : P2 K)
    (h : ∀ e ∈ sides P, 0 ≤ area2 e.1 e.2 X) : InConvex P X := by
  have g : ∀ i, (hi : i < P.length) → P[i]? = some P[i] := fun i hi => List.getElem?_eq_getElem hi
  let f : Nat → K := fun i => if hi : i < P.length then area2 (P[0]'(by omega)) P[i] X else 0
  have fe : ∀ i (hi : i < P.length), f i = area2 (P[0]'(by omega)) P[i] X := fun i hi => dif_pos hi
  obtain ⟨i, i1, i2, i3, i4⟩ := sign_change f (P.length - 1)
    (by rw [fe 1 (by omega)]
        exact h _ (side_mem (i := 0) (g 0 (by omega)) (by rw [Nat.mod_eq_of_lt (by omega)]; exact g 1 (by omega))))
    (P.length - 1) (by omega) (le_refl _)
    (by rw [fe (P.length - 1) (by omega)]
        have := h _ (side_mem (i := P.length - 1) (g _ (by omega))
          (by rw [show P.length - 1 + 1 = P.length by omega, Nat.mod_self]; exact g 0 (by omega)))
        have e1 : area2 (P[0]'(by omega)) (P[P.length - 1]'(by omega)) X =
          -area2 (P[P.length - 1]'(by omega)) (P[0]'(by omega)) X := by unfold area2; ring
        rw [e1]; dsimp only at this; linarith)
    (by omega)
  rw [fe i (by omega)] at i3
  rw [fe (i + 1) (by omega)] at i4
  refine ⟨_, List.getElem_mem (n := 0) (by omega), _, List.getElem_mem (n := i) (by omega), _,
    List.getElem_mem (n := i + 1) (by omega), ?_⟩
  refine (inTriangle_iff (hc 0 i (i + 1) _ _ _ (by omega) (by omega) (g _ _) (g _ _) (g _ _))).2 ⟨i3, ?_, ?_⟩
  · exact h _ (side_mem (i := i) (g i (by omega)) (by rw [Nat.mod_eq_of_lt (by omega)]; exact g (i + 1) (by omega)))
  · have e1 : area2 (P[i + 1]'(by omega)) (P[0]'(by omega)) X =
      -area2 (P[0]'(by omega)) (P[i + 1]'(by omega)) X := by unfold area2; ring
    rw [e1]; linarith

theorem oriented_ccw {P : List (P2 K)} (hn : 2 < P.length) (hc : StrictlyConvex P) : Oriented 1 P := by
  refine ⟨hn, fun e he v hv => ?_, fun X h => inside_inConvex hn hc X fun e he => ?_⟩
  · rw [one_mul]; exact convex_vertex hc he hv
  · have := h e he; rwa [one_mul] at this

theorem oriented_cw {P : List (P2 K)} (hn : 2 < P.length) (hc : StrictlyConvexCw P) : Oriented (-1) P := by
  have hf := convex_flip hc
  refine ⟨hn, fun e he v hv => ?_, fun X h => ?_⟩
  · have := convex_vertex hf (side_flip.2 he) (List.mem_map_of_mem hv)
    rw [area2_flip] at this
    linarith
  · obtain ⟨A, hA, B, hB, C, hC, ht⟩ := inside_inConvex (by simpa using hn) hf (flip X) (fun e he => by
      have he' : (flip (flip e.1), flip (flip e.2)) ∈ sides (P.map flip) := he
      have := h (flip e.1, flip e.2) (side_flip.1 he')
      have e1 := area2_flip (flip e.1) (flip e.2) X
      rw [flip_flip, flip_flip] at e1
      rw [e1]; dsimp only at this; linarith)
    rw [List.mem_map] at hA hB hC
    obtain ⟨A, hA, rfl⟩ := hA
    obtain ⟨B, hB, rfl⟩ := hB
    obtain ⟨C, hC, rfl⟩ := hC
    exact ⟨A, hA, B, hB, C, hC, inTriangle_flip ht⟩

theorem oriented_of_convex {P : List (P2 K)} (h : ConvexPolygon P) :
    ∃ σ : K, (σ = 1 ∨ σ = -1) ∧ Oriented σ P := by
  obtain ⟨hn, hc | hc⟩ := h
  · exact ⟨1, Or.inl rfl, oriented_ccw hn hc⟩
  · exact ⟨-1, Or.inr rfl, oriented_cw hn hc⟩

/-- A linear function that is bounded below on the vertices is so on the polygon. -/
theorem inConvex_area2 {P : List (P2 K)} {X : P2 K} (h : InConvex P X) (σ : K) (u w : P2 K) (m : K)
    (hm : ∀ v ∈ P, m ≤ σ * area2 u w v) : m ≤ σ * area2 u w X := by
  obtain ⟨A, hA, B, hB, C, hC, a, b, c, ha, hb, hc, hs, e⟩ := h
  rw [area2_combo u w A B C X a b c hs e]
  have k1 := mul_le_mul_of_nonneg_left (hm A hA) ha
  have k2 := mul_le_mul_of_nonneg_left (hm B hB) hb
  have k3 := mul_le_mul_of_nonneg_left (hm C hC) hc
  have : m = a * m + b * m + c * m := by linear_combination (-m) * hs
  linarith

theorem inConvex_dot {P : List (P2 K)} {X : P2 K} (h : InConvex P X) (d : P2 K) (m : K)
    (hm : ∀ v ∈ P, dot d v ≤ m) : dot d X ≤ m := by
  obtain ⟨A, hA, B, hB, C, hC, a, b, c, ha, hb, hc, hs, e⟩ := h
  have hX : dot d X = a * dot d A + b * dot d B + c * dot d C := by
    rw [e]; simp only [dot, P2.add_x, P2.add_y, P2.smul_x, P2.smul_y]; ring
  have k1 := mul_le_mul_of_nonneg_left (hm A hA) ha
  have k2 := mul_le_mul_of_nonneg_left (hm B hB) hb
  have k3 := mul_le_mul_of_nonneg_left (hm C hC) hc
  have : m = a * m + b * m + c * m := by linear_combination (-m) * hs
  linarith

/-! ## The separating axis theorem -/

theorem halfplanes (s : Finset (K × P2 K × P2 K))
    (h : ∀ I ⊆ s, I.card ≤ 3 → ∃ X : P2 K, ∀ j ∈ I, 0 ≤ j.1 * area2 j.2.1 j.2.2 X) :
    ∃ X : P2 K, ∀ j ∈ s, 0 ≤ j.1 * area2 j.2.1 j.2.2 X := by
  let F : (K × P2 K × P2 K) → Set (K × K) := fun j => {z | 0 ≤ j.1 * area2 j.2.1 j.2.2 ⟨z.1, z.2⟩}
  have hconv : ∀ i ∈ s, Convex K (F i) := by
    intro i _ a ha b hb p q hp hq hpq
    simp only [F, Set.mem_ofPred_eq, Prod.fst_add, Prod.snd_add, Prod.smul_fst, Prod.smul_snd, smul_eq_mul] at ha hb ⊢
    have h1 := mul_nonneg hp ha
    have h2 := mul_nonneg hq hb
    have e : i.1 * area2 i.2.1 i.2.2 ⟨p * a.1 + q * b.1, p * a.2 + q * b.2⟩ =
        p * (i.1 * area2 i.2.1 i.2.2 ⟨a.1, a.2⟩) + q * (i.1 * area2 i.2.1 i.2.2 ⟨b.1, b.2⟩) := by
      have : p = 1 - q := by linear_combination hpq
      subst this
      unfold area2; ring
    rw [e]; linarith
  have hrank : Module.finrank K (K × K) = 2 := by simp
  have := Convex.helly_theorem' (𝕜 := K) (F := F) (s := s) hconv (by
    intro I hI hc
    rw [hrank] at hc
    obtain ⟨X, hX⟩ := h I hI hc
    refine ⟨(X.x, X.y), ?_⟩
    simp only [Set.mem_iInter]
    intro j hj
    exact hX j hj)
  obtain ⟨z, hz⟩ := this
  simp only [Set.mem_iInter] at hz
  exact ⟨⟨z.1, z.2⟩, fun j hj => hz j hj⟩

/-- A side of the first polygon has all vertices of the second strictly on its outer side. -/
def Separates (σ : K) (P Q : List (P2 K)) : Prop := ∃ e ∈ sides P, ∀ v ∈ Q, σ * area2 e.1 e.2 v < 0

/-- Two convex polygons of which no side separates them share a point. -/
theorem common_of_not_separates {σ τ : K} {P Q : List (P2 K)} (hP : Oriented σ P) (hQ : Oriented τ Q)
    (h1 : ¬ Separates σ P Q) (h2 : ¬ Separates τ Q P) : ∃ X, InConvex P X ∧ InConvex Q X := by
  classical
  have hne : ∀ {R : List (P2 K)}, 2 < R.length → ∃ v, v ∈ R := fun {R} hR =>
    ⟨_, List.getElem_mem (n := 0) (by omega)⟩
  have s1 : ∀ e ∈ sides P, ∃ v ∈ Q, 0 ≤ σ * area2 e.1 e.2 v := by
    intro e he
    by_contra hc
    push Not at hc
    exact h1 ⟨e, he, hc⟩
  have s2 : ∀ e ∈ sides Q, ∃ v ∈ P, 0 ≤ τ * area2 e.1 e.2 v := by
    intro e he
    by_contra hc
    push Not at hc
    exact h2 ⟨e, he, hc⟩
  let S : Finset (K × P2 K × P2 K) := ((sides P).map fun e => (σ, e)).toFinset
  let T : Finset (K × P2 K × P2 K) := ((sides Q).map fun e => (τ, e)).toFinset
  have mS : ∀ j ∈ S, j.1 = σ ∧ j.2 ∈ sides P := by
    intro j hj
    simp only [S, List.mem_toFinset, List.mem_map] at hj
    obtain ⟨e, he, rfl⟩ := hj
    exact ⟨rfl, he⟩
  have mT : ∀ j ∈ T, j.1 = τ ∧ j.2 ∈ sides Q := by
    intro j hj
    simp only [T, List.mem_toFinset, List.mem_map] at hj
    obtain ⟨e, he, rfl⟩ := hj
    exact ⟨rfl, he⟩
  have nS : ∀ e ∈ sides P, (σ, e) ∈ S := fun e he => by
    simp only [S, List.mem_toFinset, List.mem_map]; exact ⟨e, he, rfl⟩
  have nT : ∀ e ∈ sides Q, (τ, e) ∈ T := fun e he => by
    simp only [T, List.mem_toFinset, List.mem_map]; exact ⟨e, he, rfl⟩
  obtain ⟨X, hX⟩ := halfplanes (S ∪ T) (by
    intro I hI hcard
    have hsplit : (I.filter (· ∈ S)).card + (I.filter (· ∉ S)).card = I.card := Finset.card_filter_add_card_filter_not _
    by_cases hS : (I.filter (· ∈ S)).card ≤ 1
    · -- at most one half-plane of the first polygon
      rcases Nat.lt_or_ge (I.filter (· ∈ S)).card 1 with h0 | h0
      · have he : I.filter (· ∈ S) = ∅ := Finset.card_eq_zero.1 (by omega)
        obtain ⟨v, hv⟩ := hne hQ.size
        refine ⟨v, fun j hj => ?_⟩
        have hjS : j ∉ S := fun hjS => by
          have : j ∈ I.filter (· ∈ S) := Finset.mem_filter.2 ⟨hj, hjS⟩
          rw [he] at this; simp at this
        have hjT : j ∈ T := (Finset.mem_union.1 (hI hj)).resolve_left hjS
        obtain ⟨k1, k2⟩ := mT j hjT
        rw [k1]; exact hQ.vertex _ k2 v hv
      · obtain ⟨i, hi⟩ := Finset.card_eq_one.1 (show (I.filter (· ∈ S)).card = 1 by omega)
        have him : i ∈ I.filter (· ∈ S) := by rw [hi]; simp
        obtain ⟨l1, l2⟩ := mS i (Finset.mem_filter.1 him).2
        obtain ⟨v, hv, hv2⟩ := s1 i.2 l2
        refine ⟨v, fun j hj => ?_⟩
        by_cases hjS : j ∈ S
        · have : j ∈ I.filter (· ∈ S) := Finset.mem_filter.2 ⟨hj, hjS⟩
          rw [hi, Finset.mem_singleton] at this
          rw [this, l1]; exact hv2
        · obtain ⟨k1, k2⟩ := mT j ((Finset.mem_union.1 (hI hj)).resolve_left hjS)
          rw [k1]; exact hQ.vertex _ k2 v hv
    · -- at most one of the second
      rcases Nat.lt_or_ge (I.filter (· ∉ S)).card 1 with h0 | h0
      · have he : I.filter (· ∉ S) = ∅ := Finset.card_eq_zero.1 (by omega)
        obtain ⟨v, hv⟩ := hne hP.size
        refine ⟨v, fun j hj => ?_⟩
        have hjS : j ∈ S := by
          by_contra hjS
          have : j ∈ I.filter (· ∉ S) := Finset.mem_filter.2 ⟨hj, hjS⟩
          rw [he] at this; simp at this
        obtain ⟨k1, k2⟩ := mS j hjS
        rw [k1]; exact hP.vertex _ k2 v hv
      · obtain ⟨i, hi⟩ := Finset.card_eq_one.1 (show (I.filter (· ∉ S)).card = 1 by omega)
        have him : i ∈ I.filter (· ∉ S) := by rw [hi]; simp
        obtain ⟨him1, him2⟩ := Finset.mem_filter.1 him
        obtain ⟨l1, l2⟩ := mT i ((Finset.mem_union.1 (hI him1)).resolve_left him2)
        obtain ⟨v, hv, hv2⟩ := s2 i.2 l2
        refine ⟨v, fun j hj => ?_⟩
        by_cases hjS : j ∈ S
        · obtain ⟨k1, k2⟩ := mS j hjS
          rw [k1]; exact hP.vertex _ k2 v hv
        · have : j ∈ I.filter (· ∉ S) := Finset.mem_filter.2 ⟨hj, hjS⟩
          rw [hi, Finset.mem_singleton] at this
          rw [this, l1]; exact hv2)
  refine ⟨X, hP.inside X fun e he => ?_, hQ.inside X fun e he => ?_⟩
  · exact hX (σ, e) (Finset.mem_union_left _ (nS e he))
  · exact hX (τ, e) (Finset.mem_union_right _ (nT e he))

/-- A side that separates two polygons leaves no common point. -/
theorem not_common_of_separates {σ : K} {P Q : List (P2 K)} (hP : Oriented σ P) (h : Separates σ P Q) :
    ¬ ∃ X, InConvex P X ∧ InConvex Q X := by
  rintro ⟨X, hX1, A, hA, B, hB, C, hC, a, b, c, ha, hb, hc, hs, e⟩
  obtain ⟨s, hs1, hs2⟩ := h
  have h0 := inConvex_area2 hX1 σ s.1 s.2 0 (fun v hv => hP.vertex s hs1 v hv)
  rw [area2_combo s.1 s.2 A B C X a b c hs e] at h0
  have k1 := mul_nonneg ha (neg_nonneg.2 (hs2 A hA).le)
  have k2 := mul_nonneg hb (neg_nonneg.2 (hs2 B hB).le)
  have k3 := mul_nonneg hc (neg_nonneg.2 (hs2 C hC).le)
  rcases lt_or_eq_of_le ha with ha' | ha'
  · have := mul_pos ha' (neg_pos.2 (hs2 A hA)); linarith
  · rcases lt_or_eq_of_le hb with hb' | hb'
    · have := mul_pos hb' (neg_pos.2 (hs2 B hB)); linarith
    · have : 0 < c := by rw [← ha', ← hb'] at hs; linarith
      have := mul_pos this (neg_pos.2 (hs2 C hC)); linarith

/-! ## The vertex furthest in a direction -/

/-- A vertex that is not below its two neighbours is the highest. -/
theorem local_max {P : List (P2 K)} (h : ConvexPolygon P) {m : Nat} {pm pn pp d : P2 K} (hm : P[m]? = some pm)
    (hn : P[(m + 1) % P.length]? = some pn) (hp : P[(m + P.length - 1) % P.length]? = some pp)
    (h1 : dot d (pn - pm) ≤ 0) (h2 : 0 ≤ dot d (pm - pp)) : ∀ q ∈ P, dot d q ≤ dot d pm := by
  obtain ⟨hsz, hc⟩ := h
  have hml : m < P.length := (List.getElem?_eq_some_iff.1 hm).1
  have hturn : ∃ σ : K, 0 < σ * area2 pp pm pn ∧ Oriented σ P := by
    have hidx : (m = 0 ∧ (m + 1) % P.length = 1 ∧ (m + P.length - 1) % P.length = P.length - 1) ∨
        (m = P.length - 1 ∧ (m + 1) % P.length = 0 ∧ (m + P.length - 1) % P.length = P.length - 2) ∨
        (0 < m ∧ m + 1 < P.length ∧ (m + 1) % P.length = m + 1 ∧ (m + P.length - 1) % P.length = m - 1) := by
      rcases Nat.eq_zero_or_pos m with h0 | h0
      · left; subst h0; exact ⟨rfl, Nat.mod_eq_of_lt (by omega), by rw [Nat.zero_add]; exact Nat.mod_eq_of_lt (by omega)⟩
      · have e : (m + P.length - 1) % P.length = m - 1 := by
          rw [show m + P.length - 1 = (m - 1) + P.length by omega, Nat.add_mod_right]; exact Nat.mod_eq_of_lt (by omega)
        rcases Nat.lt_or_ge (m + 1) P.length with h3 | h3
        · right; right; exact ⟨h0, h3, Nat.mod_eq_of_lt h3, e⟩
        · right; left
          exact ⟨by omega, by rw [show m + 1 = P.length by omega, Nat.mod_self], by omega⟩
    have cyc1 : area2 pp pm pn = area2 pm pn pp := by unfold area2; ring
    have cyc2 : area2 pp pm pn = area2 pn pp pm := by unfold area2; ring
    rcases hc with hc | hc
    · refine ⟨1, ?_, oriented_ccw hsz hc⟩
      rw [one_mul]
      rcases hidx with ⟨e0, e1, e2⟩ | ⟨e0, e1, e2⟩ | ⟨e3, e4, e1, e2⟩
      · rw [e1] at hn; rw [e2] at hp; rw [cyc1]
        exact hc m 1 (P.length - 1) _ _ _ (by omega) (by omega) hm hn hp
      · rw [e1] at hn; rw [e2] at hp; rw [cyc2]
        exact hc 0 (P.length - 2) m _ _ _ (by omega) (by omega) hn hp hm
      · rw [e1] at hn; rw [e2] at hp
        exact hc (m - 1) m (m + 1) _ _ _ (by omega) (by omega) hp hm hn
    · refine ⟨-1, ?_, oriented_cw hsz hc⟩
      rw [neg_one_mul, neg_pos]
      rcases hidx with ⟨e0, e1, e2⟩ | ⟨e0, e1, e2⟩ | ⟨e3, e4, e1, e2⟩
      · rw [e1] at hn; rw [e2] at hp; rw [cyc1]
        exact hc m 1 (P.length - 1) _ _ _ (by omega) (by omega) hm hn hp
      · rw [e1] at hn; rw [e2] at hp; rw [cyc2]
        exact hc 0 (P.length - 2) m _ _ _ (by omega) (by omega) hn hp hm
      · rw [e1] at hn; rw [e2] at hp
        exact hc (m - 1) m (m + 1) _ _ _ (by omega) (by omega) hp hm hn
  obtain ⟨σ, hσ, ho⟩ := hturn
  intro q hq
  have s1 : (pm, pn) ∈ sides P := side_mem hm hn
  have s2 : (pp, pm) ∈ sides P := side_mem (i := (m + P.length - 1) % P.length) hp (by
    rw [Nat.mod_add_mod, show m + P.length - 1 + 1 = m + P.length by omega, Nat.add_mod_right,
      Nat.mod_eq_of_lt hml]
    exact hm)
  have k1 := ho.vertex _ s1 q hq
  have k2 := ho.vertex _ s2 q hq
  dsimp only at k1 k2
  have e : (σ * area2 pp pm pn) * (dot d q - dot d pm) =
      (σ * area2 pp pm q) * dot d (pn - pm) - (σ * area2 pm pn q) * dot d (pm - pp) := by
    simp only [area2, dot, P2.sub_x, P2.sub_y]; ring
  have k3 := mul_nonpos_of_nonneg_of_nonpos k2 h1
  have k4 := mul_nonneg k1 h2
  by_contra hcon
  push Not at hcon
  have := mul_pos hσ (sub_pos.2 hcon)
  linarith

theorem middle_lt {i0 i1 n : Nat} (h0 : i0 < n) (h1 : i1 < n) : sepMiddle i0 i1 n < n := by
  unfold sepMiddle
  split_ifs
  · omega
  · exact Nat.mod_lt _ (by omega)

/-- The middle of two indices is the first of them only if the second is the next. -/
theorem middle_eq {i0 i1 n : Nat} (h0 : i0 < n) (h1 : i1 < n) (hn : 1 < n) (h : sepMiddle i0 i1 n = i0) :
    i1 = (i0 + 1) % n := by
  unfold sepMiddle at h
  split_ifs at h with hlt
  · rw [Nat.mod_eq_of_lt (by omega)]; omega
  · rcases Nat.lt_or_ge ((i0 + i1 + n) / 2) n with h2 | h2
    · rw [Nat.mod_eq_of_lt h2] at h
      have : i0 + 1 = i1 + n := by omega
      rw [this, Nat.add_mod_right, Nat.mod_eq_of_lt h1]
    · rw [Nat.mod_eq_sub_mod h2, Nat.mod_eq_of_lt (by omega)] at h
      omega

/-- What an index that the loop gives is. -/
theorem extremeLoop_sound {P : List (P2 K)} (h : ConvexPolygon P) (d : P2 K) :
    ∀ (fuel i0 i1 m : Nat), i0 < P.length → i1 < P.length →
      (i1 = 0 ∨ ∃ a b, P[i1]? = some a ∧ P[(i1 + 1) % P.length]? = some b ∧ dot d (b - a) ≤ 0) →
      extremeLoop Cmp.direct P d fuel i0 i1 = .ok m →
      IsExtreme P d m ∨ (m = 0 ∧ ∃ a b, P[0]? = some a ∧ P[1]? = some b ∧ dot d a < dot d b) := by
  intro fuel
  have hsz := h.1
  have g : ∀ i, (hi : i < P.length) → P[i]? = some P[i] := fun i hi => List.getElem?_eq_getElem hi
  induction fuel with
  | zero => intro i0 i1 m _ _ _ hr; simp [extremeLoop] at hr
  | succ fuel ih =>
    intro i0 i1 m h0 h1 hinv hr
    unfold extremeLoop at hr
    rw [if_neg (by omega)] at hr
    have hmid := middle_lt h0 h1
    dsimp only at hr
    generalize hmm : sepMiddle i0 i1 P.length = mid at hr hmid
    have hnl : (mid + 1) % P.length < P.length := Nat.mod_lt _ (by omega)
    have hpl : (mid + P.length - 1) % P.length < P.length := Nat.mod_lt _ (by omega)
    rw [g mid hmid, g _ hnl, g _ hpl] at hr
    dsimp only at hr
    by_cases c1 : Cmp.direct.gt (dot d (P[(mid + 1) % P.length] - P[mid])) 0 = true
    · rw [if_pos c1] at hr
      rw [direct_gt] at c1
      by_cases c2 : mid ≠ i0
      · rw [if_pos c2] at hr
        exact ih mid i1 m hmid h1 hinv hr
      · rw [if_neg c2] at hr
        have hm : i1 = m := by injection hr
        subst hm
        have hmi : mid = i0 := not_not.1 c2
        subst hmi
        have hnext := middle_eq h0 h1 (by omega) hmm
        have hprev : (i1 + P.length - 1) % P.length = mid := by
          rw [hnext]
          rcases Nat.lt_or_ge (mid + 1) P.length with h3 | h3
          · rw [Nat.mod_eq_of_lt h3, show mid + 1 + P.length - 1 = mid + P.length by omega, Nat.add_mod_right,
              Nat.mod_eq_of_lt hmid]
          · rw [show mid + 1 = P.length by omega, Nat.mod_self, Nat.zero_add, Nat.mod_eq_of_lt (by omega)]; omega
        have hup : ∀ a, P[i1]? = some a → 0 ≤ dot d (a - P[mid]) := by
          intro a ha
          rw [hnext, g _ hnl] at ha
          rw [← Option.some.inj ha]; exact c1.le
        by_cases hflat : ∃ a b, P[i1]? = some a ∧ P[(i1 + 1) % P.length]? = some b ∧ dot d (b - a) ≤ 0
        · obtain ⟨a, b, ha, hb, hab⟩ := hflat
          left
          exact ⟨a, ha, local_max h ha hb (by rw [hprev]; exact g mid hmid) hab (hup a ha)⟩
        · right
          have hz : i1 = 0 := hinv.resolve_right hflat
          subst hz
          refine ⟨rfl, P[0], P[1], g 0 (by omega), g 1 (by omega), ?_⟩
          by_contra hcon
          apply hflat
          refine ⟨P[0], P[1], g 0 (by omega), by rw [Nat.mod_eq_of_lt (by omega)]; exact g 1 (by omega), ?_⟩
          have : dot d (P[1] - P[0]) = dot d P[1] - dot d P[0] := by
            simp only [dot, P2.sub_x, P2.sub_y]; ring
          rw [this]; linarith
    · rw [if_neg c1] at hr
      rw [direct_gt, not_lt] at c1
      by_cases c2 : Cmp.direct.lt (dot d (P[mid] - P[(mid + P.length - 1) % P.length])) 0 = true
      · rw [if_pos c2] at hr
        exact ih i0 mid m h0 hmid (Or.inr ⟨_, _, g _ hmid, g _ hnl, c1⟩) hr
      · rw [if_neg c2] at hr
        rw [direct_lt, not_lt] at c2
        have hm : mid = m := by injection hr
        subst hm
        left
        exact ⟨_, g _ hmid, local_max h (g _ hmid) (g _ hnl) (g _ hpl) c1 c2⟩

/-- `get_extreme_index` gives an extreme vertex for every direction, if it may run for the given number of rounds. -/
def ExtremeOk (fuel : Nat) (P : List (P2 K)) : Prop :=
  ∀ d, ∃ m, extremeIndex Cmp.direct fuel P d = .ok m ∧ IsExtreme P d m

theorem extremePoint_ok {fuel : Nat} {P : List (P2 K)} (h : ExtremeOk fuel P) (d : P2 K) :
    ∃ p ∈ P, extremePoint Cmp.direct fuel P d = .ok p ∧ ∀ q ∈ P, dot d q ≤ dot d p := by
  obtain ⟨m, hm, p, hp, hq⟩ := h d
  refine ⟨p, List.mem_of_getElem? hp, ?_, hq⟩
  unfold extremePoint
  rw [hm]; dsimp only; rw [hp]

theorem dot_neg_left (d p : P2 K) : dot (-d) p = -dot d p := by simp only [dot, P2.neg_x, P2.neg_y]; ring

theorem dot_edgeNormal (A B X : P2 K) : dot (leftNormal (B - A)) (X - B) = area2 A B X := by
  simp only [dot, leftNormal, P2.sub_x, P2.sub_y, area2]; ring

theorem dot_edgeNormal' (A B X : P2 K) :
    dot (leftNormal (B - A)) X = area2 A B X + dot (leftNormal (B - A)) B := by
  simp only [dot, leftNormal, P2.sub_x, P2.sub_y, area2]; ring

/-- The test of one side. -/
theorem sideSeparates_ok {fuel : Nat} {Q : List (P2 K)} (h : ExtremeOk fuel Q) (e : P2 K × P2 K) :
    ∃ b, sideSeparates Cmp.direct fuel Q e = .ok b ∧ (b = true ↔ ∀ v ∈ Q, 0 < area2 e.1 e.2 v) := by
  obtain ⟨p, hp, he, hq⟩ := extremePoint_ok h (-leftNormal (e.2 - e.1))
  unfold sideSeparates
  dsimp only
  rw [he]
  refine ⟨_, rfl, ?_⟩
  rw [direct_gt, dot_edgeNormal]
  constructor
  · intro h0 v hv
    have := hq v hv
    rw [dot_neg_left, dot_neg_left, dot_edgeNormal', dot_edgeNormal' _ _ p] at this
    linarith
  · intro h0; exact h0 p hp

theorem convexIntersection_ok {fuel : Nat} {P Q : List (P2 K)} (hP : Oriented (-1) P) (hQ : Oriented (-1) Q)
    (eP : ExtremeOk fuel P) (eQ : ExtremeOk fuel Q) :
    ∃ b, convexIntersection Cmp.direct fuel P Q = .ok b ∧ (b = true ↔ ∃ X, InConvex P X ∧ InConvex Q X) := by
  obtain ⟨b1, h1, k1⟩ := anyRes_iff (sideSeparates Cmp.direct fuel Q) (fun e => ∀ v ∈ Q, 0 < area2 e.1 e.2 v)
    (closedEdges P) (fun e _ => sideSeparates_ok eQ e)
  obtain ⟨b2, h2, k2⟩ := anyRes_iff (sideSeparates Cmp.direct fuel P) (fun e => ∀ v ∈ P, 0 < area2 e.1 e.2 v)
    (closedEdges Q) (fun e _ => sideSeparates_ok eP e)
  have m1 : b1 = true ↔ Separates (-1) P Q := by
    rw [k1]; unfold Separates
    simp only [(sides_perm P).mem_iff, neg_one_mul, neg_lt_zero]
  have m2 : b2 = true ↔ Separates (-1) Q P := by
    rw [k2]; unfold Separates
    simp only [(sides_perm Q).mem_iff, neg_one_mul, neg_lt_zero]
  have hswap : (∃ X, InConvex P X ∧ InConvex Q X) → ∃ X, InConvex Q X ∧ InConvex P X :=
    fun ⟨X, a, b⟩ => ⟨X, b, a⟩
  unfold convexIntersection
  rw [h1]
  cases b1 with
  | true =>
    refine ⟨false, rfl, ?_⟩
    simp only [Bool.false_eq_true, false_iff]
    exact not_common_of_separates hP (m1.1 rfl)
  | false =>
    dsimp only
    rw [h2]
    cases b2 with
    | true =>
      refine ⟨false, rfl, ?_⟩
      simp only [Bool.false_eq_true, false_iff]
      exact fun hX => not_common_of_separates hQ (m2.1 rfl) (hswap hX)
    | false =>
      refine ⟨true, rfl, ?_⟩
      simp only [true_iff]
      exact common_of_not_separates hP hQ (fun h => by have := m1.2 h; simp at this)
        (fun h => by have := m2.2 h; simp at this)

theorem dot_sub_right (d a b : P2 K) : dot d (a - b) = dot d a - dot d b := by
  simp only [dot, P2.sub_x, P2.sub_y]; ring

/-- Triangles, even degenerate ones. -/
theorem extremeOk_triangle (A B C : P2 K) (fuel : Nat) : ExtremeOk (fuel + 5) [A, B, C] := by
  intro d
  unfold extremeIndex IsExtreme
  simp only [extremeLoop, sepMiddle, direct_gt, direct_lt, dot_sub_right]
  generalize hA : dot d A = a
  generalize hB : dot d B = b
  generalize hC : dot d C = c
  by_cases h1 : 0 < c - b
  · by_cases h2 : 0 < a - c
    · refine ⟨0, ?_, A, rfl, ?_⟩
      · simp [h1, h2, hA, hB, hC]
      · simp [hA, hB, hC]; constructor <;> linarith
    · refine ⟨2, ?_, C, rfl, ?_⟩
      · simp [h1, h2, hA, hB, hC]
      · simp [hA, hB, hC]; constructor <;> linarith
  · by_cases h2 : b - a < 0
    · refine ⟨0, ?_, A, rfl, ?_⟩
      · have h3 : ¬ 0 < b - a := by linarith
        have h4 : ¬ a - c < 0 := by linarith
        simp [h1, h2, h3, h4, hA, hB, hC]
      · simp [hA, hB, hC]; constructor <;> linarith
    · refine ⟨1, ?_, B, rfl, ?_⟩
      · simp [h1, h2, hA, hB, hC]
      · simp [hA, hB, hC]; constructor <;> linarith

theorem extreme_four (A B C D d : P2 K) {a p q : K} (hA : dot d A = a) (hB : dot d B = a + p)
    (hC : dot d C = a + p + q) (hD : dot d D = a + q) (fuel : Nat) :
    ∃ m, extremeIndex Cmp.direct (fuel + 5) [A, B, C, D] d = .ok m ∧ IsExtreme [A, B, C, D] d m := by
  unfold extremeIndex IsExtreme
  simp only [extremeLoop, sepMiddle, direct_gt, direct_lt, dot_sub_right]
  rcases lt_or_ge p 0 with h1 | h1
  · rcases lt_or_ge q 0 with h2 | h2
    · refine ⟨0, ?_, A, rfl, ?_⟩
      · simp [hA, hB, hC, hD, h1, h2]
      · simp [hA, hB, hC, hD]; refine ⟨?_, ?_, ?_⟩ <;> linarith
    · refine ⟨3, ?_, D, rfl, ?_⟩
      · simp [hA, hB, hC, hD, h1, h2, h1.le]
      · simp [hA, hB, hC, hD]; refine ⟨?_, ?_, ?_⟩ <;> linarith
  · rcases lt_or_ge q 0 with h2 | h2
    · refine ⟨1, ?_, B, rfl, ?_⟩
      · simp [hA, hB, hC, hD, h1.not_gt, h2, h2.le, h2.not_gt]
      · simp [hA, hB, hC, hD]; refine ⟨?_, ?_, ?_⟩ <;> linarith
    · refine ⟨2, ?_, C, rfl, ?_⟩
      · simp [hA, hB, hC, hD, h1.not_gt, h2.not_gt]
      · simp [hA, hB, hC, hD]; refine ⟨?_, ?_, ?_⟩ <;> linarith

/-- Parallelograms. -/
theorem extremeOk_parallelogram {P : List (P2 K)} (h : IsParallelogram P) (fuel : Nat) : ExtremeOk (fuel + 5) P := by
  obtain ⟨A, u, v, rfl⟩ := h
  intro d
  have add : ∀ x y : P2 K, dot d (x + y) = dot d x + dot d y := fun x y => by
    simp only [dot, P2.add_x, P2.add_y]; ring
  exact extreme_four _ _ _ _ d rfl (add _ _) (by rw [add, add]) (add _ _) fuel

/-- An answer `true` without any knowledge about the extreme vertices. -/
theorem sideSeparates_false {fuel : Nat} {Q : List (P2 K)} {e : P2 K × P2 K}
    (h : sideSeparates Cmp.direct fuel Q e = .ok false) : ∃ v ∈ Q, area2 e.1 e.2 v ≤ 0 := by
  unfold sideSeparates extremePoint at h
  dsimp only at h
  cases hm : extremeIndex Cmp.direct fuel Q (-leftNormal (e.2 - e.1)) with
  | error f => rw [hm] at h; simp at h
  | ok m =>
    rw [hm] at h
    dsimp only at h
    cases hp : Q[m]? with
    | none => rw [hp] at h; simp at h
    | some p =>
      rw [hp] at h
      dsimp only at h
      refine ⟨p, List.mem_of_getElem? hp, ?_⟩
      have h' : Cmp.direct.gt (dot (leftNormal (e.2 - e.1)) (p - e.2)) 0 = false := by injection h
      rw [← Bool.not_eq_true, direct_gt, dot_edgeNormal, not_lt] at h'
      exact h'

theorem anyRes_false {α : Type*} {f : α → Res Bool} {l : List α} (h : anyRes f l = .ok false) :
    ∀ x ∈ l, f x = .ok false := by
  induction l with
  | nil => simp
  | cons a l ih =>
    unfold anyRes at h
    cases ha : f a with
    | error e => rw [ha] at h; simp at h
    | ok b =>
      rw [ha] at h
      cases b with
      | true => simp at h
      | false =>
        intro x hx
        rcases List.mem_cons.1 hx with rfl | hx
        · exact ha
        · exact ih h x hx

theorem convexIntersection_true {fuel : Nat} {P Q : List (P2 K)} (hP : Oriented (-1) P) (hQ : Oriented (-1) Q)
    (h : convexIntersection Cmp.direct fuel P Q = .ok true) : ∃ X, InConvex P X ∧ InConvex Q X := by
  unfold convexIntersection at h
  cases h1 : anyRes (sideSeparates Cmp.direct fuel Q) (closedEdges P) with
  | error e => rw [h1] at h; simp at h
  | ok b1 =>
    rw [h1] at h
    cases b1 with
    | true => simp at h
    | false =>
      dsimp only at h
      cases h2 : anyRes (sideSeparates Cmp.direct fuel P) (closedEdges Q) with
      | error e => rw [h2] at h; simp at h
      | ok b2 =>
        rw [h2] at h
        cases b2 with
        | true => simp at h
        | false =>
          refine common_of_not_separates hP hQ ?_ ?_
          · rintro ⟨e, he, hv⟩
            obtain ⟨v, hv1, hv2⟩ := sideSeparates_false (anyRes_false h1 e ((sides_perm P).mem_iff.2 he))
            have := hv v hv1; linarith
          · rintro ⟨e, he, hv⟩
            obtain ⟨v, hv1, hv2⟩ := sideSeparates_false (anyRes_false h2 e ((sides_perm Q).mem_iff.2 he))
            have := hv v hv1; linarith

/-! ## Moving polygons -/

theorem sides_map {α β : Type*} (f : α → β) (l : List α) : sides (l.map f) = (sides l).map (Prod.map f f) := by
  unfold sides
  rw [← List.map_rotate, List.zip_map]

theorem inConvex_shift {P : List (P2 K)} {X w : P2 K} : InConvex (P.map (· + w)) X ↔ InConvex P (X - w) := by
  unfold InConvex
  simp only [List.mem_map, exists_exists_and_eq_and]
  have : ∀ A B C : P2 K, InTriangle (A + w) (B + w) (C + w) X ↔ InTriangle A B C (X - w) := by
    intro A B C
    unfold InTriangle
    constructor
    · rintro ⟨a, b, c, ha, hb, hc, hs, e⟩
      refine ⟨a, b, c, ha, hb, hc, hs, ?_⟩
      have e1 := congrArg P2.x e
      have e2 := congrArg P2.y e
      simp only [P2.add_x, P2.add_y, P2.smul_x, P2.smul_y] at e1 e2
      ext
      · simp only [P2.sub_x, P2.add_x, P2.smul_x]; linear_combination e1 + w.x * hs
      · simp only [P2.sub_y, P2.add_y, P2.smul_y]; linear_combination e2 + w.y * hs
    · rintro ⟨a, b, c, ha, hb, hc, hs, e⟩
      refine ⟨a, b, c, ha, hb, hc, hs, ?_⟩
      have e1 := congrArg P2.x e
      have e2 := congrArg P2.y e
      simp only [P2.sub_x, P2.sub_y, P2.add_x, P2.add_y, P2.smul_x, P2.smul_y] at e1 e2
      ext
      · simp only [P2.add_x, P2.smul_x]; linear_combination e1 - w.x * hs
      · simp only [P2.add_y, P2.smul_y]; linear_combination e2 - w.y * hs
  simp only [this]

theorem area2_shift (a b c w : P2 K) : area2 (a + w) (b + w) (c + w) = area2 a b c := by
  simp only [area2, P2.add_x, P2.add_y]; ring

theorem oriented_shift {σ : K} {P : List (P2 K)} (h : Oriented σ P) (w : P2 K) : Oriented σ (P.map (· + w)) := by
  refine ⟨by simpa using h.size, ?_, ?_⟩
  · intro e he v hv
    rw [sides_map, List.mem_map] at he
    rw [List.mem_map] at hv
    obtain ⟨e, he, rfl⟩ := he
    obtain ⟨v, hv, rfl⟩ := hv
    simp only [Prod.map_fst, Prod.map_snd, area2_shift]
    exact h.vertex e he v hv
  · intro X hX
    rw [inConvex_shift]
    refine h.inside _ fun e he => ?_
    have := hX (Prod.map (· + w) (· + w) e) (by rw [sides_map]; exact List.mem_map_of_mem he)
    have e1 : area2 (e.1 + w) (e.2 + w) X = area2 e.1 e.2 (X - w) := by
      simp only [area2, P2.add_x, P2.add_y, P2.sub_x, P2.sub_y]; ring
    simp only [Prod.map_fst, Prod.map_snd, e1] at this
    exact this

theorem computeInterval_ok {fuel : Nat} {P : List (P2 K)} (h : ExtremeOk fuel P) (d : P2 K) :
    ∃ a ∈ P, ∃ b ∈ P, computeInterval Cmp.direct fuel P d = .ok (dot d a, dot d b) ∧
      ∀ v ∈ P, dot d a ≤ dot d v ∧ dot d v ≤ dot d b := by
  obtain ⟨a, ha, ha1, ha2⟩ := extremePoint_ok h (-d)
  obtain ⟨b, hb, hb1, hb2⟩ := extremePoint_ok h d
  refine ⟨a, ha, b, hb, ?_, fun v hv => ⟨?_, hb2 v hv⟩⟩
  · unfold computeInterval; rw [ha1]; dsimp only; rw [hb1]
  · have := ha2 v hv
    rw [dot_neg_left, dot_neg_left] at this
    linarith

/-- What is computed for one side, whichever vertices are found: the ends of the intervals belong to vertices. -/
structure VertexAxis (P Q : List (P2 K)) (v d : P2 K) (a : AxisData K) : Prop where
  speed : a.speed = dot d v
  lo1 : ∃ x ∈ P, a.min1 = dot d x
  hi1 : ∃ x ∈ P, a.max1 = dot d x
  lo2 : ∃ x ∈ Q, a.min2 = dot d x
  hi2 : ∃ x ∈ Q, a.max2 = dot d x

/-- What is computed for one side if the vertices are the extreme ones. -/
structure GoodAxis (P Q : List (P2 K)) (v d : P2 K) (a : AxisData K) : Prop where
  vertex : VertexAxis P Q v d a
  all1 : ∀ x ∈ P, a.min1 ≤ dot d x ∧ dot d x ≤ a.max1
  all2 : ∀ x ∈ Q, a.min2 ≤ dot d x ∧ dot d x ≤ a.max2

theorem sideAxis_ok {fuel : Nat} {P Q : List (P2 K)} (hP : ExtremeOk fuel P) (hQ : ExtremeOk fuel Q) (v : P2 K)
    (e : P2 K × P2 K) :
    ∃ a, sideAxis Cmp.direct fuel P Q v e = .ok a ∧ GoodAxis P Q v (leftNormal (e.2 - e.1)) a := by
  obtain ⟨a, ha, b, hb, h1, h2⟩ := computeInterval_ok hP (leftNormal (e.2 - e.1))
  obtain ⟨a', ha', b', hb', h1', h2'⟩ := computeInterval_ok hQ (leftNormal (e.2 - e.1))
  refine ⟨⟨dot (leftNormal (e.2 - e.1)) v, dot (leftNormal (e.2 - e.1)) a, dot (leftNormal (e.2 - e.1)) b,
    dot (leftNormal (e.2 - e.1)) a', dot (leftNormal (e.2 - e.1)) b'⟩, ?_, ⟨⟨rfl, ⟨a, ha, rfl⟩, ⟨b, hb, rfl⟩, ⟨a', ha', rfl⟩, ⟨b', hb', rfl⟩⟩, h2, h2'⟩⟩
  unfold sideAxis
  dsimp only
  rw [h1]; dsimp only; rw [h1']

theorem meetAt_convex {P Q : List (P2 K)} (v1 v2 : P2 K) (t : K) : MeetAt (InConvex P) (InConvex Q) v1 v2 t ↔
    ∃ X, InConvex P X ∧ InConvex (Q.map (· + t • (v2 - v1))) X := by
  unfold MeetAt
  simp only [inConvex_shift]
  constructor
  · rintro ⟨X, h1, h2⟩
    refine ⟨X - t • v1, h1, ?_⟩
    have : X - t • v1 - t • (v2 - v1) = X - t • v2 := by
      ext <;> simp only [P2.sub_x, P2.sub_y, P2.smul_x, P2.smul_y] <;> ring
    rw [this]; exact h2
  · rintro ⟨X, h1, h2⟩
    refine ⟨X + t • v1, ?_, ?_⟩
    · have : X + t • v1 - t • v1 = X := by ext <;> simp
      rw [this]; exact h1
    · have : X + t • v1 - t • v2 = X - t • (v2 - v1) := by
        ext <;> simp only [P2.sub_x, P2.sub_y, P2.add_x, P2.add_y, P2.smul_x, P2.smul_y] <;> ring
      rw [this]; exact h2

theorem dot_moved (v1 v2 : P2 K) (t : K) (d x : P2 K) :
    dot d (x + t • (v2 - v1)) = dot d x + dot d (v2 - v1) * t := by
  simp only [dot, P2.add_x, P2.add_y, P2.smul_x, P2.smul_y]; ring

/-- If the intervals overlap on the axes of all sides, the polygons meet. -/
theorem polygons_meet_of_overlap {σ τ : K} {P Q : List (P2 K)} (hP : Oriented σ P) (hQ : Oriented τ Q)
    (hσ : σ = 1 ∨ σ = -1) (hτ : τ = 1 ∨ τ = -1) (v1 v2 : P2 K) (t : K) (g : P2 K × P2 K → AxisData K)
    (hg : ∀ e ∈ closedEdges P ++ closedEdges Q, VertexAxis P Q (v2 - v1) (leftNormal (e.2 - e.1)) (g e))
    (h : ∀ e ∈ closedEdges P ++ closedEdges Q, Overlap (g e) t) :
    MeetAt (InConvex P) (InConvex Q) v1 v2 t := by
  rw [meetAt_convex]
  have hdt := dot_moved v1 v2 t
  refine common_of_not_separates hP (oriented_shift hQ (t • (v2 - v1))) ?_ ?_
  · rintro ⟨e, he, hs⟩
    have hmem := List.mem_append_left (closedEdges Q) ((sides_perm P).mem_iff.2 he)
    obtain ⟨o1, o2⟩ := h e hmem
    obtain ⟨g1, ⟨x1, hx1, e1⟩, ⟨x2, hx2, e2⟩, ⟨x3, hx3, e3⟩, ⟨x4, hx4, e4⟩⟩ := hg e hmem
    rw [g1] at o1 o2
    rw [e2, e3, ← hdt, dot_edgeNormal', dot_edgeNormal' _ _ x2] at o1
    rw [e1, e4, ← hdt, dot_edgeNormal', dot_edgeNormal' _ _ (x4 + _)] at o2
    have w1 := hP.vertex e he x1 hx1
    have w2 := hP.vertex e he x2 hx2
    have w3 := hs _ (List.mem_map_of_mem (f := (· + t • (v2 - v1))) hx3)
    have w4 := hs _ (List.mem_map_of_mem (f := (· + t • (v2 - v1))) hx4)
    rcases hσ with rfl | rfl <;> linarith
  · rintro ⟨e, he, hs⟩
    rw [sides_map, List.mem_map] at he
    obtain ⟨e, he, rfl⟩ := he
    have hmem := List.mem_append_right (closedEdges P) ((sides_perm Q).mem_iff.2 he)
    obtain ⟨o1, o2⟩ := h e hmem
    obtain ⟨g1, ⟨x1, hx1, e1⟩, ⟨x2, hx2, e2⟩, ⟨x3, hx3, e3⟩, ⟨x4, hx4, e4⟩⟩ := hg e hmem
    rw [g1] at o1 o2
    have w3 := hQ.vertex e he x3 hx3
    have w4 := hQ.vertex e he x4 hx4
    have w1 := hs _ hx1
    have w2 := hs _ hx2
    simp only [Prod.map_fst, Prod.map_snd] at w1 w2
    have ea : ∀ x : P2 K, area2 (e.1 + t • (v2 - v1)) (e.2 + t • (v2 - v1)) x =
        dot (leftNormal (e.2 - e.1)) x - dot (leftNormal (e.2 - e.1)) (e.2 + t • (v2 - v1)) := fun x => by
      simp only [area2, dot, leftNormal, P2.add_x, P2.add_y, P2.sub_x, P2.sub_y, P2.smul_x, P2.smul_y]; ring
    rw [ea, hdt] at w1 w2
    rw [e2, e3, dot_edgeNormal' _ _ x3] at o1
    rw [e1, e4, dot_edgeNormal' _ _ x4] at o2
    rcases hτ with rfl | rfl <;> linarith

/-- The axes of two convex polygons decide at every time whether they share a point. -/
theorem polygons_meet {σ τ : K} {P Q : List (P2 K)} (hP : Oriented σ P) (hQ : Oriented τ Q) (hσ : σ = 1 ∨ σ = -1)
    (hτ : τ = 1 ∨ τ = -1) (v1 v2 : P2 K) (t : K) (g : P2 K × P2 K → AxisData K)
    (hg : ∀ e, GoodAxis P Q (v2 - v1) (leftNormal (e.2 - e.1)) (g e)) :
    MeetAt (InConvex P) (InConvex Q) v1 v2 t ↔ ∀ e ∈ closedEdges P ++ closedEdges Q, Overlap (g e) t := by
  refine ⟨fun h => ?_, polygons_meet_of_overlap hP hQ hσ hτ v1 v2 t g (fun e _ => (hg e).vertex)⟩
  rw [meetAt_convex] at h
  have hdt := dot_moved v1 v2 t
  obtain ⟨X, h1, h2⟩ := h
  intro e _
  obtain ⟨⟨g1, -, -, -, -⟩, g6, g7⟩ := hg e
  have k1 := inConvex_dot h1 (leftNormal (e.2 - e.1)) _ (fun x hx => (g6 x hx).2)
  have k2 := inConvex_dot h1 (-leftNormal (e.2 - e.1)) (-(g e).min1) (fun x hx => by
    rw [dot_neg_left]; linarith [(g6 x hx).1])
  rw [dot_neg_left] at k2
  have k3 := inConvex_dot h2 (leftNormal (e.2 - e.1)) ((g e).max2 + dot (leftNormal (e.2 - e.1)) (v2 - v1) * t)
    (fun x hx => by
      obtain ⟨y, hy, rfl⟩ := List.mem_map.1 hx
      rw [hdt]; linarith [(g7 y hy).2])
  have k4 := inConvex_dot h2 (-leftNormal (e.2 - e.1)) (-((g e).min2 + dot (leftNormal (e.2 - e.1)) (v2 - v1) * t))
    (fun x hx => by
      obtain ⟨y, hy, rfl⟩ := List.mem_map.1 hx
      rw [dot_neg_left, hdt]; linarith [(g7 y hy).1])
  rw [dot_neg_left] at k4
  unfold Overlap
  rw [g1]
  constructor <;> linarith

theorem movingConvex_ok {fuel : Nat} {P Q : List (P2 K)} (hP : ConvexPolygon P) (hQ : ConvexPolygon Q)
    (eP : ExtremeOk fuel P) (eQ : ExtremeOk fuel Q) (v1 v2 : P2 K) {tmax : K} (ht : 0 ≤ tmax) :
    ∃ r, movingConvex Cmp.direct fuel P v1 Q v2 tmax = .ok r ∧
      CorrectMoving (InConvex P) (InConvex Q) v1 v2 tmax r.hit r.tfirst r.tlast := by
  obtain ⟨σ, hσ, oP⟩ := oriented_of_convex hP
  obtain ⟨τ, hτ, oQ⟩ := oriented_of_convex hQ
  choose g hg1 hg2 using fun e => sideAxis_ok eP eQ (v2 - v1) e
  exact axesLoop_correct _ g tmax _ (fun e _ => hg1 e) ht _ _ v1 v2
    (fun t _ => polygons_meet oP oQ hσ hτ v1 v2 t g hg2)

/-- A run through all axes has found data for each. -/
theorem axesLoop_all {α : Type*} {f : α → Res (AxisData K)} {tmax : K} {l : List α} {tf : K} {tl : Option K}
    {r : MovingHit K} (h : axesLoop f tmax l tf tl = .ok r) (hr : r.hit = true) : ∀ x ∈ l, ∃ a, f x = .ok a := by
  induction l generalizing tf tl with
  | nil => simp
  | cons y ys ih =>
    unfold axesLoop at h
    cases hy : f y with
    | error e => rw [hy] at h; simp at h
    | ok a =>
      rw [hy] at h
      dsimp only at h
      by_cases hh : (noIntersect tmax a tf tl).hit = true
      · rw [if_pos hh] at h
        intro x hx
        rcases List.mem_cons.1 hx with rfl | hx
        · exact ⟨a, hy⟩
        · exact ih h x hx
      · rw [if_neg hh] at h
        injection h with h
        rw [h] at hh
        exact absurd hr hh

theorem extremePoint_mem {fuel : Nat} {P : List (P2 K)} {d p : P2 K}
    (h : extremePoint Cmp.direct fuel P d = .ok p) : p ∈ P := by
  unfold extremePoint at h
  cases hm : extremeIndex Cmp.direct fuel P d with
  | error f => rw [hm] at h; simp at h
  | ok m =>
    rw [hm] at h
    dsimp only at h
    cases hp : P[m]? with
    | none => rw [hp] at h; simp at h
    | some q =>
      rw [hp] at h
      injection h with h
      rw [← h]; exact List.mem_of_getElem? hp

theorem computeInterval_vertex {fuel : Nat} {P : List (P2 K)} {d : P2 K} {lo hi : K}
    (h : computeInterval Cmp.direct fuel P d = .ok (lo, hi)) : (∃ x ∈ P, lo = dot d x) ∧ ∃ x ∈ P, hi = dot d x := by
  unfold computeInterval at h
  cases h1 : extremePoint Cmp.direct fuel P (-d) with
  | error e => rw [h1] at h; simp at h
  | ok a =>
    rw [h1] at h
    dsimp only at h
    cases h2 : extremePoint Cmp.direct fuel P d with
    | error e => rw [h2] at h; simp at h
    | ok b =>
      rw [h2] at h
      injection h with h
      injection h with ha hb
      exact ⟨⟨a, extremePoint_mem h1, ha.symm⟩, ⟨b, extremePoint_mem h2, hb.symm⟩⟩

theorem sideAxis_vertex {fuel : Nat} {P Q : List (P2 K)} {v : P2 K} {e : P2 K × P2 K} {a : AxisData K}
    (h : sideAxis Cmp.direct fuel P Q v e = .ok a) : VertexAxis P Q v (leftNormal (e.2 - e.1)) a := by
  unfold sideAxis at h
  dsimp only at h
  cases h1 : computeInterval Cmp.direct fuel P (leftNormal (e.2 - e.1)) with
  | error f => rw [h1] at h; simp at h
  | ok p =>
    obtain ⟨lo, hi⟩ := p
    rw [h1] at h
    dsimp only at h
    cases h2 : computeInterval Cmp.direct fuel Q (leftNormal (e.2 - e.1)) with
    | error f => rw [h2] at h; simp at h
    | ok p =>
      obtain ⟨lo', hi'⟩ := p
      rw [h2] at h
      injection h with h
      subst h
      obtain ⟨k1, k2⟩ := computeInterval_vertex h1
      obtain ⟨k3, k4⟩ := computeInterval_vertex h2
      exact ⟨rfl, k1, k2, k3, k4⟩

/-- An answer that the polygons meet is right, whichever vertices are found. -/
theorem movingConvex_hit {fuel : Nat} {P Q : List (P2 K)} (hP : ConvexPolygon P) (hQ : ConvexPolygon Q)
    (v1 v2 : P2 K) {tmax : K} (ht : 0 ≤ tmax) {r : MovingHit K}
    (h : movingConvex Cmp.direct fuel P v1 Q v2 tmax = .ok r) (hr : r.hit = true) :
    0 ≤ r.tfirst ∧ r.tfirst ≤ tmax ∧ LeLast r.tfirst r.tlast ∧
      ∀ t, r.tfirst ≤ t → LeLast t r.tlast → MeetAt (InConvex P) (InConvex Q) v1 v2 t := by
  classical
  obtain ⟨σ, hσ, oP⟩ := oriented_of_convex hP
  obtain ⟨τ, hτ, oQ⟩ := oriented_of_convex hQ
  unfold movingConvex at h
  have hall := axesLoop_all h hr
  let g : P2 K × P2 K → AxisData K := fun e =>
    if he : ∃ a, sideAxis Cmp.direct fuel P Q (v2 - v1) e = .ok a then he.choose else ⟨0, 0, 0, 0, 0⟩
  have hg : ∀ e ∈ closedEdges P ++ closedEdges Q, sideAxis Cmp.direct fuel P Q (v2 - v1) e = .ok (g e) := by
    intro e he
    have := hall e he
    simp only [g, dif_pos this]
    exact this.choose_spec
  obtain ⟨r', hr', h3, h4⟩ := axesLoop_spec _ g tmax _ hg 0 none (le_refl 0) ht (leLast_none 0)
  rw [h] at hr'
  injection hr' with hr'
  subst hr'
  obtain ⟨k0, k1⟩ := h4 hr
  obtain ⟨t, t1, t2, t3, t4⟩ := h3.1 hr
  obtain ⟨l1, l2⟩ := (k1 t).2 ⟨t1, t3, t4⟩
  refine ⟨k0, l1.trans t2, fun x hx => l1.trans (l2 x hx), fun s hs1 hs2 => ?_⟩
  exact polygons_meet_of_overlap oP oQ hσ hτ v1 v2 s g (fun e he => sideAxis_vertex (hg e he))
    ((k1 s).1 ⟨hs1, hs2⟩).2.2

/-! ## A pentagon for which the search does not end -/

/-- A clockwise pentagon. -/
def pentagon : List (P2 ℚ) := [⟨1, 1⟩, ⟨1, 2⟩, ⟨2, 3⟩, ⟨3, 3⟩, ⟨3, 0⟩]

theorem pentagon_step1 (s : ℚ) (hs : 0 < s) (fuel : Nat) :
    extremeLoop Cmp.direct pentagon ⟨0, -s⟩ (fuel + 1) 0 0 = extremeLoop Cmp.direct pentagon ⟨0, -s⟩ fuel 0 2 := by
  have h1 : ¬ s < 0 := hs.not_gt
  conv_lhs => unfold extremeLoop
  simp [pentagon, sepMiddle, direct_gt, direct_lt, dot]
  norm_num [h1, hs]

theorem pentagon_step2 (s : ℚ) (hs : 0 < s) (fuel : Nat) :
    extremeLoop Cmp.direct pentagon ⟨0, -s⟩ (fuel + 1) 0 2 = extremeLoop Cmp.direct pentagon ⟨0, -s⟩ fuel 0 1 := by
  have h1 : ¬ s < 0 := hs.not_gt
  conv_lhs => unfold extremeLoop
  simp [pentagon, sepMiddle, direct_gt, direct_lt, dot]
  norm_num [h1, hs]

theorem pentagon_step3 (s : ℚ) (hs : 0 < s) (fuel : Nat) :
    extremeLoop Cmp.direct pentagon ⟨0, -s⟩ (fuel + 1) 0 1 = extremeLoop Cmp.direct pentagon ⟨0, -s⟩ fuel 0 0 := by
  have h1 : ¬ s < 0 := hs.not_gt
  conv_lhs => unfold extremeLoop
  simp [pentagon, sepMiddle, direct_gt, direct_lt, dot]
  norm_num [h1, hs]

theorem pentagon_diverges (s : ℚ) (hs : 0 < s) (fuel : Nat) :
    extremeIndex Cmp.direct fuel pentagon ⟨0, -s⟩ = .error .diverges := by
  have : ∀ fuel, extremeLoop Cmp.direct pentagon ⟨0, -s⟩ fuel 0 0 = .error .diverges ∧
      extremeLoop Cmp.direct pentagon ⟨0, -s⟩ fuel 0 2 = .error .diverges ∧
      extremeLoop Cmp.direct pentagon ⟨0, -s⟩ fuel 0 1 = .error .diverges := by
    intro fuel
    induction fuel with
    | zero => exact ⟨rfl, rfl, rfl⟩
    | succ n ih =>
      rw [pentagon_step1 s hs, pentagon_step2 s hs, pentagon_step3 s hs]
      exact ⟨ih.2.1, ih.2.2, ih.1⟩
  exact (this fuel).1

theorem extremeOk_small {P : List (P2 K)} (h : P.length = 3 ∨ IsParallelogram P) {fuel : Nat} (hf : 5 ≤ fuel) :
    ExtremeOk fuel P := by
  obtain ⟨k, rfl⟩ : ∃ k, fuel = k + 5 := ⟨fuel - 5, by omega⟩
  rcases h with h | h
  · match P, h with
    | [A, B, C], _ => exact extremeOk_triangle A B C k
  · exact extremeOk_parallelogram h k

/-- A list of four points in which every three turn right. -/
theorem cw_of_four {A B C D : P2 K} (h1 : area2 A B C < 0) (h2 : area2 A B D < 0) (h3 : area2 A C D < 0)
    (h4 : area2 B C D < 0) : StrictlyConvexCw [A, B, C, D] := by
  intro i j k a b c hij hjk ha hb hc
  have hk := (List.getElem?_eq_some_iff.1 hc).1
  simp only [List.length_cons, List.length_nil] at hk
  interval_cases k <;> interval_cases j <;> interval_cases i <;> simp at ha hb hc <;> subst ha hb hc <;> assumption

theorem cw_of_three {A B C : P2 K} (h1 : area2 A B C < 0) : StrictlyConvexCw [A, B, C] := by
  intro i j k a b c hij hjk ha hb hc
  have hk := (List.getElem?_eq_some_iff.1 hc).1
  simp only [List.length_cons, List.length_nil] at hk
  interval_cases k <;> interval_cases j <;> interval_cases i <;> simp at ha hb hc <;> subst ha hb hc <;> assumption

theorem ccw_of_three {A B C : P2 K} (h1 : 0 < area2 A B C) : StrictlyConvex [A, B, C] := by
  intro i j k a b c hij hjk ha hb hc
  have hk := (List.getElem?_eq_some_iff.1 hc).1
  simp only [List.length_cons, List.length_nil] at hk
  interval_cases k <;> interval_cases j <;> interval_cases i <;> simp at ha hb hc <;> subst ha hb hc <;> assumption

end Geometrix
