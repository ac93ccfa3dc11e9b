import Verif.Model.Subsequence
import Verif.Spec.Subsequence
import Verif.Props.Between
import Verif.Lemmas.Distance
import Verif.Lemmas.PolylineSplit
import Verif.Lemmas.PointInPolygon
import Verif.Spec.PolygonSimple

/-!
# Helper lemmas for parts of the border of a polygon
-/

set_option linter.unusedSectionVars false

namespace Geometrix

open Spec

section find

variable {K : Type*} [Field K] [LinearOrder K] [IsStrictOrderedRing K]

theorem edge_at {P : List (P2 K)} {i : Nat} (hi : i < P.length) :
    ∃ A B, P[i]? = some A ∧ P[(i + 1) % P.length]? = some B ∧ IsPolygonEdge P i A B := by
  have hm : (i + 1) % P.length < P.length := Nat.mod_lt _ (by omega)
  exact ⟨_, _, List.getElem?_eq_getElem hi, List.getElem?_eq_getElem hm, List.getElem?_eq_getElem hi,
    List.getElem?_eq_getElem hm⟩

theorem polyEdge_lt {P : List (P2 K)} {i : Nat} {A B : P2 K} (h : IsPolygonEdge P i A B) : i < P.length :=
  (List.getElem?_eq_some_iff.1 h.1).1

theorem polyEdge_unique {P : List (P2 K)} {i : Nat} {A B C D : P2 K} (h : IsPolygonEdge P i A B)
    (h' : IsPolygonEdge P i C D) : A = C ∧ B = D :=
  ⟨Option.some.inj (h.1.symm.trans h'.1), Option.some.inj (h.2.symm.trans h'.2)⟩

theorem next_mod {n i : Nat} : ((i + 1) % n + 1) % n = (i + 1 + 1) % n := by
  rw [Nat.mod_add_mod]

theorem containingLoop_spec {P : List (P2 K)} (hP : ProperPolygon P) (p : P2 K) (n i : Nat) (hn : i + n = P.length)
    (hb : ∀ j < i, ∀ A B, IsPolygonEdge P j A B → ¬ OnSegment A B p) :
    ∃ r, containingLoop Cmp.direct P p n i ((i + 1) % P.length) = .ok r ∧ (r = none ↔ ¬ OnBoundary P p) ∧
      ∀ k, r = some k ↔ FirstSide P p k := by
  induction n generalizing i with
  | zero =>
    have hno : ¬ OnBoundary P p := by
      rintro ⟨j, A, B, h, hp⟩
      exact hb j (by have := polyEdge_lt h; omega) A B h hp
    refine ⟨none, rfl, by simp [hno], fun k => ?_⟩
    simp only [reduceCtorEq, false_iff]
    rintro ⟨⟨A, B, h, hp⟩, -⟩
    exact hno ⟨k, A, B, h, hp⟩
  | succ n ih =>
    obtain ⟨A, B, h1, h2, h⟩ := edge_at (P := P) (i := i) (by omega)
    rw [containingLoop, h1, h2]
    dsimp only
    by_cases hc : OnSegment A B p
    · refine ⟨some i, if_pos ((C06_isBetween_closed A B p (hP i A B h)).2 hc), ?_, fun k => ?_⟩
      · simp only [reduceCtorEq, false_iff, not_not]; exact ⟨i, A, B, h, hc⟩
      · constructor
        · intro hk; cases hk; exact ⟨⟨A, B, h, hc⟩, hb⟩
        · rintro ⟨⟨C, D, h', hp⟩, hm⟩
          rcases lt_trichotomy i k with hlt | rfl | hlt
          · exact absurd hc (hm i hlt A B h)
          · rfl
          · exact absurd hp (hb k hlt C D h')
    · rw [if_neg (fun h' => hc ((C06_isBetween_closed A B p (hP i A B h)).1 h')), next_mod]
      refine ih (i + 1) (by omega) (fun j hj C D h' => ?_)
      rcases Nat.lt_succ_iff_lt_or_eq.1 hj with hj | rfl
      · exact hb j hj C D h'
      · obtain ⟨rfl, rfl⟩ := polyEdge_unique h h'; exact hc

/-- The pair kept by the loop: the first closest side among those before `i`. -/
def BestBefore (P : List (P2 K)) (p : P2 K) (i : Nat) : Option (K × Nat) → Prop
  | none => i = 0
  | some (d, k) => k < i ∧ ∃ A B Q, IsPolygonEdge P k A B ∧ OnSegment A B Q ∧ d = sqDist p Q ∧
      ∀ j < i, ∀ C D X, IsPolygonEdge P j C D → OnSegment C D X → d ≤ sqDist p X ∧ (j < k → d < sqDist p X)

theorem bestBefore_step {P : List (P2 K)} {p : P2 K} {i : Nat} {best : Option (K × Nat)}
    (hb : BestBefore P p i best) {A B : P2 K} (h : IsPolygonEdge P i A B) {d : K}
    (hd : IsMinOver (OnSegment A B) (sqDist p) d) :
    BestBefore P p (i + 1) (keepCloser d i best) := by
  obtain ⟨⟨Q, hQ, hQd⟩, hmin⟩ := hd
  have hthis : ∀ C D X, IsPolygonEdge P i C D → OnSegment C D X → d ≤ sqDist p X := by
    intro C D X h' hX
    obtain ⟨rfl, rfl⟩ := polyEdge_unique h h'
    exact hmin X hX
  cases best with
  | none =>
    have h0 : i = 0 := hb
    subst h0
    refine ⟨by omega, A, B, Q, h, hQ, hQd.symm, fun j hj C D X h' hX => ?_⟩
    obtain rfl : j = 0 := by omega
    exact ⟨hthis C D X h' hX, fun h => absurd h (lt_irrefl _)⟩
  | some b =>
    obtain ⟨d', k⟩ := b
    obtain ⟨hk, A', B', Q', e', hQ', hd', hall⟩ := hb
    unfold keepCloser
    dsimp only
    by_cases hlt : d < d'
    · rw [if_pos hlt]
      refine ⟨by omega, A, B, Q, h, hQ, hQd.symm, fun j hj C D X h' hX => ?_⟩
      rcases Nat.lt_succ_iff_lt_or_eq.1 hj with hj | rfl
      · have := (hall j hj C D X h' hX).1
        exact ⟨by linarith, fun _ => by linarith⟩
      · exact ⟨hthis C D X h' hX, fun h => absurd h (lt_irrefl _)⟩
    · rw [if_neg hlt]
      refine ⟨by omega, A', B', Q', e', hQ', hd', fun j hj C D X h' hX => ?_⟩
      rcases Nat.lt_succ_iff_lt_or_eq.1 hj with hj | rfl
      · exact hall j hj C D X h' hX
      · exact ⟨le_trans (not_lt.1 hlt) (hthis C D X h' hX), fun h => absurd h (by omega)⟩

theorem bestBefore_end {P : List (P2 K)} {p : P2 K} {best : Option (K × Nat)} (hb : BestBefore P p P.length best) :
    (best.map Prod.snd = none ↔ P = []) ∧ ∀ k, best.map Prod.snd = some k ↔ FirstClosestSide P p k := by
  cases best with
  | none =>
    have h0 : P = [] := List.eq_nil_of_length_eq_zero hb
    refine ⟨by simp [h0], fun k => ?_⟩
    simp only [Option.map_none, reduceCtorEq, false_iff]
    rintro ⟨A, B, Q, h, -⟩
    have := polyEdge_lt h
    rw [h0] at this; simp at this
  | some b =>
    obtain ⟨d, k⟩ := b
    obtain ⟨hk, A, B, Q, h, hQ, hd, hall⟩ := hb
    refine ⟨by simp only [Option.map_some, reduceCtorEq, false_iff]; rintro rfl; simp at hk, fun m => ?_⟩
    simp only [Option.map_some, Option.some.injEq]
    constructor
    · rintro rfl
      refine ⟨A, B, Q, h, hQ, fun j C D X h' hX => ?_⟩
      rw [← hd]
      exact hall j (polyEdge_lt h') C D X h' hX
    · rintro ⟨C, D, Y, h', hY, hall'⟩
      have k1 := hall m (polyEdge_lt h') C D Y h' hY
      have k2 := hall' k A B Q h hQ
      rw [← hd] at k2
      rcases lt_trichotomy k m with hlt | rfl | hlt
      · exact absurd (k2.2 hlt) (not_lt.2 k1.1)
      · rfl
      · exact absurd (k1.2 hlt) (not_lt.2 k2.1)

theorem closestLoop_spec {P : List (P2 K)} (p : P2 K) (n i : Nat) (hn : i + n = P.length) (best : Option (K × Nat))
    (hb : BestBefore P p i best) :
    ∃ r, closestLoop P p n i ((i + 1) % P.length) best = .ok r ∧ BestBefore P p P.length r := by
  induction n generalizing i best with
  | zero => exact ⟨best, rfl, by rw [← hn]; exact hb⟩
  | succ n ih =>
    obtain ⟨A, B, h1, h2, h⟩ := edge_at (P := P) (i := i) (by omega)
    obtain ⟨d, hd, hmin⟩ := pointSegDistSq_spec p A B
    rw [closestLoop, h1, h2]
    dsimp only
    rw [hd]
    dsimp only
    rw [next_mod]
    exact ih (i + 1) (by omega) _ (bestBefore_step hb h hmin)

theorem containingOrClosestLoop_spec {P : List (P2 K)} (hP : ProperPolygon P) (p : P2 K) (n i : Nat)
    (hn : i + n = P.length) (best : Option (K × Nat)) (hbb : BestBefore P p i best)
    (hb : ∀ j < i, ∀ A B, IsPolygonEdge P j A B → ¬ OnSegment A B p) :
    ∃ r, containingOrClosestLoop Cmp.direct P p n i ((i + 1) % P.length) best = .ok r ∧
      (OnBoundary P p → ∀ k, r = some k ↔ FirstSide P p k) ∧
      (¬ OnBoundary P p → (r = none ↔ P = []) ∧ ∀ k, r = some k ↔ FirstClosestSide P p k) := by
  induction n generalizing i best with
  | zero =>
    have hno : ¬ OnBoundary P p := by
      rintro ⟨j, A, B, h, hp⟩
      exact hb j (by have := polyEdge_lt h; omega) A B h hp
    refine ⟨_, rfl, fun h => absurd h hno, fun _ => bestBefore_end (by rw [← hn]; exact hbb)⟩
  | succ n ih =>
    obtain ⟨A, B, h1, h2, h⟩ := edge_at (P := P) (i := i) (by omega)
    obtain ⟨d, hd, hmin⟩ := pointSegDistSq_spec p A B
    rw [containingOrClosestLoop, h1, h2]
    dsimp only
    by_cases hc : OnSegment A B p
    · refine ⟨some i, if_pos ((C06_isBetween_closed A B p (hP i A B h)).2 hc), fun _ k => ?_, fun hno =>
        absurd ⟨i, A, B, h, hc⟩ hno⟩
      constructor
      · intro hk; cases hk; exact ⟨⟨A, B, h, hc⟩, hb⟩
      · rintro ⟨⟨C, D, h', hp⟩, hm⟩
        rcases lt_trichotomy i k with hlt | rfl | hlt
        · exact absurd hc (hm i hlt A B h)
        · rfl
        · exact absurd hp (hb k hlt C D h')
    · rw [if_neg (fun h' => hc ((C06_isBetween_closed A B p (hP i A B h)).1 h')), hd]
      dsimp only
      rw [next_mod]
      refine ih (i + 1) (by omega) _ (bestBefore_step hbb h hmin) (fun j hj C D h' => ?_)
      rcases Nat.lt_succ_iff_lt_or_eq.1 hj with hj | rfl
      · exact hb j hj C D h'
      · obtain ⟨rfl, rfl⟩ := polyEdge_unique h h'; exact hc

theorem start_mod {n : Nat} (h : n ≠ 1) (h0 : n ≠ 0) : (0 + 1) % n = 1 := Nat.mod_eq_of_lt (by omega)

end find

/-! ## The walk -/

theorem ahead_nonneg {P : List (P2 ℝ)} {next : Nat → Nat} {j : Nat} {cur X : P2 ℝ} {d : ℝ}
    (h : Ahead P next j cur d X) : 0 ≤ d ∧ (d = 0 → X = cur) := by
  induction h with
  | stop h1 h2 => exact ⟨dist_nonneg' _ _, fun h => (dist_eq_zero'.1 h).symm⟩
  | @pass j cur B d X h1 h2 ih =>
    have := dist_nonneg' cur B
    refine ⟨by linarith [ih.1], fun h => ?_⟩
    have hd : Spec.dist cur B = 0 := by linarith [ih.1]
    rw [ih.2 (by linarith), dist_eq_zero'.1 hd]

/-- The points of a polyline, or the single point. -/
def OnChain (L : List (P2 ℝ)) (X : P2 ℝ) : Prop := L.head? = some X ∨ OnPolyline L X

theorem onPolyline_cons2 (a b : P2 ℝ) (L : List (P2 ℝ)) (X : P2 ℝ) :
    OnPolyline (a :: b :: L) X ↔ OnSegment a b X ∨ OnPolyline (b :: L) X := by
  constructor
  · rintro ⟨i, A, B, ⟨h1, h2⟩, hX⟩
    cases i with
    | zero => simp at h1 h2; subst h1; subst h2; exact Or.inl hX
    | succ i => exact Or.inr ⟨i, A, B, ⟨by simpa using h1, by simpa using h2⟩, hX⟩
  · rintro (h | ⟨i, A, B, ⟨h1, h2⟩, hX⟩)
    · exact ⟨0, a, b, ⟨rfl, rfl⟩, h⟩
    · exact ⟨i + 1, A, B, ⟨by simpa using h1, by simpa using h2⟩, hX⟩

theorem onChain_single (a X : P2 ℝ) : OnChain [a] X ↔ X = a := by
  unfold OnChain
  simp [onPolyline_single, eq_comm]

theorem onChain_cons2 (a b : P2 ℝ) (L : List (P2 ℝ)) (X : P2 ℝ) :
    OnChain (a :: b :: L) X ↔ OnSegment a b X ∨ OnChain (b :: L) X := by
  unfold OnChain
  rw [onPolyline_cons2]
  simp only [List.head?_cons, Option.some.injEq]
  constructor
  · rintro (rfl | h | h)
    · exact Or.inl (onSegment_left _ _)
    · exact Or.inl h
    · exact Or.inr (Or.inr h)
  · rintro (h | rfl | h)
    · exact Or.inr (Or.inl h)
    · exact Or.inr (Or.inl (onSegment_right _ _))
    · exact Or.inr (Or.inr h)

theorem onChain_iff {a b : P2 ℝ} {L : List (P2 ℝ)} {X : P2 ℝ} :
    OnChain (a :: b :: L) X ↔ OnPolyline (a :: b :: L) X := by
  constructor
  · rintro (h | h)
    · simp at h; subst h; exact (onPolyline_cons2 a b L a).2 (Or.inl (onSegment_left _ _))
    · exact h
  · exact Or.inr

/-- Lengths along the vertices from number `j` on. -/
noncomputable def walkLength (P : List (P2 ℝ)) (next : Nat → Nat) (j : Nat) : Nat → ℝ
  | 0 => 0
  | m + 1 => (match P[j]?, P[next j]? with
    | some A, some B => Spec.dist A B
    | _, _ => 0) + walkLength P next (next j) m

theorem chainSum_cons2 (a b : P2 ℝ) (L : List (P2 ℝ)) :
    chainSum Spec.dist (a :: b :: L) = Spec.dist a b + chainSum Spec.dist (b :: L) := by
  simp [chainSum]

/-- What the loop gives once the length of the walk is enough. -/
structure IsWalk (P : List (P2 ℝ)) (next : Nat → Nat) (j : Nat) (cur : P2 ℝ) (extent : ℝ) (L : List (P2 ℝ)) : Prop where
  length : chainSum Spec.dist (cur :: L) = extent
  points : ∀ X, OnChain (cur :: L) X ↔ ∃ d ≤ extent, Ahead P next j cur d X
  nonempty : 0 < extent → ∃ b l, L = b :: l ∧ ∃ B, P[j]? = some B ∧ OnSegment cur B b

theorem walk_zero {P : List (P2 ℝ)} {next : Nat → Nat} {j : Nat} (hj : j < P.length) (cur : P2 ℝ) :
    IsWalk P next j cur 0 [] := by
  refine ⟨by simp [chainSum], fun X => ?_, fun h => absurd h (lt_irrefl _)⟩
  rw [onChain_single]
  constructor
  · rintro rfl
    refine ⟨Spec.dist X X, by rw [dist_self'], .stop (List.getElem?_eq_getElem hj) (onSegment_left _ _)⟩
  · rintro ⟨d, hd, h⟩
    have := ahead_nonneg h
    exact this.2 (le_antisymm hd this.1)

theorem stepBack_ok {Q cur : P2 ℝ} (h : cur ≠ Q) (l : ℝ) :
    stepBack Q cur l = .ok (cur + (l / Spec.dist cur Q) • (Q - cur)) := by
  unfold stepBack normalize2
  rw [sqrt_normSq_sub, dist_comm', if_neg (fun h' => h (dist_eq_zero'.1 h'))]
  dsimp only
  congr 1
  ext <;> simp <;> ring

theorem walk_far {P : List (P2 ℝ)} {next : Nat → Nat} {j : Nat} {cur Q : P2 ℝ} (hQ : P[j]? = some Q) {extent : ℝ}
    (he : 0 < extent) (hf : extent < Spec.dist cur Q) :
    IsWalk P next j cur extent [cur + (extent / Spec.dist cur Q) • (Q - cur)] := by
  have hd : 0 < Spec.dist cur Q := he.trans hf
  have h0 : 0 < extent / Spec.dist cur Q := div_pos he hd
  have h1 : extent / Spec.dist cur Q < 1 := (div_lt_one hd).2 hf
  have hm : extent / Spec.dist cur Q * Spec.dist cur Q = extent := div_mul_cancel₀ _ hd.ne'
  refine ⟨?_, fun X => ?_, fun _ => ⟨_, _, rfl, Q, hQ, _, h0.le, h1.le, rfl⟩⟩
  · rw [chainSum_cons2, dist_along _ _ _ h0.le, hm]; simp [chainSum]
  · rw [onChain_cons2, onChain_single]
    constructor
    · intro h
      have h : OnSegment cur (cur + (extent / Spec.dist cur Q) • (Q - cur)) X := by
        rcases h with h | rfl
        · exact h
        · exact onSegment_right _ _
      obtain ⟨t, t0, t1, rfl⟩ := h
      have e : cur + t • (cur + (extent / Spec.dist cur Q) • (Q - cur) - cur) =
          cur + (t * (extent / Spec.dist cur Q)) • (Q - cur) := by ext <;> simp <;> ring
      rw [e]
      refine ⟨_, ?_, .stop hQ ⟨t * (extent / Spec.dist cur Q), by positivity, by nlinarith, rfl⟩⟩
      rw [dist_along _ _ _ (by positivity), mul_assoc, hm]
      nlinarith
    · rintro ⟨d, hd', h⟩
      left
      cases h with
      | stop k1 k2 =>
        rw [hQ] at k1
        obtain rfl := Option.some.inj k1
        obtain ⟨t, t0, t1, rfl⟩ := k2
        rw [dist_along _ _ _ t0] at hd'
        refine ⟨t * Spec.dist cur Q / extent, by positivity, (div_le_one he).2 hd', ?_⟩
        have hne := he.ne'
        have hne' := hd.ne'
        ext <;> simp <;> field_simp
      | pass k1 k2 =>
        rw [hQ] at k1
        obtain rfl := Option.some.inj k1
        have := (ahead_nonneg k2).1
        linarith

theorem walk_pass {P : List (P2 ℝ)} {next : Nat → Nat} {j : Nat} {cur Q : P2 ℝ} (hQ : P[j]? = some Q) {extent : ℝ}
    (hf : Spec.dist cur Q ≤ extent) {L : List (P2 ℝ)} (h : IsWalk P next (next j) Q (extent - Spec.dist cur Q) L) :
    IsWalk P next j cur extent (Q :: L) := by
  refine ⟨?_, fun X => ?_, fun _ => ⟨Q, L, rfl, Q, hQ, onSegment_right _ _⟩⟩
  · rw [chainSum_cons2, h.length]; ring
  · rw [onChain_cons2, h.points]
    constructor
    · rintro (h | ⟨d, hd, h⟩)
      · refine ⟨_, ?_, .stop hQ h⟩
        have := dist_split h
        have := dist_nonneg' X Q
        linarith
      · exact ⟨_, by linarith, .pass hQ h⟩
    · rintro ⟨d, hd, h⟩
      cases h with
      | stop k1 k2 =>
        rw [hQ] at k1
        obtain rfl := Option.some.inj k1
        exact Or.inl k2
      | pass k1 k2 =>
        rw [hQ] at k1
        obtain rfl := Option.some.inj k1
        exact Or.inr ⟨_, by linarith, k2⟩

theorem halfLoop_zero (P : List (P2 ℝ)) (next : Nat → Nat) {fuel : Nat} (hf : 1 ≤ fuel) (cur : P2 ℝ) (j : Nat) :
    halfLoop P next fuel cur 0 j = .ok [] := by
  obtain ⟨f, rfl⟩ : ∃ f, fuel = f + 1 := ⟨fuel - 1, by omega⟩
  rw [halfLoop, if_neg (lt_irrefl _)]

theorem halfLoop_walk {P : List (P2 ℝ)} {next : Nat → Nat} (hnext : ∀ j < P.length, next j < P.length) (m : Nat)
    (j : Nat) (cur B : P2 ℝ) (hB : P[j]? = some B) (extent : ℝ) (he : 0 ≤ extent)
    (hlen : extent ≤ Spec.dist cur B + walkLength P next j m) :
    ∃ L, IsWalk P next j cur extent L ∧ ∀ fuel, m + 2 ≤ fuel → halfLoop P next fuel cur extent j = .ok L := by
  have hj : j < P.length := (List.getElem?_eq_some_iff.1 hB).1
  induction m generalizing j cur B extent with
  | zero =>
    rcases he.eq_or_lt with rfl | hpos
    · exact ⟨[], walk_zero hj cur, fun fuel hf => halfLoop_zero P next (by omega) cur j⟩
    · rcases lt_or_ge extent (Spec.dist cur B) with hlt | hge
      · refine ⟨_, walk_far hB hpos hlt, fun fuel hf => ?_⟩
        obtain ⟨f, rfl⟩ : ∃ f, fuel = f + 1 := ⟨fuel - 1, by omega⟩
        have hne : cur ≠ B := by rintro rfl; rw [dist_self'] at hlt; linarith
        rw [halfLoop, if_pos hpos, hB]
        dsimp only
        rw [pointDist_eq, if_neg (not_le.2 hlt), stepBack_ok hne]
        dsimp only
        rw [halfLoop_zero P next (by omega)]
      · have heq : extent = Spec.dist cur B := by
          simp only [walkLength, add_zero] at hlen; exact le_antisymm hlen hge
        refine ⟨[B], walk_pass hB hge (by rw [heq, sub_self]; exact walk_zero (hnext j hj) B), fun fuel hf => ?_⟩
        obtain ⟨f, rfl⟩ : ∃ f, fuel = f + 1 := ⟨fuel - 1, by omega⟩
        rw [halfLoop, if_pos hpos, hB]
        dsimp only
        rw [pointDist_eq, if_pos hge, heq, sub_self, halfLoop_zero P next (by omega)]
  | succ m ih =>
    rcases he.eq_or_lt with rfl | hpos
    · exact ⟨[], walk_zero hj cur, fun fuel hf => halfLoop_zero P next (by omega) cur j⟩
    · rcases lt_or_ge extent (Spec.dist cur B) with hlt | hge
      · refine ⟨_, walk_far hB hpos hlt, fun fuel hf => ?_⟩
        obtain ⟨f, rfl⟩ : ∃ f, fuel = f + 1 := ⟨fuel - 1, by omega⟩
        have hne : cur ≠ B := by rintro rfl; rw [dist_self'] at hlt; linarith
        rw [halfLoop, if_pos hpos, hB]
        dsimp only
        rw [pointDist_eq, if_neg (not_le.2 hlt), stepBack_ok hne]
        dsimp only
        rw [halfLoop_zero P next (by omega)]
      · have hC : P[next j]? = some (P[next j]'(hnext j hj)) := List.getElem?_eq_getElem _
        obtain ⟨L, h1, h2⟩ := ih (next j) B _ hC (extent - Spec.dist cur B) (by linarith) (by
          rw [walkLength, hB, hC] at hlen
          dsimp only at hlen
          linarith) (hnext j hj)
        refine ⟨B :: L, walk_pass hB hge h1, fun fuel hf => ?_⟩
        obtain ⟨f, rfl⟩ : ∃ f, fuel = f + 1 := ⟨fuel - 1, by omega⟩
        rw [halfLoop, if_pos hpos, hB]
        dsimp only
        rw [pointDist_eq, if_pos hge, h2 f (by omega)]

/-! ## The walk is long enough -/

theorem walkLength_nonneg (P : List (P2 ℝ)) (next : Nat → Nat) (j m : Nat) : 0 ≤ walkLength P next j m := by
  induction m generalizing j with
  | zero => exact le_rfl
  | succ m ih =>
    rw [walkLength]
    have := ih (next j)
    cases P[j]? with
    | none => dsimp only; linarith
    | some A =>
      cases P[next j]? with
      | none => dsimp only; linarith
      | some B => dsimp only; linarith [dist_nonneg' A B]

theorem walkLength_add (P : List (P2 ℝ)) (next : Nat → Nat) (j m k : Nat) :
    walkLength P next j (m + k) = walkLength P next j m + walkLength P next (next^[m] j) k := by
  induction m generalizing j with
  | zero => simp [walkLength]
  | succ m ih =>
    rw [show m + 1 + k = (m + k) + 1 by omega, walkLength, walkLength, ih, Function.iterate_succ_apply]
    ring

/-- If the walk does not leave the point, all vertices it visits are equal. -/
theorem walkLength_zero {P : List (P2 ℝ)} {next : Nat → Nat} (hnext : ∀ j < P.length, next j < P.length) (m j : Nat)
    (hj : j < P.length) (h : walkLength P next j m = 0) : ∀ k ≤ m, P[next^[k] j]? = P[j]? := by
  induction m generalizing j with
  | zero => intro k hk; obtain rfl : k = 0 := by omega
            rfl
  | succ m ih =>
    rw [walkLength, List.getElem?_eq_getElem hj, List.getElem?_eq_getElem (hnext j hj)] at h
    dsimp only at h
    have h1 := dist_nonneg' P[j] (P[next j]'(hnext j hj))
    have h2 := walkLength_nonneg P next (next j) m
    have h3 : P[j] = P[next j]'(hnext j hj) := dist_eq_zero'.1 (by linarith)
    have h4 := ih (next j) (hnext j hj) (by linarith)
    intro k hk
    cases k with
    | zero => rfl
    | succ k =>
      rw [Function.iterate_succ_apply, h4 k (by omega), List.getElem?_eq_getElem hj, List.getElem?_eq_getElem (hnext j hj), h3]

/-- A walk that goes round can be made as long as one likes. -/
theorem walkLength_large {P : List (P2 ℝ)} {next : Nat → Nat} (hnext : ∀ j < P.length, next j < P.length) {j : Nat}
    (hj : j < P.length) {n : Nat} (hround : next^[n] j = j) (hall : ∀ k < P.length, ∃ m ≤ n, next^[m] j = k)
    (hne : ∃ A ∈ P, ∃ B ∈ P, A ≠ B) (e : ℝ) : ∃ m, e ≤ walkLength P next j m := by
  have hpos : 0 < walkLength P next j n := by
    refine lt_of_le_of_ne (walkLength_nonneg _ _ _ _) (fun h0 => ?_)
    have hz := walkLength_zero hnext n j hj h0.symm
    obtain ⟨A, hA, B, hB, hAB⟩ := hne
    have key : ∀ X ∈ P, P[j]? = some X := by
      intro X hX
      obtain ⟨k, hk, rfl⟩ := List.mem_iff_getElem.1 hX
      obtain ⟨m, hm, hmk⟩ := hall k hk
      rw [← hz m hm, hmk]; exact List.getElem?_eq_getElem hk
    exact hAB (Option.some.inj ((key A hA).symm.trans (key B hB)))
  have hmul : ∀ r : Nat, walkLength P next j (n * r) = r * walkLength P next j n := by
    intro r
    induction r with
    | zero => simp [walkLength]
    | succ r ih =>
      have : next^[n * r] j = j := by
        clear ih
        rw [Function.iterate_mul]
        exact Function.iterate_fixed hround r
      rw [Nat.mul_succ, walkLength_add, ih, this]; push_cast; ring
  obtain ⟨r, hr⟩ := exists_nat_ge (e / walkLength P next j n)
  exact ⟨n * r, by rw [hmul]; rwa [div_le_iff₀ hpos] at hr⟩

theorem incCcw_iter (n k j : Nat) (hj : j < n) : (incCcw n)^[k] j = (j + k) % n := by
  induction k with
  | zero => simp [Nat.mod_eq_of_lt hj]
  | succ k ih => rw [Function.iterate_succ_apply', ih, incCcw, Nat.mod_add_mod]; congr 1

theorem incCw_iter (n k j : Nat) (hj : j < n) : (incCw n)^[k] j = (j + k * (n - 1)) % n := by
  induction k with
  | zero => simp [Nat.mod_eq_of_lt hj]
  | succ k ih =>
    rw [Function.iterate_succ_apply', ih, incCw, Nat.add_sub_assoc (by omega), Nat.mod_add_mod]
    congr 1; ring

theorem incCcw_lt {n : Nat} (j : Nat) (hn : 0 < n) : incCcw n j < n := Nat.mod_lt _ hn
theorem incCw_lt {n : Nat} (j : Nat) (hn : 0 < n) : incCw n j < n := Nat.mod_lt _ hn

theorem ccw_large {P : List (P2 ℝ)} {j : Nat} (hj : j < P.length) (hne : ∃ A ∈ P, ∃ B ∈ P, A ≠ B) (e : ℝ) :
    ∃ m, e ≤ walkLength P (incCcw P.length) j m := by
  refine walkLength_large (fun k hk => incCcw_lt k (by omega)) hj (n := P.length * 2) ?_ ?_ hne e
  · rw [incCcw_iter _ _ _ hj, Nat.add_mul_mod_self_left, Nat.mod_eq_of_lt hj]
  · intro k hk
    refine ⟨k + P.length - j, by omega, ?_⟩
    rw [incCcw_iter _ _ _ hj, show j + (k + P.length - j) = k + P.length by omega, Nat.add_mod_right,
      Nat.mod_eq_of_lt hk]

theorem cw_large {P : List (P2 ℝ)} {j : Nat} (hj : j < P.length) (hne : ∃ A ∈ P, ∃ B ∈ P, A ≠ B) (e : ℝ) :
    ∃ m, e ≤ walkLength P (incCw P.length) j m := by
  refine walkLength_large (fun k hk => incCw_lt k (by omega)) hj (n := P.length * 2) ?_ ?_ hne e
  · rw [incCw_iter _ _ _ hj, mul_assoc, Nat.add_mul_mod_self_left, Nat.mod_eq_of_lt hj]
  · intro k hk
    refine ⟨j + P.length - k, by omega, ?_⟩
    rw [incCw_iter _ _ _ hj]
    obtain ⟨c, hc⟩ : ∃ c, P.length = c + 1 := ⟨P.length - 1, by omega⟩
    obtain ⟨d, hd⟩ : ∃ d, j + P.length - k = d := ⟨_, rfl⟩
    have : j + (j + P.length - k) * (P.length - 1) = k + P.length * (j + P.length - k - 1) := by
      rw [hd]
      have e1 : d = j + P.length - k := hd.symm
      have e2 : 1 ≤ d := by omega
      obtain ⟨d', rfl⟩ : ∃ d', d = d' + 1 := ⟨d - 1, by omega⟩
      rw [hc] at *
      simp only [Nat.add_sub_cancel]
      have : j = d' + k - c := by omega
      have h' : j + c = d' + k := by omega
      nlinarith
    rw [this, Nat.add_mul_mod_self_left, Nat.mod_eq_of_lt hk]

/-- A polygon all of whose vertices are the given point keeps the loop going for ever. -/
theorem halfLoop_diverges {P : List (P2 ℝ)} {next : Nat → Nat} (hnext : ∀ j < P.length, next j < P.length) {q : P2 ℝ}
    (hP : ∀ X ∈ P, X = q) {extent : ℝ} (he : 0 < extent) (fuel j : Nat) (hj : j < P.length) :
    halfLoop P next fuel q extent j = .error .diverges := by
  induction fuel generalizing j with
  | zero => rfl
  | succ f ih =>
    rw [halfLoop, if_pos he, List.getElem?_eq_getElem hj]
    dsimp only
    rw [hP P[j] (List.getElem_mem _), pointDist_eq, dist_self', if_pos he.le, sub_zero, ih (next j) (hnext j hj)]

/-! ## Both halves -/

theorem onPolyline_reverse (L : List (P2 ℝ)) (X : P2 ℝ) : OnPolyline L.reverse X ↔ OnPolyline L X := by
  have key : ∀ L : List (P2 ℝ), OnPolyline L X → OnPolyline L.reverse X := by
    rintro L ⟨i, A, B, ⟨h1, h2⟩, hX⟩
    have hi : i + 1 < L.length := (List.getElem?_eq_some_iff.1 h2).1
    refine ⟨L.length - 2 - i, B, A, ⟨?_, ?_⟩, (onSegment_swap A B X).1 hX⟩
    · rw [List.getElem?_reverse (by omega), ← h2]; congr 1; omega
    · rw [List.getElem?_reverse (by omega), ← h1]; congr 1; omega
  exact ⟨fun h => by simpa using key _ h, key L⟩

theorem onPolyline_append (L : List (P2 ℝ)) (a b : P2 ℝ) (M : List (P2 ℝ)) (X : P2 ℝ) :
    OnPolyline (L ++ a :: b :: M) X ↔ OnPolyline (L ++ [a]) X ∨ OnSegment a b X ∨ OnPolyline (b :: M) X := by
  induction L with
  | nil => simp [onPolyline_cons2, onPolyline_single]
  | cons x L ih =>
    cases L with
    | nil => have := onPolyline_single a X
             simp only [List.nil_append, List.cons_append, onPolyline_cons2]
             tauto
    | cons y L =>
      simp only [List.cons_append, onPolyline_cons2] at ih ⊢
      rw [ih]; tauto

theorem chainSum_append (L : List (P2 ℝ)) (a b : P2 ℝ) (M : List (P2 ℝ)) :
    chainSum Spec.dist (L ++ a :: b :: M) =
      chainSum Spec.dist (L ++ [a]) + Spec.dist a b + chainSum Spec.dist (b :: M) := by
  induction L with
  | nil => simp [chainSum]
  | cons x L ih =>
    cases L with
    | nil => simp [chainSum]; ring
    | cons y L =>
      simp only [List.cons_append, chainSum_cons2] at ih ⊢
      rw [ih]; ring

/-- The two halves put together. -/
theorem join_halves {p a b : P2 ℝ} (hp : OnSegment a b p) (L M : List (P2 ℝ)) :
    chainSum Spec.dist ((a :: L).reverse ++ b :: M) =
      chainSum Spec.dist (p :: a :: L) + chainSum Spec.dist (p :: b :: M) ∧
    ∀ X, OnPolyline ((a :: L).reverse ++ b :: M) X ↔ OnPolyline (p :: a :: L) X ∨ OnPolyline (p :: b :: M) X := by
  have hr : (a :: L).reverse ++ b :: M = L.reverse ++ a :: b :: M := by simp
  have hr' : L.reverse ++ [a] = (a :: L).reverse := by simp
  rw [hr]
  constructor
  · rw [chainSum_append, hr', chainSum_reverse, chainSum_cons2, chainSum_cons2, ← dist_split hp, dist_comm' a p]
    have : (fun a b => Spec.dist b a) = Spec.dist := funext fun a => funext fun b => dist_comm' b a
    rw [this]; ring
  · intro X
    rw [onPolyline_append, hr', onPolyline_reverse, onPolyline_cons2, onPolyline_cons2]
    have : OnSegment a b X ↔ OnSegment p a X ∨ OnSegment p b X := by
      obtain ⟨s, s0, s1, rfl⟩ := hp
      constructor
      · rintro ⟨t, t0, t1, rfl⟩
        rcases le_total t s with h | h
        · left
          rw [onSegment_swap]
          rcases s0.eq_or_lt with rfl | hs
          · exact ⟨0, le_rfl, zero_le_one, by rw [le_antisymm h t0]; ext <;> simp⟩
          · refine ⟨t / s, by positivity, (div_le_one hs).2 h, ?_⟩
            ext <;> simp <;> field_simp
        · right
          rcases s1.eq_or_lt with rfl | hs
          · exact ⟨0, le_rfl, zero_le_one, by rw [le_antisymm t1 h]; ext <;> simp⟩
          · have h1s : 0 < 1 - s := by linarith
            refine ⟨(t - s) / (1 - s), div_nonneg (by linarith) h1s.le, (div_le_one h1s).2 (by linarith), ?_⟩
            have := h1s.ne'
            ext <;> simp <;> field_simp <;> ring
      · rintro (h | h)
        · rw [onSegment_swap] at h
          obtain ⟨t, t0, t1, rfl⟩ := h
          exact ⟨t * s, by positivity, by nlinarith, by ext <;> simp <;> ring⟩
        · obtain ⟨t, t0, t1, rfl⟩ := h
          exact ⟨s + t * (1 - s), by nlinarith, by nlinarith, by ext <;> simp <;> ring⟩
    rw [this]
    tauto

end Geometrix
