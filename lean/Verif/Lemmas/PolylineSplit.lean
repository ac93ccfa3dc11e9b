import Verif.Model.PolylineSplit
import Verif.Spec.PolylineSplit
import Verif.Lemmas.PointSequence
import Verif.Lemmas.Between
import Verif.Lemmas.RemoveCollinear

/-!
# Helper lemmas about positions along a polyline
-/

set_option linter.unusedSectionVars false

namespace Geometrix

open Spec

theorem pointDist_fun : pointDist = Spec.dist := funext fun A => funext fun B => pointDist_eq A B

theorem dist_nonneg' (A B : P2 ℝ) : 0 ≤ Spec.dist A B := Real.sqrt_nonneg _

theorem dist_self' (A : P2 ℝ) : Spec.dist A A = 0 := by simp [Spec.dist]

theorem dist_comm' (A B : P2 ℝ) : Spec.dist A B = Spec.dist B A := by
  simp only [Spec.dist]; congr 1; ring

theorem dist_eq_zero' {A B : P2 ℝ} : Spec.dist A B = 0 ↔ A = B := by
  constructor
  · intro h
    unfold Spec.dist at h
    rw [Real.sqrt_eq_zero (by positivity)] at h
    have hx : B.x - A.x = 0 := by nlinarith [sq_nonneg (B.x - A.x), sq_nonneg (B.y - A.y)]
    have hy : B.y - A.y = 0 := by nlinarith [sq_nonneg (B.x - A.x), sq_nonneg (B.y - A.y)]
    exact P2.ext (by linarith) (by linarith)
  · rintro rfl; exact dist_self' A

theorem dist_along (A B : P2 ℝ) (t : ℝ) (ht : 0 ≤ t) :
    Spec.dist A (A + t • (B - A)) = t * Spec.dist A B := by
  unfold Spec.dist
  rw [show (A + t • (B - A)).x - A.x = t * (B.x - A.x) by simp,
    show (A + t • (B - A)).y - A.y = t * (B.y - A.y) by simp,
    show (t * (B.x - A.x)) ^ 2 + (t * (B.y - A.y)) ^ 2 =
      t ^ 2 * ((B.x - A.x) ^ 2 + (B.y - A.y) ^ 2) by ring, Real.sqrt_mul (by positivity),
    Real.sqrt_sq ht]

theorem dist_along' (A B : P2 ℝ) (t : ℝ) (ht : t ≤ 1) :
    Spec.dist (A + t • (B - A)) B = (1 - t) * Spec.dist A B := by
  rw [dist_comm', dist_comm' A B, ← dist_along B A (1 - t) (by linarith)]
  congr 1
  ext <;> simp <;> ring

/-- Points of a segment split its length. -/
theorem dist_split {A B S : P2 ℝ} (h : OnSegment A B S) :
    Spec.dist A S + Spec.dist S B = Spec.dist A B := by
  obtain ⟨t, h0, h1, rfl⟩ := h
  rw [dist_along A B t h0, dist_along' A B t h1]; ring

theorem sqrt_normSq_sub (p q : P2 ℝ) : Real.sqrt (normSq (p - q)) = Spec.dist p q := by
  simp only [Spec.dist, normSq, dot, P2.sub_x, P2.sub_y]
  congr 1; ring

theorem stepBack_spec {p q : P2 ℝ} {l : ℝ} (hl : 0 ≤ l) (hd : l < Spec.dist p q) :
    ∃ t, stepBack p q l = .ok (p + t • (q - p)) ∧ 0 < t ∧ t ≤ 1 ∧ (0 < l → t < 1) ∧
      t * Spec.dist p q = Spec.dist p q - l := by
  have hpos : 0 < Spec.dist p q := lt_of_le_of_lt hl hd
  refine ⟨1 - l / Spec.dist p q, ?_, ?_, ?_, ?_, ?_⟩
  · unfold stepBack normalize2
    rw [sqrt_normSq_sub, if_neg hpos.ne']
    simp only [Except.ok.injEq]
    ext <;> simp <;> ring
  · rw [sub_pos, div_lt_one hpos]; exact hd
  · have := div_nonneg hl hpos.le; linarith
  · intro h; have := div_pos h hpos; linarith
  · field_simp

theorem stepBack_zero {p : P2 ℝ} {l : ℝ} : stepBack p p l = .error .assertFailed := by
  have : p - p = 0 := by ext <;> simp
  simp [stepBack, normalize2, this, normSq, dot]

theorem chainSum_nonneg (l : List (P2 ℝ)) : 0 ≤ chainSum Spec.dist l := by
  match l with
  | [] => exact le_rfl
  | [_] => exact le_rfl
  | a :: b :: l =>
    rw [chainSum_cons]
    exact add_nonneg (dist_nonneg' a b) (chainSum_nonneg (b :: l))

theorem splitLoop_spec (pos : ℝ) (rest : List (P2 ℝ)) (len : ℝ) (p : P2 ℝ) (h0 : len ≤ pos)
    (h1 : pos < len + chainSum Spec.dist (p :: rest)) :
    ∃ before after S, splitLoop pos len p rest = .ok (before ++ [S], after) ∧
      (before ++ [S]).head? = some p ∧
      chainSum Spec.dist (before ++ [S]) = pos - len ∧
      chainSum Spec.dist (S :: after) = len + chainSum Spec.dist (p :: rest) - pos ∧
      (p :: rest = before ++ S :: after ∨
        ∃ A B, before.getLast? = some A ∧ after.head? = some B ∧ p :: rest = before ++ after ∧
        InsideSegment A B S) := by
  induction rest generalizing len p with
  | nil => rw [chainSum_single] at h1; linarith
  | cons q rest ih =>
    rw [chainSum_cons] at h1 ⊢
    unfold splitLoop
    rw [pointDist_fun]
    by_cases hg : len + Spec.dist p q > pos
    · rw [if_pos hg]
      by_cases hl : len + Spec.dist p q - pos < Spec.dist p q
      · rw [if_pos hl]
        obtain ⟨t, ht, t0, t1, t2, t3⟩ := stepBack_spec (p := p) (q := q)
          (l := len + Spec.dist p q - pos) (by linarith) hl
        refine ⟨[p], q :: rest, p + t • (q - p), by rw [ht]; rfl, rfl, ?_, ?_,
          Or.inr ⟨p, q, rfl, rfl, rfl, t, t0, t2 (by linarith), rfl⟩⟩
        · rw [List.singleton_append, chainSum_cons, chainSum_single, dist_along p q t t0.le, t3]; ring
        · rw [chainSum_cons, dist_along' p q t t1]; linarith
      · rw [if_neg hl]
        have : pos = len := by linarith
        subst this
        refine ⟨[], q :: rest, p, rfl, rfl, ?_, ?_, Or.inl rfl⟩
        · rw [List.nil_append, chainSum_single]; ring
        · rw [chainSum_cons]; ring
    · rw [if_neg hg]
      obtain ⟨before, after, S, k1, k2, k3, k4, k5⟩ :=
        ih (len + Spec.dist p q) q (by linarith) (by linarith)
      obtain ⟨tl, htl⟩ : ∃ tl, before ++ [S] = q :: tl := by
        match hb : before ++ [S], k2 with
        | x :: tl, k2 => exact ⟨tl, by rw [Option.some.inj k2]⟩
      refine ⟨p :: before, after, S, by rw [k1]; rfl, rfl, ?_, ?_, ?_⟩
      · rw [List.cons_append, htl, chainSum_cons, ← htl, k3]; ring
      · rw [k4]; ring
      · rcases k5 with k5 | ⟨A, B, k5, k6, k7, k8⟩
        · exact Or.inl (by rw [k5]; rfl)
        · refine Or.inr ⟨A, B, ?_, k6, by rw [k7]; rfl, k8⟩
          cases before with
          | nil => simp at k5
          | cons x l => rw [List.getLast?_cons_cons]; exact k5

/-- Beyond the end nothing stops the loop. -/
theorem splitLoop_past (pos : ℝ) (rest : List (P2 ℝ)) (len : ℝ) (p : P2 ℝ)
    (h1 : len + chainSum Spec.dist (p :: rest) ≤ pos) :
    splitLoop pos len p rest = .ok ((p :: rest).dropLast, []) := by
  induction rest generalizing len p with
  | nil => rfl
  | cons q rest ih =>
    rw [chainSum_cons] at h1
    have := chainSum_nonneg (q :: rest)
    unfold splitLoop
    rw [pointDist_fun, if_neg (by linarith), ih (len + Spec.dist p q) q (by linarith)]
    rfl

theorem pointAtLoop_spec (pos : ℝ) (rest : List (P2 ℝ)) (len : ℝ) (i : Nat) (k : Nat) (p : P2 ℝ)
    (h0 : len ≤ pos) (h1 : pos < len + chainSum Spec.dist (p :: rest)) :
    ∃ j o l A B r, pointAtLoop pos len i (k, none) p rest = .ok (i + j, o) ∧
      p :: rest = l ++ A :: B :: r ∧ l.length = j ∧
      ((o = none ∧ chainSum Spec.dist (l ++ [A]) = pos - len) ∨
        ∃ S, o = some S ∧ InsideSegment A B S ∧ chainSum Spec.dist (l ++ [A, S]) = pos - len) := by
  induction rest generalizing len i k p with
  | nil => rw [chainSum_single] at h1; linarith
  | cons q rest ih =>
    rw [chainSum_cons] at h1
    unfold pointAtLoop
    rw [pointDist_fun]
    by_cases hg : len + Spec.dist p q > pos
    · rw [if_pos hg]
      by_cases hl : len + Spec.dist p q - pos < Spec.dist p q
      · rw [if_pos hl]
        obtain ⟨t, ht, t0, t1, t2, t3⟩ := stepBack_spec (p := p) (q := q)
          (l := len + Spec.dist p q - pos) (by linarith) hl
        refine ⟨0, some (p + t • (q - p)), [], p, q, rest, by rw [ht]; rfl, rfl, rfl, Or.inr
          ⟨_, rfl, ⟨t, t0, t2 (by linarith), rfl⟩, ?_⟩⟩
        rw [List.nil_append, chainSum_cons, chainSum_single, dist_along p q t t0.le, t3]; ring
      · rw [if_neg hl]
        have : pos = len := by linarith
        subst this
        exact ⟨0, none, [], p, q, rest, rfl, rfl, rfl, Or.inl ⟨rfl, by
          rw [List.nil_append, chainSum_single]; ring⟩⟩
    · rw [if_neg hg]
      obtain ⟨j, o, l, A, B, r, k1, k2, k3, k4⟩ :=
        ih (len + Spec.dist p q) (i + 1) i q (by linarith) (by linarith)
      refine ⟨j + 1, o, p :: l, A, B, r, by rw [k1]; congr 2; omega, by rw [k2]; rfl,
        by simp [k3], ?_⟩
      have hd : ∀ m : List (P2 ℝ), chainSum Spec.dist (p :: (l ++ A :: m)) =
          Spec.dist p q + chainSum Spec.dist (l ++ A :: m) := by
        intro m
        cases l with
        | nil =>
          rw [List.nil_append] at k2 ⊢
          rw [chainSum_cons, (List.cons.inj k2).1]
        | cons x l =>
          rw [List.cons_append] at k2 ⊢
          rw [chainSum_cons, (List.cons.inj k2).1]
      rcases k4 with ⟨k4, k5⟩ | ⟨S, k4, k5, k6⟩
      · exact Or.inl ⟨k4, by rw [List.cons_append, hd, k5]; ring⟩
      · exact Or.inr ⟨S, k4, k5, by rw [List.cons_append, hd, k6]; ring⟩

theorem midLengths_sorted (rest : List (P2 ℝ)) (len : ℝ) (p : P2 ℝ) :
    (midLengths len p rest).Pairwise (· ≤ ·) ∧ ∀ x ∈ midLengths len p rest, len ≤ x := by
  induction rest generalizing len p with
  | nil => simp [midLengths]
  | cons q rest ih =>
    obtain ⟨h1, h2⟩ := ih (len + pointDist p q) q
    have hd : 0 ≤ pointDist p q := by rw [pointDist_fun]; exact dist_nonneg' p q
    refine ⟨List.pairwise_cons.mpr ⟨h2, h1⟩, fun x hx => ?_⟩
    rcases List.mem_cons.mp hx with rfl | hx
    · linarith
    · have := h2 x hx; linarith

theorem midLengths_last (rest : List (P2 ℝ)) (len : ℝ) (p : P2 ℝ) (d : ℝ) (h : rest ≠ []) :
    (midLengths len p rest).getLast?.getD d = len + chainSum Spec.dist (p :: rest) := by
  induction rest generalizing len p with
  | nil => exact absurd rfl h
  | cons q rest ih =>
    rw [chainSum_cons, midLengths, pointDist_fun]
    cases rest with
    | nil => simp [midLengths, chainSum_single]
    | cons r rest =>
      rw [← pointDist_fun]
      have := ih (len + pointDist p q) q (by simp)
      rw [midLengths] at this ⊢
      rw [List.getLast?_cons_cons, this, pointDist_fun]; ring

/-- The vertex after the first length that is not less than `pos`. -/
theorem midLengths_find (pos : ℝ) (rest : List (P2 ℝ)) (len : ℝ) (p : P2 ℝ) (h0 : len < pos)
    (h1 : pos ≤ len + chainSum Spec.dist (p :: rest)) :
    ∃ l A B r c, p :: rest = l ++ A :: B :: r ∧
      (midLengths len p rest).findIdx (fun x => !decide (x < pos)) = l.length ∧
      (midLengths len p rest)[l.length]? = some c ∧
      pos ≤ c ∧ c - Spec.dist A B < pos ∧
      c = len + chainSum Spec.dist (l ++ [A]) + Spec.dist A B ∧
      len + chainSum Spec.dist (p :: rest) = c + chainSum Spec.dist (B :: r) := by
  induction rest generalizing len p with
  | nil => rw [chainSum_single] at h1; linarith
  | cons q rest ih =>
    rw [chainSum_cons] at h1 ⊢
    rw [midLengths, pointDist_fun, List.findIdx_cons]
    by_cases hg : len + Spec.dist p q < pos
    · obtain ⟨l, A, B, r, c, k1, k2, k3, k4, k5, k6, k7⟩ :=
        ih (len + Spec.dist p q) q hg (by linarith)
      rw [show (!decide (len + Spec.dist p q < pos)) = false by simpa using hg, cond_false]
      refine ⟨p :: l, A, B, r, c, by rw [k1]; rfl, ?_, ?_, k4, k5, ?_, by linarith⟩
      · rw [k2]; rfl
      · rw [List.length_cons, List.getElem?_cons_succ]; exact k3
      · have hd : chainSum Spec.dist (p :: (l ++ [A])) =
            Spec.dist p q + chainSum Spec.dist (l ++ [A]) := by
          cases l with
          | nil =>
            rw [List.nil_append] at k1 ⊢
            rw [chainSum_cons, (List.cons.inj k1).1]
          | cons x l =>
            rw [List.cons_append] at k1 ⊢
            rw [chainSum_cons, (List.cons.inj k1).1]
        rw [List.cons_append, hd]; linarith
    · rw [show (!decide (len + Spec.dist p q < pos)) = true by simpa using hg, cond_true]
      exact ⟨[], p, q, rest, _, rfl, rfl, rfl, not_lt.mp hg, by linarith, by
        rw [List.nil_append, chainSum_single]; ring, by ring⟩

theorem characteristics_after (cmp : Cmp ℝ) (p : P2 ℝ) (rest : List (P2 ℝ)) (len post : ℝ) (k i : Nat)
    (a : P2 ℝ) : characteristicsLoop cmp p len post (some k) i a rest =
      (len, post + chainSum Spec.dist (a :: rest), some k) := by
  induction rest generalizing post i a with
  | nil => simp [characteristicsLoop, chainSum_single]
  | cons b rest ih =>
    rw [characteristicsLoop, ih, chainSum_cons, pointDist_fun, add_assoc]

theorem characteristics_none (p : P2 ℝ) (rest : List (P2 ℝ)) (len post : ℝ) (i : Nat) (a : P2 ℝ)
    (hc : (a :: rest).IsChain (· ≠ ·)) (h : ¬ OnPolyline (a :: rest) p) :
    characteristicsLoop Cmp.direct p len post none i a rest =
      (len + chainSum Spec.dist (a :: rest), post, none) := by
  induction rest generalizing len i a with
  | nil => simp [characteristicsLoop, chainSum_single]
  | cons b rest ih =>
    rw [List.isChain_cons_cons] at hc
    rw [onPolyline_cons, not_or, ← isBetween_iff_onSegment hc.1] at h
    rw [characteristicsLoop, if_pos (by simpa using h.1), ih _ _ b hc.2 h.2, chainSum_cons,
      pointDist_fun, add_assoc]

theorem characteristics_some (p : P2 ℝ) (rest : List (P2 ℝ)) (len : ℝ) (i : Nat) (a : P2 ℝ)
    (hc : (a :: rest).IsChain (· ≠ ·)) (h : OnPolyline (a :: rest) p) :
    ∃ l A B r, a :: rest = l ++ A :: B :: r ∧ OnSegment A B p ∧ ¬ OnPolyline (l ++ [A]) p ∧
    characteristicsLoop Cmp.direct p len 0 none i a rest =
      (len + chainSum Spec.dist (l ++ [A, p]), chainSum Spec.dist (p :: B :: r), some (i + l.length)) := by
  induction rest generalizing len i a with
  | nil => exact absurd h (onPolyline_single _ _)
  | cons b rest ih =>
    rw [List.isChain_cons_cons] at hc
    rw [characteristicsLoop]
    by_cases hb : OnSegment a b p
    · have hb' := (isBetween_iff_onSegment hc.1).mpr hb
      refine ⟨[], a, b, rest, rfl, hb, onPolyline_single _ _, ?_⟩
      rw [if_neg (by simp [hb']), characteristics_after, List.nil_append, chainSum_cons, chainSum_single,
        chainSum_cons, pointDist_fun, zero_add, add_zero, List.length_nil, add_zero]
    · have hb' := (isBetween_iff_onSegment hc.1).not.mpr hb
      rw [onPolyline_cons] at h
      obtain ⟨l, A, B, r, k1, k2, k3, k4⟩ :=
        ih (len + pointDist a b) (i + 1) b hc.2 (h.resolve_left hb)
      have hd : ∀ m : List (P2 ℝ), chainSum Spec.dist (a :: (l ++ A :: m)) =
          Spec.dist a b + chainSum Spec.dist (l ++ A :: m) := by
        intro m
        cases l with
        | nil =>
          rw [List.nil_append] at k1 ⊢
          rw [chainSum_cons, (List.cons.inj k1).1]
        | cons x l =>
          rw [List.cons_append] at k1 ⊢
          rw [chainSum_cons, (List.cons.inj k1).1]
      refine ⟨a :: l, A, B, r, by rw [k1]; rfl, k2, ?_, ?_⟩
      · cases l with
        | nil =>
          rw [List.nil_append] at k1
          rw [List.cons_append, List.nil_append, onPolyline_cons, ← (List.cons.inj k1).1]
          rintro (h | h)
          · exact hb h
          · exact onPolyline_single _ _ h
        | cons x l =>
          rw [List.cons_append] at k1 k3 ⊢
          rw [List.cons_append, onPolyline_cons, ← (List.cons.inj k1).1]
          rintro (h | h)
          · exact hb h
          · rw [(List.cons.inj k1).1] at h; exact k3 h
      · rw [if_pos (by simpa using hb'), k4, List.cons_append, hd, pointDist_fun, List.length_cons,
          show i + 1 + l.length = i + (l.length + 1) by omega]
        congr 1; ring

end Geometrix
