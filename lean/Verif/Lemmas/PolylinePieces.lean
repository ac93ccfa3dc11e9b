import Verif.Lemmas.PolylineCut

set_option linter.unusedSectionVars false

namespace Geometrix

open Spec

variable {K : Type*} [Field K] [LinearOrder K] [IsStrictOrderedRing K] [DecidableEq (P2 K)]

theorem noRepeats_cons (a b : P2 K) (l : List (P2 K)) :
    noRepeats (a :: b :: l) = if a = b then noRepeats (b :: l) else a :: noRepeats (b :: l) := rfl

theorem foldl_pushPoint (l : List (P2 K)) : ∀ (pre : List (P2 K)) (a : P2 K),
    l.foldl (pushPoint Cmp.direct) (pre ++ [a]) = pre ++ noRepeats (a :: l) := by
  induction l with
  | nil => intro pre a; rfl
  | cons b l ih =>
    intro pre a
    rw [List.foldl_cons, noRepeats_cons]
    have e : pushPoint Cmp.direct (pre ++ [a]) b = if a = b then pre ++ [a] else pre ++ [a] ++ [b] := by
      unfold pushPoint
      simp only [List.getLast?_concat]
      by_cases h : a = b
      · rw [if_pos ((seqEquals_direct b a).2 h.symm), if_pos h]
      · rw [if_neg (fun hh => h ((seqEquals_direct b a).1 hh).symm), if_neg h]
    rw [e]
    by_cases h : a = b
    · rw [if_pos h, if_pos h, ih, h]
    · rw [if_neg h, if_neg h, ih]
      simp

theorem foldl_pushPoint' (l : List (P2 K)) (a : P2 K) :
    l.foldl (pushPoint Cmp.direct) [a] = noRepeats (a :: l) := foldl_pushPoint l [] a

/-- The pieces, without repeats, of which only those with more than one point are kept. -/
def kept (l : List (List (P2 K))) : List (List (P2 K)) := (l.map noRepeats).filter fun p => 1 < p.length

theorem kept_cons (p : List (P2 K)) (l : List (List (P2 K))) : kept (p :: l) = keepPiece (noRepeats p) (kept l) := by
  unfold kept keepPiece
  rw [List.map_cons, List.filter_cons]
  by_cases h : 1 < (noRepeats p).length <;> simp [h]

theorem piecesOf_mark (p q : P2 K) (m : Bool) (l : List (P2 K × Bool)) :
    piecesOf ((p, m) :: l) = piecesOf ((p, false) :: l) := by
  cases l with
  | nil => rfl
  | cons a l => rfl

theorem piecesOf_run (ps : List (P2 K)) : ∀ (x y : P2 K) (m : Bool) (l : List (P2 K × Bool)),
    piecesOf ((x, m) :: ((ps.map fun p => (p, false)) ++ (y, true) :: l)) =
      (x :: (ps ++ [y])) :: piecesOf ((y, true) :: l) := by
  induction ps with
  | nil => intro x y m l; simp [piecesOf]
  | cons p ps ih =>
    intro x y m l
    rw [List.map_cons, List.cons_append, piecesOf, ih]
    simp

theorem piecesOf_end (ps : List (P2 K)) : ∀ (x : P2 K) (m : Bool),
    piecesOf ((x, m) :: (ps.map fun p => (p, false))) = [x :: ps] := by
  induction ps with
  | nil => intro x m; rfl
  | cons p ps ih =>
    intro x m
    rw [List.map_cons, piecesOf, ih]
    simp

theorem withCuts_nil (l : List (P2 K)) : ∀ i, withCuts ([] : List (Nat × P2 K)) i l = l.map fun p => (p, false) := by
  induction l with
  | nil => intro i; rfl
  | cons p l ih => intro i; simp [withCuts, ih]

/-- A cut with an earlier number does not matter. -/
theorem withCuts_skip (c : Nat × P2 K) (cuts : List (Nat × P2 K)) (l : List (P2 K)) : ∀ i, c.1 < i →
    withCuts (c :: cuts) i l = withCuts cuts i l := by
  induction l with
  | nil => intro i h; rfl
  | cons p l ih =>
    intro i h
    rw [withCuts, withCuts, ih (i + 1) (by omega), List.filter_cons, if_neg (by simp; omega)]

/-- Up to the first cut there are only vertices. -/
theorem withCuts_first (c : Nat × P2 K) (cuts : List (Nat × P2 K)) (hs : ∀ d ∈ cuts, c.1 ≤ d.1) (l : List (P2 K)) :
    ∀ i, i ≤ c.1 → c.1 - i < l.length → withCuts (c :: cuts) i l =
      ((l.take (c.1 - i + 1)).map fun p => (p, false)) ++ (c.2, true) ::
        (((cuts.filter fun d => d.1 = c.1).map fun d => (d.2, true)) ++
          withCuts cuts (c.1 + 1) (l.drop (c.1 - i + 1))) := by
  induction l with
  | nil => intro i hi hl; simp at hl
  | cons p l ih =>
    intro i hi hl
    by_cases he : i = c.1
    · subst he
      rw [withCuts, withCuts_skip _ _ _ _ (by omega), List.filter_cons, if_pos (by simp)]
      simp
    · rw [withCuts, ih (i + 1) (by omega) (by simp at hl; omega)]
      have hf : (c :: cuts).filter (fun d => decide (d.1 = i)) = [] := by
        rw [List.filter_eq_nil_iff]
        intro d hd
        rcases List.mem_cons.1 hd with rfl | hd
        · simp; omega
        · have := hs d hd
          simp; omega
      have e : c.1 - i = c.1 - (i + 1) + 1 := by omega
      rw [hf, e]
      simp

theorem cutLoop_spec (pline : List (P2 K)) (cuts : List (Nat × P2 K)) : ∀ (last : Nat) (x : P2 K),
    cuts.Pairwise (fun a b => a.1 ≤ b.1) → (∀ c ∈ cuts, last ≤ c.1 ∧ c.1 < pline.length) →
    cutLoop Cmp.direct pline last x cuts = .ok (kept (piecesOf ((x, false) ::
      (((cuts.filter fun d => d.1 = last).map fun d => (d.2, true)) ++
        withCuts cuts (last + 1) (pline.drop (last + 1)))))) := by
  induction cuts with
  | nil =>
    intro last x _ _
    unfold cutLoop
    rw [withCuts_nil, foldl_pushPoint', List.filter_nil, List.map_nil, List.nil_append, piecesOf_end, kept_cons]
    rfl
  | cons c cuts ih =>
    obtain ⟨c, y⟩ := c
    intro last x hs hc
    rw [List.pairwise_cons] at hs
    obtain ⟨h1, h2⟩ := hc (c, y) List.mem_cons_self
    dsimp only at h1 h2
    have hc' : ∀ d ∈ cuts, c ≤ d.1 ∧ d.1 < pline.length := fun d hd =>
      ⟨hs.1 d hd, (hc d (List.mem_cons_of_mem _ hd)).2⟩
    have hr : rangePoints pline (last + 1) (c - last) = .ok ((pline.drop (last + 1)).take (c - last)) := by
      unfold rangePoints
      rw [if_pos (by omega)]
    have e : piecesOf ((x, false) :: ((((c, y) :: cuts).filter fun d => d.1 = last).map (fun d => (d.2, true)) ++
        withCuts ((c, y) :: cuts) (last + 1) (pline.drop (last + 1)))) =
        (x :: ((pline.drop (last + 1)).take (c - last) ++ [y])) :: piecesOf ((y, true) ::
          (((cuts.filter fun d => d.1 = c).map fun d => (d.2, true)) ++
            withCuts cuts (c + 1) (pline.drop (c + 1)))) := by
      by_cases he : c = last
      · subst he
        rw [withCuts_skip _ _ _ _ (by simp), List.filter_cons, if_pos (by simp)]
        simp [piecesOf]
      · have hf : ((c, y) :: cuts).filter (fun d => decide (d.1 = last)) = [] := by
          rw [List.filter_eq_nil_iff]
          intro d hd
          rcases List.mem_cons.1 hd with rfl | hd
          · simp; omega
          · have := hs.1 d hd
            simp at this ⊢; omega
        rw [hf, List.map_nil, List.nil_append, withCuts_first (c, y) cuts hs.1 _ (last + 1) (by dsimp only; omega)
          (by simp; omega)]
        dsimp only
        have e1 : c - (last + 1) + 1 = c - last := by omega
        rw [e1, piecesOf_run, List.drop_drop]
        have e2 : last + 1 + (c - last) = c + 1 := by omega
        rw [e2]
    rw [e, piecesOf_mark y y true, kept_cons]
    simp only [cutLoop, hr, ih c y hs.2 hc', foldl_pushPoint']

theorem splitPolyline_spec {pline : List (P2 K)} {cuts : List (Nat × P2 K)} (hn : cuts ≠ [])
    (hs : cuts.Pairwise fun a b => a.1 ≤ b.1) (hc : ∀ c ∈ cuts, c.1 < pline.length) :
    splitPolyline Cmp.direct cuts pline = .ok (kept (piecesOf (withCuts cuts 0 pline))) := by
  cases cuts with
  | nil => exact absurd rfl hn
  | cons c cuts =>
    cases pline with
    | nil => have := hc c List.mem_cons_self; simp at this
    | cons p l =>
      have := cutLoop_spec (p :: l) (c :: cuts) 0 p hs fun d hd => ⟨Nat.zero_le _, hc d hd⟩
      exact this

/-! ## The points of the pieces -/

/-- The points of the edges; of a single point, that point. -/
def Cov : List (P2 K) → P2 K → Prop
  | [], _ => False
  | [a], X => X = a
  | a :: b :: l, X => OnSegment a b X ∨ Cov (b :: l) X

theorem cov_head (a : P2 K) (l : List (P2 K)) : Cov (a :: l) a := by
  cases l with
  | nil => rfl
  | cons b l => exact Or.inl (onSegment_left a b)

theorem cov_onPolyline {l : List (P2 K)} (h : 1 < l.length) (X : P2 K) : Cov l X ↔ OnPolyline l X := by
  induction l with
  | nil => simp at h
  | cons a l ih =>
    cases l with
    | nil => simp at h
    | cons b l =>
      have hstep : OnPolyline (a :: b :: l) X ↔ OnSegment a b X ∨ OnPolyline (b :: l) X := by
        constructor
        · rintro ⟨i, A, B, he, hX⟩
          cases i with
          | zero =>
            obtain ⟨rfl, rfl⟩ := edge_zero_iff.1 he
            exact Or.inl hX
          | succ i => exact Or.inr ⟨i, A, B, edge_succ_iff.1 he, hX⟩
        · rintro (hX | ⟨i, A, B, he, hX⟩)
          · exact ⟨0, a, b, ⟨rfl, rfl⟩, hX⟩
          · exact ⟨i + 1, A, B, edge_succ_iff.2 he, hX⟩
      rw [hstep]
      cases l with
      | nil =>
        constructor
        · rintro (h | h)
          · exact Or.inl h
          · have h' : X = b := h
            rw [h']; exact Or.inl (onSegment_right a b)
        · rintro (h | ⟨i, A, B, ⟨-, he⟩, -⟩)
          · exact Or.inl h
          · simp at he
      | cons c l =>
        have := ih (by simp)
        constructor
        · rintro (h | h)
          · exact Or.inl h
          · exact Or.inr (this.1 h)
        · rintro (h | h)
          · exact Or.inl h
          · exact Or.inr (this.2 h)

theorem noRepeats_head (a : P2 K) (l : List (P2 K)) : ∃ t, noRepeats (a :: l) = a :: t := by
  induction l generalizing a with
  | nil => exact ⟨[], rfl⟩
  | cons b l ih =>
    rw [noRepeats_cons]
    by_cases h : a = b
    · rw [if_pos h, h]; exact ih b
    · rw [if_neg h]; exact ⟨_, rfl⟩

theorem cov_noRepeats (l : List (P2 K)) (X : P2 K) : Cov (noRepeats l) X ↔ Cov l X := by
  induction l with
  | nil => rfl
  | cons a l ih =>
    cases l with
    | nil => rfl
    | cons b l =>
      rw [noRepeats_cons]
      by_cases h : a = b
      · subst h
        rw [if_pos rfl, ih]
        constructor
        · exact Or.inr
        · rintro (h | h)
          · rw [(onSegment_point a X).1 h]; exact cov_head a l
          · exact h
      · rw [if_neg h]
        obtain ⟨t, ht⟩ := noRepeats_head b l
        rw [ht] at ih ⊢
        change (OnSegment a b X ∨ Cov (b :: t) X) ↔ (OnSegment a b X ∨ Cov (b :: l) X)
        rw [ih]

theorem piecesOf_head (p : P2 K) (m : Bool) (l : List (P2 K × Bool)) :
    ∃ r rs, piecesOf ((p, m) :: l) = (p :: r) :: rs := by
  induction l generalizing p m with
  | nil => exact ⟨[], [], rfl⟩
  | cons q l ih =>
    obtain ⟨q, n⟩ := q
    rw [piecesOf]
    cases n with
    | true => exact ⟨_, _, rfl⟩
    | false =>
      obtain ⟨r, rs, e⟩ := ih q false
      rw [e]
      exact ⟨_, _, rfl⟩

/-- The kept pieces, and the point the first one begins with, together have the points of the whole. -/
theorem cov_kept (p : P2 K) (m : Bool) (l : List (P2 K × Bool)) (X : P2 K) :
    Cov (((p, m) :: l).map Prod.fst) X ↔ X = p ∨ ∃ q ∈ kept (piecesOf ((p, m) :: l)), Cov q X := by
  induction l generalizing p m with
  | nil => simp [piecesOf, kept, Cov, noRepeats]
  | cons q l ih =>
    obtain ⟨q, n⟩ := q
    have hstep : Cov (((p, m) :: (q, n) :: l).map Prod.fst) X ↔
        OnSegment p q X ∨ X = q ∨ ∃ r ∈ kept (piecesOf ((q, n) :: l)), Cov r X := by
      rw [← ih]; rfl
    rw [hstep]
    have hq : X = q → OnSegment p q X := by rintro rfl; exact onSegment_right _ _
    have hp : X = p → OnSegment p q X := by rintro rfl; exact onSegment_left _ _
    obtain ⟨r, rs, er⟩ := piecesOf_head q n l
    cases n with
    | true =>
      rw [piecesOf, if_pos rfl, kept_cons]
      by_cases h : p = q
      · subst h
        have : keepPiece (noRepeats [p, p]) (kept (piecesOf ((p, true) :: l))) = kept (piecesOf ((p, true) :: l)) := by
          simp [noRepeats, keepPiece]
        rw [this, onSegment_point]
        tauto
      · have : keepPiece (noRepeats [p, q]) (kept (piecesOf ((q, true) :: l))) =
            [p, q] :: kept (piecesOf ((q, true) :: l)) := by
          simp [noRepeats, keepPiece, h]
        rw [this]
        simp only [List.mem_cons, exists_eq_or_imp, Cov]
        tauto
    | false =>
      rw [er, kept_cons]
      have e2 : piecesOf ((p, m) :: (q, false) :: l) = (p :: q :: r) :: rs := by
        rw [piecesOf, er]; simp
      rw [e2, kept_cons, noRepeats_cons]
      by_cases h : p = q
      · subst h
        rw [if_pos rfl, onSegment_point]
        tauto
      · rw [if_neg h]
        obtain ⟨t, ht⟩ := noRepeats_head q r
        rw [ht]
        have : keepPiece (p :: q :: t) (kept rs) = (p :: q :: t) :: kept rs := by simp [keepPiece]
        rw [this]
        have h3 : (X = q ∨ ∃ r ∈ keepPiece (q :: t) (kept rs), Cov r X) ↔ Cov (q :: t) X ∨ ∃ r ∈ kept rs, Cov r X := by
          unfold keepPiece
          split_ifs with hl
          · simp only [List.mem_cons, exists_eq_or_imp]
            have := cov_head q t
            constructor
            · rintro (h | h)
              · rw [h]; exact Or.inl this
              · exact h
            · exact Or.inr
          · have : t = [] := by
              cases t with
              | nil => rfl
              | cons a t => simp at hl
            subst this
            rfl
        rw [h3]
        simp only [List.mem_cons, exists_eq_or_imp]
        have h4 : Cov (p :: q :: t) X ↔ OnSegment p q X ∨ Cov (q :: t) X := Iff.rfl
        rw [h4]
        constructor
        · rintro (h | h | h)
          · exact Or.inr (Or.inl (Or.inl h))
          · exact Or.inr (Or.inl (Or.inr h))
          · exact Or.inr (Or.inr h)
        · rintro (h | (h | h) | h)
          · exact Or.inl (hp h)
          · exact Or.inl h
          · exact Or.inr (Or.inl h)
          · exact Or.inr (Or.inr h)

/-- Of two points of a segment, the one farther from the start is between the other and the end. -/
theorem between_further {A B X Y : P2 K} (hX : OnSegment A B X) (hY : OnSegment A B Y)
    (h : sqDist A X ≤ sqDist A Y) : OnSegment X B Y := by
  by_cases he : sqDist A X = sqDist A Y
  · rw [← same_of_dist hX hY he]
    exact onSegment_left X B
  · have hlt := lt_of_le_of_ne h he
    obtain ⟨s, s0, s1, rfl⟩ := hX
    obtain ⟨t, t0, t1, rfl⟩ := hY
    rw [sqDist_param, sqDist_param] at hlt
    have hst : s < t := by
      by_contra hc
      have h2 : t ^ 2 ≤ s ^ 2 := pow_le_pow_left₀ t0 (not_lt.1 hc) 2
      have h3 : 0 ≤ sqDist A B := by
        have : sqDist A B = (A.x - B.x) ^ 2 + (A.y - B.y) ^ 2 := by simp [sqDist]; try ring
        rw [this]; positivity
      have := mul_le_mul_of_nonneg_right h2 h3
      linarith
    have hs : 0 < 1 - s := by linarith
    refine ⟨(t - s) / (1 - s), div_nonneg (by linarith) hs.le, (div_le_one hs).2 (by linarith), ?_⟩
    ext <;> simp <;> field_simp <;> ring

theorem segment_glue {A B C : P2 K} (h : OnSegment A B C) (X : P2 K) :
    OnSegment A B X ↔ OnSegment A C X ∨ OnSegment C B X := by
  by_cases h1 : C = A
  · subst h1
    rw [onSegment_point]
    constructor
    · exact Or.inr
    · rintro (h | h)
      · rw [h]; exact onSegment_left _ _
      · exact h
  · by_cases h2 : C = B
    · subst h2
      rw [onSegment_point]
      constructor
      · exact Or.inl
      · rintro (h | h)
        · exact h
        · rw [h]; exact onSegment_right _ _
    · obtain ⟨s, s0, s1, hs⟩ := h
      refine onSegment_split ⟨s, lt_of_le_of_ne s0 ?_, lt_of_le_of_ne s1 ?_, hs⟩ X
      · rintro rfl; apply h1; rw [hs]; ext <;> simp
      · rintro rfl; apply h2; rw [hs]; ext <;> simp

/-- Points of an edge put in, in order. -/
theorem cov_insert (cs : List (P2 K)) (B : P2 K) (l : List (P2 K)) (X : P2 K) : ∀ A : P2 K,
    (∀ c ∈ cs, OnSegment A B c) → cs.Pairwise (fun c d => sqDist A c ≤ sqDist A d) →
    (Cov (A :: (cs ++ B :: l)) X ↔ Cov (A :: B :: l) X) := by
  induction cs with
  | nil => intro A _ _; rfl
  | cons c cs ih =>
    intro A hc hs
    rw [List.pairwise_cons] at hs
    have hcB := hc c List.mem_cons_self
    have h1 : ∀ d ∈ cs, OnSegment c B d := fun d hd =>
      between_further hcB (hc d (List.mem_cons_of_mem _ hd)) (hs.1 d hd)
    have h2 : cs.Pairwise (fun d e => sqDist c d ≤ sqDist c e) := by
      refine hs.2.imp_of_mem ?_
      intro d e hd he hde
      have hdc := h1 d hd
      have hd' := hc d (List.mem_cons_of_mem _ hd)
      have he' := hc e (List.mem_cons_of_mem _ he)
      obtain ⟨a, a0, a1, rfl⟩ := hdc
      obtain ⟨b, b0, b1, e1⟩ := between_further hd' he' hde
      have e2 : e = c + (a + b * (1 - a)) • (B - c) := by
        rw [e1]; ext <;> simp <;> ring
      rw [e2, sqDist_param, sqDist_param]
      have h3 : 0 ≤ sqDist c B := by
        have : sqDist c B = (c.x - B.x) ^ 2 + (c.y - B.y) ^ 2 := by simp [sqDist]; try ring
        rw [this]; positivity
      have h4 : 0 ≤ b * (1 - a) := mul_nonneg b0 (by linarith)
      exact mul_le_mul_of_nonneg_right (pow_le_pow_left₀ a0 (by linarith) 2) h3
    have h3 := ih c h1 h2
    change (OnSegment A c X ∨ Cov (c :: (cs ++ B :: l)) X) ↔ (OnSegment A B X ∨ Cov (B :: l) X)
    rw [h3, segment_glue hcB X, or_assoc]
    rfl

/-- Cut points on their edges and in order do not change the points of the polyline. -/
theorem cov_withCuts (cuts : List (Nat × P2 K)) (l : List (P2 K)) (X : P2 K) : ∀ i : Nat,
    (∀ c ∈ cuts, ∀ k, c.1 = i + k → ∃ A B, IsEdge l k A B ∧ OnSegment A B c.2) →
    (∀ k A, l[k]? = some A → (cuts.filter fun c => c.1 = i + k).Pairwise fun c d => sqDist A c.2 ≤ sqDist A d.2) →
    (Cov ((withCuts cuts i l).map Prod.fst) X ↔ Cov l X) := by
  induction l with
  | nil => intro i _ _; rfl
  | cons A l ih =>
    intro i h1 h2
    have h1' : ∀ c ∈ cuts, ∀ k, c.1 = i + 1 + k → ∃ A B, IsEdge l k A B ∧ OnSegment A B c.2 := by
      intro c hc k hk
      obtain ⟨A, B, he, hX⟩ := h1 c hc (k + 1) (by omega)
      exact ⟨A, B, edge_succ_iff.1 he, hX⟩
    have h2' : ∀ k A, l[k]? = some A →
        (cuts.filter fun c => c.1 = i + 1 + k).Pairwise fun c d => sqDist A c.2 ≤ sqDist A d.2 := by
      intro k A hk
      have := h2 (k + 1) A (by simpa using hk)
      have e : i + (k + 1) = i + 1 + k := by omega
      rw [e] at this
      exact this
    have h3 := ih (i + 1) h1' h2'
    cases l with
    | nil =>
      have hf : (cuts.filter fun c => decide (c.1 = i)) = [] := by
        rw [List.filter_eq_nil_iff]
        intro c hc
        simp only [decide_eq_true_iff]
        intro he
        obtain ⟨U, V, ⟨-, hV⟩, -⟩ := h1 c hc 0 (by omega)
        simp at hV
      rw [withCuts, hf]
      rfl
    | cons B l =>
      have e : (withCuts cuts i (A :: B :: l)).map Prod.fst =
          A :: (((cuts.filter fun c => c.1 = i).map Prod.snd) ++ B ::
            ((((cuts.filter fun c => c.1 = i + 1).map fun c => (c.2, true)) ++
              withCuts cuts (i + 1 + 1) l).map Prod.fst)) := by
        simp [withCuts]
      rw [e, cov_insert]
      · change (OnSegment A B X ∨ Cov ((withCuts cuts (i + 1) (B :: l)).map Prod.fst) X) ↔
          (OnSegment A B X ∨ Cov (B :: l) X)
        rw [h3]
      · intro c hc
        obtain ⟨d, hd, rfl⟩ := List.mem_map.1 hc
        rw [List.mem_filter, decide_eq_true_iff] at hd
        obtain ⟨U, V, he, hX⟩ := h1 d hd.1 0 (by omega)
        obtain ⟨rfl, rfl⟩ := edge_zero_iff.1 he
        exact hX
      · rw [List.pairwise_map]
        exact h2 0 A rfl

theorem cov_mem {l : List (P2 K)} {A : P2 K} (h : A ∈ l) : Cov l A := by
  induction l with
  | nil => simp at h
  | cons a l ih =>
    rcases List.mem_cons.1 h with rfl | h
    · exact cov_head A l
    · cases l with
      | nil => simp at h
      | cons b l => exact Or.inr (ih h)

theorem kept_first (p : P2 K) (m : Bool) (l : List (P2 K × Bool)) :
    kept (piecesOf ((p, m) :: l)) = [] ∨ ∃ t rs, kept (piecesOf ((p, m) :: l)) = (p :: t) :: rs := by
  induction l generalizing p m with
  | nil => left; simp [piecesOf, kept, noRepeats]
  | cons q l ih =>
    obtain ⟨q, n⟩ := q
    obtain ⟨r, rs, er⟩ := piecesOf_head q n l
    cases n with
    | true =>
      rw [piecesOf, if_pos rfl, kept_cons]
      by_cases h : p = q
      · subst h
        have : keepPiece (noRepeats [p, p]) (kept (piecesOf ((p, true) :: l))) = kept (piecesOf ((p, true) :: l)) := by
          simp [noRepeats, keepPiece]
        rw [this]
        exact ih p true
      · right
        exact ⟨[q], kept (piecesOf ((q, true) :: l)), by simp [noRepeats, keepPiece, h]⟩
    | false =>
      have e2 : piecesOf ((p, m) :: (q, false) :: l) = (p :: q :: r) :: rs := by
        rw [piecesOf, er]; simp
      rw [e2, kept_cons, noRepeats_cons]
      by_cases h : p = q
      · subst h
        rw [if_pos rfl, ← kept_cons, ← er]
        exact ih p false
      · rw [if_neg h]
        obtain ⟨t, ht⟩ := noRepeats_head q r
        right
        exact ⟨q :: t, kept rs, by rw [ht]; simp [keepPiece]⟩

/-- The pieces have the points of the polyline. -/
theorem pieces_cover {pline : List (P2 K)} {cuts : List (Nat × P2 K)}
    (h1 : ∀ c ∈ cuts, OnItsEdge pline c) (h2 : cuts.Pairwise (CutBefore pline))
    (h3 : ∃ A ∈ pline, ∃ B ∈ pline, A ≠ B) (X : P2 K) :
    OnPolyline pline X ↔ ∃ q ∈ kept (piecesOf (withCuts cuts 0 pline)), OnPolyline q X := by
  have hlen : 1 < pline.length := by
    obtain ⟨A, hA, B, hB, hAB⟩ := h3
    match pline, hA, hB with
    | [a], hA, hB => simp at hA hB; exact absurd (hA.trans hB.symm) hAB
    | a :: b :: l, _, _ => simp
  have hcov : ∀ X, Cov ((withCuts cuts 0 pline).map Prod.fst) X ↔ Cov pline X := by
    intro X
    refine cov_withCuts cuts pline X 0 ?_ ?_
    · intro c hc k hk
      obtain ⟨A, B, he, hX⟩ := h1 c hc
      rw [Nat.zero_add] at hk
      subst hk
      exact ⟨A, B, he, hX⟩
    · intro k A hk
      refine List.Pairwise.imp_of_mem ?_ (h2.filter _)
      intro c d hc hd h
      rw [List.mem_filter, decide_eq_true_iff] at hc hd
      rcases h with h | ⟨-, A', hA', h⟩
      · omega
      · rw [hc.2, Nat.zero_add, hk] at hA'
        cases hA'
        exact h.le
  have hmem : ∀ q ∈ kept (piecesOf (withCuts cuts 0 pline)), 1 < q.length := by
    intro q hq
    have := (List.mem_filter.1 hq).2
    simpa using this
  have hk : ∀ X, (∃ q ∈ kept (piecesOf (withCuts cuts 0 pline)), Cov q X) ↔
      ∃ q ∈ kept (piecesOf (withCuts cuts 0 pline)), OnPolyline q X := by
    intro X
    constructor
    · rintro ⟨q, hq, h⟩; exact ⟨q, hq, (cov_onPolyline (hmem q hq) X).1 h⟩
    · rintro ⟨q, hq, h⟩; exact ⟨q, hq, (cov_onPolyline (hmem q hq) X).2 h⟩
  cases pline with
  | nil => simp at hlen
  | cons p l =>
    have hw : withCuts cuts 0 (p :: l) = (p, false) ::
        (((cuts.filter fun c => c.1 = 0).map fun c => (c.2, true)) ++ withCuts cuts 1 l) := rfl
    have hmain : ∀ X, Cov (p :: l) X ↔ X = p ∨ ∃ q ∈ kept (piecesOf (withCuts cuts 0 (p :: l))), Cov q X := by
      intro X
      rw [← hcov X, hw, cov_kept]
    rw [← cov_onPolyline hlen, ← hk, hmain]
    constructor
    · rintro (rfl | h)
      · rcases kept_first X false (((cuts.filter fun c => c.1 = 0).map fun c => (c.2, true)) ++ withCuts cuts 1 l) with
          e | ⟨t, rs, e⟩
        · exfalso
          obtain ⟨A, hA, B, hB, hAB⟩ := h3
          rw [← hw] at e
          have hA' := (hmain A).1 (cov_mem hA)
          have hB' := (hmain B).1 (cov_mem hB)
          rw [e] at hA' hB'
          simp at hA' hB'
          exact hAB (hA'.trans hB'.symm)
        · rw [hw, e]
          exact ⟨_, List.mem_cons_self, cov_head X t⟩
      · exact h
    · exact Or.inr

theorem noRepeats_proper (l : List (P2 K)) : ProperEdges (noRepeats l) := by
  induction l with
  | nil => rintro i A B ⟨h, -⟩; simp [noRepeats] at h
  | cons a l ih =>
    cases l with
    | nil => rintro i A B ⟨-, h⟩; simp [noRepeats] at h
    | cons b l =>
      rw [noRepeats_cons]
      by_cases h : a = b
      · rw [if_pos h]; exact ih
      · rw [if_neg h]
        obtain ⟨t, ht⟩ := noRepeats_head b l
        rw [ht] at ih ⊢
        intro i A B he
        cases i with
        | zero =>
          obtain ⟨rfl, rfl⟩ := edge_zero_iff.1 he
          exact h
        | succ i => exact ih i A B (edge_succ_iff.1 he)

theorem kept_proper {l : List (List (P2 K))} {q : List (P2 K)} (h : q ∈ kept l) : ProperEdges q := by
  obtain ⟨p, -, rfl⟩ := List.mem_map.1 (List.mem_filter.1 h).1
  exact noRepeats_proper p

theorem liuKeep_spec {pline : List (P2 K)} (hp : ProperEdges pline) (pieces : List (List (P2 K)))
    (h : ∀ q ∈ pieces, ProperEdges q) : ∃ r, liuKeep Cmp.direct pline pieces = .ok r ∧
      ∀ q, q ∈ r ↔ q ∈ pieces ∧ ¬ ∃ i j, EdgesMeet q pline i j := by
  induction pieces with
  | nil => exact ⟨[], rfl, by simp⟩
  | cons q pieces ih =>
    obtain ⟨r, e, hr⟩ := ih fun q hq => h q (List.mem_cons_of_mem _ hq)
    obtain ⟨calls, -, -, -, b, f1, f2⟩ := C45_polyline_polyline_partial q pline (rejectVisitor pline.length) false
      (h q List.mem_cons_self) hp
    refine ⟨_, by simp only [liuKeep, f1, e]; rfl, ?_⟩
    intro p
    cases b with
    | true =>
      rw [if_pos rfl, hr, List.mem_cons]
      have := f2.1 rfl
      constructor
      · rintro ⟨h1, h2⟩; exact ⟨Or.inr h1, h2⟩
      · rintro ⟨rfl | h1, h2⟩
        · exact absurd this h2
        · exact ⟨h1, h2⟩
    | false =>
      have : ¬ ∃ i j, EdgesMeet q pline i j := fun hh => by simpa using f2.2 hh
      rw [if_neg (by simp), List.mem_cons, hr, List.mem_cons]
      constructor
      · rintro (rfl | ⟨h1, h2⟩)
        · exact ⟨Or.inl rfl, this⟩
        · exact ⟨Or.inr h1, h2⟩
      · rintro ⟨rfl | h1, h2⟩
        · exact Or.inl rfl
        · exact Or.inr ⟨h1, h2⟩

end Geometrix
