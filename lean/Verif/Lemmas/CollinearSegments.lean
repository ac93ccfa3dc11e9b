import Verif.Model.CollinearSegments
import Verif.Spec.CollinearSegments
import Verif.Lemmas.SegmentIntersection
import Verif.Lemmas.Lexicographic
import Verif.Props.Lexicographic

/-!
# Lemmas on sets of collinear segments

Everything is reduced to intervals of parameters on the common line.
-/

set_option linter.unusedSectionVars false

namespace Geometrix

open Spec

section Sets

variable {α β : Type*}

theorem setInsert_map (f : α → β) (lt : α → α → Bool) (lt' : β → β → Bool)
    (h : ∀ a b, lt' (f a) (f b) = lt a b) (S : List α) (x : α) :
    setInsert lt' (S.map f) (f x) = (setInsert lt S x).map f := by
  induction S with
  | nil => rfl
  | cons e r ih =>
    simp only [List.map_cons, setInsert, h]
    split_ifs <;> simp [ih]

theorem foldl_setInsert_map (f : α → β) (lt : α → α → Bool) (lt' : β → β → Bool)
    (h : ∀ a b, lt' (f a) (f b) = lt a b) (L S : List α) :
    (L.map f).foldl (setInsert lt') (S.map f) = (L.foldl (setInsert lt) S).map f := by
  induction L generalizing S with
  | nil => rfl
  | cons x r ih => simp only [List.map_cons, List.foldl_cons, setInsert_map f lt lt' h, ih]

theorem rangeBefore_map (f : α → β) (lt : α → α → Bool) (lt' : β → β → Bool)
    (h : ∀ a b, lt' (f a) (f b) = lt a b) (S : List α) (x : α) :
    rangeBefore lt' (S.map f) (f x) = (rangeBefore lt S x).map f := by
  simp only [rangeBefore, List.takeWhile_map, Function.comp_def, h]

theorem rangeEqual_map (f : α → β) (lt : α → α → Bool) (lt' : β → β → Bool)
    (h : ∀ a b, lt' (f a) (f b) = lt a b) (S : List α) (x : α) :
    rangeEqual lt' (S.map f) (f x) = (rangeEqual lt S x).map f := by
  simp only [rangeEqual, List.takeWhile_map, List.dropWhile_map, Function.comp_def, h]

theorem rangeAfter_map (f : α → β) (lt : α → α → Bool) (lt' : β → β → Bool)
    (h : ∀ a b, lt' (f a) (f b) = lt a b) (S : List α) (x : α) :
    rangeAfter lt' (S.map f) (f x) = (rangeAfter lt S x).map f := by
  simp only [rangeAfter, List.dropWhile_map, Function.comp_def, h]

theorem range_append (lt : α → α → Bool) (S : List α) (x : α) :
    rangeBefore lt S x ++ rangeEqual lt S x ++ rangeAfter lt S x = S := by
  simp only [rangeBefore, rangeEqual, rangeAfter, List.append_assoc, List.takeWhile_append_dropWhile]

theorem dropWhile_cons_head {p : α → Bool} {S r : List α} {a : α} (h : S.dropWhile p = a :: r) : p a = false := by
  induction S with
  | nil => simp at h
  | cons b S ih =>
    rw [List.dropWhile_cons] at h
    split_ifs at h with hb
    · exact ih h
    · injection h with h1 _; subst h1; simpa using hb

theorem takeWhile_mem {p : α → Bool} {S : List α} {a : α} (h : a ∈ S.takeWhile p) : p a = true := by
  induction S with
  | nil => simp at h
  | cons b S ih =>
    rw [List.takeWhile_cons] at h
    split_ifs at h with hb
    · rcases List.mem_cons.1 h with rfl | h
      · exact hb
      · exact ih h
    · simp at h

/-- In an ordered set the equal range consists of the equivalent elements. -/
theorem range_spec (lt : α → α → Bool) (htr : ∀ a b c, lt a b = true → lt b c = true → lt a c = true)
    {S : List α} (hS : S.Pairwise (fun a b => lt a b = true)) (x : α) :
    (∀ e ∈ rangeBefore lt S x, lt e x = true) ∧
    (∀ e ∈ rangeEqual lt S x, lt e x = false ∧ lt x e = false) ∧
    (∀ e ∈ rangeAfter lt S x, lt x e = true) := by
  have hD : (S.dropWhile (lt · x)).Pairwise (fun a b => lt a b = true) :=
    hS.sublist (List.dropWhile_sublist _)
  have hnot : ∀ e ∈ S.dropWhile (lt · x), lt e x = false := by
    cases hd : S.dropWhile (lt · x) with
    | nil => simp
    | cons a r =>
      have ha := dropWhile_cons_head hd
      intro e he
      rcases List.mem_cons.1 he with rfl | he
      · exact ha
      · rw [hd] at hD
        have := (List.pairwise_cons.1 hD).1 e he
        by_contra hc
        rw [Bool.not_eq_false] at hc
        rw [htr _ _ _ this hc] at ha
        exact absurd ha (by simp)
  refine ⟨fun e he => takeWhile_mem (p := (lt · x)) he, fun e he => ⟨hnot e ?_, ?_⟩, ?_⟩
  · exact List.takeWhile_sublist _ |>.subset he
  · have := takeWhile_mem (p := fun e => !lt x e) he
    simpa using this
  · unfold rangeAfter
    cases hd : (S.dropWhile (lt · x)).dropWhile (fun e => !lt x e) with
    | nil => simp
    | cons a r =>
      have ha := dropWhile_cons_head hd
      have ha' : lt x a = true := by simpa using ha
      have hP := hD.sublist (List.dropWhile_sublist (fun e => !lt x e))
      rw [hd] at hP
      intro e he
      rcases List.mem_cons.1 he with rfl | he
      · exact ha'
      · exact htr _ _ _ ha' ((List.pairwise_cons.1 hP).1 e he)

/-- Inserting an element that is comparable with all others. -/
theorem setInsert_spec (lt : α → α → Bool) (htr : ∀ a b c, lt a b = true → lt b c = true → lt a c = true)
    {S : List α} (hS : S.Pairwise (fun a b => lt a b = true)) (x : α)
    (hx : ∀ e ∈ S, lt e x = true ∨ lt x e = true) :
    (setInsert lt S x).Pairwise (fun a b => lt a b = true) ∧ (setInsert lt S x).Perm (x :: S) := by
  induction S with
  | nil => simp [setInsert]
  | cons e r ih =>
    obtain ⟨h1, h2⟩ := List.pairwise_cons.1 hS
    obtain ⟨i1, i2⟩ := ih h2 (fun e he => hx e (List.mem_cons_of_mem _ he))
    rw [setInsert]
    by_cases hc : lt e x = true
    · rw [if_pos hc]
      constructor
      · rw [List.pairwise_cons]
        refine ⟨fun y hy => ?_, i1⟩
        rcases List.mem_cons.1 (i2.mem_iff.1 hy) with rfl | hy
        · exact hc
        · exact h1 y hy
      · exact (i2.cons e).trans (List.Perm.swap x e r)
    · have hx' := (hx e List.mem_cons_self).resolve_left hc
      rw [if_neg hc, if_pos hx']
      refine ⟨List.pairwise_cons.2 ⟨fun y hy => ?_, hS⟩, List.Perm.refl _⟩
      rcases List.mem_cons.1 hy with rfl | hy
      · exact hx'
      · exact htr _ _ _ hx' (h1 y hy)

theorem foldl_setInsert_spec (lt : α → α → Bool) (htr : ∀ a b c, lt a b = true → lt b c = true → lt a c = true)
    (L : List α) {S : List α} (hS : S.Pairwise (fun a b => lt a b = true))
    (hL : L.Pairwise (fun a b => lt a b = true ∨ lt b a = true))
    (hLS : ∀ x ∈ L, ∀ e ∈ S, lt e x = true ∨ lt x e = true) :
    (L.foldl (setInsert lt) S).Pairwise (fun a b => lt a b = true) ∧
      (L.foldl (setInsert lt) S).Perm (L ++ S) := by
  induction L generalizing S with
  | nil => exact ⟨hS, List.Perm.refl _⟩
  | cons x r ih =>
    obtain ⟨h1, h2⟩ := List.pairwise_cons.1 hL
    obtain ⟨i1, i2⟩ := setInsert_spec lt htr hS x (hLS x List.mem_cons_self)
    obtain ⟨j1, j2⟩ := ih i1 h2 (by
      intro y hy e he
      rcases List.mem_cons.1 (i2.mem_iff.1 he) with rfl | he
      · exact h1 y hy
      · exact hLS y (List.mem_cons_of_mem _ hy) e he)
    refine ⟨j1, j2.trans ?_⟩
    exact (i2.append_left r).trans List.perm_middle

end Sets

variable {K : Type*} [Field K] [LinearOrder K] [IsStrictOrderedRing K]

/-- The order of the intervals. -/
def ltI (s t : K × K) : Bool := decide (max s.1 s.2 < min t.1 t.2)

/-- The segment with the given parameters. -/
def segAt (o v : P2 K) (s : K × K) : Seg K := ⟨o + s.1 • v, o + s.2 • v⟩

theorem ltI_iff (s t : K × K) : ltI s t = true ↔ ∀ x y, Btw s.1 s.2 x → Btw t.1 t.2 y → x < y := by
  unfold ltI Btw
  rw [decide_eq_true_iff]
  constructor
  · intro h x y hx hy; grind
  · intro h
    exact h _ _ (by grind) (by grind)

theorem btw_self (a b : K) : Btw a b a := by unfold Btw; grind

theorem ltI_trans (a b c : K × K) (h1 : ltI a b = true) (h2 : ltI b c = true) : ltI a c = true := by
  rw [ltI_iff] at *
  intro x y hx hy
  exact (h1 x b.1 hx (btw_self _ _)).trans (h2 b.1 y (btw_self _ _) hy)

/-- Intervals of which neither is below the other have a common point. -/
theorem exists_common_of_not_ltI {s t : K × K} (h1 : ltI s t = false) (h2 : ltI t s = false) :
    ∃ x, Btw s.1 s.2 x ∧ Btw t.1 t.2 x := by
  unfold ltI at h1 h2
  rw [decide_eq_false_iff_not, not_lt] at h1 h2
  refine ⟨max (min s.1 s.2) (min t.1 t.2), ?_, ?_⟩ <;> unfold Btw <;> grind

theorem lexLT_param {o v : P2 K} (hv : LexLT 0 v) (a b : K) : LexLT (o + a • v) (o + b • v) ↔ a < b := by
  unfold LexLT at *
  simp only [P2.add_x, P2.add_y, P2.smul_x, P2.smul_y] at *
  rcases hv with h | ⟨h, h'⟩
  · have h : 0 < v.x := h
    constructor
    · rintro (h1 | ⟨h1, h2⟩)
      · exact lt_of_mul_lt_mul_right (by linarith) h.le
      · have : a = b := mul_right_cancel₀ h.ne' (by linarith)
        subst this; exact absurd h2 (lt_irrefl _)
    · intro hab
      left
      have := mul_lt_mul_of_pos_right hab h
      linarith
  · have h : v.x = 0 := h.symm
    have h' : 0 < v.y := h'
    simp only [h, mul_zero, add_zero, lt_irrefl, true_and, false_or]
    constructor
    · intro h1; exact lt_of_mul_lt_mul_right (by linarith) h'.le
    · intro hab
      have := mul_lt_mul_of_pos_right hab h'
      linarith

theorem segmentIntervalCompare_param {o v : P2 K} (hv : LexLT 0 v) (s t : K × K) :
    segmentIntervalCompare Cmp.direct (segAt o v s) (segAt o v t) = ltI s t := by
  have key : ∀ p : K × K, lexCompare Cmp.direct (segAt o v p).s (segAt o v p).e = true ↔ p.1 < p.2 := by
    intro p; rw [lexCompare_iff]; exact lexLT_param hv _ _
  have hu : (if lexCompare Cmp.direct (segAt o v s).s (segAt o v s).e then (segAt o v s).e else (segAt o v s).s)
      = o + (max s.1 s.2) • v := by
    split_ifs with h
    · rw [max_eq_right ((key s).1 h).le]; rfl
    · rw [key s, not_lt] at h; rw [max_eq_left h]; rfl
  have hl : (if lexCompare Cmp.direct (segAt o v t).s (segAt o v t).e then (segAt o v t).s else (segAt o v t).e)
      = o + (min t.1 t.2) • v := by
    split_ifs with h
    · rw [min_eq_left ((key t).1 h).le]; rfl
    · rw [key t, not_lt] at h; rw [min_eq_right h]; rfl
  unfold segmentIntervalCompare
  simp only [hu, hl]
  rw [Bool.eq_iff_iff, lexCompare_iff, lexLT_param hv]
  simp [ltI]

theorem lex_ne_zero {v : P2 K} (hv : LexLT 0 v) : v ≠ 0 := by
  rintro rfl
  rcases hv with h | ⟨_, h⟩ <;> exact absurd h (lt_irrefl _)

theorem isCollinear_param (o v : P2 K) (a b c : K) :
    isCollinear Cmp.direct (o + a • v) (o + b • v) (o + c • v) = true := by
  simp only [isCollinear, direct_equals, cross, P2.sub_x, P2.sub_y, P2.add_x, P2.add_y, P2.smul_x, P2.smul_y,
    decide_eq_true_iff]
  ring

theorem seqEquals_param {o v : P2 K} (hv : v ≠ 0) (a b : K) :
    seqEquals Cmp.direct (o + a • v) (o + b • v) = decide (a = b) := by
  rw [Bool.eq_iff_iff, decide_eq_true_iff, seqEquals_direct, param_inj hv]

theorem isBetween_param' {o v : P2 K} (hv : v ≠ 0) {p q r : K} (hpq : p ≠ q) :
    isBetween Cmp.direct (o + p • v) (o + q • v) (o + r • v) true = decide (Btw p q r) := by
  rw [Bool.eq_iff_iff, decide_eq_true_iff, isBetween_param hv hpq]

/-- What the replacements of an interval must satisfy. -/
def Pieces (c d : K) (s : K × K) (L : List (K × K)) : Prop :=
  (∀ i ∈ L, i.1 ≠ i.2) ∧
  (∀ i ∈ L, ∀ x, Btw i.1 i.2 x → Btw s.1 s.2 x ∧ (Btw c d x → x = c ∨ x = d)) ∧
  (∀ x, Btw s.1 s.2 x → ¬ Btw c d x → ∃ i ∈ L, Btw i.1 i.2 x) ∧
  L.Pairwise (fun a b => ltI a b = true ∨ ltI b a = true)

theorem pieces_nil {c d : K} {s : K × K} (h : ∀ x, Btw s.1 s.2 x → Btw c d x) : Pieces c d s [] := by
  refine ⟨by simp, by simp, fun x hx hn => absurd (h x hx) hn, List.Pairwise.nil⟩

theorem pieces_one {c d : K} {s i : K × K} (h0 : i.1 ≠ i.2)
    (h1 : ∀ x, Btw i.1 i.2 x → Btw s.1 s.2 x ∧ (Btw c d x → x = c ∨ x = d))
    (h2 : ∀ x, Btw s.1 s.2 x → ¬ Btw c d x → Btw i.1 i.2 x) : Pieces c d s [i] := by
  refine ⟨by simpa using h0, by simpa using h1, fun x hx hn => ⟨i, by simp, h2 x hx hn⟩, by simp⟩

theorem pieces_two {c d : K} {s i j : K × K} (h0 : i.1 ≠ i.2) (h0' : j.1 ≠ j.2)
    (h1 : ∀ x, Btw i.1 i.2 x → Btw s.1 s.2 x ∧ (Btw c d x → x = c ∨ x = d))
    (h1' : ∀ x, Btw j.1 j.2 x → Btw s.1 s.2 x ∧ (Btw c d x → x = c ∨ x = d))
    (h2 : ∀ x, Btw s.1 s.2 x → ¬ Btw c d x → Btw i.1 i.2 x ∨ Btw j.1 j.2 x)
    (h3 : ltI i j = true ∨ ltI j i = true) : Pieces c d s [i, j] := by
  refine ⟨by simp [h0, h0'], ?_, fun x hx hn => ?_, by simpa using h3⟩
  · intro k hk
    simp only [List.mem_cons, List.not_mem_nil, or_false] at hk
    rcases hk with rfl | rfl
    · exact h1
    · exact h1'
  · rcases h2 x hx hn with h | h
    · exact ⟨i, by simp, h⟩
    · exact ⟨j, by simp, h⟩

/-- One step of the difference. -/
theorem differenceStep_spec {o v : P2 K} (hv : v ≠ 0) {c d : K} (hcd : c ≠ d) (s : K × K) (hs : s.1 ≠ s.2) :
    ∃ r : Option (List (K × K)),
      differenceStep Cmp.direct (o + c • v) (o + d • v) (segAt o v s) = .ok (r.map (List.map (segAt o v))) ∧
      (r = none → ∀ x, Btw s.1 s.2 x → Btw c d x → x = c ∨ x = d) ∧
      ∀ L, r = some L → Pieces c d s L := by
  obtain ⟨a, b⟩ := s
  simp only at hs
  have some_case : ∀ L : List (K × K), Pieces c d (a, b) L → ∃ r : Option (List (K × K)),
      (.ok (some (L.map (segAt o v))) : Res (Option (List (Seg K)))) = .ok (r.map (List.map (segAt o v))) ∧
      (r = none → ∀ x, Btw a b x → Btw c d x → x = c ∨ x = d) ∧ ∀ L, r = some L → Pieces c d (a, b) L := by
    intro L hL
    refine ⟨some L, rfl, by simp, ?_⟩
    intro M hM
    injection hM with hM
    exact hM ▸ hL
  have none_case : (∀ x, Btw a b x → Btw c d x → x = c ∨ x = d) → ∃ r : Option (List (K × K)),
      (.ok none : Res (Option (List (Seg K)))) = .ok (r.map (List.map (segAt o v))) ∧
      (r = none → ∀ x, Btw a b x → Btw c d x → x = c ∨ x = d) ∧ ∀ L, r = some L → Pieces c d (a, b) L := by
    intro h
    exact ⟨none, rfl, fun _ => h, by simp⟩
  unfold differenceStep
  simp only [segAt, isCollinear_param, Bool.and_self, Bool.not_true, seqEquals_param hv,
    isBetween_param' hv hcd, isBetween_param' hv hs]
  rw [if_neg (by simp)]
  by_cases h1 : (decide (Btw c d a) && decide (Btw c d b)) = true
  · rw [if_pos h1]
    simp only [Bool.and_eq_true, decide_eq_true_iff] at h1
    refine some_case [] (pieces_nil ?_)
    intro x hx
    simp only [Btw] at *; grind
  rw [if_neg h1]
  simp only [Bool.and_eq_true, decide_eq_true_iff] at h1
  by_cases h2 : (decide (Btw a b c) && decide (Btw a b d)) = true
  · rw [if_pos h2]
    simp only [Bool.and_eq_true, decide_eq_true_iff] at h2
    by_cases h3 : (isBetween Cmp.direct (o + c • v) (o + b • v) (o + d • v) true && !decide (b = c)) = true
    · rw [if_pos h3]
      simp only [Bool.and_eq_true, Bool.not_eq_true', decide_eq_false_iff_not] at h3
      obtain ⟨h3, hbc⟩ := h3
      rw [isBetween_param hv (Ne.symm hbc)] at h3
      rcases Bool.eq_false_or_eq_true (decide (a = c)) with hac | hac <;>
        rcases Bool.eq_false_or_eq_true (decide (b = d)) with hbd | hbd <;>
        simp only [hac, hbd, Bool.not_true, Bool.not_false, if_true, if_false, Bool.false_eq_true, List.nil_append,
          List.append_nil] <;>
        simp only [decide_eq_true_iff, decide_eq_false_iff_not] at hac hbd
      · exfalso; simp only [Btw] at *; grind
      · refine some_case [(d, b)] (pieces_one ?_ ?_ ?_) <;> simp only [Btw] at * <;> grind
      · refine some_case [(a, c)] (pieces_one ?_ ?_ ?_) <;> simp only [Btw] at * <;> grind
      · refine some_case [(a, c), (d, b)] (pieces_two ?_ ?_ ?_ ?_ ?_ ?_) <;>
          simp only [Btw, ltI, decide_eq_true_iff] at * <;> grind
    · rw [if_neg h3]
      have h3' : ¬ (b ≠ c ∧ Btw c b d) := by
        rintro ⟨hbc, h⟩
        apply h3
        simp only [Bool.and_eq_true, Bool.not_eq_true', decide_eq_false_iff_not]
        exact ⟨(isBetween_param hv (Ne.symm hbc)).2 h, hbc⟩
      have hac : a ≠ c := by simp only [Btw] at *; grind
      rw [isBetween_param' hv hac]
      have h4 : Btw a c d := by simp only [Btw] at *; grind
      rw [if_pos (by simp [h4, hac])]
      rcases Bool.eq_false_or_eq_true (decide (a = d)) with had | had <;>
        rcases Bool.eq_false_or_eq_true (decide (b = c)) with hbc | hbc <;>
        simp only [had, hbc, Bool.not_true, Bool.not_false, if_true, if_false, Bool.false_eq_true, List.nil_append,
          List.append_nil] <;>
        simp only [decide_eq_true_iff, decide_eq_false_iff_not] at had hbc
      · exfalso; simp only [Btw] at *; grind
      · refine some_case [(c, b)] (pieces_one ?_ ?_ ?_) <;> simp only [Btw] at * <;> grind
      · refine some_case [(a, d)] (pieces_one ?_ ?_ ?_) <;> simp only [Btw] at * <;> grind
      · refine some_case [(a, d), (c, b)] (pieces_two ?_ ?_ ?_ ?_ ?_ ?_) <;>
          simp only [Btw, ltI, decide_eq_true_iff] at * <;> grind
  · rw [if_neg h2]
    simp only [Bool.and_eq_true, decide_eq_true_iff, Bool.not_eq_true', Bool.or_eq_false_iff,
      decide_eq_false_iff_not] at *
    split_ifs with h3 h4 h5 h6 h7 h8
    · refine some_case [(d, b)] (pieces_one ?_ ?_ ?_) <;> simp only [Btw] at * <;> grind
    · refine some_case [(c, b)] (pieces_one ?_ ?_ ?_) <;> simp only [Btw] at * <;> grind
    · refine none_case ?_
      simp only [Btw] at *; grind
    · refine some_case [(a, d)] (pieces_one ?_ ?_ ?_) <;> simp only [Btw] at * <;> grind
    · refine some_case [(a, c)] (pieces_one ?_ ?_ ?_) <;> simp only [Btw] at * <;> grind
    · refine none_case ?_
      simp only [Btw] at *; grind
    · refine none_case ?_
      simp only [Btw] at *; grind

/-- One interval lies in another. -/
def SubI (i s : K × K) : Prop := ∀ x, Btw i.1 i.2 x → Btw s.1 s.2 x

theorem ltI_sub {i j s t : K × K} (hi : SubI i s) (hj : SubI j t) (h : ltI s t = true) : ltI i j = true := by
  rw [ltI_iff] at *
  exact fun x y hx hy => h x y (hi x hx) (hj y hy)

theorem SubI.refl (s : K × K) : SubI s s := fun _ h => h

/-- The loop of the difference. -/
theorem differenceLoop_spec {o v : P2 K} (hv : v ≠ 0) {c d : K} (hcd : c ≠ d) (T : List (K × K))
    (hT : ∀ s ∈ T, s.1 ≠ s.2) (hP : T.Pairwise (fun a b => ltI a b = true)) :
    ∃ kept ins : List (K × K),
      differenceLoop Cmp.direct (o + c • v) (o + d • v) (T.map (segAt o v)) =
        .ok (kept.map (segAt o v), ins.map (segAt o v)) ∧
      kept.Sublist T ∧
      (∀ e ∈ ins, e.1 ≠ e.2 ∧ ∃ s ∈ T, SubI e s) ∧
      (∀ e, e ∈ kept ∨ e ∈ ins → ∀ x, Btw e.1 e.2 x → Btw c d x → x = c ∨ x = d) ∧
      (∀ s ∈ T, ∀ x, Btw s.1 s.2 x → ¬ Btw c d x → ∃ e, (e ∈ kept ∨ e ∈ ins) ∧ Btw e.1 e.2 x) ∧
      ins.Pairwise (fun a b => ltI a b = true ∨ ltI b a = true) ∧
      ∀ x ∈ ins, ∀ e ∈ kept, ltI e x = true ∨ ltI x e = true := by
  induction T with
  | nil => exact ⟨[], [], rfl, List.Sublist.refl _, by simp, by simp, by simp, by simp, by simp⟩
  | cons s rest ih =>
    obtain ⟨p1, p2⟩ := List.pairwise_cons.1 hP
    obtain ⟨kept, ins, e, i1, i2, i3, i4, i5, i6⟩ := ih (fun s hs => hT s (List.mem_cons_of_mem _ hs)) p2
    obtain ⟨r, hr, r1, r2⟩ := differenceStep_spec (o := o) hv hcd s (hT s List.mem_cons_self)
    simp only [List.map_cons, differenceLoop, hr, e]
    cases r with
    | none =>
      refine ⟨s :: kept, ins, rfl, i1.cons_cons s, ?_, ?_, ?_, i5, ?_⟩
      · intro e he
        obtain ⟨h1, t, ht, h2⟩ := i2 e he
        exact ⟨h1, t, List.mem_cons_of_mem _ ht, h2⟩
      · intro e he
        rcases he with he | he
        · rcases List.mem_cons.1 he with rfl | he
          · exact r1 rfl
          · exact i3 e (Or.inl he)
        · exact i3 e (Or.inr he)
      · intro t ht x hx hn
        rcases List.mem_cons.1 ht with rfl | ht
        · exact ⟨t, Or.inl List.mem_cons_self, hx⟩
        · obtain ⟨e, he, h⟩ := i4 t ht x hx hn
          exact ⟨e, he.imp (List.mem_cons_of_mem _) id, h⟩
      · intro x hx e he
        rcases List.mem_cons.1 he with rfl | he
        · obtain ⟨_, t, ht, h2⟩ := i2 x hx
          exact Or.inl (ltI_sub (SubI.refl _) h2 (p1 t ht))
        · exact i6 x hx e he
    | some L =>
      obtain ⟨l1, l2, l3, l4⟩ := r2 L rfl
      refine ⟨kept, L ++ ins, ?_, i1.cons s, ?_, ?_, ?_, ?_, ?_⟩
      · simp only [Option.map_some, List.map_append]
      · intro e he
        rcases List.mem_append.1 he with he | he
        · exact ⟨l1 e he, s, List.mem_cons_self, fun x hx => (l2 e he x hx).1⟩
        · obtain ⟨h1, t, ht, h2⟩ := i2 e he
          exact ⟨h1, t, List.mem_cons_of_mem _ ht, h2⟩
      · intro e he
        rcases he with he | he
        · exact i3 e (Or.inl he)
        · rcases List.mem_append.1 he with he | he
          · exact fun x hx => (l2 e he x hx).2
          · exact i3 e (Or.inr he)
      · intro t ht x hx hn
        rcases List.mem_cons.1 ht with rfl | ht
        · obtain ⟨i, hi, h⟩ := l3 x hx hn
          exact ⟨i, Or.inr (List.mem_append_left _ hi), h⟩
        · obtain ⟨e, he, h⟩ := i4 t ht x hx hn
          exact ⟨e, he.imp id (List.mem_append_right _), h⟩
      · rw [List.pairwise_append]
        refine ⟨l4, i5, ?_⟩
        intro a ha b hb
        obtain ⟨_, t, ht, h2⟩ := i2 b hb
        exact Or.inl (ltI_sub (fun x hx => (l2 a ha x hx).1) h2 (p1 t ht))
      · intro x hx e he
        rcases List.mem_append.1 hx with hx | hx
        · exact Or.inr (ltI_sub (fun y hy => (l2 x hx y hy).1) (SubI.refl _) (p1 e (i1.subset he)))
        · exact i6 x hx e he

/-- One step of the union. -/
theorem unionStep_spec {o v : P2 K} (hv : v ≠ 0) (u s : K × K) (hu : u.1 ≠ u.2) (hs : s.1 ≠ s.2)
    (hc : ∃ x, Btw s.1 s.2 x ∧ Btw u.1 u.2 x) :
    ∃ w : K × K, unionStep Cmp.direct (segAt o v u) (segAt o v s) = .ok (some (segAt o v w)) ∧ w.1 ≠ w.2 ∧
      ∀ x, Btw w.1 w.2 x ↔ Btw s.1 s.2 x ∨ Btw u.1 u.2 x := by
  obtain ⟨a, b⟩ := s
  obtain ⟨c, d⟩ := u
  obtain ⟨x, hx1, hx2⟩ := hc
  simp only at hs hu hx1 hx2
  unfold unionStep
  simp only [segAt, isCollinear_param, Bool.and_self, Bool.not_true, isBetween_param' hv hu, isBetween_param' hv hs]
  rw [if_neg (by simp)]
  simp only [Bool.and_eq_true, decide_eq_true_iff]
  split_ifs with h1 h2 h3 h4 h5 h6 h7 h8
  · exact ⟨(c, d), rfl, hu, by simp only [Btw] at *; grind⟩
  · exact ⟨(a, b), rfl, hs, by simp only [Btw] at *; grind⟩
  · exact ⟨(c, b), rfl, by simp only [Btw] at *; grind, by simp only [Btw] at *; grind⟩
  · exact ⟨(d, b), rfl, by simp only [Btw] at *; grind, by simp only [Btw] at *; grind⟩
  · exfalso; simp only [Btw] at *; grind
  · exact ⟨(a, c), rfl, by simp only [Btw] at *; grind, by simp only [Btw] at *; grind⟩
  · exact ⟨(a, d), rfl, by simp only [Btw] at *; grind, by simp only [Btw] at *; grind⟩
  · exfalso; simp only [Btw] at *; grind
  · exfalso; simp only [Btw] at *; grind

/-- The loop of the union: all elements of the range are merged. -/
theorem unionLoop_spec {o v : P2 K} (hv : v ≠ 0) (T : List (K × K)) (u : K × K) (hu : u.1 ≠ u.2)
    (hT : ∀ s ∈ T, s.1 ≠ s.2 ∧ ∃ x, Btw s.1 s.2 x ∧ Btw u.1 u.2 x) :
    ∃ w : K × K, unionLoop Cmp.direct (segAt o v u) (T.map (segAt o v)) = .ok ([], segAt o v w) ∧ w.1 ≠ w.2 ∧
      ∀ x, Btw w.1 w.2 x ↔ Btw u.1 u.2 x ∨ ∃ s ∈ T, Btw s.1 s.2 x := by
  induction T generalizing u with
  | nil => exact ⟨u, rfl, hu, by simp⟩
  | cons s rest ih =>
    obtain ⟨h1, h2⟩ := hT s List.mem_cons_self
    obtain ⟨w, hw, hw0, hwx⟩ := unionStep_spec (o := o) hv u s hu h1 h2
    obtain ⟨w', e, hw0', hwx'⟩ := ih w hw0 (fun t ht => by
      obtain ⟨g1, x, g2, g3⟩ := hT t (List.mem_cons_of_mem _ ht)
      exact ⟨g1, x, g2, (hwx x).2 (Or.inr g3)⟩)
    refine ⟨w', ?_, hw0', ?_⟩
    · simp only [List.map_cons, unionLoop, hw, e]
    · intro x
      rw [hwx' x, hwx x]
      simp only [List.mem_cons, exists_eq_or_imp]
      tauto

/-- A line has a direction that is lexicographically positive. -/
theorem exists_lex_direction {o v : P2 K} {S : List (Seg K)} (h : AllOnLine o v S) :
    ∃ w : P2 K, LexLT 0 w ∧ (∀ a : K, ∃ b : K, o + a • w = o + b • v) ∧ ∃ T : List (K × K), S = T.map (segAt o w) := by
  obtain ⟨hv, h⟩ := h
  have key : ∃ w : P2 K, LexLT 0 w ∧ (∀ a : K, ∃ b : K, o + a • w = o + b • v) ∧
      ∀ a : K, ∃ b : K, o + a • v = o + b • w := by
    rcases lexLT_trichotomy (0 : P2 K) v with h1 | h1 | h1
    · exact ⟨v, h1, fun a => ⟨a, rfl⟩, fun a => ⟨a, rfl⟩⟩
    · exact absurd h1.symm hv
    · refine ⟨(-1 : K) • v, ?_, fun a => ⟨-a, ?_⟩, fun a => ⟨-a, ?_⟩⟩
      · rcases h1 with h1 | ⟨h1, h2⟩
        · left
          have h1 : v.x < 0 := h1
          show (0 : K) < -1 * v.x
          linarith
        · right
          have h1 : v.x = 0 := h1
          have h2 : v.y < 0 := h2
          show (0 : K) = -1 * v.x ∧ (0 : K) < -1 * v.y
          constructor <;> linarith
      · ext <;> simp
      · ext <;> simp
  obtain ⟨w, hw, hk', hk⟩ := key
  refine ⟨w, hw, hk', ?_⟩
  induction S with
  | nil => exact ⟨[], rfl⟩
  | cons s r ih =>
    obtain ⟨T, hT⟩ := ih (fun s hs => h s (List.mem_cons_of_mem _ hs))
    obtain ⟨⟨a, ha⟩, b, hb⟩ := h s List.mem_cons_self
    obtain ⟨a', ha'⟩ := hk a
    obtain ⟨b', hb'⟩ := hk b
    refine ⟨(a', b') :: T, ?_⟩
    rw [List.map_cons, ← hT]
    congr 1
    ext1
    · rw [ha, ha']; rfl
    · rw [hb, hb']; rfl

theorem onSegment_segAt {o v : P2 K} (hv : v ≠ 0) (s : K × K) (p : P2 K) :
    OnSegment (segAt o v s).s (segAt o v s).e p ↔ ∃ x : K, p = o + x • v ∧ Btw s.1 s.2 x := by
  constructor
  · intro h
    obtain ⟨t, _, _, rfl⟩ := id h
    have e : (segAt o v s).s + t • ((segAt o v s).e - (segAt o v s).s) = o + (s.1 + t * (s.2 - s.1)) • v := by
      ext <;> simp [segAt] <;> ring
    refine ⟨_, e, ?_⟩
    rw [e] at h
    exact (onSegment_param hv _ _ _).1 h
  · rintro ⟨x, rfl, h⟩
    exact (onSegment_param hv _ _ _).2 h

theorem covers_segAt {o v : P2 K} (hv : v ≠ 0) (T : List (K × K)) (p : P2 K) :
    Covers (T.map (segAt o v)) p ↔ ∃ x : K, p = o + x • v ∧ ∃ s ∈ T, Btw s.1 s.2 x := by
  unfold Covers
  simp only [List.mem_map, exists_exists_and_eq_and, onSegment_segAt hv]
  constructor
  · rintro ⟨s, hs, x, hp, h⟩; exact ⟨x, hp, s, hs, h⟩
  · rintro ⟨x, hp, s, hs, h⟩; exact ⟨s, hs, x, hp, h⟩

theorem insideSegment_param {o v : P2 K} (hv : v ≠ 0) (c d x : K) :
    InsideSegment (o + c • v) (o + d • v) (o + x • v) ↔ c ≠ d ∧ Btw c d x ∧ x ≠ c ∧ x ≠ d ∨ c = d ∧ x = c := by
  have key : ∀ t : K, o + x • v = o + c • v + t • (o + d • v - (o + c • v)) ↔ x = c + t * (d - c) := by
    intro t
    rw [show o + c • v + t • (o + d • v - (o + c • v)) = o + (c + t * (d - c)) • v by ext <;> simp <;> ring,
      param_inj hv]
  unfold InsideSegment
  simp only [key]
  constructor
  · rintro ⟨t, h0, h1, rfl⟩
    by_cases hcd : c = d
    · right; subst hcd; simp
    · left
      refine ⟨hcd, ?_, ?_, ?_⟩
      · unfold Btw
        rcases le_total c d with h | h
        · left; constructor <;> nlinarith
        · right; constructor <;> nlinarith
      · intro h
        have : t * (d - c) = 0 := by linear_combination h
        rcases mul_eq_zero.1 this with h | h
        · exact h0.ne' h
        · exact hcd (sub_eq_zero.1 h).symm
      · intro h
        have : (1 - t) * (d - c) = 0 := by linear_combination -h
        rcases mul_eq_zero.1 this with h | h
        · linarith
        · exact hcd (sub_eq_zero.1 h).symm
  · rintro (⟨hcd, hb, hc, hd⟩ | ⟨rfl, rfl⟩)
    · have hdc : d - c ≠ 0 := sub_ne_zero.2 (Ne.symm hcd)
      refine ⟨(x - c) / (d - c), ?_, ?_, by rw [div_mul_cancel₀ _ hdc]; ring⟩
      · rcases hb with ⟨h1, h2⟩ | ⟨h1, h2⟩
        · have := lt_of_le_of_ne h1 (Ne.symm hc)
          exact div_pos (by linarith) (by linarith)
        · have := lt_of_le_of_ne h2 hc
          exact div_pos_of_neg_of_neg (by linarith) (by linarith)
      · rcases hb with ⟨h1, h2⟩ | ⟨h1, h2⟩
        · have := lt_of_le_of_ne h1 (Ne.symm hc)
          have := lt_of_le_of_ne h2 hd
          rw [div_lt_one (by linarith)]; linarith
        · have := lt_of_le_of_ne h2 hc
          have := lt_of_le_of_ne h1 (Ne.symm hd)
          rw [div_lt_one_of_neg (by linarith)]; linarith
    · exact ⟨1 / 2, by norm_num, by norm_num, by ring⟩

theorem separateSegments_segAt {o v : P2 K} (hv : LexLT 0 v) (T : List (K × K)) :
    SeparateSegments (T.map (segAt o v)) ↔ (∀ s ∈ T, s.1 ≠ s.2) ∧ T.Pairwise (fun a b => ltI a b = true) := by
  unfold SeparateSegments
  simp only [← C04_interval_compare_iff]
  rw [List.pairwise_map]
  simp only [segmentIntervalCompare_param hv, List.mem_map, forall_exists_index, and_imp,
    forall_apply_eq_imp_iff₂]
  apply and_congr _ Iff.rfl
  refine forall₂_congr fun s _ => not_congr ?_
  exact param_inj (lex_ne_zero hv)

theorem allOnLine_segAt {o v w : P2 K} (hv : v ≠ 0) (hk : ∀ a : K, ∃ b : K, o + a • w = o + b • v)
    (T : List (K × K)) : AllOnLine o v (T.map (segAt o w)) := by
  refine ⟨hv, fun s hs => ?_⟩
  obtain ⟨t, _, rfl⟩ := List.mem_map.1 hs
  exact ⟨hk _, hk _⟩

end Geometrix
