import Verif.Model.PolygonSimple
import Verif.Spec.PolygonSimple
import Verif.Lemmas.PolylineIntersection
import Verif.Props.PolylineIntersection
import Verif.Lemmas.Memoize

/-!
# Lemmas on the test for simple polygons
-/

set_option linter.unusedSectionVars false

namespace Geometrix

open Spec

variable {K : Type*} [Field K] [LinearOrder K] [IsStrictOrderedRing K]

theorem anyRes_ok {α : Type*} (f : α → Res Bool) (g : α → Bool) (l : List α) (h : ∀ a ∈ l, f a = .ok (g a)) :
    anyRes f l = .ok (l.any g) := by
  induction l with
  | nil => rfl
  | cons a as ih =>
    simp only [anyRes, h a List.mem_cons_self, List.any_cons]
    cases hg : g a with
    | true => simp
    | false => simp [ih fun b hb => h b (List.mem_cons_of_mem _ hb)]

/-- The vertex with the number `i`. -/
def vert (P : List (P2 K)) (i : Nat) : P2 K := P[i]?.getD 0

/-- The edges `i` and `j` have a common point. -/
def EdgeTouch (P : List (P2 K)) (i j : Nat) : Prop :=
  ∃ X, Common (vert P i) (vert P ((i + 1) % P.length)) (vert P j) (vert P ((j + 1) % P.length)) X

theorem vert_get {P : List (P2 K)} {i : Nat} (h : i < P.length) : P[i]? = some (vert P i) := by
  unfold vert; rw [List.getElem?_eq_getElem h]; rfl

theorem isPolygonEdge_iff {P : List (P2 K)} {i : Nat} {A B : P2 K} :
    IsPolygonEdge P i A B ↔ i < P.length ∧ A = vert P i ∧ B = vert P ((i + 1) % P.length) := by
  unfold IsPolygonEdge
  constructor
  · rintro ⟨h1, h2⟩
    have hi : i < P.length := by
      by_contra h
      rw [List.getElem?_eq_none (by omega)] at h1
      cases h1
    have hm : (i + 1) % P.length < P.length := Nat.mod_lt _ (by omega)
    rw [vert_get hi] at h1
    rw [vert_get hm] at h2
    simp only [Option.some.injEq] at h1 h2
    exact ⟨hi, h1.symm, h2.symm⟩
  · rintro ⟨hi, rfl, rfl⟩
    have hm : (i + 1) % P.length < P.length := Nat.mod_lt _ (by omega)
    exact ⟨vert_get hi, vert_get hm⟩

theorem proper_vert {P : List (P2 K)} (h : ProperPolygon P) {i : Nat} (hi : i < P.length) :
    vert P i ≠ vert P ((i + 1) % P.length) := h i _ _ (isPolygonEdge_iff.2 ⟨hi, rfl, rfl⟩)

theorem edgeTouch_symm {P : List (P2 K)} {i j : Nat} : EdgeTouch P i j ↔ EdgeTouch P j i := by
  unfold EdgeTouch Common
  constructor <;> rintro ⟨X, h1, h2⟩ <;> exact ⟨X, h2, h1⟩

open Classical in
/-- The test for two edges. -/
theorem edgesHit_spec {P : List (P2 K)} (h : ProperPolygon P) {i j : Nat} (hi : i < P.length)
    (hj : j < P.length) :
    edgesHit Cmp.direct P i ((i + 1) % P.length) j ((j + 1) % P.length) = .ok (decide (EdgeTouch P i j)) := by
  have hm : ∀ k, (k + 1) % P.length < P.length := fun k => Nat.mod_lt _ (by omega)
  unfold edgesHit
  rw [vert_get hi, vert_get hj, vert_get (hm i), vert_get (hm j)]
  obtain ⟨ty, pts, hs, hc⟩ := C09_segment_segment _ _ _ _ (proper_vert h hi) (proper_vert h hj)
  simp only [hs]
  congr 1
  rw [decide_eq_decide, ne_eq, hc.nonCrossing, not_not]
  rfl

/-- The edges `i` and `j` are different and none follows the other. -/
def Apart (n i j : Nat) : Prop := i < n ∧ j < n ∧ i ≠ j ∧ (i + 1) % n ≠ j ∧ (j + 1) % n ≠ i

theorem next_cases {n i : Nat} (h : i < n) : (i + 1 < n ∧ (i + 1) % n = i + 1) ∨ (i + 1 = n ∧ (i + 1) % n = 0) := by
  by_cases h1 : i + 1 < n
  · exact Or.inl ⟨h1, Nat.mod_eq_of_lt h1⟩
  · have : i + 1 = n := by omega
    exact Or.inr ⟨this, by rw [this, Nat.mod_self]⟩

open Classical in
/-- `is_polygon_simple` looks at all pairs of edges that are apart. -/
theorem isPolygonSimple_spec {P : List (P2 K)} (h : ProperPolygon P) (hn : 2 < P.length) :
    isPolygonSimple Cmp.direct P = .ok (decide (∀ i j, Apart P.length i j → ¬ EdgeTouch P i j)) := by
  unfold isPolygonSimple
  simp only
  rw [if_neg (not_not.2 hn)]
  rw [anyRes_ok _ (fun ij : Nat × Nat => decide (EdgeTouch P ij.1 ij.2) &&
    !((ij.1 + 1) % P.length == ij.2 || (ij.2 + 1) % P.length == ij.1))]
  · simp only [Except.ok.injEq]
    rw [Bool.eq_iff_iff, Bool.not_eq_true', ← Bool.not_eq_true, List.any_eq_true]
    constructor
    · intro hany
      rw [decide_eq_true_iff]
      intro i j hap htouch
      obtain ⟨hi, hj, hne, a1, a2⟩ := hap
      -- put the smaller index first
      have key : ∀ i j, i < j → j < P.length → (i + 1) % P.length ≠ j → (j + 1) % P.length ≠ i →
          EdgeTouch P i j → False := by
        intro i j hij hj a1 a2 ht
        apply hany
        refine ⟨(i, j), ?_, ?_⟩
        · rw [List.mem_flatMap]
          have : i + 1 ≠ j := by
            intro h'
            rcases next_cases (show i < P.length by omega) with ⟨_, e⟩ | ⟨e, _⟩
            · exact a1 (by rw [e, h'])
            · omega
          refine ⟨i, by rw [List.mem_range]; omega, ?_⟩
          rw [List.mem_map]
          exact ⟨j, by rw [List.mem_range'_1]; omega, rfl⟩
        · simp only [Bool.and_eq_true, decide_eq_true_eq, Bool.not_eq_true', Bool.or_eq_false_iff, beq_eq_false_iff_ne,
            ne_eq]
          exact ⟨ht, a1, a2⟩
      rcases lt_or_gt_of_ne hne with hlt | hgt
      · exact key i j hlt hj a1 a2 htouch
      · exact key j i hgt hi a2 a1 (edgeTouch_symm.1 htouch)
    · rw [decide_eq_true_iff]
      rintro hall ⟨⟨i, j⟩, hmem, hb⟩
      rw [List.mem_flatMap] at hmem
      obtain ⟨i', hi', hj'⟩ := hmem
      rw [List.mem_range] at hi'
      rw [List.mem_map] at hj'
      obtain ⟨j', hj', he⟩ := hj'
      rw [List.mem_range'_1] at hj'
      simp only [Prod.mk.injEq] at he
      obtain ⟨rfl, rfl⟩ := he
      simp only [Bool.and_eq_true, decide_eq_true_eq, Bool.not_eq_true', Bool.or_eq_false_iff, beq_eq_false_iff_ne,
        ne_eq] at hb
      exact hall i' j' ⟨by omega, by omega, by omega, hb.2.1, hb.2.2⟩ hb.1
  · rintro ⟨i, j⟩ hmem
    rw [List.mem_flatMap] at hmem
    obtain ⟨i', hi', hj'⟩ := hmem
    rw [List.mem_range] at hi'
    rw [List.mem_map] at hj'
    obtain ⟨j', hj', he⟩ := hj'
    rw [List.mem_range'_1] at hj'
    simp only [Prod.mk.injEq] at he
    obtain ⟨rfl, rfl⟩ := he
    simp only
    rw [edgesHit_spec h (by omega) (by omega)]

/-- Two segments that share an end and another point: one of them contains the other end of the other. -/
theorem overlap_at_end {A B D X : P2 K} (hX : X ≠ B) (h1 : OnSegment A B X) (h2 : OnSegment B D X) :
    OnSegment A B D ∨ OnSegment B D A := by
  obtain ⟨s, hs0, hs1, hs⟩ := h1
  obtain ⟨t, ht0, ht1, ht⟩ := h2
  rw [P2.ext_iff] at hs ht
  simp only [P2.add_x, P2.add_y, P2.sub_x, P2.sub_y, P2.smul_x, P2.smul_y] at hs ht
  have ht0' : 0 < t := by
    refine lt_of_le_of_ne ht0 fun h0 => hX ?_
    rw [P2.ext_iff]
    rw [← h0] at ht
    constructor
    · linarith [ht.1]
    · linarith [ht.2]
  have hs1' : 0 < 1 - s := by
    refine lt_of_le_of_ne (by linarith) fun h0 => hX ?_
    have : s = 1 := by linarith
    rw [P2.ext_iff]
    rw [this] at hs
    constructor
    · linarith [hs.1]
    · linarith [hs.2]
  rcases le_total (1 - s) t with hle | hle
  · left
    refine ⟨1 - (1 - s) / t, ?_, ?_, ?_⟩
    · have : (1 - s) / t ≤ 1 := (div_le_one ht0').2 hle
      linarith
    · have : 0 ≤ (1 - s) / t := by positivity
      linarith
    · have ht' := ht0'.ne'
      ext
      · simp only [P2.add_x, P2.sub_x, P2.smul_x]
        have e : t * (D.x - B.x) = (1 - s) * (A.x - B.x) := by linarith [hs.1, ht.1]
        field_simp
        linear_combination e
      · simp only [P2.add_y, P2.sub_y, P2.smul_y]
        have e : t * (D.y - B.y) = (1 - s) * (A.y - B.y) := by linarith [hs.2, ht.2]
        field_simp
        linear_combination e
  · right
    refine ⟨t / (1 - s), by positivity, (div_le_one hs1').2 hle, ?_⟩
    have hs' := hs1'.ne'
    ext
    · simp only [P2.add_x, P2.sub_x, P2.smul_x]
      have e : t * (D.x - B.x) = (1 - s) * (A.x - B.x) := by linarith [hs.1, ht.1]
      field_simp
      linear_combination -e
    · simp only [P2.add_y, P2.sub_y, P2.smul_y]
      have e : t * (D.y - B.y) = (1 - s) * (A.y - B.y) := by linarith [hs.2, ht.2]
      field_simp
      linear_combination -e

theorem onSegment_start (A B : P2 K) : OnSegment A B A :=
  ⟨0, le_refl _, zero_le_one, by ext <;> simp⟩

theorem onSegment_end (A B : P2 K) : OnSegment A B B :=
  ⟨1, zero_le_one, le_refl _, by ext <;> simp⟩

/-- With at least four edges, consecutive edges that overlap make two other edges touch. -/
theorem consecutive_ok {P : List (P2 K)} (hn : 3 < P.length)
    (hall : ∀ i j, Apart P.length i j → ¬ EdgeTouch P i j) {i : Nat} (hi : i < P.length) {X : P2 K}
    (hX : Common (vert P i) (vert P ((i + 1) % P.length)) (vert P ((i + 1) % P.length))
      (vert P (((i + 1) % P.length + 1) % P.length)) X) : X = vert P ((i + 1) % P.length) := by
  by_contra hne
  have hj : (i + 1) % P.length < P.length := Nat.mod_lt _ (by omega)
  rcases overlap_at_end hne hX.1 hX.2 with h | h
  · -- the end of the second edge is on the first edge: the edge after touches the first
    refine hall i (((i + 1) % P.length + 1) % P.length) ?_ ⟨_, h, onSegment_start _ _⟩
    have hk : ((i + 1) % P.length + 1) % P.length < P.length := Nat.mod_lt _ (by omega)
    refine ⟨hi, hk, ?_, ?_, ?_⟩ <;>
    · rcases next_cases hi with ⟨h1, e1⟩ | ⟨h1, e1⟩ <;> rcases next_cases hj with ⟨h2, e2⟩ | ⟨h2, e2⟩ <;>
      rcases next_cases hk with ⟨h3, e3⟩ | ⟨h3, e3⟩ <;> omega
  · -- the start of the first edge is on the second edge: the edge before touches the second
    obtain ⟨k, hk, hki⟩ : ∃ k < P.length, (k + 1) % P.length = i := by
      by_cases h0 : i = 0
      · exact ⟨P.length - 1, by omega, by rw [h0, Nat.sub_add_cancel (by omega), Nat.mod_self]⟩
      · exact ⟨i - 1, by omega, by rw [Nat.sub_add_cancel (by omega), Nat.mod_eq_of_lt hi]⟩
    refine hall k ((i + 1) % P.length) ?_ ⟨vert P i, ?_, h⟩
    · refine ⟨hk, hj, ?_, ?_, ?_⟩ <;>
      · rcases next_cases hi with ⟨h1, e1⟩ | ⟨h1, e1⟩ <;> rcases next_cases hj with ⟨h2, e2⟩ | ⟨h2, e2⟩ <;>
        rcases next_cases hk with ⟨h3, e3⟩ | ⟨h3, e3⟩ <;> omega
    · rw [hki]; exact onSegment_end _ _

/-- With at least four edges the pairs of edges that are apart decide. -/
theorem simple_iff_apart {P : List (P2 K)} (hn : 3 < P.length) :
    (∀ i j, Apart P.length i j → ¬ EdgeTouch P i j) ↔ SimplePolygon P := by
  constructor
  · intro hall i j A B C D X hij h1 h2 hX
    obtain ⟨hi, rfl, rfl⟩ := isPolygonEdge_iff.1 h1
    obtain ⟨hj, rfl, rfl⟩ := isPolygonEdge_iff.1 h2
    by_cases e1 : (i + 1) % P.length = j
    · left
      refine ⟨e1.symm, ?_⟩
      subst e1
      exact consecutive_ok hn hall hi hX
    · by_cases e2 : (j + 1) % P.length = i
      · right
        refine ⟨e2.symm, ?_⟩
        subst e2
        exact consecutive_ok hn hall hj ⟨hX.2, hX.1⟩
      · exact absurd ⟨X, hX⟩ (hall i j ⟨hi, hj, hij, e1, e2⟩)
  · rintro hs i j ⟨hi, hj, hij, e1, e2⟩ ⟨X, hX⟩
    rcases hs i j _ _ _ _ X hij (isPolygonEdge_iff.2 ⟨hi, rfl, rfl⟩) (isPolygonEdge_iff.2 ⟨hj, rfl, rfl⟩) hX with
      ⟨h, -⟩ | ⟨h, -⟩
    · exact e1 h.symm
    · exact e2 h.symm

/-- The inner loop of the memoized version. -/
theorem simpleInner_spec (n i : Nat) (hi : i < n) (fuel s : Nat) (hs : 1 ≤ s) (hsn : s + 1 ≤ n) (hf : n - 1 - s < fuel) :
    simpleInner n i fuel ((i + s) % n) ((i + s + 1) % n) =
      .ok ((List.range' s (n - 1 - s)).map fun t => ((i + t) % n, (i + t + 1) % n)) := by
  induction fuel generalizing s with
  | zero => omega
  | succ fuel ih =>
    unfold simpleInner
    by_cases he : s + 1 = n
    · have h1 : (i + s + 1) % n = i := by
        rw [show i + s + 1 = i + n by omega, Nat.add_mod_right, Nat.mod_eq_of_lt hi]
      rw [if_pos h1]
      have : n - 1 - s = 0 := by omega
      simp [this]
    · have h1 : (i + s + 1) % n ≠ i := by
        intro h
        by_cases hlt : i + s + 1 < n
        · rw [Nat.mod_eq_of_lt hlt] at h; omega
        · have h2 : (i + s + 1) % n = i + s + 1 - n := by
            rw [Nat.mod_eq_sub_mod (by omega), Nat.mod_eq_of_lt (by omega)]
          omega
      rw [if_neg h1, Nat.mod_add_mod]
      have := ih (s + 1) (by omega) (by omega) (by omega)
      rw [show i + (s + 1) = i + s + 1 by omega] at this
      simp only [this]
      rw [show n - 1 - s = (n - 1 - (s + 1)) + 1 by omega, List.range'_succ, List.map_cons]

theorem sameKey_keyLt (x y : (Nat × Nat) × (Nat × Nat)) : SameKey keyLt x y ↔ x = y := by
  obtain ⟨⟨a, b⟩, ⟨c, d⟩⟩ := x
  obtain ⟨⟨a', b'⟩, ⟨c', d'⟩⟩ := y
  simp only [SameKey, keyLt, pairLt, Bool.or_eq_false_iff, Bool.and_eq_false_iff, decide_eq_false_iff_not,
    Prod.mk.injEq]
  constructor
  · rintro ⟨h1, h2⟩; omega
  · rintro h; omega

theorem keyLt_strict : StrictWeakOrder keyLt := by
  refine ⟨?_, ?_, ?_⟩
  · rintro ⟨⟨a, b⟩, ⟨c, d⟩⟩; simp [keyLt, pairLt]
  · rintro ⟨⟨a, b⟩, ⟨c, d⟩⟩ ⟨⟨a', b'⟩, ⟨c', d'⟩⟩ ⟨⟨a'', b''⟩, ⟨c'', d''⟩⟩ h1 h2
    simp only [keyLt, pairLt, Bool.or_eq_true, Bool.and_eq_true, decide_eq_true_eq, Prod.mk.injEq] at *
    omega
  · intro x y z h1 h2
    have e1 := (sameKey_keyLt x y).1 h1
    have e2 := (sameKey_keyLt y z).1 h2
    exact (sameKey_keyLt x z).2 (e1.trans e2)

theorem intersectionKey_eq {i j k l i' j' k' l' : Nat} (h : intersectionKey (i, j, k, l) = intersectionKey (i', j', k', l')) :
    (i = i' ∧ k = k') ∨ (i = k' ∧ k = i') := by
  unfold intersectionKey at h
  simp only at h
  split_ifs at h <;> simp only [Prod.mk.injEq] at h <;> omega

/-- The arguments of the memoized test: two edges. -/
def EdgeArgs (n : Nat) (t : Nat × Nat × Nat × Nat) : Prop :=
  t.1 < n ∧ t.2.1 = (t.1 + 1) % n ∧ t.2.2.1 < n ∧ t.2.2.2 = (t.2.2.1 + 1) % n

open Classical in
theorem memoAny_spec {P : List (P2 K)} (h : ProperPolygon P) (ts : List (Nat × Nat × Nat × Nat))
    (hts : ∀ t ∈ ts, EdgeArgs P.length t) (cache : List (((Nat × Nat) × (Nat × Nat)) × Bool))
    (hc : ValidCache keyLt intersectionKey (EdgeArgs P.length) (fun t => decide (EdgeTouch P t.1 t.2.2.1)) cache) :
    ∃ cache', memoAny Cmp.direct P cache ts = .ok (ts.any fun t => decide (EdgeTouch P t.1 t.2.2.1), cache') ∧
      ValidCache keyLt intersectionKey (EdgeArgs P.length) (fun t => decide (EdgeTouch P t.1 t.2.2.1)) cache' := by
  induction ts generalizing cache with
  | nil => exact ⟨cache, rfl, hc⟩
  | cons t ts ih =>
    obtain ⟨c1, l1, h1, hv1, -⟩ := memoCall_spec keyLt_strict intersectionKey
      (fun t => edgesHit Cmp.direct P t.1 t.2.1 t.2.2.1 t.2.2.2) (fun t => decide (EdgeTouch P t.1 t.2.2.1))
      (EdgeArgs P.length)
      (by
        rintro ⟨i, j, k, l⟩ ⟨h1, h2, h3, h4⟩
        simp only at *
        rw [h2, h4]
        exact edgesHit_spec h h1 h3)
      (by
        rintro ⟨i, j, k, l⟩ ⟨i', j', k', l'⟩ _ _ hk
        rw [sameKey_keyLt] at hk
        rcases intersectionKey_eq hk with ⟨rfl, rfl⟩ | ⟨rfl, rfl⟩
        · rfl
        · simp only [edgeTouch_symm])
      cache hc t (hts t List.mem_cons_self)
    simp only [memoAny, h1]
    by_cases ht : EdgeTouch P t.1 t.2.2.1
    · simp only [ht, decide_true, List.any_cons, Bool.true_or]
      exact ⟨c1, rfl, hv1⟩
    · obtain ⟨c2, h2, hv2⟩ := ih (fun t' ht' => hts t' (List.mem_cons_of_mem _ ht')) c1 hv1
      simp only [ht, decide_false, List.any_cons, Bool.false_or]
      exact ⟨c2, h2, hv2⟩

open Classical in
theorem simpleOuter_spec {P : List (P2 K)} (h : ProperPolygon P) (hn : 2 < P.length) (ij : List (Nat × Nat))
    (hij : ∀ e ∈ ij, e.1 < P.length ∧ e.2 = (e.1 + 1) % P.length)
    (cache : List (((Nat × Nat) × (Nat × Nat)) × Bool))
    (hc : ValidCache keyLt intersectionKey (EdgeArgs P.length) (fun t => decide (EdgeTouch P t.1 t.2.2.1)) cache) :
    simpleOuter Cmp.direct P ij cache = .ok (decide (∀ e ∈ ij, ∀ t, 2 ≤ t → t + 1 < P.length →
      ¬ EdgeTouch P e.1 ((e.1 + t) % P.length))) := by
  induction ij generalizing cache with
  | nil => simp [simpleOuter]
  | cons e ij ih =>
    obtain ⟨i, j⟩ := e
    obtain ⟨hi, hj⟩ := hij (i, j) List.mem_cons_self
    simp only at hi hj
    have hmod : ∀ k, k % P.length < P.length := fun k => Nat.mod_lt _ (by omega)
    have hk : (j + 1) % P.length = (i + 2) % P.length := by rw [hj, Nat.mod_add_mod]
    have hl : ((j + 1) % P.length + 1) % P.length = (i + 2 + 1) % P.length := by rw [hk, Nat.mod_add_mod]
    have hin := simpleInner_spec P.length i hi (P.length + 1) 2 (by omega) (by omega) (by omega)
    obtain ⟨c1, h1, hv1⟩ := memoAny_spec h (((List.range' 2 (P.length - 1 - 2)).map fun t =>
        ((i + t) % P.length, (i + t + 1) % P.length)).map fun e => (i, j, e.1, e.2)) (by
        intro t ht
        simp only [List.mem_map] at ht
        obtain ⟨e, ⟨s, -, rfl⟩, rfl⟩ := ht
        exact ⟨hi, hj, hmod _, by simp only [Nat.mod_add_mod]⟩) cache hc
    have ih' := ih (fun e he => hij e (List.mem_cons_of_mem _ he)) c1 hv1
    simp only [simpleOuter]
    rw [hl, hk, hin]
    simp only [h1]
    have hany : ((((List.range' 2 (P.length - 1 - 2)).map fun t =>
        ((i + t) % P.length, (i + t + 1) % P.length)).map fun e => (i, j, e.1, e.2)).any
          fun t => decide (EdgeTouch P t.1 t.2.2.1)) =
        decide (∃ t, 2 ≤ t ∧ t + 1 < P.length ∧ EdgeTouch P i ((i + t) % P.length)) := by
      rw [Bool.eq_iff_iff, List.any_eq_true, decide_eq_true_iff]
      constructor
      · rintro ⟨t, ht, hd⟩
        simp only [List.mem_map] at ht
        obtain ⟨e, ⟨s, hs, rfl⟩, rfl⟩ := ht
        rw [List.mem_range'_1] at hs
        exact ⟨s, by omega, by omega, by simpa using hd⟩
      · rintro ⟨s, h2, h3, hd⟩
        refine ⟨_, List.mem_map.2 ⟨_, List.mem_map.2 ⟨s, by rw [List.mem_range'_1]; omega, rfl⟩, rfl⟩, ?_⟩
        simpa using hd
    rw [hany]
    by_cases hex : ∃ t, 2 ≤ t ∧ t + 1 < P.length ∧ EdgeTouch P i ((i + t) % P.length)
    · rw [decide_eq_true hex]
      simp only [Except.ok.injEq]
      symm
      rw [decide_eq_false_iff_not]
      intro hall
      obtain ⟨t, h2, h3, h4⟩ := hex
      exact hall (i, j) List.mem_cons_self t h2 h3 h4
    · rw [decide_eq_false hex]
      simp only
      rw [ih']
      congr 1
      rw [decide_eq_decide]
      constructor
      · intro hall e he t h2 h3
        rcases List.mem_cons.1 he with rfl | he
        · exact fun h4 => hex ⟨t, h2, h3, h4⟩
        · exact hall e he t h2 h3
      · intro hall e he
        exact hall e (List.mem_cons_of_mem _ he)

/-- The offsets of the edges that are apart. -/
theorem apart_iff {n i k : Nat} (hn : 2 < n) (hi : i < n) :
    Apart n i k ↔ ∃ t, 2 ≤ t ∧ t + 1 < n ∧ k = (i + t) % n := by
  constructor
  · rintro ⟨-, hk, hne, a1, a2⟩
    rcases next_cases hi with ⟨h1, e1⟩ | ⟨h1, e1⟩ <;> rcases next_cases hk with ⟨h2, e2⟩ | ⟨h2, e2⟩ <;>
    rcases lt_or_gt_of_ne hne with hlt | hgt
    all_goals first
      | exact ⟨k - i, by omega, by omega, by rw [Nat.mod_eq_of_lt (by omega)]; omega⟩
      | exact ⟨k + n - i, by omega, by omega, by
          rw [show i + (k + n - i) = k + n by omega, Nat.add_mod_right, Nat.mod_eq_of_lt hk]⟩
  · rintro ⟨t, h2, h3, rfl⟩
    have hk : (i + t) % n < n := Nat.mod_lt _ (by omega)
    have hv : (i + t < n ∧ (i + t) % n = i + t) ∨ (n ≤ i + t ∧ (i + t) % n = i + t - n) := by
      by_cases h : i + t < n
      · exact Or.inl ⟨h, Nat.mod_eq_of_lt h⟩
      · refine Or.inr ⟨by omega, ?_⟩
        rw [Nat.mod_eq_sub_mod (by omega), Nat.mod_eq_of_lt (by omega)]
    refine ⟨hi, hk, ?_, ?_, ?_⟩ <;>
    · rcases next_cases hi with ⟨h1, e1⟩ | ⟨h1, e1⟩ <;> rcases next_cases hk with ⟨h2, e2⟩ | ⟨h2, e2⟩ <;>
      rcases hv with ⟨hv1, hv2⟩ | ⟨hv1, hv2⟩ <;> omega

open Classical in
/-- The memoized version looks at the same pairs. -/
theorem isPolygonSimpleMemoized_spec {P : List (P2 K)} (h : ProperPolygon P) (hn : 2 < P.length) :
    isPolygonSimpleMemoized Cmp.direct P = .ok (decide (∀ i j, Apart P.length i j → ¬ EdgeTouch P i j)) := by
  unfold isPolygonSimpleMemoized
  rw [simpleOuter_spec h hn _ ?_ [] ⟨List.Pairwise.nil, by simp⟩]
  · congr 1
    rw [decide_eq_decide]
    constructor
    · intro hall i j hap
      have hi := hap.1
      obtain ⟨t, h2, h3, rfl⟩ := (apart_iff hn hi).1 hap
      refine hall (i, (i + 1) % P.length) ?_ t h2 h3
      rw [List.mem_map]
      rcases next_cases hi with ⟨h1, e1⟩ | ⟨h1, e1⟩
      · exact ⟨i + 1, List.mem_range.2 h1, by rw [if_neg (by omega), e1]; rfl⟩
      · exact ⟨0, List.mem_range.2 (by omega), by rw [if_pos rfl, e1, ← h1]; rfl⟩
    · intro hall e he t h2 h3
      have hi : e.1 < P.length := by
        obtain ⟨j, hj, rfl⟩ := List.mem_map.1 he
        rw [List.mem_range] at hj
        simp only
        split_ifs <;> omega
      exact hall _ _ ((apart_iff hn hi).2 ⟨t, h2, h3, rfl⟩)
  · intro e he
    obtain ⟨j, hj, rfl⟩ := List.mem_map.1 he
    rw [List.mem_range] at hj
    by_cases h0 : j = 0
    · simp only [h0, if_true]
      exact ⟨by omega, by rw [Nat.sub_add_cancel (by omega), Nat.mod_self]⟩
    · simp only [h0, if_false]
      exact ⟨by omega, by rw [Nat.sub_add_cancel (by omega), Nat.mod_eq_of_lt hj]⟩

/-- The edges of the closed polyline are those of the polygon. -/
theorem isEdge_closed {p : P2 K} {ps : List (P2 K)} {i : Nat} {A B : P2 K} :
    IsEdge (p :: ps ++ [p]) i A B ↔ IsPolygonEdge (p :: ps) i A B := by
  unfold IsEdge IsPolygonEdge
  by_cases h1 : i + 1 < (p :: ps).length
  · rw [List.getElem?_append_left (by omega), List.getElem?_append_left h1, Nat.mod_eq_of_lt h1]
  · by_cases h2 : i + 1 = (p :: ps).length
    · rw [List.getElem?_append_left (by omega), List.getElem?_append_right (by omega), h2, Nat.mod_self]
      simp
    · have h3 : (p :: ps).length ≤ i := by omega
      constructor
      · rintro ⟨-, h⟩
        rw [List.getElem?_eq_none (by simp only [List.length_append, List.length_singleton]; omega)] at h
        cases h
      · rintro ⟨h, -⟩
        rw [List.getElem?_eq_none h3] at h
        cases h

theorem toPolyline_ok {P : List (P2 K)} (h : 2 < P.length) : ∃ q, toPolyline P = .ok q ∧
    (∀ i A B, IsEdge q i A B ↔ IsPolygonEdge P i A B) := by
  cases P with
  | nil => simp at h
  | cons p ps => exact ⟨_, rfl, fun i A B => isEdge_closed⟩

theorem toPolylines_ok {Ps : List (List (P2 K))} (h : ∀ P ∈ Ps, 2 < P.length) : ∃ qs, toPolylines Ps = .ok qs ∧
    List.Forall₂ (fun P q => ∀ i A B, IsEdge q i A B ↔ IsPolygonEdge P i A B) Ps qs := by
  induction Ps with
  | nil => exact ⟨[], rfl, List.Forall₂.nil⟩
  | cons P Ps ih =>
    obtain ⟨q, h1, h2⟩ := toPolyline_ok (h P List.mem_cons_self)
    obtain ⟨qs, h3, h4⟩ := ih fun Q hQ => h Q (List.mem_cons_of_mem _ hQ)
    refine ⟨q :: qs, ?_, List.Forall₂.cons h2 h4⟩
    simp only [toPolylines, h1, h3]

theorem ringPairs_forall {α : Type*} (R : α → α → Prop) (l : List α) :
    (∀ ab ∈ ringPairs l, R ab.1 ab.2) ↔ l.Pairwise R := by
  induction l with
  | nil => simp [ringPairs]
  | cons a as ih =>
    rw [List.pairwise_cons, ← ih]
    simp only [ringPairs, List.mem_append, List.mem_map]
    constructor
    · intro h
      exact ⟨fun b hb => h (a, b) (Or.inl ⟨b, hb, rfl⟩), fun ab hab => h ab (Or.inr hab)⟩
    · rintro ⟨h1, h2⟩ ab (⟨b, hb, rfl⟩ | hab)
      · exact h1 b hb
      · exact h2 ab hab

theorem mem_ringPairs {α : Type*} {l : List α} {ab : α × α} (h : ab ∈ ringPairs l) : ab.1 ∈ l ∧ ab.2 ∈ l := by
  induction l with
  | nil => simp [ringPairs] at h
  | cons a as ih =>
    simp only [ringPairs, List.mem_append, List.mem_map] at h
    rcases h with ⟨b, hb, rfl⟩ | h
    · exact ⟨List.mem_cons_self, List.mem_cons_of_mem _ hb⟩
    · exact ⟨List.mem_cons_of_mem _ (ih h).1, List.mem_cons_of_mem _ (ih h).2⟩

end Geometrix
