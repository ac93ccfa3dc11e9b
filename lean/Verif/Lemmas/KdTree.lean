import Verif.Spec.KdTree
import Mathlib.Tactic.Linarith
import Mathlib.Tactic.Push
import Mathlib.Data.List.Count

/-!
# Helpers for the kd-tree
-/

set_option linter.unusedSectionVars false

namespace Geometrix

open Spec

variable {K : Type*} [Field K] [LinearOrder K] [IsStrictOrderedRing K] {d : Nat}

theorem intersectsPointN_iff (b : BoxN d K) (p : PN d K) :
    b.intersectsPoint Cmp.direct p = true ↔ InBoxN b p := by
  simp [BoxN.intersectsPoint, InBoxN]

theorem intersectsBoxN_iff (a b : BoxN d K) :
    a.intersectsBox Cmp.direct b = true ↔ ∀ i, b.lo i ≤ a.hi i ∧ a.lo i ≤ b.hi i := by
  simp [BoxN.intersectsBox]

theorem containsN_iff (a b : BoxN d K) :
    a.contains Cmp.direct b = true ↔ InBoxN a b.hi ∧ InBoxN a b.lo := by
  simp [BoxN.contains, intersectsPointN_iff]

theorem getBoundsN_foldl (l : List (PN d K)) (b : BoxN d K) :
    ∃ c, l.foldl (boundsStepN Cmp.direct) (some b) = some c ∧
      (∀ i, c.lo i ≤ b.lo i ∧ b.hi i ≤ c.hi i) ∧ ∀ p ∈ l, InBoxN c p := by
  induction l generalizing b with
  | nil => exact ⟨b, rfl, fun i => ⟨le_rfl, le_rfl⟩, by simp⟩
  | cons p l ih =>
    simp only [List.foldl_cons, boundsStepN]
    obtain ⟨c, h1, h2, h3⟩ := ih _
    refine ⟨c, h1, fun i => ?_, ?_⟩
    · have := h2 i
      simp only [direct_lt, direct_gt] at this
      grind
    · intro q hq
      rcases List.mem_cons.mp hq with rfl | hq
      · intro i
        have := h2 i
        simp only [direct_lt, direct_gt] at this
        grind
      · exact h3 q hq

/-- A box that contains all points is computed for every sequence that is not empty. -/
theorem getBoundsN_ok (l : List (PN d K)) (h : l ≠ []) :
    ∃ c, getBoundsN Cmp.direct l = some c ∧ ∀ p ∈ l, InBoxN c p := by
  cases l with
  | nil => exact absurd rfl h
  | cons p l =>
    obtain ⟨c, h1, h2, h3⟩ := getBoundsN_foldl l (⟨p, p⟩ : BoxN d K)
    refine ⟨c, h1, ?_⟩
    intro q hq
    rcases List.mem_cons.mp hq with rfl | hq
    · exact fun i => h2 i
    · exact h3 q hq

theorem lexN_iff (p q : PN d K) (dims : List (Fin d)) (hd : dims.Pairwise (· < ·)) :
    lexN Cmp.direct p q dims = true ↔
      ∃ i ∈ dims, p i < q i ∧ ∀ j ∈ dims, j < i → p j = q j := by
  induction dims with
  | nil => simp [lexN]
  | cons k dims ih =>
    rw [List.pairwise_cons] at hd
    simp only [lexN, direct_lt, direct_equals]
    split_ifs with h1 h2
    · simp only [true_iff]
      refine ⟨k, by simp, h1, ?_⟩
      intro j hj hjk
      rcases List.mem_cons.mp hj with rfl | hj
      · exact absurd hjk (lt_irrefl _)
      · exact absurd (hd.1 j hj) (not_lt.mpr hjk.le)
    · rw [ih hd.2]
      constructor
      · rintro ⟨i, hi, hlt, hall⟩
        refine ⟨i, List.mem_cons_of_mem _ hi, hlt, ?_⟩
        intro j hj hji
        rcases List.mem_cons.mp hj with rfl | hj
        · exact h2
        · exact hall j hj hji
      · rintro ⟨i, hi, hlt, hall⟩
        rcases List.mem_cons.mp hi with rfl | hi
        · exact absurd hlt h1
        · exact ⟨i, hi, hlt, fun j hj => hall j (List.mem_cons_of_mem _ hj)⟩
    · simp only [false_iff]
      rintro ⟨i, hi, hlt, hall⟩
      rcases List.mem_cons.mp hi with rfl | hi
      · exact h1 hlt
      · exact h2 (hall k (by simp) (hd.1 i hi))

/-- `dimension_compare` is the order of the specification. -/
theorem dimensionCompareN_iff (dim : Fin d) (p q : PN d K) :
    dimensionCompareN Cmp.direct dim p q = true ↔ Precedes dim p q := by
  simp only [dimensionCompareN, direct_lt, direct_equals, Precedes]
  split_ifs with h1 h2
  · simp [h1]
  · rw [lexN_iff _ _ _ (List.pairwise_lt_finRange d)]
    simp [h2]
  · simp [h1, h2]

theorem medianScan_spec {α : Type*} (less : α → α → Bool) (rest : List α) (median : α) (n : Nat) :
    ∃ s, medianScan less median rest n = n + s ∧ s ≤ rest.length ∧
      ∀ k (_ : k < s) (hs : k + 1 < (median :: rest).length),
        less ((median :: rest)[k]) ((median :: rest)[k + 1]) = false := by
  induction rest generalizing median n with
  | nil => exact ⟨0, rfl, by simp, by intro k hk; omega⟩
  | cons next rest ih =>
    simp only [medianScan]
    split_ifs with h
    · obtain ⟨s, h1, h2, h3⟩ := ih next (n + 1)
      refine ⟨s + 1, by rw [h1]; omega, by simp; omega, ?_⟩
      intro k hk hs
      cases k with
      | zero => simpa using h
      | succ k => exact h3 k (by omega) (by simpa using hs)
    · exact ⟨0, rfl, by simp, by intro k hk; omega⟩

theorem not_precedes_le {dim : Fin d} {p q : PN d K} (h : ¬ Precedes dim q p) : p dim ≤ q dim := by
  by_contra hc
  exact h (Or.inl (not_le.mp hc))

/-- What the partition does to a sequence of at least two points. -/
theorem medianPartition_spec
    (nth : Fin d → Nat → List (PN d K) → List (PN d K))
    (hnth : ∀ dim n l, n < l.length → IsNthElement (Precedes dim) n l (nth dim n l))
    (dim : Fin d) (l : List (PN d K)) (hl : 2 ≤ l.length) :
    ∃ out m, medianPartition Cmp.direct nth dim l = .ok (out, m) ∧ out.Perm l ∧ 1 ≤ m ∧
      ∃ hm : m < out.length, (∀ p ∈ out.take m, p dim ≤ out[m] dim) ∧
        ∀ p ∈ out.drop m, out[m] dim ≤ p dim := by
  set n := l.length / 2 with hn
  have hn1 : 1 ≤ n := by omega
  have hnl : n < l.length := by omega
  obtain ⟨hp, hord⟩ := hnth dim n l hnl
  set out := nth dim n l with hout
  have hlen : out.length = l.length := hp.length_eq
  have hno : n < out.length := by omega
  have hdrop : out.drop n = out[n] :: out.drop (n + 1) := List.drop_eq_getElem_cons hno
  obtain ⟨s, hs1, hs2, hs3⟩ :=
    medianScan_spec (dimensionCompareN Cmp.direct dim) (out.drop (n + 1)) out[n] n
  have hget : ∀ i (h : i < (out[n] :: out.drop (n + 1)).length) (h' : n + i < out.length),
      (out[n] :: out.drop (n + 1))[i] = out[n + i] := by
    intro i h h'
    cases i with
    | zero => rfl
    | succ i =>
      simp only [List.getElem_cons_succ, List.getElem_drop]
      congr 1
      omega
  have hs2' : n + s < out.length := by
    rw [List.length_drop] at hs2; omega
  have hpart : medianPartition Cmp.direct nth dim l = .ok (out, n + s) := by
    unfold medianPartition
    simp only [← hn, ← hout, hdrop, hs1]
  -- the coordinates from `n` to `n + s` are equal
  have heq : ∀ k (hk : k ≤ s), out[n + k] dim = out[n] dim := by
    intro k hk
    induction k with
    | zero => rfl
    | succ k ih =>
      have h1 := ih (by omega)
      have h2 := hs3 k (by omega) (by rw [List.length_cons, List.length_drop]; omega)
      rw [hget k _ (by omega), hget (k + 1) _ (by omega)] at h2
      have h3 : ¬ Precedes dim out[n + k] out[n + (k + 1)] := by
        rw [← dimensionCompareN_iff, h2]; simp
      have h4 := hord n (n + (k + 1)) hno (by omega) le_rfl (by omega)
      have h5 := not_precedes_le h3
      have h6 := not_precedes_le h4
      exact le_antisymm (h5.trans h1.le) h6
  refine ⟨out, n + s, hpart, hp, by omega, hs2', ?_, ?_⟩
  · intro p hp'
    obtain ⟨i, hi, rfl⟩ := List.mem_iff_getElem.mp hp'
    rw [List.length_take] at hi
    simp only [List.getElem_take]
    rw [heq s le_rfl]
    by_cases hin : i ≤ n
    · exact not_precedes_le (hord i n (by omega) hno hin le_rfl)
    · obtain ⟨k, rfl⟩ := Nat.exists_eq_add_of_le (show n ≤ i by omega)
      exact (heq k (by omega)).le
  · intro p hp'
    obtain ⟨i, hi, rfl⟩ := List.mem_iff_getElem.mp hp'
    rw [List.length_drop] at hi
    simp only [List.getElem_drop]
    rw [heq s le_rfl]
    exact not_precedes_le (hord n (n + s + i) hno (by omega) le_rfl (by omega))

/-- The first box is part of the second one. -/
def SubBox (c b : BoxN d K) : Prop := ∀ i, b.lo i ≤ c.lo i ∧ c.hi i ≤ b.hi i

/-- The points of a tree are in its region, and the regions of the children are parts of it. -/
def KdTree.WF : KdTree d K → Prop
  | .null => True
  | .leaf b p => InBoxN b p
  | .node b _ l r => l.WF ∧ r.WF ∧ (∀ i, b.lo i ≤ b.hi i) ∧ (∀ c, l.region = some c → SubBox c b) ∧
      ∀ c, r.region = some c → SubBox c b

theorem inBoxN_mono {c b : BoxN d K} (h : SubBox c b) {p : PN d K} (hp : InBoxN c p) :
    InBoxN b p := fun i => ⟨(h i).1.trans (hp i).1, (hp i).2.trans (h i).2⟩

theorem KdTree.WF.mem {t : KdTree d K} (h : t.WF) {p : PN d K} (hp : p ∈ t.traverse) :
    ∃ b, t.region = some b ∧ InBoxN b p := by
  induction t with
  | null => simp [KdTree.traverse] at hp
  | leaf b q =>
    simp only [KdTree.traverse, List.mem_singleton] at hp
    subst hp
    exact ⟨b, rfl, h⟩
  | node b m l r ihl ihr =>
    simp only [KdTree.traverse, List.mem_append] at hp
    obtain ⟨h1, h2, -, h3, h4⟩ := h
    rcases hp with hp | hp
    · obtain ⟨c, hc, hcp⟩ := ihl h1 hp
      exact ⟨b, rfl, inBoxN_mono (h3 c hc) hcp⟩
    · obtain ⟨c, hc, hcp⟩ := ihr h2 hp
      exact ⟨b, rfl, inBoxN_mono (h4 c hc) hcp⟩

theorem isEmpty_false_of_length {α : Type*} {l : List α} (h : 1 ≤ l.length) : l.isEmpty = false := by
  cases l with
  | nil => simp at h
  | cons a l => rfl

/-- The construction ends with a well formed tree that stores the points. -/
theorem kdBuild_spec
    (nth : Fin (d + 1) → Nat → List (PN (d + 1) K) → List (PN (d + 1) K))
    (hnth : ∀ dim n l, n < l.length → IsNthElement (Precedes dim) n l (nth dim n l))
    (fuel : Nat) (region : BoxN (d + 1) K) (dim : Fin (d + 1)) (l : List (PN (d + 1) K))
    (hl : 1 ≤ l.length) (hf : l.length ≤ fuel) (hin : ∀ p ∈ l, InBoxN region p) :
    ∃ t, kdBuild Cmp.direct nth fuel region dim l = .ok t ∧ t.region = some region ∧ t.WF ∧
      t.traverse.Perm l ∧ (2 ≤ l.length → ∃ m a b, t = .node region m a b) := by
  induction fuel generalizing region dim l with
  | zero => omega
  | succ fuel ih =>
    match l, hl, hf, hin with
    | [p], _, _, hin =>
      exact ⟨.leaf region p, rfl, rfl, hin p (by simp), by simp [KdTree.traverse], by simp⟩
    | p :: q :: l, _, hf, hin =>
      set L := p :: q :: l with hL
      have h2 : 2 ≤ L.length := by simp [hL]
      obtain ⟨out, m, hpart, hperm, hm1, hm, hle, hge⟩ := medianPartition_spec nth hnth dim L h2
      have hlen := hperm.length_eq
      have hin' : ∀ p ∈ out, InBoxN region p := fun p hp => hin p (hperm.mem_iff.mp hp)
      have hmp := hin' out[m] (List.getElem_mem hm)
      obtain ⟨tl, hl1, hl2, hl3, hl4, -⟩ := ih
        ⟨region.lo, Function.update region.hi dim (out[m] dim)⟩ (dim + 1) (out.take m)
        (by rw [List.length_take]; omega) (by rw [List.length_take]; omega) (by
          intro p hp i
          have h1 := hin' p (List.mem_of_mem_take hp) i
          have h2 := hle p hp
          by_cases hi : i = dim
          · subst hi; simp [h1.1, h2]
          · simp [hi, h1.1, h1.2])
      obtain ⟨tr, hr1, hr2, hr3, hr4, -⟩ := ih
        ⟨Function.update region.lo dim (out[m] dim), region.hi⟩ (dim + 1) (out.drop m)
        (by rw [List.length_drop]; omega) (by rw [List.length_drop]; omega) (by
          intro p hp i
          have h1 := hin' p (List.mem_of_mem_drop hp) i
          have h2 := hge p hp
          by_cases hi : i = dim
          · subst hi; simp [h1.2, h2]
          · simp [hi, h1.1, h1.2])
      refine ⟨.node region (out[m] dim) tl tr, ?_, rfl,
        ⟨hl3, hr3, fun i => (hmp i).1.trans (hmp i).2, ?_, ?_⟩, ?_,
        fun _ => ⟨_, _, _, rfl⟩⟩
      · have e1 : (out.take m).isEmpty = false :=
          isEmpty_false_of_length (by rw [List.length_take]; omega)
        have e2 : (out.drop m).isEmpty = false :=
          isEmpty_false_of_length (by rw [List.length_drop]; omega)
        have e3 : out[m]? = some out[m] := List.getElem?_eq_getElem hm
        rw [hL] at hpart
        simp only [hL, kdBuild, bind, Except.bind, hpart, e3, e1, e2, hl1, hr1]
        simp
      · intro c hc i
        rw [hl2] at hc
        cases hc
        by_cases hi : i = dim
        · subst hi; simp [(hmp i).2]
        · simp [hi]
      · intro c hc i
        rw [hr2] at hc
        cases hc
        by_cases hi : i = dim
        · subst hi; simp [(hmp i).1]
        · simp [hi]
      · simp only [KdTree.traverse]
        have := hl4.append hr4
        rw [List.take_append_drop] at this
        exact this.trans hperm

/-- What a child contributes to a search. -/
theorem searchChild_count (range : BoxN d K) (t : KdTree d K) (hw : t.WF)
    (ih : (∀ p, (t.search Cmp.direct range).count p ≤ t.traverse.count p) ∧
      ∀ p, InBoxN range p → (t.search Cmp.direct range).count p = t.traverse.count p) (p : PN d K) :
    let visited := (match t.region with
      | none => []
      | some b =>
        if range.contains Cmp.direct b then t.traverse
        else if range.intersectsBox Cmp.direct b then t.search Cmp.direct range
        else [])
    visited.count p ≤ t.traverse.count p ∧
      (InBoxN range p → visited.count p = t.traverse.count p) := by
  intro visited
  cases hr : t.region with
  | none =>
    have : t = .null := by cases t <;> simp_all [KdTree.region]
    subst this
    simp [visited, KdTree.region, KdTree.traverse]
  | some b =>
    simp only [visited, hr]
    split_ifs with h1 h2
    · exact ⟨le_rfl, fun _ => rfl⟩
    · exact ⟨ih.1 p, ih.2 p⟩
    · refine ⟨by simp, fun hp => ?_⟩
      rw [List.count_nil, eq_comm, List.count_eq_zero]
      intro hmem
      obtain ⟨c, hc, hcp⟩ := hw.mem hmem
      rw [hr] at hc
      cases hc
      apply h2
      rw [intersectsBoxN_iff]
      exact fun i => ⟨(hcp i).1.trans (hp i).2, (hp i).1.trans (hcp i).2⟩

/-- The points seen by a search. -/
theorem search_count (range : BoxN d K) (t : KdTree d K) (hw : t.WF) :
    (∀ p, (t.search Cmp.direct range).count p ≤ t.traverse.count p) ∧
      ∀ p, InBoxN range p → (t.search Cmp.direct range).count p = t.traverse.count p := by
  induction t with
  | null => simp [KdTree.search, KdTree.traverse]
  | leaf b q => simp [KdTree.search, KdTree.traverse]
  | node b m l r ihl ihr =>
    obtain ⟨h1, h2, -, -, -⟩ := hw
    have hl := searchChild_count range l h1 (ihl h1)
    have hr := searchChild_count range r h2 (ihr h2)
    simp only [KdTree.search, KdTree.traverse, List.count_append]
    exact ⟨fun p => Nat.add_le_add (hl p).1 (hr p).1,
      fun p hp => congrArg₂ (· + ·) ((hl p).2 hp) ((hr p).2 hp)⟩

theorem KdTree.WF.valid {t : KdTree d K} (h : t.WF) {b : BoxN d K} (hb : t.region = some b) (i) :
    b.lo i ≤ b.hi i := by
  cases t with
  | null => simp [KdTree.region] at hb
  | leaf c p =>
    cases hb
    exact (h i).1.trans (h i).2
  | node c m l r =>
    cases hb
    exact h.2.2.1 i

/-- Nothing is visited below a node that the range does not meet. -/
theorem search_disjoint (range b : BoxN d K) (m : K) (l r : KdTree d K)
    (hw : (KdTree.node b m l r).WF) (hd : DisjointBoxes range b) :
    (KdTree.node b m l r).search Cmp.direct range = [] := by
  obtain ⟨h1, h2, -, h3, h4⟩ := hw
  obtain ⟨i, hi⟩ := hd
  have key : ∀ c : BoxN d K, SubBox c b → c.lo i ≤ c.hi i →
      ¬ range.contains Cmp.direct c = true ∧ ¬ range.intersectsBox Cmp.direct c = true := by
    intro c hc hv
    have := hc i
    rw [containsN_iff, intersectsBoxN_iff]
    constructor
    · rintro ⟨ha, hb⟩
      have := ha i
      have := hb i
      grind
    · intro ha
      have := ha i
      grind
  have child : ∀ t : KdTree d K, t.WF → (∀ c, t.region = some c → SubBox c b) →
      (match t.region with
      | none => []
      | some b =>
        if range.contains Cmp.direct b then t.traverse
        else if range.intersectsBox Cmp.direct b then t.search Cmp.direct range
        else []) = [] := by
    intro t ht hsub
    cases hr : t.region with
    | none => rfl
    | some c =>
      obtain ⟨k1, k2⟩ := key c (hsub c hr) (ht.valid hr i)
      simp only [if_neg k1, if_neg k2]
  simp only [KdTree.search]
  rw [List.append_eq_nil_iff]
  exact ⟨child l h1 h3, child r h2 h4⟩

end Geometrix
