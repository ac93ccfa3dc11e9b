import Verif.Model.Mesh
import Verif.Spec.Mesh
import Verif.Lemmas.Convex
import Verif.Lemmas.Vec
import Verif.Lemmas.Orientation
import Mathlib.Tactic.Linarith
import Mathlib.Tactic.LinearCombination
import Mathlib.Tactic.FieldSimp

/-!
# Lemmas about the making of a mesh
-/

set_option linter.unusedSectionVars false

namespace Geometrix
open Spec

variable {K : Type*} [Field K] [LinearOrder K] [IsStrictOrderedRing K]

theorem meshTriples_eq : ∀ l : List Nat, meshTriples l = inThrees l
  | [] => rfl
  | [_] => rfl
  | [_, _] => rfl
  | i :: j :: k :: rest => by
    show (i, j, k) :: meshTriples rest = (i, j, k) :: inThrees rest
    rw [meshTriples_eq rest]

theorem triWeight_eq (t : MeshTri K) : triWeight t = .ok (triArea t) := by
  simp only [triWeight, polygonArea, signedArea, areaLoop, List.getLast]
  congr 1
  unfold triArea area2 cross
  rw [← abs_two (α := K), ← abs_div]
  congr 1
  rw [abs_two]
  ring

theorem triWeights_eq : ∀ l : List (MeshTri K), triWeights l = .ok (l.map triArea)
  | [] => rfl
  | t :: rest => by simp only [triWeights, triWeight_eq, triWeights_eq rest, List.map_cons]

theorem triArea_nonneg (t : MeshTri K) : 0 ≤ triArea t := by unfold triArea; positivity

/-- The entry made from a valid triple. -/
theorem meshStep_ok {pts : List (P2 K)} {i : Nat × Nat × Nat} (h0 : i.1 < pts.length) (h1 : i.2.1 < pts.length)
    (h2 : i.2.2 < pts.length) :
    (ThreePoints pts i ∧ ∃ t, meshStep Cmp.direct pts i = .ok (some t) ∧ MadeOf pts i t) ∨
    (¬ ThreePoints pts i ∧ meshStep Cmp.direct pts i = .ok none) := by
  obtain ⟨i0, i1, i2⟩ := i
  simp only at h0 h1 h2
  have e0 := List.getElem?_eq_getElem h0
  have e1 := List.getElem?_eq_getElem h1
  have e2 := List.getElem?_eq_getElem h2
  generalize pts[i0] = a at e0
  generalize pts[i1] = b at e1
  generalize pts[i2] = c at e2
  have hor : (getOrientation Cmp.direct a b c == Orient.right) = true ↔ area2 a b c < 0 := by
    rw [beq_iff_eq, (orientation_sign a b c).2.1]
  have hk : ∀ t : MeshTri K, keepTri Cmp.direct t = if t.a = t.b ∨ t.b = t.c ∨ t.c = t.a then none else some t := by
    intro t
    unfold keepTri
    simp only [Bool.or_eq_true, seqEquals_direct, or_assoc]
  by_cases hd : a = b ∨ b = c ∨ c = a
  · right
    refine ⟨?_, ?_⟩
    · unfold ThreePoints
      simp only [e0, e1, e2, ne_eq, Option.some.injEq]
      tauto
    · unfold meshStep
      simp only [e0, e1, e2, hk]
      have hd' : a = c ∨ c = b ∨ b = a := by tauto
      rw [if_pos hd, if_pos hd', ite_self]
  · left
    refine ⟨?_, ?_⟩
    · unfold ThreePoints
      simp only [e0, e1, e2, ne_eq, Option.some.injEq]
      tauto
    · have hd' : ¬ (a = c ∨ c = b ∨ b = a) := by tauto
      unfold meshStep
      simp only [e0, e1, e2, hk]
      rw [if_neg hd, if_neg hd']
      by_cases hr : area2 a b c < 0
      · rw [if_pos (hor.2 hr)]
        refine ⟨_, rfl, e0, e2, e1, Or.inr ⟨rfl, ?_⟩, ?_⟩
        · simp only
          have : area2 a c b = -area2 a b c := by unfold area2; ring
          rw [this]; linarith
        · simp only
          have : area2 a c b = -area2 a b c := by unfold area2; ring
          rw [this]; linarith
      · rw [if_neg (fun h => hr (hor.1 h))]
        exact ⟨_, rfl, e0, e1, e2, Or.inl rfl, not_lt.1 hr⟩

/-- The three indices of every triple are those of points. -/
def ValidTriples (pts : List (P2 K)) (l : List (Nat × Nat × Nat)) : Prop :=
  ∀ i ∈ l, i.1 < pts.length ∧ i.2.1 < pts.length ∧ i.2.2 < pts.length

theorem meshLoop_ok {pts : List (P2 K)} : ∀ {l : List (Nat × Nat × Nat)}, ValidTriples pts l →
    ∃ ts, meshLoop Cmp.direct pts l = .ok ts ∧ List.Forall₂ (MadeOf pts) (l.filter (ThreePoints pts ·)) ts
  | [], _ => ⟨[], rfl, List.Forall₂.nil⟩
  | i :: l, h => by
    obtain ⟨ts, h1, h2⟩ := meshLoop_ok (l := l) fun j hj => h j (List.mem_cons_of_mem _ hj)
    obtain ⟨k0, k1, k2⟩ := h i List.mem_cons_self
    rcases meshStep_ok k0 k1 k2 with ⟨hd, t, e, ht⟩ | ⟨hd, e⟩
    · refine ⟨t :: ts, by simp only [meshLoop, e, h1, Option.toList_some, List.singleton_append], ?_⟩
      rw [List.filter_cons_of_pos (by simpa using hd)]
      exact List.Forall₂.cons ht h2
    · refine ⟨ts, by simp only [meshLoop, e, h1, Option.toList_none, List.nil_append], ?_⟩
      rw [List.filter_cons_of_neg (by simpa using hd)]
      exact h2

theorem meshLoop_invalid {pts : List (P2 K)} : ∀ {l : List (Nat × Nat × Nat)}, ¬ ValidTriples pts l →
    meshLoop Cmp.direct pts l = .error .assertFailed
  | [], h => absurd (fun _ hj => absurd hj List.not_mem_nil) h
  | i :: l, h => by
    by_cases hi : i.1 < pts.length ∧ i.2.1 < pts.length ∧ i.2.2 < pts.length
    · have hl : ¬ ValidTriples pts l := fun hl => h fun j hj => by
        rcases List.mem_cons.1 hj with rfl | hj
        · exact hi
        · exact hl j hj
      rcases meshStep_ok hi.1 hi.2.1 hi.2.2 with ⟨_, t, e, _⟩ | ⟨_, e⟩
      · simp only [meshLoop, e, meshLoop_invalid hl]
      · simp only [meshLoop, e, meshLoop_invalid hl]
    · have : meshStep Cmp.direct pts i = .error .assertFailed := by
        unfold meshStep
        split
        · rename_i e0 e1 e2
          exact absurd ⟨(List.getElem?_eq_some_iff.1 e0).1, (List.getElem?_eq_some_iff.1 e1).1,
            (List.getElem?_eq_some_iff.1 e2).1⟩ hi
        · rfl
      simp only [meshLoop, this]

theorem integralLoop_eq {total : K} (h : total ≠ 0) : ∀ (ws : List K) (last : K),
    integralLoop total last ws = .ok ((List.range ws.length).map fun n => last + (ws.take (n + 1)).sum / total)
  | [], last => rfl
  | w :: ws, last => by
    simp only [integralLoop, cdiv_ok h, integralLoop_eq h ws]
    congr 1
    simp only [List.length_cons, List.range_succ_eq_map, List.map_cons, List.map_map]
    congr 1
    · simp
    · apply List.map_congr_left
      intro n _
      simp only [Function.comp, List.take_succ_cons, List.sum_cons]
      ring

theorem foldl_add_sum (ws : List K) : ∀ a : K, ws.foldl (· + ·) a = a + ws.sum := by
  induction ws with
  | nil => intro a; simp
  | cons w ws ih => intro a; simp only [List.foldl_cons, ih, List.sum_cons]; ring

/-- The sum of the areas. -/
def areaTotal (ts : List (MeshTri K)) : K := (ts.map triArea).sum

theorem areaTotal_nonneg (ts : List (MeshTri K)) : 0 ≤ areaTotal ts :=
  List.sum_nonneg (by simp only [List.mem_map]; rintro _ ⟨t, _, rfl⟩; exact triArea_nonneg t)

theorem areaTotal_pos {ts : List (MeshTri K)} {t : MeshTri K} (ht : t ∈ ts) (h : area2 t.a t.b t.c ≠ 0) :
    0 < areaTotal ts := by
  have h1 : 0 < triArea t := by
    unfold triArea
    have := abs_pos.2 h
    positivity
  have h2 : triArea t ≤ areaTotal ts :=
    List.single_le_sum (by simp only [List.mem_map]; rintro _ ⟨t, _, rfl⟩; exact triArea_nonneg t) _
      (List.mem_map_of_mem ht)
  linarith

/-- A mesh is made if its indices are those of points and its triangles have an area together. -/
theorem makeMesh_ok {pts : List (P2 K)} {indices : List Nat} (h : ValidTriples pts (inThrees indices)) :
    ∃ ts, meshLoop Cmp.direct pts (inThrees indices) = .ok ts ∧
      List.Forall₂ (MadeOf pts) ((inThrees indices).filter (ThreePoints pts ·)) ts ∧
      (areaTotal ts ≠ 0 → makeMesh Cmp.direct pts indices =
        .ok ⟨pts, ts, (List.range ts.length).map fun n => areaShare ts (n + 1)⟩) ∧
      (ts ≠ [] → areaTotal ts = 0 → makeMesh Cmp.direct pts indices = .error .divByZero) ∧
      (ts = [] → makeMesh Cmp.direct pts indices = .ok ⟨pts, [], []⟩) := by
  obtain ⟨ts, h1, h2⟩ := meshLoop_ok h
  refine ⟨ts, h1, h2, ?_, ?_, ?_⟩
  · intro h3
    unfold areaTotal at h3
    simp only [makeMesh, meshTriples_eq, h1, triWeights_eq, foldl_add_sum, zero_add, integralLoop_eq h3, List.length_map]
    congr 2
    apply List.map_congr_left
    intro n _
    simp only [areaShare, List.map_take]
  · intro h3 h4
    unfold areaTotal at h4
    obtain ⟨t, ts, rfl⟩ := List.exists_cons_of_ne_nil h3
    rw [List.map_cons] at h4
    simp only [makeMesh, meshTriples_eq, h1, triWeights_eq, foldl_add_sum, zero_add, List.map_cons, integralLoop,
      h4, cdiv, if_true]
  · rintro rfl
    simp only [makeMesh, meshTriples_eq, h1, triWeights, List.foldl_nil, integralLoop]

theorem forall₂_exists {α β : Type*} {R : α → β → Prop} {l : List α} {r : List β} (h : List.Forall₂ R l r) {a : α}
    (ha : a ∈ l) : ∃ b ∈ r, R a b := by
  induction h with
  | nil => simp at ha
  | cons hr _ ih =>
    rcases List.mem_cons.1 ha with rfl | ha
    · exact ⟨_, List.mem_cons_self, hr⟩
    · obtain ⟨b, hb, hab⟩ := ih ha
      exact ⟨b, List.mem_cons_of_mem _ hb, hab⟩

theorem forall₂_exists' {α β : Type*} {R : α → β → Prop} {l : List α} {r : List β} (h : List.Forall₂ R l r) {b : β}
    (hb : b ∈ r) : ∃ a ∈ l, R a b := forall₂_exists h.flip hb

theorem madeOf_area {pts : List (P2 K)} {i : Nat × Nat × Nat} {t : MeshTri K} (h : MadeOf pts i t) {a b c : P2 K}
    (ea : pts[i.1]? = some a) (eb : pts[i.2.1]? = some b) (ec : pts[i.2.2]? = some c) (hn : area2 a b c ≠ 0) :
    area2 t.a t.b t.c ≠ 0 := by
  obtain ⟨h0, h1, h2, h3 | h3, _⟩ := h
  · subst h3
    simp only [MeshTri.indices] at ea eb ec
    rw [h0, Option.some.injEq] at ea
    rw [h1, Option.some.injEq] at eb
    rw [h2, Option.some.injEq] at ec
    rw [ea, eb, ec]; exact hn
  · exact h3.2

/-- What a mesh holds. -/
theorem makeMesh_inv {pts : List (P2 K)} {indices : List Nat} {m : MeshBase K}
    (h : makeMesh Cmp.direct pts indices = .ok m) :
    m.points = pts ∧ List.Forall₂ (MadeOf pts) ((inThrees indices).filter (ThreePoints pts ·)) m.tris ∧
      m.integral = ((List.range m.tris.length).map fun n => areaShare m.tris (n + 1)) ∧
      (m.tris ≠ [] → areaTotal m.tris ≠ 0) := by
  by_cases hv : ValidTriples pts (inThrees indices)
  · obtain ⟨ts, _, h2, h3, h4, h5⟩ := makeMesh_ok hv
    by_cases he : ts = []
    · rw [h5 he] at h
      subst he
      obtain rfl := Except.ok.inj h
      exact ⟨rfl, h2, rfl, fun h => absurd rfl h⟩
    · by_cases ha : areaTotal ts = 0
      · rw [h4 he ha] at h; simp at h
      · rw [h3 ha] at h
        obtain rfl := Except.ok.inj h
        exact ⟨rfl, h2, rfl, fun _ => ha⟩
  · simp only [makeMesh, meshTriples_eq, meshLoop_invalid hv, reduceCtorEq] at h

/-! ## Random positions -/

theorem lowerBound_lt {l : List K} {v x : K} {k : Nat} (hk : k < lowerBound l v) (hx : l[k]? = some x) : x < v := by
  induction l generalizing k with
  | nil => simp at hx
  | cons y l ih =>
    unfold lowerBound at hk
    by_cases hy : y < v
    · rw [List.takeWhile_cons_of_pos (by simpa using hy), List.length_cons] at hk
      cases k with
      | zero => simp only [List.getElem?_cons_zero, Option.some.injEq] at hx; rw [← hx]; exact hy
      | succ k => exact ih (k := k) (by unfold lowerBound; omega) (by simpa using hx)
    · rw [List.takeWhile_cons_of_neg (by simpa using hy)] at hk
      simp at hk

theorem lowerBound_ge {l : List K} {v x : K} (hx : l[lowerBound l v]? = some x) : v ≤ x := by
  induction l with
  | nil => simp at hx
  | cons y l ih =>
    unfold lowerBound at hx
    by_cases hy : y < v
    · rw [List.takeWhile_cons_of_pos (by simpa using hy), List.length_cons, List.getElem?_cons_succ] at hx
      exact ih hx
    · rw [List.takeWhile_cons_of_neg (by simpa using hy)] at hx
      simp only [List.length_nil, List.getElem?_cons_zero, Option.some.injEq] at hx
      rw [← hx]; exact not_lt.1 hy

/-- The position that `lowerBound` gives is determined by its neighbours. -/
theorem lowerBound_eq {l : List K} {v x : K} {n : Nat} (hn : l[n]? = some x) (hx : v ≤ x)
    (hlt : ∀ k y, k < n → l[k]? = some y → y < v) : lowerBound l v = n := by
  rcases lt_trichotomy (lowerBound l v) n with h | h | h
  · have hl := (List.getElem?_eq_some_iff.1 hn).1
    have e := List.getElem?_eq_getElem (show lowerBound l v < l.length by omega)
    exact absurd (hlt _ _ h e) (not_lt.2 (lowerBound_ge e))
  · exact h
  · exact absurd (lowerBound_lt h hn) (not_lt.2 hx)

theorem areaShare_mono (ts : List (MeshTri K)) {m n : Nat} (h : m ≤ n) : areaShare ts m ≤ areaShare ts n := by
  unfold areaShare
  refine div_le_div_of_nonneg_right ?_ (areaTotal_nonneg ts)
  obtain ⟨k, rfl⟩ := Nat.exists_eq_add_of_le h
  rw [List.take_add, List.map_append, List.sum_append]
  have : 0 ≤ (List.map triArea (List.take k (List.drop m ts))).sum :=
    areaTotal_nonneg _
  linarith

theorem areaShare_zero (ts : List (MeshTri K)) : areaShare ts 0 = 0 := by simp [areaShare]

theorem areaShare_length {ts : List (MeshTri K)} (h : areaTotal ts ≠ 0) : areaShare ts ts.length = 1 := by
  unfold areaShare
  rw [List.take_length]
  exact div_self h

theorem areaShare_succ {ts : List (MeshTri K)} {n : Nat} {t : MeshTri K} (h : ts[n]? = some t) :
    areaShare ts (n + 1) - areaShare ts n = triArea t / areaTotal ts := by
  unfold areaShare areaTotal
  rw [List.take_add_one, h, ← sub_div, List.map_append, List.sum_append]
  simp

/-- Which triangle a random number selects. -/
theorem lowerBound_share {ts : List (MeshTri K)} (h : areaTotal ts ≠ 0) {r : K} (h0 : 0 ≤ r) (h1 : r ≤ 1) :
    ∃ n t, ts[n]? = some t ∧ lowerBound ((List.range ts.length).map fun n => areaShare ts (n + 1)) r = n ∧
      (areaShare ts n < r ∨ n = 0) ∧ r ≤ areaShare ts (n + 1) := by
  classical
  have hne : ts ≠ [] := by rintro rfl; simp [areaTotal] at h
  have hpos : 0 < ts.length := List.length_pos_iff.2 hne
  have hex : ∃ n, n < ts.length ∧ r ≤ areaShare ts (n + 1) :=
    ⟨ts.length - 1, by omega, by rw [Nat.sub_add_cancel hpos, areaShare_length h]; exact h1⟩
  have hs := Nat.find_spec hex
  have hm := fun k (hk : k < Nat.find hex) => Nat.find_min hex hk
  generalize Nat.find hex = n at hs hm
  refine ⟨n, ts[n]'hs.1, List.getElem?_eq_getElem hs.1, ?_, ?_, hs.2⟩
  · refine lowerBound_eq (x := areaShare ts (n + 1)) (by rw [List.getElem?_map, List.getElem?_range hs.1]; rfl) hs.2 ?_
    intro k y hk hy
    rw [List.getElem?_map, List.getElem?_range (by omega)] at hy
    simp only [Option.map_some, Option.some.injEq] at hy
    rw [← hy]
    by_contra hc
    exact hm k hk ⟨by omega, not_lt.1 hc⟩
  · cases n with
    | zero => exact Or.inr rfl
    | succ n =>
      left
      by_contra hc
      exact hm n (by omega) ⟨by omega, not_lt.1 hc⟩

/-- The position that the three random numbers give. -/
theorem randomPosition_ok {pts : List (P2 ℝ)} {ts : List (MeshTri ℝ)} (h : areaTotal ts ≠ 0) {rT r1 r2 : ℝ}
    (h0 : 0 ≤ rT) (h1 : rT ≤ 1) (h2 : 0 ≤ r1) (h3 : 0 ≤ r2) :
    ∃ n t, ts[n]? = some t ∧ (areaShare ts n < rT ∨ n = 0) ∧ rT ≤ areaShare ts (n + 1) ∧
      randomPosition ⟨pts, ts, (List.range ts.length).map fun n => areaShare ts (n + 1)⟩ rT r1 r2 =
        .ok (triPosition t (Real.sqrt r1) r2) := by
  obtain ⟨n, t, e1, e2, e3, e4⟩ := lowerBound_share h h0 h1
  have hne : ts ≠ [] := by rintro rfl; simp [areaTotal] at h
  refine ⟨n, t, e1, e3, e4, ?_⟩
  simp only [randomPosition, hne, if_false, h0, h1, h2, h3, and_self, not_true_eq_false, e2, e1, csqrt, not_lt.2 h2]

theorem triPosition_mem (t : MeshTri ℝ) {s r : ℝ} (h0 : 0 ≤ s) (h1 : s ≤ 1) (h2 : 0 ≤ r) (h3 : r ≤ 1) :
    InMeshTri t (triPosition t s r) :=
  ⟨1 - s, s * (1 - r), s * r, by linarith, mul_nonneg h0 (by linarith), mul_nonneg h0 h2, by ring, rfl⟩

/-- Two combinations of three points that are not on a line are equal only if they have the same weights. -/
theorem combo_inj {A B C : P2 K} (h : area2 A B C ≠ 0) {b c b' c' : K}
    (e : (1 - b - c) • A + b • B + c • C = (1 - b' - c') • A + b' • B + c' • C) : b = b' ∧ c = c' := by
  have ex := congrArg P2.x e
  have ey := congrArg P2.y e
  simp only [P2.add_x, P2.add_y, P2.smul_x, P2.smul_y] at ex ey
  unfold area2 at h
  have h1 : (b - b') * ((B.x - A.x) * (C.y - A.y) - (B.y - A.y) * (C.x - A.x)) = 0 := by
    linear_combination (C.y - A.y) * ex - (C.x - A.x) * ey
  have h2 : (c - c') * ((B.x - A.x) * (C.y - A.y) - (B.y - A.y) * (C.x - A.x)) = 0 := by
    linear_combination (B.x - A.x) * ey - (B.y - A.y) * ex
  have h3 : (B.x - A.x) * (C.y - A.y) - (B.y - A.y) * (C.x - A.x) ≠ 0 := h
  exact ⟨sub_eq_zero.1 ((mul_eq_zero.1 h1).resolve_right h3), sub_eq_zero.1 ((mul_eq_zero.1 h2).resolve_right h3)⟩

/-- The part of a triangle with the vertex `a` that is cut off by a line parallel to the opposite side, in the ratio `s`,
and a line through the vertex, in the ratio `v`. -/
theorem triPosition_part {t : MeshTri ℝ} (ht : area2 t.a t.b t.c ≠ 0) {u r s v : ℝ} (u0 : 0 ≤ u) (r0 : 0 ≤ r) (r1 : r ≤ 1)
    (s0 : 0 < s) (v0 : 0 < v) :
    InTriangle t.a (t.a + s • (t.b - t.a)) (t.a + s • ((1 - v) • (t.b - t.a) + v • (t.c - t.a))) (triPosition t u r) ↔
      u ≤ s ∧ (u = 0 ∨ r ≤ v) := by
  have hP : triPosition t u r = (1 - u * (1 - r) - u * r) • t.a + (u * (1 - r)) • t.b + (u * r) • t.c := by
    ext <;> simp only [triPosition, P2.add_x, P2.add_y, P2.smul_x, P2.smul_y] <;> ring
  constructor
  · rintro ⟨x, y, z, hx, hy, hz, hs, e⟩
    have hQ : x • t.a + y • (t.a + s • (t.b - t.a)) + z • (t.a + s • ((1 - v) • (t.b - t.a) + v • (t.c - t.a))) =
        (1 - (s * (y + z * (1 - v))) - (s * z * v)) • t.a + (s * (y + z * (1 - v))) • t.b + (s * z * v) • t.c := by
      have hx' : x = 1 - y - z := by linarith
      subst hx'
      ext <;> simp only [P2.add_x, P2.add_y, P2.smul_x, P2.smul_y, P2.sub_x, P2.sub_y] <;> ring
    rw [hP, hQ] at e
    obtain ⟨e1, e2⟩ := combo_inj ht e
    have e3 : u = s * (y + z) := by linear_combination e1 + e2
    have hyz : y + z ≤ 1 := by linarith
    refine ⟨by rw [e3]; nlinarith, ?_⟩
    by_cases hu : u = 0
    · exact Or.inl hu
    · right
      have hu' : 0 < u := lt_of_le_of_ne u0 (Ne.symm hu)
      have : u * r ≤ u * v := by
        rw [e2, e3]
        have : z ≤ y + z := by linarith
        have := mul_le_mul_of_nonneg_left this (mul_nonneg s0.le v0.le)
        linarith
      exact le_of_mul_le_mul_left this hu'
  · rintro ⟨h1, h2⟩
    by_cases hu : u = 0
    · refine ⟨1, 0, 0, by norm_num, le_refl _, le_refl _, by norm_num, ?_⟩
      subst hu
      ext <;> simp [triPosition]
    · have hr := h2.resolve_left hu
      refine ⟨1 - u / s, u / s * (1 - r / v), u / s * (r / v), ?_, ?_, ?_, by ring, ?_⟩
      · have : u / s ≤ 1 := (div_le_one s0).2 h1
        linarith
      · have : r / v ≤ 1 := (div_le_one v0).2 hr
        exact mul_nonneg (div_nonneg u0 s0.le) (by linarith)
      · exact mul_nonneg (div_nonneg u0 s0.le) (div_nonneg r0 v0.le)
      · rw [hP]
        ext <;> simp only [P2.add_x, P2.add_y, P2.smul_x, P2.smul_y, P2.sub_x, P2.sub_y] <;> field_simp <;> ring

theorem area2_part (A B C : P2 K) (s v : K) :
    area2 A (A + s • (B - A)) (A + s • ((1 - v) • (B - A) + v • (C - A))) = s ^ 2 * v * area2 A B C := by
  simp only [area2, P2.add_x, P2.add_y, P2.smul_x, P2.smul_y, P2.sub_x, P2.sub_y]; ring

end Geometrix
