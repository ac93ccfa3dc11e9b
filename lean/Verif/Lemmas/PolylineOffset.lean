import Verif.Model.PolylineOffset
import Verif.Spec.PolylineOffset
import Verif.Props.LineIntersection
import Verif.Lemmas.MeshCache

set_option linter.unusedSectionVars false

namespace Geometrix

open Spec

theorem normalize2_value {v : P2 ℝ} (h : v ≠ 0) : normalize2 v = .ok ((1 / Real.sqrt (normSq v)) • v) := by
  have hp : 0 < normSq v := normSq_pos h
  unfold normalize2
  rw [if_neg (Real.sqrt_pos.2 hp).ne']

/-- An edge moved. -/
theorem offsetEdge_spec {left : Bool} {d : ℝ} {A B : P2 ℝ} (h : A ≠ B) : ∃ n : P2 ℝ,
    offsetEdge left d A B = .ok (A + n, B + n) ∧ dot n (B - A) = 0 ∧ dot n n = d ^ 2 ∧
      cross (B - A) n = (if left then d else -d) * Real.sqrt (sqDist A B) := by
  have hv := sub_ne_zero_P2 h
  have hp : 0 < normSq (B - A) := normSq_pos hv
  have hs : 0 < Real.sqrt (normSq (B - A)) := Real.sqrt_pos.2 hp
  have hsq := Real.mul_self_sqrt hp.le
  have hq : sqDist A B = normSq (B - A) := by simp [sqDist, normSq, dot]; ring
  refine ⟨d • offsetNormal left ((1 / Real.sqrt (normSq (B - A))) • (B - A)), ?_, ?_, ?_, ?_⟩
  · unfold offsetEdge
    rw [normalize2_value hv]
  · cases left <;> simp [offsetNormal, leftNormal, rightNormal, dot] <;> ring
  · have e : dot (d • offsetNormal left ((1 / Real.sqrt (normSq (B - A))) • (B - A)))
        (d • offsetNormal left ((1 / Real.sqrt (normSq (B - A))) • (B - A))) =
        d ^ 2 * ((1 / Real.sqrt (normSq (B - A))) ^ 2 * normSq (B - A)) := by
      cases left <;> simp [offsetNormal, leftNormal, rightNormal, dot, normSq] <;> ring
    rw [e]
    have : (1 / Real.sqrt (normSq (B - A))) ^ 2 * normSq (B - A) = 1 := by
      rw [div_pow, one_pow, Real.sq_sqrt hp.le]
      field_simp
    rw [this, mul_one]
  · have e : cross (B - A) (d • offsetNormal left ((1 / Real.sqrt (normSq (B - A))) • (B - A))) =
        (if left then d else -d) * (1 / Real.sqrt (normSq (B - A)) * normSq (B - A)) := by
      cases left <;> simp [offsetNormal, leftNormal, rightNormal, cross, normSq, dot] <;> ring
    rw [e, hq]
    congr 1
    rw [one_div, inv_mul_eq_div, Real.div_sqrt]

theorem atOffset_line {left : Bool} {d : ℝ} {A B n P : P2 ℝ}
    (hn : cross (B - A) n = (if left then d else -d) * Real.sqrt (sqDist A B))
    (hP : ∃ s : ℝ, P = A + n + s • (B + n - (A + n))) : AtOffset left d A B P := by
  obtain ⟨s, rfl⟩ := hP
  unfold AtOffset
  rw [← hn]
  simp [area2, cross]
  ring

theorem offset_diff (A B n : P2 ℝ) : B + n - (A + n) = B - A := by ext <;> simp

theorem offset_ne {A B n : P2 ℝ} (h : A ≠ B) : A + n ≠ B + n := by
  intro e
  apply h
  have hx := congrArg P2.x e
  have hy := congrArg P2.y e
  simp at hx hy
  ext
  · exact hx
  · exact hy

/-- Along the list: edges are not of length zero, and consecutive edges are not parallel. -/
def Turns : List (P2 ℝ) → Prop
  | A :: B :: C :: rest => A ≠ B ∧ ¬ Parallel (B - A) (C - B) ∧ Turns (B :: C :: rest)
  | A :: B :: [] => A ≠ B
  | _ => True

theorem turns_edge {A B : P2 ℝ} {l : List (P2 ℝ)} (h : Turns (A :: B :: l)) : A ≠ B := by
  cases l with
  | nil => exact h
  | cons c l => exact h.1

theorem offsetLoop_spec (left : Bool) (d : ℝ) (junk : P2 ℝ) (rest : List (P2 ℝ)) : ∀ (A B n : P2 ℝ),
    Turns (A :: B :: rest) → cross (B - A) n = (if left then d else -d) * Real.sqrt (sqDist A B) → dot n (B - A) = 0 →
    ∃ r, offsetLoop Cmp.direct left d junk B (A + n) (B + n) rest = .ok r ∧ r.length = rest.length + 1 ∧
      (∀ P, AtOffset left d A B P → ∀ i U V X Y, IsEdge (A :: B :: rest) i U V → IsEdge (P :: r) i X Y →
        AtOffset left d U V X ∧ AtOffset left d U V Y) ∧
      ∀ i U V X, IsEdge (A :: B :: rest) i U V → i + 1 = (B :: rest).length → r[i]? = some X → dot (X - V) (V - U) = 0 := by
  induction rest with
  | nil =>
    intro A B n ht hn hp
    refine ⟨_, rfl, rfl, ?_, ?_⟩
    · rintro P hP i U V X Y ⟨h1, h2⟩ ⟨h3, h4⟩
      rcases i with _ | _ | i <;> simp at h1 h2 h3 h4
      subst h1 h2 h3 h4
      exact ⟨hP, atOffset_line hn ⟨1, by ext <;> simp <;> ring⟩⟩
    · rintro i U V X ⟨h1, h2⟩ hi h3
      simp at hi
      subst hi
      simp at h1 h2 h3
      subst h1 h2 h3
      have : B + n - B = n := by ext <;> simp
      rw [this, hp]
  | cons D rest ih =>
    intro A B n ht hn hp
    obtain ⟨m, e1, e2, -, e3⟩ := offsetEdge_spec (left := left) (d := d) (turns_edge ht.2.2)
    obtain ⟨r, g1, g2, g3, g4⟩ := ih B D m ht.2.2 e3 e2
    have hnp : ¬ Parallel (B + n - (A + n)) (D + m - (B + m)) := by
      rw [offset_diff, offset_diff]
      exact ht.2.1
    obtain ⟨X, s, t, -, f1, f2, f3, -⟩ := C10_line_line_crossing (A + n) (B + n) (B + m) (D + m) (offset_ne ht.1) hnp
    have hXA : AtOffset left d A B X := atOffset_line hn ⟨s, f2⟩
    have hXB : AtOffset left d B D X := atOffset_line e3 ⟨t, f3⟩
    refine ⟨X :: r, ?_, by simp [g2], ?_, ?_⟩
    · simp only [offsetLoop, e1, f1, g1, Option.getD_some]
    · rintro P hP i U V Y Z ⟨h1, h2⟩ ⟨h3, h4⟩
      cases i with
      | zero =>
        simp at h1 h2 h3 h4
        subst h1 h2 h3 h4
        exact ⟨hP, hXA⟩
      | succ i =>
        exact g3 X hXB i U V Y Z ⟨by simpa using h1, by simpa using h2⟩ ⟨by simpa using h3, by simpa using h4⟩
    · rintro i U V Y ⟨h1, h2⟩ hi h3
      cases i with
      | zero => simp at hi
      | succ i =>
        refine g4 i U V Y ⟨by simpa using h1, by simpa using h2⟩ ?_ (by simpa using h3)
        simpa using hi

theorem turns_of {l : List (P2 ℝ)} (h1 : ∀ i A B, IsEdge l i A B → A ≠ B)
    (h2 : ∀ i A B C, IsEdge l i A B → l[i + 2]? = some C → ¬ Parallel (B - A) (C - B)) : Turns l := by
  induction l with
  | nil => trivial
  | cons A l ih =>
    cases l with
    | nil => trivial
    | cons B l =>
      cases l with
      | nil => exact h1 0 A B ⟨rfl, rfl⟩
      | cons C l =>
        refine ⟨h1 0 A B ⟨rfl, rfl⟩, h2 0 A B C ⟨rfl, rfl⟩ rfl, ih ?_ ?_⟩
        · rintro i U V ⟨g1, g2⟩
          exact h1 (i + 1) U V ⟨by simpa using g1, by simpa using g2⟩
        · rintro i U V W ⟨g1, g2⟩ g3
          exact h2 (i + 1) U V W ⟨by simpa using g1, by simpa using g2⟩ (by simpa using g3)

/-- All of it, for one side. -/
theorem polylineOffsetImpl_spec (left : Bool) (d : ℝ) (junk : P2 ℝ) (poly : List (P2 ℝ)) (h : 2 ≤ poly.length)
    (h1 : ∀ i A B, IsEdge poly i A B → A ≠ B)
    (h2 : ∀ i A B C, IsEdge poly i A B → poly[i + 2]? = some C → ¬ Parallel (B - A) (C - B)) :
    ∃ r, polylineOffsetImpl Cmp.direct left d junk poly = .ok r ∧ r.length = poly.length ∧
      (∀ i A B P Q, IsEdge poly i A B → IsEdge r i P Q → AtOffset left d A B P ∧ AtOffset left d A B Q) ∧
      (∀ A B P, IsEdge poly 0 A B → r[0]? = some P → dot (P - A) (B - A) = 0) ∧
      ∀ i A B Q, IsEdge poly i A B → i + 2 = poly.length → r[i + 1]? = some Q → dot (Q - B) (B - A) = 0 := by
  match poly, h with
  | A :: B :: rest, _ =>
    have ht := turns_of h1 h2
    obtain ⟨n, e1, e2, -, e3⟩ := offsetEdge_spec (left := left) (d := d) (turns_edge ht)
    obtain ⟨r, g1, g2, g3, g4⟩ := offsetLoop_spec left d junk rest A B n ht e3 e2
    refine ⟨(A + n) :: r, ?_, by simp [g2], ?_, ?_, ?_⟩
    · simp only [polylineOffsetImpl, e1, g1]
    · intro i U V P Q he hr
      exact g3 (A + n) (atOffset_line e3 ⟨0, by ext <;> simp⟩) i U V P Q he hr
    · rintro U V P ⟨k1, k2⟩ k3
      simp at k1 k2 k3
      subst k1 k2 k3
      have : A + n - A = n := by ext <;> simp
      rw [this, e2]
    · intro i U V Q he hi hQ
      refine g4 i U V Q he ?_ (by simpa using hQ)
      simpa using hi

theorem atOffset_end {left : Bool} {d : ℝ} {A B n : P2 ℝ}
    (hn : cross (B - A) n = (if left then d else -d) * Real.sqrt (sqDist A B)) :
    AtOffset left d A B (A + n) ∧ AtOffset left d A B (B + n) :=
  ⟨atOffset_line hn ⟨0, by ext <;> simp⟩, atOffset_line hn ⟨1, by ext <;> simp <;> ring⟩⟩

/-- The normals of two edges that go the same way. -/
theorem offset_straight {left : Bool} {d k : ℝ} {A B D n m : P2 ℝ} (hk : 0 < k) (he : D - B = k • (B - A))
    (hn : cross (B - A) n = (if left then d else -d) * Real.sqrt (sqDist A B)) :
    AtOffset left d B D (B + n) := by
  have hq : sqDist B D = k ^ 2 * sqDist A B := by
    have hx := congrArg P2.x he
    have hy := congrArg P2.y he
    simp at hx hy
    have : sqDist B D = (D.x - B.x) ^ 2 + (D.y - B.y) ^ 2 := by simp [sqDist]; ring
    rw [this, hx, hy]
    simp [sqDist]
    ring
  unfold AtOffset
  rw [hq, Real.sqrt_mul (sq_nonneg k), Real.sqrt_sq hk.le]
  have : area2 B D (B + n) = cross (D - B) n := by simp [area2, cross]
  rw [this, he]
  have : cross (k • (B - A)) n = k * cross (B - A) n := by simp [cross]; ring
  rw [this, hn]
  ring

/-- What is pushed at a vertex: one point on the lines of both moved edges, or the end of the first and the start of the
second. -/
theorem untrimmedPush_spec {left : Bool} {d : ℝ} {A B D n m : P2 ℝ} (hAB : A ≠ B) (hBD : B ≠ D)
    (hu : ¬ ∃ k : ℝ, k < 0 ∧ D - B = k • (B - A))
    (hn : cross (B - A) n = (if left then d else -d) * Real.sqrt (sqDist A B))
    (hm : cross (D - B) m = (if left then d else -d) * Real.sqrt (sqDist B D)) :
    (∃ X, untrimmedPush Cmp.direct (A + n) (B + n) (B + m) (D + m) = .ok [X] ∧ AtOffset left d A B X ∧
      AtOffset left d B D X) ∨
    untrimmedPush Cmp.direct (A + n) (B + n) (B + m) (D + m) = .ok [B + n, B + m] := by
  by_cases hp : Parallel (B + n - (A + n)) (D + m - (B + m))
  · obtain ⟨r, f1, -, f2, -, f3⟩ :=
      C10_line_line_parallel (A + n) (B + n) (B + m) (D + m) (offset_ne hAB) (offset_ne hBD) hp
    have hp' := hp
    rw [offset_diff, offset_diff, parallel_iff_cross (sub_ne_zero_P2 hAB), cross_eq_zero_iff (sub_ne_zero_P2 hAB)] at hp'
    obtain ⟨k, hk⟩ := hp'
    have hk0 : 0 < k := by
      rcases lt_trichotomy k 0 with h | h | h
      · exact absurd ⟨k, h, hk⟩ hu
      · exfalso
        apply sub_ne_zero_P2 hBD
        rw [hk, h]
        ext <;> simp
      · exact h
    have hX := offset_straight (m := m) hk0 hk hn
    have hon : OnLine (B + m) (D + m) (B + n) := by
      have h0 : cross (D - B) (n - m) = 0 := by
        have h1 : area2 B D (B + n) = cross (D - B) n := by simp [area2, cross]
        have h2 : cross (D - B) (n - m) = cross (D - B) n - cross (D - B) m := by simp [cross]; ring
        rw [h2, ← h1, hX, hm, sub_self]
      obtain ⟨t, ht⟩ := (cross_eq_zero_iff (sub_ne_zero_P2 hBD)).1 h0
      refine ⟨t, ?_⟩
      rw [offset_diff, ← ht]
      ext <;> simp
    have hr : r = .overlapping := by
      rcases f2 with h | h
      · exact h
      · exact absurd ⟨B + n, ⟨1, by ext <;> simp <;> ring⟩, hon⟩ (f3.1 h)
    subst hr
    left
    refine ⟨B + n, ?_, (atOffset_end hn).2, hX⟩
    simp only [untrimmedPush, f1]
  · obtain ⟨X, s, t, f1, -, f2, f3, -⟩ := C10_line_line_crossing (A + n) (B + n) (B + m) (D + m) (offset_ne hAB) hp
    have hXA : AtOffset left d A B X := atOffset_line hn ⟨s, f2⟩
    have hXB : AtOffset left d B D X := atOffset_line hm ⟨t, f3⟩
    simp only [untrimmedPush, f1]
    split_ifs
    · exact Or.inl ⟨_, rfl, hXA, hXB⟩
    · exact Or.inl ⟨_, rfl, hXA, hXB⟩
    · exact Or.inr rfl
    · exact Or.inr rfl

theorem sign_flip {a p x g : ℝ} (hp : 0 < p) (hg : 0 < g) (h : a * p = -(x * g)) : 0 < a ↔ x < 0 := by
  constructor
  · intro ha
    by_contra hh
    have h1 := mul_nonneg (not_lt.1 hh) hg.le
    have h2 := mul_pos ha hp
    linarith
  · intro hx
    by_contra hh
    have h1 := mul_neg_of_neg_of_pos hx hg
    have h2 := mul_nonpos_of_nonpos_of_nonneg (not_lt.1 hh) hp.le
    linarith

/-- Where the lines of two moved edges meet. -/
theorem corner_params {e L M s t : ℝ} {A B D n m : P2 ℝ} (hL : 0 < L) (hM : 0 < M) (hL2 : L ^ 2 = dot (B - A) (B - A))
    (hM2 : M ^ 2 = dot (D - B) (D - B)) (hC : cross (B - A) (D - B) ≠ 0)
    (hn : cross (B - A) n = e * L) (hn0 : dot n (B - A) = 0) (hm : cross (D - B) m = e * M) (hm0 : dot m (D - B) = 0)
    (h : A + n + s • (B - A) = B + m + t • (D - B)) :
    (1 < s ↔ e * cross (B - A) (D - B) < 0) ∧ (t < 0 ↔ e * cross (B - A) (D - B) < 0) := by
  have hG : 0 < L * M - dot (B - A) (D - B) := by
    have h1 : (L * M) ^ 2 = dot (B - A) (D - B) ^ 2 + cross (B - A) (D - B) ^ 2 := by
      rw [mul_pow, hL2, hM2]; simp [dot, cross]; ring
    have h2 : 0 < cross (B - A) (D - B) ^ 2 := by positivity
    have h3 : 0 < L * M := by positivity
    nlinarith
  have hx := congrArg P2.x h
  have hy := congrArg P2.y h
  simp only [dot, cross, P2.add_x, P2.add_y, P2.sub_x, P2.sub_y, P2.smul_x, P2.smul_y] at *
  generalize hux : B.x - A.x = ux at *
  generalize huy : B.y - A.y = uy at *
  generalize hwx : D.x - B.x = wx at *
  generalize hwy : D.y - B.y = wy at *
  have hx' : n.x - m.x + (s - 1) * ux - t * wx = 0 := by linear_combination hx + hux
  have hy' : n.y - m.y + (s - 1) * uy - t * wy = 0 := by linear_combination hy + huy
  have n1 : L * (n.x * wy - n.y * wx) = -e * (ux * wx + uy * wy) := by
    apply mul_left_cancel₀ hL.ne'
    linear_combination (n.x * wy - n.y * wx) * hL2 + (ux * wy - uy * wx) * hn0 - (ux * wx + uy * wy) * hn
  have m1 : M * (m.x * uy - m.y * ux) = -e * (ux * wx + uy * wy) := by
    apply mul_left_cancel₀ hM.ne'
    linear_combination (m.x * uy - m.y * ux) * hM2 + (wx * uy - wy * ux) * hm0 - (ux * wx + uy * wy) * hm
  have k1 : (s - 1) * L * (ux * wy - uy * wx) = -e * (L * M - (ux * wx + uy * wy)) := by
    linear_combination L * wy * hx' - L * wx * hy' - n1 - L * hm
  have k2 : t * M * (ux * wy - uy * wx) = e * (L * M - (ux * wx + uy * wy)) := by
    linear_combination M * uy * hx' - M * ux * hy' + m1 + M * hn
  have hC2 : 0 < (ux * wy - uy * wx) ^ 2 := by positivity
  generalize ux * wy - uy * wx = c at *
  generalize L * M - (ux * wx + uy * wy) = g at *
  have j1 : (s - 1) * (L * c ^ 2) = -(e * c * g) := by linear_combination c * k1
  have j2 : t * (M * c ^ 2) = e * c * g := by linear_combination c * k2
  have p1 : 0 < L * c ^ 2 := by positivity
  have p2 : 0 < M * c ^ 2 := by positivity
  exact ⟨by rw [← sub_pos]; exact sign_flip p1 hG j1, by
    rw [← neg_pos]; exact sign_flip p2 hG (by linear_combination -j2)⟩

/-- What is pushed at a corner. -/
theorem untrimmedPush_corner {left : Bool} {d : ℝ} {A B D n m : P2 ℝ} (hAB : A ≠ B) (hBD : B ≠ D)
    (hp : ¬ Parallel (B - A) (D - B))
    (hn : cross (B - A) n = (if left then d else -d) * Real.sqrt (sqDist A B)) (hn0 : dot n (B - A) = 0)
    (hm : cross (D - B) m = (if left then d else -d) * Real.sqrt (sqDist B D)) (hm0 : dot m (D - B) = 0) :
    ∃ X, AtOffset left d A B X ∧ AtOffset left d B D X ∧
      (((if left then d else -d) * area2 A B D < 0 ∨ OnSegment (A + n) (B + n) X ∧ OnSegment (B + m) (D + m) X) →
        untrimmedPush Cmp.direct (A + n) (B + n) (B + m) (D + m) = .ok [X]) ∧
      (¬ ((if left then d else -d) * area2 A B D < 0 ∨ OnSegment (A + n) (B + n) X ∧ OnSegment (B + m) (D + m) X) →
        untrimmedPush Cmp.direct (A + n) (B + n) (B + m) (D + m) = .ok [B + n, B + m]) := by
  have hp' : ¬ Parallel (B + n - (A + n)) (D + m - (B + m)) := by rwa [offset_diff, offset_diff]
  obtain ⟨X, s, t, f1, -, f2, f3, -⟩ := C10_line_line_crossing (A + n) (B + n) (B + m) (D + m) (offset_ne hAB) hp'
  have hC : cross (B - A) (D - B) ≠ 0 := fun h => hp ((parallel_iff_cross (sub_ne_zero_P2 hAB)).2 h)
  have hL : 0 < sqDist A B := by
    have := normSq_pos (sub_ne_zero_P2 hAB)
    have e : sqDist A B = normSq (B - A) := by simp [sqDist, normSq, dot]; ring
    rwa [e]
  have hM : 0 < sqDist B D := by
    have := normSq_pos (sub_ne_zero_P2 hBD)
    have e : sqDist B D = normSq (D - B) := by simp [sqDist, normSq, dot]; ring
    rwa [e]
  have ha : area2 A B D = cross (B - A) (D - B) := by simp [area2, cross]; ring
  have hst : A + n + s • (B - A) = B + m + t • (D - B) := by
    rw [offset_diff] at f2 f3
    rw [← f2, ← f3]
  obtain ⟨k1, k2⟩ := corner_params (Real.sqrt_pos.2 hL) (Real.sqrt_pos.2 hM)
    (by rw [Real.sq_sqrt hL.le]; simp [sqDist, dot]; ring) (by rw [Real.sq_sqrt hM.le]; simp [sqDist, dot]; ring)
    hC hn hn0 hm hm0 hst
  rw [← ha] at k1 k2
  have o1 : OnSegment (A + n) (B + n) X ↔ 0 ≤ s ∧ s ≤ 1 := by
    constructor
    · rintro ⟨s', h0, h1, h⟩
      rw [param_unique (offset_ne hAB) (f2.symm.trans h)]
      exact ⟨h0, h1⟩
    · exact fun h => ⟨s, h.1, h.2, f2⟩
  have o2 : OnSegment (B + m) (D + m) X ↔ 0 ≤ t ∧ t ≤ 1 := by
    constructor
    · rintro ⟨s', h0, h1, h⟩
      rw [param_unique (offset_ne hBD) (f3.symm.trans h)]
      exact ⟨h0, h1⟩
    · exact fun h => ⟨t, h.1, h.2, f3⟩
  refine ⟨X, atOffset_line hn ⟨s, f2⟩, atOffset_line hm ⟨t, f3⟩, ?_, ?_⟩
  · rw [o1, o2, ← k1]
    rintro (h | ⟨⟨h1, h2⟩, h3, h4⟩)
    · have ht : t < 0 := k2.2 (k1.1 h)
      have c1 : classifyXPoint Cmp.direct s = .pfip := by
        simp [classifyXPoint, Cmp.direct, not_lt.2 (by linarith : (0 : ℝ) ≤ s), h]
      have c2 : classifyXPoint Cmp.direct t = .nfip := by simp [classifyXPoint, Cmp.direct, ht]
      simp [untrimmedPush, f1, c1, c2]
    · have c1 : classifyXPoint Cmp.direct s = .tip := by simp [classifyXPoint, Cmp.direct, not_lt.2 h1, not_lt.2 h2]
      have c2 : classifyXPoint Cmp.direct t = .tip := by simp [classifyXPoint, Cmp.direct, not_lt.2 h3, not_lt.2 h4]
      simp [untrimmedPush, f1, c1, c2]
  · rw [o1, o2, ← k1]
    intro h
    rw [not_or, not_lt] at h
    obtain ⟨hs, h⟩ := h
    have ht : 0 ≤ t := by
      by_contra hh
      exact absurd (k1.2 (k2.1 (not_le.1 hh))) (not_lt.2 hs)
    have c0 : classifyXPoint Cmp.direct s ≠ .pfip := by
      unfold classifyXPoint
      split_ifs with a b
      · simp
      · exact absurd ((direct_gt _ _).1 b) (not_lt.2 hs)
      · simp
    have c1 : ¬ (classifyXPoint Cmp.direct s = .tip ∧ classifyXPoint Cmp.direct t = .tip) := by
      rintro ⟨a, b⟩
      apply h
      simp only [classifyXPoint, Cmp.direct] at a b
      refine ⟨⟨?_, hs⟩, ht, ?_⟩
      · by_contra hh
        simp [not_le.1 hh] at a
      · by_contra hh
        simp [not_le.1 hh, not_lt.2 ht] at b
    simp only [untrimmedPush, f1]
    rw [if_neg c1]
    split_ifs <;> simp_all

/-- Along the list: edges are not of length zero, and no edge turns back on the one before. -/
def NoUTurns : List (P2 ℝ) → Prop
  | A :: B :: C :: rest => A ≠ B ∧ (¬ ∃ k : ℝ, k < 0 ∧ C - B = k • (B - A)) ∧ NoUTurns (B :: C :: rest)
  | A :: B :: [] => A ≠ B
  | _ => True

theorem noUTurns_edge {A B : P2 ℝ} {l : List (P2 ℝ)} (h : NoUTurns (A :: B :: l)) : A ≠ B := by
  cases l with
  | nil => exact h
  | cons c l => exact h.1

theorem edge_succ_iff {K : Type*} {P : P2 K} {l : List (P2 K)} {i : Nat} {A B : P2 K} :
    IsEdge (P :: l) (i + 1) A B ↔ IsEdge l i A B := by
  simp [IsEdge]

theorem edge_zero_iff {K : Type*} {P Q : P2 K} {l : List (P2 K)} {A B : P2 K} :
    IsEdge (P :: Q :: l) 0 A B ↔ P = A ∧ Q = B := by
  simp [IsEdge]

theorem sqDist_moved {d : ℝ} {V n : P2 ℝ} (h : dot n n = d ^ 2) : sqDist V (V + n) = d ^ 2 := by
  rw [← h]
  simp [sqDist, dot]
  ring

theorem untrimmedLoop_spec (left : Bool) (d : ℝ) (rest : List (P2 ℝ)) : ∀ (A B n : P2 ℝ),
    NoUTurns (A :: B :: rest) → cross (B - A) n = (if left then d else -d) * Real.sqrt (sqDist A B) →
    dot n (B - A) = 0 → dot n n = d ^ 2 →
    ∃ r, untrimmedLoop Cmp.direct left d B (A + n) (B + n) rest = .ok r ∧
      (∀ P, AtOffset left d A B P →
        (∀ i U V, IsEdge (A :: B :: rest) i U V → ∃ j X Y, IsEdge (P :: r) j X Y ∧ AtOffset left d U V X ∧
          AtOffset left d U V Y) ∧
        ∀ j X Y, IsEdge (P :: r) j X Y →
          (∃ i U V, IsEdge (A :: B :: rest) i U V ∧ AtOffset left d U V X ∧ AtOffset left d U V Y) ∨
          ∃ V ∈ (B :: rest).dropLast, sqDist V X = d ^ 2 ∧ sqDist V Y = d ^ 2) ∧
      ∃ U V X, (∃ i, IsEdge (A :: B :: rest) i U V ∧ i + 1 = (B :: rest).length) ∧ r.getLast? = some X ∧
        dot (X - V) (V - U) = 0 ∧ AtOffset left d U V X := by
  induction rest with
  | nil =>
    intro A B n ht hn hp hd
    refine ⟨_, rfl, ?_, A, B, B + n, ⟨0, ⟨rfl, rfl⟩, rfl⟩, rfl, ?_, (atOffset_end hn).2⟩
    · intro P hP
      constructor
      · intro i U V hi
        cases i with
        | zero =>
          obtain ⟨rfl, rfl⟩ := edge_zero_iff.1 hi
          exact ⟨0, P, B + n, ⟨rfl, rfl⟩, hP, (atOffset_end hn).2⟩
        | succ i => obtain ⟨h1, h2⟩ := hi; simp at h2
      · intro j X Y hj
        cases j with
        | zero =>
          obtain ⟨rfl, rfl⟩ := edge_zero_iff.1 hj
          exact Or.inl ⟨0, A, B, ⟨rfl, rfl⟩, hP, (atOffset_end hn).2⟩
        | succ i => obtain ⟨h1, h2⟩ := hj; simp at h2
    · have : B + n - B = n := by ext <;> simp
      rw [this, hp]
  | cons D rest ih =>
    intro A B n ht hn hp hd
    obtain ⟨m, e1, e2, e4, e3⟩ := offsetEdge_spec (left := left) (d := d) (noUTurns_edge ht.2.2)
    obtain ⟨r, g1, g2, U, V, Z, ⟨i, g3, g3'⟩, g4, g5, g6⟩ := ih B D m ht.2.2 e3 e2 e4
    have hV : ∀ V ∈ (D :: rest).dropLast, V ∈ (B :: D :: rest).dropLast := by
      intro V hV
      rw [List.dropLast_cons_of_ne_nil (by simp)]
      exact List.mem_cons_of_mem _ hV
    rcases untrimmedPush_spec ht.1 (noUTurns_edge ht.2.2) ht.2.1 hn e3 with ⟨X, f1, hXA, hXB⟩ | f1
    · refine ⟨X :: r, by simp only [untrimmedLoop, e1, f1, g1, List.cons_append, List.nil_append], ?_, U, V, Z,
        ⟨i + 1, edge_succ_iff.2 g3, by simpa using g3'⟩, ?_, g5, g6⟩
      · intro P hP
        obtain ⟨k1, k2⟩ := g2 X hXB
        constructor
        · intro i U V hi
          cases i with
          | zero =>
            obtain ⟨rfl, rfl⟩ := edge_zero_iff.1 hi
            exact ⟨0, P, X, ⟨rfl, rfl⟩, hP, hXA⟩
          | succ i =>
            obtain ⟨j, Y, Z, h1, h2⟩ := k1 i U V (edge_succ_iff.1 hi)
            exact ⟨j + 1, Y, Z, edge_succ_iff.2 h1, h2⟩
        · intro j Y Z hj
          cases j with
          | zero =>
            obtain ⟨rfl, rfl⟩ := edge_zero_iff.1 hj
            exact Or.inl ⟨0, A, B, ⟨rfl, rfl⟩, hP, hXA⟩
          | succ j =>
            rcases k2 j Y Z (edge_succ_iff.1 hj) with ⟨i, U, V, h1, h2⟩ | ⟨V, h1, h2⟩
            · exact Or.inl ⟨i + 1, U, V, edge_succ_iff.2 h1, h2⟩
            · exact Or.inr ⟨V, hV V h1, h2⟩
      · rw [List.getLast?_cons, g4]; rfl
    · refine ⟨(B + n) :: (B + m) :: r, by simp only [untrimmedLoop, e1, f1, g1, List.cons_append, List.nil_append], ?_,
        U, V, Z, ⟨i + 1, edge_succ_iff.2 g3, by simpa using g3'⟩, ?_, g5, g6⟩
      · intro P hP
        obtain ⟨k1, k2⟩ := g2 (B + m) (atOffset_end e3).1
        constructor
        · intro i U V hi
          cases i with
          | zero =>
            obtain ⟨rfl, rfl⟩ := edge_zero_iff.1 hi
            exact ⟨0, P, B + n, ⟨rfl, rfl⟩, hP, (atOffset_end hn).2⟩
          | succ i =>
            obtain ⟨j, Y, Z, h1, h2⟩ := k1 i U V (edge_succ_iff.1 hi)
            exact ⟨j + 2, Y, Z, edge_succ_iff.2 (edge_succ_iff.2 h1), h2⟩
        · intro j Y Z hj
          cases j with
          | zero =>
            obtain ⟨rfl, rfl⟩ := edge_zero_iff.1 hj
            exact Or.inl ⟨0, A, B, ⟨rfl, rfl⟩, hP, (atOffset_end hn).2⟩
          | succ j =>
            cases j with
            | zero =>
              obtain ⟨rfl, rfl⟩ := edge_zero_iff.1 (edge_succ_iff.1 hj)
              exact Or.inr ⟨B, by simp, sqDist_moved hd, sqDist_moved e4⟩
            | succ j =>
              rcases k2 j Y Z (edge_succ_iff.1 (edge_succ_iff.1 hj)) with ⟨i, U, V, h1, h2⟩ | ⟨V, h1, h2⟩
              · exact Or.inl ⟨i + 1, U, V, edge_succ_iff.2 h1, h2⟩
              · exact Or.inr ⟨V, hV V h1, h2⟩
      · rw [List.getLast?_cons, List.getLast?_cons, g4]; rfl

theorem noUTurns_of {l : List (P2 ℝ)} (h1 : ∀ i A B, IsEdge l i A B → A ≠ B)
    (h2 : ∀ i A B C, IsEdge l i A B → l[i + 2]? = some C → ¬ ∃ k : ℝ, k < 0 ∧ C - B = k • (B - A)) : NoUTurns l := by
  induction l with
  | nil => trivial
  | cons A l ih =>
    cases l with
    | nil => trivial
    | cons B l =>
      cases l with
      | nil => exact h1 0 A B ⟨rfl, rfl⟩
      | cons C l =>
        refine ⟨h1 0 A B ⟨rfl, rfl⟩, h2 0 A B C ⟨rfl, rfl⟩ rfl, ih ?_ ?_⟩
        · intro i U V g
          exact h1 (i + 1) U V (edge_succ_iff.2 g)
        · intro i U V W g g3
          exact h2 (i + 1) U V W (edge_succ_iff.2 g) (by simpa using g3)

theorem untrimmedOffset_spec (left : Bool) (d : ℝ) (poly : List (P2 ℝ)) (h : 2 ≤ poly.length)
    (h1 : ∀ i A B, IsEdge poly i A B → A ≠ B)
    (h2 : ∀ i A B C, IsEdge poly i A B → poly[i + 2]? = some C → ¬ ∃ k : ℝ, k < 0 ∧ C - B = k • (B - A)) :
    ∃ r, untrimmedOffset Cmp.direct left d poly = .ok r ∧
      (∀ i A B, IsEdge poly i A B →
        ∃ j X Y, IsEdge r j X Y ∧ AtOffset left d A B X ∧ AtOffset left d A B Y) ∧
      (∀ j X Y, IsEdge r j X Y →
        (∃ i A B, IsEdge poly i A B ∧ AtOffset left d A B X ∧ AtOffset left d A B Y) ∨
        ∃ V ∈ poly.tail.dropLast, sqDist V X = d ^ 2 ∧ sqDist V Y = d ^ 2) ∧
      (∀ A B, IsEdge poly 0 A B → ∃ X, r.head? = some X ∧ AtOffset left d A B X ∧ dot (X - A) (B - A) = 0) ∧
      ∀ i A B, IsEdge poly i A B → i + 2 = poly.length →
        ∃ X, r.getLast? = some X ∧ AtOffset left d A B X ∧ dot (X - B) (B - A) = 0 := by
  match poly, h with
  | A :: B :: rest, _ =>
    have ht := noUTurns_of h1 h2
    obtain ⟨n, e1, e2, e4, e3⟩ := offsetEdge_spec (left := left) (d := d) (noUTurns_edge ht)
    obtain ⟨r, g1, g2, U, V, Z, ⟨i, g3, g3'⟩, g4, g5, g6⟩ := untrimmedLoop_spec left d rest A B n ht e3 e2 e4
    obtain ⟨k1, k2⟩ := g2 (A + n) (atOffset_end e3).1
    refine ⟨(A + n) :: r, by simp only [untrimmedOffset, e1, g1], k1, k2, ?_, ?_⟩
    · intro U V hUV
      obtain ⟨rfl, rfl⟩ := edge_zero_iff.1 hUV
      refine ⟨_, rfl, (atOffset_end e3).1, ?_⟩
      have : A + n - A = n := by ext <;> simp
      rw [this, e2]
    · intro i' U' V' hUV hi
      have : i' = i := by simp at hi g3'; omega
      subst this
      obtain ⟨a1, a2⟩ := hUV
      obtain ⟨b1, b2⟩ := g3
      rw [a1] at b1
      rw [a2] at b2
      cases b1
      cases b2
      exact ⟨Z, by rw [List.getLast?_cons, g4]; rfl, g6, g5⟩

end Geometrix
