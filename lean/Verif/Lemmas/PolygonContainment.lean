import Verif.Model.PolygonContainment
import Verif.Spec.PolygonContainment
import Verif.Lemmas.PointInPolygon
import Verif.Lemmas.CollinearSegments
import Verif.Lemmas.PolygonSimple
import Verif.Props.PointInPolygon
import Verif.Props.Between

/-!
# Polylines and polygons in a polygon
-/

set_option linter.unusedSectionVars false

namespace Geometrix

open Spec

variable {K : Type*} [Field K] [LinearOrder K] [IsStrictOrderedRing K]

/-! ## Sides -/

theorem onBoundary_iff_sides (poly : List (P2 K)) (X : P2 K) :
    OnBoundary poly X ↔ ∃ e ∈ sides poly, OnSegment e.1 e.2 X := by
  constructor
  · rintro ⟨i, A, B, h, hX⟩
    exact ⟨(A, B), (mem_sides_iff poly (A, B)).2 ⟨i, h⟩, hX⟩
  · rintro ⟨e, he, hX⟩
    obtain ⟨i, h⟩ := (mem_sides_iff poly e).1 he
    exact ⟨i, e.1, e.2, h, hX⟩

theorem vertex_onBoundary {poly : List (P2 K)} {v : P2 K} (hv : v ∈ poly) : OnBoundary poly v := by
  obtain ⟨i, hi, rfl⟩ := List.mem_iff_getElem.1 hv
  have hm : (i + 1) % poly.length < poly.length := Nat.mod_lt _ (by omega)
  exact ⟨i, poly[i], poly[(i + 1) % poly.length], ⟨List.getElem?_eq_getElem _, List.getElem?_eq_getElem _⟩,
    onSegment_left _ _⟩

theorem sides_proper {poly : List (P2 K)} (h : ProperPolygon poly) {e : P2 K × P2 K} (he : e ∈ sides poly) :
    e.1 ≠ e.2 := by
  obtain ⟨i, hi⟩ := (mem_sides_iff poly e).1 he
  exact h i _ _ hi

/-- At most one element of a list has the property. -/
theorem countP_le_one {α : Type*} (f : α → Bool) (l : List α)
    (h : ∀ (i j : Nat) (a b : α), l[i]? = some a → l[j]? = some b → f a = true → f b = true → i = j) :
    l.countP f ≤ 1 := by
  induction l with
  | nil => simp
  | cons x l ih =>
    rw [List.countP_cons]
    by_cases hx : f x = true
    · have : l.countP f = 0 := by
        rw [List.countP_eq_zero]
        intro a ha hfa
        obtain ⟨i, hi⟩ := List.mem_iff_getElem?.1 ha
        have := h 0 (i + 1) x a rfl (by simpa using hi) hx hfa
        omega
      rw [if_pos hx]; omega
    · rw [if_neg hx]
      refine ih (fun i j a b h1 h2 h3 h4 => ?_)
      have := h (i + 1) (j + 1) a b (by simpa using h1) (by simpa using h2) h3 h4
      omega

theorem sides_get {poly : List (P2 K)} {i : Nat} {e : P2 K × P2 K} :
    (sides poly)[i]? = some e ↔ IsPolygonEdge poly i e.1 e.2 := by
  unfold sides IsPolygonEdge
  constructor
  · intro hi
    rw [List.getElem?_zip_eq_some] at hi
    have hlt : i < poly.length := by
      by_contra hc
      rw [List.getElem?_eq_none (by omega)] at hi
      simp at hi
    rwa [List.getElem?_rotate hlt] at hi
  · intro hi
    have hlt : i < poly.length := by
      by_contra hc
      rw [List.getElem?_eq_none (by omega)] at hi
      simp at hi
    rw [List.getElem?_zip_eq_some, List.getElem?_rotate hlt]
    exact hi

/-- A point of a simple polygon that is not a vertex is on one side only. -/
theorem simple_unique {poly : List (P2 K)} (hs : SimplePolygon poly) {X : P2 K} (hX : X ∉ poly) {i j : Nat}
    {A B C D : P2 K} (h1 : IsPolygonEdge poly i A B) (h2 : IsPolygonEdge poly j C D) (k1 : OnSegment A B X)
    (k2 : OnSegment C D X) : i = j := by
  by_contra hij
  rcases hs i j A B C D X hij h1 h2 ⟨k1, k2⟩ with ⟨-, rfl⟩ | ⟨-, rfl⟩
  · exact hX (List.mem_of_getElem? h1.2)
  · exact hX (List.mem_of_getElem? h2.2)

theorem simple_count {poly : List (P2 K)} (hs : SimplePolygon poly) {X : P2 K} (hX : X ∉ poly) :
    sideCount poly (fun p q => OnSegment p q X) ≤ 1 := by
  classical
  unfold sideCount
  refine countP_le_one _ _ (fun i j a b h1 h2 h3 h4 => ?_)
  rw [decide_eq_true_eq] at h3 h4
  exact simple_unique hs hX (sides_get.1 h1) (sides_get.1 h2) h3 h4

/-- What `point_polygon_containment_or_on_border` says about a simple polygon. -/
theorem containment_simple (eps : K) {poly : List (P2 K)} (hl : 2 < poly.length) (hs : SimplePolygon poly) (X : P2 K) :
    ∃ c, polygonContainment Cmp.direct eps X poly = .ok c ∧ (c = .exterior ↔ ¬ InClosed poly X) := by
  classical
  refine ⟨_, C38_classify eps X poly hl (fun h => simple_count hs h), ?_⟩
  unfold InClosed
  rw [← pointInPolygon_iff]
  by_cases h1 : X ∈ poly
  · simp [h1, vertex_onBoundary h1]
  · by_cases h2 : OnBoundary poly X
    · simp [h1, h2]
    · cases h3 : pointInPolygon X poly <;> simp [h1, h2]

/-- The answer does not change along a segment that misses the border. -/
theorem closed_const {poly : List (P2 K)} {A B : P2 K} (h : ∀ X, OnSegment A B X → ¬ OnBoundary poly X) :
    InClosed poly A ↔ InClosed poly B := by
  classical
  have hc := crossing_parity' (A := A) (B := B) (poly := poly)
    (fun v hv hX => h v hX (vertex_onBoundary hv)) (h A (onSegment_left A B)) (h B (onSegment_right A B))
  have h0 : sideCount poly (SegmentsMeet A B) = 0 := by
    unfold sideCount
    rw [List.countP_eq_zero]
    intro e he
    rw [decide_eq_true_eq]
    rintro ⟨P, h1, h2⟩
    exact h P h1 ((onBoundary_iff_sides poly P).2 ⟨e, he, h2⟩)
  rw [h0] at hc
  have hiff := not_not.1 (fun hn => by have := hc.1 hn; simp at this)
  unfold InClosed
  rw [hiff]
  simp [h A (onSegment_left A B), h B (onSegment_right A B)]

/-! ## Between two hits -/

/-- A side that has no end between the parameters `a` and `b` and crosses the line there not either covers that part
or has no point in it. -/
theorem side_gap {o w C D : P2 K} (hw : w ≠ 0) (hCD : C ≠ D) {a b : K} (hab : a < b)
    (h1 : ∀ t : K, a < t → t < b → o + t • w ≠ C ∧ o + t • w ≠ D)
    (h2 : cross w (D - C) ≠ 0 → ∀ t : K, a < t → t < b → ¬ OnSegment C D (o + t • w)) :
    (∀ t : K, a < t → t < b → ¬ OnSegment C D (o + t • w)) ∨
      (∀ t : K, a ≤ t → t ≤ b → OnSegment C D (o + t • w)) := by
  by_cases hc : cross w (D - C) = 0
  · by_cases hex : ∃ t : K, a < t ∧ t < b ∧ OnSegment C D (o + t • w)
    · right
      obtain ⟨t, ta, tb, s, s0, s1, hs⟩ := hex
      obtain ⟨k, hk⟩ := (cross_eq_zero_iff hw).1 hc
      have hC : C = o + (t - s * k) • w := by
        have hx := congrArg P2.x hs; have hy := congrArg P2.y hs
        rw [hk] at hx hy
        simp only [P2.add_x, P2.smul_x, P2.add_y, P2.smul_y] at hx hy
        ext <;> simp only [P2.add_x, P2.smul_x, P2.add_y, P2.smul_y] <;> linarith
      have hD : D = o + (t - s * k + k) • w := by
        have : D = C + (D - C) := by ext <;> simp
        rw [this, hk, hC]
        ext <;> simp <;> ring
      generalize t - s * k = c at *
      have hcab := fun h h' => (h1 c h h').1 hC.symm
      have hdab := fun h h' => (h1 (c + k) h h').2 hD.symm
      have ht : Btw c (c + k) t := by
        rw [← onSegment_param (A := o) hw, ← hC, ← hD]; exact ⟨s, s0, s1, hs⟩
      intro r ra rb
      rw [hC, hD, onSegment_param hw]
      unfold Btw at *
      rcases lt_or_ge a c with k1 | k1
      · have k2 : b ≤ c := by by_contra hn; exact hcab k1 (not_le.1 hn)
        have k3 : c + k ≤ a := by
          by_contra hn
          rcases lt_or_ge (c + k) b with k4 | k4
          · exact hdab (not_le.1 hn) k4
          · rcases ht with ⟨h, h'⟩ | ⟨h, h'⟩ <;> linarith
        right; constructor <;> linarith
      · have k3 : b ≤ c + k := by
          by_contra hn
          rcases lt_or_ge a (c + k) with k4 | k4
          · exact hdab k4 (not_le.1 hn)
          · rcases ht with ⟨h, h'⟩ | ⟨h, h'⟩ <;> linarith
        left; constructor <;> linarith
    · left
      intro t ta tb ht
      exact hex ⟨t, ta, tb, ht⟩
  · exact Or.inl (h2 hc)

/-- No vertex and no crossing between the parameters `a` and `b`. -/
def Gap (poly : List (P2 K)) (o w : P2 K) (a b : K) : Prop :=
  (∀ t : K, a < t → t < b → o + t • w ∉ poly) ∧
    ∀ e ∈ sides poly, cross w (e.2 - e.1) ≠ 0 → ∀ t : K, a < t → t < b → ¬ OnSegment e.1 e.2 (o + t • w)

theorem gap_cases {poly : List (P2 K)} (hp : ProperPolygon poly) {o w : P2 K} (hw : w ≠ 0) {a b : K} (hab : a < b)
    (h : Gap poly o w a b) :
    (∀ t : K, a < t → t < b → ¬ OnBoundary poly (o + t • w)) ∨
      (∃ e ∈ sides poly, ∀ t : K, a ≤ t → t ≤ b → OnSegment e.1 e.2 (o + t • w)) := by
  by_cases hex : ∃ e ∈ sides poly, ∀ t : K, a ≤ t → t ≤ b → OnSegment e.1 e.2 (o + t • w)
  · exact Or.inr hex
  · left
    intro t ta tb hb
    obtain ⟨e, he, ht⟩ := (onBoundary_iff_sides _ _).1 hb
    have hv := vertex_of_side he
    rcases side_gap hw (sides_proper hp he) hab
      (fun t ta tb => ⟨fun h' => h.1 t ta tb (h' ▸ hv.1), fun h' => h.1 t ta tb (h' ▸ hv.2)⟩)
      (h.2 e he) with h' | h'
    · exact h' t ta tb ht
    · exact hex ⟨e, he, h'⟩

/-- If a point of the closed part is outside, all inner points are. -/
theorem gap_outside {poly : List (P2 K)} (hp : ProperPolygon poly) {o w : P2 K} (hw : w ≠ 0) {a b : K} (hab : a < b)
    (h : Gap poly o w a b) {t m : K} (ta : a ≤ t) (tb : t ≤ b) (ht : ¬ InClosed poly (o + t • w)) (ma : a < m)
    (mb : m < b) : ¬ InClosed poly (o + m • w) := by
  have htb : ¬ OnBoundary poly (o + t • w) := fun h => ht (Or.inl h)
  rcases gap_cases hp hw hab h with h' | ⟨e, he, h'⟩
  · rw [← closed_const (A := o + t • w) (B := o + m • w)]
    · exact ht
    · rintro X ⟨s, s0, s1, hs⟩ hX
      have hX' : X = o + (t + s * (m - t)) • w := by
        rw [hs]; ext <;> simp <;> ring
      rw [hX'] at hX
      rcases eq_or_lt_of_le s0 with rfl | s0
      · exact htb (by simpa using hX)
      · refine h' _ ?_ ?_ hX
        · nlinarith
        · nlinarith
  · exact absurd ((onBoundary_iff_sides _ _).2 ⟨e, he, h' t ta tb⟩) htb

/-- At a crossing inside a side, with no further hit between `a` and `c` and between `c` and `b`, a point on one of the
two sides is outside. -/
theorem crossing_outside {poly : List (P2 K)} (hp : ProperPolygon poly) (hs : SimplePolygon poly) {o w : P2 K}
    (hw : w ≠ 0) {a c b : K} (hac : a < c) (hcb : c < b) (h1 : Gap poly o w a c) (h2 : Gap poly o w c b)
    {e : P2 K × P2 K} (he : e ∈ sides poly) (hcr : cross w (e.2 - e.1) ≠ 0) (hc : OnSegment e.1 e.2 (o + c • w))
    (hv : o + c • w ∉ poly) :
    ¬ InClosed poly (o + ((a + c) / 2) • w) ∨ ¬ InClosed poly (o + ((c + b) / 2) • w) := by
  classical
  obtain ⟨i, hi⟩ := List.mem_iff_getElem?.1 he
  -- a side through the point is this side
  have hone : ∀ j f, (sides poly)[j]? = some f → OnSegment f.1 f.2 (o + c • w) → j = i := fun j f hj hf =>
    simple_unique hs hv (sides_get.1 hj) (sides_get.1 hi) hf hc
  -- no side covers a part that ends at the point
  have hno : ∀ x y : K, x < y → (x = c ∨ y = c) → Gap poly o w x y →
      ∀ t : K, x < t → t < y → ¬ OnBoundary poly (o + t • w) := by
    intro x y hxy hor hg
    rcases gap_cases hp hw hxy hg with h' | ⟨f, hf, h'⟩
    · exact h'
    · exfalso
      obtain ⟨j, hj⟩ := List.mem_iff_getElem?.1 hf
      have hji := hone j f hj (by rcases hor with rfl | rfl <;> [exact h' _ le_rfl hxy.le; exact h' _ hxy.le le_rfl])
      rw [hji, hi] at hj
      cases hj
      obtain ⟨s, -, -, hs⟩ := h' x le_rfl hxy.le
      obtain ⟨r, -, -, hr⟩ := h' y hxy.le le_rfl
      apply hcr
      have hx1 := congrArg P2.x hs; have hy1 := congrArg P2.y hs
      have hx2 := congrArg P2.x hr; have hy2 := congrArg P2.y hr
      simp only [P2.add_x, P2.smul_x, P2.add_y, P2.smul_y] at hx1 hy1 hx2 hy2
      have e1 : (y - x) * w.x = (r - s) * (e.2 - e.1).x := by linarith
      have e2 : (y - x) * w.y = (r - s) * (e.2 - e.1).y := by linarith
      have hyx : y - x ≠ 0 := by linarith
      apply mul_left_cancel₀ hyx
      unfold cross
      linear_combination (e.2 - e.1).y * e1 - (e.2 - e.1).x * e2
  have n1 := hno a c hac (Or.inr rfl) h1
  have n2 := hno c b hcb (Or.inl rfl) h2
  by_contra hn
  push Not at hn
  obtain ⟨m1, m2⟩ := hn
  have b1 : ¬ OnBoundary poly (o + ((a + c) / 2) • w) := n1 _ (by linarith) (by linarith)
  have b2 : ¬ OnBoundary poly (o + ((c + b) / 2) • w) := n2 _ (by linarith) (by linarith)
  have hseg : ∀ X, OnSegment (o + ((a + c) / 2) • w) (o + ((c + b) / 2) • w) X →
      ∃ t : K, X = o + t • w ∧ (a + c) / 2 ≤ t ∧ t ≤ (c + b) / 2 := by
    rintro X ⟨s, s0, s1, rfl⟩
    refine ⟨(a + c) / 2 + s * ((c + b) / 2 - (a + c) / 2), by ext <;> simp <;> ring, ?_, ?_⟩
    · have : 0 ≤ s * ((c + b) / 2 - (a + c) / 2) := mul_nonneg s0 (by linarith)
      linarith
    · have : s * ((c + b) / 2 - (a + c) / 2) ≤ 1 * ((c + b) / 2 - (a + c) / 2) :=
        mul_le_mul_of_nonneg_right s1 (by linarith)
      linarith
  have honly : ∀ X, OnSegment (o + ((a + c) / 2) • w) (o + ((c + b) / 2) • w) X → OnBoundary poly X →
      X = o + c • w := by
    intro X hX hb
    obtain ⟨t, rfl, t1, t2⟩ := hseg X hX
    rcases lt_trichotomy t c with h | rfl | h
    · exact absurd hb (n1 t (by linarith) h)
    · rfl
    · exact absurd hb (n2 t h (by linarith))
  have hcnt : sideCount poly (SegmentsMeet (o + ((a + c) / 2) • w) (o + ((c + b) / 2) • w)) = 1 := by
    refine le_antisymm ?_ ?_
    · unfold sideCount
      refine countP_le_one _ _ (fun j k f g hj hk hf hg => ?_)
      rw [decide_eq_true_eq] at hf hg
      obtain ⟨P, p1, p2⟩ := hf
      obtain ⟨Q, q1, q2⟩ := hg
      have eP := honly P p1 ((onBoundary_iff_sides _ _).2 ⟨f, List.mem_of_getElem? hj, p2⟩)
      have eQ := honly Q q1 ((onBoundary_iff_sides _ _).2 ⟨g, List.mem_of_getElem? hk, q2⟩)
      rw [eP] at p2
      rw [eQ] at q2
      rw [hone j f hj p2, hone k g hk q2]
    · unfold sideCount
      rw [Nat.one_le_iff_ne_zero, ne_eq, List.countP_eq_zero]
      intro h
      refine h e he ?_
      rw [decide_eq_true_eq]
      refine ⟨o + c • w, ?_, hc⟩
      rw [onSegment_param hw]
      left; constructor <;> linarith
  have hpar := (crossing_parity' (fun v hvm hX => hv (honly v hX (vertex_onBoundary hvm) ▸ hvm)) b1 b2).2 (by
    rw [hcnt]; exact odd_one)
  apply hpar
  unfold InClosed at m1 m2
  simp only [b1, b2, false_or] at m1 m2
  simp [m1, m2]

/-! ## Sorted lists -/

theorem sorted_cover {ts : List K} (hs : ts.Pairwise (· < ·)) {lo hi t : K} (hlo : lo ∈ ts) (hhi : hi ∈ ts)
    (h1 : lo ≤ t) (h2 : t ≤ hi) (hlh : lo < hi) : ∃ e ∈ openEdges ts, e.1 ≤ t ∧ t ≤ e.2 := by
  induction ts generalizing lo with
  | nil => simp at hlo
  | cons x rest ih =>
    obtain ⟨hx, hr⟩ := List.pairwise_cons.1 hs
    cases rest with
    | nil =>
      simp only [List.mem_singleton] at hlo hhi
      rw [hlo, hhi] at hlh; exact absurd hlh (lt_irrefl _)
    | cons y rest =>
      have hxl : x ≤ lo := by
        rcases List.mem_cons.1 hlo with rfl | h
        · exact le_rfl
        · exact (hx lo h).le
      by_cases hy : t ≤ y
      · exact ⟨(x, y), by simp [openEdges], hxl.trans h1, hy⟩
      · push Not at hy
        have hxy := hx y List.mem_cons_self
        have hhi' : hi ∈ y :: rest := by
          rcases List.mem_cons.1 hhi with rfl | h
          · linarith
          · exact h
        obtain ⟨e, he, h3⟩ := ih hr List.mem_cons_self hhi' hy.le (by linarith)
        exact ⟨e, by rw [openEdges]; exact List.mem_cons_of_mem _ he, h3⟩

theorem sorted_gap {ts : List K} (hs : ts.Pairwise (· < ·)) {e : K × K} (he : e ∈ openEdges ts) :
    e.1 ∈ ts ∧ e.2 ∈ ts ∧ e.1 < e.2 ∧ ∀ c ∈ ts, ¬ (e.1 < c ∧ c < e.2) := by
  induction ts with
  | nil => simp [openEdges] at he
  | cons x rest ih =>
    obtain ⟨hx, hr⟩ := List.pairwise_cons.1 hs
    cases rest with
    | nil => simp [openEdges] at he
    | cons y rest =>
      rw [openEdges] at he
      rcases List.mem_cons.1 he with rfl | he
      · refine ⟨by simp, by simp, hx y List.mem_cons_self, ?_⟩
        rintro c hc ⟨h1, h2⟩
        dsimp only at h1 h2
        rcases List.mem_cons.1 hc with rfl | hc
        · exact lt_irrefl _ h1
        · rcases List.mem_cons.1 hc with rfl | hc
          · exact lt_irrefl _ h2
          · exact lt_asymm h2 ((List.pairwise_cons.1 hr).1 c hc)
      · obtain ⟨h1, h2, h3, h4⟩ := ih hr he
        refine ⟨List.mem_cons_of_mem _ h1, List.mem_cons_of_mem _ h2, h3, ?_⟩
        rintro c hc ⟨k1, k2⟩
        rcases List.mem_cons.1 hc with rfl | hc
        · exact lt_asymm k1 (hx _ h1)
        · exact h4 c hc ⟨k1, k2⟩

theorem sorted_prev {ts : List K} (hs : ts.Pairwise (· < ·)) {c lo : K} (hc : c ∈ ts) (hlo : lo ∈ ts) (h : lo < c) :
    ∃ a, (a, c) ∈ openEdges ts := by
  induction ts generalizing lo with
  | nil => simp at hc
  | cons x rest ih =>
    obtain ⟨hx, hr⟩ := List.pairwise_cons.1 hs
    cases rest with
    | nil =>
      simp only [List.mem_singleton] at hlo hc
      rw [hlo, hc] at h; exact absurd h (lt_irrefl _)
    | cons y rest =>
      have hc' : c ∈ y :: rest := by
        rcases List.mem_cons.1 hc with rfl | h'
        · rcases List.mem_cons.1 hlo with rfl | h'
          · exact absurd h (lt_irrefl _)
          · exact absurd h (lt_asymm (hx lo h'))
        · exact h'
      by_cases hcy : c = y
      · exact ⟨x, by rw [hcy, openEdges]; exact List.mem_cons_self⟩
      · have : y < c := by
          rcases List.mem_cons.1 hc' with h' | h'
          · exact absurd h' hcy
          · exact (List.pairwise_cons.1 hr).1 c h'
        obtain ⟨a, ha⟩ := ih hr hc' List.mem_cons_self this
        exact ⟨a, by rw [openEdges]; exact List.mem_cons_of_mem _ ha⟩

theorem sorted_next {ts : List K} (hs : ts.Pairwise (· < ·)) {c hi : K} (hc : c ∈ ts) (hhi : hi ∈ ts) (h : c < hi) :
    ∃ b, (c, b) ∈ openEdges ts := by
  induction ts with
  | nil => simp at hc
  | cons x rest ih =>
    obtain ⟨hx, hr⟩ := List.pairwise_cons.1 hs
    cases rest with
    | nil =>
      simp only [List.mem_singleton] at hhi hc
      rw [hhi, hc] at h; exact absurd h (lt_irrefl _)
    | cons y rest =>
      rcases List.mem_cons.1 hc with rfl | hc'
      · exact ⟨y, by rw [openEdges]; exact List.mem_cons_self⟩
      · have hhi' : hi ∈ y :: rest := by
          rcases List.mem_cons.1 hhi with rfl | h'
          · exact absurd h (lt_asymm (hx c hc'))
          · exact h'
        obtain ⟨b, hb⟩ := ih hr hc' hhi'
        exact ⟨b, by rw [openEdges]; exact List.mem_cons_of_mem _ hb⟩

theorem openEdges_map {α β : Type*} (f : α → β) (l : List α) :
    openEdges (l.map f) = (openEdges l).map fun e => (f e.1, f e.2) := by
  induction l with
  | nil => rfl
  | cons x l ih =>
    cases l with
    | nil => rfl
    | cons y l =>
      simp only [List.map_cons, openEdges] at ih ⊢
      rw [ih]

theorem lexInsert_spec {S : List (P2 K)} (hS : S.Pairwise LexLT) (x : P2 K) :
    (setInsert (lexCompare Cmp.direct) S x).Pairwise LexLT ∧
      ∀ y, y ∈ setInsert (lexCompare Cmp.direct) S x ↔ y = x ∨ y ∈ S := by
  have htr : ∀ {a b c : P2 K}, LexLT a b → LexLT b c → LexLT a c := by
    intro a b c h1 h2
    rcases h1 with h1 | ⟨h1, h1'⟩ <;> rcases h2 with h2 | ⟨h2, h2'⟩
    · exact Or.inl (h1.trans h2)
    · exact Or.inl (h2 ▸ h1)
    · exact Or.inl (h1 ▸ h2)
    · exact Or.inr ⟨h1.trans h2, h1'.trans h2'⟩
  induction S with
  | nil => simp [setInsert]
  | cons e r ih =>
    obtain ⟨h1, h2⟩ := List.pairwise_cons.1 hS
    obtain ⟨i1, i2⟩ := ih h2
    rw [setInsert]
    by_cases hc : LexLT e x
    · rw [if_pos ((lexCompare_iff _ _).2 hc)]
      constructor
      · rw [List.pairwise_cons]
        refine ⟨fun y hy => ?_, i1⟩
        rcases (i2 y).1 hy with rfl | hy
        · exact hc
        · exact h1 y hy
      · intro y
        rw [List.mem_cons, i2, List.mem_cons]; tauto
    · rw [if_neg (fun h => hc ((lexCompare_iff _ _).1 h))]
      by_cases hc' : LexLT x e
      · rw [if_pos ((lexCompare_iff _ _).2 hc')]
        constructor
        · rw [List.pairwise_cons]
          refine ⟨fun y hy => ?_, hS⟩
          rcases List.mem_cons.1 hy with rfl | hy
          · exact hc'
          · exact htr hc' (h1 y hy)
        · intro y; rw [List.mem_cons]
      · rw [if_neg (fun h => hc' ((lexCompare_iff _ _).1 h))]
        have : x = e := by
          unfold LexLT at hc hc'
          push Not at hc hc'
          have hx : e.x = x.x := le_antisymm hc'.1 hc.1
          exact P2.ext hx.symm (le_antisymm (hc.2 hx) (hc'.2 hx.symm))
        refine ⟨hS, fun y => ?_⟩
        rw [this, List.mem_cons]; tauto

/-! ## Collecting the hits -/

theorem common_unique {A B C D X Y : P2 K} (h : cross (B - A) (D - C) ≠ 0) (hX : Common A B C D X)
    (hY : Common A B C D Y) : X = Y := by
  obtain ⟨⟨s, -, -, hs⟩, ⟨t, -, -, ht⟩⟩ := hX
  obtain ⟨⟨s', -, -, hs'⟩, ⟨t', -, -, ht'⟩⟩ := hY
  have e1 := congrArg P2.x (hs.symm.trans ht); have e2 := congrArg P2.y (hs.symm.trans ht)
  have f1 := congrArg P2.x (hs'.symm.trans ht'); have f2 := congrArg P2.y (hs'.symm.trans ht')
  simp only [P2.add_x, P2.smul_x, P2.add_y, P2.smul_y] at e1 e2 f1 f2
  have : (s - s') * cross (B - A) (D - C) = 0 := by
    unfold cross
    linear_combination (D - C).y * (e1 - f1) - (D - C).x * (e2 - f2)
  have hss : s = s' := by
    rcases mul_eq_zero.1 this with h' | h'
    · linarith
    · exact absurd h' h
  rw [hs, hs', hss]

theorem parallel_first {A B C D P Q : P2 K} (hb : isBetween Cmp.direct A B C true = true)
    (hp : parallelIntersection Cmp.direct A B C D = (.overlapping, [P, Q])) :
    P = C ∨ (isBetween Cmp.direct A B D true = false ∧ isBetween Cmp.direct C D A true = true ∧
      isBetween Cmp.direct C D B true = true) ∨ C = A ∨ C = B := by
  unfold parallelIntersection at hp
  dsimp only at hp
  rw [hb] at hp
  generalize isCollinear Cmp.direct A B C = x0 at hp
  generalize isBetween Cmp.direct A B D true = x1 at hp
  generalize isBetween Cmp.direct C D A true = x2 at hp
  generalize isBetween Cmp.direct C D B true = x3 at hp
  have hA : seqEquals Cmp.direct A C = true → C = A := fun h => ((seqEquals_direct A C).1 h).symm
  have hB : seqEquals Cmp.direct B C = true → C = B := fun h => ((seqEquals_direct B C).1 h).symm
  generalize seqEquals Cmp.direct A C = y0 at hp hA
  generalize seqEquals Cmp.direct B D = y1 at hp
  generalize seqEquals Cmp.direct A D = y2 at hp
  generalize seqEquals Cmp.direct B C = y3 at hp hB
  cases x0
  · simp at hp
  · cases x1
    · cases x2 <;> cases x3
      · cases y0 <;> cases y1 <;> cases y2 <;> cases y3 <;> simp at hp hA hB ⊢ <;> simp_all
      · simp at hp; exact Or.inl hp.1.symm
      · simp at hp; exact Or.inl hp.1.symm
      · exact Or.inr (Or.inl ⟨rfl, rfl, rfl⟩)
    · simp at hp; exact Or.inl hp.1.symm

/-- The first point that is written. -/
theorem seg_hit_first {A B C D : P2 K} (hAB : A ≠ B) (hCD : C ≠ D) (hex : ∃ X, Common A B C D X) :
    ∃ ty x pts, segSegIntersection Cmp.direct A B C D = .ok (ty, x :: pts) ∧
      (ty = .crossing ∨ ty = .endpoint ∨ ty = .overlapping) ∧ Common A B C D x ∧
      (OnSegment A B C → x = C ∨ C = A ∨ C = B) := by
  obtain ⟨ty, pts, hr, hc⟩ := C09_segment_segment A B C D hAB hCD
  have hv : B - A ≠ 0 := sub_ne_zero_P2 hAB
  by_cases hcr : cross (B - A) (D - C) = 0
  · obtain ⟨k, hk⟩ := (cross_eq_zero_iff hv).1 hcr
    obtain ⟨X, ⟨s, s0, s1, hs⟩, ⟨t, t0, t1, ht⟩⟩ := id hex
    have hC : C = A + (s - t * k) • (B - A) := by
      have hx := congrArg P2.x (hs.symm.trans ht); have hy := congrArg P2.y (hs.symm.trans ht)
      rw [hk] at hx hy
      simp only [P2.add_x, P2.smul_x, P2.add_y, P2.smul_y] at hx hy
      ext <;> simp only [P2.add_x, P2.smul_x, P2.add_y, P2.smul_y] <;> linarith
    have hD : D = A + (s - t * k + k) • (B - A) := by
      have : D = C + (D - C) := by ext <;> simp
      rw [this, hk]
      nth_rewrite 1 [hC]
      ext <;> simp <;> ring
    have hov : ty = .overlapping := hc.overlapping.2 ⟨⟨_, hC⟩, ⟨_, hD⟩, hex⟩
    obtain ⟨P, Q, hpts, hPQ⟩ := hc.part hov
    refine ⟨ty, P, [Q], by rw [hr, hpts], Or.inr (Or.inr hov), (hPQ P).2 (onSegment_left P Q), fun hon => ?_⟩
    have hd : xDenom A B C D = 0 := by rw [xDenom_eq]; linarith
    have hrun : segSegIntersection Cmp.direct A B C D = .ok (parallelIntersection Cmp.direct A B C D) := by
      simp [segSegIntersection, hd]
    rw [hr, hpts] at hrun
    have hpi := (Except.ok.inj hrun).symm
    have cAB : isBetween Cmp.direct A B C true = true := (C06_isBetween_closed A B C hAB).2 hon
    rw [hov] at hpi
    rcases parallel_first cAB hpi with h | ⟨h1, h2, h3⟩ | h
    · exact Or.inl h
    · right
      rw [C06_isBetween_closed C D A hCD] at h2
      rw [C06_isBetween_closed C D B hCD] at h3
      rw [← Bool.not_eq_true, C06_isBetween_closed A B D hAB] at h1
      generalize s - t * k = c at *
      have hA0 : A = A + (0 : K) • (B - A) := by ext <;> simp
      have hB1 : B = A + (1 : K) • (B - A) := by ext <;> simp
      have k1 : Btw c (c + k) 0 := by
        rw [← onSegment_param (A := A) hv, ← hC, ← hD, ← hA0]; exact h2
      have k2 : Btw c (c + k) 1 := by
        rw [← onSegment_param (A := A) hv, ← hC, ← hD, ← hB1]; exact h3
      have k3 : Btw 0 1 c := by
        rw [← onSegment_param (A := A) hv, ← hC, ← hA0, ← hB1]; exact hon
      have k4 : ¬ Btw 0 1 (c + k) := by
        rw [← onSegment_param (A := A) hv, ← hD, ← hA0, ← hB1]; exact h1
      have : c = 0 ∨ c = 1 := by
        unfold Btw at *
        grind
      rcases this with h | h
      · left; rw [hC, h, ← hA0]
      · right; rw [hC, h, ← hB1]
    · exact Or.inr h
  · obtain ⟨X, hX⟩ := id hex
    have huniq : ∀ Y, Common A B C D Y → Y = X := fun Y hY => common_unique hcr hY hX
    have hnp : ¬ Parallel (B - A) (D - C) := by
      rintro (⟨r, hr⟩ | ⟨r, hr⟩)
      · apply hcr; rw [hr]; simp only [cross, P2.smul_x, P2.smul_y]; ring
      · apply hcr; rw [hr]; simp only [cross, P2.smul_x, P2.smul_y]; ring
    have hty : ty = .crossing ∨ ty = .endpoint := by
      by_cases hend : X = A ∨ X = B ∨ X = C ∨ X = D
      · right; exact hc.endpoint.2 ⟨hnp, X, hX, hend⟩
      · left
        push Not at hend
        obtain ⟨⟨s, s0, s1, hs⟩, ⟨t, t0, t1, ht⟩⟩ := id hX
        refine hc.crossing.2 ⟨X, ⟨s, lt_of_le_of_ne s0 ?_, lt_of_le_of_ne s1 ?_, hs⟩,
          ⟨t, lt_of_le_of_ne t0 ?_, lt_of_le_of_ne t1 ?_, ht⟩, huniq⟩
        · rintro rfl; exact hend.1 (by rw [hs]; ext <;> simp)
        · rintro rfl; exact hend.2.1 (by rw [hs]; ext <;> simp)
        · rintro rfl; exact hend.2.2.1 (by rw [ht]; ext <;> simp)
        · rintro rfl; exact hend.2.2.2 (by rw [ht]; ext <;> simp)
    obtain ⟨P, hpts, hP⟩ := hc.point hty
    refine ⟨ty, P, [], by rw [hr, hpts], by tauto, (hP P).2 rfl, fun hon => Or.inl ?_⟩
    exact ((hP C).1 ⟨hon, onSegment_left C D⟩).symm

theorem collectHits_spec {A B : P2 K} (hAB : A ≠ B) (es : List (P2 K × P2 K)) (hes : ∀ e ∈ es, e.1 ≠ e.2)
    (xs : List (P2 K)) (hxs : xs.Pairwise LexLT) :
    ∃ r, collectHits Cmp.direct A B es xs = .ok r ∧ r.Pairwise LexLT ∧ (∀ y ∈ xs, y ∈ r) ∧
      (∀ y ∈ r, y ∈ xs ∨ ∃ e ∈ es, Common A B e.1 e.2 y) ∧
      (∀ e ∈ es, cross (B - A) (e.2 - e.1) ≠ 0 → ∀ X, Common A B e.1 e.2 X → X ∈ r) ∧
      (∀ e ∈ es, OnSegment A B e.1 → e.1 ∈ r ∨ e.1 = A ∨ e.1 = B) ∧
      (∀ e ∈ es, (∃ X, Common A B e.1 e.2 X) → r ≠ []) := by
  induction es generalizing xs with
  | nil => exact ⟨xs, rfl, hxs, fun y h => h, fun y h => Or.inl h, by simp, by simp, by simp⟩
  | cons e es ih =>
    obtain ⟨C, D⟩ := e
    have hCD := hes (C, D) List.mem_cons_self
    dsimp only at hCD
    by_cases hex : ∃ X, Common A B C D X
    · obtain ⟨ty, x, pts, hr, hty, hx, hfirst⟩ := seg_hit_first hAB hCD hex
      obtain ⟨i1, i2⟩ := lexInsert_spec hxs x
      obtain ⟨r, r1, r2, r3, r4, r5, r6, r7⟩ := ih (fun e he => hes e (List.mem_cons_of_mem _ he)) _ i1
      have hxr : x ∈ r := r3 x ((i2 x).2 (Or.inl rfl))
      refine ⟨r, ?_, r2, fun y hy => r3 y ((i2 y).2 (Or.inr hy)), ?_, ?_, ?_, ?_⟩
      · rw [collectHits, hr]
        dsimp only
        rw [if_pos hty, r1]
      · intro y hy
        rcases r4 y hy with h | ⟨e, he, h⟩
        · rcases (i2 y).1 h with rfl | h
          · exact Or.inr ⟨(C, D), List.mem_cons_self, hx⟩
          · exact Or.inl h
        · exact Or.inr ⟨e, List.mem_cons_of_mem _ he, h⟩
      · intro e he hcr X hX
        rcases List.mem_cons.1 he with rfl | he
        · rw [common_unique hcr hX hx]; exact hxr
        · exact r5 e he hcr X hX
      · intro e he hon
        rcases List.mem_cons.1 he with rfl | he
        · rcases hfirst hon with h | h
          · left; rw [← h]; exact hxr
          · exact Or.inr h
        · exact r6 e he hon
      · intro e _ _ h
        rw [h] at hxr; simp at hxr
    · obtain ⟨ty, pts, hr, hc⟩ := C09_segment_segment A B C D hAB hCD
      have hty : ty = .nonCrossing := hc.nonCrossing.2 hex
      obtain ⟨r, r1, r2, r3, r4, r5, r6, r7⟩ := ih (fun e he => hes e (List.mem_cons_of_mem _ he)) _ hxs
      refine ⟨r, ?_, r2, r3, ?_, ?_, ?_, ?_⟩
      · rw [collectHits, hr]
        dsimp only
        rw [if_neg (by rw [hty]; simp), r1]
      · intro y hy
        rcases r4 y hy with h | ⟨e, he, h⟩
        · exact Or.inl h
        · exact Or.inr ⟨e, List.mem_cons_of_mem _ he, h⟩
      · intro e he hcr X hX
        rcases List.mem_cons.1 he with rfl | he
        · exact absurd ⟨X, hX⟩ hex
        · exact r5 e he hcr X hX
      · intro e he hon
        rcases List.mem_cons.1 he with rfl | he
        · exact absurd ⟨C, hon, onSegment_left C D⟩ hex
        · exact r6 e he hon
      · intro e he hX
        rcases List.mem_cons.1 he with rfl | he
        · exact absurd hX hex
        · exact r7 e he hX

/-- The list with all hits, in terms of the parameter. -/
structure HitList (poly : List (P2 K)) (o w : P2 K) (ts : List K) : Prop where
  sorted : ts.Pairwise (· < ·)
  zero : 0 ∈ ts
  one : 1 ∈ ts
  range : ∀ t ∈ ts, 0 ≤ t ∧ t ≤ 1
  vertex : ∀ t : K, 0 ≤ t → t ≤ 1 → o + t • w ∈ poly → t ∈ ts
  cross : ∀ e ∈ sides poly, cross w (e.2 - e.1) ≠ 0 → ∀ t : K, 0 ≤ t → t ≤ 1 → OnSegment e.1 e.2 (o + t • w) → t ∈ ts

theorem HitList.gap {poly : List (P2 K)} {o w : P2 K} {ts : List K} (h : HitList poly o w ts) {e : K × K}
    (he : e ∈ openEdges ts) : Gap poly o w e.1 e.2 := by
  obtain ⟨h1, h2, h3, h4⟩ := sorted_gap h.sorted he
  have r1 := (h.range _ h1).1
  have r2 := (h.range _ h2).2
  refine ⟨fun t ta tb hv => h4 t (h.vertex t (by linarith) (by linarith) hv) ⟨ta, tb⟩, fun f hf hcr t ta tb ht => ?_⟩
  exact h4 t (h.cross f hf hcr t (by linarith) (by linarith) ht) ⟨ta, tb⟩

theorem segMidPoint_param (o w : P2 K) (a b : K) :
    segMidPoint (o + a • w) (o + b • w) = o + ((a + b) / 2) • w := by
  unfold segMidPoint
  ext <;> simp <;> ring

/-- The middle of some gap is outside exactly if some point of the segment is. -/
theorem HitList.outside_iff {poly : List (P2 K)} (hp : ProperPolygon poly) {o w : P2 K} (hw : w ≠ 0) {ts : List K}
    (h : HitList poly o w ts) :
    (∃ e ∈ openEdges ts, ¬ InClosed poly (o + ((e.1 + e.2) / 2) • w)) ↔
      ∃ t : K, 0 ≤ t ∧ t ≤ 1 ∧ ¬ InClosed poly (o + t • w) := by
  constructor
  · rintro ⟨e, he, hm⟩
    obtain ⟨h1, h2, h3, -⟩ := sorted_gap h.sorted he
    have r1 := (h.range _ h1).1
    have r2 := (h.range _ h2).2
    exact ⟨_, by linarith, by linarith, hm⟩
  · rintro ⟨t, t0, t1, ht⟩
    obtain ⟨e, he, h1, h2⟩ := sorted_cover h.sorted h.zero h.one t0 t1 zero_lt_one
    have hlt := (sorted_gap h.sorted he).2.2.1
    exact ⟨e, he, gap_outside hp hw hlt (h.gap he) h1 h2 ht (by linarith) (by linarith)⟩

/-- A crossing inside the segment and inside a side leads outside. -/
theorem HitList.crossing {poly : List (P2 K)} (hp : ProperPolygon poly) (hs : SimplePolygon poly) {o w : P2 K}
    (hw : w ≠ 0) {ts : List K} (h : HitList poly o w ts) {e : P2 K × P2 K} (he : e ∈ sides poly)
    (hcr : Geometrix.cross w (e.2 - e.1) ≠ 0) {t : K} (t0 : 0 < t) (t1 : t < 1) (ht : InsideSegment e.1 e.2 (o + t • w)) :
    ∃ t : K, 0 ≤ t ∧ t ≤ 1 ∧ ¬ InClosed poly (o + t • w) := by
  have hon : OnSegment e.1 e.2 (o + t • w) := by
    obtain ⟨s, s0, s1, hs⟩ := ht
    exact ⟨s, s0.le, s1.le, hs⟩
  have hmem := h.cross e he hcr t t0.le t1.le hon
  obtain ⟨a, ha⟩ := sorted_prev h.sorted hmem h.zero t0
  obtain ⟨b, hb⟩ := sorted_next h.sorted hmem h.one t1
  have hv : o + t • w ∉ poly := by
    intro hv
    obtain ⟨s, s0, s1, hs'⟩ := ht
    have hne := sides_proper hp he
    have n1 : o + t • w ≠ e.1 := by
      intro h'
      have : e.1 + s • (e.2 - e.1) = e.1 + (0 : K) • (e.2 - e.1) := by
        rw [← hs', h']; ext <;> simp
      exact s0.ne' (param_unique hne this)
    have n2 : o + t • w ≠ e.2 := by
      intro h'
      have : e.1 + s • (e.2 - e.1) = e.1 + (1 : K) • (e.2 - e.1) := by
        rw [← hs', h']; ext <;> simp
      exact s1.ne (param_unique hne this)
    obtain ⟨k, hk, hkv⟩ := List.mem_iff_getElem.1 hv
    have hm : (k + 1) % poly.length < poly.length := Nat.mod_lt _ (by omega)
    have hek : IsPolygonEdge poly k (o + t • w) poly[(k + 1) % poly.length] :=
      ⟨by rw [← hkv]; exact List.getElem?_eq_getElem _, List.getElem?_eq_getElem _⟩
    obtain ⟨j, hj⟩ := (mem_sides_iff poly e).1 he
    by_cases hjk : j = k
    · subst hjk
      have := hj.1; rw [hek.1] at this
      exact n1 (Option.some.inj this)
    · rcases hs j k _ _ _ _ (o + t • w) hjk hj hek ⟨hon, onSegment_left _ _⟩ with ⟨-, h'⟩ | ⟨h1, h'⟩
      · exact n2 h'
      · have := hj.1
        rw [h1, hek.2, ← h'] at this
        exact n1 (Option.some.inj this)
  have ga := sorted_gap h.sorted ha
  have gb := sorted_gap h.sorted hb
  have ra := (h.range _ ga.1).1
  have rb := (h.range _ gb.2.1).2
  have la := ga.2.2.1
  have lb := gb.2.2.1
  dsimp only at ra rb la lb
  rcases crossing_outside hp hs hw la lb (h.gap ha) (h.gap hb) he hcr hon hv with h' | h'
  · exact ⟨_, by linarith, by linarith, h'⟩
  · exact ⟨_, by linarith, by linarith, h'⟩

theorem to_params {o w : P2 K} (L : List (P2 K)) (h : ∀ y ∈ L, ∃ t : K, 0 ≤ t ∧ t ≤ 1 ∧ y = o + t • w) :
    ∃ ts : List K, L = ts.map (fun t => o + t • w) ∧ ∀ t ∈ ts, 0 ≤ t ∧ t ≤ 1 := by
  induction L with
  | nil => exact ⟨[], rfl, by simp⟩
  | cons y L ih =>
    obtain ⟨t, t0, t1, ht⟩ := h y List.mem_cons_self
    obtain ⟨ts, h1, h2⟩ := ih (fun z hz => h z (List.mem_cons_of_mem _ hz))
    refine ⟨t :: ts, by rw [h1, ht]; rfl, fun s hs => ?_⟩
    rcases List.mem_cons.1 hs with rfl | hs
    · exact ⟨t0, t1⟩
    · exact h2 s hs

/-- The segment from its lexicographically smaller end. -/
theorem segment_lex {A B : P2 K} (hAB : A ≠ B) :
    ∃ o w : P2 K, LexLT 0 w ∧ ((A = o ∧ B = o + w) ∨ (B = o ∧ A = o + w)) ∧
      (∀ X, OnSegment A B X ↔ ∃ t : K, 0 ≤ t ∧ t ≤ 1 ∧ X = o + t • w) ∧
      (∀ v, cross w v = 0 ↔ cross (B - A) v = 0) ∧
      (∀ X, InsideSegment A B X → ∃ t : K, 0 < t ∧ t < 1 ∧ X = o + t • w) := by
  have key : LexLT A B ∨ LexLT B A := by
    unfold LexLT
    rcases lt_trichotomy A.x B.x with h | h | h
    · exact Or.inl (Or.inl h)
    · rcases lt_trichotomy A.y B.y with h' | h' | h'
      · exact Or.inl (Or.inr ⟨h, h'⟩)
      · exact absurd (P2.ext h h') hAB
      · exact Or.inr (Or.inr ⟨h.symm, h'⟩)
    · exact Or.inr (Or.inl h)
  rcases key with h | h
  · refine ⟨A, B - A, ?_, Or.inl ⟨rfl, by ext <;> simp⟩, fun X => Iff.rfl, fun v => Iff.rfl, fun X h => h⟩
    unfold LexLT at *
    simpa [sub_eq_zero, eq_comm] using h
  · refine ⟨B, A - B, ?_, Or.inr ⟨rfl, by ext <;> simp⟩, fun X => ?_, fun v => ?_, ?_⟩
    · unfold LexLT at *
      simpa [sub_eq_zero, eq_comm] using h
    · exact (onSegment_swap A B X).trans Iff.rfl
    · simp only [cross, P2.sub_x, P2.sub_y]
      constructor <;> intro h <;> linarith
    · rintro X ⟨t, t0, t1, rfl⟩
      refine ⟨1 - t, by linarith, by linarith, ?_⟩
      ext <;> simp <;> ring

/-- The list of the hits together with the ends. -/
theorem hitList_exists {poly : List (P2 K)} (hp : ProperPolygon poly) {A B : P2 K} (hAB : A ≠ B) {o w : P2 K}
    (hw : LexLT 0 w) (hends : (A = o ∧ B = o + w) ∨ (B = o ∧ A = o + w))
    (hseg : ∀ X, OnSegment A B X ↔ ∃ t : K, 0 ≤ t ∧ t ≤ 1 ∧ X = o + t • w)
    (hcr : ∀ v, cross w v = 0 ↔ cross (B - A) v = 0) :
    ∃ r ts, collectHits Cmp.direct A B (ringEdges poly) [] = .ok r ∧
      setInsert (lexCompare Cmp.direct) (setInsert (lexCompare Cmp.direct) r A) B = ts.map (fun t => o + t • w) ∧
      HitList poly o w ts ∧ (r ≠ [] ↔ ∃ X, OnSegment A B X ∧ OnBoundary poly X) := by
  have hw0 := lex_ne_zero hw
  obtain ⟨r, h1, h2, -, h4, h5, h6, h7⟩ := collectHits_spec hAB (ringEdges poly)
    (fun e he => sides_proper hp he) [] List.Pairwise.nil
  obtain ⟨a1, a2⟩ := lexInsert_spec h2 A
  obtain ⟨b1, b2⟩ := lexInsert_spec a1 B
  have hmem : ∀ y, y ∈ setInsert (lexCompare Cmp.direct) (setInsert (lexCompare Cmp.direct) r A) B ↔
      y = B ∨ y = A ∨ y ∈ r := by
    intro y; rw [b2, a2]
  obtain ⟨ts, t1, t2⟩ := to_params (o := o) (w := w)
    (setInsert (lexCompare Cmp.direct) (setInsert (lexCompare Cmp.direct) r A) B) (by
      intro y hy
      rw [← hseg]
      rcases (hmem y).1 hy with rfl | rfl | h
      · exact onSegment_right _ _
      · exact onSegment_left _ _
      · rcases h4 y h with h | ⟨e, _, h⟩
        · simp at h
        · exact h.1)
  have hin : ∀ t : K, o + t • w ∈ setInsert (lexCompare Cmp.direct) (setInsert (lexCompare Cmp.direct) r A) B → t ∈ ts := by
    intro t ht
    rw [t1] at ht
    obtain ⟨s, hs, hst⟩ := List.mem_map.1 ht
    rw [← (param_inj hw0).1 hst]; exact hs
  have z0 : o + (0 : K) • w = o := by ext <;> simp
  have z1 : o + (1 : K) • w = o + w := by ext <;> simp
  refine ⟨r, ts, h1, t1, ⟨?_, ?_, ?_, t2, ?_, ?_⟩, ?_⟩
  · rw [t1, List.pairwise_map] at b1
    exact b1.imp (fun h => (lexLT_param hw _ _).1 h)
  · apply hin; rw [z0, hmem]
    rcases hends with ⟨h, -⟩ | ⟨h, -⟩
    · exact Or.inr (Or.inl h.symm)
    · exact Or.inl h.symm
  · apply hin; rw [z1, hmem]
    rcases hends with ⟨-, h⟩ | ⟨-, h⟩
    · exact Or.inl h.symm
    · exact Or.inr (Or.inl h.symm)
  · intro t s0 s1 hv
    apply hin
    rw [hmem]
    obtain ⟨k, hk, hkv⟩ := List.mem_iff_getElem.1 hv
    have hm : (k + 1) % poly.length < poly.length := Nat.mod_lt _ (by omega)
    have hek : IsPolygonEdge poly k (o + t • w) poly[(k + 1) % poly.length] :=
      ⟨by rw [← hkv]; exact List.getElem?_eq_getElem _, List.getElem?_eq_getElem _⟩
    rcases h6 _ ((mem_sides_iff poly (o + t • w, poly[(k + 1) % poly.length])).2 ⟨k, hek⟩)
      ((hseg _).2 ⟨t, s0, s1, rfl⟩) with h | h | h
    · exact Or.inr (Or.inr h)
    · exact Or.inr (Or.inl h)
    · exact Or.inl h
  · intro e he hc t s0 s1 hon
    apply hin
    rw [hmem]
    exact Or.inr (Or.inr (h5 e he (fun h => hc ((hcr _).2 h)) _ ⟨(hseg _).2 ⟨t, s0, s1, rfl⟩, hon⟩))
  · constructor
    · intro hr
      obtain ⟨y, hy⟩ := List.exists_mem_of_ne_nil r hr
      rcases h4 y hy with h | ⟨e, he, h⟩
      · simp at h
      · exact ⟨y, h.1, (onBoundary_iff_sides poly y).2 ⟨e, he, h.2⟩⟩
    · rintro ⟨X, hX, hb⟩
      obtain ⟨e, he, h⟩ := (onBoundary_iff_sides poly X).1 hb
      exact h7 e he ⟨X, hX, h⟩

theorem midOutside_ok (eps : K) {poly : List (P2 K)} (hl : 2 < poly.length) (hs : SimplePolygon poly) (e : P2 K × P2 K) :
    ∃ b, midOutside Cmp.direct eps poly e = .ok b ∧ (b = true ↔ ¬ InClosed poly (segMidPoint e.1 e.2)) := by
  obtain ⟨c, h1, h2⟩ := containment_simple eps hl hs (segMidPoint e.1 e.2)
  refine ⟨_, by rw [midOutside, h1], ?_⟩
  rw [decide_eq_true_eq, h2]

/-- A loop all of whose tests are decided. -/
theorem anyRes_iff {α : Type*} (f : α → Res Bool) (P : α → Prop) (l : List α)
    (h : ∀ a ∈ l, ∃ b, f a = .ok b ∧ (b = true ↔ P a)) :
    ∃ b, anyRes f l = .ok b ∧ (b = true ↔ ∃ a ∈ l, P a) := by
  classical
  refine ⟨_, anyRes_ok f (fun a => decide (P a)) l (fun a ha => ?_), ?_⟩
  · obtain ⟨b, h1, h2⟩ := h a ha
    rw [h1]
    congr 1
    rw [Bool.eq_iff_iff, h2, decide_eq_true_eq]
  · simp

/-- What `segment_projects_outside_polygon` decides. -/
theorem projectsOutside_iff (eps : K) {poly : List (P2 K)} (hl : 2 < poly.length) (hp : ProperPolygon poly)
    (hs : SimplePolygon poly) {A B : P2 K} (hAB : A ≠ B) :
    ∃ b, projectsOutside Cmp.direct eps A B poly = .ok b ∧
      (b = true ↔ (∃ X, OnSegment A B X ∧ OnBoundary poly X) ∧ ∃ X, OnSegment A B X ∧ ¬ InClosed poly X) := by
  obtain ⟨o, w, hw, hends, hseg, hcr, -⟩ := segment_lex hAB
  obtain ⟨r, ts, h1, h2, h3, h4⟩ := hitList_exists hp hAB hw hends hseg hcr
  have hw0 := lex_ne_zero hw
  unfold projectsOutside
  rw [h1]
  dsimp only
  by_cases hr : r = []
  · refine ⟨false, by rw [hr]; rfl, ?_⟩
    have : ¬ ∃ X, OnSegment A B X ∧ OnBoundary poly X := fun h => h4.2 h hr
    simp [this]
  · rw [if_pos (by cases r <;> simp_all), h2, openEdges_map]
    obtain ⟨b, k1, k2⟩ := anyRes_iff (midOutside Cmp.direct eps poly) (fun e => ¬ InClosed poly (segMidPoint e.1 e.2))
      ((openEdges ts).map fun e => (o + e.1 • w, o + e.2 • w)) (fun e _ => midOutside_ok eps hl hs e)
    refine ⟨b, k1, k2.trans ?_⟩
    have hb := h4.1 hr
    have ho := h3.outside_iff hp hw0
    constructor
    · rintro ⟨e, he, hm⟩
      obtain ⟨f, hf, rfl⟩ := List.mem_map.1 he
      rw [segMidPoint_param] at hm
      obtain ⟨t, t0, t1, ht⟩ := ho.1 ⟨f, hf, hm⟩
      exact ⟨hb, _, (hseg _).2 ⟨t, t0, t1, rfl⟩, ht⟩
    · rintro ⟨-, X, hX, hn⟩
      obtain ⟨t, t0, t1, rfl⟩ := (hseg _).1 hX
      obtain ⟨f, hf, hm⟩ := ho.2 ⟨t, t0, t1, hn⟩
      exact ⟨_, List.mem_map.2 ⟨f, hf, rfl⟩, by rw [segMidPoint_param]; exact hm⟩

/-- A segment that crosses a side has a point outside. -/
theorem crossing_leads_out {poly : List (P2 K)} (hp : ProperPolygon poly) (hs : SimplePolygon poly) {A B : P2 K}
    (hAB : A ≠ B) {e : P2 K × P2 K} (he : e ∈ sides poly) (hcr : cross (B - A) (e.2 - e.1) ≠ 0) {X : P2 K}
    (h1 : InsideSegment A B X) (h2 : InsideSegment e.1 e.2 X) : ∃ X, OnSegment A B X ∧ ¬ InClosed poly X := by
  obtain ⟨o, w, hw, hends, hseg, hc, hin⟩ := segment_lex hAB
  obtain ⟨r, ts, -, -, h3, -⟩ := hitList_exists hp hAB hw hends hseg hc
  obtain ⟨t, t0, t1, rfl⟩ := hin X h1
  obtain ⟨s, s0, s1, hn⟩ := h3.crossing hp hs (lex_ne_zero hw) he (fun h => hcr ((hc _).1 h)) t0 t1 h2
  exact ⟨_, (hseg _).2 ⟨s, s0, s1, rfl⟩, hn⟩

/-- A crossing in the sense of the classification is not parallel. -/
theorem crossing_not_parallel {A B C D : P2 K} (hAB : A ≠ B) (hCD : C ≠ D)
    (h : ∃ X, InsideSegment A B X ∧ InsideSegment C D X ∧ ∀ Y, Common A B C D Y → Y = X) :
    cross (B - A) (D - C) ≠ 0 := by
  obtain ⟨X, ⟨s, s0, s1, hs⟩, ⟨t, t0, t1, ht⟩, hu⟩ := h
  intro hcr
  obtain ⟨k, hk⟩ := (cross_eq_zero_iff (sub_ne_zero_P2 hAB)).1 hcr
  have hk0 : k ≠ 0 := by
    rintro rfl
    apply sub_ne_zero_P2 hCD
    rw [hk]; ext <;> simp
  have ha : 0 < |k| := abs_pos.2 hk0
  have hm : 0 < min t (1 - t) := lt_min t0 (by linarith)
  obtain ⟨d, d0, d1, d2⟩ : ∃ d : K, 0 < d ∧ d ≤ 1 - s ∧ d ≤ |k| * min t (1 - t) :=
    ⟨min (1 - s) (|k| * min t (1 - t)), lt_min (by linarith) (mul_pos ha hm), min_le_left _ _, min_le_right _ _⟩
  have hdk : |d / k| ≤ min t (1 - t) := by
    rw [abs_div, abs_of_pos d0, div_le_iff₀ ha]; linarith
  have e1 := (abs_le.1 hdk).1
  have e2 := (abs_le.1 hdk).2
  have m1 := min_le_left t (1 - t)
  have m2 := min_le_right t (1 - t)
  have hY := hu (A + (s + d) • (B - A)) ⟨⟨s + d, by linarith, by linarith, rfl⟩, ⟨t + d / k, by linarith, by linarith, by
    have : A + (s + d) • (B - A) = X + d • (B - A) := by
      rw [hs]; ext <;> simp <;> ring
    rw [this, ht, hk]
    ext <;> simp <;> field_simp <;> ring⟩⟩
  rw [hs] at hY
  have := param_unique hAB hY
  linarith

theorem isCrossingOut_any (eps : K) {poly : List (P2 K)} (hl : 2 < poly.length) (hp : ProperPolygon poly)
    (hs : SimplePolygon poly) {e : P2 K × P2 K} (he : e.1 ≠ e.2) :
    ∃ b, anyRes (isCrossingOut Cmp.direct eps poly e) (ringEdges poly) = .ok b ∧
      (b = true ↔ (∃ X, OnSegment e.1 e.2 X ∧ OnBoundary poly X) ∧ ∃ X, OnSegment e.1 e.2 X ∧ ¬ InClosed poly X) := by
  obtain ⟨b, h1, h2⟩ := anyRes_iff (isCrossingOut Cmp.direct eps poly e)
    (fun f => (∃ X, Common e.1 e.2 f.1 f.2 X) ∧ ∃ X, OnSegment e.1 e.2 X ∧ ¬ InClosed poly X) (ringEdges poly) (by
      intro f hf
      have hf' : f.1 ≠ f.2 := sides_proper hp hf
      obtain ⟨ty, pts, hr, hc⟩ := C09_segment_segment e.1 e.2 f.1 f.2 he hf'
      unfold isCrossingOut
      rw [hr]
      dsimp only
      by_cases h0 : ty = .nonCrossing
      · refine ⟨false, if_pos h0, ?_⟩
        have := hc.nonCrossing.1 h0
        simp [this]
      · have hX : ∃ X, Common e.1 e.2 f.1 f.2 X := by
          by_contra h
          exact h0 (hc.nonCrossing.2 h)
        rw [if_neg h0]
        by_cases hx : ty = .crossing
        · refine ⟨true, if_pos hx, ?_⟩
          have hcr := crossing_not_parallel he hf' (hc.crossing.1 hx)
          obtain ⟨X, k1, k2, -⟩ := hc.crossing.1 hx
          simp only [true_iff]
          exact ⟨hX, crossing_leads_out hp hs he hf hcr k1 k2⟩
        · rw [if_neg hx]
          obtain ⟨b, h1, h2⟩ := projectsOutside_iff eps hl hp hs he
          refine ⟨b, h1, h2.trans ?_⟩
          constructor
          · rintro ⟨-, h⟩; exact ⟨hX, h⟩
          · rintro ⟨-, h⟩
            obtain ⟨X, hX⟩ := hX
            exact ⟨⟨X, hX.1, (onBoundary_iff_sides poly X).2 ⟨f, hf, hX.2⟩⟩, h⟩)
  refine ⟨b, h1, h2.trans ?_⟩
  constructor
  · rintro ⟨f, hf, ⟨X, hX⟩, h⟩
    exact ⟨⟨X, hX.1, (onBoundary_iff_sides poly X).2 ⟨f, hf, hX.2⟩⟩, h⟩
  · rintro ⟨⟨X, hX, hb⟩, h⟩
    obtain ⟨f, hf, hX'⟩ := (onBoundary_iff_sides poly X).1 hb
    exact ⟨f, hf, ⟨X, hX, hX'⟩, h⟩

theorem vertexInside_any (eps : K) {poly : List (P2 K)} (hl : 2 < poly.length) (hs : SimplePolygon poly)
    (vs : List (P2 K)) :
    ∃ b, anyRes (vertexInside Cmp.direct eps poly) vs = .ok b ∧ (b = true ↔ ∃ v ∈ vs, InClosed poly v) := by
  refine anyRes_iff _ _ _ (fun v _ => ?_)
  obtain ⟨c, h1, h2⟩ := containment_simple eps hl hs v
  refine ⟨_, by rw [vertexInside, h1], ?_⟩
  rw [decide_eq_true_eq, ne_eq, h2, not_not]

/-- What the two functions decide: some vertex is inside, and no edge both reaches the border and has a point outside. -/
theorem containedBy_iff (eps : K) {poly : List (P2 K)} (hl : 2 < poly.length) (hp : ProperPolygon poly)
    (hs : SimplePolygon poly) (vs : List (P2 K)) (es : List (P2 K × P2 K)) (hes : ∀ e ∈ es, e.1 ≠ e.2) :
    ∃ b, containedBy Cmp.direct eps vs es poly = .ok b ∧
      (b = true ↔ (∃ v ∈ vs, InClosed poly v) ∧ ∀ e ∈ es, (∃ X, OnSegment e.1 e.2 X ∧ OnBoundary poly X) →
        ∀ X, OnSegment e.1 e.2 X → InClosed poly X) := by
  obtain ⟨b, h1, h2⟩ := vertexInside_any eps hl hs vs
  obtain ⟨c, k1, k2⟩ := anyRes_iff (fun e => anyRes (isCrossingOut Cmp.direct eps poly e) (ringEdges poly)) _ es
    (fun e he => isCrossingOut_any eps hl hp hs (hes e he))
  unfold containedBy
  rw [h1]
  cases b with
  | false =>
    refine ⟨false, rfl, ?_⟩
    have : ¬ ∃ v ∈ vs, InClosed poly v := fun h => by simpa using h2.2 h
    simp [this]
  | true =>
    dsimp only
    rw [k1]
    refine ⟨!c, rfl, ?_⟩
    rw [Bool.not_eq_true', ← Bool.not_eq_true, k2]
    constructor
    · intro h
      refine ⟨h2.1 rfl, fun e he hb X hX => ?_⟩
      by_contra hn
      exact h ⟨e, he, hb, X, hX, hn⟩
    · rintro ⟨-, h⟩ ⟨e, he, hb, X, hX, hn⟩
      exact hn (h e he hb X hX)

/-- On an edge that does not leave the polygon across the border, all points are inside or all are outside. -/
theorem edge_const {poly : List (P2 K)} {e : P2 K × P2 K}
    (h : (∃ X, OnSegment e.1 e.2 X ∧ OnBoundary poly X) → ∀ X, OnSegment e.1 e.2 X → InClosed poly X)
    {X Y : P2 K} (hX : OnSegment e.1 e.2 X) (hY : OnSegment e.1 e.2 Y) (hi : InClosed poly X) : InClosed poly Y := by
  by_cases hb : ∃ X, OnSegment e.1 e.2 X ∧ OnBoundary poly X
  · exact h hb Y hY
  · rw [← closed_const (A := X) (B := Y)]
    · exact hi
    · intro Z hZ hbz
      refine hb ⟨Z, ?_, hbz⟩
      obtain ⟨s, s0, s1, rfl⟩ := hX
      obtain ⟨t, t0, t1, rfl⟩ := hY
      obtain ⟨u, u0, u1, rfl⟩ := hZ
      refine ⟨s + u * (t - s), by nlinarith, by nlinarith, ?_⟩
      ext <;> simp <;> ring

/-- Along a chain of edges. -/
theorem chain_const {poly : List (P2 K)} (vs : List (P2 K))
    (h : ∀ e ∈ openEdges vs, ∀ X Y, OnSegment e.1 e.2 X → OnSegment e.1 e.2 Y → InClosed poly X → InClosed poly Y)
    {v w : P2 K} (hv : v ∈ vs) (hw : w ∈ vs) (hi : InClosed poly v) : InClosed poly w := by
  have key : ∀ (vs : List (P2 K)) (x : P2 K), (∀ e ∈ openEdges (x :: vs), ∀ X Y, OnSegment e.1 e.2 X →
      OnSegment e.1 e.2 Y → InClosed poly X → InClosed poly Y) → ∀ y ∈ x :: vs, (InClosed poly x ↔ InClosed poly y) := by
    intro vs
    induction vs with
    | nil => intro x _ y hy; simp at hy; rw [hy]
    | cons z vs ih =>
      intro x h y hy
      have hxz : InClosed poly x ↔ InClosed poly z := by
        have := h (x, z) (by simp [openEdges])
        exact ⟨this x z (onSegment_left _ _) (onSegment_right _ _), this z x (onSegment_right _ _) (onSegment_left _ _)⟩
      rcases List.mem_cons.1 hy with rfl | hy
      · rfl
      · exact hxz.trans (ih z (fun e he => h e (by simp only [openEdges] at he ⊢; exact List.mem_cons_of_mem _ he)) y hy)
  cases vs with
  | nil => simp at hv
  | cons x vs => exact ((key vs x h w hw).1 ((key vs x h v hv).2 hi))

end Geometrix
