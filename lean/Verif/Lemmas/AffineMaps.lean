import Verif.Spec.AffineMaps
import Verif.Spec.SolidBsp
import Verif.Lemmas.RegionArea
import Verif.Lemmas.SeparatingAxis
import Verif.Spec.PolygonSimple
import Verif.Model.Rotation

/-!
# Helper lemmas: affine maps, the sides of polygons and `point_in_polygon`
-/

set_option linter.unusedSectionVars false

namespace Geometrix

open Spec

variable {K : Type*} [Field K] [LinearOrder K] [IsStrictOrderedRing K]

theorem rayEdge_area (z p q : P2 K) : rayEdge z q p = true ↔
    (p.y ≤ z.y ∧ z.y < q.y ∧ 0 < area2 p q z) ∨ (q.y ≤ z.y ∧ z.y < p.y ∧ area2 p q z < 0) := by
  rw [rayEdge_iff]
  rcases le_total p.y q.y with h | h
  · rw [crossesRay_iff h]
    constructor
    · exact Or.inl
    · rintro (h1 | ⟨h1, h2, -⟩)
      · exact h1
      · exact absurd (h.trans h1) (not_le.2 h2)
  · rw [crossesRay_down h]
    constructor
    · exact Or.inr
    · rintro (⟨h1, h2, -⟩ | h1)
      · exact absurd (h.trans h1) (not_le.2 h2)
      · exact h1

/-- If for each side the map changes whether it is counted exactly if one end of it is in a given set and the other one is not, the map does not
change the result. -/
theorem pip_same {poly : List (P2 K)} {z z' : P2 K} {f : P2 K → P2 K} (F : P2 K → Prop)
    (h : ∀ e ∈ sides poly, (rayEdge z' (f e.2) (f e.1) = true ↔ rayEdge z e.2 e.1 = true) ↔ (F e.1 ↔ F e.2)) :
    pointInPolygon z' (poly.map f) = pointInPolygon z poly := by
  classical
  set φ : P2 K → ℤ := fun v => if F v then 1 else 0 with hφ
  set R : P2 K → P2 K → ℤ := fun p q => if rayEdge z q p = true then (1 : ℤ) else 0 with hR
  set R' : P2 K → P2 K → ℤ := fun p q => if rayEdge z' (f q) (f p) = true then (1 : ℤ) else 0 with hR'
  have h1 : cyclicSum (fun p q => (R' p q + -R p q) + (φ q - φ p)) poly = cyclicSum R' poly - cyclicSum R poly := by
    rw [cyclicSum_add, cyclicSum_add, cyclicSum_telescope, cyclicSum_neg]; ring
  have h2 : Even (cyclicSum (fun p q => (R' p q + -R p q) + (φ q - φ p)) poly) := by
    unfold cyclicSum
    rw [← List.map_uncurry_zip_eq_zipWith]
    have key : ∀ l : List (P2 K × P2 K), (∀ e ∈ l, Even ((R' e.1 e.2 + -R e.1 e.2) + (φ e.2 - φ e.1))) →
        Even (l.map (Function.uncurry fun p q => (R' p q + -R p q) + (φ q - φ p))).sum := by
      intro l
      induction l with
      | nil => intro _; simp
      | cons e l ih =>
        intro hl
        rw [List.map_cons, List.sum_cons]
        exact (hl e (by simp)).add (ih fun x hx => hl x (by simp [hx]))
    refine key _ fun e he => ?_
    have := h e he
    simp only [hφ, hR, hR']
    by_cases a1 : rayEdge z' (f e.2) (f e.1) = true <;> by_cases a2 : rayEdge z e.2 e.1 = true <;>
      by_cases a3 : F e.1 <;> by_cases a4 : F e.2 <;> simp [a1, a2, a3, a4] at this ⊢ <;> decide
  rw [h1, Int.even_sub'] at h2
  rw [Bool.eq_iff_iff, pip_cyclicSum, pip_cyclicSum, cyclicSum_map]
  exact h2

theorem onSegment_of_level {p q z : P2 K} (h : p.y ≤ z.y ∧ z.y < q.y ∨ q.y ≤ z.y ∧ z.y < p.y) (ha : area2 p q z = 0) :
    OnSegment p q z := by
  have hne : q.y - p.y ≠ 0 := by rcases h with ⟨h1, h2⟩ | ⟨h1, h2⟩ <;> intro h <;> linarith
  refine ⟨(z.y - p.y) / (q.y - p.y), ?_, ?_, ?_⟩
  · rcases h with ⟨h1, h2⟩ | ⟨h1, h2⟩
    · exact div_nonneg (by linarith) (by linarith)
    · exact div_nonneg_of_nonpos (by linarith) (by linarith)
  · rcases h with ⟨h1, h2⟩ | ⟨h1, h2⟩
    · rw [div_le_one (by linarith)]; linarith
    · rw [div_le_one_of_neg (by linarith)]; linarith
  · unfold area2 at ha
    ext
    · simp only [P2.add_x, P2.smul_x, P2.sub_x]
      field_simp
      linear_combination -ha
    · simp only [P2.add_y, P2.smul_y, P2.sub_y]
      field_simp
      ring

theorem onSegment_affine (a b c d e g : K) {p q z : P2 K} (h : OnSegment p q z) :
    OnSegment (affineMap a b c d e g p) (affineMap a b c d e g q) (affineMap a b c d e g z) := by
  obtain ⟨t, t0, t1, rfl⟩ := h
  refine ⟨t, t0, t1, ?_⟩
  ext <;> simp [affineMap] <;> ring

theorem affine_injective {a b c d e g : K} (h : a * d - b * c ≠ 0) : Function.Injective (affineMap a b c d e g) := by
  intro v w hvw
  have hx := congrArg P2.x hvw
  have hy := congrArg P2.y hvw
  simp only [affineMap] at hx hy
  ext
  · exact mul_left_cancel₀ h (by linear_combination d * hx - b * hy)
  · exact mul_left_cancel₀ h (by linear_combination a * hy - c * hx)

theorem onSegment_affine_iff {a b c d e g : K} (h : a * d - b * c ≠ 0) {p q z : P2 K} :
    OnSegment (affineMap a b c d e g p) (affineMap a b c d e g q) (affineMap a b c d e g z) ↔ OnSegment p q z := by
  refine ⟨?_, onSegment_affine a b c d e g⟩
  rintro ⟨t, t0, t1, ht⟩
  refine ⟨t, t0, t1, affine_injective h (ht.trans ?_)⟩
  ext <;> simp [affineMap] <;> ring

/-- The map does not change the results of `point_in_polygon` off the border. -/
def KeepsInside (f : P2 K → P2 K) : Prop :=
  (∀ p q z, OnSegment (f p) (f q) (f z) → OnSegment p q z) ∧
  ∀ (poly : List (P2 K)) (z : P2 K), ¬ OnBorder (sides poly) z → pointInPolygon (f z) (poly.map f) = pointInPolygon z poly

theorem KeepsInside.comp {f g : P2 K → P2 K} (hf : KeepsInside f) (hg : KeepsInside g) : KeepsInside (f ∘ g) := by
  refine ⟨fun p q z h => hg.1 _ _ _ (hf.1 _ _ _ h), fun poly z hz => ?_⟩
  rw [← List.map_map, Function.comp_apply, hf.2, hg.2 _ _ hz]
  rintro ⟨s, hs, h⟩
  rw [sides_map, List.mem_map] at hs
  obtain ⟨s', hs', rfl⟩ := hs
  exact hz ⟨s', hs', hg.1 _ _ _ h⟩

theorem keeps_triangular {a b d e g : K} (ha : 0 < a) (hd : 0 < d) : KeepsInside (affineMap a b 0 d e g) := by
  refine ⟨fun p q z => (onSegment_affine_iff (by simp [ha.ne', hd.ne'])).1, fun poly z _ => ?_⟩
  refine pip_same (fun _ => False) fun s _ => ?_
  simp only [iff_self, iff_true]
  have had := mul_pos ha hd
  have h1 : area2 (affineMap a b 0 d e g s.1) (affineMap a b 0 d e g s.2) (affineMap a b 0 d e g z) = a * d * area2 s.1 s.2 z := by
    simp only [area2, affineMap]; ring
  have h2 : ∀ v w : P2 K, (affineMap a b 0 d e g v).y ≤ (affineMap a b 0 d e g w).y ↔ v.y ≤ w.y := by
    intro v w; simp [affineMap, hd]
  have h3 : ∀ v w : P2 K, (affineMap a b 0 d e g v).y < (affineMap a b 0 d e g w).y ↔ v.y < w.y := by
    intro v w; simp [affineMap, hd]
  have h4 : a * d * area2 s.1 s.2 z < 0 ↔ area2 s.1 s.2 z < 0 :=
    ⟨fun h => (pos_iff_neg_of_mul_neg h).1 had, fun h => mul_neg_of_pos_of_neg had h⟩
  rw [rayEdge_area, rayEdge_area, h1, h2, h2, h3, h3, mul_pos_iff_of_pos_left had, h4]

theorem keeps_mirror : KeepsInside (affineMap (-1 : K) 0 0 1 0 0) := by
  refine ⟨fun p q z => (onSegment_affine_iff (by simp)).1, fun poly z hz => ?_⟩
  refine pip_same (fun v => z.y < v.y) fun s hs => ?_
  have hoff : ¬ OnSegment s.1 s.2 z := fun h => hz ⟨s, hs, h⟩
  have h1 : area2 (affineMap (-1) 0 0 1 0 0 s.1) (affineMap (-1) 0 0 1 0 0 s.2) (affineMap (-1) 0 0 1 0 0 z) = -area2 s.1 s.2 z := by
    simp only [area2, affineMap]; ring
  have h2 : ∀ v : P2 K, (affineMap (-1) 0 0 1 0 0 v).y = v.y := by intro v; simp [affineMap]
  rw [rayEdge_area, rayEdge_area, h1, h2, h2, h2]
  have h0 : (s.1.y ≤ z.y ∧ z.y < s.2.y ∨ s.2.y ≤ z.y ∧ z.y < s.1.y) → area2 s.1 s.2 z ≠ 0 :=
    fun h h' => hoff (onSegment_of_level h h')
  simp only [← not_lt (a := z.y)] at h0 ⊢
  by_cases A : z.y < s.1.y <;> by_cases B : z.y < s.2.y <;> rcases lt_trichotomy (area2 s.1 s.2 z) 0 with h | h | h <;>
    simp [A, B, h, h.le, not_lt.2 h.le] at h0 ⊢

theorem keeps_swap : KeepsInside (affineMap (0 : K) 1 1 0 0 0) := by
  refine ⟨fun p q z => (onSegment_affine_iff (by simp)).1, fun poly z hz => ?_⟩
  refine pip_same (fun v => z.x < v.x ∧ z.y < v.y) fun s hs => ?_
  have hoff : ¬ OnSegment s.1 s.2 z := fun h => hz ⟨s, hs, h⟩
  have h1 : area2 (affineMap 0 1 1 0 0 0 s.1) (affineMap 0 1 1 0 0 0 s.2) (affineMap 0 1 1 0 0 0 z) = -area2 s.1 s.2 z := by
    simp only [area2, affineMap]; ring
  have h2 : ∀ v : P2 K, (affineMap 0 1 1 0 0 0 v).y = v.x := by intro v; simp [affineMap]
  have h0 : (s.1.y ≤ z.y ∧ z.y < s.2.y ∨ s.2.y ≤ z.y ∧ z.y < s.1.y) → area2 s.1 s.2 z ≠ 0 :=
    fun h h' => hoff (onSegment_of_level h h')
  have h0' : (s.1.x ≤ z.x ∧ z.x < s.2.x ∨ s.2.x ≤ z.x ∧ z.x < s.1.x) → area2 s.1 s.2 z ≠ 0 := fun h h' =>
    hoff ((onSegment_affine_iff (a := 0) (b := 1) (c := 1) (d := 0) (e := 0) (g := 0) (by simp)).1
      (onSegment_of_level (by simpa only [h2] using h) (by rw [h1, h', neg_zero])))
  rw [rayEdge_area, rayEdge_area, h1, h2, h2, h2]
  have ha : area2 s.1 s.2 z = (s.1.x - z.x) * (s.2.y - z.y) - (s.2.x - z.x) * (s.1.y - z.y) := by unfold area2; ring
  simp only [← not_lt (a := z.y), ← not_lt (a := z.x)] at h0 h0' ⊢
  by_cases A : z.x < s.1.x <;> by_cases B : z.y < s.1.y <;> by_cases C : z.x < s.2.x <;> by_cases D : z.y < s.2.y <;>
    rcases lt_trichotomy (area2 s.1 s.2 z) 0 with h | h | h <;>
    first
    | (simp [A, B, C, D, h, h.le, not_lt.2 h.le] at h0 h0' ⊢; done)
    | (exfalso
       simp only [not_lt] at A B C D
       rw [ha] at h
       nlinarith)

theorem keeps_diagonal {a d : K} (ha : a ≠ 0) (hd : d ≠ 0) : KeepsInside (affineMap a 0 0 d 0 0) := by
  have h1 : ∀ a : K, a ≠ 0 → KeepsInside (affineMap a 0 0 1 0 0) := by
    intro a ha
    rcases lt_or_gt_of_ne ha with h | h
    · have := (keeps_mirror (K := K)).comp (keeps_triangular (a := -a) (b := 0) (d := 1) (e := 0) (g := 0) (by linarith) one_pos)
      convert this using 1
      funext v; ext <;> simp [affineMap]
    · exact keeps_triangular h one_pos
  have := (h1 a ha).comp (keeps_swap.comp ((h1 d hd).comp keeps_swap))
  convert this using 1
  funext v; ext <;> simp [affineMap]

theorem keeps_affine {a b c d e g : K} (h : a * d - b * c ≠ 0) : KeepsInside (affineMap a b c d e g) := by
  have key : ∀ {a b c d e g : K}, a * d - b * c ≠ 0 → a ≠ 0 → KeepsInside (affineMap a b c d e g) := by
    intro a b c d e g h ha
    have h2 : (a * d - b * c) / a ≠ 0 := div_ne_zero h ha
    have := (keeps_swap.comp ((keeps_triangular (a := 1) (b := c / a) (d := 1) (e := g) (g := e) one_pos one_pos).comp
      (keeps_swap (K := K)))).comp ((keeps_diagonal ha h2).comp
        (keeps_triangular (a := 1) (b := b / a) (d := 1) (e := 0) (g := 0) one_pos one_pos))
    convert this using 1
    funext v
    ext
    · simp [affineMap]; field_simp
    · simp [affineMap]; field_simp; ring
  by_cases ha : a = 0
  · have hc : c ≠ 0 := by rintro rfl; rw [ha] at h; simp at h
    have := (keeps_swap (K := K)).comp (key (a := c) (b := d) (c := a) (d := b) (e := g) (g := e) (by intro h'; apply h; linear_combination -h') hc)
    convert this using 1
    funext v; ext <;> simp [affineMap]
  · exact key h ha

/-! ## Areas -/

theorem cross_affine (a b c d e g : K) (poly : List (P2 K)) :
    cyclicSum cross (poly.map (affineMap a b c d e g)) = (a * d - b * c) * cyclicSum cross poly := by
  rw [cyclicSum_map, ← cyclicSum_mul, ← add_zero (cyclicSum (fun p q => (a * d - b * c) * cross p q) poly),
    ← cyclicSum_telescope (fun v : P2 K => e * (c * v.x + d * v.y) - g * (a * v.x + b * v.y)) poly, ← cyclicSum_add]
  refine cyclicSum_congr (fun p q => ?_) _
  simp only [cross, affineMap]
  ring

theorem moment_affine_x (a b c d e g : K) (poly : List (P2 K)) :
    cyclicSum (fun p q => cross p q * (p.x + q.x)) (poly.map (affineMap a b c d e g)) =
      (a * d - b * c) * (a * cyclicSum (fun p q => cross p q * (p.x + q.x)) poly +
        b * cyclicSum (fun p q => cross p q * (p.y + q.y)) poly + 3 * e * cyclicSum cross poly) := by
  rw [cyclicSum_map, ← cyclicSum_mul, ← cyclicSum_mul, ← cyclicSum_mul, ← cyclicSum_add, ← cyclicSum_add, ← cyclicSum_mul]
  refine Eq.trans ?_ (add_zero _)
  rw [← cyclicSum_telescope (fun v : P2 K => e * (c * v.x + d * v.y) * (a * v.x + b * v.y) - g * (a * v.x + b * v.y) ^ 2 +
    2 * e * (e * (c * v.x + d * v.y) - g * (a * v.x + b * v.y))) poly, ← cyclicSum_add]
  refine cyclicSum_congr (fun p q => ?_) _
  simp only [cross, affineMap]
  ring

theorem moment_affine_y (a b c d e g : K) (poly : List (P2 K)) :
    cyclicSum (fun p q => cross p q * (p.y + q.y)) (poly.map (affineMap a b c d e g)) =
      (a * d - b * c) * (c * cyclicSum (fun p q => cross p q * (p.x + q.x)) poly +
        d * cyclicSum (fun p q => cross p q * (p.y + q.y)) poly + 3 * g * cyclicSum cross poly) := by
  rw [cyclicSum_map, ← cyclicSum_mul, ← cyclicSum_mul, ← cyclicSum_mul, ← cyclicSum_add, ← cyclicSum_add, ← cyclicSum_mul]
  refine Eq.trans ?_ (add_zero _)
  rw [← cyclicSum_telescope (fun v : P2 K => e * (c * v.x + d * v.y) ^ 2 - g * (a * v.x + b * v.y) * (c * v.x + d * v.y) +
    2 * g * (e * (c * v.x + d * v.y) - g * (a * v.x + b * v.y))) poly, ← cyclicSum_add]
  refine cyclicSum_congr (fun p q => ?_) _
  simp only [cross, affineMap]
  ring

/-! ## Simple polygons -/

theorem edge_map (f : P2 K → P2 K) (poly : List (P2 K)) (i : Nat) (A B : P2 K) :
    IsPolygonEdge (poly.map f) i A B ↔ ∃ A' B', IsPolygonEdge poly i A' B' ∧ f A' = A ∧ f B' = B := by
  simp only [IsPolygonEdge, List.getElem?_map, List.length_map, Option.map_eq_some_iff]
  constructor
  · rintro ⟨⟨A', h1, rfl⟩, B', h2, rfl⟩; exact ⟨A', B', ⟨h1, h2⟩, rfl, rfl⟩
  · rintro ⟨A', B', ⟨h1, h2⟩, rfl, rfl⟩; exact ⟨⟨A', h1, rfl⟩, B', h2, rfl⟩

theorem proper_affine {a b c d e g : K} (h : a * d - b * c ≠ 0) (poly : List (P2 K)) :
    ProperPolygon (poly.map (affineMap a b c d e g)) ↔ ProperPolygon poly := by
  constructor
  · intro hp i A B hi hAB
    exact hp i _ _ ((edge_map _ _ _ _ _).2 ⟨A, B, hi, rfl, rfl⟩) (by rw [hAB])
  · intro hp i A B hi hAB
    obtain ⟨A', B', hi', rfl, rfl⟩ := (edge_map _ _ _ _ _).1 hi
    exact hp i _ _ hi' (affine_injective h hAB)

theorem simple_affine {a b c d e g : K} (h : a * d - b * c ≠ 0) (poly : List (P2 K)) :
    SimplePolygon (poly.map (affineMap a b c d e g)) ↔ SimplePolygon poly := by
  constructor
  · intro hs i j A B C D X hij hi hj hX
    have := hs i j _ _ _ _ (affineMap a b c d e g X) hij ((edge_map _ _ _ _ _).2 ⟨A, B, hi, rfl, rfl⟩)
      ((edge_map _ _ _ _ _).2 ⟨C, D, hj, rfl, rfl⟩) ⟨onSegment_affine _ _ _ _ _ _ hX.1, onSegment_affine _ _ _ _ _ _ hX.2⟩
    rw [List.length_map, (affine_injective h).eq_iff, (affine_injective h).eq_iff] at this
    exact this
  · intro hs i j A B C D X hij hi hj hX
    obtain ⟨A, B, hi', rfl, rfl⟩ := (edge_map _ _ _ _ _).1 hi
    obtain ⟨C, D, hj', rfl, rfl⟩ := (edge_map _ _ _ _ _).1 hj
    obtain ⟨t, t0, t1, ht⟩ := hX.1
    have hX' : X = affineMap a b c d e g (A + t • (B - A)) := by rw [ht]; ext <;> simp [affineMap] <;> ring
    subst hX'
    have := hs i j A B C D (A + t • (B - A)) hij hi' hj' ⟨⟨t, t0, t1, rfl⟩, (onSegment_affine_iff h).1 hX.2⟩
    rw [List.length_map, (affine_injective h).eq_iff, (affine_injective h).eq_iff]
    exact this

/-! ## Rotations -/

theorem rotatePoint_affine (v1 v2 o p : P2 K) : rotatePoint p v1 v2 o = affineMap (dot v1 v2) (-cross v1 v2) (cross v1 v2) (dot v1 v2)
    (o.x - dot v1 v2 * o.x + cross v1 v2 * o.y) (o.y - cross v1 v2 * o.x - dot v1 v2 * o.y) p := by
  ext <;> simp [rotatePoint, rotatePointM, makeRotation, Mat2.mulVec, affineMap] <;> ring

theorem rotate_det {v1 v2 : P2 K} (h1 : v1.x ^ 2 + v1.y ^ 2 = 1) (h2 : v2.x ^ 2 + v2.y ^ 2 = 1) :
    dot v1 v2 * dot v1 v2 - -cross v1 v2 * cross v1 v2 = 1 := by
  simp only [dot, cross]
  linear_combination (v2.x ^ 2 + v2.y ^ 2) * h1 + h2

theorem motion_rotate (v1 v2 o : P2 K) (poly : List (P2 K)) :
    rotatePoints poly v1 v2 o = poly.map (affineMap (dot v1 v2) (-cross v1 v2) (cross v1 v2) (dot v1 v2)
      (o.x - dot v1 v2 * o.x + cross v1 v2 * o.y) (o.y - cross v1 v2 * o.x - dot v1 v2 * o.y)) ∧
    rotatePoints poly v1 v2 o = poly.map (fun p => rotatePoint p v1 v2 o) :=
  ⟨List.map_congr_left fun p _ => rotatePoint_affine v1 v2 o p, rfl⟩

theorem motion_translate (v1 v2 o t : P2 K) (poly : List (P2 K)) :
    rotateTranslatePoints poly v1 v2 t o = poly.map (affineMap (dot v1 v2) (-cross v1 v2) (cross v1 v2) (dot v1 v2)
      (o.x - dot v1 v2 * o.x + cross v1 v2 * o.y + t.x) (o.y - cross v1 v2 * o.x - dot v1 v2 * o.y + t.y)) ∧
    ∀ z, rotatePoint z v1 v2 o + t = affineMap (dot v1 v2) (-cross v1 v2) (cross v1 v2) (dot v1 v2)
      (o.x - dot v1 v2 * o.x + cross v1 v2 * o.y + t.x) (o.y - cross v1 v2 * o.x - dot v1 v2 * o.y + t.y) z := by
  have h : ∀ z, rotatePoint z v1 v2 o + t = affineMap (dot v1 v2) (-cross v1 v2) (cross v1 v2) (dot v1 v2)
      (o.x - dot v1 v2 * o.x + cross v1 v2 * o.y + t.x) (o.y - cross v1 v2 * o.x - dot v1 v2 * o.y + t.y) z := by
    intro z
    rw [rotatePoint_affine]
    ext <;> simp [affineMap] <;> ring
  exact ⟨List.map_congr_left fun p _ => h p, h⟩

theorem sideCount_map {α β : Type*} (f : α → β) (l : List α) (φ : β → β → Prop) :
    sideCount (l.map f) φ = sideCount l (fun p q => φ (f p) (f q)) := by
  classical
  unfold sideCount
  rw [sides_map, List.countP_map]
  rfl

theorem not_onBorder_of_count {poly : List (P2 K)} {z : P2 K} (h : sideCount poly (fun p q => OnSegment p q z) = 0) :
    ¬ OnBorder (sides poly) z := by
  classical
  rintro ⟨s, hs, hz⟩
  unfold sideCount at h
  rw [List.countP_eq_zero] at h
  exact h s hs (by simpa using hz)

theorem motion_distance (v1 v2 o : P2 K) (h1 : v1.x ^ 2 + v1.y ^ 2 = 1) (h2 : v2.x ^ 2 + v2.y ^ 2 = 1) (A B : P2 K) :
    sqDist (rotatePoint A v1 v2 o) (rotatePoint B v1 v2 o) = sqDist A B := by
  have hd := rotate_det h1 h2
  simp only [rotatePoint_affine, sqDist, affineMap]
  linear_combination ((A.x - B.x) ^ 2 + (A.y - B.y) ^ 2) * hd

theorem onBoundary_rotate (v1 v2 o : P2 K) (poly : List (P2 K)) (y : P2 K) :
    OnBoundary (rotatePoints poly v1 v2 o) y ↔ ∃ x, OnBoundary poly x ∧ rotatePoint x v1 v2 o = y := by
  rw [(motion_rotate v1 v2 o poly).1]
  constructor
  · rintro ⟨i, A, B, hi, ht⟩
    obtain ⟨A, B, hi', rfl, rfl⟩ := (edge_map _ _ _ _ _).1 hi
    obtain ⟨t, t0, t1, rfl⟩ := ht
    refine ⟨A + t • (B - A), ⟨i, A, B, hi', t, t0, t1, rfl⟩, ?_⟩
    rw [rotatePoint_affine]
    ext <;> simp [affineMap] <;> ring
  · rintro ⟨x, ⟨i, A, B, hi, hx⟩, rfl⟩
    refine ⟨i, _, _, (edge_map _ _ _ _ _).2 ⟨A, B, hi, rfl, rfl⟩, ?_⟩
    rw [rotatePoint_affine]
    exact onSegment_affine _ _ _ _ _ _ hx

end Geometrix
