import Verif.Lemmas.MovingSphere
import Verif.Lemmas.Orientation

/-!
# Lemmas on moving spheres against segments
-/

set_option linter.unusedSectionVars false

namespace Geometrix

open Spec

/-- The last time to enter the strip around a line, beyond the end `E` of a set `X` of positions on the line: the
moving disc meets the set first at that end. -/
theorem isFirst_end {s0 s1 h0 h1 r E t0 : ℝ} {X : ℝ → Prop} {o : Option ℝ} (hr : 0 ≤ r)
    (hE : X E) (hX : ∀ x, X x → x ≤ E)
    (ht : IsFirst (0 ≤ ·) (fun t => |h0 + t * h1| ≤ r) (some t0)) (hs : E < s0 + t0 * s1)
    (ho : IsFirst (0 ≤ ·) (fun t => (s0 + t * s1 - E) ^ 2 + (h0 + t * h1) ^ 2 ≤ r ^ 2) o) :
    IsFirst (0 ≤ ·) (fun t => ∃ x, X x ∧ (s0 + t * s1 - x) ^ 2 + (h0 + t * h1) ^ 2 ≤ r ^ 2) o := by
  obtain ⟨ht0, hh0, hmin⟩ := ht
  have key : ∀ t, 0 ≤ t → (∃ x, X x ∧ (s0 + t * s1 - x) ^ 2 + (h0 + t * h1) ^ 2 ≤ r ^ 2) →
      ∃ t', 0 ≤ t' ∧ t' ≤ t ∧ (s0 + t' * s1 - E) ^ 2 + (h0 + t' * h1) ^ 2 ≤ r ^ 2 := by
    rintro t ht ⟨x, hx, hd⟩
    have hxE := hX x hx
    have hht : |h0 + t * h1| ≤ r := abs_le_of_sq_le_sq (by nlinarith [sq_nonneg (s0 + t * s1 - x)]) hr
    have htt := hmin t ht hht
    by_cases hc : E ≤ s0 + t * s1
    · exact ⟨t, ht, le_refl _, by nlinarith⟩
    · push Not at hc
      have hs1 : s1 < 0 := by
        by_contra hn
        push Not at hn
        nlinarith [mul_nonneg hn (sub_nonneg.2 htt)]
      refine ⟨(E - s0) / s1, ?_, ?_, ?_⟩
      · have : t0 ≤ (E - s0) / s1 := by rw [le_div_iff_of_neg hs1]; linarith
        linarith
      · rw [div_le_iff_of_neg hs1]; linarith
      · have h1' : t0 ≤ (E - s0) / s1 := by rw [le_div_iff_of_neg hs1]; linarith
        have h2' : (E - s0) / s1 ≤ t := by rw [div_le_iff_of_neg hs1]; linarith
        have e : s0 + (E - s0) / s1 * s1 - E = 0 := by rw [div_mul_cancel₀ _ hs1.ne]; ring
        rw [e]
        generalize (E - s0) / s1 = u at *
        have hu : |h0 + u * h1| ≤ r := by
          rw [abs_le] at hht hh0 ⊢
          rcases le_total 0 h1 with h | h
          · constructor
            · nlinarith [mul_nonneg h (sub_nonneg.2 h1')]
            · nlinarith [mul_nonneg h (sub_nonneg.2 h2')]
          · constructor
            · nlinarith [mul_nonneg (neg_nonneg.2 h) (sub_nonneg.2 h2')]
            · nlinarith [mul_nonneg (neg_nonneg.2 h) (sub_nonneg.2 h1')]
        have := sq_le_sq' (by linarith [(abs_le.1 hu).1]) (abs_le.1 hu).2
        simpa using this
  cases o with
  | none =>
    intro t ht hm
    obtain ⟨t', h1, h2, h3⟩ := key t ht hm
    exact ho t' h1 h3
  | some u =>
    obtain ⟨hu0, hu, humin⟩ := ho
    refine ⟨hu0, ⟨E, hE, hu⟩, fun t ht hm => ?_⟩
    obtain ⟨t', h1, h2, h3⟩ := key t ht hm
    exact (humin t' h1 h3).trans h2

/-- A frame along a segment. -/
theorem seg_frame {a b : P2 ℝ} (h : a ≠ b) : ∃ (D : ℝ) (w : P2 ℝ), 0 < D ∧ dot w w = 1 ∧ b = a + D • w ∧
    makeLine a b = .ok ⟨a, w, leftNormal w, dot a (leftNormal w)⟩ := by
  have hd : 0 < Spec.dist a b :=
    lt_of_le_of_ne (dist_nonneg' a b) (fun h' => h (dist_eq_zero'.mp h'.symm))
  have hd2 := dist_sq' a b
  refine ⟨Spec.dist a b, (1 / Spec.dist a b) • (b - a), hd, ?_, ?_, makeLine_ok h⟩
  · generalize Spec.dist a b = D at *
    simp only [dot, P2.smul_x, P2.smul_y, P2.sub_x, P2.sub_y]
    field_simp
    linarith
  · generalize Spec.dist a b = D at *
    ext <;> simp <;> field_simp <;> ring

section
variable {a w : P2 ℝ} {D : ℝ}

theorem leftNormal_unit (hw : dot w w = 1) : dot (leftNormal w) (leftNormal w) = 1 := by
  rw [← hw]; simp only [dot, leftNormal]; ring

/-- Coordinates in the frame. -/
theorem seg_frame_coords (hw : dot w w = 1) (C : P2 ℝ) : C = a + dot (C - a) w • w +
    (dot C (leftNormal w) - dot a (leftNormal w)) • leftNormal w := by
  simp only [dot] at hw
  ext
  · simp only [dot, leftNormal, P2.add_x, P2.smul_x, P2.sub_x, P2.sub_y]
    linear_combination (a.x - C.x) * hw
  · simp only [dot, leftNormal, P2.add_y, P2.smul_y, P2.sub_x, P2.sub_y]
    linear_combination (a.y - C.y) * hw

theorem frame_dist (hw : dot w w = 1) (C : P2 ℝ) (x : ℝ) : sqDist (a + x • w) C =
    (dot (C - a) w - x) ^ 2 + (dot C (leftNormal w) - dot a (leftNormal w)) ^ 2 := by
  have h1 := seg_frame_coords (a := a) hw C
  generalize dot (C - a) w = s at *
  generalize dot C (leftNormal w) - dot a (leftNormal w) = h at *
  rw [h1]
  simp only [dot] at hw
  simp only [sqDist, leftNormal, P2.add_x, P2.add_y, P2.smul_x, P2.smul_y]
  linear_combination ((s - x) ^ 2 + h ^ 2) * hw

theorem frame_onSegment (hD : 0 < D) (P : P2 ℝ) : OnSegment a (a + D • w) P ↔
    ∃ x, (0 ≤ x ∧ x ≤ D) ∧ P = a + x • w := by
  have e : a + D • w - a = D • w := by ext <;> simp
  unfold OnSegment
  rw [e]
  constructor
  · rintro ⟨t, h0, h1, rfl⟩
    refine ⟨t * D, ⟨mul_nonneg h0 hD.le, by nlinarith⟩, ?_⟩
    ext <;> simp <;> ring
  · rintro ⟨x, ⟨h0, h1⟩, rfl⟩
    refine ⟨x / D, div_nonneg h0 hD.le, by rw [div_le_one hD]; exact h1, ?_⟩
    ext <;> simp <;> field_simp

theorem frame_inj (hw : dot w w = 1) {x y : ℝ} (h : a + x • w = a + y • w) : x = y := by
  have h1 := congrArg P2.x h
  have h2 := congrArg P2.y h
  simp only [P2.add_x, P2.add_y, P2.smul_x, P2.smul_y] at h1 h2
  simp only [dot] at hw
  linear_combination w.x * h1 + w.y * h2 - (x - y) * hw

theorem frame_meets (hw : dot w w = 1) (hD : 0 < D) (C : P2 ℝ) (r : ℝ) :
    DiscMeets (OnSegment a (a + D • w)) C r ↔ ∃ x, (0 ≤ x ∧ x ≤ D) ∧
      (dot (C - a) w - x) ^ 2 + (dot C (leftNormal w) - dot a (leftNormal w)) ^ 2 ≤ r ^ 2 := by
  unfold DiscMeets
  have e : ∀ P, InDisc C r P ↔ sqDist P C ≤ r ^ 2 := fun P => Iff.rfl
  simp only [e]
  constructor
  · rintro ⟨P, hP, hd⟩
    obtain ⟨x, hx, rfl⟩ := (frame_onSegment hD P).1 hP
    rw [frame_dist hw] at hd
    exact ⟨x, hx, hd⟩
  · rintro ⟨x, hx, hd⟩
    rw [← frame_dist hw] at hd
    exact ⟨_, (frame_onSegment hD _).2 ⟨x, hx, rfl⟩, hd⟩

end

/-- A moving disc and a segment. -/
theorem movingSphereSegment_spec (c v a b : P2 ℝ) (r : ℝ) (hab : a ≠ b) (hv : v ≠ 0) (hr : 0 < r)
    (ha : OnCircle c r a → dot (c - a) v < 0) (hb : OnCircle c r b → dot (c - b) v < 0) :
    ∃ f o, movingSphereSegment Cmp.direct c r v a b = .ok (f, o) ∧ f.intersecting = o.isSome ∧
      IsFirst (0 ≤ ·) (fun t => DiscMeets (OnSegment a b) (c + t • v) r) (o.map Prod.fst) ∧
      ∀ t q, o = some (t, q) → ¬ DiscOverlaps (OnSegment a b) c r →
        OnSegment a b q ∧ OnCircle (c + t • v) r q := by
  obtain ⟨D, w, hD, hw, rfl, hl⟩ := seg_frame hab
  have hn := leftNormal_unit hw
  unfold movingSphereSegment
  rw [hl]
  dsimp only
  obtain ⟨f, o, hp, hfo, hfirst, hq, -, -⟩ := movingSpherePlane_spec c v (leftNormal w) r (dot a (leftNormal w)) hn hr.le
  rw [hp]
  have hh : ∀ t : ℝ, dot (c + t • v) (leftNormal w) - dot a (leftNormal w) =
      (dot c (leftNormal w) - dot a (leftNormal w)) + t * dot v (leftNormal w) := by
    intro t; rw [dot_along]; ring
  have hsx : ∀ t : ℝ, dot (c + t • v - a) w = dot (c - a) w + t * dot v w := by
    intro t; simp only [dot, P2.add_x, P2.add_y, P2.smul_x, P2.smul_y, P2.sub_x, P2.sub_y]; ring
  have hle : ∀ t : ℝ, DiscMeets (OnSegment a (a + D • w)) (c + t • v) r →
      |dot (c + t • v) (leftNormal w) - dot a (leftNormal w)| ≤ r := by
    intro t ht
    obtain ⟨x, -, hx⟩ := (frame_meets hw hD _ r).1 ht
    exact abs_le_of_sq_le_sq (by nlinarith [sq_nonneg (dot (c + t • v - a) w - x)]) hr.le
  cases o with
  | none =>
    exact ⟨_, _, rfl, rfl, fun t ht hm => hfirst t ht (hle t hm), by simp⟩
  | some x =>
    obtain ⟨t0, q⟩ := x
    obtain ⟨hqe, hqr⟩ := hq t0 q rfl
    simp only [Option.map_some] at hfirst
    dsimp only
    -- the point on the line
    have hqs : q = a + dot (c + t0 • v - a) w • w := by
      rw [hqe]
      have := seg_frame_coords (a := a) hw (c + t0 • v)
      have hx := congrArg P2.x this
      have hy := congrArg P2.y this
      simp only [P2.add_x, P2.add_y, P2.smul_x, P2.smul_y] at hx hy
      ext
      · simp only [P2.sub_x, P2.add_x, P2.smul_x]; linarith
      · simp only [P2.sub_y, P2.add_y, P2.smul_y]; linarith
    have hin : OnSegment a (a + D • w) q ↔ 0 ≤ dot (c + t0 • v - a) w ∧ dot (c + t0 • v - a) w ≤ D := by
      rw [frame_onSegment hD, hqs]
      constructor
      · rintro ⟨x, hx, he⟩
        rw [frame_inj hw he]; exact hx
      · intro h; exact ⟨_, h, rfl⟩
    by_cases hbt : isBetween Cmp.direct a (a + D • w) q true = true
    · rw [if_pos hbt]
      have hon := (isBetween_iff_onSegment hab).1 hbt
      refine ⟨_, _, rfl, rfl, ⟨hfirst.1, ?_, fun t ht hm => hfirst.2.2 t ht (hle t hm)⟩, ?_⟩
      · refine (frame_meets hw hD _ r).2 ⟨_, hin.1 hon, ?_⟩
        have := hfirst.2.1
        rw [sub_self]
        have := sq_le_sq' (by linarith [(abs_le.1 this).1]) (abs_le.1 this).2
        linarith
      · intro t q' he hno
        simp only [Option.some.injEq, Prod.mk.injEq] at he
        obtain ⟨rfl, rfl⟩ := he
        refine ⟨hon, ?_⟩
        have hdist : sqDist q (c + t0 • v) = (dot (c + t0 • v) (leftNormal w) - dot a (leftNormal w)) ^ 2 := by
          rw [hqs, frame_dist hw]; ring
        show sqDist q (c + t0 • v) = r ^ 2
        rw [hdist]
        rcases hqr with h | ⟨h1, h2⟩
        · rw [← h, sq_abs]
        · exfalso
          apply hno
          refine ⟨q, hon, ?_⟩
          have e0 : c + t0 • v = c := by rw [h1]; ext <;> simp
          rw [e0] at hdist
          rw [hdist]
          exact sq_lt_sq' (by linarith [(abs_lt.1 h2).1]) (abs_lt.1 h2).2
    · rw [if_neg hbt]
      rw [isBetween_iff_onSegment hab, hin] at hbt
      -- the centre is not at an end
      have hnc : ∀ E, OnSegment a (a + D • w) E → c ≠ E := by
        rintro E hE rfl
        obtain ⟨x, hx, he⟩ := (frame_onSegment hD c).1 hE
        have hm0 : |dot (c + (0 : ℝ) • v) (leftNormal w) - dot a (leftNormal w)| ≤ r := by
          apply hle
          refine ⟨c, hE, ?_⟩
          simp only [InDisc, P2.add_x, P2.add_y, P2.smul_x, P2.smul_y]
          nlinarith
        have ht0 : t0 = 0 := le_antisymm (hfirst.2.2 0 (le_refl _) hm0) hfirst.1
        apply hbt
        have : dot (c + t0 • v - a) w = x := by
          rw [ht0, hsx]
          have : dot (c - a) w = x * dot w w := by
            rw [he]; simp only [dot, P2.add_x, P2.add_y, P2.smul_x, P2.smul_y, P2.sub_x, P2.sub_y]; ring
          rw [this, hw]; ring
        rw [this]; exact hx
      have hea : OnSegment a (a + D • w) a := (frame_onSegment hD a).2 ⟨0, ⟨le_refl _, hD.le⟩, by ext <;> simp⟩
      have heb : OnSegment a (a + D • w) (a + D • w) := (frame_onSegment hD _).2 ⟨D, ⟨hD.le, le_refl _⟩, rfl⟩
      -- the end that is hit
      have hchoose : (if distSq q (a + D • w) < distSq q a then a + D • w else a) =
          if D < dot (c + t0 • v - a) w then a + D • w else a := by
        have e1 : distSq q (a + D • w) = (dot (c + t0 • v - a) w - D) ^ 2 := by
          rw [hqs]
          have : ∀ s : ℝ, distSq (a + s • w) (a + D • w) = (s - D) ^ 2 * dot w w := by
            intro s
            simp only [distSq, normSq, dot, P2.add_x, P2.add_y, P2.smul_x, P2.smul_y, P2.sub_x, P2.sub_y]; ring
          rw [this, hw, mul_one]
        have e2 : distSq q a = (dot (c + t0 • v - a) w) ^ 2 := by
          rw [hqs]
          have : ∀ s : ℝ, distSq (a + s • w) a = s ^ 2 * dot w w := by
            intro s
            simp only [distSq, normSq, dot, P2.add_x, P2.add_y, P2.smul_x, P2.smul_y, P2.sub_x, P2.sub_y]; ring
          rw [this, hw, mul_one]
        rw [e1, e2]
        generalize dot (c + t0 • v - a) w = s at *
        by_cases hs : D < s
        · rw [if_pos hs, if_pos (by nlinarith)]
        · have : s < 0 := by
            by_contra hn
            exact hbt ⟨not_lt.1 hn, not_lt.1 hs⟩
          rw [if_neg hs, if_neg (by nlinarith)]
      rw [hchoose]
      -- one end
      have main : ∀ E, OnSegment a (a + D • w) E → (OnCircle c r E → dot (c - E) v < 0) →
          (∀ o, IsFirst (0 ≤ ·) (fun t => InDisc (c + t • v) r E) o →
            IsFirst (0 ≤ ·) (fun t => DiscMeets (OnSegment a (a + D • w)) (c + t • v) r) o) →
          ∃ f' o', (match movingSphereEnd Cmp.direct v c r E with
            | .error e => .error e
            | .ok none => .ok (⟨false, Cmp.direct.equals t0 0, false, f.penetrating, f.movingAway⟩, none)
            | .ok (some x) => .ok (⟨true, Cmp.direct.equals t0 0, true, f.penetrating, f.movingAway⟩, some x)
              : Res (SegFlags × Option (ℝ × P2 ℝ))) = .ok (f', o') ∧ f'.intersecting = o'.isSome ∧
            IsFirst (0 ≤ ·) (fun t => DiscMeets (OnSegment a (a + D • w)) (c + t • v) r) (o'.map Prod.fst) ∧
            ∀ t q, o' = some (t, q) → ¬ DiscOverlaps (OnSegment a (a + D • w)) c r →
              OnSegment a (a + D • w) q ∧ OnCircle (c + t • v) r q := by
        intro E hE hEc htr
        obtain ⟨o, ho, hof, hoq⟩ := movingSphereEnd_spec v c E r hv hr (hnc E hE) hEc
        rw [ho]
        cases o with
        | none => exact ⟨_, _, rfl, rfl, htr _ hof, by simp⟩
        | some x =>
          refine ⟨_, _, rfl, rfl, htr _ hof, ?_⟩
          intro t q he hno
          obtain ⟨h1, h2⟩ := hoq t q he
          have : q = E := h2 (by by_contra hn; exact hno ⟨E, hE, not_le.1 hn⟩)
          exact ⟨this ▸ hE, h1⟩
      have hdE : ∀ x t : ℝ, InDisc (c + t • v) r (a + x • w) ↔ (dot (c - a) w + t * dot v w - x) ^ 2 +
          ((dot c (leftNormal w) - dot a (leftNormal w)) + t * dot v (leftNormal w)) ^ 2 ≤ r ^ 2 := by
        intro x t
        rw [← hh, ← hsx, ← frame_dist hw]
        exact Iff.rfl
      simp only [hh] at hfirst
      by_cases hs : D < dot (c + t0 • v - a) w
      · rw [if_pos hs]
        apply main _ heb hb
        intro o ho
        rw [hsx] at hs
        refine isFirst_congr (isFirst_end (X := fun x => 0 ≤ x ∧ x ≤ D) hr.le ⟨hD.le, le_refl _⟩ (fun x hx => hx.2)
          hfirst hs (isFirst_congr ho (fun _ => Iff.rfl) (fun t _ => (hdE D t).symm))) (fun _ => Iff.rfl) (fun t _ => ?_)
        rw [frame_meets hw hD, hh, hsx]
      · rw [if_neg hs]
        have hs0 : dot (c + t0 • v - a) w < 0 := by
          by_contra hn
          exact hbt ⟨not_lt.1 hn, not_lt.1 hs⟩
        apply main _ hea ha
        intro o ho
        rw [hsx] at hs0
        have hea' : a = a + (0 : ℝ) • w := by ext <;> simp
        refine isFirst_congr (isFirst_end (s0 := - dot (c - a) w) (s1 := - dot v w)
          (X := fun x => 0 ≤ -x ∧ -x ≤ D) (E := 0) hr.le ⟨by simp, by simpa using hD.le⟩
          (fun x hx => by linarith [hx.1]) hfirst (by linarith)
          (isFirst_congr ho (fun _ => Iff.rfl) (fun t _ => ?_))) (fun _ => Iff.rfl) (fun t _ => ?_)
        · have := hdE 0 t
          rw [← hea'] at this
          rw [this]
          constructor <;> intro h <;> linarith
        · rw [frame_meets hw hD, hh, hsx]
          constructor
          · rintro ⟨x, hx, h⟩; exact ⟨-x, by simpa using hx, by linarith⟩
          · rintro ⟨x, hx, h⟩; exact ⟨-x, hx, by linarith⟩

end Geometrix
