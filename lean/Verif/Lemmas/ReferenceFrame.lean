import Verif.Props.PolarTransform
import Verif.Spec.ReferenceFrame

/-!
# Lemmas about conversions between frames
-/

namespace Geometrix

open Finset Spec

theorem cartPolar_congr (n : ℕ) {x y : ℕ → ℝ} (h : ∀ i, i < n + 2 → x i = y i) (st st' : ℕ → ℝ) :
    ∀ i, i < n + 2 → cartPolar n x st i = cartPolar n y st' i := by
  intro i hi
  have hs : ∀ k, k ≤ n + 2 → ∑ j ∈ range k, x j ^ 2 = ∑ j ∈ range k, y j ^ 2 := by
    intro k hk
    refine sum_congr rfl fun j hj => ?_
    rw [h j (by have := mem_range.1 hj; omega)]
  match i, hi with
  | 0, _ => rw [cartPolar_zero, cartPolar_zero, hs _ (le_refl _)]
  | 1, _ => rw [cartPolar_one, cartPolar_one, h 0 (by omega), h 1 (by omega)]
  | i + 2, hi => rw [cartPolar_ge _ _ _ (by omega) hi, cartPolar_ge _ _ _ (by omega) hi, hs _ (by omega), h _ hi]

theorem polarCart_congr (n : ℕ) {p q : ℕ → ℝ} (h : ∀ i, i < n + 2 → p i = q i) (st st' : ℕ → ℝ) :
    ∀ i, i < n + 2 → polarCart n p st i = polarCart n q st' i := by
  intro i hi
  obtain ⟨a0, a1, ai⟩ := C103_formula n p st
  obtain ⟨b0, b1, bi⟩ := C103_formula n q st'
  have hp : ∀ k, 2 ≤ k → ∏ j ∈ Ico k (n + 2), Real.sin (p j) = ∏ j ∈ Ico k (n + 2), Real.sin (q j) := by
    intro k _
    refine prod_congr rfl fun j hj => ?_
    rw [h j (mem_Ico.1 hj).2]
  match i, hi with
  | 0, _ => rw [a0, b0, hp 2 (le_refl _), h 0 (by omega), h 1 (by omega)]
  | 1, _ => rw [a1, b1, hp 2 (le_refl _), h 0 (by omega), h 1 (by omega)]
  | i + 2, hi => rw [ai _ (by omega) hi, bi _ (by omega) hi, hp _ (by omega), h 0 (by omega), h _ hi]

theorem located_congr {n : ℕ} {f : Frame} {p q x : ℕ → ℝ} (h : ∀ i, i < n + 2 → p i = q i) (hp : LocatedAt n f p x) :
    LocatedAt n f q x := by
  have hs : ∀ k, ∏ j ∈ Ico k (n + 2), Real.sin (p j) = ∏ j ∈ Ico k (n + 2), Real.sin (q j) := by
    intro k
    refine prod_congr rfl fun j hj => ?_
    rw [h j (mem_Ico.1 hj).2]
  cases f with
  | cartesian => intro i hi; rw [hp i hi, h i hi]
  | polar =>
    obtain ⟨a, b, c⟩ := hp
    refine ⟨?_, ?_, fun i h1 h2 => ?_⟩
    · rw [a, hs, h 0 (by omega), h 1 (by omega)]
    · rw [b, hs, h 0 (by omega), h 1 (by omega)]
    · rw [c i h1 h2, hs, h 0 (by omega), h i h2]
  | neutral => trivial

theorem located_polar_iff {n : ℕ} {p x : ℕ → ℝ} (st : ℕ → ℝ) :
    LocatedAt n .polar p x ↔ ∀ i, i < n + 2 → x i = polarCart n p st i := by
  obtain ⟨a0, a1, ai⟩ := C103_formula n p st
  constructor
  · rintro ⟨b0, b1, bi⟩ i hi
    match i, hi with
    | 0, _ => rw [a0, b0]
    | 1, _ => rw [a1, b1]
    | i + 2, hi => rw [ai _ (by omega) hi, bi _ (by omega) hi]
  · intro h
    refine ⟨?_, ?_, fun i h1 h2 => ?_⟩
    · rw [h 0 (by omega), a0]
    · rw [h 1 (by omega), a1]
    · rw [h i h2, ai i h1 h2]

theorem located_exists (n : ℕ) (f : Frame) (p : ℕ → ℝ) : ∃ x, LocatedAt n f p x := by
  cases f with
  | cartesian => exact ⟨p, fun i _ => rfl⟩
  | polar => exact ⟨polarCart n p 0, (located_polar_iff 0).2 fun i _ => rfl⟩
  | neutral => exact ⟨p, trivial⟩

theorem located_cartPolar {n : ℕ} {p x : ℕ → ℝ} (h : ∀ i, i < n + 2 → x i = p i) (st : ℕ → ℝ) :
    LocatedAt n .polar (cartPolar n p st) x :=
  (located_polar_iff 0).2 fun i hi => by rw [h i hi, C103_there_and_back n p st 0 i hi]

/-- One conversion between Cartesian and polar frames keeps the place. -/
theorem transform_located {n : ℕ} {f g : Frame} (hf : f ≠ .neutral) (hg : g ≠ .neutral) {p x : ℕ → ℝ} (st : ℕ → ℝ)
    (hp : LocatedAt n f p x) : ∃ q, frameTransform n f g p st = some q ∧ LocatedAt n g q x := by
  cases f <;> cases g
  · exact ⟨p, rfl, hp⟩
  · exact ⟨_, rfl, located_cartPolar hp st⟩
  · exact absurd rfl hg
  · exact ⟨_, rfl, (located_polar_iff st).1 hp⟩
  · exact ⟨p, rfl, hp⟩
  · exact absurd rfl hg
  all_goals exact absurd rfl hf

/-- What the coordinates are if the place is `x` and they are determined by it. -/
theorem unique_coordinates {n : ℕ} {f : Frame} {p x : ℕ → ℝ} (hp : LocatedAt n f p x) (hu : UniqueCoordinates n f p)
    {q : ℕ → ℝ} (hf : f ≠ .neutral) (hq : LocatedAt n f q x) (hu' : UniqueCoordinates n f q) : ∀ i, i < n + 2 → p i = q i := by
  intro i hi
  cases f with
  | cartesian => rw [← hp i hi, ← hq i hi]
  | polar =>
    obtain ⟨h0, h1, h1', h2⟩ := hu
    obtain ⟨k0, k1, k1', k2⟩ := hu'
    rw [← C103_back_and_there n p 0 0 h0 h1 h1' h2 i hi, ← C103_back_and_there n q 0 0 k0 k1 k1' k2 i hi]
    exact cartPolar_congr n (fun j hj => by rw [← (located_polar_iff 0).1 hp j hj, ← (located_polar_iff 0).1 hq j hj]) 0 0 i hi
  | neutral => exact absurd rfl hf

/-- The coordinates that a conversion gives, or those of `p` itself, are those that follow from the place. -/
def FromPlace (n : ℕ) (f : Frame) (p x : ℕ → ℝ) : Prop :=
  match f with
  | .cartesian => ∀ i, i < n + 2 → p i = x i
  | .polar => ∀ i, i < n + 2 → p i = cartPolar n x 0 i
  | .neutral => False

theorem fromPlace_start {n : ℕ} {f : Frame} (hf : f ≠ .neutral) {p x : ℕ → ℝ} (hp : LocatedAt n f p x)
    (hu : UniqueCoordinates n f p) : FromPlace n f p x := by
  cases f with
  | cartesian => exact fun i hi => (hp i hi).symm
  | polar =>
    intro i hi
    obtain ⟨h0, h1, h1', h2⟩ := hu
    rw [← C103_back_and_there n p 0 0 h0 h1 h1' h2 i hi]
    exact cartPolar_congr n (fun j hj => ((located_polar_iff 0).1 hp j hj).symm) 0 0 i hi
  | neutral => exact absurd rfl hf

theorem fromPlace_transform {n : ℕ} {f g : Frame} (hg : g ≠ .neutral) {p x : ℕ → ℝ} (st : ℕ → ℝ)
    (hp : FromPlace n f p x) : ∃ q, frameTransform n f g p st = some q ∧ FromPlace n g q x := by
  cases f <;> cases g
  · exact ⟨p, rfl, hp⟩
  · exact ⟨_, rfl, cartPolar_congr n hp st 0⟩
  · exact absurd rfl hg
  · refine ⟨_, rfl, fun i hi => ?_⟩
    rw [polarCart_congr n hp st st i hi, C103_there_and_back n x 0 st i hi]
  · exact ⟨p, rfl, hp⟩
  · exact absurd rfl hg
  all_goals exact absurd hp (by simp [FromPlace])

theorem fromPlace_along {n : ℕ} {x : ℕ → ℝ} (l : List (Frame × (ℕ → ℝ))) (hl : ∀ g ∈ l, g.1 ≠ .neutral) :
    ∀ {f : Frame} {p : ℕ → ℝ}, FromPlace n f p x → ∃ q, convertAlong n f l p = some q ∧ FromPlace n (lastFrame f l) q x := by
  induction l with
  | nil => exact fun {f p} hp => ⟨p, rfl, hp⟩
  | cons g l ih =>
    intro f p hp
    obtain ⟨q, h1, h2⟩ := fromPlace_transform (hl g (by simp)) g.2 hp
    obtain ⟨r, h3, h4⟩ := ih (fun k hk => hl k (by simp [hk])) h2
    refine ⟨r, ?_, h4⟩
    rw [convertAlong, h1]
    exact h3

theorem fromPlace_unique {n : ℕ} {f : Frame} {p q x : ℕ → ℝ} (hp : FromPlace n f p x) (hq : FromPlace n f q x) :
    ∀ i, i < n + 2 → p i = q i := by
  cases f with
  | cartesian => exact fun i hi => by rw [hp i hi, hq i hi]
  | polar => exact fun i hi => by rw [hp i hi, hq i hi]
  | neutral => exact absurd hp (by simp [FromPlace])

theorem lastFrame_ne {l : List (Frame × (ℕ → ℝ))} (hl : ∀ g ∈ l, g.1 ≠ .neutral) :
    ∀ {f : Frame}, f ≠ .neutral → lastFrame f l ≠ .neutral := by
  induction l with
  | nil => exact fun h => h
  | cons g l ih => exact fun _ => ih (fun k hk => hl k (by simp [hk])) (hl g (by simp))

end Geometrix
