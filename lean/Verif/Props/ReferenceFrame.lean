import Verif.Lemmas.ReferenceFrame

/-!
# C144: points with a reference frame
-/

namespace Geometrix

open Spec

/-- C144: conversions along any number of Cartesian and polar frames keep the place of the point.

The full property has no conditions `hf` and `hl`; with the neutral frame it is false (`C144_neutral_refuted`). -/
theorem C144_place_partial (n : ℕ) (f : Frame) (hf : f ≠ .neutral) (l : List (Frame × (ℕ → ℝ))) (hl : ∀ g ∈ l, g.1 ≠ .neutral)
    (p x : ℕ → ℝ) (hp : LocatedAt n f p x) :
    ∃ q, convertAlong n f l p = some q ∧ LocatedAt n (lastFrame f l) q x := by
  induction l generalizing f p with
  | nil => exact ⟨p, rfl, hp⟩
  | cons g l ih =>
    obtain ⟨q, h1, h2⟩ := transform_located hf (hl g (by simp)) g.2 hp
    obtain ⟨r, h3, h4⟩ := ih g.1 (hl g (by simp)) (fun k hk => hl k (by simp [hk])) q h2
    refine ⟨r, ?_, h4⟩
    rw [convertAlong, h1]
    exact h3

/-- Each point has a place. -/
example (n : ℕ) (f : Frame) (p : ℕ → ℝ) : ∃ x, LocatedAt n f p x := located_exists n f p

/-- C144: if the first coordinates are determined by the place, then so are the last: they do not depend on the frames in between, and
are those of the direct conversion. -/
theorem C144_path_partial (n : ℕ) (f : Frame) (hf : f ≠ .neutral) (l : List (Frame × (ℕ → ℝ))) (hl : ∀ g ∈ l, g.1 ≠ .neutral)
    (p st : ℕ → ℝ) (hu : UniqueCoordinates n f p) :
    ∃ q r, convertAlong n f l p = some q ∧ frameTransform n f (lastFrame f l) p st = some r ∧ ∀ i, i < n + 2 → q i = r i := by
  obtain ⟨x, hx⟩ := located_exists n f p
  have hs := fromPlace_start hf hx hu
  obtain ⟨q, h1, h2⟩ := fromPlace_along l hl hs
  obtain ⟨r, h3, h4⟩ := fromPlace_transform (lastFrame_ne hl hf) st hs
  exact ⟨q, r, h1, h3, fromPlace_unique h2 h4⟩

example : UniqueCoordinates 0 .polar (fun i => if i = 0 then 5 else 1) := by
  refine ⟨by norm_num, ?_, ?_, fun i h1 h2 => absurd h2 (by omega)⟩
  · have := Real.pi_pos; norm_num; linarith
  · have := Real.two_le_pi; norm_num; linarith

/-- C144: `get_x`, `get_y` and `get_z` give the coordinates of the place, in each frame and after any conversions. -/
theorem C144_get_cartesian_partial (n : ℕ) (f : Frame) (hf : f ≠ .neutral) (l : List (Frame × (ℕ → ℝ)))
    (hl : ∀ g ∈ l, g.1 ≠ .neutral) (p x st : ℕ → ℝ) (hp : LocatedAt n f p x) (i : ℕ) (hi : i < n + 2) :
    getCartesian n f p st i = some (x i) ∧
      ∃ q, convertAlong n f l p = some q ∧ getCartesian n (lastFrame f l) q st i = some (x i) := by
  have key : ∀ g : Frame, g ≠ .neutral → ∀ q, LocatedAt n g q x → getCartesian n g q st i = some (x i) := by
    intro g hg q hq
    obtain ⟨r, h1, h2⟩ := transform_located hg (show Frame.cartesian ≠ .neutral by decide) st hq
    rw [getCartesian, h1, h2 i hi]; rfl
  obtain ⟨q, h1, h2⟩ := C144_place_partial n f hf l hl p x hp
  exact ⟨key f hf p hp, q, h1, key _ (lastFrame_ne hl hf) q h2⟩

/-- C144: `get_r`, `get_theta` and `get_phi` give polar coordinates of the place in the usual ranges; after any conversions they are the
same, if the first coordinates are determined by the place. -/
theorem C144_get_polar_partial (n : ℕ) (f : Frame) (hf : f ≠ .neutral) (l : List (Frame × (ℕ → ℝ)))
    (hl : ∀ g ∈ l, g.1 ≠ .neutral) (p x st st' : ℕ → ℝ) (hp : LocatedAt n f p x) (hu : UniqueCoordinates n f p) :
    ∃ r : ℕ → ℝ, LocatedAt n .polar r x ∧ 0 ≤ r 0 ∧ -Real.pi < r 1 ∧ r 1 ≤ Real.pi ∧
      (∀ i, 2 ≤ i → i < n + 2 → 0 ≤ r i ∧ r i ≤ Real.pi) ∧
      ∀ i, i < n + 2 → getPolar n f p st i = some (r i) ∧
        ∃ q, convertAlong n f l p = some q ∧ getPolar n (lastFrame f l) q st' i = some (r i) := by
  have hs := fromPlace_start hf hp hu
  have key : ∀ g : Frame, ∀ q st, FromPlace n g q x → ∀ i, i < n + 2 → getPolar n g q st i = some (cartPolar n x 0 i) := by
    intro g q st hq i hi
    obtain ⟨r, h1, h2⟩ := fromPlace_transform (show Frame.polar ≠ .neutral by decide) st hq
    rw [getPolar, h1, ← h2 i hi]; rfl
  obtain ⟨q, h1, h2⟩ := fromPlace_along l hl hs
  obtain ⟨r0, -, r1, r2, r3⟩ := C103_ranges n x 0
  exact ⟨cartPolar n x 0, located_cartPolar (fun i _ => rfl) 0, r0, r1, r2, r3,
    fun i hi => ⟨key f p st hs i hi, q, h1, key _ q st' h2 i hi⟩⟩

/-- Through the neutral frame a point moves: the Cartesian point `(1, 1)` without its frame, as a polar point, has the distance 1 from the
origin. -/
theorem C144_neutral_refuted :
    ∃ (l : List (Frame × (ℕ → ℝ))) (p q x : ℕ → ℝ), LocatedAt 0 .cartesian p x ∧ convertAlong 0 .cartesian l p = some q ∧
      lastFrame .cartesian l = .polar ∧ ¬ LocatedAt 0 .polar q x := by
  refine ⟨[(.neutral, 0), (.polar, 0)], fun _ => 1, fun _ => 1, fun _ => 1, fun i _ => rfl, rfl, rfl, fun h => ?_⟩
  obtain ⟨h0, h1, -⟩ := h
  have := Real.sin_sq_add_cos_sq 1
  simp at h0 h1
  rw [← h0, ← h1] at this
  norm_num at this

/-- A point without a frame is its own radius and angle: `get_r` of `(3, 4)` is 3. -/
theorem C144_untagged_refuted (p st : ℕ → ℝ) (n i : ℕ) :
    getPolar n .neutral p st i = some (p i) ∧ getCartesian n .neutral p st i = some (p i) :=
  ⟨rfl, rfl⟩

/-- A point in the neutral frame cannot be converted to another type of point in the neutral frame. -/
theorem C144_neutral_neutral_refuted (n : ℕ) (p st : ℕ → ℝ) : frameTransform n .neutral .neutral p st = none :=
  rfl

end Geometrix
