import Verif.Model.PolarTransform

/-!
# Points with a reference frame

`reference_frame_adaptor` (`geometrix/primitive/point_traits.hpp:170-225`): a point whose type says in which frame its coordinates are,
and the conversions of `geometrix/space/reference_frame_transformation.hpp`. Simplifications: the dimension `n + 2` is the same for the
point and all frames, there is one system of units, and the numbers are reals.
-/

namespace Geometrix

/-- `cartesian_reference_frame`, `polar_reference_frame` and `neutral_reference_frame`, the frame of points without a frame:
`space/cartesian_reference_frame.hpp:58-93`, `space/polar_reference_frame.hpp:70-96`, `space/neutral_reference_frame.hpp:26-61`. -/
inductive Frame
  | cartesian
  | polar
  | neutral
  deriving DecidableEq, Repr

/-- `reference_frame_transformation<F, G>::transform`: `space/reference_frame_transformation.hpp:36-98`,
`space/cartesian_polar_transformation.hpp:78-98`, `space/polar_cartesian_transformation.hpp:67-87`. From the neutral frame to itself three
specialisations match and none is more special: this does not compile (`none`). `state` is the array of the result before it is
written. -/
noncomputable def frameTransform (n : ℕ) : Frame → Frame → (ℕ → ℝ) → (ℕ → ℝ) → Option (ℕ → ℝ)
  | .neutral, .neutral, _, _ => none
  | .neutral, _, p, _ => some p
  | _, .neutral, p, _ => some p
  | .cartesian, .cartesian, p, _ => some p
  | .polar, .polar, p, _ => some p
  | .cartesian, .polar, p, state => some (cartPolar n p state)
  | .polar, .cartesian, p, state => some (polarCart n p state)

/-- A point is converted from the frame `f` to the frames of the list one after another, by the constructor or the assignment of
`primitive/point_traits.hpp:199-203,218-224`. Each conversion has its own array. -/
noncomputable def convertAlong (n : ℕ) : Frame → List (Frame × (ℕ → ℝ)) → (ℕ → ℝ) → Option (ℕ → ℝ)
  | _, [], p => some p
  | f, (g, state) :: l, p =>
    match frameTransform n f g p state with
    | none => none
    | some q => convertAlong n g l q

/-- The frame in which `convertAlong` ends. -/
def lastFrame : Frame → List (Frame × (ℕ → ℝ)) → Frame
  | f, [] => f
  | _, (g, _) :: l => lastFrame g l

/-- `get_x`, `get_y` and `get_z` for `i = 0, 1, 2`, `cartesian_access_traits::get<i>` for all `i`, of a point in frame `f`:
`space/cartesian_access_traits.hpp:19-50,92-108`. The unit that is added to the number is left out. -/
noncomputable def getCartesian (n : ℕ) (f : Frame) (p state : ℕ → ℝ) (i : ℕ) : Option ℝ :=
  (frameTransform n f .cartesian p state).map fun q => q i

/-- `get_r`, `get_theta` and `get_phi` for `i = 0, 1, 2`, `polar_access_traits::get<i>` for all `i`:
`space/polar_access_traits.hpp:35-66,106-122`. -/
noncomputable def getPolar (n : ℕ) (f : Frame) (p state : ℕ → ℝ) (i : ℕ) : Option ℝ :=
  (frameTransform n f .polar p state).map fun q => q i

end Geometrix
