import Verif.Model.PredicatesCircle

/-!
# The adaptive predicate of J. R. Shewchuk for spheres

`geometrix/algorithm/predicates.hpp`. Same simplifications as in `Verif.Model.Predicates3`.
-/

set_option linter.unusedSectionVars false

namespace Geometrix

variable {K : Type*} [Field K] [LinearOrder K]

/-- `ab`, `bc`, `cd`, `da`, `ac` and `bd` of `insphere`: `predicates.hpp:4192-4210`. -/
def sphCross (fl : K → K) (a b : P3 K) : K := fl (fl (a.x * b.y) - fl (b.x * a.y))

/-- `alift`, `blift`, `clift` and `dlift`: `predicates.hpp:4217-4220`; the same sums in the correction:
`predicates.hpp:4130`, `predicates.hpp:4133`, `predicates.hpp:4136` and `predicates.hpp:4139`. -/
def sphLift (fl : K → K) (a : P3 K) : K := fl (fl (fl (a.x * a.x) + fl (a.y * a.y)) + fl (a.z * a.z))

/-- A sum of three products, for example `cda`: `predicates.hpp:4214`. -/
def sphComb (fl : K → K) (x u y v z w : K) : K := fl (fl (fl (x * u) + fl (y * v)) + fl (z * w))

/-- The same with the second product subtracted, for example `abc`: `predicates.hpp:4212`. -/
def sphCombSub (fl : K → K) (x u y v z w : K) : K := fl (fl (fl (x * u) - fl (y * v)) + fl (z * w))

/-- `det` of `insphere`: `predicates.hpp:4212-4222`. -/
def sphFirst (fl : K → K) (a b c d : P3 K) : K :=
  let ab := sphCross fl a b
  let bc := sphCross fl b c
  let cd := sphCross fl c d
  let da := sphCross fl d a
  let ac := sphCross fl a c
  let bd := sphCross fl b d
  let abc := sphCombSub fl a.z bc b.z ac c.z ab
  let bcd := sphCombSub fl b.z cd c.z bd d.z bc
  let cda := sphComb fl c.z da d.z ac a.z cd
  let dab := sphComb fl d.z ab a.z bd b.z da
  fl (fl (fl (sphLift fl d * abc) - fl (sphLift fl c * dab)) + fl (fl (sphLift fl b * cda) - fl (sphLift fl a * bcd)))

/-- The absolute value of a rounded product: `aexbeyplus` and so on: `predicates.hpp:4228-4239`. -/
def plus (fl : K → K) (x y : K) : K := absolute (fl (x * y))

/-- A quarter of the permanent: `predicates.hpp:4240-4243`, and the same for the three other points in
`predicates.hpp:4244-4255`. -/
def sphQuarter (fl : K → K) (u v x w r y s t z lift : K) : K :=
  fl (fl (fl (fl (fl (u + v) * absolute x) + fl (fl (w + r) * absolute y)) + fl (fl (s + t) * absolute z)) * lift)

/-- `permanent`: `predicates.hpp:4224-4255`. -/
def sphPermanent (fl : K → K) (a b c d : P3 K) : K :=
  let aexbey := plus fl a.x b.y
  let bexaey := plus fl b.x a.y
  let bexcey := plus fl b.x c.y
  let cexbey := plus fl c.x b.y
  let cexdey := plus fl c.x d.y
  let dexcey := plus fl d.x c.y
  let dexaey := plus fl d.x a.y
  let aexdey := plus fl a.x d.y
  let aexcey := plus fl a.x c.y
  let cexaey := plus fl c.x a.y
  let bexdey := plus fl b.x d.y
  let dexbey := plus fl d.x b.y
  fl (fl (fl (sphQuarter fl cexdey dexcey b.z dexbey bexdey c.z bexcey cexbey d.z (sphLift fl a) +
    sphQuarter fl dexaey aexdey c.z aexcey cexaey d.z cexdey dexcey a.z (sphLift fl b)) +
    sphQuarter fl aexbey bexaey d.z bexdey dexbey a.z dexaey aexdey b.z (sphLift fl c)) +
    sphQuarter fl bexcey cexbey a.z cexaey aexcey b.z aexbey bexaey c.z (sphLift fl d))

/-- `adet`, from `temp24` on: `predicates.hpp:4031-4038`. The second factor `a'` is `a` or its negative, as the caller says. The
same for the three other points in `predicates.hpp:4047-4054`, `predicates.hpp:4063-4070` and `predicates.hpp:4079-4086`. -/
def sphDet (fl : K → K) (slack : Bool) (s : K) (temp24 : Res (List K)) (a a' : P3 K) : Res (List K) :=
  let xdet := scaleInto fl s 96 (scaleInto fl s 48 temp24 a.x) a'.x
  let ydet := scaleInto fl s 96 (scaleInto fl s 48 temp24 a.y) a'.y
  let zdet := scaleInto fl s 96 (scaleInto fl s 48 temp24 a.z) a'.z
  let xydet := sumInto fl slack 192 xdet ydet
  sumInto fl slack 288 xydet zdet

/-- The largest component of `ab`, that is `ab3`: `predicates.hpp:3994-3997`, and the same for `bc3` and so on. -/
def prodTop (fl : K → K) (s : K) (a b : P3 K) : K :=
  (twoTwoDiff fl (twoProduct fl s a.x b.y) (twoProduct fl s b.x a.y)).getLastD 0

/-- `abeps` and so on: `predicates.hpp:4118-4129`. -/
def sphEps (fl : K → K) (a b s t : P3 K) : K :=
  fl (fl (fl (a.x * t.y) + fl (b.y * s.x)) - fl (fl (a.y * t.x) + fl (b.x * s.y)))

/-- The products of the differences of a point and their tails: `predicates.hpp:4142`, `predicates.hpp:4144`,
`predicates.hpp:4146` and `predicates.hpp:4148`. -/
def sphLiftTail (fl : K → K) (a s : P3 K) : K := fl (fl (fl (a.x * s.x) + fl (a.y * s.y)) + fl (a.z * s.z))

/-- What is added to `det` in the third stage: `predicates.hpp:4118-4149`. `s`, `t`, `u` and `v` are the tails. -/
def sphCorrection (fl : K → K) (k : K) (a b c d s t u v : P3 K) : K :=
  let ab := sphEps fl a b s t
  let bc := sphEps fl b c t u
  let cd := sphEps fl c d u v
  let da := sphEps fl d a v s
  let ac := sphEps fl a c s u
  let bd := sphEps fl b d t v
  let ab3 := prodTop fl k a b
  let bc3 := prodTop fl k b c
  let cd3 := prodTop fl k c d
  let da3 := prodTop fl k d a
  let ac3 := prodTop fl k a c
  let bd3 := prodTop fl k b d
  fl (fl (fl (fl (sphLift fl b * fl (sphComb fl c.z da d.z ac a.z cd + sphComb fl u.z da3 v.z ac3 s.z cd3)) +
        fl (sphLift fl d * fl (sphCombSub fl a.z bc b.z ac c.z ab + sphCombSub fl s.z bc3 t.z ac3 u.z ab3))) -
      fl (fl (sphLift fl a * fl (sphCombSub fl b.z cd c.z bd d.z bc + sphCombSub fl t.z cd3 u.z bd3 v.z bc3)) +
        fl (sphLift fl c * fl (sphComb fl d.z ab a.z bd b.z da + sphComb fl v.z ab3 s.z bd3 t.z da3)))) +
    fl (2 * fl (fl (fl (sphLiftTail fl b t * sphComb fl c.z da3 d.z ac3 a.z cd3) +
        fl (sphLiftTail fl d v * sphCombSub fl a.z bc3 b.z ac3 c.z ab3)) -
      fl (fl (sphLiftTail fl a s * sphCombSub fl b.z cd3 c.z bd3 d.z bc3) +
        fl (sphLiftTail fl c u * sphComb fl d.z ab3 a.z bd3 b.z da3)))))

/-- `fin1`: `predicates.hpp:3994-4090`. -/
def sphFin (fl : K → K) (slack : Bool) (k : K) (a b c d : P3 K) : Res (List K) :=
  let ab := prodDiff fl k a.x b.y b.x a.y
  let bc := prodDiff fl k b.x c.y c.x b.y
  let cd := prodDiff fl k c.x d.y d.x c.y
  let da := prodDiff fl k d.x a.y a.x d.y
  let ac := prodDiff fl k a.x c.y c.x a.y
  let bd := prodDiff fl k b.x d.y d.x b.y
  let adet := sphDet fl slack k (minor24 fl slack k cd b.z bd (-c.z) bc d.z) a ⟨-a.x, -a.y, -a.z⟩
  let bdet := sphDet fl slack k (minor24 fl slack k da c.z ac d.z cd a.z) b b
  let cdet := sphDet fl slack k (minor24 fl slack k ab d.z bd a.z da b.z) c ⟨-c.x, -c.y, -c.z⟩
  let ddet := sphDet fl slack k (minor24 fl slack k bc a.z ac (-b.z) ab c.z) d d
  let abdet := sumInto fl slack 576 adet bdet
  let cddet := sumInto fl slack 576 cdet ddet
  sumInto fl slack 1152 abdet cddet

/-- All tails are zero: `predicates.hpp:4110-4113`. -/
def noTails (s t u v : P3 K) : Prop :=
  (s.x = 0 ∧ s.y = 0 ∧ s.z = 0) ∧ (t.x = 0 ∧ t.y = 0 ∧ t.z = 0) ∧ (u.x = 0 ∧ u.y = 0 ∧ u.z = 0) ∧
    (v.x = 0 ∧ v.y = 0 ∧ v.z = 0)

instance (s t u v : P3 K) : Decidable (noTails s t u v) := by unfold noTails; infer_instance

/-- The stages of `insphereadapt` after the differences `a`, `b`, `c` and `d`, and their tails, which are computed after the
second test: `predicates.hpp:3994-4154`. `exact` is what the call of `insphereexact` gives. -/
def insphereStages (fl : K → K) (slack : Bool) (k : ExactConsts K) (a b c d s t u v : P3 K) (permanent : K) (exact : Res K) :
    Res K :=
  match sphFin fl slack k.splitter a b c d with
  | .error x => .error x
  | .ok fin1 =>
  match estimate fl fin1 with
  | .error x => .error x
  | .ok det =>
  let errbound := fl (k.isperrboundB * permanent)
  if det ≥ errbound ∨ -det ≥ errbound then .ok det
  else
    if noTails s t u v then .ok det
    else
      let errbound := fl (fl (k.isperrboundC * permanent) + fl (k.resulterrbound * absolute det))
      let det := fl (det + sphCorrection fl k.splitter a b c d s t u v)
      if det ≥ errbound ∨ -det ≥ errbound then .ok det
      else exact

/-- The rounded differences of the coordinates: `predicates.hpp:3981-3992` and `predicates.hpp:4179-4190`. -/
def sphDiff (fl : K → K) (a e : P3 K) : P3 K := ⟨fl (a.x - e.x), fl (a.y - e.y), fl (a.z - e.z)⟩

/-- The tails of these differences: `predicates.hpp:4098-4109`. -/
def sphTail (fl : K → K) (a e : P3 K) : P3 K :=
  ⟨twoDiffTail fl a.x e.x (fl (a.x - e.x)), twoDiffTail fl a.y e.y (fl (a.y - e.y)), twoDiffTail fl a.z e.z (fl (a.z - e.z))⟩

/-- `insphereadapt`: `predicates.hpp:3937-4155`. -/
def insphereAdapt (fl : K → K) (slack : Bool) (k : ExactConsts K) (pa pb pc pd pe : P3 K) (permanent : K) : Res K :=
  insphereStages fl slack k (sphDiff fl pa pe) (sphDiff fl pb pe) (sphDiff fl pc pe) (sphDiff fl pd pe)
    (sphTail fl pa pe) (sphTail fl pb pe) (sphTail fl pc pe) (sphTail fl pd pe) permanent
    (insphereExact fl slack k.splitter pa pb pc pd pe)

/-- `insphere`: `predicates.hpp:4157-4262`. -/
def insphere (fl : K → K) (slack : Bool) (k : ExactConsts K) (pa pb pc pd pe : P3 K) : Res K :=
  let a := sphDiff fl pa pe
  let b := sphDiff fl pb pe
  let c := sphDiff fl pc pe
  let d := sphDiff fl pd pe
  let det := sphFirst fl a b c d
  let permanent := sphPermanent fl a b c d
  let errbound := fl (k.isperrboundA * permanent)
  if det > errbound ∨ -det > errbound then .ok det
  else insphereAdapt fl slack k pa pb pc pd pe permanent

end Geometrix
