import Verif.Model.PredicatesAdapt

/-!
# The adaptive predicate of J. R. Shewchuk for circles

`geometrix/algorithm/predicates.hpp`. Same simplifications as in `Verif.Model.Predicates3`. An expansion that the code computes
once and uses in two places under the same condition is computed twice here. An array that was not filled is `outOfRange`.
-/

set_option linter.unusedSectionVars false

namespace Geometrix

variable {K : Type*} [Field K] [LinearOrder K]

/-- `Two_One_Sum`: `predicates.hpp:253-255`. The result is `(x2, x1, x0)`. -/
def twoOneSum (fl : K → K) (a1 a0 b : K) : K × K × K :=
  let s := twoSum fl a0 b
  let t := twoSum fl a1 s.1
  (t.1, t.2, s.2)

/-- `Two_Two_Sum`: `predicates.hpp:261-263`. The result is the array `x`, `x0` first. -/
def twoTwoSum (fl : K → K) (a b : K × K) : List K :=
  let s := twoOneSum fl a.1 a.2 b.2
  let t := twoOneSum fl s.1 s.2.1 b.1
  [s.2.2, t.2.2, t.2.1, t.1]

/-- Two calls of `Two_Product` and one of `Two_Two_Sum`, which store `a * b + c * d` in an array with four elements, for example
`predicates.hpp:2933-2936`. -/
def prodSum (fl : K → K) (splitter a b c d : K) : Res (List K) :=
  .ok (twoTwoSum fl (twoProduct fl splitter a b) (twoProduct fl splitter c d))

/-- The squares `aa`, if they are needed: `predicates.hpp:2793-2799`; `bb` and `cc`: `predicates.hpp:2800-2813`. `s` and `t` are
the tails of the two other points. -/
def liftArray (fl : K → K) (splitter : K) (a s t : P2 K) : Res (List K) :=
  if s.x ≠ 0 ∨ s.y ≠ 0 ∨ t.x ≠ 0 ∨ t.y ≠ 0 then .ok (twoTwoSum fl (squareTail fl splitter a.x) (squareTail fl splitter a.y))
  else .error .outOfRange

/-- What is added for one tail alone: `predicates.hpp:2815-2833`, and the same for the five other tails in
`predicates.hpp:2834-2928`. -/
def circTail (fl : K → K) (slack : Bool) (s tail d b' c' : K) (bc cc bb fin : Res (List K)) : Res (List K) :=
  if tail ≠ 0 then
    let temp16a := scaleInto fl s 16 (scaleInto fl s 8 bc tail) (fl (2 * d))
    let temp16b := scaleInto fl s 16 (scaleInto fl s 8 cc tail) b'
    let temp16c := scaleInto fl s 16 (scaleInto fl s 8 bb tail) (-c')
    sumInto fl slack 1152 fin (sumInto fl slack 48 temp16c (sumInto fl slack 32 temp16a temp16b))
  else fin

/-- `bct` and `bctt`: `predicates.hpp:2931-2955`; `cat` and `catt`: `predicates.hpp:3028-3052`; `abt` and `abtt`:
`predicates.hpp:3125-3149`. -/
def circMinors (fl : K → K) (slack : Bool) (s : K) (b c bt ct : P2 K) : Res (List K) × Res (List K) :=
  if bt.x ≠ 0 ∨ bt.y ≠ 0 ∨ ct.x ≠ 0 ∨ ct.y ≠ 0 then
    (sumInto fl slack 8 (prodSum fl s bt.x c.y b.x ct.y) (prodSum fl s ct.x (-b.y) c.x (-bt.y)),
      prodDiff fl s bt.x ct.y ct.x bt.y)
  else (.ok [0], .ok [0])

/-- The first sum for a tail: `predicates.hpp:2958-2966`, and the same in five other places. -/
def circTwice (fl : K → K) (slack : Bool) (s tail d : K) (bc bct fin : Res (List K)) : Res (List K) :=
  let temp16a := scaleInto fl s 16 (scaleInto fl s 8 bc tail) tail
  let temp32a := scaleInto fl s 32 (scaleInto fl s 16 bct tail) (fl (2 * d))
  sumInto fl slack 1152 fin (sumInto fl slack 48 temp16a temp32a)

/-- The last sum for a tail: `predicates.hpp:2984-2997`, and the same in five other places. -/
def circThird (fl : K → K) (slack : Bool) (s tail d : K) (bct bctt fin : Res (List K)) : Res (List K) :=
  let temp32a := scaleInto fl s 32 (scaleInto fl s 16 bct tail) tail
  let temp16a := scaleInto fl s 16 (scaleInto fl s 8 bctt tail) (fl (2 * d))
  let temp16b := scaleInto fl s 16 (scaleInto fl s 8 bctt tail) tail
  let temp32b := sumInto fl slack 32 temp16a temp16b
  sumInto fl slack 1152 fin (sumInto fl slack 64 temp32a temp32b)

/-- What is added for the tails of one point and other tails: `predicates.hpp:2930-3026`, `predicates.hpp:3027-3123` and
`predicates.hpp:3124-3220`. -/
def circTails (fl : K → K) (slack : Bool) (s : K) (a b c at' bt ct : P2 K) (bc cc bb fin : Res (List K)) : Res (List K) :=
  if at'.x ≠ 0 ∨ at'.y ≠ 0 then
    let m := circMinors fl slack s b c bt ct
    let fin :=
      if at'.x ≠ 0 then
        let fin := circTwice fl slack s at'.x a.x bc m.1 fin
        let fin := addUnless fl slack 1152 bt.y fin (scaleInto fl s 16 (scaleInto fl s 8 cc at'.x) bt.y)
        let fin := addUnless fl slack 1152 ct.y fin (scaleInto fl s 16 (scaleInto fl s 8 bb (-at'.x)) ct.y)
        circThird fl slack s at'.x a.x m.1 m.2 fin
      else fin
    if at'.y ≠ 0 then
      let fin := circTwice fl slack s at'.y a.y bc m.1 fin
      circThird fl slack s at'.y a.y m.1 m.2 fin
    else fin
  else fin

/-- The last stage of `incircleadapt`: `predicates.hpp:2790-3222`. `ad`, `bd` and `cd` are the rounded differences and `at'`,
`bt` and `ct` their tails. -/
def incircleAdaptD (fl : K → K) (slack : Bool) (s : K) (fin bc ca ab : Res (List K)) (ad bd cd at' bt ct : P2 K) : Res K :=
  let aa := liftArray fl s ad bt ct
  let bb := liftArray fl s bd ct at'
  let cc := liftArray fl s cd at' bt
  let fin := circTail fl slack s at'.x ad.x bd.y cd.y bc cc bb fin
  let fin := circTail fl slack s at'.y ad.y cd.x bd.x bc bb cc fin
  let fin := circTail fl slack s bt.x bd.x cd.y ad.y ca aa cc fin
  let fin := circTail fl slack s bt.y bd.y ad.x cd.x ca cc aa fin
  let fin := circTail fl slack s ct.x cd.x ad.y bd.y ab bb aa fin
  let fin := circTail fl slack s ct.y cd.y bd.x ad.x ab aa bb fin
  let fin := circTails fl slack s ad bd cd at' bt ct bc cc bb fin
  let fin := circTails fl slack s bd cd ad bt ct at' ca aa cc fin
  let fin := circTails fl slack s cd ad bd ct at' bt ab bb aa fin
  lastOf fin

/-- A third of what is added in the third stage of `incircleadapt`: `predicates.hpp:2777-2779`, `predicates.hpp:2780-2782` and
`predicates.hpp:2783-2785`. -/
def circTerm (fl : K → K) (a b c at' bt ct : P2 K) : K :=
  fl (fl (fl (fl (a.x * a.x) + fl (a.y * a.y)) *
      fl (fl (fl (b.x * ct.y) + fl (c.y * bt.x)) - fl (fl (b.y * ct.x) + fl (c.x * bt.y)))) +
    fl (fl (2 * fl (fl (a.x * at'.x) + fl (a.y * at'.y))) * fl (fl (b.x * c.y) - fl (b.y * c.x))))

/-- The square of a difference times a minor: `predicates.hpp:2730-2734`, `predicates.hpp:2740-2744` and
`predicates.hpp:2750-2754`. -/
def circDet (fl : K → K) (slack : Bool) (s : K) (a : P2 K) (bc : Res (List K)) : Res (List K) :=
  let axxbc := scaleInto fl s 16 (scaleInto fl s 8 bc a.x) a.x
  let ayybc := scaleInto fl s 16 (scaleInto fl s 8 bc a.y) a.y
  sumInto fl slack 32 axxbc ayybc

/-- The stages of `incircleadapt` after the differences `ad`, `bd` and `cd`, and their tails, which are computed after the second
test: `predicates.hpp:2726-3222`. -/
def incircleStages (fl : K → K) (slack : Bool) (k : ExactConsts K) (ad bd cd at' bt ct : P2 K) (permanent : K) : Res K :=
  let s := k.splitter
  let bc := prodDiff fl s bd.x cd.y cd.x bd.y
  let ca := prodDiff fl s cd.x ad.y ad.x cd.y
  let ab := prodDiff fl s ad.x bd.y bd.x ad.y
  let abdet := sumInto fl slack 64 (circDet fl slack s ad bc) (circDet fl slack s bd ca)
  let fin := sumInto fl slack 1152 abdet (circDet fl slack s cd ab)
  match fin with
  | .error x => .error x
  | .ok fin1 =>
  match estimate fl fin1 with
  | .error x => .error x
  | .ok det =>
  let errbound := fl (k.iccerrboundB * permanent)
  if det ≥ errbound ∨ -det ≥ errbound then .ok det
  else
    if at'.x = 0 ∧ bt.x = 0 ∧ ct.x = 0 ∧ at'.y = 0 ∧ bt.y = 0 ∧ ct.y = 0 then .ok det
    else
      let errbound := fl (fl (k.iccerrboundC * permanent) + fl (k.resulterrbound * absolute det))
      let det := fl (det + fl (fl (circTerm fl ad bd cd at' bt ct + circTerm fl bd cd ad bt ct at') +
        circTerm fl cd ad bd ct at' bt))
      if det ≥ errbound ∨ -det ≥ errbound then .ok det
      else incircleAdaptD fl slack s fin bc ca ab ad bd cd at' bt ct

/-- `incircleadapt`: `predicates.hpp:2651-3223`. -/
def incircleAdapt (fl : K → K) (slack : Bool) (k : ExactConsts K) (pa pb pc pd : P2 K) (permanent : K) : Res K :=
  let ad : P2 K := ⟨fl (pa.x - pd.x), fl (pa.y - pd.y)⟩
  let bd : P2 K := ⟨fl (pb.x - pd.x), fl (pb.y - pd.y)⟩
  let cd : P2 K := ⟨fl (pc.x - pd.x), fl (pc.y - pd.y)⟩
  incircleStages fl slack k ad bd cd ⟨twoDiffTail fl pa.x pd.x ad.x, twoDiffTail fl pa.y pd.y ad.y⟩
    ⟨twoDiffTail fl pb.x pd.x bd.x, twoDiffTail fl pb.y pd.y bd.y⟩
    ⟨twoDiffTail fl pc.x pd.x cd.x, twoDiffTail fl pc.y pd.y cd.y⟩ permanent

/-- `incircle`: `predicates.hpp:3225-3269`. -/
def incircle (fl : K → K) (slack : Bool) (k : ExactConsts K) (pa pb pc pd : P2 K) : Res K :=
  let adx := fl (pa.x - pd.x)
  let bdx := fl (pb.x - pd.x)
  let cdx := fl (pc.x - pd.x)
  let ady := fl (pa.y - pd.y)
  let bdy := fl (pb.y - pd.y)
  let cdy := fl (pc.y - pd.y)
  let bdxcdy := fl (bdx * cdy)
  let cdxbdy := fl (cdx * bdy)
  let alift := fl (fl (adx * adx) + fl (ady * ady))
  let cdxady := fl (cdx * ady)
  let adxcdy := fl (adx * cdy)
  let blift := fl (fl (bdx * bdx) + fl (bdy * bdy))
  let adxbdy := fl (adx * bdy)
  let bdxady := fl (bdx * ady)
  let clift := fl (fl (cdx * cdx) + fl (cdy * cdy))
  let det := fl (fl (fl (alift * fl (bdxcdy - cdxbdy)) + fl (blift * fl (cdxady - adxcdy))) + fl (clift * fl (adxbdy - bdxady)))
  let permanent := fl (fl (fl (fl (absolute bdxcdy + absolute cdxbdy) * alift) +
    fl (fl (absolute cdxady + absolute adxcdy) * blift)) + fl (fl (absolute adxbdy + absolute bdxady) * clift))
  let errbound := fl (k.iccerrboundA * permanent)
  if det > errbound ∨ -det > errbound then .ok det
  else incircleAdapt fl slack k pa pb pc pd permanent

end Geometrix
