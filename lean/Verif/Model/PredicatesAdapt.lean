import Verif.Model.Predicates3

/-!
# The adaptive predicate of J. R. Shewchuk for the orientation in space

`geometrix/algorithm/predicates.hpp`. Same simplifications as in `Verif.Model.Predicates3`.
-/

set_option linter.unusedSectionVars false

namespace Geometrix

variable {K : Type*} [Field K] [LinearOrder K]

/-- `Two_One_Product`: `predicates.hpp:303-308`. The result is the array `x`, `x0` first. -/
def twoOneProduct (fl : K → K) (splitter : K) (a : K × K) (b : K) : List K :=
  let s := splitFloat fl splitter b
  let t := twoProductPresplit fl splitter a.2 b s.1 s.2
  let u := twoProductPresplit fl splitter a.1 b s.1 s.2
  let v := twoSum fl t.1 u.2
  let w := fastTwoSum fl u.1 v.1
  [t.2, v.2, w.2, w.1]

/-- A call of `Two_Product` whose result is stored in an array, the tail first: for example `predicates.hpp:2022-2023`. -/
def prodArray (fl : K → K) (splitter a b : K) : Res (List K) :=
  let t := twoProduct fl splitter a b
  .ok [t.2, t.1]

/-- The products of the tails of one point with the differences of the next and of the last one, `at_b` and `at_c`:
`predicates.hpp:2014-2052`, and the same for the two other points in `predicates.hpp:2053-2130`. -/
def tailMinors (fl : K → K) (s xtail ytail nx ny lx ly : K) : Res (List K) × Res (List K) :=
  if xtail = 0 then
    if ytail = 0 then (.ok [0], .ok [0])
    else (prodArray fl s (-ytail) nx, prodArray fl s ytail lx)
  else
    if ytail = 0 then (prodArray fl s xtail ny, prodArray fl s (-xtail) ly)
    else (prodDiff fl s xtail ny ytail nx, prodDiff fl s ytail lx xtail ly)

/-- The sum `finnow` with a further term, unless the tail that the term depends on is zero: for example
`predicates.hpp:2150-2155`. -/
def addUnless (fl : K → K) (slack : Bool) (n : Nat) (tail : K) (fin term : Res (List K)) : Res (List K) :=
  if tail ≠ 0 then sumInto fl slack n fin term else fin

/-- The product of two tails, times a difference and its tail: `predicates.hpp:2170-2184`, and the same five times more in
`predicates.hpp:2185-2267`. -/
def addTails (fl : K → K) (slack : Bool) (s xtail ytail z ztail : K) (fin : Res (List K)) : Res (List K) :=
  if ytail ≠ 0 then
    let t := twoProduct fl s xtail ytail
    let fin := sumInto fl slack 192 fin (.ok (twoOneProduct fl s t z))
    addUnless fl slack 192 ztail fin (.ok (twoOneProduct fl s t ztail))
  else fin

/-- The products with the tail of one `x`: `predicates.hpp:2169-2201`, `predicates.hpp:2202-2234` and
`predicates.hpp:2235-2267`. -/
def addTails2 (fl : K → K) (slack : Bool) (s xtail nytail lz lztail lytail nz nztail : K) (fin : Res (List K)) :
    Res (List K) :=
  if xtail ≠ 0 then
    addTails fl slack s (-xtail) lytail nz nztail (addTails fl slack s xtail nytail lz lztail fin)
  else fin

/-- The last stage of `orient3dadapt`: `predicates.hpp:2011-2288`. `d` are the rounded differences and `t` their tails. -/
def orient3dAdaptD (fl : K → K) (slack : Bool) (s : K) (fin bc ca ab : Res (List K)) (ad bd cd at' bt ct : P3 K) : Res K :=
  let ta := tailMinors fl s at'.x at'.y bd.x bd.y cd.x cd.y
  let tb := tailMinors fl s bt.x bt.y cd.x cd.y ad.x ad.y
  let tc := tailMinors fl s ct.x ct.y ad.x ad.y bd.x bd.y
  let bct := sumInto fl slack 8 tb.1 tc.2
  let fin := sumInto fl slack 192 fin (scaleInto fl s 16 bct ad.z)
  let cat := sumInto fl slack 8 tc.1 ta.2
  let fin := sumInto fl slack 192 fin (scaleInto fl s 16 cat bd.z)
  let abt := sumInto fl slack 8 ta.1 tb.2
  let fin := sumInto fl slack 192 fin (scaleInto fl s 16 abt cd.z)
  let fin := addUnless fl slack 192 at'.z fin (scaleInto fl s 12 bc at'.z)
  let fin := addUnless fl slack 192 bt.z fin (scaleInto fl s 12 ca bt.z)
  let fin := addUnless fl slack 192 ct.z fin (scaleInto fl s 12 ab ct.z)
  let fin := addTails2 fl slack s at'.x bt.y cd.z ct.z ct.y bd.z bt.z fin
  let fin := addTails2 fl slack s bt.x ct.y ad.z at'.z at'.y cd.z ct.z fin
  let fin := addTails2 fl slack s ct.x at'.y bd.z bt.z bt.y ad.z at'.z fin
  let fin := addUnless fl slack 192 at'.z fin (scaleInto fl s 16 bct at'.z)
  let fin := addUnless fl slack 192 bt.z fin (scaleInto fl s 16 cat bt.z)
  let fin := addUnless fl slack 192 ct.z fin (scaleInto fl s 16 abt ct.z)
  lastOf fin

/-- A third of what is added in the third stage of `orient3dadapt`: `predicates.hpp:1999-2001`, `predicates.hpp:2002-2004` and
`predicates.hpp:2005-2007`. -/
def tailTerm (fl : K → K) (az aztail bx b_y bxtail bytail cx cy cxtail cytail : K) : K :=
  fl (fl (az * fl (fl (fl (bx * cytail) + fl (cy * bxtail)) - fl (fl (b_y * cxtail) + fl (cx * bytail)))) +
    fl (aztail * fl (fl (bx * cy) - fl (b_y * cx))))

/-- `orient3dadapt`: `predicates.hpp:1886-2289`. -/
def orient3dAdapt (fl : K → K) (slack : Bool) (c : ExactConsts K) (pa pb pc pd : P3 K) (permanent : K) : Res K :=
  let s := c.splitter
  let ad : P3 K := ⟨fl (pa.x - pd.x), fl (pa.y - pd.y), fl (pa.z - pd.z)⟩
  let bd : P3 K := ⟨fl (pb.x - pd.x), fl (pb.y - pd.y), fl (pb.z - pd.z)⟩
  let cd : P3 K := ⟨fl (pc.x - pd.x), fl (pc.y - pd.y), fl (pc.z - pd.z)⟩
  let bc := prodDiff fl s bd.x cd.y cd.x bd.y
  let adet := scaleInto fl s 8 bc ad.z
  let ca := prodDiff fl s cd.x ad.y ad.x cd.y
  let bdet := scaleInto fl s 8 ca bd.z
  let ab := prodDiff fl s ad.x bd.y bd.x ad.y
  let cdet := scaleInto fl s 8 ab cd.z
  let abdet := sumInto fl slack 16 adet bdet
  let fin := sumInto fl slack 192 abdet cdet
  match fin with
  | .error x => .error x
  | .ok fin1 =>
  match estimate fl fin1 with
  | .error x => .error x
  | .ok det =>
  let errbound := fl (c.o3derrboundB * permanent)
  if det ≥ errbound ∨ -det ≥ errbound then .ok det
  else
    let at' : P3 K := ⟨twoDiffTail fl pa.x pd.x ad.x, twoDiffTail fl pa.y pd.y ad.y, twoDiffTail fl pa.z pd.z ad.z⟩
    let bt : P3 K := ⟨twoDiffTail fl pb.x pd.x bd.x, twoDiffTail fl pb.y pd.y bd.y, twoDiffTail fl pb.z pd.z bd.z⟩
    let ct : P3 K := ⟨twoDiffTail fl pc.x pd.x cd.x, twoDiffTail fl pc.y pd.y cd.y, twoDiffTail fl pc.z pd.z cd.z⟩
    if at'.x = 0 ∧ bt.x = 0 ∧ ct.x = 0 ∧ at'.y = 0 ∧ bt.y = 0 ∧ ct.y = 0 ∧ at'.z = 0 ∧ bt.z = 0 ∧ ct.z = 0 then .ok det
    else
      let errbound := fl (fl (c.o3derrboundC * permanent) + fl (c.resulterrbound * absolute det))
      let det := fl (det + fl (fl (tailTerm fl ad.z at'.z bd.x bd.y bt.x bt.y cd.x cd.y ct.x ct.y +
        tailTerm fl bd.z bt.z cd.x cd.y ct.x ct.y ad.x ad.y at'.x at'.y) +
        tailTerm fl cd.z ct.z ad.x ad.y at'.x at'.y bd.x bd.y bt.x bt.y))
      if det ≥ errbound ∨ -det ≥ errbound then .ok det
      else orient3dAdaptD fl slack s fin bc ca ab ad bd cd at' bt ct

/-- `orient3d`: `predicates.hpp:2291-2334`. -/
def orient3d (fl : K → K) (slack : Bool) (c : ExactConsts K) (pa pb pc pd : P3 K) : Res K :=
  let adx := fl (pa.x - pd.x)
  let bdx := fl (pb.x - pd.x)
  let cdx := fl (pc.x - pd.x)
  let ady := fl (pa.y - pd.y)
  let bdy := fl (pb.y - pd.y)
  let cdy := fl (pc.y - pd.y)
  let adz := fl (pa.z - pd.z)
  let bdz := fl (pb.z - pd.z)
  let cdz := fl (pc.z - pd.z)
  let bdxcdy := fl (bdx * cdy)
  let cdxbdy := fl (cdx * bdy)
  let cdxady := fl (cdx * ady)
  let adxcdy := fl (adx * cdy)
  let adxbdy := fl (adx * bdy)
  let bdxady := fl (bdx * ady)
  let det := fl (fl (fl (adz * fl (bdxcdy - cdxbdy)) + fl (bdz * fl (cdxady - adxcdy))) + fl (cdz * fl (adxbdy - bdxady)))
  let permanent := fl (fl (fl (fl (absolute bdxcdy + absolute cdxbdy) * absolute adz) +
    fl (fl (absolute cdxady + absolute adxcdy) * absolute bdz)) + fl (fl (absolute adxbdy + absolute bdxady) * absolute cdz))
  let errbound := fl (c.o3derrboundA * permanent)
  if det > errbound ∨ -det > errbound then .ok det
  else orient3dAdapt fl slack c pa pb pc pd permanent

end Geometrix
