import Verif.Model.Basic3
import Verif.Model.Predicates

/-!
# The exact predicates of J. R. Shewchuk for the orientation in space and for circles and spheres

`geometrix/algorithm/predicates.hpp`. Same simplifications as in `Verif.Model.Predicates`. Here the lengths of the arrays that
are declared are taken into account too: a result that is too long for its array is `outOfRange`.
-/

set_option linter.unusedSectionVars false

namespace Geometrix

variable {K : Type*} [Field K] [LinearOrder K]

/-- An expansion is stored in an array with `n` elements. -/
def into (n : Nat) (h : Res (List K)) : Res (List K) :=
  match h with
  | .error x => .error x
  | .ok h => if h.length ≤ n then .ok h else .error .outOfRange

/-- A call of `fast_expansion_sum_zeroelim` (`predicates.hpp:1020-1092`) whose result goes to an array with `n` elements. -/
def sumInto (fl : K → K) (slack : Bool) (n : Nat) (e f : Res (List K)) : Res (List K) :=
  match e with
  | .error x => .error x
  | .ok e =>
    match f with
    | .error x => .error x
    | .ok f => into n (fastExpansionSumZ fl slack e f)

/-- A call of `scale_expansion_zeroelim` (`predicates.hpp:1292-1334`) whose result goes to an array with `n` elements. -/
def scaleInto (fl : K → K) (splitter : K) (n : Nat) (e : Res (List K)) (b : K) : Res (List K) :=
  match e with
  | .error x => .error x
  | .ok e => into n (scaleExpansionZ fl splitter e b)

/-- A loop that negates all components of an expansion, for example `predicates.hpp:1769-1772`. -/
def negated (e : Res (List K)) : Res (List K) :=
  match e with
  | .error x => .error x
  | .ok e => .ok (e.map fun x => -x)

/-- Two calls of `Two_Product` and one of `Two_Two_Diff`, which store `a * b - c * d` in an array with four elements, for
example `predicates.hpp:1741-1743`. -/
def prodDiff (fl : K → K) (splitter a b c d : K) : Res (List K) :=
  .ok (twoTwoDiff fl (twoProduct fl splitter a b) (twoProduct fl splitter c d))

/-- `orient3dfast`: `predicates.hpp:1684-1707`. -/
def orient3dFast (fl : K → K) (pa pb pc pd : P3 K) : K :=
  let adx := fl (pa.x - pd.x)
  let bdx := fl (pb.x - pd.x)
  let cdx := fl (pc.x - pd.x)
  let ady := fl (pa.y - pd.y)
  let bdy := fl (pb.y - pd.y)
  let cdy := fl (pc.y - pd.y)
  let adz := fl (pa.z - pd.z)
  let bdz := fl (pb.z - pd.z)
  let cdz := fl (pc.z - pd.z)
  fl (fl (fl (adx * fl (fl (bdy * cdz) - fl (bdz * cdy))) + fl (bdx * fl (fl (cdy * adz) - fl (cdz * ady)))) +
    fl (cdx * fl (fl (ady * bdz) - fl (adz * bdy))))

/-- The four expansions that `orient3dexact` and `incircleexact` compute first: `predicates.hpp:1741-1776` and
`predicates.hpp:2423-2458`, which are the same. The result is `(abc, bcd, cda, dab)`. -/
def minors12 (fl : K → K) (slack : Bool) (s ax ay bx «by» cx cy dx dy : K) :
    Res (List K) × Res (List K) × Res (List K) × Res (List K) :=
  let ab := prodDiff fl s ax «by» bx ay
  let bc := prodDiff fl s bx cy cx «by»
  let cd := prodDiff fl s cx dy dx cy
  let da := prodDiff fl s dx ay ax dy
  let ac := prodDiff fl s ax cy cx ay
  let bd := prodDiff fl s bx dy dx «by»
  let temp8 := sumInto fl slack 8 cd da
  let cda := sumInto fl slack 12 temp8 ac
  let temp8 := sumInto fl slack 8 da ab
  let dab := sumInto fl slack 12 temp8 bd
  let bd := negated bd
  let ac := negated ac
  let temp8 := sumInto fl slack 8 ab bc
  let abc := sumInto fl slack 12 temp8 ac
  let temp8 := sumInto fl slack 8 bc cd
  let bcd := sumInto fl slack 12 temp8 bd
  (abc, bcd, cda, dab)

/-- `orient3dexact`: `predicates.hpp:1709-1788`. -/
def orient3dExact (fl : K → K) (slack : Bool) (s : K) (pa pb pc pd : P3 K) : Res K :=
  let m := minors12 fl slack s pa.x pa.y pb.x pb.y pc.x pc.y pd.x pd.y
  let adet := scaleInto fl s 24 m.2.1 pa.z
  let bdet := scaleInto fl s 24 m.2.2.1 (-pb.z)
  let cdet := scaleInto fl s 24 m.2.2.2 pc.z
  let ddet := scaleInto fl s 24 m.1 (-pd.z)
  let abdet := sumInto fl slack 48 adet bdet
  let cddet := sumInto fl slack 48 cdet ddet
  lastOf (sumInto fl slack 96 abdet cddet)

/-- `incirclefast`: `predicates.hpp:2362-2387`. -/
def incircleFast (fl : K → K) (pa pb pc pd : P2 K) : K :=
  let adx := fl (pa.x - pd.x)
  let ady := fl (pa.y - pd.y)
  let bdx := fl (pb.x - pd.x)
  let bdy := fl (pb.y - pd.y)
  let cdx := fl (pc.x - pd.x)
  let cdy := fl (pc.y - pd.y)
  let abdet := fl (fl (adx * bdy) - fl (bdx * ady))
  let bcdet := fl (fl (bdx * cdy) - fl (cdx * bdy))
  let cadet := fl (fl (cdx * ady) - fl (adx * cdy))
  let alift := fl (fl (adx * adx) + fl (ady * ady))
  let blift := fl (fl (bdx * bdx) + fl (bdy * bdy))
  let clift := fl (fl (cdx * cdx) + fl (cdy * cdy))
  fl (fl (fl (alift * bcdet) + fl (blift * cadet)) + fl (clift * abdet))

/-- One of the four parts of the determinant in `incircleexact`: `predicates.hpp:2460-2464`, and with the signs of the second
factors changed `predicates.hpp:2466-2470`. -/
def lift96 (fl : K → K) (slack : Bool) (s : K) (e : Res (List K)) (x x' y y' : K) : Res (List K) :=
  let det24x := scaleInto fl s 24 e x
  let det48x := scaleInto fl s 48 det24x x'
  let det24y := scaleInto fl s 24 e y
  let det48y := scaleInto fl s 48 det24y y'
  sumInto fl slack 96 det48x det48y

/-- `incircleexact`: `predicates.hpp:2389-2489`. -/
def incircleExact (fl : K → K) (slack : Bool) (s : K) (pa pb pc pd : P2 K) : Res K :=
  let m := minors12 fl slack s pa.x pa.y pb.x pb.y pc.x pc.y pd.x pd.y
  let adet := lift96 fl slack s m.2.1 pa.x pa.x pa.y pa.y
  let bdet := lift96 fl slack s m.2.2.1 pb.x (-pb.x) pb.y (-pb.y)
  let cdet := lift96 fl slack s m.2.2.2 pc.x pc.x pc.y pc.y
  let ddet := lift96 fl slack s m.1 pd.x (-pd.x) pd.y (-pd.y)
  let abdet := sumInto fl slack 192 adet bdet
  let cddet := sumInto fl slack 192 cdet ddet
  lastOf (sumInto fl slack 384 abdet cddet)

/-- `inspherefast`: `predicates.hpp:3298-3344`. -/
def insphereFast (fl : K → K) (pa pb pc pd pe : P3 K) : K :=
  let aex := fl (pa.x - pe.x)
  let bex := fl (pb.x - pe.x)
  let cex := fl (pc.x - pe.x)
  let dex := fl (pd.x - pe.x)
  let aey := fl (pa.y - pe.y)
  let bey := fl (pb.y - pe.y)
  let cey := fl (pc.y - pe.y)
  let dey := fl (pd.y - pe.y)
  let aez := fl (pa.z - pe.z)
  let bez := fl (pb.z - pe.z)
  let cez := fl (pc.z - pe.z)
  let dez := fl (pd.z - pe.z)
  let ab := fl (fl (aex * bey) - fl (bex * aey))
  let bc := fl (fl (bex * cey) - fl (cex * bey))
  let cd := fl (fl (cex * dey) - fl (dex * cey))
  let da := fl (fl (dex * aey) - fl (aex * dey))
  let ac := fl (fl (aex * cey) - fl (cex * aey))
  let bd := fl (fl (bex * dey) - fl (dex * bey))
  let abc := fl (fl (fl (aez * bc) - fl (bez * ac)) + fl (cez * ab))
  let bcd := fl (fl (fl (bez * cd) - fl (cez * bd)) + fl (dez * bc))
  let cda := fl (fl (fl (cez * da) + fl (dez * ac)) + fl (aez * cd))
  let dab := fl (fl (fl (dez * ab) + fl (aez * bd)) + fl (bez * da))
  let alift := fl (fl (fl (aex * aex) + fl (aey * aey)) + fl (aez * aez))
  let blift := fl (fl (fl (bex * bex) + fl (bey * bey)) + fl (bez * bez))
  let clift := fl (fl (fl (cex * cex) + fl (cey * cey)) + fl (cez * cez))
  let dlift := fl (fl (fl (dex * dex) + fl (dey * dey)) + fl (dez * dez))
  fl (fl (fl (dlift * abc) - fl (clift * dab)) + fl (fl (blift * cda) - fl (alift * bcd)))

/-- Three products of an expansion of length four with a number, and their sum: `predicates.hpp:3435-3441`, and the same nine
times more in `predicates.hpp:3443-3513`. -/
def minor24 (fl : K → K) (slack : Bool) (s : K) (u : Res (List K)) (x : K) (v : Res (List K)) (y : K) (w : Res (List K))
    (z : K) : Res (List K) :=
  let temp8a := scaleInto fl s 8 u x
  let temp8b := scaleInto fl s 8 v y
  let temp16 := sumInto fl slack 16 temp8a temp8b
  let temp8a := scaleInto fl s 8 w z
  sumInto fl slack 24 temp8a temp16

/-- The sum of two expansions less that of two others, times the square of the distance of a point to the origin:
`predicates.hpp:3515-3529`, and the same four times more in `predicates.hpp:3531-3593`. -/
def lift1152 (fl : K → K) (slack : Bool) (s : K) (e f g h : Res (List K)) (p : P3 K) : Res (List K) :=
  let temp48a := sumInto fl slack 48 e f
  let temp48b := sumInto fl slack 48 g h
  let temp48b := negated temp48b
  let bcde := sumInto fl slack 96 temp48a temp48b
  let temp192 := scaleInto fl s 192 bcde p.x
  let det384x := scaleInto fl s 384 temp192 p.x
  let temp192 := scaleInto fl s 192 bcde p.y
  let det384y := scaleInto fl s 384 temp192 p.y
  let temp192 := scaleInto fl s 192 bcde p.z
  let det384z := scaleInto fl s 384 temp192 p.z
  let detxy := sumInto fl slack 768 det384x det384y
  sumInto fl slack 1152 detxy det384z

/-- `insphereexact`: `predicates.hpp:3346-3601`. -/
def insphereExact (fl : K → K) (slack : Bool) (s : K) (pa pb pc pd pe : P3 K) : Res K :=
  let ab := prodDiff fl s pa.x pb.y pb.x pa.y
  let bc := prodDiff fl s pb.x pc.y pc.x pb.y
  let cd := prodDiff fl s pc.x pd.y pd.x pc.y
  let de := prodDiff fl s pd.x pe.y pe.x pd.y
  let ea := prodDiff fl s pe.x pa.y pa.x pe.y
  let ac := prodDiff fl s pa.x pc.y pc.x pa.y
  let bd := prodDiff fl s pb.x pd.y pd.x pb.y
  let ce := prodDiff fl s pc.x pe.y pe.x pc.y
  let da := prodDiff fl s pd.x pa.y pa.x pd.y
  let eb := prodDiff fl s pe.x pb.y pb.x pe.y
  let abc := minor24 fl slack s bc pa.z ac (-pb.z) ab pc.z
  let bcd := minor24 fl slack s cd pb.z bd (-pc.z) bc pd.z
  let cde := minor24 fl slack s de pc.z ce (-pd.z) cd pe.z
  let dea := minor24 fl slack s ea pd.z da (-pe.z) de pa.z
  let eab := minor24 fl slack s ab pe.z eb (-pa.z) ea pb.z
  let abd := minor24 fl slack s bd pa.z da pb.z ab pd.z
  let bce := minor24 fl slack s ce pb.z eb pc.z bc pe.z
  let cda := minor24 fl slack s da pc.z ac pd.z cd pa.z
  let deb := minor24 fl slack s eb pd.z bd pe.z de pb.z
  let eac := minor24 fl slack s ac pe.z ce pa.z ea pc.z
  let adet := lift1152 fl slack s cde bce deb bcd pa
  let bdet := lift1152 fl slack s dea cda eac cde pb
  let cdet := lift1152 fl slack s eab deb abd dea pc
  let ddet := lift1152 fl slack s abc eac bce eab pd
  let edet := lift1152 fl slack s bcd abd cda abc pe
  let abdet := sumInto fl slack 2304 adet bdet
  let cddet := sumInto fl slack 2304 cdet ddet
  let cdedet := sumInto fl slack 3456 cddet edet
  lastOf (sumInto fl slack 5760 abdet cdedet)

end Geometrix
