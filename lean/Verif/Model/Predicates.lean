import Verif.Model.Basic

/-!
# Exact arithmetic and the orientation predicate of J. R. Shewchuk

`geometrix/algorithm/predicates.hpp`. Every sum, difference and product is rounded by `fl`. Simplifications: there is no
overflow and no underflow, a product and a sum are not contracted to one operation, and results are not kept in registers that
are wider than the type. An array with its length is a list. The file has definitions of functions in the style of the first
C, which is not C++; no other file of the library includes it.
-/

set_option linter.unusedSectionVars false

namespace Geometrix

variable {K : Type*} [Field K] [LinearOrder K]

/-- `Fast_Two_Sum`: `geometrix/algorithm/predicates.hpp:161-167`. -/
def fastTwoSum (fl : K → K) (a b : K) : K × K :=
  let x := fl (a + b)
  let bvirt := fl (x - a)
  (x, fl (b - bvirt))

/-- `Fast_Two_Diff`: `predicates.hpp:169-175`. -/
def fastTwoDiff (fl : K → K) (a b : K) : K × K :=
  let x := fl (a - b)
  let bvirt := fl (a - x)
  (x, fl (bvirt - b))

/-- `Two_Sum`: `predicates.hpp:177-186`. -/
def twoSum (fl : K → K) (a b : K) : K × K :=
  let x := fl (a + b)
  let bvirt := fl (x - a)
  let avirt := fl (x - bvirt)
  let bround := fl (b - bvirt)
  let around := fl (a - avirt)
  (x, fl (around + bround))

/-- `Two_Diff_Tail`: `predicates.hpp:188-193`. -/
def twoDiffTail (fl : K → K) (a b x : K) : K :=
  let bvirt := fl (a - x)
  let avirt := fl (x + bvirt)
  let bround := fl (bvirt - b)
  let around := fl (a - avirt)
  fl (around + bround)

/-- `Two_Diff`: `predicates.hpp:195-197`. -/
def twoDiff (fl : K → K) (a b : K) : K × K :=
  let x := fl (a - b)
  (x, twoDiffTail fl a b x)

/-- `Split`: `predicates.hpp:199-203`. -/
def splitFloat (fl : K → K) (splitter a : K) : K × K :=
  let c := fl (splitter * a)
  let abig := fl (c - a)
  let ahi := fl (c - abig)
  (ahi, fl (a - ahi))

/-- `Two_Product_2Presplit`: `predicates.hpp:231-236`. -/
def twoProduct2Presplit (fl : K → K) (a ahi alo b bhi blo : K) : K × K :=
  let x := fl (a * b)
  let err1 := fl (x - fl (ahi * bhi))
  let err2 := fl (err1 - fl (alo * bhi))
  let err3 := fl (err2 - fl (ahi * blo))
  (x, fl (fl (alo * blo) - err3))

/-- `Two_Product_Presplit`: `predicates.hpp:220-226`. -/
def twoProductPresplit (fl : K → K) (splitter a b bhi blo : K) : K × K :=
  let s := splitFloat fl splitter a
  twoProduct2Presplit fl a s.1 s.2 b bhi blo

/-- `Two_Product`: `predicates.hpp:205-215`. -/
def twoProduct (fl : K → K) (splitter a b : K) : K × K :=
  let s := splitFloat fl splitter a
  let t := splitFloat fl splitter b
  twoProduct2Presplit fl a s.1 s.2 b t.1 t.2

/-- `Square`: `predicates.hpp:240-248`. -/
def squareTail (fl : K → K) (splitter a : K) : K × K :=
  let x := fl (a * a)
  let s := splitFloat fl splitter a
  let err1 := fl (x - fl (s.1 * s.1))
  let err3 := fl (err1 - fl (fl (s.1 + s.1) * s.2))
  (x, fl (fl (s.2 * s.2) - err3))

/-- `Two_One_Diff`: `predicates.hpp:257-259`. The result is `(x2, x1, x0)`. -/
def twoOneDiff (fl : K → K) (a1 a0 b : K) : K × K × K :=
  let s := twoDiff fl a0 b
  let t := twoSum fl a1 s.1
  (t.1, t.2, s.2)

/-- `Two_Two_Diff`: `predicates.hpp:265-267`. The result is the array `x`, `x0` first. -/
def twoTwoDiff (fl : K → K) (a b : K × K) : List K :=
  let s := twoOneDiff fl a.1 a.2 b.2
  let t := twoOneDiff fl s.1 s.2.1 b.1
  [s.2.2, t.2.2, t.2.1, t.1]

/-- The loop of `grow_expansion`: `predicates.hpp:711-718`. -/
def growLoop (fl : K → K) : K → List K → List K
  | Q, [] => [Q]
  | Q, enow :: e =>
    let s := twoSum fl Q enow
    s.2 :: growLoop fl s.1 e

/-- `grow_expansion`: `predicates.hpp:698-719`. -/
def growExpansion (fl : K → K) (e : List K) (b : K) : List K := growLoop fl b e

/-- The loop of `grow_expansion_zeroelim`: `predicates.hpp:748-761`; `h` is what was stored so far. -/
def growLoopZ (fl : K → K) : K → List K → List K → List K
  | Q, [], h => if Q ≠ 0 ∨ h = [] then h ++ [Q] else h
  | Q, enow :: e, h =>
    let s := twoSum fl Q enow
    growLoopZ fl s.1 e (if s.2 ≠ 0 then h ++ [s.2] else h)

/-- `grow_expansion_zeroelim`: `predicates.hpp:735-762`. -/
def growExpansionZ (fl : K → K) (e : List K) (b : K) : List K := growLoopZ fl b e []

/-- The outer loop of `expansion_sum`: `predicates.hpp:800-808`. -/
def expansionSumLoop (fl : K → K) : Nat → List K → List K → List K
  | _, [], h => h
  | i, fnow :: f, h => expansionSumLoop fl (i + 1) f (h.take i ++ growLoop fl fnow (h.drop i))

/-- `expansion_sum`: `predicates.hpp:777-810`. `f[0]` is read before the length is looked at. -/
def expansionSum (fl : K → K) (e f : List K) : Res (List K) :=
  match f with
  | [] => .error .outOfRange
  | f0 :: f => .ok (expansionSumLoop fl 1 f (growLoop fl f0 e))

/-- `expansion_sum_zeroelim1`: `predicates.hpp:826-870`. If all components are zero the first of them is left. -/
def expansionSumZ1 (fl : K → K) (e f : List K) : Res (List K) :=
  match expansionSum fl e f with
  | .error x => .error x
  | .ok h =>
    match h.filter (· ≠ 0) with
    | [] => .ok (h.take 1)
    | h' => .ok h'

/-- A turn of the outer loop of `expansion_sum_zeroelim2`: `predicates.hpp:917-927`. The last component is stored even if it is
zero. -/
def growLoopZ2 (fl : K → K) : K → List K → List K
  | Q, [] => [Q]
  | Q, enow :: e =>
    let s := twoSum fl Q enow
    if s.2 ≠ 0 then s.2 :: growLoopZ2 fl s.1 e else growLoopZ2 fl s.1 e

/-- `expansion_sum_zeroelim2`: `predicates.hpp:886-930`. What is stored in `h` lies at or before what was read last. -/
def expansionSumZ2 (fl : K → K) (e f : List K) : Res (List K) :=
  match f with
  | [] => .error .outOfRange
  | f0 :: f => .ok (f.foldl (fun h fnow => growLoopZ2 fl fnow h) (growLoopZ2 fl f0 e))

/-- The test which of two components is taken next: `predicates.hpp:960`. -/
def takesE (enow fnow : K) : Bool := decide (fnow > enow) == decide (fnow > -enow)

/-- `e[++eindex]`: `predicates.hpp:962`. The index may be that of the end; `slack` says whether there is something to read
behind the last element of an array. What is read there is not used. -/
def advance (slack : Bool) (rest : List K) : Res Unit :=
  match rest, slack with
  | [], false => .error .outOfRange
  | _, _ => .ok ()

/-- The loops of `fast_expansion_sum`: `predicates.hpp:978-1002`. -/
def fastSumLoop (fl : K → K) (slack : Bool) : Nat → K → List K → List K → Res (List K)
  | 0, _, _, _ => .error .diverges
  | _ + 1, Q, [], [] => .ok [Q]
  | n + 1, Q, enow :: e, [] =>
    let s := twoSum fl Q enow
    match advance slack e with
    | .error x => .error x
    | .ok _ =>
    match fastSumLoop fl slack n s.1 e [] with
    | .error x => .error x
    | .ok h => .ok (s.2 :: h)
  | n + 1, Q, [], fnow :: f =>
    let s := twoSum fl Q fnow
    match advance slack f with
    | .error x => .error x
    | .ok _ =>
    match fastSumLoop fl slack n s.1 [] f with
    | .error x => .error x
    | .ok h => .ok (s.2 :: h)
  | n + 1, Q, enow :: e, fnow :: f =>
    if takesE enow fnow then
      let s := twoSum fl Q enow
      match advance slack e with
      | .error x => .error x
      | .ok _ =>
      match fastSumLoop fl slack n s.1 e (fnow :: f) with
      | .error x => .error x
      | .ok h => .ok (s.2 :: h)
    else
      let s := twoSum fl Q fnow
      match advance slack f with
      | .error x => .error x
      | .ok _ =>
      match fastSumLoop fl slack n s.1 (enow :: e) f with
      | .error x => .error x
      | .ok h => .ok (s.2 :: h)

/-- The second step of `fast_expansion_sum` and the loops: `predicates.hpp:967-1003`. -/
def fastSumSecond (fl : K → K) (slack : Bool) (Q : K) : List K → List K → Res (List K)
  | enow :: e, fnow :: f =>
    if takesE enow fnow then
      let s := fastTwoSum fl enow Q
      match advance slack e with
      | .error x => .error x
      | .ok _ =>
      match fastSumLoop fl slack (e.length + f.length + 2) s.1 e (fnow :: f) with
      | .error x => .error x
      | .ok h => .ok (s.2 :: h)
    else
      let s := fastTwoSum fl fnow Q
      match advance slack f with
      | .error x => .error x
      | .ok _ =>
      match fastSumLoop fl slack (e.length + f.length + 2) s.1 (enow :: e) f with
      | .error x => .error x
      | .ok h => .ok (s.2 :: h)
  | e, f => fastSumLoop fl slack (e.length + f.length + 1) Q e f

/-- `fast_expansion_sum`: `predicates.hpp:943-1004`. `e[0]` and `f[0]` are read before the lengths are looked at. -/
def fastExpansionSum (fl : K → K) (slack : Bool) (e f : List K) : Res (List K) :=
  match e, f with
  | enow :: e, fnow :: f =>
    if takesE enow fnow then
      match advance slack e with
      | .error x => .error x
      | .ok _ => fastSumSecond fl slack enow e (fnow :: f)
    else
      match advance slack f with
      | .error x => .error x
      | .ok _ => fastSumSecond fl slack fnow (enow :: e) f
  | _, _ => .error .outOfRange

/-- `fast_expansion_sum_zeroelim`: `predicates.hpp:1020-1092`: the same computations, but what is zero is not stored, except
the last if there is nothing else. -/
def fastExpansionSumZ (fl : K → K) (slack : Bool) (e f : List K) : Res (List K) :=
  match fastExpansionSum fl slack e f with
  | .error x => .error x
  | .ok h =>
    match h.filter (· ≠ 0) with
    | [] => .ok [0]
    | h' => .ok h'

/-- The component that is taken next from two expansions, and what is left of them: `predicates.hpp:1131-1139`. -/
def takeNext (slack : Bool) : List K → List K → Res (K × List K × List K)
  | [], [] => .error .outOfRange
  | enow :: e, [] =>
    match advance slack e with
    | .error x => .error x
    | .ok _ => .ok (enow, e, [])
  | [], fnow :: f =>
    match advance slack f with
    | .error x => .error x
    | .ok _ => .ok (fnow, [], f)
  | enow :: e, fnow :: f =>
    if takesE enow fnow then
      match advance slack e with
      | .error x => .error x
      | .ok _ => .ok (enow, e, fnow :: f)
    else
      match advance slack f with
      | .error x => .error x
      | .ok _ => .ok (fnow, enow :: e, f)

/-- The loop of `linear_expansion_sum`: `predicates.hpp:1140-1154`. -/
def linearSumLoop (fl : K → K) (slack : Bool) : Nat → K → K → List K → List K → Res (List K)
  | 0, Q, q, _, _ => .ok [q, Q]
  | n + 1, Q, q, e, f =>
    match takeNext slack e f with
    | .error x => .error x
    | .ok (g, e', f') =>
    let r := fastTwoSum fl g q
    let s := twoSum fl Q r.1
    match linearSumLoop fl slack n s.1 s.2 e' f' with
    | .error x => .error x
    | .ok h => .ok (r.2 :: h)

/-- `linear_expansion_sum`: `predicates.hpp:1105-1155`. `e[0]` and `f[0]` are read before the lengths are looked at. -/
def linearExpansionSum (fl : K → K) (slack : Bool) (e f : List K) : Res (List K) :=
  match e, f with
  | enow :: e, fnow :: f =>
    match takeNext slack (enow :: e) (fnow :: f) with
    | .error x => .error x
    | .ok (g0, e1, f1) =>
    match takeNext slack e1 f1 with
    | .error x => .error x
    | .ok (g1, e2, f2) =>
    let s := fastTwoSum fl g1 g0
    linearSumLoop fl slack (e.length + f.length) s.1 s.2 e2 f2
  | _, _ => .error .outOfRange

/-- `linear_expansion_sum_zeroelim`: `predicates.hpp:1169-1228`: the same computations, but what is zero is not stored, except
the last if there is nothing else. -/
def linearExpansionSumZ (fl : K → K) (slack : Bool) (e f : List K) : Res (List K) :=
  match linearExpansionSum fl slack e f with
  | .error x => .error x
  | .ok h =>
    match h.filter (· ≠ 0) with
    | [] => .ok [0]
    | h' => .ok h'

/-- The loop of `scale_expansion`: `predicates.hpp:1266-1275`. -/
def scaleLoop (fl : K → K) (splitter b bhi blo : K) : K → List K → List K
  | Q, [] => [Q]
  | Q, enow :: e =>
    let product := twoProductPresplit fl splitter enow b bhi blo
    let s := twoSum fl Q product.2
    let t := twoSum fl product.1 s.1
    s.2 :: t.2 :: scaleLoop fl splitter b bhi blo t.1 e

/-- `scale_expansion`: `predicates.hpp:1243-1276`. `e[0]` is read before the length is looked at. -/
def scaleExpansion (fl : K → K) (splitter : K) (e : List K) (b : K) : Res (List K) :=
  match e with
  | [] => .error .outOfRange
  | e0 :: e =>
    let s := splitFloat fl splitter b
    let product := twoProductPresplit fl splitter e0 b s.1 s.2
    .ok (product.2 :: scaleLoop fl splitter b s.1 s.2 product.1 e)

/-- The loop of `scale_expansion_zeroelim`: `predicates.hpp:1318-1333`; `h` is what was stored so far. The second sum is
`Fast_Two_Sum`. -/
def scaleLoopZ (fl : K → K) (splitter b bhi blo : K) : K → List K → List K → List K
  | Q, [], h => if Q ≠ 0 ∨ h = [] then h ++ [Q] else h
  | Q, enow :: e, h =>
    let product := twoProductPresplit fl splitter enow b bhi blo
    let s := twoSum fl Q product.2
    let h := if s.2 ≠ 0 then h ++ [s.2] else h
    let t := fastTwoSum fl product.1 s.1
    let h := if t.2 ≠ 0 then h ++ [t.2] else h
    scaleLoopZ fl splitter b bhi blo t.1 e h

/-- `scale_expansion_zeroelim`: `predicates.hpp:1292-1334`. -/
def scaleExpansionZ (fl : K → K) (splitter : K) (e : List K) (b : K) : Res (List K) :=
  match e with
  | [] => .error .outOfRange
  | e0 :: e =>
    let s := splitFloat fl splitter b
    let product := twoProductPresplit fl splitter e0 b s.1 s.2
    .ok (scaleLoopZ fl splitter b s.1 s.2 product.1 e (if product.2 ≠ 0 then [product.2] else []))

/-- The first loop of `compress`, from the largest component down: `predicates.hpp:1361-1370`. `h` is what was stored so far,
the smallest first. -/
def compressDown (fl : K → K) : K → List K → List K → K × List K
  | Q, [], h => (Q, h)
  | Q, enow :: e, h =>
    let s := fastTwoSum fl Q enow
    if s.2 ≠ 0 then compressDown fl s.2 e (s.1 :: h) else compressDown fl s.1 e h

/-- The second loop of `compress`: `predicates.hpp:1371-1381`. -/
def compressUp (fl : K → K) : K → List K → List K
  | Q, [] => [Q]
  | Q, hnow :: h =>
    let s := fastTwoSum fl hnow Q
    if s.2 ≠ 0 then s.2 :: compressUp fl s.1 h else compressUp fl s.1 h

/-- `compress`: `predicates.hpp:1347-1382`. What is stored in `h` lies behind what is still to be read in the first loop, and
before it in the second. -/
def compress (fl : K → K) (e : List K) : Res (List K) :=
  match e.reverse with
  | [] => .error .outOfRange
  | Q :: e =>
    let d := compressDown fl Q e []
    .ok (compressUp fl d.1 d.2)

/-- The loop of `estimate`: `predicates.hpp:1400-1403`. -/
def estimateLoop (fl : K → K) : K → List K → K
  | Q, [] => Q
  | Q, e :: l => estimateLoop fl (fl (Q + e)) l

/-- `estimate`: `predicates.hpp:1392-1404`. -/
def estimate (fl : K → K) : List K → Res K
  | [] => .error .outOfRange
  | e :: l => .ok (estimateLoop fl e l)

/-- The variables that `exactinit` sets: `predicates.hpp:361-368`. -/
structure ExactConsts (K : Type*) where
  splitter : K
  epsilon : K
  resulterrbound : K
  ccwerrboundA : K
  ccwerrboundB : K
  ccwerrboundC : K
  o3derrboundA : K
  o3derrboundB : K
  o3derrboundC : K
  iccerrboundA : K
  iccerrboundB : K
  iccerrboundC : K
  isperrboundA : K
  isperrboundB : K
  isperrboundC : K
  deriving DecidableEq

/-- The loop of `exactinit`: `predicates.hpp:658-666`. The result is `(epsilon, splitter)`; a loop that does not end after as
many turns as are given is `diverges`. -/
def exactInitLoop (fl : K → K) : Nat → Bool → K → K → K → Res (K × K)
  | 0, _, _, _, _ => .error .diverges
  | n + 1, everyOther, epsilon, splitter, check =>
    let lastcheck := check
    let epsilon := fl (epsilon * (1 / 2))
    let splitter := if everyOther then fl (splitter * 2) else splitter
    let check := fl (1 + epsilon)
    if check ≠ 1 ∧ check ≠ lastcheck then exactInitLoop fl n (!everyOther) epsilon splitter check
    else .ok (epsilon, splitter)

/-- `exactinit`: `predicates.hpp:643-683`. -/
def exactInit (fl : K → K) (turns : Nat) : Res (ExactConsts K) :=
  match exactInitLoop fl turns true 1 1 1 with
  | .error x => .error x
  | .ok (epsilon, splitter) =>
    .ok
      { splitter := fl (splitter + 1)
        epsilon := epsilon
        resulterrbound := fl (fl (3 + fl (8 * epsilon)) * epsilon)
        ccwerrboundA := fl (fl (3 + fl (16 * epsilon)) * epsilon)
        ccwerrboundB := fl (fl (2 + fl (12 * epsilon)) * epsilon)
        ccwerrboundC := fl (fl (fl (9 + fl (64 * epsilon)) * epsilon) * epsilon)
        o3derrboundA := fl (fl (7 + fl (56 * epsilon)) * epsilon)
        o3derrboundB := fl (fl (3 + fl (28 * epsilon)) * epsilon)
        o3derrboundC := fl (fl (fl (26 + fl (288 * epsilon)) * epsilon) * epsilon)
        iccerrboundA := fl (fl (10 + fl (96 * epsilon)) * epsilon)
        iccerrboundB := fl (fl (4 + fl (48 * epsilon)) * epsilon)
        iccerrboundC := fl (fl (fl (44 + fl (576 * epsilon)) * epsilon) * epsilon)
        isperrboundA := fl (fl (16 + fl (224 * epsilon)) * epsilon)
        isperrboundB := fl (fl (5 + fl (72 * epsilon)) * epsilon)
        isperrboundC := fl (fl (fl (71 + fl (1408 * epsilon)) * epsilon) * epsilon) }

/-- `Absolute`: `predicates.hpp:145`. -/
def absolute (a : K) : K := if a ≥ 0 then a else -a

/-- The last component of an expansion that a function returned, `w[wlength - 1]`. -/
def lastOf (h : Res (List K)) : Res K :=
  match h with
  | .error x => .error x
  | .ok h =>
    match h.getLast? with
    | none => .error .outOfRange
    | some x => .ok x

/-- `orient2dfast`: `predicates.hpp:1432-1444`. -/
def orient2dFast (fl : K → K) (pa pb pc : P2 K) : K :=
  let acx := fl (pa.x - pc.x)
  let bcx := fl (pb.x - pc.x)
  let acy := fl (pa.y - pc.y)
  let bcy := fl (pb.y - pc.y)
  fl (fl (acx * bcy) - fl (acy * bcx))

/-- `orient2dexact`: `predicates.hpp:1446-1489`. -/
def orient2dExact (fl : K → K) (slack : Bool) (c : ExactConsts K) (pa pb pc : P2 K) : Res K :=
  let axby := twoProduct fl c.splitter pa.x pb.y
  let axcy := twoProduct fl c.splitter pa.x pc.y
  let aterms := twoTwoDiff fl axby axcy
  let bxcy := twoProduct fl c.splitter pb.x pc.y
  let bxay := twoProduct fl c.splitter pb.x pa.y
  let bterms := twoTwoDiff fl bxcy bxay
  let cxay := twoProduct fl c.splitter pc.x pa.y
  let cxby := twoProduct fl c.splitter pc.x pb.y
  let cterms := twoTwoDiff fl cxay cxby
  match fastExpansionSumZ fl slack aterms bterms with
  | .error x => .error x
  | .ok v => lastOf (fastExpansionSumZ fl slack v cterms)

/-- The last stage of `orient2dadapt`: `predicates.hpp:1598-1616`. -/
def orient2dAdaptD (fl : K → K) (slack : Bool) (c : ExactConsts K) (B : List K)
    (acx acy bcx bcy acxtail acytail bcxtail bcytail : K) : Res K :=
  let u := twoTwoDiff fl (twoProduct fl c.splitter acxtail bcy) (twoProduct fl c.splitter acytail bcx)
  match fastExpansionSumZ fl slack B u with
  | .error x => .error x
  | .ok C1 =>
  let u := twoTwoDiff fl (twoProduct fl c.splitter acx bcytail) (twoProduct fl c.splitter acy bcxtail)
  match fastExpansionSumZ fl slack C1 u with
  | .error x => .error x
  | .ok C2 =>
  let u := twoTwoDiff fl (twoProduct fl c.splitter acxtail bcytail) (twoProduct fl c.splitter acytail bcxtail)
  lastOf (fastExpansionSumZ fl slack C2 u)

/-- `orient2dadapt`: `predicates.hpp:1535-1617`. -/
def orient2dAdapt (fl : K → K) (slack : Bool) (c : ExactConsts K) (pa pb pc : P2 K) (detsum : K) : Res K :=
  let acx := fl (pa.x - pc.x)
  let bcx := fl (pb.x - pc.x)
  let acy := fl (pa.y - pc.y)
  let bcy := fl (pb.y - pc.y)
  let B := twoTwoDiff fl (twoProduct fl c.splitter acx bcy) (twoProduct fl c.splitter acy bcx)
  match estimate fl B with
  | .error x => .error x
  | .ok det =>
  let errbound := fl (c.ccwerrboundB * detsum)
  if det ≥ errbound ∨ -det ≥ errbound then .ok det
  else
    let acxtail := twoDiffTail fl pa.x pc.x acx
    let bcxtail := twoDiffTail fl pb.x pc.x bcx
    let acytail := twoDiffTail fl pa.y pc.y acy
    let bcytail := twoDiffTail fl pb.y pc.y bcy
    if acxtail = 0 ∧ acytail = 0 ∧ bcxtail = 0 ∧ bcytail = 0 then .ok det
    else
      let errbound := fl (fl (c.ccwerrboundC * detsum) + fl (c.resulterrbound * absolute det))
      let det := fl (det + fl (fl (fl (acx * bcytail) + fl (bcy * acxtail)) - fl (fl (acy * bcxtail) + fl (bcx * acytail))))
      if det ≥ errbound ∨ -det ≥ errbound then .ok det
      else orient2dAdaptD fl slack c B acx acy bcx bcy acxtail acytail bcxtail bcytail

/-- `orient2d`: `predicates.hpp:1619-1653`. -/
def orient2d (fl : K → K) (slack : Bool) (c : ExactConsts K) (pa pb pc : P2 K) : Res K :=
  let detleft := fl (fl (pa.x - pc.x) * fl (pb.y - pc.y))
  let detright := fl (fl (pa.y - pc.y) * fl (pb.x - pc.x))
  let det := fl (detleft - detright)
  let rest (detsum : K) : Res K :=
    let errbound := fl (c.ccwerrboundA * detsum)
    if det ≥ errbound ∨ -det ≥ errbound then .ok det
    else orient2dAdapt fl slack c pa pb pc detsum
  if detleft > 0 then
    if detright ≤ 0 then .ok det else rest (fl (detleft + detright))
  else if detleft < 0 then
    if detright ≥ 0 then .ok det else rest (fl (-detleft - detright))
  else .ok det

end Geometrix
