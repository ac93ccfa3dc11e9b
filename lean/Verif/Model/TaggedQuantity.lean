import Verif.Model.Basic

/-!
# Quantities with a tag

`geometrix/utility/tagged_quantity.hpp`. A `tagged_quantity<Tag, Y>` holds a number; the tag is a type. `GEOMETRIX_STRONG_TYPEDEF`
(lines 428-431) gives a type of its own to a name.

Simplifications. All numbers are of one type `K` with exact arithmetic. The functions of the library are parameters.
-/

namespace Geometrix

/-- The operators of lines 204-207. -/
inductive TqOp where
  | add
  | sub
  | mul
  | div
  deriving DecidableEq

/-- A tag: the tag of a name (lines 428-431), `add<T1, T2>` and the like (lines 149-159), `abs_op<T>` and the like (lines 246-247) and
`pow_op<T1, T2>` and the like (line 309), whose arguments may also be the type of a plain number. -/
inductive TqTag where
  | name (n : Nat)
  | op (o : TqOp) (a b : TqTag)
  | fn (f : Nat) (a : TqTag)
  | fn2 (f : Nat) (a b : TqTag)
  | plain
  deriving DecidableEq

/-- A number or a quantity: the tag is `none` for a number. -/
structure Tq (K : Type*) where
  tag : Option TqTag
  value : K

/-- `detail::make_op_tag`: lines 161-173. -/
def makeOpTag (o : TqOp) (a b : TqTag) : TqTag := if a = b then a else .op o a b

section
variable {K : Type*} [Field K] [DecidableEq K]

/-- The operator on numbers. -/
def opNumber : TqOp → K → K → Res K
  | .add, x, y => .ok (x + y)
  | .sub, x, y => .ok (x - y)
  | .mul, x, y => .ok (x * y)
  | .div, x, y => cdiv x y

/-- The tag of the result of an operator: lines 175-202. -/
def opTag (o : TqOp) : Option TqTag → Option TqTag → Option TqTag
  | some a, some b => some (makeOpTag o a b)
  | some a, none => some a
  | none, some b => some b
  | none, none => none

/-- `a o b`: lines 175-207. -/
def tqOp (o : TqOp) (a b : Tq K) : Res (Tq K) :=
  match opNumber o a.value b.value with
  | .error e => .error e
  | .ok x => .ok ⟨opTag o a.tag b.tag, x⟩

/-- `-a`: lines 215-219. -/
def tqNeg (a : Tq K) : Tq K := ⟨a.tag, -a.value⟩

/-- `abs(a)` and the like: lines 246-263, 382-394. -/
def tqFn (F : Nat → K → K) (f : Nat) (a : Tq K) : Tq K := ⟨a.tag.map (.fn f), F f a.value⟩

/-- The argument of `pow_op` that an argument of `pow` gives. -/
def argTag : Option TqTag → TqTag
  | some t => t
  | none => .plain

/-- `pow(a, b)` and `atan2(a, b)`: lines 309-379, 396-397. -/
def tqFn2 (G : Nat → K → K → K) (f : Nat) (a b : Tq K) : Tq K :=
  ⟨match a.tag, b.tag with
    | none, none => none
    | s, t => some (.fn2 f (argTag s) (argTag t)), G f a.value b.value⟩

/-- An expression over numbers and quantities with names. -/
inductive TqExpr (K : Type*) where
  | number (x : K)
  | quantity (n : Nat) (x : K)
  | op (o : TqOp) (a b : TqExpr K)
  | neg (a : TqExpr K)
  | fn (f : Nat) (a : TqExpr K)
  | fn2 (f : Nat) (a b : TqExpr K)

/-- The value and the type of an expression. -/
def TqExpr.eval (F : Nat → K → K) (G : Nat → K → K → K) : TqExpr K → Res (Tq K)
  | .number x => .ok ⟨none, x⟩
  | .quantity n x => .ok ⟨some (.name n), x⟩
  | .op o a b =>
    match a.eval F G with
    | .error e => .error e
    | .ok x =>
      match b.eval F G with
      | .error e => .error e
      | .ok y => tqOp o x y
  | .neg a =>
    match a.eval F G with
    | .error e => .error e
    | .ok x => .ok (tqNeg x)
  | .fn f a =>
    match a.eval F G with
    | .error e => .error e
    | .ok x => .ok (tqFn F f x)
  | .fn2 f a b =>
    match a.eval F G with
    | .error e => .error e
    | .ok x =>
      match b.eval F G with
      | .error e => .error e
      | .ok y => .ok (tqFn2 G f x y)

/-- `q = e` for a quantity with the tag `t`, the number that it holds afterwards; `none` if the statement does not compile: lines 32-55. A
quantity of the same tag or a number can be assigned. (A number of a quantity of another tag is not implicitly convertible: the
conversion to `bool` in line 95 is explicit.) -/
def tqAssign (t : TqTag) (e : Tq K) : Option K :=
  if e.tag = none ∨ e.tag = some t then some e.value else none

/-- The initialisation `tagged_quantity<Tag, Y> q = e`: lines 28-38. The constructor from a number is explicit. -/
def tqInit (t : TqTag) (e : Tq K) : Option K := if e.tag = some t then some e.value else none

/-- `q += e` and the like: lines 59-90. -/
def tqCompound (o : TqOp) (q e : Tq K) : Option (Res (Tq K)) :=
  match q.tag with
  | none => none
  | some t =>
    if e.tag = none ∨ e.tag = some t then
      some (match opNumber o q.value e.value with
        | .error err => .error err
        | .ok x => .ok ⟨some t, x⟩)
    else none

/-- `a < b` and the like, for a relation `r` of numbers: lines 401-424. -/
def tqCompare (r : K → K → Bool) (a b : Tq K) : Option Bool :=
  match a.tag, b.tag with
  | some s, some t => if s = t then some (r a.value b.value) else none
  | _, _ => some (r a.value b.value)

end

end Geometrix
