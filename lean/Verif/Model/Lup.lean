import Verif.Model.Basic
import Mathlib.Algebra.Order.Group.Abs

/-!
# LUP decomposition

`geometrix/algebra/lup_decomposition.hpp` and `geometrix/algebra/detail/preprocessed/lup_decomposition.hpp`,
the unrolled loops of `geometrix/algebra/detail/lup_decomposition.hpp` for the sizes 2 to 6. The model takes
the size as a number. A matrix is a function of the row and the column, an array a function of the index;
only indices below the size are read or written.
-/

set_option linter.unusedSectionVars false

namespace Geometrix

variable {K : Type*} [Field K] [LinearOrder K]

/-- The assignment `m[i][j] = v`. -/
def setM (m : Nat → Nat → K) (i j : Nat) (v : K) : Nat → Nat → K :=
  fun a b => if a = i ∧ b = j then v else m a b

/-- The assignment `x[i] = v`. -/
def setA {α : Type*} (x : Nat → α) (i : Nat) (v : α) : Nat → α := fun a => if a = i then v else x a

/-- The search for the pivot in column `k`: `detail/lup_decomposition.hpp:38-44,96-105`,
`lup_decomposition.hpp:37-46`. The result is `p` and `k_`. -/
def lupPivot (N : Nat) (m : Nat → Nat → K) (k : Nat) : K × Nat :=
  (List.range' k (N - k)).foldl (fun s i => if |m i k| > s.1 then (|m i k|, i) else s) (0, 0)

/-- The exchange of two rows, element by element: `detail/lup_decomposition.hpp:46-49,110-113`,
`lup_decomposition.hpp:51-52`. -/
def lupSwapRows (N : Nat) (m : Nat → Nat → K) (k k' : Nat) : Nat → Nat → K :=
  (List.range N).foldl (fun m c => setM (setM m k c (m k' c)) k' c (m k c)) m

/-- `std::swap( pi[k], pi[k_] )`: `detail/lup_decomposition.hpp:109`, `lup_decomposition.hpp:50`. -/
def lupSwapPi (pi : Nat → Nat) (k k' : Nat) : Nat → Nat := setA (setA pi k (pi k')) k' (pi k)

/-- The inner loop on `j`: `detail/lup_decomposition.hpp:51-54,60-65`, `lup_decomposition.hpp:56-57`. -/
def lupElimRow (N k i : Nat) (m : Nat → Nat → K) : Nat → Nat → K :=
  (List.range' (k + 1) (N - (k + 1))).foldl (fun m j => setM m i j (m i j - m i k * m k j)) m

/-- The loop on `i` below the pivot: `detail/lup_decomposition.hpp:56-66,114-118`,
`lup_decomposition.hpp:53-58`. The list holds the values of `i`. -/
def lupElim (N k : Nat) : List Nat → (Nat → Nat → K) → Res (Nat → Nat → K)
  | [], m => .ok m
  | i :: is, m =>
    match cdiv (m i k) (m k k) with
    | .error e => .error e
    | .ok q => lupElim N k is (lupElimRow N k i (setM m i k q))

/-- One turn of the loop on `k`: `detail/lup_decomposition.hpp:94-120`, `lup_decomposition.hpp:35-59`. -/
def lupStep (N k : Nat) (m : Nat → Nat → K) (pi : Nat → Nat) : Res ((Nat → Nat → K) × (Nat → Nat)) :=
  let s := lupPivot N m k
  if s.1 = 0 then .error .thrown
  else
    match lupElim N k (List.range' (k + 1) (N - (k + 1))) (lupSwapRows N m k s.2) with
    | .error e => .error e
    | .ok m' => .ok (m', lupSwapPi pi k s.2)

/-- The turns `0, …, n - 1` of the loop on `k`. -/
def lupLoop (N : Nat) (m : Nat → Nat → K) : Nat → Res ((Nat → Nat → K) × (Nat → Nat))
  | 0 => .ok (m, fun i => i)
  | k + 1 =>
    match lupLoop N m k with
    | .error e => .error e
    | .ok s => lupStep N k s.1 s.2

/-- `lup_decomposition`, the unrolled version: `detail/lup_decomposition.hpp:124-160`,
`detail/preprocessed/lup_decomposition.hpp:12-21` and so on. The loop on `k` has `N` turns. -/
def lupDecomposition (N : Nat) (m : Nat → Nat → K) : Res ((Nat → Nat → K) × (Nat → Nat)) := lupLoop N m N

/-- `lup_decomposition`, the version with loops at run time: `lup_decomposition.hpp:27-60`. The loop on
`k` has `N - 1` turns. -/
def lupDecompositionLoop (N : Nat) (m : Nat → Nat → K) : Res ((Nat → Nat → K) × (Nat → Nat)) :=
  lupLoop N m (N - 1)

/-- A sum accumulated in a loop. -/
def sumLoop (l : List Nat) (f : Nat → K) : K := l.foldl (fun s j => s + f j) 0

/-- The elements `y[0], …, y[n - 1]`: `detail/lup_decomposition.hpp:164-179,231-234`,
`lup_decomposition.hpp:66-72`. Elements not yet assigned are not read, here they are zero. -/
def lupForward (lu : Nat → Nat → K) (pi : Nat → Nat) (b : Nat → K) : Nat → (Nat → K)
  | 0 => fun _ => 0
  | i + 1 =>
    let y := lupForward lu pi b i
    setA y i (b (pi i) - sumLoop (List.range i) fun j => lu i j * y j)

/-- The last `n` elements of `x`: `detail/lup_decomposition.hpp:181-222,249-252`,
`lup_decomposition.hpp:73-82`. -/
def lupBackward (N : Nat) (lu : Nat → Nat → K) (y : Nat → K) : Nat → Res (Nat → K)
  | 0 => .ok fun _ => 0
  | n + 1 =>
    match lupBackward N lu y n with
    | .error e => .error e
    | .ok x =>
      let i := N - (n + 1)
      match cdiv (y i - sumLoop (List.range' (i + 1) (N - (i + 1))) fun j => lu i j * x j) (lu i i) with
      | .error e => .error e
      | .ok q => .ok (setA x i q)

/-- `lup_solve`: `detail/lup_decomposition.hpp:224-268`, `detail/preprocessed/lup_decomposition.hpp:22-36`
and so on. The run time version at `lup_decomposition.hpp:62-85` does the same, but does not compile, since
its `N` is not a template parameter. -/
def lupSolve (N : Nat) (lu : Nat → Nat → K) (pi : Nat → Nat) (b : Nat → K) : Res (Nat → K) :=
  lupBackward N lu (lupForward lu pi b N) N

end Geometrix
