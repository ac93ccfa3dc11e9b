import Verif.Model.Basic

/-!
# Memoization

`geometrix/utility/memoize.hpp`. The cache is a `std::map`, here the list of its entries in the order of the
map. The wrapped function is not a recursive user of the same cache. The key type of the cache may differ
from the tuple of the arguments, to which it is then converted: `mk`.
-/

namespace Geometrix

variable {α β κ : Type*}

/-- The call of a memoized function: `memoize.hpp:37-46`. The result carries the value, the cache after the
call and the arguments for which the wrapped function was evaluated. -/
def memoCall (lt : κ → κ → Bool) (mk : α → κ) (f : α → Res β) (cache : List (κ × β)) (a : α) :
    Res (β × List (κ × β) × List α) :=
  let key := mk a
  let before := cache.takeWhile fun e => lt e.1 key
  let after := cache.dropWhile fun e => lt e.1 key
  let eval : Res (β × List (κ × β) × List α) :=
    match f a with
    | .error e => .error e
    | .ok r => .ok (r, before ++ (key, r) :: after, [a])
  match after with
  | [] => eval
  | (k, v) :: _ => if !lt key k then .ok (v, cache, []) else eval

/-- A sequence of calls of a memoized function: the values, the final cache and the arguments for which the
wrapped function was evaluated, in order. -/
def memoRun (lt : κ → κ → Bool) (mk : α → κ) (f : α → Res β) :
    List (κ × β) → List α → Res (List β × List (κ × β) × List α)
  | cache, [] => .ok ([], cache, [])
  | cache, a :: as =>
    match memoCall lt mk f cache a with
    | .error e => .error e
    | .ok (v, cache', l) =>
      match memoRun lt mk f cache' as with
      | .error e => .error e
      | .ok (vs, cache'', ls) => .ok (v :: vs, cache'', l ++ ls)

end Geometrix
