import Verif.Model.PointSequence
import Verif.Spec.PointSequence
import Verif.Lemmas.Distance

/-!
# Sums over consecutive pairs
-/

set_option linter.unusedSectionVars false

namespace Geometrix

open Spec

section sums
variable {α β M : Type*} [AddCommGroup M]

theorem chainSum_nil (f : α → α → M) : chainSum f [] = 0 := rfl
theorem chainSum_single (f : α → α → M) (a : α) : chainSum f [a] = 0 := rfl
theorem chainSum_cons (f : α → α → M) (a b : α) (l : List α) :
    chainSum f (a :: b :: l) = f a b + chainSum f (b :: l) := by
  simp [chainSum]

theorem chainSum_concat (f : α → α → M) (l : List α) (x y : α) :
    chainSum f (l ++ [x, y]) = chainSum f (l ++ [x]) + f x y := by
  induction l with
  | nil => simp [chainSum_cons, chainSum_single]
  | cons a l ih =>
    cases l with
    | nil => simp [chainSum_cons, chainSum_single]
    | cons b l =>
      simp only [List.cons_append] at ih ⊢
      rw [chainSum_cons, chainSum_cons, ih, add_assoc]

theorem cyclicSum_cons (f : α → α → M) (a : α) (l : List α) :
    cyclicSum f (a :: l) = chainSum f (a :: l ++ [a]) := by
  have key : ∀ (l : List α) (a x : α),
      (List.zipWith f (a :: l) (l ++ [x])).sum = chainSum f (a :: l ++ [x]) := by
    intro l
    induction l with
    | nil => intro a x; simp [chainSum_cons, chainSum_single]
    | cons b l ih =>
      intro a x
      simp only [List.cons_append, List.zipWith_cons_cons, List.sum_cons]
      rw [chainSum_cons, ih b x]; rfl
  rw [cyclicSum, List.rotate_cons_succ, List.rotate_zero, key]

theorem chainSum_reverse (f : α → α → M) (l : List α) :
    chainSum f l.reverse = chainSum (fun a b => f b a) l := by
  induction l with
  | nil => rfl
  | cons a l ih =>
    cases l with
    | nil => rfl
    | cons b l =>
      rw [chainSum_cons, List.reverse_cons, List.reverse_cons, List.append_assoc]
      rw [List.singleton_append, chainSum_concat, ← List.reverse_cons, ih, add_comm]

theorem cyclicSum_rotate_one (f : α → α → M) (l : List α) :
    cyclicSum f (l.rotate 1) = cyclicSum f l := by
  cases l with
  | nil => rfl
  | cons a l =>
    rw [List.rotate_cons_succ, List.rotate_zero]
    cases l with
    | nil => rfl
    | cons b l =>
      rw [List.cons_append, cyclicSum_cons, cyclicSum_cons]
      have : b :: (l ++ [a]) ++ [b] = (b :: l) ++ [a, b] := by simp
      rw [this, chainSum_concat, List.cons_append, List.cons_append, List.cons_append,
        chainSum_cons, add_comm]

theorem cyclicSum_rotate (f : α → α → M) (l : List α) (k : Nat) :
    cyclicSum f (l.rotate k) = cyclicSum f l := by
  induction k with
  | zero => simp
  | succ k ih => rw [← List.rotate_rotate, cyclicSum_rotate_one, ih]

theorem cyclicSum_reverse (f : α → α → M) (l : List α) :
    cyclicSum f l.reverse = cyclicSum (fun a b => f b a) l := by
  cases l with
  | nil => rfl
  | cons a l =>
    have e : (a :: l).reverse = (a :: l.reverse).rotate 1 := by
      rw [List.rotate_cons_succ, List.rotate_zero, List.reverse_cons]
    rw [e, cyclicSum_rotate_one, cyclicSum_cons, cyclicSum_cons]
    have e2 : a :: l.reverse ++ [a] = (a :: l ++ [a]).reverse := by simp
    rw [e2, chainSum_reverse]

theorem chainSum_map (f : β → β → M) (g : α → β) (l : List α) :
    chainSum f (l.map g) = chainSum (fun a b => f (g a) (g b)) l := by
  induction l with
  | nil => rfl
  | cons a l ih =>
    cases l with
    | nil => rfl
    | cons b l => rw [List.map_cons, List.map_cons, chainSum_cons, chainSum_cons, ← ih]; rfl

theorem cyclicSum_map (f : β → β → M) (g : α → β) (l : List α) :
    cyclicSum f (l.map g) = cyclicSum (fun a b => f (g a) (g b)) l := by
  cases l with
  | nil => rfl
  | cons a l =>
    rw [List.map_cons, cyclicSum_cons, cyclicSum_cons, ← chainSum_map f g]
    simp

theorem chainSum_add (f g : α → α → M) (l : List α) :
    chainSum (fun a b => f a b + g a b) l = chainSum f l + chainSum g l := by
  induction l with
  | nil => simp [chainSum_nil]
  | cons a l ih =>
    cases l with
    | nil => simp [chainSum_single]
    | cons b l => rw [chainSum_cons, chainSum_cons, chainSum_cons, ih]; abel

theorem cyclicSum_add (f g : α → α → M) (l : List α) :
    cyclicSum (fun a b => f a b + g a b) l = cyclicSum f l + cyclicSum g l := by
  cases l with
  | nil => simp [cyclicSum]
  | cons a l => rw [cyclicSum_cons, cyclicSum_cons, cyclicSum_cons, chainSum_add]

theorem chainSum_telescope (φ : α → M) (l : List α) (a b : α) :
    chainSum (fun x y => φ y - φ x) (a :: l ++ [b]) = φ b - φ a := by
  induction l generalizing a with
  | nil => simp [chainSum_cons, chainSum_single]
  | cons c l ih => rw [List.cons_append, List.cons_append, chainSum_cons, ← List.cons_append, ih]; abel

theorem cyclicSum_telescope (φ : α → M) (l : List α) :
    cyclicSum (fun x y => φ y - φ x) l = 0 := by
  cases l with
  | nil => rfl
  | cons a l => rw [cyclicSum_cons, chainSum_telescope, sub_self]

theorem chainSum_hom {N : Type*} [AddCommGroup N] (h : M →+ N) (f : α → α → M) (l : List α) :
    chainSum (fun a b => h (f a b)) l = h (chainSum f l) := by
  induction l with
  | nil => simp [chainSum_nil]
  | cons a l ih =>
    cases l with
    | nil => simp [chainSum_single]
    | cons b l => rw [chainSum_cons, chainSum_cons, ih, map_add]

theorem cyclicSum_hom {N : Type*} [AddCommGroup N] (h : M →+ N) (f : α → α → M) (l : List α) :
    cyclicSum (fun a b => h (f a b)) l = h (cyclicSum f l) := by
  cases l with
  | nil => simp [cyclicSum]
  | cons a l => rw [cyclicSum_cons, cyclicSum_cons, chainSum_hom]

theorem cyclicSum_mul {K : Type*} [Field K] (c : K) (f : α → α → K) (l : List α) :
    cyclicSum (fun a b => c * f a b) l = c * cyclicSum f l :=
  cyclicSum_hom (AddMonoidHom.mulLeft c) f l

theorem cyclicSum_neg (f : α → α → M) (l : List α) :
    cyclicSum (fun a b => -f a b) l = -cyclicSum f l :=
  cyclicSum_hom (negAddMonoidHom) f l

theorem cyclicSum_congr {f g : α → α → M} (h : ∀ a b, f a b = g a b) (l : List α) :
    cyclicSum f l = cyclicSum g l := by
  have : f = g := funext fun a => funext fun b => h a b
  rw [this]

theorem cyclicSum_last (f : α → α → M) (a : α) (l : List α) :
    cyclicSum f (a :: l) = chainSum f (a :: l) + f ((a :: l).getLast (by simp)) a := by
  rw [cyclicSum_cons]
  have key : ∀ (m : List α) (hm : m ≠ []) (x : α),
      chainSum f (m ++ [x]) = chainSum f m + f (m.getLast hm) x := by
    intro m hm x
    obtain ⟨m', y, rfl⟩ := List.eq_nil_or_concat m |>.resolve_left hm
    simp only [List.concat_eq_append, List.append_assoc, List.singleton_append, chainSum_concat,
      List.getLast_append_singleton]
  exact key (a :: l) (by simp) a

end sums

variable {K : Type*} [Field K] [LinearOrder K] [IsStrictOrderedRing K]

theorem areaLoop_eq (l : List (P2 K)) (s : K) : areaLoop s l = s + chainSum cross l := by
  induction l generalizing s with
  | nil => simp [areaLoop, chainSum_nil]
  | cons a l ih =>
    cases l with
    | nil => simp [areaLoop, chainSum_single]
    | cons b l => rw [areaLoop, ih, chainSum_cons, add_assoc]

theorem signedArea_eq (P : List (P2 K)) (h : P ≠ []) :
    signedArea P = .ok (cyclicSum cross P / 2) := by
  cases P with
  | nil => exact absurd rfl h
  | cons a l =>
    rw [signedArea, areaLoop_eq, cyclicSum_last]
    congr 1
    ring

theorem lengthLoop_eq (l : List (P2 ℝ)) (s : ℝ) : lengthLoop s l = s + chainSum pointDist l := by
  induction l generalizing s with
  | nil => simp [lengthLoop, chainSum_nil]
  | cons a l ih =>
    cases l with
    | nil => simp [lengthLoop, chainSum_single]
    | cons b l => rw [lengthLoop, ih, chainSum_cons, add_assoc]

theorem momentLoop_eq (l : List (P2 K)) (m : Moments K) : momentLoop m l =
    ⟨m.area + chainSum cross l, m.mX + chainSum (fun a b => cross a b * (a.x + b.x)) l,
      m.mY + chainSum (fun a b => cross a b * (a.y + b.y)) l⟩ := by
  induction l generalizing m with
  | nil => simp [momentLoop, chainSum_nil]
  | cons a l ih =>
    cases l with
    | nil => simp [momentLoop, chainSum_single]
    | cons b l => rw [momentLoop, ih]; simp only [chainSum_cons, Moments.step, add_assoc]

/-- The centroid in terms of the three sums. -/
theorem centroid_eq (P : List (P2 K)) (h : P ≠ []) (h0 : cyclicSum cross P ≠ 0) :
    centroid P = .ok
      ⟨cyclicSum (fun a b => cross a b * (a.x + b.x)) P / (3 * cyclicSum cross P),
       cyclicSum (fun a b => cross a b * (a.y + b.y)) P / (3 * cyclicSum cross P)⟩ := by
  cases P with
  | nil => exact absurd rfl h
  | cons a l =>
    simp only [centroid, momentLoop_eq, Moments.step, zero_add]
    rw [cyclicSum_last] at h0
    have : (6 : K) * ((chainSum cross (a :: l) + cross ((a :: l).getLast (by simp)) a) * (1 / 2)) ≠
        0 := by
      refine mul_ne_zero (by norm_num) (mul_ne_zero h0 (by norm_num))
    rw [cdiv_ok this]
    simp only [cyclicSum_last]
    congr 2
    · field_simp; ring
    · field_simp; ring

/-- What the loop of `polygon_length` adds. -/
theorem polygonLengthLoop_eq (P : List (P2 ℝ)) (k : Nat) : ∀ i s, i + k = P.length → 2 ≤ P.length →
    polygonLengthLoop P k i ((i + 1) % P.length) s =
      .ok (s + (((List.zipWith pointDist P (P.rotate 1))).drop i).sum) := by
  induction k with
  | zero =>
    intro i s h h2
    rw [polygonLengthLoop, List.drop_eq_nil_of_le (by simp; omega)]
    simp
  | succ k ih =>
    intro i s h h2
    have hi : i < P.length := by omega
    have hj : (i + 1) % P.length < P.length := Nat.mod_lt _ (by omega)
    rw [polygonLengthLoop, List.getElem?_eq_getElem hi, List.getElem?_eq_getElem hj]
    simp only
    have e : ((i + 1) % P.length + 1) % P.length = (i + 1 + 1) % P.length := by
      rw [Nat.mod_add_mod]
    rw [e, ih (i + 1) _ (by omega) h2]
    have hl : i < (List.zipWith pointDist P (P.rotate 1)).length := by simp; exact hi
    rw [List.drop_eq_getElem_cons hl]
    simp only [List.sum_cons, List.getElem_zipWith, List.getElem_rotate]
    congr 1
    ring

theorem pointDist_eq (A B : P2 ℝ) : pointDist A B = Spec.dist A B := by
  simp only [pointDist, Spec.dist, distSq, normSq, dot, P2.sub_x, P2.sub_y]
  congr 1; ring

end Geometrix
