import Verif.Model.OrientationTraversal
import Verif.Lemmas.FastVoxel
import Verif.Lemmas.Orientation

/-!
# Helpers for the traversal guided by orientations
-/

set_option linter.unusedSectionVars false

namespace Geometrix

open Spec

variable {K : Type*} [Field K] [LinearOrder K] [IsStrictOrderedRing K] [FloorSemiring K]

/-- What the loop needs to know about the position on one axis: `pos n` is the position after `n` steps, `e` the last
one, `idx n` the index of the cell for `n ≤ M`. -/
structure PosAxis (adv : K → K) (e : K) (pos : Nat → K) (idx : Nat → Nat) (M : Nat) : Prop where
  next : ∀ n, adv (pos n) = pos (n + 1)
  cast : ∀ n ≤ M, toU32 (pos n) = .ok (idx n)
  stay : ∀ n, M ≤ n → toU32 (pos n) = .ok (idx M)
  notEnd : ∀ n < M, pos n ≠ e
  atEnd : ∀ n, M < n → pos n = e

theorem posAxis_up {v1 v2 : K} {i0 iEnd : Nat} (h0 : 0 ≤ v1) (h2 : v2 < 2 ^ 32)
    (hi : i0 < iEnd) (h1 : ⌊v1⌋₊ = i0) (he : ⌊v2⌋₊ = iEnd) :
    PosAxis (fun p => p + min 1 (v2 - p)) v2 (fun n => min (v1 + n) v2) (fun n => i0 + n) (iEnd - i0) := by
  have h12 : v1 < v2 := by
    by_contra h
    push Not at h
    have := Nat.floor_mono h
    omega
  have hv2 : 0 ≤ v2 := by linarith
  rw [Nat.floor_eq_iff h0] at h1
  rw [Nat.floor_eq_iff hv2] at he
  have hpos : ∀ n : Nat, 0 ≤ min (v1 + n) v2 := fun n => le_min (by positivity) hv2
  have hlt : ∀ n : Nat, min (v1 + n) v2 < 2 ^ 32 := fun n => lt_of_le_of_lt (min_le_right _ _) h2
  have big : ∀ n : Nat, iEnd - i0 < n → v2 ≤ v1 + n := by
    intro n hn
    have : (iEnd : K) + 1 ≤ i0 + n := by exact_mod_cast (by omega : iEnd + 1 ≤ i0 + n)
    linarith
  have small : ∀ n : Nat, n < iEnd - i0 → v1 + n < v2 := by
    intro n hn
    have : (i0 : K) + n + 1 ≤ iEnd := by exact_mod_cast (by omega : i0 + n + 1 ≤ iEnd)
    linarith
  have fl : ∀ n ≤ iEnd - i0, toU32 (min (v1 + n) v2) = .ok (i0 + n) := by
    intro n hn
    rw [toU32_eq (hpos n) (hlt n)]
    congr 1
    rw [Nat.floor_eq_iff (hpos n)]
    push_cast
    have h3 : (i0 : K) + n ≤ iEnd := by exact_mod_cast (by omega : i0 + n ≤ iEnd)
    exact ⟨le_min (by linarith) (by linarith), lt_of_le_of_lt (min_le_left _ _) (by linarith)⟩
  refine ⟨?_, fl, ?_, ?_, ?_⟩
  · intro n
    rcases le_total (v1 + n) v2 with h | h
    · rw [min_eq_left h]
      push_cast
      rcases le_total 1 (v2 - (v1 + n)) with h' | h'
      · rw [min_eq_left h', min_eq_left (by linarith)]; ring
      · rw [min_eq_right h', min_eq_right (by linarith)]; ring
    · rw [min_eq_right h, min_eq_right (b := v2) (a := v1 + ((n + 1 : Nat) : K)) (by push_cast; linarith)]
      simp
  · intro n hn
    rcases Nat.eq_or_lt_of_le hn with rfl | hn
    · exact fl _ le_rfl
    · rw [min_eq_right (big n hn), toU32_eq hv2 h2]
      congr 1
      rw [Nat.floor_eq_iff hv2]
      have : i0 + (iEnd - i0) = iEnd := by omega
      rw [this]
      exact he
  · intro n hn
    rw [min_eq_left (small n hn).le]
    exact (small n hn).ne
  · intro n hn
    exact min_eq_right (big n hn)

theorem posAxis_down {v1 v2 : K} {i0 iEnd : Nat} (h0 : 0 ≤ v2) (h2 : v1 < 2 ^ 32)
    (hi : iEnd < i0) (h1 : ⌊v1⌋₊ = i0) (he : ⌊v2⌋₊ = iEnd) :
    PosAxis (fun p => p + max (-1) (v2 - p)) v2 (fun n => max (v1 - n) v2) (fun n => i0 - n) (i0 - iEnd) := by
  have h12 : v2 < v1 := by
    by_contra h
    push Not at h
    have := Nat.floor_mono h
    omega
  have hv1 : 0 ≤ v1 := by linarith
  rw [Nat.floor_eq_iff hv1] at h1
  rw [Nat.floor_eq_iff h0] at he
  have hpos : ∀ n : Nat, 0 ≤ max (v1 - n) v2 := fun n => le_trans h0 (le_max_right _ _)
  have hlt : ∀ n : Nat, max (v1 - n) v2 < 2 ^ 32 := fun n => max_lt (by
    have : (0 : K) ≤ n := Nat.cast_nonneg n
    linarith) (by linarith)
  have big : ∀ n : Nat, i0 - iEnd < n → v1 - n ≤ v2 := by
    intro n hn
    have : (i0 : K) + 1 ≤ iEnd + n := by exact_mod_cast (by omega : i0 + 1 ≤ iEnd + n)
    linarith
  have small : ∀ n : Nat, n < i0 - iEnd → v2 < v1 - n := by
    intro n hn
    have : (iEnd : K) + n + 1 ≤ i0 := by exact_mod_cast (by omega : iEnd + n + 1 ≤ i0)
    linarith
  have fl : ∀ n ≤ i0 - iEnd, toU32 (max (v1 - n) v2) = .ok (i0 - n) := by
    intro n hn
    rw [toU32_eq (hpos n) (hlt n)]
    congr 1
    rw [Nat.floor_eq_iff (hpos n)]
    have h3 : (iEnd : K) + n ≤ i0 := by exact_mod_cast (by omega : iEnd + n ≤ i0)
    rw [Nat.cast_sub (by omega)]
    exact ⟨le_trans (by linarith) (le_max_left _ _), max_lt (by linarith) (by linarith)⟩
  refine ⟨?_, fl, ?_, ?_, ?_⟩
  · intro n
    rcases le_total v2 (v1 - n) with h | h
    · rw [max_eq_left h]
      push_cast
      rcases le_total (-1) (v2 - (v1 - n)) with h' | h'
      · rw [max_eq_right h', max_eq_right (by linarith)]; ring
      · rw [max_eq_left h', max_eq_left (by linarith)]; ring
    · rw [max_eq_right h, max_eq_right (b := v2) (a := v1 - ((n + 1 : Nat) : K)) (by push_cast; linarith)]
      simp
  · intro n hn
    rcases Nat.eq_or_lt_of_le hn with rfl | hn
    · exact fl _ le_rfl
    · rw [max_eq_right (big n hn), toU32_eq h0 (by linarith)]
      congr 1
      rw [Nat.floor_eq_iff h0]
      have : i0 - (i0 - iEnd) = iEnd := by omega
      rw [this]
      exact he
  · intro n hn
    rw [max_eq_left (small n hn).le]
    exact (small n hn).ne'
  · intro n hn
    exact max_eq_right (big n hn)

/-- The step when no coordinate has gone over its end. -/
theorem orientedStep_eq {up : Bool} {x2 y2 x y : K} (hx : x ≤ x2) (hy : if up then y ≤ y2 else y2 ≤ y) (o : Orient) :
    orientedStep Cmp.direct up x2 y2 o x y = match o with
      | .left => if x = x2 then none else some (advanceX x (x2 - x), y)
      | .collinear => if x = x2 ∧ y = y2 then none else some (advanceX x (x2 - x), advanceY up y (y2 - y))
      | .right => if y = y2 then none else some (x, advanceY up y (y2 - y)) := by
  have e1 : ¬ x2 < x := not_lt.2 hx
  have e2 : (if up = true then decide (y2 < y) else decide (y < y2)) = false := by
    cases up <;> simp at hy ⊢ <;> exact hy
  have ex : (x2 = x) = (x = x2) := propext eq_comm
  have ey : (y2 = y) = (y = y2) := propext eq_comm
  cases o <;> simp [orientedStep, Cmp.direct, e1, e2, sub_eq_zero, ex, ey]

/-- The two axes together: the orientation of the corner of cell `(ii m, jj n)` compares the times at which the two
borders are crossed. -/
structure Guided (orient : Nat → Nat → Orient) (ii jj : Nat → Nat) (M N : Nat) (Lx δx Ly δy b : K) : Prop where
  left : ∀ m ≤ M, ∀ n ≤ N, (orient (ii m) (jj n) = .left ↔ Lx + m * δx < Ly + n * δy)
  right : ∀ m ≤ M, ∀ n ≤ N, (orient (ii m) (jj n) = .right ↔ Ly + n * δy < Lx + m * δx)
  posX : 0 < δx
  posY : 0 < δy
  beforeX : ∀ m : Nat, m < M → Lx + m * δx ≤ b
  afterX : b < Lx + M * δx
  beforeY : ∀ n : Nat, n < N → Ly + n * δy ≤ b
  afterY : b ≤ Ly + N * δy

/-- One step to a neighbouring cell, along one axis or both. -/
def GuidedStep (p q : Nat × Nat) : Prop :=
  (q.1 = p.1 + 1 ∧ q.2 = p.2) ∨ (q.1 = p.1 ∧ q.2 = p.2 + 1) ∨ (q.1 = p.1 + 1 ∧ q.2 = p.2 + 1)

section
variable {g : GridTraits K} {sP tP : P2 K} {up : Bool} {x2 y2 : K} {px py : Nat → K} {ii jj : Nat → Nat} {M N : Nat}

/-- In the last cell nothing more is visited. -/
theorem orientedLoop_last (X : PosAxis (fun p => advanceX p (x2 - p)) x2 px ii M)
    (Y : PosAxis (fun p => advanceY up p (y2 - p)) y2 py jj N)
    (hx : ∀ n, px n ≤ x2) (hy : ∀ n, if up then py n ≤ y2 else y2 ≤ py n) (fuel m n : Nat) (hm : M ≤ m) (hn : N ≤ n)
    (hf : (M + 1 - m) + (N + 1 - n) < fuel) :
    orientedLoop Cmp.direct g sP tP up x2 y2 fuel (px m) (py n) (ii M) (jj N) = .ok [] := by
  induction fuel generalizing m n with
  | zero => omega
  | succ fuel ih =>
    unfold orientedLoop
    rw [orientedStep_eq (hx m) (hy n)]
    have nx := X.next m
    have ny := Y.next n
    have ax : px m ≠ x2 → m = M := fun h => by
      by_contra h'
      exact h (X.atEnd m (by omega))
    have ay : py n ≠ y2 → n = N := fun h => by
      by_contra h'
      exact h (Y.atEnd n (by omega))
    cases cornerOrientation Cmp.direct g sP tP up (ii M) (jj N) with
    | left =>
      simp only
      split_ifs with h
      · rfl
      · have := ax h
        simp only [nx, X.stay (m + 1) (by omega), Y.stay n hn, ih (m + 1) n (by omega) hn (by omega)]
        simp
    | right =>
      simp only
      split_ifs with h
      · rfl
      · have := ay h
        simp only [ny, X.stay m hm, Y.stay (n + 1) (by omega), ih m (n + 1) hm (by omega) (by omega)]
        simp
    | collinear =>
      simp only
      split_ifs with h
      · rfl
      · have : m = M ∨ n = N := by
          by_contra h'
          push Not at h'
          exact h ⟨X.atEnd m (by omega), Y.atEnd n (by omega)⟩
        simp only [nx, ny, X.stay (m + 1) (by omega), Y.stay (n + 1) (by omega),
          ih (m + 1) (n + 1) (by omega) (by omega) (by omega)]
        simp

theorem orientedLoop_spec {Lx δx Ly δy b : K} (X : PosAxis (fun p => advanceX p (x2 - p)) x2 px ii M)
    (Y : PosAxis (fun p => advanceY up p (y2 - p)) y2 py jj N)
    (hx : ∀ n, px n ≤ x2) (hy : ∀ n, if up then py n ≤ y2 else y2 ≤ py n)
    (G : Guided (cornerOrientation Cmp.direct g sP tP up) ii jj M N Lx δx Ly δy b)
    (ix : ∀ m ≤ M, ∀ n ≤ M, ii m = ii n → m = n) (iy : ∀ m ≤ N, ∀ n ≤ N, jj m = jj n → m = n)
    (fuel m n : Nat) (hm : m ≤ M) (hn : n ≤ N) (hf : (M + 1 - m) + (N + 1 - n) < fuel)
    (h1 : Lx + m * δx - δx ≤ Ly + n * δy) (h2 : Ly + n * δy - δy ≤ Lx + m * δx) :
    ∃ rest : List (Nat × Nat),
      orientedLoop Cmp.direct g sP tP up x2 y2 fuel (px m) (py n) (ii m) (jj n) =
        .ok (rest.map fun q => (ii q.1, jj q.2)) ∧
      List.IsChain GuidedStep ((m, n) :: rest) ∧
      (∀ q ∈ rest, q.1 ≤ M ∧ q.2 ≤ N ∧ Lx + q.1 * δx - δx ≤ Ly + q.2 * δy ∧
        Ly + q.2 * δy - δy ≤ Lx + q.1 * δx) ∧
      ((m, n) :: rest).getLast? = some (M, N) ∧
      ∀ q : Nat × Nat, ∀ t : K, m ≤ q.1 → q.1 ≤ M → n ≤ q.2 → q.2 ≤ N →
        Lx + q.1 * δx - δx < t → t < Lx + q.1 * δx → Ly + q.2 * δy - δy < t → t < Ly + q.2 * δy → t ≤ b →
        q ∈ (m, n) :: rest := by
  induction fuel generalizing m n with
  | zero => omega
  | succ fuel ih =>
    by_cases hlast : m = M ∧ n = N
    · obtain ⟨rfl, rfl⟩ := hlast
      refine ⟨[], orientedLoop_last X Y hx hy _ m n le_rfl le_rfl hf, by simp, by simp, rfl, ?_⟩
      intro q t q1 q2 q3 q4 _ _ _ _ _
      have : q = (m, n) := Prod.ext (by omega) (by omega)
      simp [this]
    have nx := X.next m
    have ny := Y.next n
    have gl := G.left m hm n hn
    have gr := G.right m hm n hn
    have mono : ∀ {δ : K} {a b : Nat}, 0 < δ → a ≤ b → (a : K) * δ ≤ b * δ := fun h h' =>
      mul_le_mul_of_nonneg_right (by exact_mod_cast h') h.le
    unfold orientedLoop
    rw [orientedStep_eq (hx m) (hy n)]
    cases ho : cornerOrientation Cmp.direct g sP tP up (ii m) (jj n) with
    | left =>
      rw [ho] at gl
      have hlt := gl.1 rfl
      have hmM : m < M := by
        by_contra h
        obtain rfl : m = M := by omega
        have : n ≠ N := fun e => hlast ⟨rfl, e⟩
        have := G.beforeY n (by omega)
        linarith [G.afterX]
      obtain ⟨rest, r1, r2, r3, r4, r5⟩ := ih (m + 1) n hmM hn (by omega)
        (by push_cast; linarith) (by push_cast; linarith [G.posX])
      have hne : ii m ≠ ii (m + 1) := fun e => by have := ix m hm (m + 1) hmM e; omega
      refine ⟨(m + 1, n) :: rest, ?_, List.isChain_cons_cons.mpr ⟨Or.inl ⟨rfl, rfl⟩, r2⟩, ?_, ?_, ?_⟩
      · simp only [if_neg (X.notEnd m hmM), nx, X.cast (m + 1) hmM, Y.cast n hn, r1]
        simp [hne]
      · intro q hq
        rcases List.mem_cons.mp hq with rfl | hq
        · exact ⟨hmM, hn, by push_cast; linarith, by push_cast; linarith [G.posX]⟩
        · exact r3 q hq
      · rw [List.getLast?_cons_cons]; exact r4
      · intro q t q1 q2 q3 q4 t1 t2 t3 t4 tb
        by_cases e : q.1 = m
        · have : q.2 = n := by
            by_contra h
            have h5 := mono G.posY (by omega : n + 1 ≤ q.2)
            push_cast at h5
            rw [e] at t2
            linarith
          have : q = (m, n) := Prod.ext e this
          simp [this]
        · exact List.mem_cons_of_mem _ (r5 q t (by omega) q2 q3 q4 t1 t2 t3 t4 tb)
    | right =>
      rw [ho] at gr
      have hlt := gr.1 rfl
      have hnN : n < N := by
        by_contra h
        obtain rfl : n = N := by omega
        have : m ≠ M := fun e => hlast ⟨e, rfl⟩
        have := G.beforeX m (by omega)
        linarith [G.afterY]
      obtain ⟨rest, r1, r2, r3, r4, r5⟩ := ih m (n + 1) hm hnN (by omega)
        (by push_cast; linarith [G.posY]) (by push_cast; linarith)
      have hne : jj n ≠ jj (n + 1) := fun e => by have := iy n hn (n + 1) hnN e; omega
      refine ⟨(m, n + 1) :: rest, ?_, List.isChain_cons_cons.mpr ⟨Or.inr (Or.inl ⟨rfl, rfl⟩), r2⟩, ?_, ?_, ?_⟩
      · simp only [if_neg (Y.notEnd n hnN), ny, X.cast m hm, Y.cast (n + 1) hnN, r1]
        simp [hne]
      · intro q hq
        rcases List.mem_cons.mp hq with rfl | hq
        · exact ⟨hm, hnN, by push_cast; linarith [G.posY], by push_cast; linarith⟩
        · exact r3 q hq
      · rw [List.getLast?_cons_cons]; exact r4
      · intro q t q1 q2 q3 q4 t1 t2 t3 t4 tb
        by_cases e : q.2 = n
        · have : q.1 = m := by
            by_contra h
            have h5 := mono G.posX (by omega : m + 1 ≤ q.1)
            push_cast at h5
            rw [e] at t4
            linarith
          have : q = (m, n) := Prod.ext this e
          simp [this]
        · exact List.mem_cons_of_mem _ (r5 q t q1 q2 (by omega) q4 t1 t2 t3 t4 tb)
    | collinear =>
      rw [ho] at gl gr
      simp only [reduceCtorEq, false_iff, not_lt] at gl gr
      have heq : Lx + m * δx = Ly + n * δy := le_antisymm gr gl
      have hmM : m < M := by
        by_contra h
        obtain rfl : m = M := by omega
        have : n ≠ N := fun e => hlast ⟨rfl, e⟩
        have := G.beforeY n (by omega)
        linarith [G.afterX]
      have hx2 : ¬ (px m = x2 ∧ py n = y2) := fun h => X.notEnd m hmM h.1
      have hne : ii m ≠ ii (m + 1) := fun e => by have := ix m hm (m + 1) hmM e; omega
      by_cases hnN : n < N
      · obtain ⟨rest, r1, r2, r3, r4, r5⟩ := ih (m + 1) (n + 1) hmM hnN (by omega)
          (by push_cast; linarith [G.posY]) (by push_cast; linarith [G.posX])
        refine ⟨(m + 1, n + 1) :: rest, ?_,
          List.isChain_cons_cons.mpr ⟨Or.inr (Or.inr ⟨rfl, rfl⟩), r2⟩, ?_, ?_, ?_⟩
        · simp only [if_neg hx2, nx, ny, X.cast (m + 1) hmM, Y.cast (n + 1) hnN, r1]
          simp [hne]
        · intro q hq
          rcases List.mem_cons.mp hq with rfl | hq
          · exact ⟨hmM, hnN, by push_cast; linarith [G.posY], by push_cast; linarith [G.posX]⟩
          · exact r3 q hq
        · rw [List.getLast?_cons_cons]; exact r4
        · intro q t q1 q2 q3 q4 t1 t2 t3 t4 tb
          by_cases e : q.1 = m
          · have : q.2 = n := by
              by_contra h
              have h5 := mono G.posY (by omega : n + 1 ≤ q.2)
              push_cast at h5
              rw [e] at t2
              linarith
            have : q = (m, n) := Prod.ext e this
            simp [this]
          · by_cases e' : q.2 = n
            · exfalso
              have h5 := mono G.posX (by omega : m + 1 ≤ q.1)
              push_cast at h5
              rw [e'] at t4
              linarith
            · exact List.mem_cons_of_mem _ (r5 q t (by omega) q2 (by omega) q4 t1 t2 t3 t4 tb)
      · obtain rfl : n = N := by omega
        have hb : Lx + m * δx = b := le_antisymm (G.beforeX m hmM) (heq ▸ G.afterY)
        have hm1 : m + 1 = M := by
          by_contra h
          have := G.beforeX (m + 1) (by omega)
          push_cast at this
          linarith [G.posX]
        subst hm1
        refine ⟨[(m + 1, n)], ?_, by simp [GuidedStep], ?_, by simp, ?_⟩
        · simp only [if_neg hx2, nx, ny, X.cast (m + 1) hmM, Y.stay (n + 1) (by omega),
            orientedLoop_last X Y hx hy fuel (m + 1) (n + 1) le_rfl (by omega) (by omega)]
          simp [hne]
        · intro q hq
          rw [List.mem_singleton] at hq
          subst hq
          exact ⟨le_rfl, le_rfl, by push_cast; linarith, by push_cast; linarith [G.posX, G.posY]⟩
        · intro q t q1 q2 q3 q4 t1 t2 t3 t4 tb
          have e2 : q.2 = n := by omega
          rcases Nat.eq_or_lt_of_le q1 with e | h
          · have : q = (m, n) := Prod.ext e.symm e2
            simp [this]
          · have : q = (m + 1, n) := Prod.ext (by omega) e2
            simp [this]

end

/-! ## The strips -/

theorem orientedStrip_up (fuel j jEnd : Nat) (h : j ≤ jEnd) (hlt : jEnd < 2 ^ 32) (hf : jEnd - j < fuel) :
    orientedStrip fuel j jEnd = .ok (List.range' (j + 1) (jEnd - j)) := by
  induction fuel generalizing j with
  | zero => omega
  | succ fuel ih =>
    unfold orientedStrip
    by_cases he : j = jEnd
    · subst he; simp
    · have e : addU32 j 1 = j + 1 := addU32_of_lt (by omega)
      have e2 : jEnd - j = (jEnd - (j + 1)) + 1 := by omega
      simp only [ne_eq, he, not_false_eq_true, if_true, e, ih (j + 1) (by omega) (by omega)]
      rw [e2, List.range'_succ]

/-- From above its end the index runs up to the largest number and starts again from zero. -/
theorem orientedStrip_wrap (k fuel j jEnd : Nat) (h : jEnd < j) (hk : j + k + 1 = 2 ^ 32) (hf : jEnd < fuel) :
    orientedStrip (fuel + k + 1) j jEnd = .ok (List.range' (j + 1) k ++ 0 :: List.range' 1 jEnd) := by
  induction k generalizing j with
  | zero =>
    have e : addU32 j 1 = 0 := by
      unfold addU32
      rw [show j + 1 = 2 ^ 32 by omega]
      exact Nat.mod_self _
    have e2 := orientedStrip_up fuel 0 jEnd (Nat.zero_le _) (by omega) (by omega)
    simp only [add_zero, orientedStrip, ne_eq, h.ne', not_false_eq_true, if_true, e, e2, Nat.sub_zero, zero_add]
    rfl
  | succ k ih =>
    have e : addU32 j 1 = j + 1 := addU32_of_lt (by omega)
    have := ih (j + 1) (by omega) (by omega)
    rw [show fuel + (k + 1) + 1 = (fuel + k + 1) + 1 by omega]
    unfold orientedStrip
    simp only [ne_eq, h.ne', not_false_eq_true, if_true, e, this]
    rw [List.range'_succ]
    rfl

end Geometrix
