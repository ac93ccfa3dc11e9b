import Verif.Model.FastVoxel
import Verif.Spec.CellPath
import Verif.Lemmas.Grid
import Verif.Lemmas.CohenSutherland

/-!
# Helpers for the fast voxel traversal
-/

set_option linter.unusedSectionVars false

namespace Geometrix

open Spec

variable {K : Type*} [Field K] [LinearOrder K] [IsStrictOrderedRing K] [FloorSemiring K]

/-- What the loop of the sloped case needs to know about one axis. `idx m` is the index after `m` steps,
`M` steps lead to the end index, the border of cell `idx m` is crossed at time `L + m * δ`; the
traversal is between the times `a` and `b`. `inside i t` says that the coordinate at time `t` is in the
closed interval of index `i`. -/
structure VoxAxis (step : Int) (out iEnd : Nat) (idx : Nat → Nat) (M : Nat) (L δ a b : K)
    (inside : Nat → K → Prop) : Prop where
  next : ∀ m < M, stepU32 (idx m) step = idx (m + 1)
  notOut : ∀ m ≤ M, idx m ≠ out
  within : ∀ m ≤ M, ¬ (step > 0 ∧ idx m > iEnd) ∧ ¬ (step < 0 ∧ idx m < iEnd)
  over : stepU32 (idx M) step = out ∨ (step > 0 ∧ stepU32 (idx M) step > iEnd) ∨
    (step < 0 ∧ stepU32 (idx M) step < iEnd)
  pos : 0 < δ
  enter0 : L - δ ≤ a
  leave0 : a ≤ L
  before : ∀ m : Nat, m < M → L + m * δ ≤ b
  after : b ≤ L + M * δ
  last : idx M = iEnd
  neighbour : ∀ m < M, |((idx m : Nat) : Int) - idx (m + 1)| = 1
  slab : ∀ (m : Nat), m ≤ M → ∀ t, L + m * δ - δ ≤ t → t ≤ L + m * δ → inside (idx m) t

theorem stepU32_up {i : Nat} (h : i + 1 < 2 ^ 32) : stepU32 i 1 = i + 1 := by
  unfold stepU32
  rw [Int.emod_eq_of_lt (by omega) (by omega)]
  omega

theorem stepU32_down {i : Nat} (h : 0 < i) (h' : i < 2 ^ 32) : stepU32 i (-1) = i - 1 := by
  unfold stepU32
  rw [Int.emod_eq_of_lt (by omega) (by omega)]
  omega

theorem stepU32_zero : stepU32 0 (-1) = 2 ^ 32 - 1 := by decide

theorem voxAxis_up {x0 w s d a b : K} {i0 iEnd out : Nat} (hw : 0 < w) (hd : 0 < d)
    (hi : i0 < iEnd) (hout : iEnd < out) (hmax : iEnd + 1 < 2 ^ 32)
    (ha : InCell x0 w i0 (s + a * d)) (hb : InCell x0 w iEnd (s + b * d)) :
    VoxAxis 1 out iEnd (fun m => i0 + m) (iEnd - i0)
      ((x0 + ((addU32 i0 1 : Nat) : K) * w - s) * (1 / d)) (w * ((1 : Int) : K) * (1 / d)) a b
      (fun i t => x0 + i * w ≤ s + t * d ∧ s + t * d ≤ x0 + (i + 1) * w) := by
  have e1 : addU32 i0 1 = i0 + 1 := addU32_of_lt (by omega)
  have hM : ((iEnd - i0 : Nat) : K) = iEnd - i0 := by
    rw [Nat.cast_sub hi.le]
  obtain ⟨a1, a2⟩ := ha
  obtain ⟨b1, b2⟩ := hb
  rw [e1]
  have key : ∀ m t : K, ((x0 + ((i0 + 1 : Nat) : K) * w - s) * (1 / d) + m * (w * ((1 : Int) : K) * (1 / d)) ≤ t ↔
      x0 + (i0 + 1 + m) * w ≤ s + t * d) := by
    intro m t
    have : (x0 + ((i0 + 1 : Nat) : K) * w - s) * (1 / d) + m * (w * ((1 : Int) : K) * (1 / d)) =
        (x0 + (i0 + 1 + m) * w - s) / d := by push_cast; ring
    rw [this, div_le_iff₀ hd]
    constructor <;> intro h <;> linarith
  have key2 : ∀ m t : K, (t ≤ (x0 + ((i0 + 1 : Nat) : K) * w - s) * (1 / d) + m * (w * ((1 : Int) : K) * (1 / d)) ↔
      s + t * d ≤ x0 + (i0 + 1 + m) * w) := by
    intro m t
    have : (x0 + ((i0 + 1 : Nat) : K) * w - s) * (1 / d) + m * (w * ((1 : Int) : K) * (1 / d)) =
        (x0 + (i0 + 1 + m) * w - s) / d := by push_cast; ring
    rw [this, le_div_iff₀ hd]
    constructor <;> intro h <;> linarith
  refine ⟨?_, ?_, ?_, ?_, ?_, ?_, ?_, ?_, ?_, ?_, ?_, ?_⟩
  · intro m hm
    exact stepU32_up (by omega)
  · intro m hm; show i0 + m ≠ out; omega
  · intro m hm
    constructor <;> omega
  · right; left
    have : i0 + (iEnd - i0) = iEnd := by omega
    simp only [this, stepU32_up hmax]
    omega
  · have : 0 < 1 / d := by positivity
    simp only [Int.cast_one, mul_one]
    positivity
  · have := (key (-1) a).mpr (by linarith)
    linarith
  · have := (key2 0 a).mpr (by linarith)
    linarith
  · intro m hm
    rw [key]
    have hm' : ((m : Nat) : K) + 1 ≤ iEnd - i0 := by
      rw [← hM]; exact_mod_cast hm
    nlinarith
  · rw [key2, hM]
    have : (i0 : K) + 1 + (iEnd - i0) = iEnd + 1 := by ring
    rw [this]; exact b2.le
  · show i0 + (iEnd - i0) = iEnd; omega
  · intro m hm
    have : (((i0 + m : Nat) : Int) - ((i0 + (m + 1) : Nat) : Int)) = -1 := by push_cast; ring
    rw [this]; rfl
  · intro m hm t h1 h2
    rw [key2] at h2
    have h1' := (key (m - 1) t).mp (by linarith)
    push_cast
    constructor <;> nlinarith

theorem voxAxis_down {x0 w s d a b : K} {i0 iEnd : Nat} (hw : 0 < w) (hd : d < 0)
    (hi : iEnd < i0) (hmax : i0 + 1 < 2 ^ 32)
    (ha : InCell x0 w i0 (s + a * d)) (hb : InCell x0 w iEnd (s + b * d)) :
    VoxAxis (-1) (2 ^ 32 - 1) iEnd (fun m => i0 - m) (i0 - iEnd)
      ((x0 + (i0 : K) * w - s) * (1 / d)) (w * ((-1 : Int) : K) * (1 / d)) a b
      (fun i t => x0 + i * w ≤ s + t * d ∧ s + t * d ≤ x0 + (i + 1) * w) := by
  have hM : ((i0 - iEnd : Nat) : K) = i0 - iEnd := by
    rw [Nat.cast_sub hi.le]
  obtain ⟨a1, a2⟩ := ha
  obtain ⟨b1, b2⟩ := hb
  have key : ∀ m t : K, ((x0 + (i0 : K) * w - s) * (1 / d) + m * (w * ((-1 : Int) : K) * (1 / d)) ≤ t ↔
      s + t * d ≤ x0 + (i0 - m) * w) := by
    intro m t
    have : (x0 + (i0 : K) * w - s) * (1 / d) + m * (w * ((-1 : Int) : K) * (1 / d)) =
        (x0 + (i0 - m) * w - s) / d := by push_cast; ring
    rw [this, div_le_iff_of_neg hd]
    constructor <;> intro h <;> linarith
  have key2 : ∀ m t : K, (t ≤ (x0 + (i0 : K) * w - s) * (1 / d) + m * (w * ((-1 : Int) : K) * (1 / d)) ↔
      x0 + (i0 - m) * w ≤ s + t * d) := by
    intro m t
    have : (x0 + (i0 : K) * w - s) * (1 / d) + m * (w * ((-1 : Int) : K) * (1 / d)) =
        (x0 + (i0 - m) * w - s) / d := by push_cast; ring
    rw [this, le_div_iff_of_neg hd]
    constructor <;> intro h <;> linarith
  refine ⟨?_, ?_, ?_, ?_, ?_, ?_, ?_, ?_, ?_, ?_, ?_, ?_⟩
  · intro m hm
    rw [stepU32_down (by omega) (by omega)]
    omega
  · intro m hm; show i0 - m ≠ 2 ^ 32 - 1; omega
  · intro m hm
    constructor <;> omega
  · have : i0 - (i0 - iEnd) = iEnd := by omega
    simp only [this]
    rcases Nat.eq_zero_or_pos iEnd with h | h
    · left; rw [h]; exact stepU32_zero
    · right; right
      rw [stepU32_down h (by omega)]
      omega
  · have : 1 / d < 0 := by rw [one_div]; exact inv_lt_zero.mpr hd
    push_cast
    nlinarith
  · have := (key (-1) a).mpr (by linarith)
    linarith
  · have := (key2 0 a).mpr (by linarith)
    linarith
  · intro m hm
    rw [key]
    have hm' : ((m : Nat) : K) + 1 ≤ i0 - iEnd := by
      rw [← hM]; exact_mod_cast hm
    nlinarith
  · rw [key2, hM]
    have : (i0 : K) - (i0 - iEnd) = iEnd := by ring
    rw [this]; exact b1
  · show i0 - (i0 - iEnd) = iEnd; omega
  · intro m hm
    have : (((i0 - m : Nat) : Int) - ((i0 - (m + 1) : Nat) : Int)) = 1 := by omega
    rw [this]; rfl
  · intro m hm t h1 h2
    rw [key2] at h2
    have h1' := (key (m - 1) t).mp (by linarith)
    rw [Nat.cast_sub (by omega)]
    constructor <;> nlinarith

/-- One more step along one of the axes. -/
def VoxStep (p q : Nat × Nat) : Prop := (q.1 = p.1 + 1 ∧ q.2 = p.2) ∨ (q.1 = p.1 ∧ q.2 = p.2 + 1)

theorem notBad {p q r s : Prop} (hp : ¬ p) (hq : ¬ q) (hr : ¬ r) (hs : ¬ s) : ¬ (p ∨ q ∨ r ∨ s) := by
  rintro (h | h | h | h)
  exacts [hp h, hq h, hr h, hs h]

theorem voxelLoop_spec {stepI stepJ : Int} {outI outJ iEnd jEnd M N : Nat} {ii jj : Nat → Nat}
    {Lx δx Ly δy a b : K} {inX inY : Nat → K → Prop}
    (X : VoxAxis stepI outI iEnd ii M Lx δx a b inX) (Y : VoxAxis stepJ outJ jEnd jj N Ly δy a b inY)
    (fuel : Nat) (m n : Nat) (hm : m ≤ M) (hn : n ≤ N) (hf : (M - m) + (N - n) < fuel)
    (h1 : Lx + m * δx - δx ≤ Ly + n * δy) (h2 : Ly + n * δy - δy ≤ Lx + m * δx) :
    ∃ rest : List (Nat × Nat),
      voxelLoop (fun _ => true) stepI stepJ outI outJ iEnd jEnd δx δy fuel (ii m) (jj n)
        (Lx + m * δx) (Ly + n * δy) = .ok (rest.map fun q => (ii q.1, jj q.2)) ∧
      List.IsChain VoxStep ((m, n) :: rest) ∧
      (∀ q ∈ rest, q.1 ≤ M ∧ q.2 ≤ N ∧ Lx + q.1 * δx - δx ≤ Ly + q.2 * δy ∧
        Ly + q.2 * δy - δy ≤ Lx + q.1 * δx) ∧
      ((∀ k : Nat, k < M → Lx + k * δx < Ly + N * δy) → ((m, n) :: rest).getLast? = some (M, N)) := by
  induction fuel generalizing m n with
  | zero => omega
  | succ fuel ih =>
    have wx := X.within m hm
    have wy := Y.within n hn
    by_cases hlt : Lx + m * δx < Ly + n * δy
    · by_cases hmM : m < M
      · have wx' := X.within (m + 1) hmM
        have hbad := notBad wx'.1 wx'.2 wy.1 wy.2
        have e : Lx + m * δx + δx = Lx + ((m + 1 : Nat) : K) * δx := by push_cast; ring
        obtain ⟨rest, r1, r2, r3, r4⟩ := ih (m + 1) n hmM hn (by omega)
          (by push_cast; linarith) (by push_cast; linarith [X.pos])
        refine ⟨(m + 1, n) :: rest, ?_, ?_, ?_, ?_⟩
        · simp only [voxelLoop, if_pos hlt, X.next m hmM, if_neg (X.notOut (m + 1) hmM), e, r1]
          rw [if_neg hbad]
          simp
        · exact List.isChain_cons_cons.mpr ⟨Or.inl ⟨rfl, rfl⟩, r2⟩
        · intro q hq
          rcases List.mem_cons.mp hq with rfl | hq
          · exact ⟨hmM, hn, by push_cast; linarith, by push_cast; linarith [X.pos]⟩
          · exact r3 q hq
        · intro hg
          have := r4 hg
          rw [List.getLast?_cons_cons]
          exact this
      · obtain rfl : m = M := by omega
        refine ⟨[], ?_, by simp, by simp, ?_⟩
        · simp only [voxelLoop, if_pos hlt, List.map_nil]
          by_cases ho : stepU32 (ii m) stepI = outI
          · rw [if_pos ho]
          · rw [if_neg ho, if_pos]
            rcases X.over with h | h | h
            · exact absurd h ho
            · exact Or.inl h
            · exact Or.inr (Or.inl h)
        · intro _
          have : n = N := by
            by_contra hne
            have := Y.before n (by omega)
            have := X.after
            linarith
          rw [this]
          rfl
    · by_cases hnN : n < N
      · have wy' := Y.within (n + 1) hnN
        have hbad := notBad wx.1 wx.2 wy'.1 wy'.2
        have e : Ly + n * δy + δy = Ly + ((n + 1 : Nat) : K) * δy := by push_cast; ring
        obtain ⟨rest, r1, r2, r3, r4⟩ := ih m (n + 1) hm hnN (by omega)
          (by push_cast; linarith [Y.pos]) (by push_cast; linarith)
        refine ⟨(m, n + 1) :: rest, ?_, ?_, ?_, ?_⟩
        · simp only [voxelLoop, if_neg hlt, Y.next n hnN, if_neg (Y.notOut (n + 1) hnN), e, r1]
          rw [if_neg hbad]
          simp
        · exact List.isChain_cons_cons.mpr ⟨Or.inr ⟨rfl, rfl⟩, r2⟩
        · intro q hq
          rcases List.mem_cons.mp hq with rfl | hq
          · exact ⟨hm, hnN, by push_cast; linarith [Y.pos], by push_cast; linarith⟩
          · exact r3 q hq
        · intro hg
          have := r4 hg
          rw [List.getLast?_cons_cons]
          exact this
      · obtain rfl : n = N := by omega
        refine ⟨[], ?_, by simp, by simp, ?_⟩
        · simp only [voxelLoop, if_neg hlt, List.map_nil]
          by_cases ho : stepU32 (jj n) stepJ = outJ
          · rw [if_pos ho]
          · rw [if_neg ho, if_pos]
            rcases Y.over with h | h | h
            · exact absurd h ho
            · exact Or.inr (Or.inr (Or.inl h))
            · exact Or.inr (Or.inr (Or.inr h))
        · intro hg
          have : m = M := by
            by_contra hne
            exact hlt (hg m (by omega))
          rw [this]
          rfl


theorem voxelStrip_spec (fuel j jEnd : Nat) (hf : jEnd - j + (j - jEnd) < fuel) :
    ∃ rest, voxelStrip (fun _ => true) fuel j jEnd = .ok rest ∧
      List.IsChain (fun u v : Nat => |(u : Int) - v| = 1) (j :: rest) ∧
      (∀ v ∈ rest, (j ≤ v ∧ v ≤ jEnd) ∨ (jEnd ≤ v ∧ v ≤ j)) ∧
      (j :: rest).getLast? = some jEnd := by
  induction fuel generalizing j with
  | zero => omega
  | succ fuel ih =>
    by_cases h : j = jEnd
    · subst h
      exact ⟨[], by simp [voxelStrip], by simp, by simp, rfl⟩
    · have key : ∀ j' : Nat, ((j < jEnd ∧ j' = j + 1) ∨ (jEnd < j ∧ j' = j - 1)) →
          (if j < jEnd then j + 1 else j - 1) = j' →
          ∃ rest, voxelStrip (fun _ => true) (fuel + 1) j jEnd = .ok rest ∧
            List.IsChain (fun u v : Nat => |(u : Int) - v| = 1) (j :: rest) ∧
            (∀ v ∈ rest, (j ≤ v ∧ v ≤ jEnd) ∨ (jEnd ≤ v ∧ v ≤ j)) ∧
            (j :: rest).getLast? = some jEnd := by
        intro j' hj' he
        obtain ⟨rest, r1, r2, r3, r4⟩ := ih j' (by omega)
        refine ⟨j' :: rest, ?_, ?_, ?_, ?_⟩
        · simp only [voxelStrip, ne_eq, h, not_false_eq_true, if_true, he, Bool.not_true,
            Bool.false_eq_true, if_false, r1]
        · refine List.isChain_cons_cons.mpr ⟨?_, r2⟩
          rcases hj' with ⟨-, rfl⟩ | ⟨hlt, rfl⟩
          · have : (j : Int) - ((j + 1 : Nat) : Int) = -1 := by push_cast; ring
            rw [this]; rfl
          · have : (j : Int) - ((j - 1 : Nat) : Int) = 1 := by omega
            rw [this]; rfl
        · intro v hv
          rcases List.mem_cons.mp hv with rfl | hv
          · omega
          · have := r3 v hv
            omega
        · rw [List.getLast?_cons_cons]; exact r4
      by_cases hlt : j < jEnd
      · exact key (j + 1) (Or.inl ⟨hlt, rfl⟩) (if_pos hlt)
      · exact key (j - 1) (Or.inr ⟨by omega, rfl⟩) (if_neg hlt)

/-- A coordinate that moves evenly from the interval `j` to the interval `jEnd` meets each interval
between them. -/
theorem strip_meets {y0 w s d a b : K} {j jEnd v : Nat} (hw : 0 < w) (hab : a ≤ b)
    (ha : InCell y0 w j (s + a * d)) (hb : InCell y0 w jEnd (s + b * d))
    (hv : (j ≤ v ∧ v ≤ jEnd) ∨ (jEnd ≤ v ∧ v ≤ j)) :
    ∃ t, a ≤ t ∧ t ≤ b ∧ y0 + v * w ≤ s + t * d ∧ s + t * d ≤ y0 + (v + 1) * w := by
  obtain ⟨a1, a2⟩ := ha
  obtain ⟨b1, b2⟩ := hb
  by_cases e1 : v = j
  · subst e1; exact ⟨a, le_rfl, hab, a1, a2.le⟩
  by_cases e2 : v = jEnd
  · subst e2; exact ⟨b, hab, le_rfl, b1, b2.le⟩
  have hdiv : ∀ hd : d ≠ 0, s + (y0 + v * w - s) / d * d = y0 + v * w := by
    intro hd; rw [div_mul_cancel₀ _ hd]; ring
  rcases hv with ⟨h1, h2⟩ | ⟨h1, h2⟩
  · have h1' : (j : K) + 1 ≤ v := by exact_mod_cast (by omega : j + 1 ≤ v)
    have h2' : (v : K) + 1 ≤ jEnd := by exact_mod_cast (by omega : v + 1 ≤ jEnd)
    have hd : 0 < d := by
      by_contra hd
      push Not at hd
      nlinarith [mul_nonneg (sub_nonneg.mpr hab) (neg_nonneg.mpr hd)]
    refine ⟨(y0 + v * w - s) / d, ?_, ?_, ?_, ?_⟩
    · rw [le_div_iff₀ hd]; nlinarith
    · rw [div_le_iff₀ hd]; nlinarith
    · rw [hdiv hd.ne']
    · rw [hdiv hd.ne']; nlinarith
  · have h1' : (jEnd : K) + 1 ≤ v := by exact_mod_cast (by omega : jEnd + 1 ≤ v)
    have h2' : (v : K) + 1 ≤ j := by exact_mod_cast (by omega : v + 1 ≤ j)
    have hd : d < 0 := by
      by_contra hd
      push Not at hd
      nlinarith [mul_nonneg (sub_nonneg.mpr hab) hd]
    refine ⟨(y0 + v * w - s) / d, ?_, ?_, ?_, ?_⟩
    · rw [le_div_iff_of_neg hd]; nlinarith
    · rw [div_le_iff_of_neg hd]; nlinarith
    · rw [hdiv hd.ne]
    · rw [hdiv hd.ne]; nlinarith

/-- A coordinate that moves evenly is in the interval in which it is at both ends. -/
theorem slab_convex {x0 w s d a b t : K} {i : Nat} (h1 : a ≤ t) (h2 : t ≤ b)
    (ha : InCell x0 w i (s + a * d)) (hb : InCell x0 w i (s + b * d)) :
    x0 + i * w ≤ s + t * d ∧ s + t * d ≤ x0 + (i + 1) * w := by
  obtain ⟨a1, a2⟩ := ha
  obtain ⟨b1, b2⟩ := hb
  rcases le_total 0 d with hd | hd
  · have := mul_le_mul_of_nonneg_right h1 hd
    have := mul_le_mul_of_nonneg_right h2 hd
    constructor <;> linarith
  · have := mul_le_mul_of_nonpos_right h1 hd
    have := mul_le_mul_of_nonpos_right h2 hd
    constructor <;> linarith

theorem shareEdge_same_left {i u v : Nat} (h : |(u : Int) - v| = 1) : ShareEdge (i, u) (i, v) := by
  simp only [ShareEdge, Neighbours4]
  rw [sub_self, abs_zero, zero_add]; exact h

theorem shareEdge_same_right {j u v : Nat} (h : |(u : Int) - v| = 1) : ShareEdge (u, j) (v, j) := by
  simp only [ShareEdge, Neighbours4]
  rw [sub_self, abs_zero, add_zero]; exact h

/-- What the traversal between the times `a` and `b` gives. -/
def GoodVoxels (g : GridTraits K) (s : Seg K) (a b : K) (i j iEnd jEnd : Nat)
    (cells : List (Nat × Nat)) : Prop :=
  cells.head? = some (i, j) ∧ cells.IsChain ShareEdge ∧
  (∀ c ∈ cells, ∃ t, a ≤ t ∧ t ≤ b ∧ InClosedCell g.xmin g.ymin g.cellWidth c (along s.s s.e t)) ∧
  (¬ (s.s.x < s.e.x ∧ s.e.y < s.s.y ∧ (along s.s s.e b).x = g.xmin + iEnd * g.cellWidth ∧
    (along s.s s.e b).y = g.ymin + jEnd * g.cellWidth) → cells.getLast? = some (iEnd, jEnd))

theorem goodVoxels_of_axes {g : GridTraits K} {s : Seg K} {a b : K} (hab : a ≤ b)
    {stepI stepJ : Int} {outI outJ iEnd jEnd M N : Nat} {ii jj : Nat → Nat} {Lx δx Ly δy : K}
    (X : VoxAxis stepI outI iEnd ii M Lx δx a b (fun i t => g.xmin + i * g.cellWidth ≤
      s.s.x + t * (s.e.x - s.s.x) ∧ s.s.x + t * (s.e.x - s.s.x) ≤ g.xmin + (i + 1) * g.cellWidth))
    (Y : VoxAxis stepJ outJ jEnd jj N Ly δy a b (fun i t => g.ymin + i * g.cellWidth ≤
      s.s.y + t * (s.e.y - s.s.y) ∧ s.s.y + t * (s.e.y - s.s.y) ≤ g.ymin + (i + 1) * g.cellWidth))
    (fuel : Nat) (hf : M + N < fuel)
    (hend : ¬ (s.s.x < s.e.x ∧ s.e.y < s.s.y ∧
      (along s.s s.e b).x = g.xmin + iEnd * g.cellWidth ∧
      (along s.s s.e b).y = g.ymin + jEnd * g.cellWidth) → ∀ k : Nat, k < M →
        Lx + k * δx < Ly + N * δy) :
    ∃ rest, voxelLoop (fun _ => true) stepI stepJ outI outJ iEnd jEnd δx δy fuel (ii 0) (jj 0) Lx Ly =
      .ok rest ∧ GoodVoxels g s a b (ii 0) (jj 0) iEnd jEnd ((ii 0, jj 0) :: rest) := by
  have h1 : Lx + ((0 : Nat) : K) * δx - δx ≤ Ly + ((0 : Nat) : K) * δy := by
    push_cast; linarith [X.enter0, Y.leave0]
  have h2 : Ly + ((0 : Nat) : K) * δy - δy ≤ Lx + ((0 : Nat) : K) * δx := by
    push_cast; linarith [Y.enter0, X.leave0]
  obtain ⟨rest, r1, r2, r3, r4⟩ := voxelLoop_spec X Y fuel 0 0 (by omega) (by omega) (by omega) h1 h2
  simp only [Nat.cast_zero, zero_mul, add_zero] at r1
  refine ⟨_, r1, rfl, ?_, ?_, ?_⟩
  · have hall : ∀ q ∈ (0, 0) :: rest, q.1 ≤ M ∧ q.2 ≤ N := by
      intro q hq
      rcases List.mem_cons.mp hq with rfl | hq
      · exact ⟨by omega, by omega⟩
      · exact ⟨(r3 q hq).1, (r3 q hq).2.1⟩
    have : ((ii 0, jj 0) :: rest.map fun q => (ii q.1, jj q.2)) =
        ((0, 0) :: rest).map fun q : Nat × Nat => (ii q.1, jj q.2) := rfl
    rw [this, List.isChain_map]
    clear r1 r3 r4 this
    generalize (0, 0) :: rest = l at r2 hall
    induction l with
    | nil => simp
    | cons p l ih =>
      cases l with
      | nil => simp
      | cons q l =>
        rw [List.isChain_cons_cons] at r2 ⊢
        refine ⟨?_, ih r2.2 (fun q hq => hall q (List.mem_cons_of_mem _ hq))⟩
        have hq := hall q (by simp)
        rcases r2.1 with ⟨e1, e2⟩ | ⟨e1, e2⟩
        · rw [e1, e2]
          exact shareEdge_same_right (X.neighbour p.1 (by omega))
        · rw [e1, e2]
          exact shareEdge_same_left (Y.neighbour p.2 (by omega))
  · have hwin : ∀ q ∈ (0, 0) :: rest, q.1 ≤ M ∧ q.2 ≤ N ∧
        Lx + q.1 * δx - δx ≤ Ly + q.2 * δy ∧ Ly + q.2 * δy - δy ≤ Lx + q.1 * δx := by
      intro q hq
      rcases List.mem_cons.mp hq with rfl | hq
      · exact ⟨by omega, by omega, h1, h2⟩
      · exact r3 q hq
    intro c hc
    have : c ∈ ((0, 0) :: rest).map fun q : Nat × Nat => (ii q.1, jj q.2) := hc
    obtain ⟨q, hq, rfl⟩ := List.mem_map.mp this
    obtain ⟨q1, q2, q3, q4⟩ := hwin q hq
    have hent : ∀ {L δ : K} {m M : Nat}, m ≤ M → L - δ ≤ a → (∀ k : Nat, k < M → L + k * δ ≤ b) →
        L + m * δ - δ ≤ b := by
      intro L δ m M hm h0 hb
      rcases Nat.eq_zero_or_pos m with rfl | hp
      · push_cast; linarith
      · have := hb (m - 1) (by omega)
        rw [Nat.cast_sub (by omega)] at this
        push_cast at this
        linarith
    have ex := hent q1 X.enter0 X.before
    have ey := hent q2 Y.enter0 Y.before
    have lx : a ≤ Lx + q.1 * δx := by
      have := mul_nonneg (Nat.cast_nonneg (α := K) q.1) X.pos.le
      linarith [X.leave0]
    have ly : a ≤ Ly + q.2 * δy := by
      have := mul_nonneg (Nat.cast_nonneg (α := K) q.2) Y.pos.le
      linarith [Y.leave0]
    have hx := X.slab q.1 q1 (max a (max (Lx + q.1 * δx - δx) (Ly + q.2 * δy - δy)))
      (le_trans (le_max_left _ _) (le_max_right _ _))
      (max_le lx (max_le (by linarith [X.pos]) q4))
    have hy := Y.slab q.2 q2 (max a (max (Lx + q.1 * δx - δx) (Ly + q.2 * δy - δy)))
      (le_trans (le_max_right _ _) (le_max_right _ _))
      (max_le ly (max_le q3 (by linarith [Y.pos])))
    exact ⟨_, le_max_left _ _, max_le hab (max_le ex ey), hx.1, hx.2, hy.1, hy.2⟩
  · intro hne
    have := r4 (hend hne)
    have e : ((ii 0, jj 0) :: rest.map fun q => (ii q.1, jj q.2)) =
        ((0, 0) :: rest).map fun q : Nat × Nat => (ii q.1, jj q.2) := rfl
    rw [e, List.getLast?_map, this, Option.map_some, X.last, Y.last]


theorem up_before_strict {x0 w s d b : K} {i0 iEnd k : Nat} (hw : 0 < w) (hd : 0 < d)
    (hmax : iEnd + 1 < 2 ^ 32) (hk : k < iEnd - i0) (hb : x0 + iEnd * w < s + b * d) :
    (x0 + ((addU32 i0 1 : Nat) : K) * w - s) * (1 / d) + k * (w * ((1 : Int) : K) * (1 / d)) < b := by
  rw [addU32_of_lt (by omega)]
  have : (x0 + ((i0 + 1 : Nat) : K) * w - s) * (1 / d) + k * (w * ((1 : Int) : K) * (1 / d)) =
      (x0 + (i0 + 1 + k) * w - s) / d := by push_cast; ring
  rw [this, div_lt_iff₀ hd]
  have h : (i0 : K) + 1 + k ≤ iEnd := by exact_mod_cast (by omega : i0 + 1 + k ≤ iEnd)
  nlinarith

theorem up_after_strict {x0 w s d b : K} {i0 iEnd : Nat} (hd : 0 < d) (hi : i0 < iEnd)
    (hmax : iEnd + 1 < 2 ^ 32) (hb : s + b * d < x0 + (iEnd + 1) * w) :
    b < (x0 + ((addU32 i0 1 : Nat) : K) * w - s) * (1 / d) +
      ((iEnd - i0 : Nat) : K) * (w * ((1 : Int) : K) * (1 / d)) := by
  rw [addU32_of_lt (by omega), Nat.cast_sub hi.le]
  have : (x0 + ((i0 + 1 : Nat) : K) * w - s) * (1 / d) +
      ((iEnd : K) - i0) * (w * ((1 : Int) : K) * (1 / d)) = (x0 + (iEnd + 1) * w - s) / d := by
    push_cast; ring
  rw [this, lt_div_iff₀ hd]
  linarith

theorem down_before_strict {x0 w s d b : K} {i0 iEnd k : Nat} (hw : 0 < w) (hd : d < 0)
    (hk : k < i0 - iEnd) (hb : s + b * d < x0 + (iEnd + 1) * w) :
    (x0 + (i0 : K) * w - s) * (1 / d) + k * (w * ((-1 : Int) : K) * (1 / d)) < b := by
  have : (x0 + (i0 : K) * w - s) * (1 / d) + k * (w * ((-1 : Int) : K) * (1 / d)) =
      (x0 + (i0 - k) * w - s) / d := by push_cast; ring
  rw [this, div_lt_iff_of_neg hd]
  have h : (iEnd : K) + 1 + k ≤ i0 := by exact_mod_cast (by omega : iEnd + 1 + k ≤ i0)
  nlinarith

theorem down_after_strict {x0 w s d b : K} {i0 iEnd : Nat} (hd : d < 0) (hi : iEnd < i0)
    (hb : x0 + iEnd * w < s + b * d) :
    b < (x0 + (i0 : K) * w - s) * (1 / d) +
      ((i0 - iEnd : Nat) : K) * (w * ((-1 : Int) : K) * (1 / d)) := by
  rw [Nat.cast_sub hi.le]
  have : (x0 + (i0 : K) * w - s) * (1 / d) + ((i0 : K) - iEnd) * (w * ((-1 : Int) : K) * (1 / d)) =
      (x0 + iEnd * w - s) / d := by push_cast; ring
  rw [this, lt_div_iff_of_neg hd]
  linarith

/-- A coordinate that moves evenly to an interval further on increases. -/
theorem cell_lt_pos {x0 w s d a b : K} {i k : Nat} (hw : 0 < w) (hab : a ≤ b)
    (ha : InCell x0 w i (s + a * d)) (hb : InCell x0 w k (s + b * d)) (h : i < k) : 0 < d := by
  by_contra hd
  push Not at hd
  have h' : (i : K) + 1 ≤ k := by exact_mod_cast h
  have := mul_le_mul_of_nonpos_right hab hd
  nlinarith [ha.1, ha.2, hb.1, hb.2]

theorem cell_gt_neg {x0 w s d a b : K} {i k : Nat} (hw : 0 < w) (hab : a ≤ b)
    (ha : InCell x0 w i (s + a * d)) (hb : InCell x0 w k (s + b * d)) (h : k < i) : d < 0 := by
  by_contra hd
  push Not at hd
  have h' : (k : K) + 1 ≤ i := by exact_mod_cast h
  have := mul_le_mul_of_nonneg_right hab hd
  nlinarith [ha.1, ha.2, hb.1, hb.2]

theorem voxelSloped_spec {g : GridTraits K} {s : Seg K} {a b : K} {i j iEnd jEnd : Nat}
    (hw : 0 < g.cellWidth) (hab : a ≤ b)
    (hgx : g.width < 2 ^ 32) (hgy : g.height < 2 ^ 32)
    (hi : i < g.width) (hj : j < g.height) (hie : iEnd < g.width) (hje : jEnd < g.height)
    (ax : InCell g.xmin g.cellWidth i (s.s.x + a * (s.e.x - s.s.x)))
    (bx : InCell g.xmin g.cellWidth iEnd (s.s.x + b * (s.e.x - s.s.x)))
    (ay : InCell g.ymin g.cellWidth j (s.s.y + a * (s.e.y - s.s.y)))
    (bY : InCell g.ymin g.cellWidth jEnd (s.s.y + b * (s.e.y - s.s.y)))
    (hni : i ≠ iEnd) (hnj : j ≠ jEnd) (fuel : Nat) (hf : g.width + g.height ≤ fuel) :
    ∃ rest, voxelSloped Cmp.direct (fun _ => true) fuel g s i j iEnd jEnd = .ok rest ∧
      GoodVoxels g s a b i j iEnd jEnd ((i, j) :: rest) := by
  unfold voxelSloped
  simp only [P2.sub_x, P2.sub_y, direct_gt]
  rcases lt_or_gt_of_ne hni with hx | hx
  · have dx := cell_lt_pos hw hab ax bx hx
    have X := voxAxis_up (out := g.width) hw dx hx hie (by omega) ax bx
    rcases lt_or_gt_of_ne hnj with hy | hy
    · have dy := cell_lt_pos hw hab ay bY hy
      have Y := voxAxis_up (out := g.height) hw dy hy hje (by omega) ay bY
      simp only [dx, dy, if_true, dx.ne', dy.ne', ne_eq, not_false_eq_true, not_true_eq_false,
        if_false, cdiv_ok dx.ne', cdiv_ok dy.ne']
      refine goodVoxels_of_axes hab X Y fuel (by omega) ?_
      intro _ k hk
      exact lt_of_le_of_lt (X.before k hk) (up_after_strict dy hy (by omega) bY.2)
    · have dy := cell_gt_neg hw hab ay bY hy
      have Y := voxAxis_down hw dy hy (by omega) ay bY
      simp only [dx, not_lt_of_gt dy, if_true, dx.ne', dy.ne, ne_eq, not_false_eq_true, not_true_eq_false,
        if_false, cdiv_ok dx.ne', cdiv_ok dy.ne]
      refine goodVoxels_of_axes hab X Y fuel (by omega) ?_
      intro hne k hk
      by_cases he : g.xmin + iEnd * g.cellWidth = s.s.x + b * (s.e.x - s.s.x)
      · have he' : g.ymin + jEnd * g.cellWidth ≠ s.s.y + b * (s.e.y - s.s.y) := by
          intro he'
          exact hne ⟨by linarith, by linarith, he.symm, he'.symm⟩
        exact lt_of_le_of_lt (X.before k hk)
          (down_after_strict dy hy (lt_of_le_of_ne bY.1 he'))
      · exact lt_of_lt_of_le (up_before_strict hw dx (by omega) hk (lt_of_le_of_ne bx.1 he)) Y.after
  · have dx := cell_gt_neg hw hab ax bx hx
    have X := voxAxis_down hw dx hx (by omega) ax bx
    rcases lt_or_gt_of_ne hnj with hy | hy
    · have dy := cell_lt_pos hw hab ay bY hy
      have Y := voxAxis_up (out := g.height) hw dy hy hje (by omega) ay bY
      simp only [not_lt_of_gt dx, dy, if_true, dx.ne, dy.ne', ne_eq, not_false_eq_true,
        not_true_eq_false, if_false, cdiv_ok dx.ne, cdiv_ok dy.ne']
      refine goodVoxels_of_axes hab X Y fuel (by omega) ?_
      intro _ k hk
      exact lt_of_le_of_lt (X.before k hk) (up_after_strict dy hy (by omega) bY.2)
    · have dy := cell_gt_neg hw hab ay bY hy
      have Y := voxAxis_down hw dy hy (by omega) ay bY
      simp only [not_lt_of_gt dx, not_lt_of_gt dy, dx.ne, dy.ne, ne_eq, not_false_eq_true,
        not_true_eq_false, if_false, cdiv_ok dx.ne, cdiv_ok dy.ne]
      refine goodVoxels_of_axes hab X Y fuel (by omega) ?_
      intro _ k hk
      exact lt_of_lt_of_le (down_before_strict hw dx hk bx.2) Y.after

theorem voxelClipped_spec {g : GridTraits K} {s : Seg K} {a b : K}
    (hw : 0 < g.cellWidth) (hdiv : g.cellWidthDivisor = 1 / g.cellWidth) (hab : a ≤ b)
    (hgx : g.width = ⌊(g.xmax - g.xmin) * (1 / g.cellWidth)⌋₊ + 1) (hgx' : g.width < 2 ^ 32)
    (hgy : g.height = ⌊(g.ymax - g.ymin) * (1 / g.cellWidth)⌋₊ + 1) (hgy' : g.height < 2 ^ 32)
    (ha : InBox ⟨⟨g.xmin, g.ymin⟩, ⟨g.xmax, g.ymax⟩⟩ (along s.s s.e a))
    (hb : InBox ⟨⟨g.xmin, g.ymin⟩, ⟨g.xmax, g.ymax⟩⟩ (along s.s s.e b))
    (fuel : Nat) (hf : g.width + g.height ≤ fuel) :
    ∃ cells i j iEnd jEnd,
      voxelClipped Cmp.direct (fun _ => true) fuel g s (along s.s s.e a) (along s.s s.e b) = .ok cells ∧
      GoodVoxels g s a b i j iEnd jEnd cells ∧
      InCell g.xmin g.cellWidth i (along s.s s.e a).x ∧
      InCell g.ymin g.cellWidth j (along s.s s.e a).y ∧
      InCell g.xmin g.cellWidth iEnd (along s.s s.e b).x ∧
      InCell g.ymin g.cellWidth jEnd (along s.s s.e b).y := by
  have key : ∀ {x0 x1 x : K} {n : Nat}, x0 ≤ x → x ≤ x1 →
      n = ⌊(x1 - x0) * (1 / g.cellWidth)⌋₊ + 1 → n < 2 ^ 32 →
      ∃ i, toU32 ((x - x0) * (1 / g.cellWidth)) = .ok i ∧ InCell x0 g.cellWidth i x ∧ i < n := by
    intro x0 x1 x n h0 h1 hn hlt
    have hpos : 0 < 1 / g.cellWidth := by positivity
    have hx1 : (x1 - x0) * (1 / g.cellWidth) < 2 ^ 32 := by
      have := Nat.lt_floor_add_one ((x1 - x0) * (1 / g.cellWidth))
      refine lt_trans this ?_
      have h2 : ⌊(x1 - x0) * (1 / g.cellWidth)⌋₊ + 1 < 2 ^ 32 := by omega
      exact_mod_cast h2
    obtain ⟨e1, e2⟩ := index_spec hw h0 h1 hx1
    exact ⟨_, e1, (floor_inCell hw h0 _).mp rfl, by omega⟩
  obtain ⟨i, e1, ax, li⟩ := key ha.1 ha.2.1 hgx hgx'
  obtain ⟨j, e2, ay, lj⟩ := key ha.2.2.1 ha.2.2.2 hgy hgy'
  obtain ⟨iEnd, e3, bx, lie⟩ := key hb.1 hb.2.1 hgx hgx'
  obtain ⟨jEnd, e4, bY, lje⟩ := key hb.2.2.1 hb.2.2.2 hgy hgy'
  suffices ∃ cells,
      voxelClipped Cmp.direct (fun _ => true) fuel g s (along s.s s.e a) (along s.s s.e b) = .ok cells ∧
      GoodVoxels g s a b i j iEnd jEnd cells by
    obtain ⟨cells, h1, h2⟩ := this
    exact ⟨cells, i, j, iEnd, jEnd, h1, h2, ax, ay, bx, bY⟩
  unfold voxelClipped
  simp only [GridTraits.scaledX, GridTraits.scaledY, hdiv, e1, e2, e3, e4, Bool.not_true,
    Bool.false_eq_true, if_false]
  have ax' := ax
  have ay' := ay
  have bx' := bx
  have bY' := bY
  rw [along_x] at ax' bx'
  rw [along_y] at ay' bY'
  by_cases hi : i = iEnd
  · subst hi
    rw [if_pos rfl]
    by_cases hj : j = jEnd
    · subst hj
      rw [if_pos rfl]
      refine ⟨_, rfl, rfl, by simp, ?_, fun _ => rfl⟩
      intro c hc
      simp only [List.mem_singleton] at hc
      subst hc
      exact ⟨a, le_rfl, hab, ax.1, ax.2.le, ay.1, ay.2.le⟩
    · rw [if_neg hj]
      obtain ⟨rest, r1, r2, r3, r4⟩ := voxelStrip_spec fuel j jEnd (by omega)
      rw [r1]
      refine ⟨_, rfl, rfl, ?_, ?_, ?_⟩
      · have : ((i, j) :: rest.map fun v => (i, v)) = (j :: rest).map fun v => (i, v) := rfl
        rw [this, List.isChain_map]
        exact r2.imp fun u v h => shareEdge_same_left h
      · intro c hc
        have : c ∈ (j :: rest).map fun v => (i, v) := hc
        obtain ⟨v, hv, rfl⟩ := List.mem_map.mp this
        have hv' : (j ≤ v ∧ v ≤ jEnd) ∨ (jEnd ≤ v ∧ v ≤ j) := by
          rcases List.mem_cons.mp hv with rfl | hv
          · omega
          · exact r3 v hv
        obtain ⟨t, t1, t2, t3, t4⟩ := strip_meets hw hab ay' bY' hv'
        have := slab_convex t1 t2 ax' bx'
        exact ⟨t, t1, t2, this.1, this.2, t3, t4⟩
      · intro _
        have : ((i, j) :: rest.map fun v => (i, v)) = (j :: rest).map fun v => (i, v) := rfl
        rw [this, List.getLast?_map, r4]; rfl
  · rw [if_neg hi]
    by_cases hj : j = jEnd
    · subst hj
      rw [if_pos rfl]
      obtain ⟨rest, r1, r2, r3, r4⟩ := voxelStrip_spec fuel i iEnd (by omega)
      rw [r1]
      refine ⟨_, rfl, rfl, ?_, ?_, ?_⟩
      · have : ((i, j) :: rest.map fun v => (v, j)) = (i :: rest).map fun v => (v, j) := rfl
        rw [this, List.isChain_map]
        exact r2.imp fun u v h => shareEdge_same_right h
      · intro c hc
        have : c ∈ (i :: rest).map fun v => (v, j) := hc
        obtain ⟨v, hv, rfl⟩ := List.mem_map.mp this
        have hv' : (i ≤ v ∧ v ≤ iEnd) ∨ (iEnd ≤ v ∧ v ≤ i) := by
          rcases List.mem_cons.mp hv with rfl | hv
          · omega
          · exact r3 v hv
        obtain ⟨t, t1, t2, t3, t4⟩ := strip_meets hw hab ax' bx' hv'
        have := slab_convex t1 t2 ay' bY'
        exact ⟨t, t1, t2, t3, t4, this.1, this.2⟩
      · intro _
        have : ((i, j) :: rest.map fun v => (v, j)) = (i :: rest).map fun v => (v, j) := rfl
        rw [this, List.getLast?_map, r4]; rfl
    · rw [if_neg hj]
      obtain ⟨rest, r1, r2⟩ := voxelSloped_spec hw hab hgx' hgy' li lj lie lje ax' bx' ay' bY' hi hj fuel hf
      rw [r1]
      exact ⟨_, rfl, r2⟩

theorem fastVoxel_spec {xmin xmax ymin ymax w : K} {g : GridTraits K}
    (h : makeGrid xmin xmax ymin ymax w = .ok g) (hx : xmax - xmin < (2 ^ 32 - 1) * w)
    (hy : ymax - ymin < (2 ^ 32 - 1) * w) (s : Seg K) (fuel : Nat) (hf : g.width + g.height ≤ fuel) :
    (fastVoxel Cmp.direct (fun _ => true) fuel g s = .ok [] ∧
      ∀ u, 0 ≤ u → u ≤ 1 → ¬ InBox ⟨⟨xmin, ymin⟩, ⟨xmax, ymax⟩⟩ (along s.s s.e u)) ∨
    ∃ cells a b i j iEnd jEnd, 0 ≤ a ∧ a ≤ b ∧ b ≤ 1 ∧
      InBox ⟨⟨xmin, ymin⟩, ⟨xmax, ymax⟩⟩ (along s.s s.e a) ∧
      InBox ⟨⟨xmin, ymin⟩, ⟨xmax, ymax⟩⟩ (along s.s s.e b) ∧
      (∀ u, 0 ≤ u → u ≤ 1 → InBox ⟨⟨xmin, ymin⟩, ⟨xmax, ymax⟩⟩ (along s.s s.e u) → a ≤ u ∧ u ≤ b) ∧
      fastVoxel Cmp.direct (fun _ => true) fuel g s = .ok cells ∧
      GoodVoxels g s a b i j iEnd jEnd cells ∧
      InCell xmin w i (along s.s s.e a).x ∧ InCell ymin w j (along s.s s.e a).y ∧
      InCell xmin w iEnd (along s.s s.e b).x ∧ InCell ymin w jEnd (along s.s s.e b).y := by
  obtain ⟨h1, h2, h3, h4, h5, rfl⟩ := makeGrid_ok h
  rw [← div_lt_iff₀ h1, ← mul_one_div] at hx hy
  have fx := floor_lt_of (mul_nonneg (by linarith) (by positivity)) hx
  have fy := floor_lt_of (mul_nonneg (by linarith) (by positivity)) hy
  have ex := addU32_of_lt fx
  have ey := addU32_of_lt fy
  have hvb : ValidBox (⟨⟨xmin, ymin⟩, ⟨xmax, ymax⟩⟩ : Box K) := ⟨h2.le, h3.le⟩
  rw [ex, ey] at hf ⊢
  have clip : ∀ a b, a ≤ b → InBox ⟨⟨xmin, ymin⟩, ⟨xmax, ymax⟩⟩ (along s.s s.e a) →
      InBox ⟨⟨xmin, ymin⟩, ⟨xmax, ymax⟩⟩ (along s.s s.e b) → _ := fun a b hab ha hb =>
    voxelClipped_spec (g := ⟨xmin, xmax, ymin, ymax, w, 1 / w, ⌊(xmax - xmin) * (1 / w)⌋₊ + 1,
      ⌊(ymax - ymin) * (1 / w)⌋₊ + 1⟩) (s := s) h1 rfl hab rfl fx rfl fy ha hb fuel hf
  unfold fastVoxel
  simp only
  split_ifs with hc
  · obtain ⟨acc, a, b, s0, st, t1, e, ha, hn⟩ := cohenSutherland_spec hvb s.s s.e
    rw [e]
    cases acc with
    | false => exact Or.inl ⟨rfl, hn rfl⟩
    | true =>
      obtain ⟨k1, k2, k3⟩ := ha rfl
      obtain ⟨cells, i, j, iEnd, jEnd, c1, c2, c3, c4, c5, c6⟩ := clip a b st k1 k2
      exact Or.inr ⟨cells, a, b, i, j, iEnd, jEnd, s0, st, t1, k1, k2, k3, c1, c2, c3, c4, c5, c6⟩
  · push Not at hc
    obtain ⟨c1, c2, c3, c4, c5, c6, c7, c8⟩ := hc
    have e0 : along s.s s.e 0 = s.s := by ext <;> simp [along_x, along_y]
    have e1 : along s.s s.e 1 = s.e := by ext <;> simp [along_x, along_y]
    have k1 : InBox ⟨⟨xmin, ymin⟩, ⟨xmax, ymax⟩⟩ (along s.s s.e 0) := by
      rw [e0]; exact ⟨c1, c2, c3, c4⟩
    have k2 : InBox ⟨⟨xmin, ymin⟩, ⟨xmax, ymax⟩⟩ (along s.s s.e 1) := by
      rw [e1]; exact ⟨c5, c6, c7, c8⟩
    obtain ⟨cells, i, j, iEnd, jEnd, d1, d2, d3, d4, d5, d6⟩ := clip 0 1 zero_le_one k1 k2
    rw [e0, e1] at d1
    exact Or.inr ⟨cells, 0, 1, i, j, iEnd, jEnd, le_rfl, zero_le_one, le_rfl, k1, k2,
      fun u u0 u1 _ => ⟨u0, u1⟩, d1, d2, d3, d4, d5, d6⟩

/-! ## The visitor that stops -/

theorem voxelStrip_stop (visit : Nat → Bool) (fuel j jEnd : Nat) {rest : List Nat}
    (h : voxelStrip (fun _ => true) fuel j jEnd = .ok rest) :
    voxelStrip visit fuel j jEnd = .ok (stopAfter visit rest) := by
  induction fuel generalizing j rest with
  | zero => simp [voxelStrip] at h
  | succ fuel ih =>
    unfold voxelStrip at h ⊢
    by_cases h1 : j ≠ jEnd
    · rw [if_pos h1] at h ⊢
      generalize (if j < jEnd then j + 1 else j - 1) = j' at h ⊢
      simp only [Bool.not_true, Bool.false_eq_true, if_false] at h
      cases hr : voxelStrip (fun _ => true) fuel j' jEnd with
      | error e => rw [hr] at h; simp at h
      | ok r =>
        rw [hr] at h
        cases h
        cases hv : visit j' <;> simp [stopAfter, hv, ih _ hr]
    · rw [if_neg h1] at h ⊢
      cases h; rfl

theorem voxelLoop_stop (visit : Nat × Nat → Bool) (stepI stepJ : Int) (outI outJ iEnd jEnd : Nat)
    (δx δy : K) (fuel i j : Nat) (tx ty : K) {rest : List (Nat × Nat)}
    (h : voxelLoop (fun _ => true) stepI stepJ outI outJ iEnd jEnd δx δy fuel i j tx ty = .ok rest) :
    voxelLoop visit stepI stepJ outI outJ iEnd jEnd δx δy fuel i j tx ty =
      .ok (stopAfter visit rest) := by
  induction fuel generalizing i j tx ty rest with
  | zero => simp [voxelLoop] at h
  | succ fuel ih =>
    unfold voxelLoop at h ⊢
    simp only [Bool.not_true, Bool.false_eq_true, if_false] at h
    by_cases h1 : tx < ty
    · rw [if_pos h1] at h ⊢
      generalize stepU32 i stepI = k at h ⊢
      simp only at h ⊢
      by_cases h2 : k = outI
      · rw [if_pos h2] at h ⊢
        cases h; rfl
      · rw [if_neg h2] at h ⊢
        split_ifs at h ⊢ with h3 h4
        · cases h; rfl
        · split at h
          · simp at h
          · cases h; simp only [Bool.not_eq_eq_eq_not, Bool.not_true] at h4; simp [stopAfter, h4]
        · split at h
          · simp at h
          · rename_i r hr
            cases h
            simp only [Bool.not_eq_eq_eq_not, Bool.not_true, Bool.not_eq_false] at h4
            simp [stopAfter, h4, ih _ _ _ _ hr]
    · rw [if_neg h1] at h ⊢
      generalize stepU32 j stepJ = k at h ⊢
      simp only at h ⊢
      by_cases h2 : k = outJ
      · rw [if_pos h2] at h ⊢
        cases h; rfl
      · rw [if_neg h2] at h ⊢
        split_ifs at h ⊢ with h3 h4
        · cases h; rfl
        · split at h
          · simp at h
          · cases h; simp only [Bool.not_eq_eq_eq_not, Bool.not_true] at h4; simp [stopAfter, h4]
        · split at h
          · simp at h
          · rename_i r hr
            cases h
            simp only [Bool.not_eq_eq_eq_not, Bool.not_true, Bool.not_eq_false] at h4
            simp [stopAfter, h4, ih _ _ _ _ hr]

theorem stopAfter_map {α β : Type*} (f : α → β) (visit : β → Bool) (l : List α) :
    stopAfter visit (l.map f) = (stopAfter (fun v => visit (f v)) l).map f := by
  induction l with
  | nil => rfl
  | cons c l ih =>
    simp only [List.map_cons, stopAfter, ih]
    split_ifs <;> rfl

theorem voxelClipped_stop (cmp : Cmp K) (visit : Nat × Nat → Bool) (fuel : Nat) (g : GridTraits K)
    (s : Seg K) (q0 q1 : P2 K) {cells : List (Nat × Nat)}
    (h : voxelClipped cmp (fun _ => true) fuel g s q0 q1 = .ok cells) :
    voxelClipped cmp visit fuel g s q0 q1 = .ok (stopAfter visit cells) := by
  unfold voxelClipped at h ⊢
  split at h
  · rename_i i j iEnd jEnd e1 e2 e3 e4
    simp only [Bool.not_true, Bool.false_eq_true, if_false] at h
    by_cases hv : visit (i, j) = true
    · simp only [hv, Bool.not_true, Bool.false_eq_true, if_false]
      split_ifs at h ⊢ with h1 h2 h3
      · cases h; simp [stopAfter]
      · split at h
        · simp at h
        · rename_i r hr
          cases h
          simp [voxelStrip_stop (fun v => visit (i, v)) _ _ _ hr, stopAfter, hv, stopAfter_map]
      · split at h
        · simp at h
        · rename_i r hr
          cases h
          simp [voxelStrip_stop (fun v => visit (v, j)) _ _ _ hr, stopAfter, hv, stopAfter_map]
      · split at h
        · simp at h
        · rename_i r hr
          cases h
          have : voxelSloped cmp visit fuel g s i j iEnd jEnd = .ok (stopAfter visit r) := by
            unfold voxelSloped at hr ⊢
            simp only at hr ⊢
            split_ifs at hr ⊢ <;>
            · cases c1 : cdiv 1 (s.e - s.s).x with
              | error e => rw [c1] at hr; simp at hr
              | ok rx =>
                cases c2 : cdiv 1 (s.e - s.s).y with
                | error e => rw [c1, c2] at hr; simp at hr
                | ok ry =>
                  rw [c1, c2] at hr
                  exact voxelLoop_stop _ _ _ _ _ _ _ _ _ _ _ _ _ _ hr
          simp [this, stopAfter, hv]
    · have hv' : visit (i, j) = false := by simpa using hv
      have hc : ∃ r, cells = (i, j) :: r := by
        split_ifs at h with h1 h2 h3
        · cases h; exact ⟨_, rfl⟩
        all_goals
          split at h
          · simp at h
          · cases h; exact ⟨_, rfl⟩
      obtain ⟨r, rfl⟩ := hc
      simp [hv', stopAfter]
  · simp at h

end Geometrix
