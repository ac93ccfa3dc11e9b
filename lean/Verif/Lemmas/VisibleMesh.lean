import Verif.Lemmas.VisibleCone

/-!
# Meshes seen from the origin
-/

set_option linter.unusedSectionVars false

namespace Geometrix
open Spec

/-- A point of the triangle of three indices. -/
def TriIn (q : Nat → P2 ℝ) (t : Nat × Nat × Nat) (X : P2 ℝ) : Prop :=
  0 ≤ area2 (q t.1) (q t.2.1) X ∧ 0 ≤ area2 (q t.2.1) (q t.2.2) X ∧ 0 ≤ area2 (q t.2.2) (q t.1) X

def IsIdx (t : Nat × Nat × Nat) (v : Nat) : Prop := t.1 = v ∨ t.2.1 = v ∨ t.2.2 = v

def Vert (ts : List (Nat × Nat × Nat)) (v : Nat) : Prop := ∃ t ∈ ts, IsIdx t v

def Rot (ts : List (Nat × Nat × Nat)) (n i j k : Nat) : Prop :=
  ts[n]? = some (i, j, k) ∨ ts[n]? = some (j, k, i) ∨ ts[n]? = some (k, i, j)

def MeshCov (q : Nat → P2 ℝ) (ts : List (Nat × Nat × Nat)) (X : P2 ℝ) : Prop := ∃ t ∈ ts, TriIn q t X

def SeenV (q : Nat → P2 ℝ) (ts : List (Nat × Nat × Nat)) (v : Nat) : Prop := ∀ s : ℝ, 0 ≤ s → s ≤ 1 → MeshCov q ts (s • q v)

def DirCov (q : Nat → P2 ℝ) (ts : List (Nat × Nat × Nat)) (B e : P2 ℝ) : Prop :=
  ∃ δ : ℝ, 0 < δ ∧ ∀ t, 0 ≤ t → t ≤ δ → MeshCov q ts (B + t • e)

structure VMesh (q : Nat → P2 ℝ) (ts : List (Nat × Nat × Nat)) : Prop where
  ccw : ∀ t ∈ ts, 0 < area2 (q t.1) (q t.2.1) (q t.2.2)
  once : SidesOnce ts
  conf : ∀ t ∈ ts, ∀ u ∈ ts, ∀ α β γ : ℝ, 0 ≤ α → 0 ≤ β → 0 ≤ γ → α + β + γ = 1 →
    TriIn q u (α • q t.1 + β • q t.2.1 + γ • q t.2.2) →
    (0 < α → IsIdx u t.1) ∧ (0 < β → IsIdx u t.2.1) ∧ (0 < γ → IsIdx u t.2.2)
  gen : ∀ v w, Vert ts v → Vert ts w → v ≠ w → cross (q v) (q w) ≠ 0
  border : ∀ v, Vert ts v → SeenV q ts v → ¬ ∀ e, DirCov q ts (q v) e
  len : ts.length < noTriangle

variable {q : Nat → P2 ℝ} {ts : List (Nat × Nat × Nat)}

theorem Rot.rotate {n i j k : Nat} (h : Rot ts n i j k) : Rot ts n j k i := by
  unfold Rot at *; tauto

theorem Rot.mem {n i j k : Nat} (h : Rot ts n i j k) : (i, j, k) ∈ ts ∨ (j, k, i) ∈ ts ∨ (k, i, j) ∈ ts := by
  rcases h with h | h | h
  · exact Or.inl (List.mem_of_getElem? h)
  · exact Or.inr (Or.inl (List.mem_of_getElem? h))
  · exact Or.inr (Or.inr (List.mem_of_getElem? h))

theorem Rot.vert {n i j k : Nat} (h : Rot ts n i j k) : Vert ts i := by
  unfold Vert IsIdx
  rcases h.mem with h | h | h
  · exact ⟨_, h, by simp⟩
  · exact ⟨_, h, by simp⟩
  · exact ⟨_, h, by simp⟩

theorem Rot.ccw (M : VMesh q ts) {n i j k : Nat} (h : Rot ts n i j k) : 0 < area2 (q i) (q j) (q k) := by
  rcases h.mem with h | h | h
  · exact M.ccw _ h
  · have := M.ccw _ h; rwa [area_rot]
  · have := M.ccw _ h; rwa [← area_rot]

theorem Rot.ne (M : VMesh q ts) {n i j k : Nat} (h : Rot ts n i j k) : i ≠ j := by
  rintro rfl
  have := h.ccw M
  simp [area2] at this

theorem Rot.cov {n i j k : Nat} (h : Rot ts n i j k) {X : P2 ℝ} (h1 : 0 ≤ area2 (q i) (q j) X)
    (h2 : 0 ≤ area2 (q j) (q k) X) (h3 : 0 ≤ area2 (q k) (q i) X) : MeshCov q ts X := by
  rcases h.mem with h | h | h
  · exact ⟨_, h, h1, h2, h3⟩
  · exact ⟨_, h, h2, h3, h1⟩
  · exact ⟨_, h, h3, h1, h2⟩

theorem Rot.get {n i j k : Nat} (h : Rot ts n i j k) : ∃ t, ts[n]? = some t ∧ t ∈ ts ∧
    (∀ v, IsIdx t v ↔ v = i ∨ v = j ∨ v = k) ∧
    (∀ X, TriIn q t X ↔ 0 ≤ area2 (q i) (q j) X ∧ 0 ≤ area2 (q j) (q k) X ∧ 0 ≤ area2 (q k) (q i) X) := by
  rcases h with h | h | h
  · exact ⟨_, h, List.mem_of_getElem? h, fun v => by unfold IsIdx; simp only [eq_comm], fun X => Iff.rfl⟩
  · exact ⟨_, h, List.mem_of_getElem? h, fun v => by unfold IsIdx; simp only [eq_comm]; tauto,
      fun X => by unfold TriIn; tauto⟩
  · exact ⟨_, h, List.mem_of_getElem? h, fun v => by unfold IsIdx; simp only [eq_comm]; tauto,
      fun X => by unfold TriIn; tauto⟩

/-- Every side of a triangle starts it. -/
theorem rot_of_side {n s u w : Nat} {t : Nat × Nat × Nat} (h : ts[n]? = some t) (hs : HasSide t s u w) :
    ∃ l, Rot ts n u w l := by
  obtain ⟨a, b, c⟩ := t
  rcases hs with ⟨rfl, rfl, rfl⟩ | ⟨rfl, rfl, rfl⟩ | ⟨rfl, rfl, rfl⟩
  · exact ⟨c, Or.inl h⟩
  · exact ⟨a, Or.inr (Or.inr h)⟩
  · exact ⟨b, Or.inr (Or.inl h)⟩

theorem side_of_rot {n u w l : Nat} (h : Rot ts n u w l) : ∃ t s, ts[n]? = some t ∧ s < 3 ∧ HasSide t s u w := by
  rcases h with h | h | h
  · exact ⟨_, 0, h, by omega, Or.inl ⟨rfl, rfl, rfl⟩⟩
  · exact ⟨_, 2, h, by omega, Or.inr (Or.inr ⟨rfl, rfl, rfl⟩)⟩
  · exact ⟨_, 1, h, by omega, Or.inr (Or.inl ⟨rfl, rfl, rfl⟩)⟩

/-- The sides of a triangle. -/
theorem rot_sides {n i j k s u w : Nat} (h : Rot ts n i j k) {t : Nat × Nat × Nat} (ht : ts[n]? = some t)
    (hs : HasSide t s u w) : (u = i ∧ w = j) ∨ (u = j ∧ w = k) ∨ (u = k ∧ w = i) := by
  rcases h with h | h | h <;> rw [h, Option.some.injEq] at ht <;> subst ht <;>
    rcases hs with ⟨rfl, rfl, rfl⟩ | ⟨rfl, rfl, rfl⟩ | ⟨rfl, rfl, rfl⟩ <;> simp

/-- Two triangles with the same side are one. -/
theorem rot_unique (M : VMesh q ts) {n n' u w l l' : Nat} (h : Rot ts n u w l) (h' : Rot ts n' u w l') : n = n' := by
  obtain ⟨t, s, h1, -, h2⟩ := side_of_rot h
  obtain ⟨t', s', h1', -, h2'⟩ := side_of_rot h'
  exact (M.once n n' s s' t t' u w h1 h1' h2 h2').1

/-- A vertex has only one number. -/
theorem rot_third (M : VMesh q ts) {n u w l l' : Nat} (h : Rot ts n u w l) (h' : Rot ts n u w l') : l = l' := by
  have h1 := h.ne M
  have h2 := h.rotate.ne M
  have h3 := h.rotate.rotate.ne M
  unfold Rot at h h'
  rcases h with h | h | h <;> rw [h] at h' <;> simp only [Option.some.injEq, Prod.mk.injEq] at h' <;> omega

theorem Rot.conf2 (M : VMesh q ts) {n i j k : Nat} (h : Rot ts n i j k) {u : Nat × Nat × Nat} (hu : u ∈ ts) {α β : ℝ}
    (hα : 0 < α) (hβ : 0 < β) (hs : α + β = 1) (hX : TriIn q u (α • q i + β • q j)) : IsIdx u i ∧ IsIdx u j := by
  rcases h.mem with h | h | h
  · have := M.conf _ h u hu α β 0 hα.le hβ.le le_rfl (by linarith) (by
      convert hX using 1; ext <;> simp)
    exact ⟨this.1 hα, this.2.1 hβ⟩
  · have := M.conf _ h u hu β 0 α hβ.le le_rfl hα.le (by linarith) (by
      convert hX using 1; ext <;> simp <;> ring)
    exact ⟨this.2.2 hα, this.1 hβ⟩
  · have := M.conf _ h u hu 0 α β le_rfl hα.le hβ.le (by linarith) (by
      convert hX using 1; ext <;> simp)
    exact ⟨this.2.1 hα, this.2.2 hβ⟩

theorem vert_conf (M : VMesh q ts) {v : Nat} (hv : Vert ts v) {u : Nat × Nat × Nat} (hu : u ∈ ts)
    (hX : TriIn q u (q v)) : IsIdx u v := by
  obtain ⟨t, ht, hi⟩ := hv
  rcases hi with rfl | rfl | rfl
  · exact (M.conf t ht u hu 1 0 0 zero_le_one le_rfl le_rfl (by norm_num) (by
      convert hX using 1; ext <;> simp)).1 one_pos
  · exact (M.conf t ht u hu 0 1 0 le_rfl zero_le_one le_rfl (by norm_num) (by
      convert hX using 1; ext <;> simp)).2.1 one_pos
  · exact (M.conf t ht u hu 0 0 1 le_rfl le_rfl zero_le_one (by norm_num) (by
      convert hX using 1; ext <;> simp)).2.2 one_pos

/-- Vectors of different vertices are not parallel; no vertex is at the origin. -/
theorem vert_ne_zero (M : VMesh q ts) {v w : Nat} (hv : Vert ts v) (hw : Vert ts w) (h : v ≠ w) : q v ≠ 0 := by
  intro h0
  apply M.gen v w hv hw h
  rw [h0]; simp [cross]

theorem vert_nz (M : VMesh q ts) {v : Nat} (hv : Vert ts v) : q v ≠ 0 := by
  have : ∃ w, Vert ts w ∧ v ≠ w := by
    obtain ⟨t, ht, hi⟩ := hv
    have hc := M.ccw t ht
    have h01 : t.1 ≠ t.2.1 := by
      intro h; rw [h] at hc; simp [area2] at hc
    by_cases h : v = t.1
    · exact ⟨t.2.1, ⟨t, ht, Or.inr (Or.inl rfl)⟩, by rw [h]; exact h01⟩
    · exact ⟨t.1, ⟨t, ht, Or.inl rfl⟩, h⟩
  obtain ⟨w, hw, hn⟩ := this
  exact vert_ne_zero M hv hw hn

theorem gen_pos (M : VMesh q ts) {v w : Nat} (hv : Vert ts v) (hw : Vert ts w) (h : v ≠ w) :
    cross (q v) (q w) < 0 ∨ 0 < cross (q v) (q w) := lt_or_gt_of_ne (M.gen v w hv hw h)

/-! ## Just beyond a point -/

/-- An affine function keeps its sign just after the start. -/
theorem affine_near (x y : ℝ) : ∃ δ : ℝ, 0 < δ ∧ ((∀ t, 0 < t → t ≤ δ → 0 ≤ x + t * y) ∨ ∀ t, 0 < t → t ≤ δ → x + t * y < 0) := by
  rcases lt_trichotomy x 0 with h | h | h
  · refine ⟨-x / (|y| + 1), div_pos (neg_pos.2 h) (by positivity), Or.inr fun t h1 h2 => ?_⟩
    have hy : 0 < |y| + 1 := by positivity
    rw [le_div_iff₀ hy] at h2
    have := le_abs_self y
    nlinarith [mul_nonneg h1.le (sub_nonneg.2 this)]
  · rcases lt_or_ge y 0 with h' | h'
    · exact ⟨1, one_pos, Or.inr fun t h1 _ => by rw [h]; nlinarith⟩
    · exact ⟨1, one_pos, Or.inl fun t h1 _ => by rw [h]; nlinarith⟩
  · refine ⟨x / (|y| + 1), div_pos h (by positivity), Or.inl fun t h1 h2 => ?_⟩
    have hy : 0 < |y| + 1 := by positivity
    rw [le_div_iff₀ hy] at h2
    have := neg_abs_le y
    nlinarith [mul_nonneg h1.le (sub_nonneg.2 this)]

theorem pos_near {x : ℝ} (hx : 0 < x) (y : ℝ) : ∃ δ : ℝ, 0 < δ ∧ ∀ t, 0 ≤ t → t ≤ δ → 0 < x + t * y := by
  refine ⟨x / (|y| + 1), div_pos hx (by positivity), fun t h1 h2 => ?_⟩
  have hy : 0 < |y| + 1 := by positivity
  rw [le_div_iff₀ hy] at h2
  have := neg_abs_le y
  rcases h1.eq_or_lt with h | h
  · rw [← h]; linarith
  · nlinarith [mul_nonneg h1 (sub_nonneg.2 this)]

theorem area_along (u w B e : P2 ℝ) (t : ℝ) : area2 u w (B + t • e) = area2 u w B + t * cross (w - u) e := by
  simp [area2, cross]; ring

/-- A triangle contains all points just after the start, or none. -/
theorem tri_near (q : Nat → P2 ℝ) (t : Nat × Nat × Nat) (B e : P2 ℝ) :
    ∃ δ : ℝ, 0 < δ ∧ ((∀ s, 0 < s → s ≤ δ → TriIn q t (B + s • e)) ∨ ∀ s, 0 < s → s ≤ δ → ¬ TriIn q t (B + s • e)) := by
  obtain ⟨δ1, h1, k1⟩ := affine_near (area2 (q t.1) (q t.2.1) B) (cross (q t.2.1 - q t.1) e)
  obtain ⟨δ2, h2, k2⟩ := affine_near (area2 (q t.2.1) (q t.2.2) B) (cross (q t.2.2 - q t.2.1) e)
  obtain ⟨δ3, h3, k3⟩ := affine_near (area2 (q t.2.2) (q t.1) B) (cross (q t.1 - q t.2.2) e)
  refine ⟨min δ1 (min δ2 δ3), by positivity, ?_⟩
  have l1 : ∀ s, s ≤ min δ1 (min δ2 δ3) → s ≤ δ1 := fun s hs => hs.trans (min_le_left _ _)
  have l2 : ∀ s, s ≤ min δ1 (min δ2 δ3) → s ≤ δ2 := fun s hs => hs.trans ((min_le_right _ _).trans (min_le_left _ _))
  have l3 : ∀ s, s ≤ min δ1 (min δ2 δ3) → s ≤ δ3 := fun s hs => hs.trans ((min_le_right _ _).trans (min_le_right _ _))
  unfold TriIn
  simp only [area_along]
  rcases k1 with k1 | k1
  · rcases k2 with k2 | k2
    · rcases k3 with k3 | k3
      · exact Or.inl fun s a b => ⟨k1 s a (l1 s b), k2 s a (l2 s b), k3 s a (l3 s b)⟩
      · exact Or.inr fun s a b h => absurd h.2.2 (not_le.2 (k3 s a (l3 s b)))
    · exact Or.inr fun s a b h => absurd h.2.1 (not_le.2 (k2 s a (l2 s b)))
  · exact Or.inr fun s a b h => absurd h.1 (not_le.2 (k1 s a (l1 s b)))

theorem tris_near (q : Nat → P2 ℝ) (l : List (Nat × Nat × Nat)) (B e : P2 ℝ) :
    ∃ δ : ℝ, 0 < δ ∧ ∀ t ∈ l, (∀ s, 0 < s → s ≤ δ → TriIn q t (B + s • e)) ∨ ∀ s, 0 < s → s ≤ δ → ¬ TriIn q t (B + s • e) := by
  induction l with
  | nil => exact ⟨1, one_pos, fun t ht => absurd ht List.not_mem_nil⟩
  | cons a l ih =>
    obtain ⟨δ, h, k⟩ := ih
    obtain ⟨δ', h', k'⟩ := tri_near q a B e
    refine ⟨min δ δ', by positivity, fun t ht => ?_⟩
    rcases List.mem_cons.1 ht with rfl | ht
    · rcases k' with k' | k'
      · exact Or.inl fun s a b => k' s a (b.trans (min_le_right _ _))
      · exact Or.inr fun s a b => k' s a (b.trans (min_le_right _ _))
    · rcases k t ht with k | k
      · exact Or.inl fun s a b => k s a (b.trans (min_le_left _ _))
      · exact Or.inr fun s a b => k s a (b.trans (min_le_left _ _))

/-- If all points just after the start are covered, one triangle covers them, and the start. -/
theorem cov_near {B e : P2 ℝ} {ε : ℝ} (hε : 0 < ε) (h : ∀ s, 0 < s → s ≤ ε → MeshCov q ts (B + s • e)) :
    ∃ t ∈ ts, TriIn q t B ∧ ∃ δ : ℝ, 0 < δ ∧ ∀ s, 0 < s → s ≤ δ → TriIn q t (B + s • e) := by
  obtain ⟨δ, hδ, k⟩ := tris_near q ts B e
  obtain ⟨t, ht, hc⟩ := h (min ε δ) (by positivity) (min_le_left _ _)
  have hin : ∀ s, 0 < s → s ≤ δ → TriIn q t (B + s • e) := by
    rcases k t ht with k | k
    · exact k
    · exact absurd hc (k _ (by positivity) (min_le_right _ _))
  refine ⟨t, ht, ?_, δ, hδ, hin⟩
  have key : ∀ x y : ℝ, (∀ s, 0 < s → s ≤ δ → 0 ≤ x + s * y) → 0 ≤ x := by
    intro x y hxy
    by_contra hx
    obtain ⟨δ', h', k'⟩ := pos_near (neg_pos.2 (not_le.1 hx)) (-y)
    have h1 := hxy (min δ δ') (by positivity) (min_le_left _ _)
    have h2 := k' (min δ δ') (by positivity) (min_le_right _ _)
    linarith
  unfold TriIn at hin ⊢
  simp only [area_along] at hin
  exact ⟨key _ _ fun s a b => (hin s a b).1, key _ _ fun s a b => (hin s a b).2.1, key _ _ fun s a b => (hin s a b).2.2⟩

/-- The triangle beyond the side through which a seen vertex is seen. -/
theorem exit_side (M : VMesh q ts) {n u w k v : Nat} (hr : Rot ts n u w k) (hs : SeenV q ts v)
    (hD : 0 < cross (q u) (q w)) (h1 : 0 < cross (q u) (q v)) (h2 : 0 < cross (q v) (q w))
    (h3 : area2 (q u) (q w) (q v) < 0) : ∃ n' l, Rot ts n' w u l := by
  -- the point of the side
  set α := cross (q v) (q w) with hα
  set β := cross (q u) (q v) with hβ
  have hsum : cross (q u) (q w) < α + β := by
    rw [area_cross] at h3
    have := cross_anti (q w) (q v)
    have := cross_anti (q v) (q u)
    linarith
  have hpos : 0 < α + β := by positivity
  set s := cross (q u) (q w) / (α + β) with hsdef
  have hs0 : 0 < s := div_pos hD hpos
  have hs1 : s < 1 := (div_lt_one hpos).2 hsum
  have hZ : s • q v = (α / (α + β)) • q u + (β / (α + β)) • q w := by
    rw [hsdef]
    ext
    · simp only [P2.smul_x, P2.add_x, div_mul_eq_mul_div]
      rw [← add_div]
      congr 1
      simp only [hα, hβ, cross]; ring
    · simp only [P2.smul_y, P2.add_y, div_mul_eq_mul_div]
      rw [← add_div]
      congr 1
      simp only [hα, hβ, cross]; ring
  obtain ⟨t, ht, hB, δ, hδ, hin⟩ := cov_near (q := q) (ts := ts) (B := s • q v) (e := q v) (ε := 1 - s) (by linarith)
    (fun r h1 h2 => by
      have := hs (s + r) (by linarith) (by linarith)
      convert this using 1
      ext <;> simp <;> ring)
  obtain ⟨hu, hw⟩ := hr.conf2 M ht (α := α / (α + β)) (β := β / (α + β)) (by positivity) (by positivity)
    (by rw [← add_div, div_self hpos.ne']) (by rw [← hZ]; exact hB)
  have hout : area2 (q u) (q w) (s • q v + δ • q v) < 0 := by
    have e1 : area2 (q u) (q w) (s • q v + δ • q v) =
        cross (q u) (q w) - (s + δ) * (α + β) := by
      simp only [area2, hα, hβ, cross, P2.add_x, P2.add_y, P2.smul_x, P2.smul_y]; ring
    have e2 : s * (α + β) = cross (q u) (q w) := div_mul_cancel₀ _ hpos.ne'
    rw [e1]
    nlinarith [mul_pos hδ hpos]
  have hδin := hin δ hδ le_rfl
  have huw := hr.ne M
  obtain ⟨n', hn'⟩ := List.mem_iff_getElem?.1 ht
  obtain ⟨a, b, c⟩ := t
  unfold IsIdx at hu hw
  simp only at hu hw
  unfold TriIn at hδin
  simp only at hδin
  rcases hu with rfl | rfl | rfl <;> rcases hw with rfl | rfl | rfl
  · exact absurd rfl huw
  · exact absurd hδin.1 (not_le.2 hout)
  · exact ⟨n', b, Or.inr (Or.inl hn')⟩
  · exact ⟨n', c, Or.inl hn'⟩
  · exact absurd rfl huw
  · exact absurd hδin.2.1 (not_le.2 hout)
  · exact absurd hδin.2.2 (not_le.2 hout)
  · exact ⟨n', a, Or.inr (Or.inr hn')⟩
  · exact absurd rfl huw

end Geometrix
