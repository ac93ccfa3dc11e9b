import Verif.Lemmas.Mesh
import Verif.Lemmas.Grid
import Verif.Lemmas.Policy
import Verif.Lemmas.TriangleBox
import Verif.Props.TriangleBox
import Verif.Props.GridMap
import Verif.Props.Box

/-!
# Lemmas about the grid of triangles of a mesh
-/

set_option linter.unusedSectionVars false

namespace Geometrix
open Spec

theorem absolute_zero : (Cmp.absolute 0 : Cmp ℝ) = Cmp.direct := by
  unfold Cmp.absolute Cmp.direct
  congr 1 <;> funext u v <;>
    simp only [neg_zero, absoluteValue_eq, decide_eq_decide, sub_neg, sub_nonpos, gt_iff_lt, ge_iff_le, sub_pos,
      sub_nonneg, abs_nonpos_iff, sub_eq_zero]

/-! ## The sets of the cells -/

theorem mem_flatInsert (n k : Nat) : ∀ l : List Nat, k ∈ flatInsert n l ↔ k = n ∨ k ∈ l
  | [] => by simp [flatInsert]
  | m :: l => by
    unfold flatInsert
    split_ifs with h1 h2
    · simp
    · subst h2; simp
    · simp only [List.mem_cons, mem_flatInsert n k l]; tauto

theorem flatInsert_sorted (n : Nat) : ∀ {l : List Nat}, l.Pairwise (· < ·) → (flatInsert n l).Pairwise (· < ·)
  | [], _ => by simp [flatInsert]
  | m :: l, h => by
    obtain ⟨h1, h2⟩ := List.pairwise_cons.1 h
    unfold flatInsert
    split_ifs with k1 k2
    · refine List.pairwise_cons.2 ⟨fun a ha => ?_, h⟩
      rcases List.mem_cons.1 ha with rfl | ha
      · exact k1
      · exact k1.trans (h1 a ha)
    · exact h
    · refine List.pairwise_cons.2 ⟨fun a ha => ?_, flatInsert_sorted n h2⟩
      rcases (mem_flatInsert n a l).1 ha with rfl | ha
      · omega
      · exact h1 a ha

/-- The set in a cell. -/
def content (m : Grid2d (List Nat)) (a b : Nat) : List Nat :=
  match m.get a b with
  | .ok s => s
  | .error _ => []

/-- The test of a triangle and a cell is true. -/
def Hit (g : GridTraits ℝ) (t : MeshTri ℝ) (a b : Nat) : Prop :=
  triangleBox (Cmp.absolute (1 / 10 ^ 10)) t.a t.b t.c ⟨g.cellCorner0 a b, g.cellCorner2 a b⟩ = .ok true

/-- The vertices are different points. -/
def ThreeVertices (t : MeshTri ℝ) : Prop := t.a ≠ t.b ∧ t.b ≠ t.c ∧ t.c ≠ t.a

/-- A grid of `w` by `h` cells whose sets are ascending. -/
structure GoodGrid (w h : Nat) (m : Grid2d (List Nat)) : Prop where
  width : m.width = w
  height : m.height = h
  data : m.data.length = m.width * m.height
  get : ∀ a < w, ∀ b < h, m.get a b = .ok (content m a b)
  sorted : ∀ a < w, ∀ b < h, (content m a b).Pairwise (· < ·)

theorem goodGrid_new (g : GridTraits ℝ) : GoodGrid g.width g.height (makeGrid2d [] g) ∧
    ∀ a < g.width, ∀ b < g.height, content (makeGrid2d [] g) a b = [] := by
  have h : ∀ a < g.width, ∀ b < g.height, content (makeGrid2d [] g) a b = [] := by
    intro a ha b hb
    unfold content
    rw [C34_new_grid [] g a b ha hb]
  refine ⟨⟨rfl, rfl, by simp [makeGrid2d], fun a ha b hb => ?_, fun a ha b hb => ?_⟩, h⟩
  · rw [h a ha b hb, C34_new_grid [] g a b ha hb]
  · rw [h a ha b hb]; exact List.Pairwise.nil

/-- The change of a grid by which `n` goes to the cells with `P`. -/
def Adds (w h n : Nat) (P : Nat → Nat → Prop) (m m' : Grid2d (List Nat)) : Prop :=
  GoodGrid w h m' ∧ ∀ a < w, ∀ b < h, ∀ k, k ∈ content m' a b ↔ k ∈ content m a b ∨ (k = n ∧ P a b)

theorem set_adds {w h n : Nat} {m : Grid2d (List Nat)} (hm : GoodGrid w h m) {i j : Nat} (hi : i < w) (hj : j < h) :
    ∃ m', m.set i j (flatInsert n (content m i j)) = .ok m' ∧ Adds w h n (fun a b => a = i ∧ b = j) m m' := by
  obtain ⟨m', h1, h2, h3, h4, h5, h6⟩ := C34_grid_store m hm.data i j (flatInsert n (content m i j))
    (by rw [hm.width]; exact hi) (by rw [hm.height]; exact hj)
  have hc : ∀ a b, content m' a b = if a = i ∧ b = j then flatInsert n (content m i j) else content m a b := by
    intro a b
    split_ifs with hab
    · obtain ⟨rfl, rfl⟩ := hab
      conv_lhs => unfold content
      rw [h5]
    · unfold content
      rw [h6 a b (fun e => hab (by simpa using e))]
  refine ⟨m', h1, ⟨h2.trans hm.width, h3.trans hm.height, h4, fun a ha b hb => ?_, fun a ha b hb => ?_⟩,
    fun a ha b hb k => ?_⟩
  · rw [hc]
    split_ifs with hab
    · obtain ⟨rfl, rfl⟩ := hab; exact h5
    · rw [h6 a b (fun e => hab (by simpa using e))]; exact hm.get a ha b hb
  · rw [hc]
    split_ifs with hab
    · exact flatInsert_sorted n (hm.sorted i hi j hj)
    · exact hm.sorted a ha b hb
  · rw [hc]
    split_ifs with hab
    · rw [mem_flatInsert]
      obtain ⟨rfl, rfl⟩ := hab
      tauto
    · tauto

theorem cellCorners {g : GridTraits ℝ} (hw : g.cellWidth = 1) {a b : Nat} (ha : a + 1 < 2 ^ 32) (hb : b + 1 < 2 ^ 32) :
    (⟨g.cellCorner0 a b, g.cellCorner2 a b⟩ : Box ℝ) = ⟨⟨g.xmin + a, g.ymin + b⟩, ⟨g.xmin + a + 1, g.ymin + b + 1⟩⟩ := by
  unfold GridTraits.cellCorner0 GridTraits.cellCorner2
  rw [addU32_of_lt ha, addU32_of_lt hb, hw]
  push_cast
  congr 2 <;> ring

theorem hit_total {g : GridTraits ℝ} (hw : g.cellWidth = 1) {a b : Nat} (ha : a + 1 < 2 ^ 32) (hb : b + 1 < 2 ^ 32)
    {t : MeshTri ℝ} (ht : ThreeVertices t) :
    (∃ r, triangleBox (Cmp.absolute (1 / 10 ^ 10)) t.a t.b t.c ⟨g.cellCorner0 a b, g.cellCorner2 a b⟩ = .ok r) ∧
    ∀ X, InMeshTri t X → g.xmin + a ≤ X.x → X.x ≤ g.xmin + a + 1 → g.ymin + b ≤ X.y → X.y ≤ g.ymin + b + 1 →
      Hit g t a b := by
  unfold Hit
  rw [cellCorners hw ha hb]
  obtain ⟨h1, h2, h3⟩ := ht
  obtain ⟨k1, k2, _⟩ := C89_tolerance (e := 1 / 10 ^ 10) (by positivity) h1 h2 h3
    (b := ⟨⟨g.xmin + a, g.ymin + b⟩, ⟨g.xmin + a + 1, g.ymin + b + 1⟩⟩) ⟨by dsimp only; linarith, by dsimp only; linarith⟩
  exact ⟨k1, fun X hX e1 e2 e3 e4 => k2 ⟨X, hX, e1, e2, e3, e4⟩⟩

theorem cacheCell_adds {g : GridTraits ℝ} (hw : g.cellWidth = 1) {w h n : Nat} (hw' : w < 2 ^ 32) (hh : h < 2 ^ 32)
    {t : MeshTri ℝ} (ht : ThreeVertices t) {m : Grid2d (List Nat)} (hm : GoodGrid w h m) {i j : Nat} (hi : i < w)
    (hj : j < h) :
    ∃ m', cacheCell g n t m i j = .ok m' ∧ Adds w h n (fun a b => (a = i ∧ b = j) ∧ Hit g t a b) m m' := by
  obtain ⟨⟨r, hr⟩, _⟩ := hit_total hw (a := i) (b := j) (by omega) (by omega) ht
  unfold cacheCell
  rw [hr]
  cases r with
  | false =>
    refine ⟨m, rfl, hm, fun a ha b hb k => ?_⟩
    constructor
    · exact Or.inl
    · rintro (h | ⟨_, ⟨rfl, rfl⟩, h⟩)
      · exact h
      · unfold Hit at h; rw [hr] at h; simp at h
  | true =>
    dsimp only
    rw [hm.get i hi j hj]
    dsimp only
    obtain ⟨m', h1, h2, h3⟩ := set_adds (n := n) hm hi hj
    refine ⟨m', h1, h2, fun a ha b hb k => ?_⟩
    rw [h3 a ha b hb]
    constructor
    · rintro (h | ⟨rfl, rfl, rfl⟩)
      · exact Or.inl h
      · exact Or.inr ⟨rfl, ⟨rfl, rfl⟩, hr⟩
    · rintro (h | ⟨rfl, ⟨rfl, rfl⟩, _⟩)
      · exact Or.inl h
      · exact Or.inr ⟨rfl, rfl, rfl⟩

theorem cacheFold_adds {g : GridTraits ℝ} (hw : g.cellWidth = 1) {w h n : Nat} (hw' : w < 2 ^ 32) (hh : h < 2 ^ 32)
    {t : MeshTri ℝ} (ht : ThreeVertices t) : ∀ {l : List (Nat × Nat)} {m : Grid2d (List Nat)}, GoodGrid w h m →
    (∀ c ∈ l, c.1 < w ∧ c.2 < h) →
    ∃ m', foldRes (fun m c => cacheCell g n t m c.1 c.2) m l = .ok m' ∧
      Adds w h n (fun a b => (a, b) ∈ l ∧ Hit g t a b) m m'
  | [], m, hm, _ => ⟨m, rfl, hm, fun a ha b hb k => by simp⟩
  | c :: l, m, hm, hl => by
    obtain ⟨c1, c2⟩ := hl c List.mem_cons_self
    obtain ⟨m1, h1, h2, h3⟩ := cacheCell_adds hw hw' hh (n := n) ht hm c1 c2
    obtain ⟨m2, k1, k2, k3⟩ := cacheFold_adds hw hw' hh (n := n) ht (l := l) h2
      (fun d hd => hl d (List.mem_cons_of_mem _ hd))
    refine ⟨m2, ?_, k2, fun a ha b hb k => ?_⟩
    · unfold foldRes; rw [h1]; exact k1
    · rw [k3 a ha b hb, h3 a ha b hb]
      have : (a, b) = c ↔ a = c.1 ∧ b = c.2 := by obtain ⟨x, y⟩ := c; simp
      simp only [List.mem_cons, this]
      tauto

theorem mem_cellPairs {i0 i1 j0 j1 a b : Nat} : (a, b) ∈ cellPairs i0 i1 j0 j1 ↔
    i0 ≤ a ∧ a ≤ i1 ∧ j0 ≤ b ∧ b ≤ j1 := by
  unfold cellPairs
  simp only [List.mem_flatMap, List.mem_map, List.mem_range', Prod.mk.injEq]
  constructor
  · rintro ⟨x, ⟨u, hu, rfl⟩, y, ⟨v, hv, rfl⟩, rfl, rfl⟩; omega
  · rintro ⟨h1, h2, h3, h4⟩
    exact ⟨a, ⟨a - i0, by omega, by omega⟩, b, ⟨b - j0, by omega, by omega⟩, rfl, rfl⟩

/-! ## The triangles -/

/-- A grid with cells of width 1 whose numbers of cells are right. -/
structure UnitGrid (g : GridTraits ℝ) : Prop where
  cell : g.cellWidth = 1
  divisor : g.cellWidthDivisor = 1
  x : g.xmin ≤ g.xmax
  y : g.ymin ≤ g.ymax
  nx : g.numberXCells = ⌊g.xmax - g.xmin⌋₊ + 1
  ny : g.numberYCells = ⌊g.ymax - g.ymin⌋₊ + 1
  smallX : g.numberXCells < 2 ^ 32
  smallY : g.numberYCells < 2 ^ 32

theorem floor_bound {v : ℝ} {n : Nat} (hv : 0 ≤ v) (h : ⌊v⌋₊ + 1 ≤ n) : v < n := by
  have := Nat.lt_floor_add_one v
  have h2 : ((⌊v⌋₊ + 1 : Nat) : ℝ) ≤ n := by exact_mod_cast h
  push_cast at h2
  linarith

theorem xIndex_unit {g : GridTraits ℝ} (hg : UnitGrid g) {x : ℝ} (h0 : g.xmin ≤ x) (h1 : x ≤ g.xmax) :
    g.xIndex x = .ok ⌊x - g.xmin⌋₊ ∧ ⌊x - g.xmin⌋₊ < g.numberXCells := by
  have hm : ⌊x - g.xmin⌋₊ ≤ ⌊g.xmax - g.xmin⌋₊ := Nat.floor_mono (by linarith)
  have hn := hg.nx
  refine ⟨?_, by omega⟩
  unfold GridTraits.xIndex
  rw [if_neg (by simp [h0, h1]), hg.divisor, mul_one, toU32_eq (by linarith)]
  have := floor_bound (v := x - g.xmin) (n := 2 ^ 32) (by linarith) (by have := hg.smallX; omega)
  norm_num at this ⊢
  exact this

theorem yIndex_unit {g : GridTraits ℝ} (hg : UnitGrid g) {y : ℝ} (h0 : g.ymin ≤ y) (h1 : y ≤ g.ymax) :
    g.yIndex y = .ok ⌊y - g.ymin⌋₊ ∧ ⌊y - g.ymin⌋₊ < g.numberYCells := by
  have hm : ⌊y - g.ymin⌋₊ ≤ ⌊g.ymax - g.ymin⌋₊ := Nat.floor_mono (by linarith)
  have hn := hg.ny
  refine ⟨?_, by omega⟩
  unfold GridTraits.yIndex
  rw [if_neg (by simp [h0, h1]), hg.divisor, mul_one, toU32_eq (by linarith)]
  have := floor_bound (v := y - g.ymin) (n := 2 ^ 32) (by linarith) (by have := hg.smallY; omega)
  norm_num at this ⊢
  exact this

/-- The box of the grid. -/
def gridBox (g : GridTraits ℝ) : Box ℝ := ⟨⟨g.xmin, g.ymin⟩, ⟨g.xmax, g.ymax⟩⟩

/-- The cells of the box of a triangle. -/
def NearCells (g : GridTraits ℝ) (t : MeshTri ℝ) (a b : Nat) : Prop :=
  ∃ bt, getBounds Cmp.direct [t.a, t.b, t.c] = some bt ∧ ⌊bt.lo.x - g.xmin⌋₊ ≤ a ∧ a ≤ ⌊bt.hi.x - g.xmin⌋₊ ∧
    ⌊bt.lo.y - g.ymin⌋₊ ≤ b ∧ b ≤ ⌊bt.hi.y - g.ymin⌋₊

theorem cacheTriangle_adds {g : GridTraits ℝ} (hg : UnitGrid g) {t : MeshTri ℝ} (ht : ThreeVertices t)
    (hb : ∀ v ∈ [t.a, t.b, t.c], InBox (gridBox g) v) {n : Nat} {m : Grid2d (List Nat)}
    (hm : GoodGrid g.width g.height m) :
    ∃ m', cacheTriangle g m n t = .ok m' ∧ Adds g.width g.height n (fun a b => NearCells g t a b ∧ Hit g t a b) m m' := by
  obtain ⟨bt, h1, hv, h2, h3⟩ := C14_bounds [t.a, t.b, t.c] (by simp)
  have c1 := h3 (gridBox g) hb bt.lo ⟨le_refl _, hv.1, le_refl _, hv.2⟩
  have c2 := h3 (gridBox g) hb bt.hi ⟨hv.1, le_refl _, hv.2, le_refl _⟩
  obtain ⟨i0, i0'⟩ := xIndex_unit hg c1.1 c1.2.1
  obtain ⟨i1, i1'⟩ := xIndex_unit hg c2.1 c2.2.1
  obtain ⟨j0, j0'⟩ := yIndex_unit hg c1.2.2.1 c1.2.2.2
  obtain ⟨j1, j1'⟩ := yIndex_unit hg c2.2.2.1 c2.2.2.2
  have hsx := hg.smallX
  have hsy := hg.smallY
  unfold cacheTriangle
  rw [absolute_zero, h1]
  dsimp only
  rw [i0, i1, j0, j1]
  dsimp only
  unfold cacheRange
  rw [if_neg (by omega)]
  obtain ⟨m', k1, k2, k3⟩ := cacheFold_adds hg.cell (w := g.width) (h := g.height) (n := n) hsx hsy ht hm
    (l := cellPairs ⌊bt.lo.x - g.xmin⌋₊ ⌊bt.hi.x - g.xmin⌋₊ ⌊bt.lo.y - g.ymin⌋₊ ⌊bt.hi.y - g.ymin⌋₊) (by
      rintro ⟨a, b⟩ hc
      rw [mem_cellPairs] at hc
      show a < g.numberXCells ∧ b < g.numberYCells
      omega)
  refine ⟨m', k1, k2, fun a ha b hb k => ?_⟩
  rw [k3 a ha b hb]
  dsimp only
  rw [mem_cellPairs]
  have hN : NearCells g t a b ↔ (⌊bt.lo.x - g.xmin⌋₊ ≤ a ∧ a ≤ ⌊bt.hi.x - g.xmin⌋₊ ∧
      ⌊bt.lo.y - g.ymin⌋₊ ≤ b ∧ b ≤ ⌊bt.hi.y - g.ymin⌋₊) := by
    constructor
    · rintro ⟨bt', e, h⟩
      rw [h1] at e
      obtain rfl := Option.some.inj e
      exact h
    · exact fun h => ⟨bt, h1, h⟩
  rw [hN]

theorem cacheTriangles_adds {g : GridTraits ℝ} (hg : UnitGrid g) : ∀ {l : List (MeshTri ℝ × Nat)} {m : Grid2d (List Nat)},
    (∀ e ∈ l, ThreeVertices e.1 ∧ ∀ v ∈ [e.1.a, e.1.b, e.1.c], InBox (gridBox g) v) → GoodGrid g.width g.height m →
    ∃ m', foldRes (fun m t => cacheTriangle g m t.2 t.1) m l = .ok m' ∧ GoodGrid g.width g.height m' ∧
      ∀ a < g.width, ∀ b < g.height, ∀ k, k ∈ content m' a b ↔
        k ∈ content m a b ∨ ∃ t, (t, k) ∈ l ∧ NearCells g t a b ∧ Hit g t a b
  | [], m, _, hm => ⟨m, rfl, hm, fun a ha b hb k => by simp⟩
  | e :: l, m, hl, hm => by
    obtain ⟨e1, e2⟩ := hl e List.mem_cons_self
    obtain ⟨m1, h1, h2, h3⟩ := cacheTriangle_adds hg e1 e2 (n := e.2) hm
    obtain ⟨m2, k1, k2, k3⟩ := cacheTriangles_adds hg (l := l) (fun d hd => hl d (List.mem_cons_of_mem _ hd)) h2
    refine ⟨m2, ?_, k2, fun a ha b hb k => ?_⟩
    · unfold foldRes; rw [h1]; exact k1
    · rw [k3 a ha b hb, h3 a ha b hb]
      constructor
      · rintro ((h | ⟨rfl, h⟩) | ⟨t, ht, h⟩)
        · exact Or.inl h
        · exact Or.inr ⟨e.1, List.mem_cons_self, h⟩
        · exact Or.inr ⟨t, List.mem_cons_of_mem _ ht, h⟩
      · rintro (h | ⟨t, ht, h⟩)
        · exact Or.inl (Or.inl h)
        · rcases List.mem_cons.1 ht with rfl | ht
          · exact Or.inl (Or.inr ⟨rfl, h⟩)
          · exact Or.inr ⟨t, ht, h⟩

/-! ## The bounds -/

theorem normalize2_unit {v : P2 ℝ} (h : v ≠ 0) : ∃ k : ℝ, 0 < k ∧ normalize2 v = .ok (k • v) ∧ normSq (k • v) = 1 := by
  have hn := normSq_nonneg v
  have h0 : Real.sqrt (normSq v) ≠ 0 := fun h0 => h (normSq_eq_zero.1 ((Real.sqrt_eq_zero hn).1 h0))
  have hs := Real.sq_sqrt hn
  refine ⟨1 / Real.sqrt (normSq v), ?_, ?_, ?_⟩
  · have := Real.sqrt_nonneg (normSq v)
    positivity
  · unfold normalize2; rw [if_neg h0]
  · have : normSq ((1 / Real.sqrt (normSq v)) • v) = (1 / Real.sqrt (normSq v)) ^ 2 * normSq v := by
      simp only [normSq, dot, P2.smul_x, P2.smul_y]; ring
    rw [this, div_pow, one_pow, hs]
    exact one_div_mul_cancel (fun h => h0 (by rw [h, Real.sqrt_zero]))

theorem unit_le {v : P2 ℝ} (h : normSq v = 1) : |v.x| ≤ 1 ∧ |v.y| ≤ 1 := by
  simp only [normSq, dot] at h
  constructor <;> rw [abs_le] <;> constructor <;> nlinarith [mul_self_nonneg v.x, mul_self_nonneg v.y]

theorem cacheBounds_ok {b : Box ℝ} (hx : b.lo.x < b.hi.x) (hy : b.lo.y < b.hi.y) : ∃ c, cacheBounds b = .ok c ∧
    c.lo.x < b.lo.x ∧ c.lo.y < b.lo.y ∧ b.hi.x < c.hi.x ∧ b.hi.y < c.hi.y ∧
    c.hi.x - c.lo.x < b.hi.x - b.lo.x + 4 ∧ c.hi.y - c.lo.y < b.hi.y - b.lo.y + 4 := by
  have s0 : (0 : ℝ) < Real.sqrt 2 := by positivity
  have s2 : Real.sqrt 2 < 2 := by
    rw [Real.sqrt_lt' (by norm_num)]; norm_num
  obtain ⟨k, hk, e1, u1⟩ := normalize2_unit (v := b.lo - b.hi) (fun h => by
    have := congrArg P2.x h; simp at this; linarith)
  obtain ⟨l1, l2⟩ := unit_le u1
  have lx : (b.lo + Real.sqrt 2 • k • (b.lo - b.hi)).x < b.lo.x := by
    simp only [P2.add_x, P2.smul_x, P2.sub_x]
    have : Real.sqrt 2 * (k * (b.lo.x - b.hi.x)) < 0 := mul_neg_of_pos_of_neg s0 (mul_neg_of_pos_of_neg hk (by linarith))
    linarith
  have ly : (b.lo + Real.sqrt 2 • k • (b.lo - b.hi)).y < b.lo.y := by
    simp only [P2.add_y, P2.smul_y, P2.sub_y]
    have : Real.sqrt 2 * (k * (b.lo.y - b.hi.y)) < 0 := mul_neg_of_pos_of_neg s0 (mul_neg_of_pos_of_neg hk (by linarith))
    linarith
  have lx' : b.lo.x - 2 < (b.lo + Real.sqrt 2 • k • (b.lo - b.hi)).x := by
    rw [P2.add_x, P2.smul_x]; nlinarith [(abs_le.1 l1).1]
  have ly' : b.lo.y - 2 < (b.lo + Real.sqrt 2 • k • (b.lo - b.hi)).y := by
    rw [P2.add_y, P2.smul_y]; nlinarith [(abs_le.1 l2).1]
  unfold cacheBounds
  rw [e1]
  dsimp only
  generalize b.lo + Real.sqrt 2 • k • (b.lo - b.hi) = lo at lx ly lx' ly' ⊢
  obtain ⟨j, hj, e2, u2⟩ := normalize2_unit (v := b.hi - lo) (fun h => by
    have := congrArg P2.x h; simp at this; linarith)
  obtain ⟨m1, m2⟩ := unit_le u2
  rw [e2]
  refine ⟨_, rfl, lx, ly, ?_, ?_, ?_, ?_⟩
  · simp only [P2.add_x, P2.smul_x, P2.sub_x]
    have : 0 < Real.sqrt 2 * (j * (b.hi.x - lo.x)) := mul_pos s0 (mul_pos hj (by linarith))
    linarith
  · simp only [P2.add_y, P2.smul_y, P2.sub_y]
    have : 0 < Real.sqrt 2 * (j * (b.hi.y - lo.y)) := mul_pos s0 (mul_pos hj (by linarith))
    linarith
  · dsimp only
    rw [P2.add_x, P2.smul_x]; nlinarith [(abs_le.1 m1).2]
  · dsimp only
    rw [P2.add_y, P2.smul_y]; nlinarith [(abs_le.1 m2).2]

/-! ## The whole -/

/-- What the cache of a mesh is like. -/
structure GoodCache (pts : List (P2 ℝ)) (tris : List (MeshTri ℝ)) (c : TriangleCache) : Prop where
  unit : UnitGrid c.traits
  good : GoodGrid c.traits.width c.traits.height c.grid
  inside : ∀ v ∈ pts, InBox (gridBox c.traits) v
  mem : ∀ a < c.traits.width, ∀ b < c.traits.height, ∀ k, k ∈ content c.grid a b ↔
    ∃ t, tris[k]? = some t ∧ NearCells c.traits t a b ∧ Hit c.traits t a b
  corner : ∃ b d, getBounds Cmp.direct pts = some b ∧ cacheBounds b = .ok d ∧ c.traits.xmin = d.lo.x ∧ c.traits.ymin = d.lo.y

theorem makeCache_ok {pts : List (P2 ℝ)} {tris : List (MeshTri ℝ)}
    (ht : ∀ t ∈ tris, ThreeVertices t ∧ t.a ∈ pts ∧ t.b ∈ pts ∧ t.c ∈ pts)
    (hf : ∃ t ∈ tris, area2 t.a t.b t.c ≠ 0)
    (hext : ∀ p ∈ pts, ∀ q ∈ pts, p.x - q.x ≤ 2 ^ 32 - 6 ∧ p.y - q.y ≤ 2 ^ 32 - 6) :
    ∃ c, makeCache pts tris = .ok c ∧ GoodCache pts tris c := by
  obtain ⟨t0, ht0, ha0⟩ := hf
  obtain ⟨_, p1, p2, p3⟩ := ht t0 ht0
  have hne : pts ≠ [] := by rintro rfl; simp at p1
  have hne' : tris ≠ [] := by rintro rfl; simp at ht0
  obtain ⟨b, hb, hv, hin, hleast⟩ := C14_bounds pts hne
  have hx : b.lo.x < b.hi.x := by
    rcases lt_or_eq_of_le hv.1 with h | h
    · exact h
    · exfalso
      apply ha0
      have e1 := hin _ p1; have e2 := hin _ p2; have e3 := hin _ p3
      have a1 : t0.b.x = t0.a.x := by linarith [e1.1, e1.2.1, e2.1, e2.2.1]
      have a2 : t0.c.x = t0.a.x := by linarith [e1.1, e1.2.1, e3.1, e3.2.1]
      unfold area2; rw [a1, a2]; ring
  have hy : b.lo.y < b.hi.y := by
    rcases lt_or_eq_of_le hv.2 with h | h
    · exact h
    · exfalso
      apply ha0
      have e1 := hin _ p1; have e2 := hin _ p2; have e3 := hin _ p3
      have a1 : t0.b.y = t0.a.y := by linarith [e1.2.2.1, e1.2.2.2, e2.2.2.1, e2.2.2.2]
      have a2 : t0.c.y = t0.a.y := by linarith [e1.2.2.1, e1.2.2.2, e3.2.2.1, e3.2.2.2]
      unfold area2; rw [a1, a2]; ring
  -- the box is not larger than the greatest difference of coordinates
  have hwx : b.hi.x - b.lo.x ≤ 2 ^ 32 - 6 := by
    have : ∀ q ∈ pts, b.hi.x ≤ q.x + (2 ^ 32 - 6) := by
      intro q hq
      have := hleast ⟨b.lo, ⟨q.x + (2 ^ 32 - 6), b.hi.y⟩⟩ (fun P hP => ⟨(hin P hP).1, by
        have := (hext P hP q hq).1; dsimp only; linarith, (hin P hP).2.2⟩) b.hi ⟨hv.1, le_refl _, hv.2, le_refl _⟩
      exact this.2.1
    have h2 := hleast ⟨⟨b.hi.x - (2 ^ 32 - 6), b.lo.y⟩, b.hi⟩ (fun P hP => ⟨by
        have := this P hP; dsimp only; linarith, (hin P hP).2⟩) b.lo ⟨le_refl _, hv.1, le_refl _, hv.2⟩
    have := h2.1
    dsimp only at this
    linarith
  have hwy : b.hi.y - b.lo.y ≤ 2 ^ 32 - 6 := by
    have : ∀ q ∈ pts, b.hi.y ≤ q.y + (2 ^ 32 - 6) := by
      intro q hq
      have := hleast ⟨b.lo, ⟨b.hi.x, q.y + (2 ^ 32 - 6)⟩⟩ (fun P hP => ⟨(hin P hP).1, (hin P hP).2.1, (hin P hP).2.2.1, by
        have := (hext P hP q hq).2; dsimp only; linarith⟩) b.hi ⟨hv.1, le_refl _, hv.2, le_refl _⟩
      exact this.2.2.2
    have h2 := hleast ⟨⟨b.lo.x, b.hi.y - (2 ^ 32 - 6)⟩, b.hi⟩ (fun P hP => ⟨(hin P hP).1, (hin P hP).2.1, by
        have := this P hP; dsimp only; linarith, (hin P hP).2.2.2⟩) b.lo ⟨le_refl _, hv.1, le_refl _, hv.2⟩
    have := h2.2.2.1
    dsimp only at this
    linarith
  obtain ⟨d, hd, d1, d2, d3, d4, d5, d6⟩ := cacheBounds_ok hx hy
  have gx : d.hi.x - d.lo.x < 2 ^ 32 - 1 := by linarith
  have gy : d.hi.y - d.lo.y < 2 ^ 32 - 1 := by linarith
  have hmk := makeGrid_eq (K := ℝ) (w := 1) (xmin := d.lo.x) (xmax := d.hi.x) (ymin := d.lo.y) (ymax := d.hi.y) one_pos
    (by linarith) (by linarith) (by rw [div_one, mul_one]; linarith) (by rw [div_one, mul_one]; linarith)
  simp only [div_one, mul_one] at hmk
  have fx := floor_lt_of (v := d.hi.x - d.lo.x) (by linarith) gx
  have fy := floor_lt_of (v := d.hi.y - d.lo.y) (by linarith) gy
  rw [addU32_of_lt fx, addU32_of_lt fy] at hmk
  set g : GridTraits ℝ := ⟨d.lo.x, d.hi.x, d.lo.y, d.hi.y, 1, 1, ⌊d.hi.x - d.lo.x⌋₊ + 1, ⌊d.hi.y - d.lo.y⌋₊ + 1⟩ with hg
  have hu : UnitGrid g := ⟨rfl, rfl, by rw [hg]; dsimp only; linarith, by rw [hg]; dsimp only; linarith, rfl, rfl, fx, fy⟩
  have hins : ∀ v ∈ pts, InBox (gridBox g) v := by
    intro v hv
    obtain ⟨h1, h2, h3, h4⟩ := hin v hv
    rw [hg]
    exact ⟨d1.le.trans h1, h2.trans d3.le, d2.le.trans h3, h4.trans d4.le⟩
  obtain ⟨n1, n2⟩ := goodGrid_new g
  obtain ⟨m, k1, k2, k3⟩ := cacheTriangles_adds hu (l := tris.zipIdx) (m := makeGrid2d [] g) (by
    rintro ⟨t, k⟩ he
    have hm : t ∈ tris := by
      rw [List.mem_zipIdx_iff_getElem?] at he
      exact List.mem_of_getElem? he
    obtain ⟨h1, h2, h3, h4⟩ := ht t hm
    refine ⟨h1, fun v hv => ?_⟩
    simp only [List.mem_cons, List.not_mem_nil, or_false] at hv
    rcases hv with rfl | rfl | rfl
    · exact hins _ h2
    · exact hins _ h3
    · exact hins _ h4) n1
  refine ⟨⟨g, m⟩, ?_, hu, k2, hins, ?_, b, d, hb, hd, rfl, rfl⟩
  · unfold makeCache
    rw [if_neg hne, if_neg hne', absolute_zero, hb]
    dsimp only
    rw [hd]
    dsimp only
    rw [hmk]
    dsimp only
    rw [k1]
  · intro a ha b hb k
    rw [k3 a ha b hb, n2 a ha b hb]
    simp only [List.not_mem_nil, false_or, List.mem_zipIdx_iff_getElem?]

theorem nearCells_of {g : GridTraits ℝ} {t : MeshTri ℝ} {X : P2 ℝ} (hX : InMeshTri t X) :
    NearCells g t ⌊X.x - g.xmin⌋₊ ⌊X.y - g.ymin⌋₊ := by
  obtain ⟨bt, h1, hv, h2, h3⟩ := C14_bounds [t.a, t.b, t.c] (by simp)
  have i1 := h2 t.a (by simp)
  have i2 := h2 t.b (by simp)
  have i3 := h2 t.c (by simp)
  have hb : InBox bt X := by
    obtain ⟨p, q, r, hp, hq, hr, hs, rfl⟩ := hX
    obtain ⟨a1, a2, a3, a4⟩ := i1
    obtain ⟨b1, b2, b3, b4⟩ := i2
    obtain ⟨c1, c2, c3, c4⟩ := i3
    simp only [InBox, P2.add_x, P2.add_y, P2.smul_x, P2.smul_y]
    refine ⟨?_, ?_, ?_, ?_⟩
    · have : bt.lo.x = p * bt.lo.x + q * bt.lo.x + r * bt.lo.x := by linear_combination (-bt.lo.x) * hs
      nlinarith [mul_le_mul_of_nonneg_left a1 hp, mul_le_mul_of_nonneg_left b1 hq, mul_le_mul_of_nonneg_left c1 hr]
    · have : bt.hi.x = p * bt.hi.x + q * bt.hi.x + r * bt.hi.x := by linear_combination (-bt.hi.x) * hs
      nlinarith [mul_le_mul_of_nonneg_left a2 hp, mul_le_mul_of_nonneg_left b2 hq, mul_le_mul_of_nonneg_left c2 hr]
    · have : bt.lo.y = p * bt.lo.y + q * bt.lo.y + r * bt.lo.y := by linear_combination (-bt.lo.y) * hs
      nlinarith [mul_le_mul_of_nonneg_left a3 hp, mul_le_mul_of_nonneg_left b3 hq, mul_le_mul_of_nonneg_left c3 hr]
    · have : bt.hi.y = p * bt.hi.y + q * bt.hi.y + r * bt.hi.y := by linear_combination (-bt.hi.y) * hs
      nlinarith [mul_le_mul_of_nonneg_left a4 hp, mul_le_mul_of_nonneg_left b4 hq, mul_le_mul_of_nonneg_left c4 hr]
  obtain ⟨e1, e2, e3, e4⟩ := hb
  exact ⟨bt, h1, Nat.floor_mono (by linarith), Nat.floor_mono (by linarith), Nat.floor_mono (by linarith),
    Nat.floor_mono (by linarith)⟩

/-- A convex combination of points of a box is in the box. -/
theorem inTriangle_box {b : Box ℝ} {A B C X : P2 ℝ} (h : InTriangle A B C X) (hA : InBox b A) (hB : InBox b B)
    (hC : InBox b C) : InBox b X := by
  obtain ⟨p, q, r, hp, hq, hr, hs, rfl⟩ := h
  obtain ⟨a1, a2, a3, a4⟩ := hA
  obtain ⟨b1, b2, b3, b4⟩ := hB
  obtain ⟨c1, c2, c3, c4⟩ := hC
  simp only [InBox, P2.add_x, P2.add_y, P2.smul_x, P2.smul_y]
  refine ⟨?_, ?_, ?_, ?_⟩
  · have : b.lo.x = p * b.lo.x + q * b.lo.x + r * b.lo.x := by linear_combination (-b.lo.x) * hs
    nlinarith [mul_le_mul_of_nonneg_left a1 hp, mul_le_mul_of_nonneg_left b1 hq, mul_le_mul_of_nonneg_left c1 hr]
  · have : b.hi.x = p * b.hi.x + q * b.hi.x + r * b.hi.x := by linear_combination (-b.hi.x) * hs
    nlinarith [mul_le_mul_of_nonneg_left a2 hp, mul_le_mul_of_nonneg_left b2 hq, mul_le_mul_of_nonneg_left c2 hr]
  · have : b.lo.y = p * b.lo.y + q * b.lo.y + r * b.lo.y := by linear_combination (-b.lo.y) * hs
    nlinarith [mul_le_mul_of_nonneg_left a3 hp, mul_le_mul_of_nonneg_left b3 hq, mul_le_mul_of_nonneg_left c3 hr]
  · have : b.hi.y = p * b.hi.y + q * b.hi.y + r * b.hi.y := by linear_combination (-b.hi.y) * hs
    nlinarith [mul_le_mul_of_nonneg_left a4 hp, mul_le_mul_of_nonneg_left b4 hq, mul_le_mul_of_nonneg_left c4 hr]

/-- The set that is looked up for a point. -/
theorem cache_find {pts : List (P2 ℝ)} {tris : List (MeshTri ℝ)} {c : TriangleCache} (hc : GoodCache pts tris c)
    (ht : ∀ t ∈ tris, ThreeVertices t ∧ t.a ∈ pts ∧ t.b ∈ pts ∧ t.c ∈ pts) (p : P2 ℝ) :
    ∃ s, c.find p = .ok s ∧ s.Pairwise (· < ·) ∧ (∀ k ∈ s, ∃ t, tris[k]? = some t) ∧
      (∀ (k : Nat) t, tris[k]? = some t → InMeshTri t p → k ∈ s) ∧
      (∀ (k : Nat) t X, tris[k]? = some t → InMeshTri t X → InBox (gridBox c.traits) p →
        ⌊X.x - c.traits.xmin⌋₊ = ⌊p.x - c.traits.xmin⌋₊ →
        ⌊X.y - c.traits.ymin⌋₊ = ⌊p.y - c.traits.ymin⌋₊ → k ∈ s) := by
  have tin : ∀ (k : Nat) t X, tris[k]? = some t → InMeshTri t X → InBox (gridBox c.traits) X := by
    intro k t X hk hX
    obtain ⟨_, h1, h2, h3⟩ := ht t (List.mem_of_getElem? hk)
    exact inTriangle_box hX (hc.inside _ h1) (hc.inside _ h2) (hc.inside _ h3)
  have hcont : c.traits.isContained p = true ↔ InBox (gridBox c.traits) p := by
    simp only [GridTraits.isContained, Bool.and_eq_true, decide_eq_true_eq, InBox, gridBox, ge_iff_le]
    tauto
  unfold TriangleCache.find
  by_cases hp : InBox (gridBox c.traits) p
  · rw [if_pos (hcont.2 hp)]
    obtain ⟨x1, x2⟩ := xIndex_unit hc.unit hp.1 hp.2.1
    obtain ⟨y1, y2⟩ := yIndex_unit hc.unit hp.2.2.1 hp.2.2.2
    have key : ∀ (k : Nat) t X, tris[k]? = some t → InMeshTri t X → InBox (gridBox c.traits) p →
        ⌊X.x - c.traits.xmin⌋₊ = ⌊p.x - c.traits.xmin⌋₊ →
        ⌊X.y - c.traits.ymin⌋₊ = ⌊p.y - c.traits.ymin⌋₊ →
        k ∈ content c.grid ⌊p.x - c.traits.xmin⌋₊ ⌊p.y - c.traits.ymin⌋₊ := by
      intro k t X hk hX _ ex ey
      rw [hc.mem _ x2 _ y2]
      obtain ⟨q1, q2, q3, q4⟩ := tin k t X hk hX
      simp only [gridBox] at q1 q2 q3 q4
      have hsx := hc.unit.smallX
      have hsy := hc.unit.smallY
      refine ⟨t, hk, ?_, ?_⟩
      · rw [← ex, ← ey]; exact nearCells_of hX
      · refine (hit_total hc.unit.cell (by omega) (by omega) (ht t (List.mem_of_getElem? hk)).1).2 X hX ?_ ?_ ?_ ?_
        · rw [← ex]; have := Nat.floor_le (sub_nonneg.2 q1); linarith
        · rw [← ex]; have := Nat.lt_floor_add_one (X.x - c.traits.xmin); linarith
        · rw [← ey]; have := Nat.floor_le (sub_nonneg.2 q3); linarith
        · rw [← ey]; have := Nat.lt_floor_add_one (X.y - c.traits.ymin); linarith
    refine ⟨content c.grid ⌊p.x - c.traits.xmin⌋₊ ⌊p.y - c.traits.ymin⌋₊, ?_, hc.good.sorted _ x2 _ y2, ?_,
      fun k t hk hX => key k t p hk hX hp rfl rfl, key⟩
    · unfold Grid2d.getAt
      rw [hcont.2 hp]
      simp only [not_true_eq_false, if_false]
      rw [x1, y1]
      exact hc.good.get _ x2 _ y2
    · intro k hk
      rw [hc.mem _ x2 _ y2] at hk
      obtain ⟨t, h, _⟩ := hk
      exact ⟨t, h⟩
  · rw [if_neg (fun h => hp (hcont.1 h))]
    exact ⟨[], rfl, List.Pairwise.nil, fun k hk => by simp at hk, fun k t hk hX => absurd (tin k t p hk hX) hp,
      fun k t X _ _ h => absurd h hp⟩

theorem findTriangleLoop_ok {tris : List (MeshTri ℝ)} (p : P2 ℝ) : ∀ {s : List Nat}, s.Pairwise (· < ·) →
    (∀ k ∈ s, ∃ t, tris[k]? = some t) →
    (findTriangleLoop Cmp.direct tris p s = .ok none ∧
      ∀ k ∈ s, ∀ t, tris[k]? = some t → pointInTriangle Cmp.direct p t.a t.b t.c = false) ∨
    (∃ n ∈ s, ∃ t, findTriangleLoop Cmp.direct tris p s = .ok (some n) ∧ tris[n]? = some t ∧
      pointInTriangle Cmp.direct p t.a t.b t.c = true ∧
      ∀ k ∈ s, k < n → ∀ t, tris[k]? = some t → pointInTriangle Cmp.direct p t.a t.b t.c = false)
  | [], _, _ => Or.inl ⟨rfl, fun k hk => by simp at hk⟩
  | n :: s, hs, hv => by
    obtain ⟨h1, h2⟩ := List.pairwise_cons.1 hs
    obtain ⟨t, ht⟩ := hv n List.mem_cons_self
    unfold findTriangleLoop
    rw [ht]
    dsimp only
    by_cases hp : pointInTriangle Cmp.direct p t.a t.b t.c = true
    · rw [if_pos hp]
      refine Or.inr ⟨n, List.mem_cons_self, t, rfl, ht, hp, fun k hk hlt => ?_⟩
      rcases List.mem_cons.1 hk with rfl | hk
      · omega
      · have := h1 k hk; omega
    · rw [if_neg hp]
      have hp' : ∀ t', tris[n]? = some t' → pointInTriangle Cmp.direct p t'.a t'.b t'.c = false := by
        intro t' e
        rw [ht] at e
        obtain rfl := Option.some.inj e
        simpa using hp
      rcases findTriangleLoop_ok p h2 (fun k hk => hv k (List.mem_cons_of_mem _ hk)) with ⟨e, h⟩ | ⟨m, hm, t', e, e2, e3, h⟩
      · refine Or.inl ⟨e, fun k hk => ?_⟩
        rcases List.mem_cons.1 hk with rfl | hk
        · exact hp'
        · exact h k hk
      · refine Or.inr ⟨m, List.mem_cons_of_mem _ hm, t', e, e2, e3, fun k hk hlt => ?_⟩
        rcases List.mem_cons.1 hk with rfl | hk
        · exact hp'
        · exact h k hk hlt

/-- The triangles of a mesh have three different vertices, which are points of the mesh. -/
theorem mesh_vertices {pts : List (P2 ℝ)} {indices : List Nat} {m : MeshBase ℝ}
    (h : makeMesh Cmp.direct pts indices = .ok m) :
    ∀ t ∈ m.tris, ThreeVertices t ∧ t.a ∈ pts ∧ t.b ∈ pts ∧ t.c ∈ pts := by
  obtain ⟨_, hf, _⟩ := makeMesh_inv h
  intro t ht
  obtain ⟨i, hi, h1, h2, h3, h4, _⟩ := forall₂_exists' hf ht
  have hT : ThreePoints pts i := by simpa using (List.mem_filter.1 hi).2
  refine ⟨?_, List.mem_of_getElem? h1, List.mem_of_getElem? h2, List.mem_of_getElem? h3⟩
  obtain ⟨t1, t2, t3⟩ := hT
  have : pts[t.i0]? ≠ pts[t.i1]? ∧ pts[t.i1]? ≠ pts[t.i2]? ∧ pts[t.i2]? ≠ pts[t.i0]? := by
    rcases h4 with rfl | ⟨e, _⟩
    · exact ⟨t1, t2, t3⟩
    · simp only [MeshTri.indices, Prod.mk.injEq] at e
      obtain ⟨e1, e2, e3⟩ := e
      rw [e1, e2, e3]
      exact ⟨t3.symm, t2.symm, t1.symm⟩
  rw [h1, h2, h3] at this
  exact ⟨fun e => this.1 (by rw [e]), fun e => this.2.1 (by rw [e]), fun e => this.2.2 (by rw [e])⟩

theorem mesh_nonflat {pts : List (P2 ℝ)} {indices : List Nat} {m : MeshBase ℝ}
    (h : makeMesh Cmp.direct pts indices = .ok m) (hne : m.tris ≠ []) : ∃ t ∈ m.tris, area2 t.a t.b t.c ≠ 0 := by
  obtain ⟨_, _, _, ha⟩ := makeMesh_inv h
  by_contra hn
  push Not at hn
  apply ha hne
  unfold areaTotal
  apply List.sum_eq_zero
  intro x hx
  obtain ⟨t, ht, rfl⟩ := List.mem_map.1 hx
  unfold triArea
  rw [hn t ht]; simp

theorem makeMesh2d_ok {pts : List (P2 ℝ)} {indices : List Nat} {b : MeshBase ℝ}
    (h : makeMesh Cmp.direct pts indices = .ok b) (hne : b.tris ≠ [])
    (hext : ∀ p ∈ pts, ∀ q ∈ pts, p.x - q.x ≤ 2 ^ 32 - 6 ∧ p.y - q.y ≤ 2 ^ 32 - 6) :
    ∃ c, makeMesh2d Cmp.direct pts indices = .ok ⟨b, c, adjacency (b.tris.map MeshTri.indices)⟩ ∧
      GoodCache pts b.tris c := by
  obtain ⟨c, h1, h2⟩ := makeCache_ok (mesh_vertices h) (mesh_nonflat h hne) hext
  refine ⟨c, ?_, h2⟩
  unfold makeMesh2d
  rw [h]
  dsimp only
  rw [(makeMesh_inv h).1, h1]

theorem makeMesh2d_inv {pts : List (P2 ℝ)} {indices : List Nat} {m : Mesh}
    (h : makeMesh2d Cmp.direct pts indices = .ok m)
    (hext : ∀ p ∈ pts, ∀ q ∈ pts, p.x - q.x ≤ 2 ^ 32 - 6 ∧ p.y - q.y ≤ 2 ^ 32 - 6) :
    makeMesh Cmp.direct pts indices = .ok m.base ∧ GoodCache pts m.base.tris m.cache := by
  cases hb : makeMesh Cmp.direct pts indices with
  | error e => unfold makeMesh2d at h; rw [hb] at h; simp at h
  | ok b =>
    by_cases hne : b.tris = []
    · exfalso
      unfold makeMesh2d at h
      rw [hb] at h
      dsimp only at h
      have he : makeCache b.points b.tris = .error .assertFailed := by
        unfold makeCache
        rw [hne]
        by_cases hp : b.points = [] <;> simp [hp]
      rw [he] at h
      simp at h
    · obtain ⟨c, h1, h2⟩ := makeMesh2d_ok hb hne hext
      rw [h1] at h
      obtain rfl := Except.ok.inj h
      exact ⟨rfl, h2⟩

theorem mesh_area {pts : List (P2 ℝ)} {indices : List Nat} {m : MeshBase ℝ}
    (h : makeMesh Cmp.direct pts indices = .ok m) : ∀ t ∈ m.tris, 0 ≤ area2 t.a t.b t.c := by
  obtain ⟨_, hf, _⟩ := makeMesh_inv h
  intro t ht
  obtain ⟨i, _, hi⟩ := forall₂_exists' hf ht
  exact hi.2.2.2.2

theorem inTriangle_area2 {A B C X : P2 ℝ} (h0 : 0 ≤ area2 A B C) (h : InTriangle A B C X) :
    0 ≤ area2 A B X ∧ 0 ≤ area2 B C X ∧ 0 ≤ area2 C A X := by
  obtain ⟨p, q, r, hp, hq, hr, hs, rfl⟩ := h
  obtain rfl : p = 1 - q - r := by linarith
  have e1 : area2 A B ((1 - q - r) • A + q • B + r • C) = r * area2 A B C := by
    simp only [area2, P2.add_x, P2.add_y, P2.smul_x, P2.smul_y]; ring
  have e2 : area2 B C ((1 - q - r) • A + q • B + r • C) = (1 - q - r) * area2 A B C := by
    simp only [area2, P2.add_x, P2.add_y, P2.smul_x, P2.smul_y]; ring
  have e3 : area2 C A ((1 - q - r) • A + q • B + r • C) = q * area2 A B C := by
    simp only [area2, P2.add_x, P2.add_y, P2.smul_x, P2.smul_y]; ring
  rw [e1, e2, e3]
  exact ⟨mul_nonneg hr h0, mul_nonneg hp h0, mul_nonneg hq h0⟩

end Geometrix
