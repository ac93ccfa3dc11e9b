import Verif.Lemmas.SolidBsp

/-!
# Helpers for solid leaf trees: where a point is
-/

set_option linter.unusedSectionVars false

namespace Geometrix
open Spec

variable {K : Type*} [Field K] [LinearOrder K] [IsStrictOrderedRing K]

theorem halfDist_step (c : Half K) (p v : P2 K) (t : K) :
    ∃ m : K, halfDist c (p + t • v) = halfDist c p + t * m ∧ m = (if c.2 then dot v c.1.n else -dot v c.1.n) := by
  refine ⟨_, ?_, rfl⟩
  unfold halfDist
  split_ifs <;> rw [planeDist_step]
  ring

/-- A small step does not leave a finite number of open half planes. -/
theorem small_step (x v : P2 K) : ∀ C : List (Half K), ∃ δ : K, 0 < δ ∧ ∀ e, 0 < e → e < δ → ∀ c ∈ C,
    0 < halfDist c x → 0 < halfDist c (x + e • v)
  | [] => ⟨1, one_pos, by simp⟩
  | c :: C => by
    obtain ⟨δ, hδ, h⟩ := small_step x v C
    obtain ⟨μ, hμ, h'⟩ : ∃ μ : K, 0 < μ ∧ ∀ e, 0 < e → e < μ → 0 < halfDist c x → 0 < halfDist c (x + e • v) := by
      set m := (if c.2 then dot v c.1.n else -dot v c.1.n) with hm
      have hs : ∀ e : K, halfDist c (x + e • v) = halfDist c x + e * m := by
        intro e
        obtain ⟨m', h1, h2⟩ := halfDist_step c x v e
        rw [h1, h2]
      by_cases hpos : 0 < halfDist c x
      · by_cases hm0 : 0 ≤ m
        · exact ⟨1, one_pos, fun e he _ _ => by rw [hs]; have := mul_nonneg he.le hm0; linarith⟩
        · push Not at hm0
          refine ⟨halfDist c x / -m, div_pos hpos (by linarith), fun e he he' _ => ?_⟩
          rw [hs]
          rw [lt_div_iff₀ (by linarith)] at he'
          linarith
      · exact ⟨1, one_pos, fun e _ _ h => absurd h hpos⟩
    refine ⟨min δ μ, lt_min hδ hμ, fun e he he' d hd hp => ?_⟩
    rcases List.mem_cons.1 hd with rfl | hd
    · exact h' e he (lt_of_lt_of_le he' (min_le_right _ _)) hp
    · exact h e he (lt_of_lt_of_le he' (min_le_left _ _)) d hd hp

theorem inCell_line {C : List (Half K)} {p q : P2 K} (hp : InClosure C p) (hq : InCell C q) {t : K} (ht : 0 < t)
    (ht1 : t ≤ 1) : InCell C (p + t • (q - p)) := by
  intro c hc
  rw [halfDist_line]
  have := mul_nonneg (sub_nonneg.2 ht1) (hp c hc)
  have := mul_pos ht (hq c hc)
  linarith

theorem InCell.closure {C : List (Half K)} {p : P2 K} (h : InCell C p) : InClosure C p := fun c hc => (h c hc).le

/-- Next to an unused part there are points of the solid behind it and points outside it in front of it. -/
theorem beside {sides : List (P2 K × P2 K)} {solid : P2 K → Prop} (hb : BorderOf sides solid) {C : List (Half K)}
    {it : BspItem K} (hit : ItemOk sides C it) :
    (∃ y, InCell ((it.plane, true) :: C) y ∧ ¬OnBorder sides y ∧ ¬solid y) ∧
    ((∀ c ∈ C, ¬FrontOf it.plane c) → ∃ y, InCell ((it.plane, false) :: C) y ∧ ¬OnBorder sides y ∧ solid y) := by
  obtain ⟨s, hs, hpl, ha, hbs, k, hk, hdir⟩ := hit.side
  have hmem : s ∈ sides := List.mem_of_getElem? hs
  have hne := hit.ne
  set x := it.a + (1 / 2 : K) • (it.b - it.a) with hx
  have hin : InsideSegment it.a it.b x := ⟨1 / 2, by norm_num, by norm_num, rfl⟩
  have hsin : InsideSegment s.1 s.2 x := by
    obtain ⟨u, u0, u1, hu⟩ := ha
    obtain ⟨v, v0, v1, hv⟩ := hbs
    have huv : u < v := by
      have hx' := congrArg P2.x hdir
      have hy' := congrArg P2.y hdir
      rw [hu, hv] at hx' hy'
      simp only [P2.sub_x, P2.sub_y, P2.smul_x, P2.smul_y, P2.add_x, P2.add_y] at hx' hy'
      have ex : (v - u - k) * (s.2.x - s.1.x) = 0 := by linear_combination hx'
      have ey : (v - u - k) * (s.2.y - s.1.y) = 0 := by linear_combination hy'
      have hz : v - u - k = 0 := by
        by_contra hz
        apply hpl.ne
        ext
        · have := (mul_eq_zero.1 ex).resolve_left hz; linarith
        · have := (mul_eq_zero.1 ey).resolve_left hz; linarith
      linarith
    refine ⟨(u + v) / 2, by linarith, by linarith, ?_⟩
    rw [hx, hu, hv]
    ext <;> simp only [P2.sub_x, P2.sub_y, P2.smul_x, P2.smul_y, P2.add_x, P2.add_y] <;> ring
  have hx0 : planeDist it.plane x = 0 := planeDist_onSegment hit.zero_a hit.zero_b (insideSegment_onSegment hin)
  have hL := hpl.left
  constructor
  · obtain ⟨δ, hδ, hstep⟩ := small_step x (toLeft s) C
    obtain ⟨e, he, he', h1, h2⟩ := hb.left s hmem x hsin δ hδ
    refine ⟨_, ?_, h1, h2⟩
    have hfr : 0 < planeDist it.plane (x + e • toLeft s) := by
      rw [planeDist_step, hx0, zero_add]; exact mul_pos he hL
    intro c hc
    rcases List.mem_cons.1 hc with rfl | hc
    · simpa [halfDist] using hfr
    · rcases hit.inside x hin c hc with h | ⟨r, hr, h⟩
      · exact hstep e he he' c hc h
      · rw [h]; exact mul_pos hr hfr
  · intro hno
    obtain ⟨δ, hδ, hstep⟩ := small_step x (-toLeft s) C
    obtain ⟨e, he, he', h1, h2⟩ := hb.right s hmem x hsin δ hδ
    refine ⟨_, ?_, h1, h2⟩
    have hsub : x - e • toLeft s = x + e • (-toLeft s) := by
      ext <;> simp only [P2.sub_x, P2.sub_y, P2.smul_x, P2.smul_y, P2.add_x, P2.add_y, P2.neg_x, P2.neg_y] <;> ring
    rw [hsub]
    intro c hc
    rcases List.mem_cons.1 hc with rfl | hc
    · have hd : dot (-toLeft s) it.plane.n = -dot (toLeft s) it.plane.n := by
        unfold dot; simp only [P2.neg_x, P2.neg_y]; ring
      have : 0 < -(planeDist it.plane (x + e • (-toLeft s))) := by
        rw [planeDist_step, hx0, zero_add, hd]
        have := mul_pos he hL
        linarith
      simpa [halfDist] using this
    · exact hstep e he he' c hc ((hit.inside x hin c hc).resolve_right (hno c hc))

/-- If the cell has a point, it has one off the border which the flag is right about. -/
def Flagged (sides : List (P2 K × P2 K)) (solid : P2 K → Prop) (C : List (Half K)) (flag : Bool) : Prop :=
  (∃ y, InCell C y) → ∃ y, InCell C y ∧ ¬OnBorder sides y ∧ (solid y ↔ flag = true)

theorem flagged_children {sides : List (P2 K × P2 K)} {solid : P2 K → Prop} (hb : BorderOf sides solid)
    {C : List (Half K)} {it : BspItem K} (hit : ItemOk sides C it) :
    Flagged sides solid ((it.plane, true) :: C) false ∧ Flagged sides solid ((it.plane, false) :: C) true := by
  obtain ⟨h1, h2⟩ := beside hb hit
  constructor
  · intro _
    obtain ⟨y, h1, h2, h3⟩ := h1
    exact ⟨y, h1, h2, by simp [h3]⟩
  · rintro ⟨z, hz⟩
    obtain ⟨y, h1, h2, h3⟩ := h2 fun c hc ⟨r, hr, h⟩ => by
      have e1 := hz c (List.mem_cons_of_mem _ hc)
      have e2 := hz _ List.mem_cons_self
      simp only [halfDist, Bool.false_eq_true, if_false] at e2
      rw [h] at e1
      have := mul_pos hr e2
      linarith
    exact ⟨y, h1, h2, by simp [h3]⟩

/-- There is no border in the cell of a leaf. -/
theorem leaf_no_border {sides : List (P2 K × P2 K)} {C : List (Half K)} {items : List (BspItem K)}
    (ok : ∀ it ∈ items, ItemOk sides C it) (used : ∀ it ∈ items, it.used = true)
    (hc : ∀ x, OnBorder sides x → InCell C x → ∃ it ∈ items, OnSegment it.a it.b x) {x : P2 K} (hx : InCell C x) :
    ¬OnBorder sides x := by
  intro hbx
  obtain ⟨it, hit, hon⟩ := hc x hbx hx
  obtain ⟨c, hc, r, hr, h⟩ := (ok it hit).used (used it hit)
  have := hx c hc
  rw [h, planeDist_onSegment (ok it hit).zero_a (ok it hit).zero_b hon] at this
  simp at this

theorem cover_children {sides : List (P2 K × P2 K)} {C : List (Half K)} {items F B : List (BspItem K)} {pl : Plane2 K}
    (cover : ∀ j ∈ items, ∀ x, OnSegment j.a j.b x → (0 ≤ planeDist pl x ∧ ∃ i ∈ F, OnSegment i.a i.b x) ∨
        (planeDist pl x ≤ 0 ∧ ∃ i ∈ B, OnSegment i.a i.b x))
    (hc : ∀ x, OnBorder sides x → InCell C x → ∃ it ∈ items, OnSegment it.a it.b x) :
    (∀ x, OnBorder sides x → InCell ((pl, true) :: C) x → ∃ it ∈ F, OnSegment it.a it.b x) ∧
    (∀ x, OnBorder sides x → InCell ((pl, false) :: C) x → ∃ it ∈ B, OnSegment it.a it.b x) := by
  constructor
  · intro x hx hin
    obtain ⟨j, hj, hon⟩ := hc x hx fun c hc => hin c (List.mem_cons_of_mem _ hc)
    have h0 := hin _ List.mem_cons_self
    simp only [halfDist, if_true] at h0
    rcases cover j hj x hon with ⟨-, h⟩ | ⟨h, -⟩
    · exact h
    · linarith
  · intro x hx hin
    obtain ⟨j, hj, hon⟩ := hc x hx fun c hc => hin c (List.mem_cons_of_mem _ hc)
    have h0 := hin _ List.mem_cons_self
    simp only [halfDist, Bool.false_eq_true, if_false] at h0
    rcases cover j hj x hon with ⟨h, -⟩ | ⟨-, h⟩
    · linarith
    · exact h

theorem pointInSolid_leaf (is : List Nat) (flag : Bool) (p : P2 K) :
    pointInSolid Cmp.direct (.leaf is flag) p = if flag then .inSolid else .inEmpty := rfl

theorem pointInSolid_node (pl : Plane2 K) (is : List Nat) (f b : SolidTree K) (p : P2 K) :
    pointInSolid Cmp.direct (.node pl is f b) p =
      if 0 < planeDist pl p then pointInSolid Cmp.direct f p
      else if planeDist pl p < 0 then pointInSolid Cmp.direct b p
      else if pointInSolid Cmp.direct f p = pointInSolid Cmp.direct b p then pointInSolid Cmp.direct f p
      else .onBoundary := by
  rw [pointInSolid]
  simp only [direct_gt, direct_lt]

/-- Points strictly inside a cell and off all lines. -/
theorem point_open {sides : List (P2 K × P2 K)} {solid : P2 K → Prop} (hb : BorderOf sides solid) {C : List (Half K)}
    {flag : Bool} {items : List (BspItem K)} {t : SolidTree K} (h : Built sides C flag items t)
    (hcov : ∀ x, OnBorder sides x → InCell C x → ∃ it ∈ items, OnSegment it.a it.b x)
    (hfl : items ≠ [] ∧ (∃ it ∈ items, it.used = false) ∨ Flagged sides solid C flag) {p : P2 K} (hp : InCell C p)
    (hoff : OffLines sides p) :
    pointInSolid Cmp.direct t p = .inSolid ∧ solid p ∨ pointInSolid Cmp.direct t p = .inEmpty ∧ ¬solid p := by
  induction h with
  | leaf C flag items ok used =>
    rw [pointInSolid_leaf]
    have hfl : Flagged sides solid C flag := hfl.resolve_left fun ⟨_, it, hit, hu⟩ => by simp [used it hit] at hu
    obtain ⟨y, hy, -, hy2⟩ := hfl ⟨p, hp⟩
    have : solid p ↔ solid y := hb.across p y fun t t0 t1 => by
      rcases eq_or_lt_of_le t0 with rfl | t0
      · have : p + (0 : K) • (y - p) = p := by ext <;> simp
        rw [this]
        exact leaf_no_border ok used hcov hp
      · exact leaf_no_border ok used hcov (inCell_line hp.closure hy t0 t1)
    cases flag
    · right; exact ⟨rfl, by rw [this, hy2]; simp⟩
    · left; exact ⟨rfl, by rw [this, hy2]⟩
  | node C flag items F B it Ix f b ok fresh mem unused inFront inBack cover indices own front back ihf ihb =>
    obtain ⟨c1, c2⟩ := cover_children cover hcov
    obtain ⟨f1, f2⟩ := flagged_children hb (ok it mem)
    rw [pointInSolid_node]
    have hne : planeDist it.plane p ≠ 0 := by
      obtain ⟨s, hs, hpl, -⟩ := (ok it mem).side
      obtain ⟨l, hl, hd⟩ := hpl.dist
      intro h0
      have := hd p
      rw [h0, mul_zero] at this
      exact hoff s (List.mem_of_getElem? hs) this.symm
    rcases lt_or_gt_of_ne hne with h | h
    · rw [if_neg (not_lt.2 h.le), if_pos h]
      refine ihb c2 (Or.inr f2) ?_
      intro c hc
      rcases List.mem_cons.1 hc with rfl | hc
      · simpa [halfDist] using h
      · exact hp c hc
    · rw [if_pos h]
      refine ihf c1 (Or.inr f1) ?_
      intro c hc
      rcases List.mem_cons.1 hc with rfl | hc
      · simpa [halfDist] using h
      · exact hp c hc

/-- If one side is on the line of another, the other is on the line of the first. -/
theorem area2_swap {a b c d : P2 K} (hab : a ≠ b) (h1 : area2 a b c = 0) (h2 : area2 a b d = 0) :
    area2 c d a = 0 ∧ area2 c d b = 0 := by
  obtain ⟨ax, ay⟩ := a
  obtain ⟨bx, by'⟩ := b
  obtain ⟨cx, cy⟩ := c
  obtain ⟨dx, dy⟩ := d
  simp only [area2] at *
  have h3 : (bx - ax) * (dy - cy) - (by' - ay) * (dx - cx) = 0 := by linear_combination h2 - h1
  have hw : bx - ax ≠ 0 ∨ by' - ay ≠ 0 := by
    by_contra h
    push Not at h
    exact hab (by rw [P2.mk.injEq]; exact ⟨by linarith [h.1], by linarith [h.2]⟩)
  have h4 : (dx - cx) * (ay - cy) - (dy - cy) * (ax - cx) = 0 := by
    rcases hw with h | h
    · have : ((dx - cx) * (ay - cy) - (dy - cy) * (ax - cx)) * (bx - ax) = 0 := by
        linear_combination -(dx - cx) * h1 - (ax - cx) * h3
      exact (mul_eq_zero.1 this).resolve_right h
    · have : ((dx - cx) * (ay - cy) - (dy - cy) * (ax - cx)) * (by' - ay) = 0 := by
        linear_combination -(dy - cy) * h1 - (ay - cy) * h3
      exact (mul_eq_zero.1 this).resolve_right h
  exact ⟨h4, by linear_combination h4 - h3⟩

theorem noTwo_idx {sides : List (P2 K × P2 K)} (h : NoTwoOnALine sides) {i j : Nat} {s t : P2 K × P2 K}
    (hi : sides[i]? = some s) (hj : sides[j]? = some t) (hs : s.1 ≠ s.2) (ht : t.1 ≠ t.2)
    (h1 : area2 s.1 s.2 t.1 = 0) (h2 : area2 s.1 s.2 t.2 = 0) : i = j := by
  unfold NoTwoOnALine at h
  rw [List.pairwise_iff_getElem] at h
  obtain ⟨hi', rfl⟩ := List.getElem?_eq_some_iff.1 hi
  obtain ⟨hj', rfl⟩ := List.getElem?_eq_some_iff.1 hj
  rcases lt_trichotomy i j with hlt | heq | hgt
  · rcases h i j hi' hj' hlt with h | h
    · exact absurd h1 h
    · exact absurd h2 h
  · exact heq
  · obtain ⟨e1, e2⟩ := area2_swap hs h1 h2
    rcases h j i hj' hi' hgt with h | h
    · exact absurd e1 h
    · exact absurd e2 h

/-- If no two sides are on a line, the cell of an unused part is not bounded by its line. -/
theorem not_frontOf {sides : List (P2 K × P2 K)} (hno : NoTwoOnALine sides) {C : List (Half K)}
    {items : List (BspItem K)} (fresh : Fresh sides C items) {it : BspItem K} (hit : it ∈ items)
    (ok : ItemOk sides C it) (unused : it.used = false) : ∀ c ∈ C, ¬FrontOf it.plane c := by
  rintro c hc ⟨k, hk, h⟩
  obtain ⟨j, s, hj, hpl, hus⟩ := fresh c hc
  obtain ⟨s', hs', hpl', -⟩ := ok.side
  have zero : ∀ x, planeDist it.plane x = 0 → planeDist c.1 x = 0 := by
    intro x hx
    have := h x
    rw [hx, mul_zero] at this
    unfold halfDist at this
    split_ifs at this
    · exact this
    · linarith
  obtain ⟨l, hl, hd⟩ := hpl.dist
  have e1 : area2 s.1 s.2 s'.1 = 0 := by rw [← hd, zero _ hpl'.start, mul_zero]
  have e2 : area2 s.1 s.2 s'.2 = 0 := by rw [← hd, zero _ hpl'.finish, mul_zero]
  have := noTwo_idx hno hj hs' hpl.ne hpl'.ne e1 e2
  have := hus it hit this.symm
  rw [unused] at this
  simp at this

/-- Points of a closed cell off the border. -/
theorem point_closed {sides : List (P2 K × P2 K)} {solid : P2 K → Prop} (hb : BorderOf sides solid)
    (hno : NoTwoOnALine sides) {C : List (Half K)}
    {flag : Bool} {items : List (BspItem K)} {t : SolidTree K} (h : Built sides C flag items t)
    (hcov : ∀ x, OnBorder sides x → InCell C x → ∃ it ∈ items, OnSegment it.a it.b x)
    (hfl : (∃ it ∈ items, it.used = false) ∨ ∃ y, InCell C y ∧ ¬OnBorder sides y ∧ (solid y ↔ flag = true)) {p : P2 K}
    (hp : InClosure C p) (hoff : ¬OnBorder sides p) :
    pointInSolid Cmp.direct t p = .inSolid ∧ solid p ∨ pointInSolid Cmp.direct t p = .inEmpty ∧ ¬solid p := by
  induction h with
  | leaf C flag items ok used =>
    rw [pointInSolid_leaf]
    obtain ⟨y, hy, -, hy2⟩ := hfl.resolve_left fun ⟨it, hit, hu⟩ => by simp [used it hit] at hu
    have : solid p ↔ solid y := hb.across p y fun t t0 t1 => by
      rcases eq_or_lt_of_le t0 with rfl | t0
      · have : p + (0 : K) • (y - p) = p := by ext <;> simp
        rw [this]
        exact hoff
      · exact leaf_no_border ok used hcov (inCell_line hp hy t0 t1)
    cases flag
    · right; exact ⟨rfl, by rw [this, hy2]; simp⟩
    · left; exact ⟨rfl, by rw [this, hy2]⟩
  | node C flag items F B it Ix f b ok fresh mem unused inFront inBack cover indices own front back ihf ihb =>
    obtain ⟨c1, c2⟩ := cover_children cover hcov
    obtain ⟨⟨y, y1, y2, y3⟩, h2⟩ := beside hb (ok it mem)
    obtain ⟨z, z1, z2, z3⟩ := h2 (not_frontOf hno fresh mem (ok it mem) unused)
    rw [pointInSolid_node]
    have hf : 0 ≤ planeDist it.plane p →
        pointInSolid Cmp.direct f p = .inSolid ∧ solid p ∨ pointInSolid Cmp.direct f p = .inEmpty ∧ ¬solid p := by
      intro h
      refine ihf c1 (Or.inr ⟨y, y1, y2, by simp [y3]⟩) ?_
      intro c hc
      rcases List.mem_cons.1 hc with rfl | hc
      · simpa [halfDist] using h
      · exact hp c hc
    have hbk : planeDist it.plane p ≤ 0 →
        pointInSolid Cmp.direct b p = .inSolid ∧ solid p ∨ pointInSolid Cmp.direct b p = .inEmpty ∧ ¬solid p := by
      intro h
      refine ihb c2 (Or.inr ⟨z, z1, z2, by simp [z3]⟩) ?_
      intro c hc
      rcases List.mem_cons.1 hc with rfl | hc
      · simpa [halfDist] using h
      · exact hp c hc
    rcases lt_trichotomy (planeDist it.plane p) 0 with h | h | h
    · rw [if_neg (not_lt.2 h.le), if_pos h]
      exact hbk h.le
    · rw [if_neg (by rw [h]; exact lt_irrefl _), if_neg (by rw [h]; exact lt_irrefl _)]
      rcases hf h.ge with ⟨e1, e2⟩ | ⟨e1, e2⟩
      · rcases hbk h.le with ⟨e3, -⟩ | ⟨-, e4⟩
        · rw [e1, e3]; left; exact ⟨rfl, e2⟩
        · exact absurd e2 e4
      · rcases hbk h.le with ⟨-, e4⟩ | ⟨e3, -⟩
        · exact absurd e4 e2
        · rw [e1, e3]; right; exact ⟨rfl, e2⟩
    · rw [if_pos h]
      exact hf h.le

/-- A class other than the boundary is the class of all points nearby on each line through the point. -/
theorem point_near (t : SolidTree K) (p : P2 K) (hp : pointInSolid Cmp.direct t p ≠ .onBoundary) :
    ∃ δ : K, 0 < δ ∧ ∀ q : P2 K, |q.x - p.x| < δ → |q.y - p.y| < δ →
      pointInSolid Cmp.direct t q = pointInSolid Cmp.direct t p := by
  have cont : ∀ (pl : Plane2 K), planeDist pl p ≠ 0 → ∃ δ : K, 0 < δ ∧ ∀ q : P2 K, |q.x - p.x| < δ → |q.y - p.y| < δ →
      |planeDist pl q - planeDist pl p| < |planeDist pl p| := by
    intro pl h0
    have hpos : 0 < |planeDist pl p| := abs_pos.2 h0
    have hN : 0 < |pl.n.x| + |pl.n.y| + 1 := by have := abs_nonneg pl.n.x; have := abs_nonneg pl.n.y; linarith
    refine ⟨|planeDist pl p| / (|pl.n.x| + |pl.n.y| + 1), div_pos hpos hN, fun q hx hy => ?_⟩
    have e : planeDist pl q - planeDist pl p = (q.x - p.x) * pl.n.x + (q.y - p.y) * pl.n.y := by
      unfold planeDist dot; ring
    rw [e]
    set δ := |planeDist pl p| / (|pl.n.x| + |pl.n.y| + 1) with hδ
    have hδ0 : 0 < δ := div_pos hpos hN
    have hδ' : |planeDist pl p| = δ * (|pl.n.x| + |pl.n.y| + 1) := by rw [hδ]; field_simp
    calc |(q.x - p.x) * pl.n.x + (q.y - p.y) * pl.n.y|
        ≤ |(q.x - p.x) * pl.n.x| + |(q.y - p.y) * pl.n.y| := abs_add_le _ _
      _ = |q.x - p.x| * |pl.n.x| + |q.y - p.y| * |pl.n.y| := by rw [abs_mul, abs_mul]
      _ ≤ δ * |pl.n.x| + δ * |pl.n.y| := by
          have := mul_le_mul_of_nonneg_right hx.le (abs_nonneg pl.n.x)
          have := mul_le_mul_of_nonneg_right hy.le (abs_nonneg pl.n.y)
          linarith
      _ < |planeDist pl p| := by rw [hδ']; linarith
  induction t with
  | leaf is flag => exact ⟨1, one_pos, fun q _ _ => rfl⟩
  | node pl is f b ihf ihb =>
    rw [pointInSolid_node] at hp
    rcases lt_trichotomy (planeDist pl p) 0 with h | h | h
    · rw [if_neg (not_lt.2 h.le), if_pos h] at hp
      obtain ⟨δ, hδ, hn⟩ := ihb hp
      obtain ⟨μ, hμ, hm⟩ := cont pl h.ne
      refine ⟨min δ μ, lt_min hδ hμ, fun q hx hy => ?_⟩
      have := hm q (lt_of_lt_of_le hx (min_le_right _ _)) (lt_of_lt_of_le hy (min_le_right _ _))
      rw [abs_of_neg h, abs_lt] at this
      have hq : planeDist pl q < 0 := by linarith [this.2]
      rw [pointInSolid_node, pointInSolid_node, if_neg (not_lt.2 h.le), if_pos h, if_neg (not_lt.2 hq.le), if_pos hq]
      exact hn q (lt_of_lt_of_le hx (min_le_left _ _)) (lt_of_lt_of_le hy (min_le_left _ _))
    · rw [if_neg (by rw [h]; exact lt_irrefl _), if_neg (by rw [h]; exact lt_irrefl _)] at hp
      have heq : pointInSolid Cmp.direct f p = pointInSolid Cmp.direct b p := by
        by_contra hne
        rw [if_neg hne] at hp
        exact hp rfl
      rw [if_pos heq] at hp
      obtain ⟨δ, hδ, hn⟩ := ihf hp
      obtain ⟨μ, hμ, hm⟩ := ihb (heq ▸ hp)
      refine ⟨min δ μ, lt_min hδ hμ, fun q hx hy => ?_⟩
      have e1 := hn q (lt_of_lt_of_le hx (min_le_left _ _)) (lt_of_lt_of_le hy (min_le_left _ _))
      have e2 := hm q (lt_of_lt_of_le hx (min_le_right _ _)) (lt_of_lt_of_le hy (min_le_right _ _))
      have e3 : pointInSolid Cmp.direct (.node pl is f b) p = pointInSolid Cmp.direct f p := by
        rw [pointInSolid_node, if_neg (by rw [h]; exact lt_irrefl _), if_neg (by rw [h]; exact lt_irrefl _), if_pos heq]
      rw [e3, pointInSolid_node, e1, e2, ← heq]
      simp
    · rw [if_pos h] at hp
      obtain ⟨δ, hδ, hn⟩ := ihf hp
      obtain ⟨μ, hμ, hm⟩ := cont pl h.ne'
      refine ⟨min δ μ, lt_min hδ hμ, fun q hx hy => ?_⟩
      have := hm q (lt_of_lt_of_le hx (min_le_right _ _)) (lt_of_lt_of_le hy (min_le_right _ _))
      rw [abs_of_pos h, abs_lt] at this
      have hq : 0 < planeDist pl q := by linarith [this.1]
      rw [pointInSolid_node, pointInSolid_node, if_pos h, if_pos hq]
      exact hn q (lt_of_lt_of_le hx (min_le_left _ _)) (lt_of_lt_of_le hy (min_le_left _ _))

/-- Near each point of the border there are points of the solid and points outside, off the border. -/
theorem border_near {sides : List (P2 K × P2 K)} {solid : P2 K → Prop} (hb : BorderOf sides solid)
    {p : P2 K} (hp : OnBorder sides p) {δ : K} (hδ : 0 < δ) :
    (∃ q : P2 K, |q.x - p.x| < δ ∧ |q.y - p.y| < δ ∧ ¬OnBorder sides q ∧ solid q) ∧
    (∃ q : P2 K, |q.x - p.x| < δ ∧ |q.y - p.y| < δ ∧ ¬OnBorder sides q ∧ ¬solid q) := by
  obtain ⟨s, hs, t, t0, t1, hpt⟩ := hp
  -- a point inside the side near `p`
  set D : K := |s.2.x - s.1.x| + |s.2.y - s.1.y| + 1 with hD
  have hDx := abs_nonneg (s.2.x - s.1.x)
  have hDy := abs_nonneg (s.2.y - s.1.y)
  have hD0 : 0 < D := by linarith
  obtain ⟨u, u0, u1, hu⟩ : ∃ u : K, 0 < u ∧ u < 1 ∧ |u - t| ≤ min (1 / 2) (δ / (2 * D)) := by
    set m := min (1 / 2 : K) (δ / (2 * D)) with hm
    have hm0 : 0 < m := lt_min (by norm_num) (div_pos hδ (by linarith))
    have hm1 : m ≤ 1 / 2 := min_le_left _ _
    rcases le_or_gt t (1 / 2) with h | h
    · refine ⟨t + m / 2, by linarith, by linarith, ?_⟩
      rw [abs_of_nonneg (by linarith)]; linarith
    · refine ⟨t - m / 2, by linarith, by linarith, ?_⟩
      rw [abs_of_nonpos (by linarith)]; linarith
  have hu' : |u - t| * D ≤ δ / 2 := by
    have := mul_le_mul_of_nonneg_right (hu.trans (min_le_right _ _)) hD0.le
    have e : δ / (2 * D) * D = δ / 2 := by field_simp
    linarith
  set x := s.1 + u • (s.2 - s.1) with hx
  have hin : InsideSegment s.1 s.2 x := ⟨u, u0, u1, rfl⟩
  have hxx : |x.x - p.x| ≤ δ / 2 := by
    have : x.x - p.x = (u - t) * (s.2.x - s.1.x) := by
      rw [hx, hpt]; simp only [P2.add_x, P2.smul_x, P2.sub_x]; ring
    rw [this, abs_mul]
    have := mul_le_mul_of_nonneg_left (by linarith : |s.2.x - s.1.x| ≤ D) (abs_nonneg (u - t))
    linarith
  have hxy : |x.y - p.y| ≤ δ / 2 := by
    have : x.y - p.y = (u - t) * (s.2.y - s.1.y) := by
      rw [hx, hpt]; simp only [P2.add_y, P2.smul_y, P2.sub_y]; ring
    rw [this, abs_mul]
    have := mul_le_mul_of_nonneg_left (by linarith : |s.2.y - s.1.y| ≤ D) (abs_nonneg (u - t))
    linarith
  have hsmall : ∀ e : K, 0 < e → e < δ / (2 * D) → |e * (toLeft s).x| < δ / 2 ∧ |e * (toLeft s).y| < δ / 2 := by
    intro e he he'
    have hed : e * D < δ / 2 := by
      have := mul_lt_mul_of_pos_right he' hD0
      have e' : δ / (2 * D) * D = δ / 2 := by field_simp
      linarith
    have hxl : |(toLeft s).x| ≤ D := by
      simp only [toLeft]; rw [abs_sub_comm]; linarith
    have hyl : |(toLeft s).y| ≤ D := by
      simp only [toLeft]; linarith
    rw [abs_mul, abs_mul, abs_of_pos he]
    exact ⟨lt_of_le_of_lt (mul_le_mul_of_nonneg_left hxl he.le) hed,
      lt_of_le_of_lt (mul_le_mul_of_nonneg_left hyl he.le) hed⟩
  constructor
  · obtain ⟨e, he, he', h1, h2⟩ := hb.right s hs x hin (δ / (2 * D)) (div_pos hδ (by linarith))
    obtain ⟨b1, b2⟩ := hsmall e he he'
    refine ⟨_, ?_, ?_, h1, h2⟩
    · simp only [P2.sub_x, P2.smul_x]
      calc |x.x - e * (toLeft s).x - p.x| = |(x.x - p.x) - e * (toLeft s).x| := by congr 1; ring
        _ ≤ |x.x - p.x| + |e * (toLeft s).x| := abs_sub _ _
        _ < δ := by linarith
    · simp only [P2.sub_y, P2.smul_y]
      calc |x.y - e * (toLeft s).y - p.y| = |(x.y - p.y) - e * (toLeft s).y| := by congr 1; ring
        _ ≤ |x.y - p.y| + |e * (toLeft s).y| := abs_sub _ _
        _ < δ := by linarith
  · obtain ⟨e, he, he', h1, h2⟩ := hb.left s hs x hin (δ / (2 * D)) (div_pos hδ (by linarith))
    obtain ⟨b1, b2⟩ := hsmall e he he'
    refine ⟨_, ?_, ?_, h1, h2⟩
    · simp only [P2.add_x, P2.smul_x]
      calc |x.x + e * (toLeft s).x - p.x| = |(x.x - p.x) + e * (toLeft s).x| := by congr 1; ring
        _ ≤ |x.x - p.x| + |e * (toLeft s).x| := abs_add_le _ _
        _ < δ := by linarith
    · simp only [P2.add_y, P2.smul_y]
      calc |x.y + e * (toLeft s).y - p.y| = |(x.y - p.y) + e * (toLeft s).y| := by congr 1; ring
        _ ≤ |x.y - p.y| + |e * (toLeft s).y| := abs_add_le _ _
        _ < δ := by linarith

/-- All the items of a built tree are unused at the start, so there is one. -/
theorem built_nonempty {sides : List (P2 K × P2 K)} (hs : sides ≠ []) {items : List (BspItem K)} {t : SolidTree K}
    (h : Built sides [] false items t) (hc : ∀ x, OnBorder sides x → ∃ it ∈ items, OnSegment it.a it.b x) :
    ∃ it ∈ items, it.used = false := by
  obtain ⟨s, l, rfl⟩ := List.exists_cons_of_ne_nil hs
  obtain ⟨it, hit, -⟩ := hc s.1 ⟨s, by simp, 0, le_refl _, zero_le_one, by ext <;> simp⟩
  refine ⟨it, hit, ?_⟩
  have hok : ItemOk (s :: l) [] it := by cases h <;> simp_all
  by_contra hu
  obtain ⟨c, hc, -⟩ := hok.used (by simpa using hu)
  simp at hc

end Geometrix
