import Verif.Lemmas.NodeBsp

/-!
# Helpers for trees with the segments at the nodes: where a point is
-/

set_option linter.unusedSectionVars false

namespace Geometrix
open Spec

variable {K : Type*} [Field K] [LinearOrder K] [IsStrictOrderedRing K]

/-- The segments are the parts of the sides in the cell. -/
structure PartsIn (sides : List (P2 K × P2 K)) (C : List (Half K)) (l : List (P2 K × P2 K)) : Prop where
  part : ∀ f ∈ l, ∃ e ∈ sides, e.1 ≠ e.2 ∧ Part e f
  cell : ∀ f ∈ l, ∀ x, InsideSegment f.1 f.2 x → InCell C x
  cover : ∀ e ∈ sides, ∀ x, OnSegment e.1 e.2 x → InCell C x → ∃ f ∈ l, Part e f ∧ OnSegment f.1 f.2 x

theorem partsIn_root {sides : List (P2 K × P2 K)} (h : ∀ e ∈ sides, e.1 ≠ e.2) : PartsIn sides [] sides :=
  ⟨fun f hf => ⟨f, hf, h f hf, Part.refl f⟩, fun _ _ _ _ => by simp [InCell], fun e he x hx _ => ⟨e, he, Part.refl e, hx⟩⟩

/-- A border has no side without length. -/
theorem leftBorderOf_ne {sides : List (P2 K × P2 K)} {inside : P2 K → Prop} (hb : LeftBorderOf sides inside) :
    ∀ e ∈ sides, e.1 ≠ e.2 := by
  intro e he h
  have hin : InsideSegment e.1 e.2 e.1 := ⟨1 / 2, by norm_num, by norm_num, by rw [← h]; ext <;> simp⟩
  have h0 : toLeft e = 0 := by unfold toLeft; rw [← h]; ext <;> simp
  obtain ⟨c, -, -, -, h1⟩ := hb.right e he _ hin 1 one_pos
  obtain ⟨d, -, -, -, h2⟩ := hb.left e he _ hin 1 one_pos
  rw [h0] at h1 h2
  have e1 : e.1 - c • (0 : P2 K) = e.1 := by ext <;> simp
  have e2 : e.1 + d • (0 : P2 K) = e.1 := by ext <;> simp
  rw [e1] at h1
  rw [e2] at h2
  exact h2 h1

theorem cell_cons {C : List (Half K)} {s : P2 K × P2 K} {x : P2 K} :
    (InCell ((linePlane s, true) :: C) x ↔ 0 < area2 s.1 s.2 x ∧ InCell C x) ∧
    (InCell ((linePlane s, false) :: C) x ↔ area2 s.1 s.2 x < 0 ∧ InCell C x) := by
  constructor <;> simp [InCell, halfDist, linePlane_dist]

theorem closure_cons {C : List (Half K)} {s : P2 K × P2 K} {x : P2 K} :
    (InClosure ((linePlane s, true) :: C) x ↔ 0 ≤ area2 s.1 s.2 x ∧ InClosure C x) ∧
    (InClosure ((linePlane s, false) :: C) x ↔ area2 s.1 s.2 x ≤ 0 ∧ InClosure C x) := by
  constructor <;> simp [InClosure, halfDist, linePlane_dist]

theorem PartsIn.children {sides : List (P2 K × P2 K)} {C : List (Half K)} {l : List (P2 K × P2 K)} {s : P2 K × P2 K}
    {r : Sorted K} (h : PartsIn sides C l) (hr : SortsTo s l r) :
    PartsIn sides ((linePlane s, true) :: C) r.pos ∧ PartsIn sides ((linePlane s, false) :: C) r.neg := by
  obtain ⟨o1, o2, o3⟩ := hr.origin
  constructor
  · refine ⟨?_, ?_, ?_⟩
    · intro f hf
      obtain ⟨e, he, hp, -⟩ := o1 f hf
      obtain ⟨e', he', h1, h2⟩ := h.part e he
      exact ⟨e', he', h1, h2.trans hp⟩
    · intro f hf x hx
      obtain ⟨e, he, hp, h1, h2, h3⟩ := o1 f hf
      rw [cell_cons.1, ← linePlane_dist]
      exact ⟨inside_pos h1 h2 h3 hx, h.cell e he x (hp.inside hx)⟩
    · intro e he x hx hin
      rw [cell_cons.1, ← linePlane_dist] at hin
      obtain ⟨f, hf, hp, hon⟩ := h.cover e he x hx hin.2
      rcases hr.cover f hf x hon with ⟨g, h1, h2, h3⟩ | ⟨g, h1, h2, h3⟩ | ⟨-, h1, h2⟩
      · exact ⟨g, h1, hp.trans h2, h3⟩
      · obtain ⟨-, -, -, k1, k2, -⟩ := o2 g h1
        have := on_nonpos k1 k2 h3
        linarith [hin.1]
      · have := planeDist_onSegment h1 h2 hon
        linarith [hin.1]
  · refine ⟨?_, ?_, ?_⟩
    · intro f hf
      obtain ⟨e, he, hp, -⟩ := o2 f hf
      obtain ⟨e', he', h1, h2⟩ := h.part e he
      exact ⟨e', he', h1, h2.trans hp⟩
    · intro f hf x hx
      obtain ⟨e, he, hp, h1, h2, h3⟩ := o2 f hf
      rw [cell_cons.2, ← linePlane_dist]
      exact ⟨inside_neg h1 h2 h3 hx, h.cell e he x (hp.inside hx)⟩
    · intro e he x hx hin
      rw [cell_cons.2, ← linePlane_dist] at hin
      obtain ⟨f, hf, hp, hon⟩ := h.cover e he x hx hin.2
      rcases hr.cover f hf x hon with ⟨g, h1, h2, h3⟩ | ⟨g, h1, h2, h3⟩ | ⟨-, h1, h2⟩
      · obtain ⟨-, -, -, k1, k2, -⟩ := o1 g h1
        have := on_nonneg k1 k2 h3
        linarith [hin.1]
      · exact ⟨g, h1, hp.trans h2, h3⟩
      · have := planeDist_onSegment h1 h2 hon
        linarith [hin.1]

theorem middle_inside (a b : P2 K) : InsideSegment a b (a + (1 / 2 : K) • (b - a)) :=
  ⟨1 / 2, by norm_num, by norm_num, rfl⟩

theorem area2_step (s : P2 K × P2 K) (x v : P2 K) (e : K) :
    area2 s.1 s.2 (x + e • v) = area2 s.1 s.2 x + e * dot v (toLeft s) := by
  simp only [area2, dot, toLeft, P2.add_x, P2.add_y, P2.smul_x, P2.smul_y]; ring

theorem toLeft_pos {s : P2 K × P2 K} (h : s.1 ≠ s.2) : 0 < dot (toLeft s) (toLeft s) := by
  simp only [dot, toLeft]
  rcases eq_or_ne s.1.x s.2.x with hx | hx
  · have hy : s.1.y ≠ s.2.y := fun hy => h (P2.ext hx hy)
    have := mul_self_pos.2 (sub_ne_zero.2 hy)
    have := mul_self_nonneg (s.2.x - s.1.x)
    linarith
  · have := mul_self_pos.2 (sub_ne_zero.2 hx.symm)
    have := mul_self_nonneg (s.1.y - s.2.y)
    linarith

/-- Next to the splitting segment there are points inside to the left and points outside to the right. -/
theorem beside_split {sides : List (P2 K × P2 K)} {inside : P2 K → Prop} (hb : LeftBorderOf sides inside)
    {C : List (Half K)} {l : List (P2 K × P2 K)} (h : PartsIn sides C l) {s : P2 K × P2 K} (hs : s ∈ l) :
    (∃ y, InCell ((linePlane s, true) :: C) y ∧ ¬OnBorder sides y ∧ inside y) ∧
    (∃ y, InCell ((linePlane s, false) :: C) y ∧ ¬OnBorder sides y ∧ ¬inside y) := by
  obtain ⟨e, he, hne, hp⟩ := h.part s hs
  have hx := middle_inside s.1 s.2
  set x := s.1 + (1 / 2 : K) • (s.2 - s.1) with hxdef
  have hcell := h.cell s hs x hx
  have hx0 : area2 s.1 s.2 x = 0 := by
    rw [hxdef]
    simp only [area2, P2.add_x, P2.add_y, P2.smul_x, P2.smul_y, P2.sub_x, P2.sub_y]; ring
  obtain ⟨k, hk, hd⟩ := hp.dist
  have hx0' : area2 e.1 e.2 x = 0 := by
    have := hd x
    rw [hx0] at this
    exact (mul_eq_zero.1 this.symm).resolve_left hk.ne'
  have hL := toLeft_pos hne
  constructor
  · obtain ⟨δ, hδ, hstep⟩ := small_step x (toLeft e) C
    obtain ⟨c, c0, c1, h1, h2⟩ := hb.left e he x (hp.inside hx) δ hδ
    refine ⟨_, cell_cons.1.2 ⟨?_, fun d hd => hstep c c0 c1 d hd (hcell d hd)⟩, h1, not_not.1 h2⟩
    rw [hd, area2_step, hx0']
    have := mul_pos hk (mul_pos c0 hL)
    linarith
  · obtain ⟨δ, hδ, hstep⟩ := small_step x (-toLeft e) C
    obtain ⟨c, c0, c1, h1, h2⟩ := hb.right e he x (hp.inside hx) δ hδ
    have hsub : x - c • toLeft e = x + c • (-toLeft e) := by
      ext <;> simp only [P2.sub_x, P2.sub_y, P2.smul_x, P2.smul_y, P2.add_x, P2.add_y, P2.neg_x, P2.neg_y] <;> ring
    refine ⟨_, cell_cons.2.2 ⟨?_, ?_⟩, h1, h2⟩
    · rw [hd, hsub, area2_step, hx0']
      have hneg : dot (-toLeft e) (toLeft e) = -dot (toLeft e) (toLeft e) := by
        unfold dot; simp only [P2.neg_x, P2.neg_y]; ring
      rw [hneg]
      have := mul_pos hk (mul_pos c0 hL)
      linarith
    · rw [hsub]
      exact fun d hd => hstep c c0 c1 d hd (hcell d hd)

/-- A point next to a cell without border is like the points of the cell. -/
theorem same_as_cell {sides : List (P2 K × P2 K)} {inside : P2 K → Prop} (hb : LeftBorderOf sides inside)
    {C : List (Half K)} (h : PartsIn sides C []) {p y : P2 K} (hp : InClosure C p) (hy : InCell C y)
    (hoff : ¬OnBorder sides p) : inside p ↔ inside y := by
  rw [← not_iff_not]
  apply hb.across
  intro t t0 t1 hon
  rcases eq_or_lt_of_le t0 with rfl | t0
  · apply hoff
    have : p + (0 : K) • (y - p) = p := by ext <;> simp
    rwa [this] at hon
  · obtain ⟨e, he, hon⟩ := hon
    obtain ⟨f, hf, -⟩ := h.cover e he _ hon (inCell_line hp hy t0 t1)
    simp at hf

/-- The location of a point off the border. -/
noncomputable def locationOf (inside : P2 K → Prop) (p : P2 K) : PointLocation := by
  classical exact if inside p then .inside else .outside

theorem locateNode_node (p : P2 K) (ans : PointLocation) (s : P2 K × P2 K) (coin : List (P2 K × P2 K)) (tp tq : NodeTree K) :
    locateNode Cmp.direct p ans (.node s coin tp tq) =
      match getOrientation Cmp.direct s.1 s.2 p with
      | .left => locateNode Cmp.direct p .inside tp
      | .right => locateNode Cmp.direct p .outside tq
      | .collinear =>
        if coin.any (fun e => isBetween Cmp.direct e.1 e.2 p true) then .boundary
        else
          match tp with
          | .node s' c' p' q' => locateNode Cmp.direct p .boundary (.node s' c' p' q')
          | .nil => locateNode Cmp.direct p .boundary tq := by
  cases tp <;> (cases h : getOrientation Cmp.direct s.1 s.2 p <;> simp [locateNode, h])

theorem locateNode_off {sides : List (P2 K × P2 K)} {inside : P2 K → Prop} (hb : LeftBorderOf sides inside)
    {p : P2 K} (hoff : ¬OnBorder sides p) : ∀ (t : NodeTree K) (l : List (P2 K × P2 K)) (C : List (Half K)) (ans : PointLocation),
    NodeOf l t → PartsIn sides C l → InClosure C p →
    (t = .nil → ∃ y, InCell C y ∧ ans = locationOf inside y) →
    locateNode Cmp.direct p ans t = locationOf inside p
  | .nil, l, C, ans, h, hl, hc, hans => by
    rw [show l = [] from h] at hl
    obtain ⟨y, hy, h1⟩ := hans rfl
    rw [locateNode, h1]
    have hh := same_as_cell hb hl hc hy hoff
    by_cases hi : inside p
    · simp [locationOf, hi, hh.1 hi]
    · simp [locationOf, hi, mt hh.2 hi]
  | .node s coin tp tq, l, C, ans, ⟨hs, r, hr, hco, h1, h2⟩, hl, hc, hans => by
    obtain ⟨c1, c2⟩ := hl.children hr
    obtain ⟨⟨y1, a1, a2, a3⟩, ⟨y2, b1, b2, b3⟩⟩ := beside_split hb hl hs
    have e1 : PointLocation.inside = locationOf inside y1 := by simp [locationOf, a3]
    have e2 : PointLocation.outside = locationOf inside y2 := by simp [locationOf, b3]
    obtain ⟨o1, o2, o3⟩ := orientation_sign s.1 s.2 p
    rw [locateNode_node]
    cases ho : getOrientation Cmp.direct s.1 s.2 p with
    | left =>
      dsimp only
      exact locateNode_off hb hoff tp _ _ _ h1 c1 (closure_cons.1.2 ⟨(o1.1 ho).le, hc⟩) fun _ => ⟨y1, a1, e1⟩
    | right =>
      dsimp only
      exact locateNode_off hb hoff tq _ _ _ h2 c2 (closure_cons.2.2 ⟨(o2.1 ho).le, hc⟩) fun _ => ⟨y2, b1, e2⟩
    | collinear =>
      dsimp only
      have h0 := o3.1 ho
      rw [if_neg]
      · have k1 := closure_cons.1.2 ⟨h0.ge, hc⟩
        have k2 := closure_cons.2.2 ⟨h0.le, hc⟩
        cases tp with
        | node s' c' p' q' =>
          dsimp only
          exact locateNode_off hb hoff _ _ _ _ h1 c1 k1 (by simp)
        | nil =>
          dsimp only
          refine locateNode_off hb hoff tq _ _ _ h2 c2 k2 ?_
          rintro rfl
          exfalso
          rw [show r.pos = [] from h1] at c1
          rw [show r.neg = [] from h2] at c2
          exact b3 ((same_as_cell hb c2 k2 b1 hoff).1 ((same_as_cell hb c1 k1 a1 hoff).2 a3))
      · rw [List.any_eq_true]
        rintro ⟨f, hf, hbt⟩
        rw [hco] at hf
        obtain ⟨e, he, hne, hp⟩ := hl.part f (hr.origin.2.2 f hf).1
        exact hoff ⟨e, he, hp.on ((isBetween_iff_onSegment (hp.ne hne)).1 hbt)⟩

/-- A point not on a segment is strictly in a half plane which does not meet the segment. -/
theorem off_segment {a b p : P2 K} (hab : a ≠ b) (h : ¬OnSegment a b p) :
    ∃ c : Half K, 0 < halfDist c p ∧ ∀ x, OnSegment a b x → halfDist c x ≤ 0 := by
  have hD : 0 < dot (b - a) (b - a) := by
    have := toLeft_pos (s := (a, b)) hab
    simp only [dot, toLeft, P2.sub_x, P2.sub_y] at *
    linarith
  rcases lt_trichotomy (area2 a b p) 0 with h1 | h1 | h1
  · refine ⟨(linePlane (a, b), false), by simpa [halfDist, linePlane_dist] using h1, ?_⟩
    rintro x ⟨t, -, -, rfl⟩
    simp only [halfDist, linePlane_dist, Bool.false_eq_true, if_false, area2, P2.add_x, P2.add_y, P2.smul_x, P2.smul_y, P2.sub_x, P2.sub_y]
    apply le_of_eq; ring
  · by_cases h2 : dot (p - a) (b - a) < 0
    · refine ⟨(⟨b - a, dot a (b - a)⟩, false), ?_, ?_⟩
      · simp only [halfDist, planeDist, dot, Bool.false_eq_true, if_false, P2.sub_x, P2.sub_y] at *
        linarith
      · rintro x ⟨t, t0, -, rfl⟩
        have := mul_nonneg t0 hD.le
        simp only [halfDist, planeDist, dot, Bool.false_eq_true, if_false, P2.sub_x, P2.sub_y, P2.add_x, P2.add_y, P2.smul_x, P2.smul_y] at *
        linarith
    · by_cases h3 : dot (b - a) (b - a) < dot (p - a) (b - a)
      · refine ⟨(⟨b - a, dot b (b - a)⟩, true), ?_, ?_⟩
        · simp only [halfDist, planeDist, dot, if_true, P2.sub_x, P2.sub_y] at *
          linarith
        · rintro x ⟨t, -, t1, rfl⟩
          have := mul_nonneg (sub_nonneg.2 t1) hD.le
          simp only [halfDist, planeDist, dot, if_true, P2.sub_x, P2.sub_y, P2.add_x, P2.add_y, P2.smul_x, P2.smul_y] at *
          linarith
      · push Not at h2 h3
        exfalso
        apply h
        refine ⟨dot (p - a) (b - a) / dot (b - a) (b - a), div_nonneg h2 hD.le, (div_le_one hD).2 h3, ?_⟩
        ext
        · simp only [P2.add_x, P2.smul_x, P2.sub_x]
          rw [div_mul_eq_mul_div, ← sub_eq_iff_eq_add', eq_div_iff hD.ne']
          simp only [dot, area2, P2.sub_x, P2.sub_y] at *
          linear_combination -(b.y - a.y) * h1
        · simp only [P2.add_y, P2.smul_y, P2.sub_y]
          rw [div_mul_eq_mul_div, ← sub_eq_iff_eq_add', eq_div_iff hD.ne']
          simp only [dot, area2, P2.sub_x, P2.sub_y] at *
          linear_combination (b.x - a.x) * h1
  · refine ⟨(linePlane (a, b), true), by simpa [halfDist, linePlane_dist] using h1, ?_⟩
    rintro x ⟨t, -, -, rfl⟩
    simp only [halfDist, linePlane_dist, if_true, area2, P2.add_x, P2.add_y, P2.smul_x, P2.smul_y, P2.sub_x, P2.sub_y]
    apply le_of_eq; ring

/-- Finitely many segments which contain the points next to `p` in one direction contain `p`. -/
theorem segments_closed (p v : P2 K) : ∀ l : List (P2 K × P2 K), (∀ f ∈ l, f.1 ≠ f.2) → (∀ f ∈ l, ¬OnSegment f.1 f.2 p) →
    ∃ δ : K, 0 < δ ∧ ∀ t, 0 < t → t < δ → ∀ f ∈ l, ¬OnSegment f.1 f.2 (p + t • v)
  | [], _, _ => ⟨1, one_pos, by simp⟩
  | f :: l, hne, h => by
    obtain ⟨δ, hδ, h1⟩ := segments_closed p v l (fun g hg => hne g (List.mem_cons_of_mem _ hg))
      (fun g hg => h g (List.mem_cons_of_mem _ hg))
    obtain ⟨c, hc, h2⟩ := off_segment (hne f List.mem_cons_self) (h f List.mem_cons_self)
    obtain ⟨μ, hμ, h3⟩ := small_step p v [c]
    refine ⟨min δ μ, lt_min hδ hμ, fun t t0 t1 g hg => ?_⟩
    rcases List.mem_cons.1 hg with rfl | hg
    · intro hon
      have := h3 t t0 (lt_of_lt_of_le t1 (min_le_right _ _)) c (by simp) hc
      exact absurd (h2 _ hon) (not_le.2 this)
    · exact h1 t t0 (lt_of_lt_of_le t1 (min_le_left _ _)) g hg

theorem onSegment_line {a b p q : P2 K} (hp : OnSegment a b p) (hq : OnSegment a b q) {t : K} (t0 : 0 ≤ t) (t1 : t ≤ 1) :
    OnSegment a b (p + t • (q - p)) := onSegment_trans hp hq ⟨t, t0, t1, rfl⟩

/-- A point of the border on the line of a splitting segment, whose side contains it, is on a coincident
segment. -/
theorem on_coincident {sides : List (P2 K × P2 K)} {C : List (Half K)} {l : List (P2 K × P2 K)} {s : P2 K × P2 K}
    {r : Sorted K} (h : PartsIn sides C l) (hr : SortsTo s l r) (hs : s ∈ l) {p : P2 K} (hc : InClosure C p)
    (hp : ∀ e ∈ sides, Part e s → OnSegment e.1 e.2 p) : ∃ f ∈ r.coin, f.1 ≠ f.2 ∧ OnSegment f.1 f.2 p := by
  obtain ⟨e, he, hne, hpart⟩ := h.part s hs
  have hpe := hp e he hpart
  have hne' : ∀ f ∈ r.coin, f.1 ≠ f.2 := by
    intro f hf
    obtain ⟨e', -, h1, h2⟩ := h.part f (hr.origin.2.2 f hf).1
    exact h2.ne h1
  by_contra hcon
  push Not at hcon
  set y := s.1 + (1 / 2 : K) • (s.2 - s.1) with hy
  have hyc : InCell C y := h.cell s hs y (middle_inside _ _)
  have hye : OnSegment e.1 e.2 y := hpart.on (insideSegment_onSegment (middle_inside _ _))
  obtain ⟨δ, hδ, hcl⟩ := segments_closed p (y - p) r.coin hne' (fun f hf => hcon f hf (hne' f hf))
  obtain ⟨t, t0, t1⟩ := exists_between (lt_min hδ one_pos)
  have tδ := lt_of_lt_of_le t1 (min_le_left _ _)
  have t1' := (lt_of_lt_of_le t1 (min_le_right _ _)).le
  obtain ⟨f, hf, hpf, hon⟩ := h.cover e he _ (onSegment_line hpe hye t0.le t1') (inCell_line hc hyc t0 t1')
  obtain ⟨k, hk, hd⟩ := hpart.dist
  have hz : ∀ x, OnSegment e.1 e.2 x → planeDist (linePlane s) x = 0 := by
    rintro x ⟨u, -, -, rfl⟩
    rw [linePlane_dist, hd]
    simp only [area2, P2.add_x, P2.add_y, P2.smul_x, P2.smul_y, P2.sub_x, P2.sub_y]; ring
  have hends : ∀ g : P2 K × P2 K, OnSegment g.1 g.2 g.1 ∧ OnSegment g.1 g.2 g.2 := fun g =>
    ⟨⟨0, le_refl _, zero_le_one, by ext <;> simp⟩, ⟨1, zero_le_one, le_refl _, by ext <;> simp⟩⟩
  rcases hr.cover f hf _ hon with ⟨g, h1, h2, -⟩ | ⟨g, h1, h2, -⟩ | ⟨h1, -⟩
  · obtain ⟨-, -, -, -, -, h3⟩ := hr.origin.1 g h1
    have z1 := hz _ ((hpf.trans h2).on (hends g).1)
    have z2 := hz _ ((hpf.trans h2).on (hends g).2)
    rcases h3 with h3 | h3 <;> linarith
  · obtain ⟨-, -, -, -, -, h3⟩ := hr.origin.2.1 g h1
    have z1 := hz _ ((hpf.trans h2).on (hends g).1)
    have z2 := hz _ ((hpf.trans h2).on (hends g).2)
    rcases h3 with h3 | h3 <;> linarith
  · exact hcl t t0 tδ f h1 hon

theorem locateNode_on {sides : List (P2 K × P2 K)} {p : P2 K} (hown : OnlyOwnLines sides p) {e : P2 K × P2 K}
    (he : e ∈ sides) (hpe : OnSegment e.1 e.2 p) : ∀ (t : NodeTree K) (l : List (P2 K × P2 K)) (C : List (Half K)) (ans : PointLocation),
    NodeOf l t → PartsIn sides C l → InClosure C p → (∃ y, OnSegment e.1 e.2 y ∧ InCell C y) →
    locateNode Cmp.direct p ans t = .boundary
  | .nil, l, C, ans, h, hl, hc, ⟨y, h1, h2⟩ => by
    rw [show l = [] from h] at hl
    obtain ⟨f, hf, -⟩ := hl.cover e he y h1 h2
    simp at hf
  | .node s coin tp tq, l, C, ans, ⟨hs, r, hr, hco, h1, h2⟩, hl, hc, ⟨y, hy1, hy2⟩ => by
    obtain ⟨c1, c2⟩ := hl.children hr
    obtain ⟨o1, o2, o3⟩ := orientation_sign s.1 s.2 p
    have near : ∀ c : Half K, 0 < halfDist c p → ∃ z, OnSegment e.1 e.2 z ∧ InCell C z ∧ 0 < halfDist c z := by
      intro c hcp
      obtain ⟨δ, hδ, hst⟩ := small_step p (y - p) [c]
      obtain ⟨t, t0, t1⟩ := exists_between (lt_min hδ one_pos)
      have t1' := (lt_of_lt_of_le t1 (min_le_right _ _)).le
      exact ⟨p + t • (y - p), onSegment_line hpe hy1 t0.le t1', inCell_line hc hy2 t0 t1',
        hst t t0 (lt_of_lt_of_le t1 (min_le_left _ _)) c (by simp) hcp⟩
    rw [locateNode_node]
    cases ho : getOrientation Cmp.direct s.1 s.2 p with
    | left =>
      dsimp only
      have h0 := o1.1 ho
      refine locateNode_on hown he hpe tp _ _ _ h1 c1 (closure_cons.1.2 ⟨h0.le, hc⟩) ?_
      obtain ⟨z, z1, z2, z3⟩ := near (linePlane s, true) (by simpa [halfDist, linePlane_dist] using h0)
      exact ⟨z, z1, cell_cons.1.2 ⟨by simpa [halfDist, linePlane_dist] using z3, z2⟩⟩
    | right =>
      dsimp only
      have h0 := o2.1 ho
      refine locateNode_on hown he hpe tq _ _ _ h2 c2 (closure_cons.2.2 ⟨h0.le, hc⟩) ?_
      obtain ⟨z, z1, z2, z3⟩ := near (linePlane s, false) (by simpa [halfDist, linePlane_dist] using h0)
      exact ⟨z, z1, cell_cons.2.2 ⟨by simpa [halfDist, linePlane_dist] using z3, z2⟩⟩
    | collinear =>
      dsimp only
      have h0 := o3.1 ho
      rw [if_pos]
      obtain ⟨f, hf, hne, hon⟩ := on_coincident hl hr hs hc fun e' he' hpart => hown e' he' (by
        obtain ⟨k, hk, hd⟩ := hpart.dist
        have := hd p
        rw [h0] at this
        exact (mul_eq_zero.1 this.symm).resolve_left hk.ne')
      rw [List.any_eq_true]
      exact ⟨f, by rw [hco]; exact hf, (isBetween_iff_onSegment hne).2 hon⟩

theorem locationOf_ne {inside : P2 K → Prop} {p : P2 K} : locationOf inside p ≠ .boundary := by
  unfold locationOf
  split_ifs <;> simp

end Geometrix
