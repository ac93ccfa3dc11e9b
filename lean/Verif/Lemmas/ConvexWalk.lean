import Verif.Lemmas.ConvexParity
import Verif.Props.SegmentIntersection

/-!
# The walk along two convex polygons
-/

set_option linter.unusedSectionVars false

namespace Geometrix

open Spec

variable {K : Type*} [Field K] [LinearOrder K] [IsStrictOrderedRing K]

/-! ## The walk ends -/

/-- With the direct comparison the intersection of two segments has no fault. -/
theorem segSeg_total (A B C D : P2 K) : ∃ r, segSegIntersection Cmp.direct A B C D = .ok r := by
  unfold segSegIntersection
  simp only [direct_equals]
  by_cases h : xDenom A B C D = 0
  · simp [h]
  · simp only [h, decide_false, Bool.false_eq_true, if_false, cdiv_ok h]
    split_ifs <;> exact ⟨_, rfl⟩

/-- The number of turns that are left at most. -/
def Trav.left (n m : Nat) (s : Trav K) : Nat :=
  (2 * n + 2 * m - (s.aa + s.ba)) + if s.visited = 0 then 2 * n + 2 * m else 0

theorem found_facts (s : Trav K) (x : P2 K) (o o' : Orient) :
    (s.found x o o').a = s.a ∧ (s.found x o o').b = s.b ∧ (s.found x o o').out = s.out ++ [x] ∧
    (s.found x o o').visited = s.visited + 1 ∧
    ((s.found x o o').aa = s.aa ∧ (s.found x o o').ba = s.ba ∨
      s.visited = 0 ∧ (s.found x o o').aa = 0 ∧ (s.found x o o').ba = 0) := by
  unfold Trav.found Trav.visit
  dsimp only
  split_ifs with h1 h2 h3 <;> simp_all

theorem advance_facts (s : Trav K) (n m : Nat) (pa qb : P2 K) (o1 o2 o3 : Orient) :
    let s' := s.advance n m pa qb o1 o2 o3
    s.visited ≤ s'.visited ∧ s'.flag = s.flag ∧
    (s'.out = s.out ∧ s'.visited = s.visited ∨ s.flag ≠ .unknown ∧ (s'.out = s.out ++ [pa] ∨ s'.out = s.out ++ [qb])) ∧
    ((s'.a = (s.a + 1) % n ∧ s'.b = s.b ∧ s'.aa = s.aa + 1 ∧ s'.ba = s.ba) ∨
      (s'.a = s.a ∧ s'.b = (s.b + 1) % m ∧ s'.aa = s.aa ∧ s'.ba = s.ba + 1)) := by
  intro s'
  show s.visited ≤ (s.advance n m pa qb o1 o2 o3).visited ∧ (s.advance n m pa qb o1 o2 o3).flag = s.flag ∧
    ((s.advance n m pa qb o1 o2 o3).out = s.out ∧ (s.advance n m pa qb o1 o2 o3).visited = s.visited ∨
      s.flag ≠ .unknown ∧ ((s.advance n m pa qb o1 o2 o3).out = s.out ++ [pa] ∨
        (s.advance n m pa qb o1 o2 o3).out = s.out ++ [qb])) ∧
    (((s.advance n m pa qb o1 o2 o3).a = (s.a + 1) % n ∧ (s.advance n m pa qb o1 o2 o3).b = s.b ∧
      (s.advance n m pa qb o1 o2 o3).aa = s.aa + 1 ∧ (s.advance n m pa qb o1 o2 o3).ba = s.ba) ∨
      ((s.advance n m pa qb o1 o2 o3).a = s.a ∧ (s.advance n m pa qb o1 o2 o3).b = (s.b + 1) % m ∧
      (s.advance n m pa qb o1 o2 o3).aa = s.aa ∧ (s.advance n m pa qb o1 o2 o3).ba = s.ba + 1))
  unfold Trav.advance Trav.stepA Trav.stepB Trav.visit
  split_ifs <;> simp_all

/-- What one turn does. -/
structure Turn (p q : List (P2 K)) (s : Trav K) (pa1 pa qb1 qb : P2 K) : Prop where
  ha : s.a < p.length
  hb : s.b < q.length
  edgeA : IsPolygonEdge p ((s.a + p.length - 1) % p.length) pa1 pa
  edgeB : IsPolygonEdge q ((s.b + q.length - 1) % q.length) qb1 qb

theorem prev_next {a n : Nat} (h : a < n) : ((a + n - 1) % n + 1) % n = a := by
  rw [Nat.mod_add_mod, show a + n - 1 + 1 = a + n by omega, Nat.add_mod_right, Nat.mod_eq_of_lt h]

theorem turn_exists (p q : List (P2 K)) (s : Trav K) (ha : s.a < p.length) (hb : s.b < q.length) :
    ∃ pa1 pa qb1 qb, Turn p q s pa1 pa qb1 qb := by
  refine ⟨p[(s.a + p.length - 1) % p.length]'(Nat.mod_lt _ (by omega)), p[s.a], q[(s.b + q.length - 1) % q.length]'(Nat.mod_lt _ (by omega)), q[s.b], ha, hb, ⟨List.getElem?_eq_getElem _, ?_⟩,
    ⟨List.getElem?_eq_getElem _, ?_⟩⟩
  · rw [prev_next ha]; exact List.getElem?_eq_getElem _
  · rw [prev_next hb]; exact List.getElem?_eq_getElem _

/-- The body of the loop for a turn. -/
theorem travBody_eq {p q : List (P2 K)} {s : Trav K} {pa1 pa qb1 qb : P2 K} (h : Turn p q s pa1 pa qb1 qb)
    {ty : IType} {pts : List (P2 K)} (hseg : segSegIntersection Cmp.direct pa1 pa qb1 qb = .ok (ty, pts)) :
    travBody Cmp.direct p q s =
      if ty = .overlapping ∧ dot (pa - pa1) (qb - qb1) < 0 then .ok (.inl (.face, s.out ++ pts))
      else
        let s1 := s.look ty pts (getOrientation Cmp.direct qb1 qb pa) (getOrientation Cmp.direct pa1 pa qb)
        if getOrientationV Cmp.direct (pa - pa1) (qb - qb1) = .collinear ∧
            getOrientation Cmp.direct qb1 qb pa = .right ∧ getOrientation Cmp.direct pa1 pa qb = .right then
          .ok (.inl (.none, s1.out))
        else .ok (.inr (s1.advance p.length q.length pa qb (getOrientationV Cmp.direct (pa - pa1) (qb - qb1))
          (getOrientation Cmp.direct qb1 qb pa) (getOrientation Cmp.direct pa1 pa qb))) := by
  have ea := h.edgeA.2
  have eb := h.edgeB.2
  rw [prev_next h.ha] at ea
  rw [prev_next h.hb] at eb
  unfold travBody
  rw [ea, eb, h.edgeA.1, h.edgeB.1]
  simp only [hseg]

/-- One turn: it ends the function, or it leaves a state with fewer turns left. -/
theorem turn_left {p q : List (P2 K)} {s : Trav K} {pa1 pa qb1 qb : P2 K} (h : Turn p q s pa1 pa qb1 qb)
    (h1 : s.aa < 2 * p.length) (h2 : s.ba < 2 * q.length) :
    (∃ r, travBody Cmp.direct p q s = .ok (.inl r)) ∨
    ∃ s', travBody Cmp.direct p q s = .ok (.inr s') ∧ s'.a < p.length ∧ s'.b < q.length ∧
      s'.left p.length q.length < s.left p.length q.length := by
  obtain ⟨⟨ty, pts⟩, hseg⟩ := segSeg_total pa1 pa qb1 qb
  rw [travBody_eq h hseg]
  split_ifs with hf hn
  · exact Or.inl ⟨_, rfl⟩
  · exact Or.inl ⟨_, rfl⟩
  · right
    refine ⟨_, rfl, ?_⟩
    have key : ∀ s1 : Trav K, (s1 = s ∨ ∃ x o o', s1 = s.found x o o') → ∀ o1 o2 o3,
        (s1.advance p.length q.length pa qb o1 o2 o3).a < p.length ∧
        (s1.advance p.length q.length pa qb o1 o2 o3).b < q.length ∧
        (s1.advance p.length q.length pa qb o1 o2 o3).left p.length q.length < s.left p.length q.length := by
      intro s1 hs1 o1 o2 o3
      obtain ⟨v1, -, -, v4⟩ := advance_facts s1 p.length q.length pa qb o1 o2 o3
      have ha := h.ha
      have hb := h.hb
      have hma : (s.a + 1) % p.length < p.length := Nat.mod_lt _ (by omega)
      have hmb : (s.b + 1) % q.length < q.length := Nat.mod_lt _ (by omega)
      have hs : s1.a = s.a ∧ s1.b = s.b ∧ (s1.visited = s.visited ∧ s1.aa = s.aa ∧ s1.ba = s.ba ∨
          s1.visited = s.visited + 1 ∧ (s1.aa = s.aa ∧ s1.ba = s.ba ∨ s.visited = 0 ∧ s1.aa = 0 ∧ s1.ba = 0)) := by
        rcases hs1 with rfl | ⟨x, o, o', rfl⟩
        · simp
        · obtain ⟨f1, f2, -, f4, f5⟩ := found_facts s x o o'
          exact ⟨f1, f2, Or.inr ⟨f4, f5⟩⟩
      obtain ⟨e1, e2, e3⟩ := hs
      rw [e1, e2] at v4
      refine ⟨by rcases v4 with v | v <;> omega, by rcases v4 with v | v <;> omega, ?_⟩
      unfold Trav.left
      by_cases hv : s.visited = 0
      · rw [if_pos hv]
        rcases e3 with ⟨e4, e5, e6⟩ | ⟨e4, e5⟩
        · split_ifs <;> (rcases v4 with v | v <;> omega)
        · rw [if_neg (by omega)]
          rcases e5 with e5 | e5 <;> (rcases v4 with v | v <;> omega)
      · rw [if_neg hv]
        rw [if_neg (by rcases e3 with e3 | e3 <;> omega)]
        rcases e3 with ⟨e4, e5, e6⟩ | ⟨e4, e5⟩
        · rcases v4 with v | v <;> omega
        · rcases e5 with e5 | e5
          · rcases v4 with v | v <;> omega
          · omega
    apply key
    unfold Trav.look
    cases pts with
    | nil => split_ifs <;> exact Or.inl rfl
    | cons x xs =>
      split_ifs
      · exact Or.inr ⟨_, _, _, rfl⟩
      · exact Or.inl rfl

/-- The kinds of results of the end of the function. -/
theorem travEnd_kinds (p q : List (P2 K)) (hp : 0 < p.length) (hq : 0 < q.length) (s : Trav K) :
    (∃ r, travEnd p q s = .ok r) ∨ travEnd p q s = .error .assertFailed ∨
    (travEnd p q s = .error .outOfRange ∧ p.length < q.length) := by
  unfold travEnd
  rw [List.getElem?_eq_getElem hp, List.getElem?_eq_getElem hq]
  dsimp only
  by_cases h1 : s.flag = .unknown
  · rw [if_pos h1]
    by_cases h2 : s.visited ≠ 0
    · rw [if_pos h2]; exact Or.inr (Or.inl rfl)
    · rw [if_neg h2]
      unfold firstPoints
      by_cases h3 : pointInPolygon p[0] q = true
      · rw [if_pos h3]
        by_cases h4 : q.length ≤ p.length
        · rw [if_pos h4]; exact Or.inl ⟨_, rfl⟩
        · rw [if_neg h4]; exact Or.inr (Or.inr ⟨rfl, by omega⟩)
      · rw [if_neg h3, if_pos le_rfl]
        left
        split_ifs <;> exact ⟨_, rfl⟩
  · rw [if_neg h1]; exact Or.inl ⟨_, rfl⟩

/-- The loop ends, and the result does not depend on the bound on the number of turns. -/
theorem travLoop_total (p q : List (P2 K)) : ∀ (k : Nat) (s : Trav K), s.a < p.length → s.b < q.length →
    s.aa < 2 * p.length → s.ba < 2 * q.length → s.left p.length q.length ≤ k → ∃ r,
      (∀ fuel, k ≤ fuel → travLoop Cmp.direct p q fuel s = r) ∧
      ((∃ v, r = .ok v) ∨ r = .error .assertFailed ∨ (r = .error .outOfRange ∧ p.length < q.length)) := by
  intro k
  induction k with
  | zero =>
    intro s _ _ h1 h2 h
    unfold Trav.left at h
    exfalso
    split_ifs at h <;> omega
  | succ k ih =>
    intro s ha hb h1 h2 h
    obtain ⟨pa1, pa, qb1, qb, ht⟩ := turn_exists p q s ha hb
    rcases turn_left ht h1 h2 with ⟨r, hr⟩ | ⟨s', hs', ha', hb', hlt⟩
    · refine ⟨.ok r, fun fuel hf => ?_, Or.inl ⟨r, rfl⟩⟩
      obtain ⟨f, rfl⟩ : ∃ f, fuel = f + 1 := ⟨fuel - 1, by omega⟩
      rw [travLoop, hr]
    · by_cases hc : (s'.aa < p.length ∨ s'.ba < q.length) ∧ s'.aa < p.length * 2 ∧ s'.ba < q.length * 2
      · obtain ⟨r, h3, h4⟩ := ih s' ha' hb' (by omega) (by omega) (by omega)
        refine ⟨r, fun fuel hf => ?_, h4⟩
        obtain ⟨f, rfl⟩ : ∃ f, fuel = f + 1 := ⟨fuel - 1, by omega⟩
        rw [travLoop, hs']
        dsimp only
        rw [if_pos hc]
        exact h3 f (by omega)
      · refine ⟨travEnd p q s', fun fuel hf => ?_, travEnd_kinds p q (by omega) (by omega) s'⟩
        obtain ⟨f, rfl⟩ : ∃ f, fuel = f + 1 := ⟨fuel - 1, by omega⟩
        rw [travLoop, hs']
        dsimp only
        rw [if_neg hc]

/-! ## What the results mean -/

/-- What is known about the points visited so far. -/
structure Sound (p q : List (P2 K)) (s : Trav K) : Prop where
  ha : s.a < p.length
  hb : s.b < q.length
  flag : s.flag ≠ .unknown → s.visited ≠ 0
  common : s.visited ≠ 0 → ∃ X, OnBoundary p X ∧ OnBoundary q X
  none : s.visited = 0 → s.out = []
  points : ∀ X ∈ s.out, (OnBoundary p X ∧ OnBoundary q X) ∨ X ∈ p ∨ X ∈ q

theorem getOrientationV_collinear (A B : P2 K) : getOrientationV Cmp.direct A B = .collinear ↔ cross A B = 0 := by
  unfold getOrientationV orientationOf cross
  simp only [direct_lt, direct_gt]
  rcases lt_trichotomy (A.x * B.y) (A.y * B.x) with h | h | h
  · simp [h, h.ne, sub_eq_zero]
  · simp [h]
  · simp [h, h.ne', sub_eq_zero, not_lt.2 h.le]

/-- Two parallel sides that have each other on their right separate the polygons. -/
theorem parallel_separate {p q : List (P2 K)} {i j : Nat} {pa1 pa qb1 qb X : P2 K} (hA : IsPolygonEdge p i pa1 pa)
    (hB : IsPolygonEdge q j qb1 qb) (hne : pa1 ≠ pa) (h0 : cross (pa - pa1) (qb - qb1) = 0)
    (h1 : area2 qb1 qb pa < 0) (h2 : area2 pa1 pa qb < 0) (hX : InsideAllSides p X) (hY : InsideAllSides q X) : False := by
  have c1 := hX _ ((mem_sides_iff p (pa1, pa)).2 ⟨i, hA⟩)
  have c2 := hY _ ((mem_sides_iff q (qb1, qb)).2 ⟨j, hB⟩)
  simp only at c1 c2
  obtain ⟨l, hl⟩ := (cross_eq_zero_iff (sub_ne_zero_P2 hne)).1 h0
  have lx : qb.x - qb1.x = l * (pa.x - pa1.x) := by simpa using congrArg P2.x hl
  have ly : qb.y - qb1.y = l * (pa.y - pa1.y) := by simpa using congrArg P2.y hl
  have e1 : area2 qb1 qb pa = -(l * area2 pa1 pa qb) := by
    unfold area2
    linear_combination (pa.y - qb.y) * lx - (pa.x - qb.x) * ly
  have e2 : area2 qb1 qb X = l * (area2 pa1 pa X - area2 pa1 pa qb) := by
    unfold area2
    linear_combination (X.y - qb.y) * lx - (X.x - qb.x) * ly
  rw [e1] at h1
  rw [e2] at c2
  have hl0 : l < 0 := by
    by_contra hcon
    push Not at hcon
    nlinarith
  have : 0 < area2 pa1 pa X - area2 pa1 pa qb := by linarith
  nlinarith

/-- Sides that overlap in opposite directions: the common part of the polygons is the overlap. -/
theorem opposite_overlap {p q : List (P2 K)} (np : 2 < p.length) (nq : 2 < q.length) (hp : StrictlyConvex p)
    (hq : StrictlyConvex q) {i j : Nat} {pa1 pa qb1 qb X : P2 K} (hA : IsPolygonEdge p i pa1 pa)
    (hB : IsPolygonEdge q j qb1 qb) (hc : OnLine pa1 pa qb1) (hd : OnLine pa1 pa qb)
    (hdot : dot (pa - pa1) (qb - qb1) < 0) :
    (InsideAllSides p X ∧ InsideAllSides q X) ↔ Common pa1 pa qb1 qb X := by
  constructor
  · rintro ⟨h1, h2⟩
    have c1 := h1 _ ((mem_sides_iff p (pa1, pa)).2 ⟨i, hA⟩)
    have c2 := h2 _ ((mem_sides_iff q (qb1, qb)).2 ⟨j, hB⟩)
    simp only at c1 c2
    obtain ⟨s, rfl⟩ := hc
    obtain ⟨t, rfl⟩ := hd
    have e : area2 (pa1 + s • (pa - pa1)) (pa1 + t • (pa - pa1)) X = (t - s) * area2 pa1 pa X := by
      unfold area2
      simp only [P2.add_x, P2.add_y, P2.smul_x, P2.smul_y, P2.sub_x, P2.sub_y]
      ring
    have e2 : dot (pa - pa1) (pa1 + t • (pa - pa1) - (pa1 + s • (pa - pa1))) = (t - s) * normSq (pa - pa1) := by
      unfold normSq dot
      simp only [P2.add_x, P2.add_y, P2.smul_x, P2.smul_y, P2.sub_x, P2.sub_y]
      ring
    rw [e2] at hdot
    have hts : t - s < 0 := by
      by_contra hcon
      push Not at hcon
      have := mul_nonneg hcon (normSq_nonneg (pa - pa1))
      linarith
    rw [e] at c2
    have hz : area2 pa1 pa X = 0 := by
      rcases c1.eq_or_lt with h | h
      · exact h.symm
      · have := mul_neg_of_neg_of_pos hts h
        linarith
    exact ⟨on_side_of_inside np hp hA h1 hz, on_side_of_inside nq hq hB h2 (by rw [e, hz, mul_zero])⟩
  · rintro ⟨h1, h2⟩
    exact ⟨inside_boundary hp ⟨i, _, _, hA, h1⟩, inside_boundary hq ⟨j, _, _, hB, h2⟩⟩

theorem convex_proper {p : List (P2 K)} (np : 2 < p.length) (hp : StrictlyConvex p) : ProperPolygon p := by
  intro i A B h hAB
  obtain ⟨u, w, -, -, h1, -⟩ := side_neighbours np hp h
  rw [hAB] at h1
  unfold area2 at h1
  have : (B.x - u.x) * (B.y - u.y) - (B.y - u.y) * (B.x - u.x) = 0 := by ring
  linarith

/-- What a turn of the walk along convex polygons does. -/
theorem turn_sound {p q : List (P2 K)} (np : 2 < p.length) (nq : 2 < q.length) (hp : StrictlyConvex p)
    (hq : StrictlyConvex q) {s : Trav K} (hs : Sound p q s) :
    (∃ x y, travBody Cmp.direct p q s = .ok (.inl (.face, s.out ++ [x, y])) ∧
      (∀ X, (InsideAllSides p X ∧ InsideAllSides q X) ↔ OnSegment x y X) ∧ OnBoundary p x ∧ OnBoundary q x) ∨
    (travBody Cmp.direct p q s = .ok (.inl (.none, [])) ∧ ¬ ∃ X, InsideAllSides p X ∧ InsideAllSides q X) ∨
    ∃ s', travBody Cmp.direct p q s = .ok (.inr s') ∧ Sound p q s' ∧
      ((¬ ∃ X, OnBoundary p X ∧ OnBoundary q X) → s'.visited = 0) := by
  obtain ⟨pa1, pa, qb1, qb, ht⟩ := turn_exists p q s hs.ha hs.hb
  have hA := convex_proper np hp _ _ _ ht.edgeA
  have hB := convex_proper nq hq _ _ _ ht.edgeB
  obtain ⟨ty, pts, hseg, hcor⟩ := C09_segment_segment pa1 pa qb1 qb hA hB
  rw [travBody_eq ht hseg]
  have pA : pa ∈ p := List.mem_of_getElem? ht.edgeA.2
  have pB : qb ∈ q := List.mem_of_getElem? ht.edgeB.2
  -- the state after the look at the intersection
  have hs1 : ∀ s1 : Trav K,
      s1 = s.look ty pts (getOrientation Cmp.direct qb1 qb pa) (getOrientation Cmp.direct pa1 pa qb) → Sound p q s1 ∧ ((¬ ∃ X, OnBoundary p X ∧ OnBoundary q X) → s1.visited = 0) := by
    intro s1 h1
    have hsame : Sound p q s ∧ ((¬ ∃ X, OnBoundary p X ∧ OnBoundary q X) → s.visited = 0) :=
      ⟨hs, fun h => by by_contra hv; exact h (hs.common hv)⟩
    unfold Trav.look at h1
    cases pts with
    | nil => split_ifs at h1 <;> (rw [h1]; exact hsame)
    | cons x xs =>
      split_ifs at h1 with hty
      · obtain ⟨P, hP, hPc⟩ := hcor.point hty
        have hx : x = P := by simpa using (List.cons.inj hP).1
        have hcom := (hPc P).2 rfl
        have hX : OnBoundary p x ∧ OnBoundary q x := by
          rw [hx]
          exact ⟨⟨_, _, _, ht.edgeA, hcom.1⟩, ⟨_, _, _, ht.edgeB, hcom.2⟩⟩
        obtain ⟨f1, f2, f3, f4, -⟩ := found_facts s x (getOrientation Cmp.direct qb1 qb pa)
          (getOrientation Cmp.direct pa1 pa qb)
        dsimp only at h1
        rw [← h1] at f1 f2 f3 f4
        refine ⟨⟨by rw [f1]; exact hs.ha, by rw [f2]; exact hs.hb, fun _ => by omega, fun _ => ⟨x, hX⟩,
          fun h => by omega, ?_⟩, fun h => absurd ⟨x, hX⟩ h⟩
        intro X hXm
        rw [f3] at hXm
        rcases List.mem_append.1 hXm with h | h
        · exact hs.points X h
        · rw [List.mem_singleton] at h
          rw [h]; exact Or.inl hX
      · rw [h1]; exact hsame
  split_ifs with hf hn
  · left
    obtain ⟨P, Q, hPQ, hc⟩ := hcor.part hf.1
    obtain ⟨l1, l2, -⟩ := hcor.overlapping.1 hf.1
    have hP := (hc P).2 (onSegment_left _ _)
    refine ⟨P, Q, by rw [hPQ], fun X => ?_, ⟨_, _, _, ht.edgeA, hP.1⟩, ⟨_, _, _, ht.edgeB, hP.2⟩⟩
    rw [opposite_overlap np nq hp hq ht.edgeA ht.edgeB l1 l2 hf.2, hc X]
  · right; left
    obtain ⟨g1, g2⟩ := hs1 _ rfl
    have hno : ¬ ∃ X, InsideAllSides p X ∧ InsideAllSides q X := by
      rintro ⟨X, hX1, hX2⟩
      exact parallel_separate ht.edgeA ht.edgeB hA ((getOrientationV_collinear _ _).1 hn.1)
        ((orientation_sign _ _ _).2.1.1 hn.2.1) ((orientation_sign _ _ _).2.1.1 hn.2.2) hX1 hX2
    refine ⟨?_, hno⟩
    have hv := g2 (by
      rintro ⟨X, h1, h2⟩
      exact hno ⟨X, inside_boundary hp h1, inside_boundary hq h2⟩)
    dsimp only
    rw [g1.none hv]
  · right; right
    refine ⟨_, rfl, ?_⟩
    obtain ⟨g1, g2⟩ := hs1 _ rfl
    obtain ⟨v1, v2, v3, v4⟩ := advance_facts (s.look ty pts (getOrientation Cmp.direct qb1 qb pa) (getOrientation Cmp.direct pa1 pa qb)) p.length q.length pa qb (getOrientationV Cmp.direct (pa - pa1) (qb - qb1))
          (getOrientation Cmp.direct qb1 qb pa) (getOrientation Cmp.direct pa1 pa qb)
    generalize (s.look ty pts (getOrientation Cmp.direct qb1 qb pa) (getOrientation Cmp.direct pa1 pa qb)) = s1 at g1 g2 v1 v2 v3 v4 ⊢
    generalize (s1.advance p.length q.length pa qb (getOrientationV Cmp.direct (pa - pa1) (qb - qb1))
          (getOrientation Cmp.direct qb1 qb pa) (getOrientation Cmp.direct pa1 pa qb)) = s2 at v1 v2 v3 v4 ⊢
    have hvis : s1.visited = 0 → s2.visited = 0 := by
      intro h0
      rcases v3 with ⟨-, h⟩ | ⟨h, -⟩
      · omega
      · exact absurd h0 (g1.flag h)
    refine ⟨⟨?_, ?_, ?_, ?_, ?_, ?_⟩, fun h => hvis (g2 h)⟩
    · have := Nat.mod_lt (s1.a + 1) (by omega : 0 < p.length)
      have := g1.ha
      rcases v4 with v | v <;> omega
    · have := Nat.mod_lt (s1.b + 1) (by omega : 0 < q.length)
      have := g1.hb
      rcases v4 with v | v <;> omega
    · intro h
      rw [v2] at h
      have := g1.flag h
      omega
    · intro h
      exact g1.common fun h0 => h (hvis h0)
    · intro h
      rcases v3 with ⟨h1, h2⟩ | ⟨h1, -⟩
      · rw [h1]; exact g1.none (by omega)
      · have := g1.flag h1
        omega
    · intro X hX
      rcases v3 with ⟨h1, -⟩ | ⟨-, h1 | h1⟩
      · rw [h1] at hX; exact g1.points X hX
      · rw [h1] at hX
        rcases List.mem_append.1 hX with h | h
        · exact g1.points X h
        · rw [List.mem_singleton] at h
          rw [h]; exact Or.inr (Or.inl pA)
      · rw [h1] at hX
        rcases List.mem_append.1 hX with h | h
        · exact g1.points X h
        · rw [List.mem_singleton] at h
          rw [h]; exact Or.inr (Or.inr pB)

/-- How the walk ends. -/
theorem walk_ends {p q : List (P2 K)} (np : 2 < p.length) (nq : 2 < q.length) (hp : StrictlyConvex p)
    (hq : StrictlyConvex q) : ∀ (fuel : Nat) (s : Trav K), Sound p q s →
    travLoop Cmp.direct p q fuel s = .error .diverges ∨
    (∃ out x y, travLoop Cmp.direct p q fuel s = .ok (.face, out ++ [x, y]) ∧
      (∀ X, (InsideAllSides p X ∧ InsideAllSides q X) ↔ OnSegment x y X) ∧ (OnBoundary p x ∧ OnBoundary q x) ∧
      ∀ X ∈ out, (OnBoundary p X ∧ OnBoundary q X) ∨ X ∈ p ∨ X ∈ q) ∨
    (travLoop Cmp.direct p q fuel s = .ok (.none, []) ∧ ¬ ∃ X, InsideAllSides p X ∧ InsideAllSides q X) ∨
    ∃ s', travLoop Cmp.direct p q fuel s = travEnd p q s' ∧ Sound p q s' ∧
      ((¬ ∃ X, OnBoundary p X ∧ OnBoundary q X) → s'.visited = 0) := by
  intro fuel
  induction fuel with
  | zero => intro s _; exact Or.inl rfl
  | succ fuel ih =>
    intro s hs
    rw [travLoop]
    rcases turn_sound np nq hp hq hs with ⟨x, y, h1, h2⟩ | ⟨h1, h2⟩ | ⟨s', h1, h2, h3⟩
    · rw [h1]
      exact Or.inr (Or.inl ⟨s.out, x, y, rfl, h2.1, h2.2, hs.points⟩)
    · rw [h1]
      exact Or.inr (Or.inr (Or.inl ⟨rfl, h2⟩))
    · rw [h1]
      dsimp only
      split_ifs with hc
      · exact ih s' h2
      · exact Or.inr (Or.inr (Or.inr ⟨s', rfl, h2, h3⟩))

/-- If the borders have no common point, the points of one border are all in the other polygon or all outside. -/
theorem border_const {p q : List (P2 K)} (h : ¬ ∃ X, OnBoundary p X ∧ OnBoundary q X) {X Y : P2 K}
    (hX : OnBoundary q X) (hY : Y ∈ q) : InClosed p X ↔ InClosed p Y := by
  obtain ⟨i, A, B, hAB, hXs⟩ := hX
  have m := (mem_sides_iff q (A, B)).2 ⟨i, hAB⟩
  have hcon : ∀ e ∈ sides q, ∀ U V, OnSegment e.1 e.2 U → OnSegment e.1 e.2 V → (InClosed p U ↔ InClosed p V) := by
    intro e he U V hU hV
    refine closed_const fun Z hZ hb => h ⟨Z, hb, ?_⟩
    obtain ⟨k, hk⟩ := (mem_sides_iff q e).1 he
    refine ⟨k, _, _, hk, ?_⟩
    obtain ⟨s, s0, s1, rfl⟩ := hU
    obtain ⟨t, t0, t1, rfl⟩ := hV
    obtain ⟨u, u0, u1, rfl⟩ := hZ
    refine ⟨s + u * (t - s), by nlinarith, by nlinarith, ?_⟩
    ext <;> simp <;> ring
  rw [hcon _ m X A hXs (onSegment_left _ _)]
  have hA := (vertex_of_side m).1
  constructor
  · intro h1
    exact ring_all (InClosed p) (fun e he h => (hcon e he _ _ (onSegment_left _ _) (onSegment_right _ _)).1 h) hA h1 hY
  · intro h1
    exact ring_all (InClosed p) (fun e he h => (hcon e he _ _ (onSegment_left _ _) (onSegment_right _ _)).1 h) hY h1 hA

/-- Two convex polygons with disjoint borders and a common point: one contains a given vertex of the other. -/
theorem apart_borders {p q : List (P2 K)} (np : 2 < p.length) (nq : 2 < q.length) (hp : StrictlyConvex p)
    (hq : StrictlyConvex q) (h : ¬ ∃ X, OnBoundary p X ∧ OnBoundary q X) {X u v : P2 K} (h1 : InsideAllSides p X)
    (h2 : InsideAllSides q X) (hu : u ∈ p) (hv : v ∈ q) : InClosed q u ∨ InClosed p v := by
  by_cases hm : ∃ Z, OnSegment X u Z ∧ OnBoundary q Z
  · obtain ⟨Z, hZ, hb⟩ := hm
    right
    rw [← border_const h hb hv, convex_closed np hp]
    exact inside_segment h1 (fun e he => convex_vertex hp he hu) hZ
  · left
    rw [← closed_const (A := X) (B := u) fun Z hZ hb => hm ⟨Z, hZ, hb⟩, convex_closed nq hq]
    exact h2

/-- Two polygons with disjoint borders do not contain each other's vertices: the highest vertex of all would be on both
borders. -/
theorem nested_apart {p q : List (P2 K)} (np : 2 < p.length) (nq : 2 < q.length) (hp : StrictlyConvex p)
    (hq : StrictlyConvex q) (h : ¬ ∃ X, OnBoundary p X ∧ OnBoundary q X) (h1 : ∀ v ∈ p, InsideAllSides q v)
    (h2 : ∀ v ∈ q, InsideAllSides p v) : False := by
  classical
  obtain ⟨v, hv, hmax⟩ := Finset.exists_max_image (p.toFinset ∪ q.toFinset) (fun v => v.y)
    ⟨p[0], Finset.mem_union_left _ (List.mem_toFinset.2 (List.getElem_mem _))⟩
  have key : ∀ {p q : List (P2 K)}, 2 < q.length → StrictlyConvex q →
      (¬ ∃ X, OnBoundary p X ∧ OnBoundary q X) → (∀ v ∈ p, InsideAllSides q v) → ∀ v ∈ p, ∃ w ∈ q, v.y < w.y := by
    intro p q nq hq h h1 v hv
    have hst : ∀ e ∈ sides q, 0 < area2 e.1 e.2 v := by
      intro e he
      rcases (h1 v hv e he).eq_or_lt with h0 | h0
      · obtain ⟨k, hk⟩ := (mem_sides_iff q e).1 he
        exact absurd ⟨v, vertex_onBoundary hv, k, e.1, e.2, hk, on_side_of_inside nq hq hk (h1 v hv) h0.symm⟩ h
      · exact h0
    obtain ⟨w, hw, hlt⟩ := strict_inside_beyond nq hq hst one_ne_zero
    exact ⟨w, hw, by linarith⟩
  rcases Finset.mem_union.1 hv with hv | hv
  · obtain ⟨w, hw, hlt⟩ := key nq hq h h1 v (List.mem_toFinset.1 hv)
    have := hmax w (Finset.mem_union_right _ (List.mem_toFinset.2 hw))
    linarith
  · obtain ⟨w, hw, hlt⟩ := key np hp (by rintro ⟨X, h3, h4⟩; exact h ⟨X, h4, h3⟩) h2 v (List.mem_toFinset.1 hv)
    have := hmax w (Finset.mem_union_left _ (List.mem_toFinset.2 hw))
    linarith

theorem sound_start {p q : List (P2 K)} (np : 0 < p.length) (nq : 0 < q.length) :
    Sound p q ⟨0, 0, 0, 0, .unknown, 0, []⟩ :=
  ⟨np, nq, by simp, by simp, by simp, by simp⟩

/-- What the end of the function gives if the borders are disjoint. -/
theorem travEnd_apart {p q : List (P2 K)} (np : 2 < p.length) (nq : 2 < q.length) (hp : StrictlyConvex p)
    (hq : StrictlyConvex q) (h : ¬ ∃ X, OnBoundary p X ∧ OnBoundary q X) {s : Trav K} (hs : Sound p q s)
    (hv : s.visited = 0) :
    ((¬ ∃ X, InsideAllSides p X ∧ InsideAllSides q X) → travEnd p q s = .ok (.none, [])) ∧
    ((∀ v ∈ q, InsideAllSides p v) → travEnd p q s = .ok (.overlapping, q)) ∧
    ((∀ v ∈ p, InsideAllSides q v) → travEnd p q s =
      if q.length ≤ p.length then .ok (.overlapping, p.take q.length) else .error .outOfRange) := by
  have hflag : s.flag = .unknown := by
    by_contra hf
    exact hs.flag hf hv
  have hout := hs.none hv
  have hp0 : p[0] ∈ p := List.getElem_mem _
  have hq0 : q[0] ∈ q := List.getElem_mem _
  have eP : pointInPolygon p[0] q = true ↔ InsideAllSides q p[0] := by
    rw [← inClosed_off fun hb => h ⟨_, vertex_onBoundary hp0, hb⟩, convex_closed nq hq]
  have eQ : pointInPolygon q[0] p = true ↔ InsideAllSides p q[0] := by
    rw [← inClosed_off fun hb => h ⟨_, hb, vertex_onBoundary hq0⟩, convex_closed np hp]
  have hP0 : InsideAllSides p p[0] := fun e he => convex_vertex hp he hp0
  have hQ0 : InsideAllSides q q[0] := fun e he => convex_vertex hq he hq0
  have hrun : travEnd p q s = if pointInPolygon p[0] q then
        if q.length ≤ p.length then .ok (.overlapping, p.take q.length) else .error .outOfRange
      else if pointInPolygon q[0] p then .ok (.overlapping, q)
      else .ok (.none, []) := by
    unfold travEnd
    rw [if_pos hflag, if_neg (by simpa using hv), List.getElem?_eq_getElem (by omega : 0 < p.length),
      List.getElem?_eq_getElem (by omega : 0 < q.length)]
    dsimp only
    rw [hout]
    unfold firstPoints
    by_cases hl : q.length ≤ p.length <;> simp [hl]
  refine ⟨fun hno => ?_, fun hin => ?_, fun hin => ?_⟩
  · rw [hrun, if_neg fun h' => hno ⟨_, hP0, eP.1 h'⟩, if_neg fun h' => hno ⟨_, eQ.1 h', hQ0⟩]
  · have hnot : ¬ pointInPolygon p[0] q = true := by
      intro h'
      -- each polygon would contain the other
      have h1 := eP.1 h'
      have hall : ∀ v ∈ p, InsideAllSides q v := by
        intro v hv
        rw [← convex_closed nq hq, ← border_const (p := q) (q := p) (by
          rintro ⟨X, h1, h2⟩; exact h ⟨X, h2, h1⟩) (vertex_onBoundary hp0) hv, convex_closed nq hq]
        exact h1
      exact nested_apart np nq hp hq h hall hin
    rw [hrun, if_neg hnot, if_pos (eQ.2 (hin _ hq0))]
  · rw [hrun, if_pos (eP.2 (hin _ hp0))]

theorem walk_apart {p q : List (P2 K)} (np : 2 < p.length) (nq : 2 < q.length) (hp : StrictlyConvex p)
    (hq : StrictlyConvex q) (hb : ¬ ∃ X, OnBoundary p X ∧ OnBoundary q X) {fuel : Nat}
    (hf : 4 * (p.length + q.length) ≤ fuel) :
    ((¬ ∃ X, InsideAllSides p X ∧ InsideAllSides q X) → convexPolyPoly Cmp.direct fuel p q = .ok (.none, [])) ∧
    ((∀ v ∈ q, InsideAllSides p v) → convexPolyPoly Cmp.direct fuel p q = .ok (.overlapping, q)) ∧
    ((∀ v ∈ p, InsideAllSides q v) → convexPolyPoly Cmp.direct fuel p q =
      if q.length ≤ p.length then .ok (.overlapping, p.take q.length) else .error .outOfRange) := by
  have hp0 : p[0] ∈ p := List.getElem_mem _
  have hq0 : q[0] ∈ q := List.getElem_mem _
  have hP0 : InsideAllSides p p[0] := fun e he => convex_vertex hp he hp0
  have hQ0 : InsideAllSides q q[0] := fun e he => convex_vertex hq he hq0
  unfold convexPolyPoly
  rw [if_neg (by omega)]
  obtain ⟨r, h1, h2⟩ := travLoop_total p q (4 * (p.length + q.length)) ⟨0, 0, 0, 0, .unknown, 0, []⟩ (by simp only; omega)
    (by simp only; omega) (by simp only; omega) (by simp only; omega) (by unfold Trav.left; simp; omega)
  have hr := h1 fuel hf
  rcases walk_ends np nq hp hq fuel _ (sound_start (by omega) (by omega)) with
    h | ⟨l, x, y, h, -, h3, -⟩ | ⟨h, h3⟩ | ⟨s, h, h3, h4⟩
  · rw [h] at hr
    rcases h2 with ⟨v, h2⟩ | h2 | ⟨h2, -⟩ <;> rw [h2] at hr <;> cases hr
  · -- a common part that is a segment is on both borders
    exfalso
    exact hb ⟨x, h3⟩
  · rw [h]
    refine ⟨fun _ => rfl, fun hin => absurd ⟨_, hin _ hq0, hQ0⟩ h3, fun hin => absurd ⟨_, hP0, hin _ hp0⟩ h3⟩
  · rw [h]
    exact travEnd_apart np nq hp hq hb h3 (h4 hb)

theorem travEnd_answer {p q : List (P2 K)} (np : 2 < p.length) (nq : 2 < q.length) (hp : StrictlyConvex p)
    (hq : StrictlyConvex q) {s : Trav K} (hs : Sound p q s) {ty : PolyType} {out : List (P2 K)}
    (h : travEnd p q s = .ok (ty, out)) :
    (ty ≠ .none → ∃ X, InsideAllSides p X ∧ InsideAllSides q X) ∧
    (ty = .face → ∃ l x y, out = l ++ [x, y] ∧ ∀ X, (InsideAllSides p X ∧ InsideAllSides q X) ↔ OnSegment x y X) ∧
    (ty ≠ .face → ∀ X ∈ out, (OnBoundary p X ∧ OnBoundary q X) ∨ X ∈ p ∨ X ∈ q) := by
  have hp0 : p[0] ∈ p := List.getElem_mem _
  have hq0 : q[0] ∈ q := List.getElem_mem _
  have hP0 : InsideAllSides p p[0] := fun e he => convex_vertex hp he hp0
  have hQ0 : InsideAllSides q q[0] := fun e he => convex_vertex hq he hq0
  unfold travEnd at h
  rw [List.getElem?_eq_getElem (by omega : 0 < p.length), List.getElem?_eq_getElem (by omega : 0 < q.length)] at h
  split_ifs at h with h1 h2 
  · have hv : s.visited = 0 := by simpa using h2
    have ho := hs.none hv
    dsimp only at h
    unfold firstPoints at h
    rw [ho] at h
    split_ifs at h with h3 h4 h5 h6
    · cases h
      refine ⟨fun _ => ⟨_, hP0, (convex_closed nq hq _).1 (inClosed_pip h3)⟩, nofun, ?_⟩
      intro _ X hX
      exact Or.inr (Or.inl (List.mem_of_mem_take (by simpa using hX)))
    · cases h
      refine ⟨fun _ => ⟨_, (convex_closed np hp _).1 (inClosed_pip h5), hQ0⟩, nofun, ?_⟩
      intro _ X hX
      exact Or.inr (Or.inr (by simpa using hX))
    · cases h
      exact ⟨fun h => absurd rfl h, nofun, fun _ X hX => by cases hX⟩
  · exact absurd ‹s.visited = 0› (hs.flag h1)
  · cases h
    have hv := hs.flag h1
    refine ⟨fun _ => ?_, nofun, fun _ => hs.points⟩
    obtain ⟨X, h1, h2⟩ := hs.common hv
    exact ⟨X, inside_boundary hp h1, inside_boundary hq h2⟩

end Geometrix
