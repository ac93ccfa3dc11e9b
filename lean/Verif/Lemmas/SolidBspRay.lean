import Verif.Lemmas.SolidBspPoint

/-!
# Helpers for solid leaf trees: rays
-/

set_option linter.unusedSectionVars false

namespace Geometrix
open Spec

variable {K : Type*} [Field K] [LinearOrder K] [IsStrictOrderedRing K]

/-- `x` is in the closure of a solid leaf. -/
def SolidTouch : SolidTree K → P2 K → Prop
  | .leaf _ fl, _ => fl = true
  | .node pl _ f b, x => (0 ≤ planeDist pl x ∧ SolidTouch f x) ∨ (planeDist pl x ≤ 0 ∧ SolidTouch b x)

/-- What the loop needs of a tree: the start is on no line, and the numbers of a node are numbers of sides
on its line. -/
def RayTree (sides : List (P2 K × P2 K)) (p : P2 K) : SolidTree K → Prop
  | .leaf _ _ => True
  | .node pl is f b => planeDist pl p ≠ 0 ∧ is ≠ [] ∧
      (∀ i ∈ is, ∃ s, sides[i]? = some s ∧ ∃ l : K, 0 < l ∧ ((∀ x, l * planeDist pl x = area2 s.1 s.2 x) ∨
        ∀ x, l * planeDist pl x = -area2 s.1 s.2 x)) ∧ RayTree sides p f ∧ RayTree sides p b

/-- The numbers of sides whose lines the ray crosses at `b`. -/
def CrossedAt (sides : List (P2 K × P2 K)) (p d : P2 K) (b : K) (l : List Nat) : Prop :=
  l ≠ [] ∧ ∀ i ∈ l, ∃ s, sides[i]? = some s ∧ area2 s.1 s.2 p ≠ 0 ∧ area2 s.1 s.2 (p + b • d) = 0

theorem natInsert_mem (x y : Nat) : ∀ l : List Nat, x ∈ natInsert y l ↔ x = y ∨ x ∈ l
  | [] => by simp [natInsert]
  | z :: r => by
    unfold natInsert
    split_ifs with h1 h2
    · simp
    · subst h2; simp
    · simp only [List.mem_cons, natInsert_mem x y r]; tauto

theorem natInsert_foldr (x : Nat) : ∀ l : List Nat, x ∈ l.foldr natInsert [] ↔ x ∈ l
  | [] => by simp
  | z :: r => by simp only [List.foldr_cons, natInsert_mem, natInsert_foldr x r, List.mem_cons]

theorem raySegment_crossed {p d : P2 K} {b : K} (hb : 0 ≤ b) {s : P2 K × P2 K} (h1 : area2 s.1 s.2 p ≠ 0)
    (h2 : area2 s.1 s.2 (p + b • d) = 0) :
    (∃ k, k ≠ IType.nonCrossing ∧ ∃ xs, raySegment Cmp.direct p d s.1 s.2 = .ok ⟨k, some b, xs⟩ ∧ OnSegment s.1 s.2 (p + b • d)) ∨
    (raySegment Cmp.direct p d s.1 s.2 = .ok ⟨.nonCrossing, none, []⟩ ∧ ¬OnSegment s.1 s.2 (p + b • d)) := by
  set w := dot (s.2 - s.1) (leftNormal d) with hw
  have e1 : area2 s.1 s.2 (p + b • d) = area2 s.1 s.2 p - b * w := by
    rw [hw]
    simp only [area2, dot, leftNormal, P2.sub_x, P2.sub_y, P2.add_x, P2.add_y, P2.smul_x, P2.smul_y]; ring
  have hbw : area2 s.1 s.2 p = b * w := by rw [e1] at h2; linarith
  have hw0 : w ≠ 0 := by
    intro h
    rw [h, mul_zero] at hbw
    exact h1 hbw
  have hcr : cross (s.2 - s.1) (p - s.1) = b * w := by
    rw [← hbw]
    simp only [cross, area2, P2.sub_x, P2.sub_y]
  have ht2 : ∀ t : K, t * w = dot (p - s.1) (leftNormal d) → p + b • d = s.1 + t • (s.2 - s.1) := by
    intro t ht
    have k1 : w * (p.x + b * d.x) = w * (s.1.x + t * (s.2.x - s.1.x)) := by
      have : w * (p.x - s.1.x) + (b * w) * d.x - t * w * (s.2.x - s.1.x) = 0 := by
        rw [ht, ← hbw, hw]
        simp only [area2, dot, leftNormal, P2.sub_x, P2.sub_y]; ring
      linear_combination this
    have k2 : w * (p.y + b * d.y) = w * (s.1.y + t * (s.2.y - s.1.y)) := by
      have : w * (p.y - s.1.y) + (b * w) * d.y - t * w * (s.2.y - s.1.y) = 0 := by
        rw [ht, ← hbw, hw]
        simp only [area2, dot, leftNormal, P2.sub_x, P2.sub_y]; ring
      linear_combination this
    ext
    · simpa using mul_left_cancel₀ hw0 k1
    · simpa using mul_left_cancel₀ hw0 k2
  set t2 := dot (p - s.1) (leftNormal d) / w with ht2d
  have ht2e : t2 * w = dot (p - s.1) (leftNormal d) := by rw [ht2d]; field_simp
  have hq := ht2 t2 ht2e
  have on_iff : OnSegment s.1 s.2 (p + b • d) ↔ 0 ≤ t2 ∧ t2 ≤ 1 := by
    constructor
    · rintro ⟨t, t0, t1, ht⟩
      have : t = t2 := by
        have e : s.1 + t • (s.2 - s.1) = s.1 + t2 • (s.2 - s.1) := by rw [← ht, hq]
        have : t * w = t2 * w := by
          have ex := congrArg P2.x e
          have ey := congrArg P2.y e
          simp only [P2.add_x, P2.add_y, P2.smul_x, P2.smul_y, P2.sub_x, P2.sub_y] at ex ey
          rw [hw]
          simp only [dot, leftNormal, P2.sub_x, P2.sub_y]
          linear_combination (-d.y) * ex + d.x * ey
        exact mul_right_cancel₀ hw0 this
      rw [← this]
      exact ⟨t0, t1⟩
    · rintro ⟨t0, t1⟩
      exact ⟨t2, t0, t1, hq⟩
  have run : raySegment Cmp.direct p d s.1 s.2 = if Cmp.direct.lt t2 0 || Cmp.direct.gt t2 1 then
      .ok ⟨.nonCrossing, none, []⟩ else .ok ⟨if Cmp.direct.equals t2 0 || Cmp.direct.equals t2 1 then .endpoint else .crossing,
            some b, [p + b • d]⟩ := by
    unfold raySegment
    dsimp only
    rw [← hw, if_neg (by rw [direct_equals]; exact hw0)]
    have c1 : cdiv (cross (s.2 - s.1) (p - s.1)) w = .ok b := by
      unfold cdiv
      rw [if_neg hw0, hcr]
      congr 1
      field_simp
    have c2 : cdiv (dot (p - s.1) (leftNormal d)) w = .ok t2 := by
      unfold cdiv
      rw [if_neg hw0]
    rw [c1, c2]
    dsimp only
    rw [if_neg (by rw [direct_lt]; exact not_lt.2 hb)]
  by_cases hc : 0 ≤ t2 ∧ t2 ≤ 1
  · left
    rw [if_neg (by
      rw [Bool.or_eq_true, direct_lt, direct_gt]
      rintro (h | h)
      · exact absurd hc.1 (not_le.2 h)
      · exact absurd hc.2 (not_le.2 h))] at run
    refine ⟨_, ?_, _, run, on_iff.2 hc⟩
    split_ifs <;> simp
  · right
    rw [if_pos (by
      rw [Bool.or_eq_true, direct_lt, direct_gt]
      by_contra hn
      push Not at hn
      exact hc hn)] at run
    exact ⟨run, fun h => hc (on_iff.1 h)⟩

theorem findClosestHit_crossed {sides : List (P2 K × P2 K)} {p d : P2 K} {b : K} (hb : 0 ≤ b) : ∀ (l : List Nat)
    (m : Option (K × Nat)), (∀ i ∈ l, ∃ s, sides[i]? = some s ∧ area2 s.1 s.2 p ≠ 0 ∧ area2 s.1 s.2 (p + b • d) = 0) →
    (∀ x i, m = some (x, i) → x = b ∧ ∃ s, sides[i]? = some s ∧ OnSegment s.1 s.2 (p + b • d)) →
    ∃ r, findClosestHit Cmp.direct sides p d l m = .ok r ∧
      (∀ i, r = some i → ∃ s, sides[i]? = some s ∧ OnSegment s.1 s.2 (p + b • d)) ∧
      ((m ≠ none ∨ ∃ i ∈ l, ∃ s, sides[i]? = some s ∧ OnSegment s.1 s.2 (p + b • d)) → r ≠ none)
  | [], m, _, hm => by
    refine ⟨m.map (·.2), rfl, ?_, ?_⟩
    · intro i hi
      cases m with
      | none => simp at hi
      | some q =>
        simp only [Option.map_some, Option.some.injEq] at hi
        exact (hm q.1 i (by rw [← hi])).2
    · rintro (h | ⟨i, hi, -⟩)
      · cases m with
        | none => exact absurd rfl h
        | some q => simp
      · simp at hi
  | i :: rest, m, hl, hm => by
    obtain ⟨s, hs, h1, h2⟩ := hl i (by simp)
    unfold findClosestHit
    rw [hs]
    dsimp only
    rcases raySegment_crossed hb h1 h2 with ⟨k, hk, xs, he, hon⟩ | ⟨he, hon⟩
    · rw [he]
      have hm' : ∀ x j, (if belowMin b m then some (b, i) else m) = some (x, j) →
          x = b ∧ ∃ s, sides[j]? = some s ∧ OnSegment s.1 s.2 (p + b • d) := by
        intro x j h
        split_ifs at h
        · simp only [Option.some.injEq, Prod.mk.injEq] at h
          rw [← h.1, ← h.2]
          exact ⟨rfl, s, hs, hon⟩
        · exact hm x j h
      obtain ⟨r, r1, r2, r3⟩ := findClosestHit_crossed hb rest _ (fun j hj => hl j (by simp [hj])) hm'
      refine ⟨r, ?_, r2, fun _ => r3 (Or.inl ?_)⟩
      · cases k
        all_goals first | exact absurd rfl hk | exact r1
      · split_ifs with hbm
        · simp
        · cases m with
          | none => simp [belowMin] at hbm
          | some q => simp
    · rw [he]
      obtain ⟨r, r1, r2, r3⟩ := findClosestHit_crossed hb rest m (fun j hj => hl j (by simp [hj])) hm
      refine ⟨r, r1, r2, fun h => r3 ?_⟩
      rcases h with h | ⟨j, hj, s', hs', hon'⟩
      · exact Or.inl h
      · rcases List.mem_cons.1 hj with rfl | hj
        · rw [hs] at hs'
          cases hs'
          exact absurd hon' hon
        · exact Or.inr ⟨j, hj, s', hs', hon'⟩

theorem touch_sides {pl : Plane2 K} {is : List Nat} {f b : SolidTree K} {p : P2 K} (hp : planeDist pl p ≠ 0) (x : P2 K) :
    SolidTouch (.node pl is f b) x ↔
      (0 ≤ planeDist pl p * planeDist pl x ∧ SolidTouch (if planeDist pl p < 0 then b else f) x) ∨
      (planeDist pl p * planeDist pl x ≤ 0 ∧ SolidTouch (if planeDist pl p < 0 then f else b) x) := by
  rw [SolidTouch]
  rcases lt_or_gt_of_ne hp with h | h
  · rw [if_pos h, if_pos h, mul_nonneg_iff_right_nonneg_of_neg' h, mul_nonpos_iff_nonneg_of_neg' h]
    tauto
  · rw [if_neg (not_lt.2 h.le), if_neg (not_lt.2 h.le), mul_nonneg_iff_of_pos_left h, mul_nonpos_iff_of_pos' h]
where
  mul_nonneg_iff_right_nonneg_of_neg' {a c : K} (h : a < 0) : 0 ≤ a * c ↔ c ≤ 0 := by
    constructor
    · intro h'
      by_contra hc
      have := mul_neg_of_neg_of_pos h (not_le.1 hc)
      linarith
    · intro h'
      exact mul_nonneg_of_nonpos_of_nonpos h.le h'
  mul_nonpos_iff_nonneg_of_neg' {a c : K} (h : a < 0) : a * c ≤ 0 ↔ 0 ≤ c := by
    constructor
    · intro h'
      by_contra hc
      have := mul_pos_of_neg_of_neg h (not_le.1 hc)
      linarith
    · intro h'
      exact mul_nonpos_of_nonpos_of_nonneg h.le h'
  mul_nonpos_iff_of_pos' {a c : K} (h : 0 < a) : a * c ≤ 0 ↔ c ≤ 0 := by
    constructor
    · intro h'
      by_contra hc
      have := mul_pos h (not_le.1 hc)
      linarith
    · intro h'
      exact mul_nonpos_of_nonneg_of_nonpos h.le h'

/-- A ray which does not cross the line stays on the near side. -/
theorem touch_near {pl : Plane2 K} {is : List Nat} {f b : SolidTree K} {p d : P2 K} (hp : planeDist pl p ≠ 0)
    (h : dot d pl.n = 0 ∨ dot d pl.n ≠ 0 ∧ -planeDist pl p / dot d pl.n < 0) {s : K} (hs : 0 ≤ s) :
    SolidTouch (.node pl is f b) (p + s • d) ↔ SolidTouch (if planeDist pl p < 0 then b else f) (p + s • d) := by
  have hpos : 0 < planeDist pl p * planeDist pl (p + s • d) := by
    rw [planeDist_step]
    have h2 : 0 < planeDist pl p * planeDist pl p := mul_self_pos.2 hp
    rcases h with h | ⟨h0, h⟩
    · rw [h]
      linarith
    · have : 0 < planeDist pl p * dot d pl.n := by
        rw [neg_div, neg_lt_zero] at h
        rcases div_pos_iff.1 h with ⟨h1, h2⟩ | ⟨h1, h2⟩
        · exact mul_pos h1 h2
        · exact mul_pos_of_neg_of_neg h1 h2
      have := mul_nonneg hs this.le
      linarith
  rw [touch_sides hp]
  constructor
  · rintro (h | h)
    · exact h.2
    · exact absurd h.1 (not_le.2 hpos)
  · exact fun h => Or.inl ⟨hpos.le, h⟩

/-- A ray which crosses the line at `t` is on the near side before and on the far side after. -/
theorem touch_cross {pl : Plane2 K} {is : List Nat} {f b : SolidTree K} {p d : P2 K} (hp : planeDist pl p ≠ 0)
    (h0 : dot d pl.n ≠ 0) (ht : 0 ≤ -planeDist pl p / dot d pl.n) (s : K) :
    SolidTouch (.node pl is f b) (p + s • d) ↔
      (s ≤ -planeDist pl p / dot d pl.n ∧ SolidTouch (if planeDist pl p < 0 then b else f) (p + s • d)) ∨
      (-planeDist pl p / dot d pl.n ≤ s ∧ SolidTouch (if planeDist pl p < 0 then f else b) (p + s • d)) := by
  set t := -planeDist pl p / dot d pl.n with htd
  have htn : t * dot d pl.n = -planeDist pl p := by rw [htd]; field_simp
  have t0 : 0 < t := lt_of_le_of_ne ht fun h => hp (by rw [← h] at htn; linarith)
  have e : t * (planeDist pl p * planeDist pl (p + s • d)) = planeDist pl p * planeDist pl p * (t - s) := by
    rw [planeDist_step]
    linear_combination (planeDist pl p * s) * htn
  have h2 : 0 < planeDist pl p * planeDist pl p := mul_self_pos.2 hp
  have i1 : 0 ≤ planeDist pl p * planeDist pl (p + s • d) ↔ s ≤ t := by
    rw [← mul_nonneg_iff_of_pos_left t0, e, mul_nonneg_iff_of_pos_left h2, sub_nonneg]
  have i2 : planeDist pl p * planeDist pl (p + s • d) ≤ 0 ↔ t ≤ s := by
    rw [← touch_sides.mul_nonpos_iff_of_pos' t0, e, touch_sides.mul_nonpos_iff_of_pos' h2, sub_nonpos]
  rw [touch_sides hp, i1, i2]

/-- The pieces of the ray which are still to be looked at: a tree, the end of the piece of the ray in the cell
of the tree, and the numbers for the end. A piece begins where the one before ends. -/
abbrev RayStack (K : Type*) := List (SolidTree K × Option K × List Nat)

/-- The parameters at which a piece touches a solid leaf. -/
def RayRegion (p d : P2 K) : Option K → RayStack K → K → Prop
  | some a, (n, tm, _) :: rest, s => (a ≤ s ∧ atMost s tm = true ∧ SolidTouch n (p + s • d)) ∨ RayRegion p d tm rest s
  | _, _, _ => False

/-- The pieces follow each other up to the end of the ray. -/
def RayChain (sides : List (P2 K × P2 K)) (p d : P2 K) : Option K → RayStack K → Prop
  | none, st => st = []
  | some _, [] => False
  | some a, (n, tm, mi) :: rest => RayTree sides p n ∧ (tm = none → mi = []) ∧
      (∀ b, tm = some b → a ≤ b ∧ CrossedAt sides p d b mi) ∧ RayChain sides p d tm rest

theorem RayRegion.ge {sides : List (P2 K × P2 K)} {p d : P2 K} : ∀ {st : RayStack K} {a : K}, RayChain sides p d (some a) st →
    ∀ {s}, RayRegion p d (some a) st s → a ≤ s
  | [], a, h, _, _ => by simp [RayChain] at h
  | (n, tm, mi) :: rest, a, h, s, hr => by
    rw [RayRegion] at hr
    rw [RayChain] at h
    rcases hr with hr | hr
    · exact hr.1
    · cases tm with
      | none =>
        have := h.2.2.2
        rw [RayChain] at this
        subst this
        simp [RayRegion] at hr
      | some b => exact (h.2.2.1 b rfl).1.trans (RayRegion.ge h.2.2.2 hr)

/-- The sizes of the trees of the pieces. -/
def rayStackSize (st : RayStack K) : Nat := (st.map fun x => x.1.size).sum

/-- What the loop gives back. -/
structure RayAnswer (sides : List (P2 K × P2 K)) (p d : P2 K) (region : K → Prop) (h : BspHit K) (τ : K) : Prop where
  at_ : h.t = some τ
  touch : region τ
  first : ∀ s, region s → τ ≤ s
  start : τ = 0 ∨ ∃ l, CrossedAt sides p d τ l ∧ findClosestHit Cmp.direct sides p d l none = .ok h.data
  none_ : h.data = none ∨ ∃ l, CrossedAt sides p d τ l ∧ findClosestHit Cmp.direct sides p d l none = .ok h.data

theorem rayTree_crossed {sides : List (P2 K × P2 K)} {p d : P2 K} {pl : Plane2 K} {is : List Nat}
    (hp : planeDist pl p ≠ 0) (hne : is ≠ [])
    (his : ∀ i ∈ is, ∃ s, sides[i]? = some s ∧ ∃ l : K, 0 < l ∧ ((∀ x, l * planeDist pl x = area2 s.1 s.2 x) ∨
        ∀ x, l * planeDist pl x = -area2 s.1 s.2 x)) (h0 : dot d pl.n ≠ 0) :
    CrossedAt sides p d (-planeDist pl p / dot d pl.n) (is.foldr natInsert []) := by
  refine ⟨?_, ?_⟩
  · obtain ⟨i, l, rfl⟩ := List.exists_cons_of_ne_nil hne
    intro h
    have : i ∈ (i :: l).foldr natInsert [] := (natInsert_foldr _ _).2 (by simp)
    rw [h] at this
    simp at this
  · intro i hi
    obtain ⟨s, hs, l, hl, h⟩ := his i ((natInsert_foldr _ _).1 hi)
    have hz : planeDist pl (p + (-planeDist pl p / dot d pl.n) • d) = 0 := by
      rw [planeDist_step]; field_simp; ring
    refine ⟨s, hs, ?_, ?_⟩
    · intro ha
      rcases h with h | h
      · have := h p
        rw [ha] at this
        exact hp ((mul_eq_zero.1 this).resolve_left hl.ne')
      · have := h p
        rw [ha, neg_zero] at this
        exact hp ((mul_eq_zero.1 this).resolve_left hl.ne')
    · rcases h with h | h
      · have := h (p + (-planeDist pl p / dot d pl.n) • d)
        rw [hz, mul_zero] at this
        exact this.symm
      · have := h (p + (-planeDist pl p / dot d pl.n) • d)
        rw [hz, mul_zero] at this
        linarith

theorem bspRayLoop_spec (sides : List (P2 K × P2 K)) (p d : P2 K) (ob : Bool) : ∀ (fuel : Nat) (t : SolidTree K) (a : K)
    (tmax : Option K) (minIdx maxIdx : List Nat) (stack : RayStack K),
    rayStackSize ((t, tmax, maxIdx) :: stack) ≤ fuel → RayChain sides p d (some a) ((t, tmax, maxIdx) :: stack) → 0 ≤ a →
    ((minIdx = [] ∧ a = 0) ∨ CrossedAt sides p d a minIdx) →
    ∃ r, bspRayLoop Cmp.direct sides p d ob fuel t (some a) tmax minIdx maxIdx stack = .ok r ∧
      (r = none → ∀ s, ¬RayRegion p d (some a) ((t, tmax, maxIdx) :: stack) s) ∧
      (∀ h, r = some h → ob = false ∨ ¬RayRegion p d (some a) ((t, tmax, maxIdx) :: stack) 0 →
        ∃ τ, RayAnswer sides p d (RayRegion p d (some a) ((t, tmax, maxIdx) :: stack)) h τ)
  | 0, t, a, tmax, minIdx, maxIdx, stack, hf, _, _, _ => by
    cases t <;> simp [rayStackSize, SolidTree.size] at hf
  | fuel + 1, .leaf is fl, a, tmax, minIdx, maxIdx, stack, hf, hch, ha, hmin => by
    unfold bspRayLoop
    rw [RayChain] at hch
    obtain ⟨-, hn, hs, hrest⟩ := hch
    cases fl with
    | false =>
      rw [if_neg (by simp)]
      have hreg : ∀ s, RayRegion p d (some a) ((.leaf is false, tmax, maxIdx) :: stack) s ↔ RayRegion p d tmax stack s := by
        intro s; rw [RayRegion]; simp [SolidTouch]
      cases stack with
      | nil =>
        refine ⟨none, rfl, fun _ s hr => ?_, by simp⟩
        rw [hreg] at hr
        cases tmax <;> simp [RayRegion] at hr
      | cons e rest =>
        obtain ⟨n, tm, mi⟩ := e
        cases tmax with
        | none => rw [RayChain] at hrest; simp at hrest
        | some b =>
          obtain ⟨hab, hcb⟩ := hs b rfl
          obtain ⟨r, r1, r2, r3⟩ := bspRayLoop_spec sides p d ob fuel n b tm maxIdx mi rest
            (by simp only [rayStackSize, List.map_cons, List.sum_cons, SolidTree.size] at hf ⊢; omega) hrest (ha.trans hab)
            (Or.inr hcb)
          refine ⟨r, r1, fun h s hr => r2 h s ((hreg s).1 hr), fun h hh hob => ?_⟩
          obtain ⟨τ, h1, h2, h3, h4, h5⟩ := r3 h hh (by rwa [hreg] at hob)
          exact ⟨τ, h1, (hreg τ).2 h2, fun s hs => h3 s ((hreg s).1 hs), h4, h5⟩
    | true =>
      rw [if_pos rfl]
      have hat : RayRegion p d (some a) ((.leaf is true, tmax, maxIdx) :: stack) a := by
        rw [RayRegion]
        left
        refine ⟨le_refl _, ?_, by simp [SolidTouch]⟩
        cases tmax with
        | none => rfl
        | some b => simpa [atMost] using (hs b rfl).1
      have hfirst : ∀ s, RayRegion p d (some a) ((.leaf is true, tmax, maxIdx) :: stack) s → a ≤ s := by
        intro s hr
        exact RayRegion.ge (sides := sides) (by rw [RayChain]; exact ⟨trivial, hn, hs, hrest⟩) hr
      unfold bspHit
      by_cases hc : (!minIdx.isEmpty || !ob) = true
      · rw [if_pos hc]
        rcases hmin with ⟨rfl, rfl⟩ | hcr
        · refine ⟨some ⟨some 0, none⟩, rfl, by simp, ?_⟩
          intro h hh _
          cases hh
          exact ⟨0, rfl, hat, hfirst, Or.inl rfl, Or.inl rfl⟩
        · obtain ⟨r, r1, -⟩ := findClosestHit_crossed ha minIdx none hcr.2 (by simp)
          rw [r1]
          refine ⟨_, rfl, by simp, ?_⟩
          intro h hh _
          cases hh
          exact ⟨a, rfl, hat, hfirst, Or.inr ⟨minIdx, hcr, r1⟩, Or.inr ⟨minIdx, hcr, r1⟩⟩
      · rw [if_neg hc]
        simp only [Bool.or_eq_true, Bool.not_eq_true', List.isEmpty_eq_false_iff, not_or, not_not, Bool.not_eq_false] at hc
        have ha0 : a = 0 := by
          rcases hmin with h | h
          · exact h.2
          · exact absurd hc.1 h.1
        have : ∃ r, findClosestHit Cmp.direct sides p d maxIdx none = .ok r := by
          cases tmax with
          | none => rw [hn rfl]; exact ⟨none, rfl⟩
          | some b =>
            obtain ⟨hab, hcb⟩ := hs b rfl
            obtain ⟨r, r1, -⟩ := findClosestHit_crossed (ha.trans hab) maxIdx none hcb.2 (by simp)
            exact ⟨r, r1⟩
        obtain ⟨r, r1⟩ := this
        rw [r1]
        refine ⟨_, rfl, by simp, ?_⟩
        intro h _ hob
        rcases hob with hob | hob
        · rw [hob] at hc; simp at hc
        · rw [← ha0] at hob
          exact absurd hat hob
  | fuel + 1, .node pl is f b, a, tmax, minIdx, maxIdx, stack, hf, hch, ha, hmin => by
    rw [RayChain] at hch
    obtain ⟨⟨hp, hne, his, htf, htb⟩, hn, hs, hrest⟩ := hch
    set near := if planeDist pl p < 0 then b else f with hnear
    set far := if planeDist pl p < 0 then f else b with hfar
    have hnt : RayTree sides p near := by rw [hnear]; split_ifs <;> assumption
    have hft : RayTree sides p far := by rw [hfar]; split_ifs <;> assumption
    have hsz : near.size + far.size = f.size + b.size := by
      rw [hnear, hfar]; split_ifs <;> omega
    have edist : pl.d - dot p pl.n = -planeDist pl p := by unfold planeDist; ring
    have enear : (if decide (pl.d - dot p pl.n > 0) = true then b else f) = near := by
      rw [hnear, edist]
      by_cases h : planeDist pl p < 0
      · rw [if_pos h, if_pos (by simpa using h)]
      · rw [if_neg h, if_neg (by simpa using h)]
    have efar : (if decide (pl.d - dot p pl.n > 0) = true then f else b) = far := by
      rw [hfar, edist]
      by_cases h : planeDist pl p < 0
      · rw [if_pos h, if_pos (by simpa using h)]
      · rw [if_neg h, if_neg (by simpa using h)]
    -- the continuation with the pieces replaced
    have go : ∀ (t' : SolidTree K) (tmax' : Option K) (maxIdx' : List Nat) (stack' : RayStack K),
        rayStackSize ((t', tmax', maxIdx') :: stack') ≤ fuel →
        RayChain sides p d (some a) ((t', tmax', maxIdx') :: stack') →
        (∀ s, RayRegion p d (some a) ((.node pl is f b, tmax, maxIdx) :: stack) s ↔
          RayRegion p d (some a) ((t', tmax', maxIdx') :: stack') s) →
        ∃ r, bspRayLoop Cmp.direct sides p d ob fuel t' (some a) tmax' minIdx maxIdx' stack' = .ok r ∧
          (r = none → ∀ s, ¬RayRegion p d (some a) ((.node pl is f b, tmax, maxIdx) :: stack) s) ∧
          (∀ h, r = some h → ob = false ∨ ¬RayRegion p d (some a) ((.node pl is f b, tmax, maxIdx) :: stack) 0 →
            ∃ τ, RayAnswer sides p d (RayRegion p d (some a) ((.node pl is f b, tmax, maxIdx) :: stack)) h τ) := by
      intro t' tmax' maxIdx' stack' h1 h2 h3
      obtain ⟨r, r1, r2, r3⟩ := bspRayLoop_spec sides p d ob fuel t' a tmax' minIdx maxIdx' stack' h1 h2 ha hmin
      refine ⟨r, r1, fun h s hr => r2 h s ((h3 s).1 hr), fun h hh hob => ?_⟩
      obtain ⟨τ, g1, g2, g3, g4, g5⟩ := r3 h hh (by rwa [h3] at hob)
      exact ⟨τ, g1, (h3 τ).2 g2, fun s hs => g3 s ((h3 s).1 hs), g4, g5⟩
    have hf' : f.size + b.size + (stack.map fun x => x.1.size).sum ≤ fuel := by
      simp only [rayStackSize, List.map_cons, List.sum_cons, SolidTree.size] at hf; omega
    have hszf : near.size ≤ f.size + b.size := by omega
    have hszb : far.size ≤ f.size + b.size := by omega
    unfold bspRayLoop
    dsimp only
    rw [enear, efar, edist]
    have stay : (dot d pl.n = 0 ∨ dot d pl.n ≠ 0 ∧ -planeDist pl p / dot d pl.n < 0) →
        ∀ s, RayRegion p d (some a) ((.node pl is f b, tmax, maxIdx) :: stack) s ↔
          RayRegion p d (some a) ((near, tmax, maxIdx) :: stack) s := by
      intro h s
      rw [RayRegion, RayRegion]
      constructor
      · rintro (⟨h1, h2, h3⟩ | h1)
        · exact Or.inl ⟨h1, h2, (touch_near hp h (ha.trans h1)).1 h3⟩
        · exact Or.inr h1
      · rintro (⟨h1, h2, h3⟩ | h1)
        · exact Or.inl ⟨h1, h2, (touch_near hp h (ha.trans h1)).2 h3⟩
        · exact Or.inr h1
    have hnearSize : rayStackSize ((near, tmax, maxIdx) :: stack) ≤ fuel := by
      simp only [rayStackSize, List.map_cons, List.sum_cons]; omega
    have hfarSize : rayStackSize ((far, tmax, maxIdx) :: stack) ≤ fuel := by
      simp only [rayStackSize, List.map_cons, List.sum_cons]; omega
    have hnearChain : RayChain sides p d (some a) ((near, tmax, maxIdx) :: stack) := by
      rw [RayChain]; exact ⟨hnt, hn, hs, hrest⟩
    have hfarChain : RayChain sides p d (some a) ((far, tmax, maxIdx) :: stack) := by
      rw [RayChain]; exact ⟨hft, hn, hs, hrest⟩
    by_cases h0 : dot d pl.n = 0
    · rw [if_neg (by simpa using h0)]
      exact go near tmax maxIdx stack hnearSize hnearChain (stay (Or.inl h0))
    · rw [if_pos h0]
      have hdiv : cdiv (-planeDist pl p) (dot d pl.n) = .ok (-planeDist pl p / dot d pl.n) := by
        unfold cdiv; rw [if_neg h0]
      rw [hdiv]
      dsimp only
      have hcross := fun ht s => touch_cross (is := is) (f := f) (b := b) (d := d) hp h0 ht s
      have hxAt := rayTree_crossed hp hne his h0
      rw [← hnear, ← hfar] at hcross
      set t := -planeDist pl p / dot d pl.n with ht
      by_cases h1 : 0 ≤ t
      · have hcross := hcross h1
        by_cases h2 : atMost t tmax = true
        · rw [if_pos (by simp [h1, h2])]
          by_cases h3 : a ≤ t
          · rw [if_pos (by simpa [atLeast] using h3)]
            refine go near (some t) _ ((far, tmax, maxIdx) :: stack) ?_ ?_ ?_
            · simp only [rayStackSize, List.map_cons, List.sum_cons]; omega
            · rw [RayChain, RayChain]
              refine ⟨hnt, by simp, ?_, hft, hn, ?_, hrest⟩
              · intro b' hb'
                cases hb'
                exact ⟨h3, hxAt⟩
              · intro b' hb'
                refine ⟨?_, (hs b' hb').2⟩
                rw [hb'] at h2
                simpa [atMost] using h2
            · intro s
              rw [RayRegion, RayRegion, RayRegion]
              constructor
              · rintro (⟨g1, g2, g3⟩ | g1)
                · rcases (hcross s).1 g3 with ⟨k1, k2⟩ | ⟨k1, k2⟩
                  · exact Or.inl ⟨g1, by simpa [atMost] using k1, k2⟩
                  · exact Or.inr (Or.inl ⟨k1, g2, k2⟩)
                · exact Or.inr (Or.inr g1)
              · rintro (⟨g1, g2, g3⟩ | ⟨g1, g2, g3⟩ | g1)
                · simp only [atMost, decide_eq_true_eq] at g2
                  refine Or.inl ⟨g1, ?_, (hcross s).2 (Or.inl ⟨g2, g3⟩)⟩
                  cases tmax with
                  | none => rfl
                  | some b' =>
                    simp only [atMost, decide_eq_true_eq] at h2 ⊢
                    exact g2.trans h2
                · exact Or.inl ⟨h3.trans g1, g2, (hcross s).2 (Or.inr ⟨g1, g3⟩)⟩
                · exact Or.inr g1
          · rw [if_neg (by simpa [atLeast] using h3)]
            push Not at h3
            refine go far tmax maxIdx stack hfarSize hfarChain ?_
            intro s
            rw [RayRegion, RayRegion]
            constructor
            · rintro (⟨g1, g2, g3⟩ | g1)
              · rcases (hcross s).1 g3 with ⟨k1, k2⟩ | ⟨k1, k2⟩
                · exact absurd (g1.trans k1) (not_le.2 h3)
                · exact Or.inl ⟨g1, g2, k2⟩
              · exact Or.inr g1
            · rintro (⟨g1, g2, g3⟩ | g1)
              · exact Or.inl ⟨g1, g2, (hcross s).2 (Or.inr ⟨h3.le.trans g1, g3⟩)⟩
              · exact Or.inr g1
        · rw [if_neg (by simp [h2])]
          refine go near tmax maxIdx stack hnearSize hnearChain ?_
          have hlt : ∀ s, atMost s tmax = true → s < t := by
            intro s hs
            cases tmax with
            | none => simp [atMost] at h2
            | some b' =>
              simp only [atMost, decide_eq_true_eq, not_le] at h2 hs
              exact lt_of_le_of_lt hs h2
          intro s
          rw [RayRegion, RayRegion]
          constructor
          · rintro (⟨g1, g2, g3⟩ | g1)
            · rcases (hcross s).1 g3 with ⟨k1, k2⟩ | ⟨k1, k2⟩
              · exact Or.inl ⟨g1, g2, k2⟩
              · exact absurd k1 (not_le.2 (hlt s g2))
            · exact Or.inr g1
          · rintro (⟨g1, g2, g3⟩ | g1)
            · exact Or.inl ⟨g1, g2, (hcross s).2 (Or.inl ⟨(hlt s g2).le, g3⟩)⟩
            · exact Or.inr g1
      · rw [if_neg (by simp [h1])]
        exact go near tmax maxIdx stack hnearSize hnearChain (stay (Or.inr ⟨h0, not_le.1 h1⟩))

/-- The loop finds the first point of the ray in the closure of a solid leaf. -/
theorem bspRay_touch {sides : List (P2 K × P2 K)} {p : P2 K} (d : P2 K) (ob : Bool) {t : SolidTree K} (ht : RayTree sides p t) :
    ∃ r, bspRay Cmp.direct sides t p d ob = .ok r ∧ (r = none → ∀ s : K, 0 ≤ s → ¬SolidTouch t (p + s • d)) ∧
      (∀ h, r = some h → ob = false ∨ ¬SolidTouch t p →
        ∃ τ, RayAnswer sides p d (fun s => 0 ≤ s ∧ SolidTouch t (p + s • d)) h τ) := by
  obtain ⟨r, r1, r2, r3⟩ := bspRayLoop_spec sides p d ob t.size t 0 none [] [] [] (by simp [rayStackSize])
    (by simp [RayChain, ht]) (le_refl 0) (Or.inl ⟨rfl, rfl⟩)
  have hreg : ∀ s, RayRegion p d (some 0) [(t, none, [])] s ↔ 0 ≤ s ∧ SolidTouch t (p + s • d) := by
    intro s
    simp [RayRegion, atMost]
  refine ⟨r, r1, fun h s hs hc => r2 h s ((hreg s).2 ⟨hs, hc⟩), fun h hh hob => ?_⟩
  have e : p + (0 : K) • d = p := by ext <;> simp
  obtain ⟨τ, h1, h2, h3, h4, h5⟩ := r3 h hh (by rw [hreg, e]; simpa using hob)
  exact ⟨τ, h1, (hreg τ).1 h2, fun s hs => h3 s ((hreg s).2 hs), h4, h5⟩

/-- A built tree, for a start on no line. -/
theorem rayTree_of_built {sides : List (P2 K × P2 K)} {C : List (Half K)} {flag : Bool} {items : List (BspItem K)}
    {t : SolidTree K} (h : Built sides C flag items t) {p : P2 K} (hoff : OffLines sides p) : RayTree sides p t := by
  induction h with
  | leaf C flag items ok used => trivial
  | node C flag items F B it Ix f b ok fresh mem unused inFront inBack cover indices own front back ihf ihb =>
    obtain ⟨s, hs, hpl, -⟩ := (ok it mem).side
    obtain ⟨l, hl, hd⟩ := hpl.dist
    refine ⟨?_, by rintro rfl; simp at own, ?_, ihf, ihb⟩
    · intro h
      have := hoff s (List.mem_of_getElem? hs)
      rw [← hd, h, mul_zero] at this
      exact this rfl
    · intro i hi
      obtain ⟨r, hr, hne, h1, h2⟩ := indices i hi
      refine ⟨r, hr, ?_⟩
      -- the side `r` is on the line of the plane
      have e1 : area2 s.1 s.2 r.1 = 0 := by rw [← hd, h1, mul_zero]
      have e2 : area2 s.1 s.2 r.2 = 0 := by rw [← hd, h2, mul_zero]
      obtain ⟨u1, u2⟩ := area2_swap hpl.ne e1 e2
      -- r.2 - r.1 = k (s.2 - s.1)
      have hk : ∃ k : K, k ≠ 0 ∧ ∀ x, area2 r.1 r.2 x = k * area2 s.1 s.2 x := by
        obtain ⟨⟨ax, ay⟩, ⟨bx, by'⟩⟩ := s
        obtain ⟨⟨cx, cy⟩, ⟨dx, dy⟩⟩ := r
        simp only [area2] at e1 e2 u1 u2 ⊢
        simp only at hne
        have hs' := hpl.ne
        simp only [ne_eq] at hs'
        have hpar : (bx - ax) * (dy - cy) - (by' - ay) * (dx - cx) = 0 := by linear_combination e2 - e1
        have hw : bx - ax ≠ 0 ∨ by' - ay ≠ 0 := by
          by_contra h
          push Not at h
          exact hs' (by rw [P2.mk.injEq]; exact ⟨by linarith [h.1], by linarith [h.2]⟩)
        have hv : dx - cx ≠ 0 ∨ dy - cy ≠ 0 := by
          by_contra h
          push Not at h
          exact hne (by rw [P2.mk.injEq]; exact ⟨by linarith [h.1], by linarith [h.2]⟩)
        rcases hw with hw | hw
        · have hdy : dy - cy = (dx - cx) / (bx - ax) * (by' - ay) := by field_simp; linear_combination hpar
          refine ⟨(dx - cx) / (bx - ax), ?_, fun x => ?_⟩
          · intro h
            rw [h, zero_mul] at hdy
            rcases hv with hv | hv
            · rcases div_eq_zero_iff.1 h with h | h
              · exact hv h
              · exact hw h
            · exact hv hdy
          · rw [hdy]
            field_simp
            linear_combination (-(dx - cx)) * e1
        · have hdx : dx - cx = (dy - cy) / (by' - ay) * (bx - ax) := by field_simp; linear_combination -hpar
          refine ⟨(dy - cy) / (by' - ay), ?_, fun x => ?_⟩
          · intro h
            rw [h, zero_mul] at hdx
            rcases hv with hv | hv
            · exact hv hdx
            · rcases div_eq_zero_iff.1 h with h | h
              · exact hv h
              · exact hw h
          · rw [hdx]
            field_simp
            linear_combination (-(dy - cy)) * e1
      obtain ⟨k, hk, hx⟩ := hk
      rcases lt_or_gt_of_ne hk with hneg | hpos
      · refine ⟨-k * l, mul_pos (by linarith) hl, Or.inr fun x => ?_⟩
        rw [hx, ← hd]; ring
      · refine ⟨k * l, mul_pos hpos hl, Or.inl fun x => ?_⟩
        rw [hx, ← hd]; ring

/-- The closures of the solid leaves make up the closed solid. -/
theorem touch_sound {sides : List (P2 K × P2 K)} {solid : P2 K → Prop} (hb : BorderOf sides solid)
    (hno : NoTwoOnALine sides) {C : List (Half K)}
    {flag : Bool} {items : List (BspItem K)} {t : SolidTree K} (h : Built sides C flag items t)
    (hcov : ∀ x, OnBorder sides x → InCell C x → ∃ it ∈ items, OnSegment it.a it.b x)
    (hfl : (∃ it ∈ items, it.used = false) ∨ ∃ y, InCell C y ∧ ¬OnBorder sides y ∧ (solid y ↔ flag = true)) {p : P2 K}
    (hp : InClosure C p) (hoff : ¬OnBorder sides p) (ht : SolidTouch t p) : solid p := by
  induction h with
  | leaf C flag items ok used =>
    obtain ⟨y, hy, -, hy2⟩ := hfl.resolve_left fun ⟨it, hit, hu⟩ => by simp [used it hit] at hu
    have : solid p ↔ solid y := hb.across p y fun t t0 t1 => by
      rcases eq_or_lt_of_le t0 with rfl | t0
      · have : p + (0 : K) • (y - p) = p := by ext <;> simp
        rw [this]
        exact hoff
      · exact leaf_no_border ok used hcov (inCell_line hp hy t0 t1)
    rw [this, hy2]
    exact ht
  | node C flag items F B it Ix f b ok fresh mem unused inFront inBack cover indices own front back ihf ihb =>
    obtain ⟨c1, c2⟩ := cover_children cover hcov
    obtain ⟨⟨y, y1, y2, y3⟩, h2⟩ := beside hb (ok it mem)
    obtain ⟨z, z1, z2, z3⟩ := h2 (not_frontOf hno fresh mem (ok it mem) unused)
    rcases ht with ⟨h, ht⟩ | ⟨h, ht⟩
    · refine ihf c1 (Or.inr ⟨y, y1, y2, by simp [y3]⟩) ?_ ht
      intro c hc
      rcases List.mem_cons.1 hc with rfl | hc
      · simpa [halfDist] using h
      · exact hp c hc
    · refine ihb c2 (Or.inr ⟨z, z1, z2, by simp [z3]⟩) ?_ ht
      intro c hc
      rcases List.mem_cons.1 hc with rfl | hc
      · simpa [halfDist] using h
      · exact hp c hc

theorem touch_of_class (p : P2 K) : ∀ t : SolidTree K, pointInSolid Cmp.direct t p ≠ .inEmpty → SolidTouch t p
  | .leaf is fl, h => by
    rw [pointInSolid_leaf] at h
    cases fl
    · simp at h
    · rfl
  | .node pl is f b, h => by
    rw [pointInSolid_node] at h
    rw [SolidTouch]
    rcases lt_trichotomy (planeDist pl p) 0 with h1 | h1 | h1
    · rw [if_neg (not_lt.2 h1.le), if_pos h1] at h
      exact Or.inr ⟨h1.le, touch_of_class p b h⟩
    · by_cases hf : pointInSolid Cmp.direct f p = .inEmpty
      · by_cases hb : pointInSolid Cmp.direct b p = .inEmpty
        · rw [hf, hb, h1] at h
          simp at h
        · exact Or.inr ⟨h1.le, touch_of_class p b hb⟩
      · exact Or.inl ⟨h1.ge, touch_of_class p f hf⟩
    · rw [if_pos h1] at h
      exact Or.inl ⟨h1.le, touch_of_class p f h⟩

/-- The classes of the points of the plane, if no two sides are on a line. -/
theorem point_class {sides : List (P2 K × P2 K)} {solid : P2 K → Prop} (hs : sides ≠ []) (hb : BorderOf sides solid)
    (hno : NoTwoOnALine sides) {items : List (BspItem K)} {t : SolidTree K} (h : Built sides [] false items t)
    (hc : ∀ x, OnBorder sides x → ∃ it ∈ items, OnSegment it.a it.b x) (p : P2 K) :
    pointInSolid Cmp.direct t p = .onBoundary ∧ OnBorder sides p ∨
    pointInSolid Cmp.direct t p = .inSolid ∧ ¬OnBorder sides p ∧ solid p ∨
    pointInSolid Cmp.direct t p = .inEmpty ∧ ¬OnBorder sides p ∧ ¬solid p := by
  have hne := built_nonempty hs h hc
  have off : ∀ q, ¬OnBorder sides q →
      pointInSolid Cmp.direct t q = .inSolid ∧ solid q ∨ pointInSolid Cmp.direct t q = .inEmpty ∧ ¬solid q := fun q hq =>
    point_closed hb hno h (fun x hx _ => hc x hx) (Or.inl hne) (by simp [InClosure]) hq
  by_cases hp : OnBorder sides p
  · left
    refine ⟨?_, hp⟩
    by_contra hn
    obtain ⟨δ, hδ, hnear⟩ := point_near t p hn
    obtain ⟨⟨q, q1, q2, q3, q4⟩, r, r1, r2, r3, r4⟩ := border_near hb hp hδ
    have e1 := hnear q q1 q2
    have e2 := hnear r r1 r2
    rcases off q q3 with ⟨f1, -⟩ | ⟨-, f2⟩
    · rcases off r r3 with ⟨-, g2⟩ | ⟨g1, -⟩
      · exact r4 g2
      · rw [f1] at e1
        rw [g1] at e2
        rw [← e1] at e2
        simp at e2
    · exact f2 q4
  · right
    rcases off p hp with h | h
    · exact Or.inl ⟨h.1, hp, h.2⟩
    · exact Or.inr ⟨h.1, hp, h.2⟩

theorem touch_iff {sides : List (P2 K × P2 K)} {solid : P2 K → Prop} (hs : sides ≠ []) (hb : BorderOf sides solid)
    (hno : NoTwoOnALine sides) {items : List (BspItem K)} {t : SolidTree K} (h : Built sides [] false items t)
    (hc : ∀ x, OnBorder sides x → ∃ it ∈ items, OnSegment it.a it.b x) (p : P2 K) :
    SolidTouch t p ↔ OnBorder sides p ∨ solid p := by
  constructor
  · intro ht
    by_cases hp : OnBorder sides p
    · exact Or.inl hp
    · exact Or.inr (touch_sound hb hno h (fun x hx _ => hc x hx) (Or.inl (built_nonempty hs h hc)) (by simp [InClosure]) hp ht)
  · intro hp
    apply touch_of_class
    rcases point_class hs hb hno h hc p with ⟨e, -⟩ | ⟨e, -⟩ | ⟨-, e1, e2⟩
    · rw [e]; simp
    · rw [e]; simp
    · exact absurd hp (not_or.2 ⟨e1, e2⟩)

/-- The ray from a point on no line of a side. -/
theorem bspRay_solid {sides : List (P2 K × P2 K)} {solid : P2 K → Prop} (hs : sides ≠ []) (hb : BorderOf sides solid)
    (hno : NoTwoOnALine sides) {items : List (BspItem K)} {t : SolidTree K} (h : Built sides [] false items t)
    (hc : ∀ x, OnBorder sides x → ∃ it ∈ items, OnSegment it.a it.b x) {p : P2 K} (hoff : OffLines sides p) (d : P2 K)
    (ob : Bool) :
    ∃ r, bspRay Cmp.direct sides t p d ob = .ok r ∧
      (r = none → ∀ s : K, 0 ≤ s → ¬OnBorder sides (p + s • d) ∧ ¬solid (p + s • d)) ∧
      (∀ g, r = some g → ob = false ∨ ¬solid p → ∃ τ : K, g.t = some τ ∧ 0 ≤ τ ∧
        (OnBorder sides (p + τ • d) ∨ τ = 0 ∧ solid p) ∧
        (∀ s : K, 0 ≤ s → s < τ → ¬OnBorder sides (p + s • d) ∧ ¬solid (p + s • d)) ∧
        (∀ i, g.data = some i → ∃ e, sides[i]? = some e ∧ OnSegment e.1 e.2 (p + τ • d)) ∧
        (0 < τ → (∀ (i j : Nat) (e f : P2 K × P2 K), sides[i]? = some e → sides[j]? = some f → area2 e.1 e.2 (p + τ • d) = 0 →
          area2 f.1 f.2 (p + τ • d) = 0 → i = j) → g.data ≠ none)) := by
  have hrt := rayTree_of_built h hoff
  obtain ⟨r, r1, r2, r3⟩ := bspRay_touch d ob hrt
  have ti := touch_iff hs hb hno h hc
  have e0 : p + (0 : K) • d = p := by ext <;> simp
  have hpoff : ¬OnBorder sides p := by
    rintro ⟨e, he, u, u0, u1, hu⟩
    apply hoff e he
    rw [hu]
    simp only [area2, P2.add_x, P2.add_y, P2.smul_x, P2.smul_y, P2.sub_x, P2.sub_y]; ring
  refine ⟨r, r1, fun hn s hs => ?_, fun g hg hob => ?_⟩
  · have := r2 hn s hs
    rw [ti, not_or] at this
    exact this
  · obtain ⟨τ, h1, ⟨h2, h3⟩, h4, h5, h6⟩ := r3 g hg (by rw [ti, not_or]; tauto)
    have hfirst : ∀ s : K, 0 ≤ s → s < τ → ¬OnBorder sides (p + s • d) ∧ ¬solid (p + s • d) := by
      intro s hs hst
      rw [← not_or, ← ti]
      intro hc
      exact absurd (h4 s ⟨hs, hc⟩) (not_le.2 hst)
    have hon : 0 < τ → OnBorder sides (p + τ • d) := by
      intro hτ
      rcases point_class hs hb hno h hc (p + τ • d) with ⟨-, e⟩ | ⟨e, -⟩ | ⟨e, e1, e2⟩
      · exact e
      · exfalso
        obtain ⟨δ, hδ, hnear⟩ := point_near t (p + τ • d) (by rw [e]; simp)
        have hN : 0 < |d.x| + |d.y| + 1 := by have := abs_nonneg d.x; have := abs_nonneg d.y; linarith
        obtain ⟨ε, ε0, ε1⟩ := exists_between (lt_min hτ (div_pos hδ hN))
        have hε : ε * (|d.x| + |d.y| + 1) < δ := (lt_div_iff₀ hN).1 (lt_of_lt_of_le ε1 (min_le_right _ _))
        have hετ := lt_of_lt_of_le ε1 (min_le_left _ _)
        have := hnear (p + (τ - ε) • d) (by
          simp only [P2.add_x, P2.smul_x]
          have : p.x + (τ - ε) * d.x - (p.x + τ * d.x) = -(ε * d.x) := by ring
          rw [this, abs_neg, abs_mul, abs_of_pos ε0]
          have := mul_nonneg ε0.le (abs_nonneg d.y)
          linarith) (by
          simp only [P2.add_y, P2.smul_y]
          have : p.y + (τ - ε) * d.y - (p.y + τ * d.y) = -(ε * d.y) := by ring
          rw [this, abs_neg, abs_mul, abs_of_pos ε0]
          have := mul_nonneg ε0.le (abs_nonneg d.x)
          linarith)
        have ht := touch_of_class (p + (τ - ε) • d) t (by rw [this, e]; simp)
        have := h4 (τ - ε) ⟨by linarith, ht⟩
        linarith
      · rw [ti] at h3
        exact absurd h3 (not_or.2 ⟨e1, e2⟩)
    refine ⟨τ, h1, h2, ?_, hfirst, ?_, ?_⟩
    · rcases eq_or_lt_of_le h2 with h0 | h0
      · right
        refine ⟨h0.symm, ?_⟩
        rw [ti, ← h0, e0] at h3
        exact h3.resolve_left hpoff
      · exact Or.inl (hon h0)
    · intro i hi
      rcases h6 with h6 | ⟨l, hl, hf⟩
      · rw [h6] at hi; simp at hi
      · obtain ⟨r', f1, f2, -⟩ := findClosestHit_crossed h2 l none hl.2 (by simp)
        rw [hf] at f1
        cases f1
        exact f2 i hi
    · intro h0 huniq
      rcases h5 with h5 | ⟨l, hl, hf⟩
      · exact absurd h5 h0.ne'
      · obtain ⟨r', f1, -, f3⟩ := findClosestHit_crossed h2 l none hl.2 (by simp)
        rw [hf] at f1
        cases f1
        apply f3
        right
        obtain ⟨i, l', rfl⟩ := List.exists_cons_of_ne_nil hl.1
        obtain ⟨e, he, -, hz⟩ := hl.2 i (by simp)
        obtain ⟨f, hf', u, u0, u1, hu⟩ := hon h0
        obtain ⟨j, hj⟩ := List.getElem?_of_mem hf'
        have hz' : area2 f.1 f.2 (p + τ • d) = 0 := by
          rw [hu]
          simp only [area2, P2.add_x, P2.add_y, P2.smul_x, P2.smul_y, P2.sub_x, P2.sub_y]; ring
        have hij := huniq i j e f he hj hz hz'
        subst hij
        rw [he] at hj
        cases hj
        exact ⟨i, by simp, e, he, u, u0, u1, hu⟩

end Geometrix
