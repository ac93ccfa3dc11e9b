import Verif.Model.SeparatingAxis
import Verif.Spec.SeparatingAxis
import Verif.Lemmas.Obb
import Verif.Props.Obb
import Mathlib.Tactic.Linarith
import Mathlib.Tactic.LinearCombination
import Mathlib.Tactic.FieldSimp
import Mathlib.Tactic.Ring

/-!
# Lemmas about intervals in motion
-/

set_option linter.unusedSectionVars false

namespace Geometrix
open Spec

variable {K : Type*} [Field K] [LinearOrder K] [IsStrictOrderedRing K]

/-- The two intervals overlap at the time `t`. -/
def Overlap (a : AxisData K) (t : K) : Prop :=
  a.min2 + a.speed * t ≤ a.max1 ∧ a.min1 ≤ a.max2 + a.speed * t

/-- `t` is not after the last time. -/
def LeLast (t : K) (l : Option K) : Prop := ∀ x, l = some x → t ≤ x

theorem leLast_none (t : K) : LeLast t none := fun _ h => by cases h

theorem leLast_some {t x : K} : LeLast t (some x) ↔ t ≤ x :=
  ⟨fun h => h x rfl, fun h _ e => by cases e; exact h⟩

theorem leLast_minLast {t s : K} {l : Option K} : LeLast t (minLast s l) ↔ t ≤ s ∧ LeLast t l := by
  cases l with
  | none => simp [minLast, leLast_some, leLast_none]
  | some x =>
    unfold minLast
    dsimp only
    split_ifs with h
    · rw [leLast_some, leLast_some]; exact ⟨fun h' => ⟨h', by linarith⟩, fun h' => h'.1⟩
    · rw [leLast_some]; exact ⟨fun h' => ⟨by linarith, h'⟩, fun h' => h'.2⟩

theorem not_afterLast {t : K} {l : Option K} : (!afterLast t l) = true ↔ LeLast t l := by
  cases l with
  | none => simp [afterLast, leLast_none]
  | some x => simp [afterLast, leLast_some]

/-- What `no_intersect` does to the interval of times. -/
theorem noIntersect_spec (tmax : K) (a : AxisData K) (tf : K) (tl : Option K) (h0 : 0 ≤ tf) (h1 : tf ≤ tmax)
    (h2 : LeLast tf tl) :
    ((noIntersect tmax a tf tl).hit = false → ∀ t, tf ≤ t → LeLast t tl → t ≤ tmax → ¬ Overlap a t) ∧
    ((noIntersect tmax a tf tl).hit = true → 0 ≤ (noIntersect tmax a tf tl).tfirst ∧
      (noIntersect tmax a tf tl).tfirst ≤ tmax ∧
      LeLast (noIntersect tmax a tf tl).tfirst (noIntersect tmax a tf tl).tlast ∧
      ∀ t, (noIntersect tmax a tf tl).tfirst ≤ t ∧ LeLast t (noIntersect tmax a tf tl).tlast ↔
        tf ≤ t ∧ LeLast t tl ∧ Overlap a t) := by
  have hpos : ∀ {s x t : K}, 0 < s → (x * (1 / s) ≤ t ↔ x ≤ s * t) := fun {s x t} hs => by
    rw [mul_one_div, div_le_iff₀ hs, mul_comm]
  have hpos' : ∀ {s x t : K}, 0 < s → (t ≤ x * (1 / s) ↔ s * t ≤ x) := fun {s x t} hs => by
    rw [mul_one_div, le_div_iff₀ hs, mul_comm]
  have hneg : ∀ {s x t : K}, s < 0 → (x * (1 / s) ≤ t ↔ s * t ≤ x) := fun {s x t} hs => by
    rw [mul_one_div, div_le_iff_of_neg hs, mul_comm]
  have hneg' : ∀ {s x t : K}, s < 0 → (t ≤ x * (1 / s) ↔ x ≤ s * t) := fun {s x t} hs => by
    rw [mul_one_div, le_div_iff_of_neg hs, mul_comm]
  have hmax : ∀ {s u : K} {t : K}, (if s > u then s else u) ≤ t ↔ s ≤ t ∧ u ≤ t := fun {s u t} => by
    split_ifs with h <;> constructor <;> intro h' <;> first | exact ⟨by linarith, by linarith⟩ | linarith [h'.1, h'.2]
  have hmax0 : ∀ {s u : K}, 0 ≤ u → 0 ≤ (if s > u then s else u) := fun {s u} hu => by
    split_ifs with h <;> linarith
  unfold noIntersect Overlap
  dsimp only
  obtain ⟨speed, min1, max1, min2, max2⟩ := a
  dsimp only
  by_cases c1 : max2 < min1
  · rw [if_pos c1]
    by_cases c2 : speed ≤ 0
    · rw [if_pos c2]
      refine ⟨fun _ t ht _ _ ho => ?_, fun h => by simp at h⟩
      have : speed * t ≤ 0 := mul_nonpos_of_nonpos_of_nonneg c2 (by linarith)
      linarith [ho.2]
    · rw [if_neg c2]
      have hs : 0 < speed := not_le.mp c2
      by_cases c3 : (if (min1 - max2) * (1 / speed) > tf then (min1 - max2) * (1 / speed) else tf) > tmax
      · rw [if_pos c3]
        refine ⟨fun _ t ht _ htm ho => ?_, fun h => by simp at h⟩
        have : (if (min1 - max2) * (1 / speed) > tf then (min1 - max2) * (1 / speed) else tf) ≤ t :=
          hmax.2 ⟨(hpos hs).2 (by linarith [ho.2]), ht⟩
        linarith
      · rw [if_neg c3]
        refine ⟨fun hf t ht hl htm ho => ?_, fun hh => ?_⟩
        · dsimp only at hf
          have : ¬ ((!afterLast (if (min1 - max2) * (1 / speed) > tf then (min1 - max2) * (1 / speed) else tf)
            (minLast ((max1 - min2) * (1 / speed)) tl)) = true) := by rw [hf]; simp
          rw [not_afterLast, leLast_minLast] at this
          have hle : (if (min1 - max2) * (1 / speed) > tf then (min1 - max2) * (1 / speed) else tf) ≤ t :=
            hmax.2 ⟨(hpos hs).2 (by linarith [ho.2]), ht⟩
          exact this ⟨hle.trans ((hpos' hs).2 (by linarith [ho.1])), fun x hx => hle.trans (hl x hx)⟩
        · dsimp only at hh ⊢
          refine ⟨hmax0 h0, not_lt.mp c3, not_afterLast.1 hh, fun t => ?_⟩
          rw [hmax, leLast_minLast, hpos hs, hpos' hs]
          constructor
          · rintro ⟨⟨a1, a2⟩, a3, a4⟩; exact ⟨a2, a4, by linarith, by linarith⟩
          · rintro ⟨a2, a4, a5, a6⟩; exact ⟨⟨by linarith, a2⟩, by linarith, a4⟩
  · rw [if_neg c1]
    by_cases c2 : max1 < min2
    · rw [if_pos c2]
      by_cases c3 : speed ≥ 0
      · rw [if_pos c3]
        refine ⟨fun _ t ht _ _ ho => ?_, fun h => by simp at h⟩
        have : 0 ≤ speed * t := mul_nonneg c3 (by linarith)
        linarith [ho.1]
      · rw [if_neg c3]
        have hs : speed < 0 := not_le.mp c3
        by_cases c4 : (if (max1 - min2) * (1 / speed) > tf then (max1 - min2) * (1 / speed) else tf) > tmax
        · rw [if_pos c4]
          refine ⟨fun _ t ht _ htm ho => ?_, fun h => by simp at h⟩
          have : (if (max1 - min2) * (1 / speed) > tf then (max1 - min2) * (1 / speed) else tf) ≤ t :=
            hmax.2 ⟨(hneg hs).2 (by linarith [ho.1]), ht⟩
          linarith
        · rw [if_neg c4]
          refine ⟨fun hf t ht hl htm ho => ?_, fun hh => ?_⟩
          · dsimp only at hf
            have : ¬ ((!afterLast (if (max1 - min2) * (1 / speed) > tf then (max1 - min2) * (1 / speed) else tf)
              (minLast ((min1 - max2) * (1 / speed)) tl)) = true) := by rw [hf]; simp
            rw [not_afterLast, leLast_minLast] at this
            have hle : (if (max1 - min2) * (1 / speed) > tf then (max1 - min2) * (1 / speed) else tf) ≤ t :=
              hmax.2 ⟨(hneg hs).2 (by linarith [ho.1]), ht⟩
            exact this ⟨hle.trans ((hneg' hs).2 (by linarith [ho.2])), fun x hx => hle.trans (hl x hx)⟩
          · dsimp only at hh ⊢
            refine ⟨hmax0 h0, not_lt.mp c4, not_afterLast.1 hh, fun t => ?_⟩
            rw [hmax, leLast_minLast, hneg hs, hneg' hs]
            constructor
            · rintro ⟨⟨a1, a2⟩, a3, a4⟩; exact ⟨a2, a4, by linarith, by linarith⟩
            · rintro ⟨a2, a4, a5, a6⟩; exact ⟨⟨by linarith, a2⟩, by linarith, a4⟩
    · rw [if_neg c2]
      by_cases c3 : speed > 0
      · rw [if_pos c3]
        refine ⟨fun hf t ht hl htm ho => ?_, fun hh => ?_⟩
        · dsimp only at hf
          have : ¬ ((!afterLast tf (minLast ((max1 - min2) * (1 / speed)) tl)) = true) := by rw [hf]; simp
          rw [not_afterLast, leLast_minLast] at this
          exact this ⟨ht.trans ((hpos' c3).2 (by linarith [ho.1])), h2⟩
        · dsimp only at hh ⊢
          refine ⟨h0, h1, not_afterLast.1 hh, fun t => ?_⟩
          rw [leLast_minLast, hpos' c3]
          constructor
          · rintro ⟨a2, a3, a4⟩
            have : 0 ≤ speed * t := mul_nonneg c3.le (by linarith)
            exact ⟨a2, a4, by linarith, by linarith⟩
          · rintro ⟨a2, a4, a5, a6⟩; exact ⟨a2, by linarith, a4⟩
      · rw [if_neg c3]
        by_cases c4 : speed < 0
        · rw [if_pos c4]
          refine ⟨fun hf t ht hl htm ho => ?_, fun hh => ?_⟩
          · dsimp only at hf
            have : ¬ ((!afterLast tf (minLast ((min1 - max2) * (1 / speed)) tl)) = true) := by rw [hf]; simp
            rw [not_afterLast, leLast_minLast] at this
            exact this ⟨ht.trans ((hneg' c4).2 (by linarith [ho.2])), h2⟩
          · dsimp only at hh ⊢
            refine ⟨h0, h1, not_afterLast.1 hh, fun t => ?_⟩
            rw [leLast_minLast, hneg' c4]
            constructor
            · rintro ⟨a2, a3, a4⟩
              have : speed * t ≤ 0 := mul_nonpos_of_nonpos_of_nonneg c4.le (by linarith)
              exact ⟨a2, a4, by linarith, by linarith⟩
            · rintro ⟨a2, a4, a5, a6⟩; exact ⟨a2, by linarith, a4⟩
        · rw [if_neg c4]
          have hs : speed = 0 := by linarith [not_lt.mp c3, not_lt.mp c4]
          refine ⟨fun hf => by simp at hf, fun _ => ⟨h0, h1, h2, fun t => ?_⟩⟩
          subst hs
          dsimp only
          constructor
          · rintro ⟨a1, a2⟩; exact ⟨a1, a2, by linarith, by linarith⟩
          · rintro ⟨a1, a2, -⟩; exact ⟨a1, a2⟩

/-- All the axes. -/
theorem axesLoop_spec {α : Type*} (f : α → Res (AxisData K)) (g : α → AxisData K) (tmax : K) (l : List α)
    (hf : ∀ x ∈ l, f x = .ok (g x)) (tf : K) (tl : Option K) (h0 : 0 ≤ tf) (h1 : tf ≤ tmax) (h2 : LeLast tf tl) :
    ∃ r, axesLoop f tmax l tf tl = .ok r ∧
      (r.hit = true ↔ ∃ t, tf ≤ t ∧ t ≤ tmax ∧ LeLast t tl ∧ ∀ x ∈ l, Overlap (g x) t) ∧
      (r.hit = true → 0 ≤ r.tfirst ∧
        ∀ t, r.tfirst ≤ t ∧ LeLast t r.tlast ↔ tf ≤ t ∧ LeLast t tl ∧ ∀ x ∈ l, Overlap (g x) t) := by
  induction l generalizing tf tl with
  | nil =>
    refine ⟨⟨true, tf, tl⟩, rfl, ?_, ?_⟩
    · simp only [List.not_mem_nil, false_imp_iff, implies_true, and_true, true_iff]
      exact ⟨tf, le_refl _, h1, h2⟩
    · intro _; simp [h0]
  | cons x xs ih =>
    obtain ⟨n1, n2⟩ := noIntersect_spec tmax (g x) tf tl h0 h1 h2
    unfold axesLoop
    rw [hf x (by simp)]
    dsimp only
    by_cases hh : (noIntersect tmax (g x) tf tl).hit = true
    · rw [if_pos hh]
      obtain ⟨m0, m1, m2, m3⟩ := n2 hh
      obtain ⟨r, hr, h3, h4⟩ := ih (fun y hy => hf y (by simp [hy])) _ _ m0 m1 m2
      have key : ∀ t, ((noIntersect tmax (g x) tf tl).tfirst ≤ t ∧ LeLast t (noIntersect tmax (g x) tf tl).tlast ∧
          ∀ y ∈ xs, Overlap (g y) t) ↔ (tf ≤ t ∧ LeLast t tl ∧ ∀ y ∈ x :: xs, Overlap (g y) t) := by
        intro t
        rw [← and_assoc, m3 t, List.forall_mem_cons, and_assoc, and_assoc]
      refine ⟨r, hr, ?_, fun hx => ⟨(h4 hx).1, fun t => ?_⟩⟩
      · rw [h3]
        constructor
        · rintro ⟨t, k1, k2, k3, k4⟩
          obtain ⟨j1, j2, j3⟩ := (key t).1 ⟨k1, k3, k4⟩
          exact ⟨t, j1, k2, j2, j3⟩
        · rintro ⟨t, k1, k2, k3, k4⟩
          obtain ⟨j1, j2, j3⟩ := (key t).2 ⟨k1, k3, k4⟩
          exact ⟨t, j1, k2, j2, j3⟩
      · rw [(h4 hx).2 t, key t]
    · rw [if_neg hh]
      have hfalse : (noIntersect tmax (g x) tf tl).hit = false := by simpa using hh
      refine ⟨_, rfl, ?_, fun hx => absurd hx hh⟩
      rw [hfalse]
      simp only [Bool.false_eq_true, false_iff]
      rintro ⟨t, k1, k2, k3, k4⟩
      exact n1 hfalse t k1 k3 k2 (k4 x (by simp))

/-- The answer for moving figures, from a description of the times at which they meet. -/
theorem axesLoop_correct {α : Type*} (f : α → Res (AxisData K)) (g : α → AxisData K) (tmax : K) (l : List α)
    (hf : ∀ x ∈ l, f x = .ok (g x)) (h1 : 0 ≤ tmax) (F G : P2 K → Prop) (v1 v2 : P2 K)
    (h : ∀ t, 0 ≤ t → (MeetAt F G v1 v2 t ↔ ∀ x ∈ l, Overlap (g x) t)) :
    ∃ r, axesLoop f tmax l 0 none = .ok r ∧ CorrectMoving F G v1 v2 tmax r.hit r.tfirst r.tlast := by
  obtain ⟨r, hr, h3, h4⟩ := axesLoop_spec f g tmax l hf 0 none (le_refl 0) h1 (leLast_none 0)
  refine ⟨r, hr, ?_, fun hx => ⟨(h4 hx).1, fun t ht => ?_⟩⟩
  · rw [h3]
    constructor
    · rintro ⟨t, k1, k2, -, k4⟩; exact ⟨t, k1, k2, (h t k1).2 k4⟩
    · rintro ⟨t, k1, k2, k4⟩; exact ⟨t, k1, k2, leLast_none t, (h t k1).1 k4⟩
  · have := (h4 hx).2 t
    rw [h t ht]
    constructor
    · intro k; exact this.2 ⟨ht, leLast_none t, k⟩
    · intro k; exact (this.1 k).2.2

/-- The four axes of two boxes decide at every time whether they share a point. -/
theorem obbAxes_meet (o1 o2 : Obb K) (h1 : ValidObb o1) (h2 : ValidObb o2) (v1 v2 : P2 K) (t : K) :
    MeetAt (InObb o1) (InObb o2) v1 v2 t ↔ ∀ a ∈ obbAxes o1 v1 o2 v2, Overlap a t := by
  have hmove : MeetAt (InObb o1) (InObb o2) v1 v2 t ↔
      ∃ P, InObb o1 P ∧ InObb { o2 with center := o2.center + t • (v2 - v1) } P := by
    unfold MeetAt InObb
    dsimp only
    constructor
    · rintro ⟨X, ha, s, r, hs, hr, e⟩
      refine ⟨X - t • v1, ha, s, r, hs, hr, ?_⟩
      have e1 := congrArg P2.x e
      have e2 := congrArg P2.y e
      simp only [P2.sub_x, P2.sub_y, P2.add_x, P2.add_y, P2.smul_x, P2.smul_y] at e1 e2
      ext
      · simp only [P2.sub_x, P2.add_x, P2.smul_x]; linear_combination e1
      · simp only [P2.sub_y, P2.add_y, P2.smul_y]; linear_combination e2
    · rintro ⟨P, ⟨s', r', hs', hr', e'⟩, s, r, hs, hr, e⟩
      refine ⟨P + t • v1, ⟨s', r', hs', hr', ?_⟩, s, r, hs, hr, ?_⟩
      · rw [← e']; ext <;> simp
      · have e1 := congrArg P2.x e
        have e2 := congrArg P2.y e
        simp only [P2.sub_x, P2.sub_y, P2.add_x, P2.add_y, P2.smul_x, P2.smul_y] at e1 e2
        ext
        · simp only [P2.sub_x, P2.add_x, P2.smul_x]; linear_combination e1
        · simp only [P2.sub_y, P2.add_y, P2.smul_y]; linear_combination e2
  rw [hmove, ← C15_intersection o1 { o2 with center := o2.center + t • (v2 - v1) } h1 h2]
  unfold obbObb obbAxes obbAxis Overlap
  simp only [List.forall_mem_cons, List.not_mem_nil, false_imp_iff, implies_true, and_true]
  have hdd : ∀ n : P2 K, dot (o2.center + t • (v2 - v1) - o1.center) n =
      dot (o2.center - o1.center) n + dot (v2 - v1) n * t := fun n => by
    simp only [dot, P2.sub_x, P2.sub_y, P2.add_x, P2.add_y, P2.smul_x, P2.smul_y]; ring
  simp only [hdd, direct_gt]
  have key : ∀ c s r1 r2 : K, (c - r2 + s * t ≤ r1 ∧ -r1 ≤ c + r2 + s * t) ↔ |c + s * t| ≤ r1 + r2 := by
    intro c s r1 r2
    rw [abs_le]
    constructor <;> rintro ⟨a, b⟩ <;> constructor <;> linarith
  simp only [key]
  grind

end Geometrix
