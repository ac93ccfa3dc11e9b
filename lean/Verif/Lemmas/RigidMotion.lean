import Verif.Model.MovingSphereObb
import Verif.Spec.Obb
import Verif.Lemmas.MovingSphereBox
import Verif.Lemmas.Between

/-!
# Helper lemmas: the moving sphere functions commute with rotations about a point
-/

set_option linter.unusedSectionVars false

namespace Geometrix

open Spec

/-- The rotation by the angle with the cosine `k` and the sine `s`. -/
noncomputable def spin (k s : ℝ) (v : P2 ℝ) : P2 ℝ := ⟨k * v.x - s * v.y, s * v.x + k * v.y⟩

/-- The rotation about `o`. -/
noncomputable def turnAbout (k s : ℝ) (o p : P2 ℝ) : P2 ℝ := spin k s (p - o) + o

/-- A result with its point moved. -/
noncomputable def moveHit (k s : ℝ) (o : P2 ℝ) (x : Option (ℝ × P2 ℝ)) : Option (ℝ × P2 ℝ) :=
  x.map fun y => (y.1, turnAbout k s o y.2)

section

variable {k s : ℝ} {o : P2 ℝ}

theorem spin_add (x y : P2 ℝ) : spin k s (x + y) = spin k s x + spin k s y := by
  ext <;> simp [spin] <;> ring

theorem spin_sub (x y : P2 ℝ) : spin k s (x - y) = spin k s x - spin k s y := by
  ext <;> simp [spin] <;> ring

theorem spin_smul (t : ℝ) (y : P2 ℝ) : spin k s (t • y) = t • spin k s y := by
  ext <;> simp [spin] <;> ring

theorem spin_left (y : P2 ℝ) : spin k s (leftNormal y) = leftNormal (spin k s y) := by
  ext <;> simp [spin, leftNormal] <;> ring

theorem spin_dot (h : k * k + s * s = 1) (x y : P2 ℝ) : dot (spin k s x) (spin k s y) = dot x y := by
  simp only [spin, dot]; linear_combination (x.x * y.x + x.y * y.y) * h

theorem spin_turn (h : k * k + s * s = 1) (x : P2 ℝ) : spin k (-s) (spin k s x) = x := by
  ext <;> simp only [spin]
  · linear_combination x.x * h
  · linear_combination x.y * h

theorem spin_inj (h : k * k + s * s = 1) {x y : P2 ℝ} : spin k s x = spin k s y ↔ x = y :=
  ⟨fun e => by rw [← spin_turn h x, e, spin_turn h], fun e => by rw [e]⟩

theorem turnAbout_sub (x y : P2 ℝ) : turnAbout k s o x - turnAbout k s o y = spin k s (x - y) := by
  ext <;> simp [turnAbout, spin] <;> ring

theorem turnAbout_add (x v : P2 ℝ) : turnAbout k s o (x + v) = turnAbout k s o x + spin k s v := by
  ext <;> simp [turnAbout, spin] <;> ring

theorem turnAbout_sub_vec (x v : P2 ℝ) : turnAbout k s o (x - v) = turnAbout k s o x - spin k s v := by
  ext <;> simp [turnAbout, spin] <;> ring

theorem turnAbout_back (h : k * k + s * s = 1) (x : P2 ℝ) : turnAbout k (-s) o (turnAbout k s o x) = x := by
  unfold turnAbout
  rw [show spin k s (x - o) + o - o = spin k s (x - o) by ext <;> simp, spin_turn h]
  ext <;> simp

theorem turnAbout_inj (h : k * k + s * s = 1) {x y : P2 ℝ} : turnAbout k s o x = turnAbout k s o y ↔ x = y :=
  ⟨fun e => by rw [← turnAbout_back h x, e, turnAbout_back h], fun e => by rw [e]⟩

theorem spin_distSq (h : k * k + s * s = 1) (x y : P2 ℝ) :
    distSq (turnAbout k s o x) (turnAbout k s o y) = distSq x y := by
  have := spin_dot h (y - x) (y - x)
  rw [← turnAbout_sub (o := o)] at this
  have := spin_dot h (x - y) (x - y)
  rw [← turnAbout_sub (o := o)] at this
  unfold distSq normSq
  assumption

theorem spin_onSegment (h : k * k + s * s = 1) (a b p : P2 ℝ) :
    OnSegment (turnAbout k s o a) (turnAbout k s o b) (turnAbout k s o p) ↔ OnSegment a b p := by
  unfold OnSegment
  constructor
  · rintro ⟨t, h0, h1, e⟩
    refine ⟨t, h0, h1, ?_⟩
    rw [turnAbout_sub, ← spin_smul, ← turnAbout_add, turnAbout_inj h] at e
    exact e
  · rintro ⟨t, h0, h1, e⟩
    refine ⟨t, h0, h1, ?_⟩
    rw [turnAbout_sub, ← spin_smul, ← turnAbout_add, turnAbout_inj h]
    exact e

theorem spin_normalize (h : k * k + s * s = 1) (x : P2 ℝ) :
    normalize2 (spin k s x) = (normalize2 x).map (spin k s) := by
  unfold normalize2
  have : normSq (spin k s x) = normSq x := spin_dot h x x
  rw [this]
  split_ifs
  · rfl
  · simp [Except.map, spin_smul]

theorem spin_closest (h : k * k + s * s = 1) (p a b : P2 ℝ) :
    pointSegClosestPts (turnAbout k s o p) (turnAbout k s o a) (turnAbout k s o b) =
      (pointSegClosestPts p a b).map (turnAbout k s o) := by
  unfold pointSegClosestPts
  dsimp only
  rw [turnAbout_sub, turnAbout_sub, spin_dot h, spin_dot h]
  cases cdiv (dot (p - a) (b - a)) (dot (b - a) (b - a)) with
  | error e => rfl
  | ok t =>
    dsimp only
    split_ifs
    · rfl
    · rfl
    · simp [Except.map, turnAbout_add, spin_smul]

theorem spin_between (h : k * k + s * s = 1) {a b : P2 ℝ} (hab : a ≠ b) (q : P2 ℝ) :
    isBetween Cmp.direct (turnAbout k s o a) (turnAbout k s o b) (turnAbout k s o q) true =
      isBetween Cmp.direct a b q true := by
  rw [Bool.eq_iff_iff, isBetween_iff_onSegment hab, isBetween_iff_onSegment (fun e => hab ((turnAbout_inj h).1 e)),
    spin_onSegment h]

theorem spin_plane (h : k * k + s * s = 1) (cmp : Cmp ℝ) (c v n : P2 ℝ) (r d d' : ℝ)
    (hd : dot (turnAbout k s o c) (spin k s n) - d' = dot c n - d) :
    movingSpherePlane cmp (turnAbout k s o c) r (spin k s v) (spin k s n) d' =
      (movingSpherePlane cmp c r v n d).map fun x => (x.1, moveHit k s o x.2) := by
  unfold movingSpherePlane
  dsimp only
  rw [hd, spin_dot h, spin_dot h]
  have key : ∀ t : ℝ, turnAbout k s o c - t • spin k s n = turnAbout k s o (c - t • n) := by
    intro t; rw [turnAbout_sub_vec, spin_smul]
  split_ifs
  all_goals first
    | rfl
    | (cases cdiv (dot c n - d) (dot n n) with
       | error e => rfl
       | ok t => simp [Except.map, moveHit, key])
    | skip
  all_goals
    generalize cdiv _ (dot v n) = z
    cases z with
    | error e => rfl
    | ok t => simp [Except.map, moveHit, turnAbout_add, turnAbout_sub_vec, spin_smul]

theorem spin_end (h : k * k + s * s = 1) (cmp : Cmp ℝ) (v c a : P2 ℝ) (r : ℝ) :
    movingSphereEnd cmp (spin k s v) (turnAbout k s o c) r (turnAbout k s o a) =
      (movingSphereEnd cmp v c r a).map (moveHit k s o) := by
  unfold movingSphereEnd
  dsimp only
  rw [turnAbout_sub, spin_dot h, spin_dot h]
  split_ifs with h0
  · rfl
  · by_cases hs : Real.sqrt (dot v v) = 0
    · simp [cdiv, hs, Except.map]
    · have e : (⟨(spin k s v).x / Real.sqrt (dot v v), (spin k s v).y / Real.sqrt (dot v v)⟩ : P2 ℝ) =
          spin k s ⟨v.x / Real.sqrt (dot v v), v.y / Real.sqrt (dot v v)⟩ := by
        ext <;> simp [spin] <;> ring
      simp only [cdiv, if_neg hs]
      rw [e, spin_dot h]
      generalize (⟨v.x / Real.sqrt (dot v v), v.y / Real.sqrt (dot v v)⟩ : P2 ℝ) = w
      split_ifs
      · rfl
      · rfl
      · generalize csqrt _ = z
        cases z with
        | error e => rfl
        | ok z =>
          dsimp only
          generalize (if cmp.lt (-(dot (c - a) w + z)) 0 = true then (0 : ℝ) else -(dot (c - a) w + z)) = lt
          rw [← spin_smul, ← turnAbout_add, turnAbout_sub, spin_normalize h]
          cases normalize2 (a - (c + lt • w)) with
          | error e => rfl
          | ok u => simp [Except.map, moveHit, turnAbout_add, spin_smul]

theorem spin_segment (h : k * k + s * s = 1) (c v a b : P2 ℝ) (r : ℝ) :
    movingSphereSegment Cmp.direct (turnAbout k s o c) r (spin k s v) (turnAbout k s o a) (turnAbout k s o b) =
      (movingSphereSegment Cmp.direct c r v a b).map fun x => (x.1, moveHit k s o x.2) := by
  unfold movingSphereSegment makeLine makeLineV
  rw [turnAbout_sub, spin_normalize h]
  by_cases hab : a = b
  · subst hab
    have : normalize2 (a - a) = .error .assertFailed := by simp [normalize2, normSq, dot]
    rw [this]; rfl
  cases normalize2 (b - a) with
  | error e => rfl
  | ok w =>
    simp only [Except.map]
    rw [← spin_left, spin_plane h (d := dot a (leftNormal w))]
    · cases movingSpherePlane Cmp.direct c r v (leftNormal w) (dot a (leftNormal w)) with
      | error e => rfl
      | ok x =>
        obtain ⟨f, z⟩ := x
        cases z with
        | none => rfl
        | some z =>
          obtain ⟨t, q⟩ := z
          simp only [Except.map, moveHit, Option.map_some]
          rw [spin_between h hab, spin_distSq h, spin_distSq h]
          split_ifs with hb hd
          · rfl
          · rw [spin_end h]
            cases movingSphereEnd Cmp.direct v c r b with
            | error e => rfl
            | ok z => cases z <;> rfl
          · rw [spin_end h]
            cases movingSphereEnd Cmp.direct v c r a with
            | error e => rfl
            | ok z => cases z <;> rfl
    · have e1 := spin_dot h (c - a) (leftNormal w)
      rw [← turnAbout_sub (o := o)] at e1
      simp only [dot, P2.sub_x, P2.sub_y] at e1 ⊢
      linarith

end

end Geometrix
