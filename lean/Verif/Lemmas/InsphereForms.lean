import Mathlib.Tactic.Positivity
import Verif.Lemmas.Orient3d
import Verif.Model.PredicatesSphere

/-!
The determinant of the test for spheres, its first order, and the errors in computing them.
-/

set_option linter.unusedSectionVars false

namespace Geometrix

open Spec

section

variable {K : Type*} [Field K] [LinearOrder K] [IsStrictOrderedRing K]

/-- `x` is `x0` up to first order, with the first order `x1`, for a sum of products of `m` factors whose absolute values add up
to `X`. -/
structure Jet (ε : K) (m : Nat) (x x0 x1 X : K) : Prop where
  le : |x0| ≤ X
  rest : |x - x0 - x1| ≤ ((1 + ε) ^ m - 1 - m * ε) * X
  near : |x - x0| ≤ ((1 + ε) ^ m - 1) * X

theorem Jet.nonneg {ε : K} {m : Nat} {x x0 x1 X : K} (h : Jet ε m x x0 x1 X) : 0 ≤ X := (abs_nonneg x0).trans h.le

theorem Jet.base {ε x s : K} (h : |s| ≤ ε * |x|) : Jet ε 1 (x + s) x s |x| :=
  ⟨le_rfl, by simp, by simpa using h⟩

theorem Jet.congr {ε : K} {m : Nat} {x x0 x1 X y y0 y1 Y : K} (h : Jet ε m x x0 x1 X) (e : x = y) (e0 : x0 = y0)
    (e1 : x1 = y1) (e2 : X = Y) : Jet ε m y y0 y1 Y := by
  subst e e0 e1 e2
  exact h

theorem Jet.add {ε : K} {m : Nat} {x x0 x1 X y y0 y1 Y : K} (hx : Jet ε m x x0 x1 X) (hy : Jet ε m y y0 y1 Y) :
    Jet ε m (x + y) (x0 + y0) (x1 + y1) (X + Y) := by
  refine ⟨(abs_add_le _ _).trans (add_le_add hx.le hy.le), ?_, ?_⟩
  · rw [show x + y - (x0 + y0) - (x1 + y1) = (x - x0 - x1) + (y - y0 - y1) by ring, mul_add]
    exact (abs_add_le _ _).trans (add_le_add hx.rest hy.rest)
  · rw [show x + y - (x0 + y0) = (x - x0) + (y - y0) by ring, mul_add]
    exact (abs_add_le _ _).trans (add_le_add hx.near hy.near)

theorem Jet.neg {ε : K} {m : Nat} {x x0 x1 X : K} (h : Jet ε m x x0 x1 X) : Jet ε m (-x) (-x0) (-x1) X := by
  refine ⟨by rw [abs_neg]; exact h.le, ?_, ?_⟩
  · rw [show -x - -x0 - -x1 = -(x - x0 - x1) by ring, abs_neg]; exact h.rest
  · rw [show -x - -x0 = -(x - x0) by ring, abs_neg]; exact h.near

theorem Jet.sub {ε : K} {m : Nat} {x x0 x1 X y y0 y1 Y : K} (hx : Jet ε m x x0 x1 X) (hy : Jet ε m y y0 y1 Y) :
    Jet ε m (x - y) (x0 - y0) (x1 - y1) (X + Y) := by
  have := hx.add hy.neg
  simpa only [← sub_eq_add_neg] using this

theorem Jet.mul {ε : K} (hε : 0 ≤ ε) {m n : Nat} {x x0 x1 X y y0 y1 Y : K} (hx : Jet ε m x x0 x1 X)
    (hy : Jet ε n y y0 y1 Y) : Jet ε (m + n) (x * y) (x0 * y0) (x0 * y1 + x1 * y0) (X * Y) := by
  have hX := hx.nonneg
  have hY := hy.nonneg
  have p1 : 1 ≤ (1 + ε) ^ m := one_le_pow₀ (by linarith)
  have p2 : 1 ≤ (1 + ε) ^ n := one_le_pow₀ (by linarith)
  have b1 : |x - x0| * |y - y0| ≤ (((1 + ε) ^ m - 1) * X) * (((1 + ε) ^ n - 1) * Y) :=
    mul_le_mul hx.near hy.near (abs_nonneg _) (mul_nonneg (by linarith) hX)
  refine ⟨by rw [abs_mul]; exact mul_le_mul hx.le hy.le (abs_nonneg _) hX, ?_, ?_⟩
  · rw [show x * y - x0 * y0 - (x0 * y1 + x1 * y0) = (x - x0) * (y - y0) + x0 * (y - y0 - y1) + (x - x0 - x1) * y0 by ring]
    refine (abs_add_three _ _ _).trans ?_
    rw [abs_mul, abs_mul, abs_mul]
    have b2 : |x0| * |y - y0 - y1| ≤ X * (((1 + ε) ^ n - 1 - n * ε) * Y) := mul_le_mul hx.le hy.rest (abs_nonneg _) hX
    have b3 : |x - x0 - x1| * |y0| ≤ (((1 + ε) ^ m - 1 - m * ε) * X) * Y :=
      mul_le_mul hx.rest hy.le (abs_nonneg _) ((abs_nonneg _).trans hx.rest)
    rw [pow_add]
    push_cast
    linarith
  · rw [show x * y - x0 * y0 = (x - x0) * (y - y0) + x0 * (y - y0) + (x - x0) * y0 by ring]
    refine (abs_add_three _ _ _).trans ?_
    rw [abs_mul, abs_mul, abs_mul]
    have b2 : |x0| * |y - y0| ≤ X * (((1 + ε) ^ n - 1) * Y) := mul_le_mul hx.le hy.near (abs_nonneg _) hX
    have b3 : |x - x0| * |y0| ≤ (((1 + ε) ^ m - 1) * X) * Y :=
      mul_le_mul hx.near hy.le (abs_nonneg _) ((abs_nonneg _).trans hx.near)
    rw [pow_add]
    linarith

/-- The determinant of two columns. -/
def crossXY (a b : P3 K) : K := a.x * b.y - b.x * a.y

/-- Its first order. -/
def crossLin (a b s t : P3 K) : K := (a.x * t.y + b.y * s.x) - (a.y * t.x + b.x * s.y)

/-- The absolute values of its products. -/
def crossAbs (a b : P3 K) : K := |a.x| * |b.y| + |b.x| * |a.y|

def dotXYZ (a s : P3 K) : K := a.x * s.x + a.y * s.y + a.z * s.z

def addThree (x u y v z w : K) : K := x * u + y * v + z * w

def subThree (x u y v z w : K) : K := x * u - y * v + z * w

/-- The determinant for points relative to the last one. -/
def sphereForm (a b c d : P3 K) : K :=
  (dotXYZ d d * subThree a.z (crossXY b c) b.z (crossXY a c) c.z (crossXY a b) -
    dotXYZ c c * addThree d.z (crossXY a b) a.z (crossXY b d) b.z (crossXY d a)) +
  (dotXYZ b b * addThree c.z (crossXY d a) d.z (crossXY a c) a.z (crossXY c d) -
    dotXYZ a a * subThree b.z (crossXY c d) c.z (crossXY b d) d.z (crossXY b c))

/-- The absolute values of its products. -/
def sphereAbs (a b c d : P3 K) : K :=
  (dotXYZ d d * addThree |a.z| (crossAbs b c) |b.z| (crossAbs a c) |c.z| (crossAbs a b) +
    dotXYZ c c * addThree |d.z| (crossAbs a b) |a.z| (crossAbs b d) |b.z| (crossAbs d a)) +
  (dotXYZ b b * addThree |c.z| (crossAbs d a) |d.z| (crossAbs a c) |a.z| (crossAbs c d) +
    dotXYZ a a * addThree |b.z| (crossAbs c d) |c.z| (crossAbs b d) |d.z| (crossAbs b c))

/-- Its first order. -/
def sphereLin (a b c d s t u v : P3 K) : K :=
  ((dotXYZ b b * (addThree c.z (crossLin d a v s) d.z (crossLin a c s u) a.z (crossLin c d u v) +
        addThree u.z (crossXY d a) v.z (crossXY a c) s.z (crossXY c d)) +
      dotXYZ d d * (subThree a.z (crossLin b c t u) b.z (crossLin a c s u) c.z (crossLin a b s t) +
        subThree s.z (crossXY b c) t.z (crossXY a c) u.z (crossXY a b))) -
    (dotXYZ a a * (subThree b.z (crossLin c d u v) c.z (crossLin b d t v) d.z (crossLin b c t u) +
        subThree t.z (crossXY c d) u.z (crossXY b d) v.z (crossXY b c)) +
      dotXYZ c c * (addThree d.z (crossLin a b s t) a.z (crossLin b d t v) b.z (crossLin d a v s) +
        addThree v.z (crossXY a b) s.z (crossXY b d) t.z (crossXY d a)))) +
  2 * ((dotXYZ b t * addThree c.z (crossXY d a) d.z (crossXY a c) a.z (crossXY c d) +
      dotXYZ d v * subThree a.z (crossXY b c) b.z (crossXY a c) c.z (crossXY a b)) -
    (dotXYZ a s * subThree b.z (crossXY c d) c.z (crossXY b d) d.z (crossXY b c) +
      dotXYZ c u * addThree d.z (crossXY a b) a.z (crossXY b d) b.z (crossXY d a)))

theorem crossAbs_nonneg (a b : P3 K) : 0 ≤ crossAbs a b := by unfold crossAbs; positivity

theorem dotXYZ_nonneg (a : P3 K) : 0 ≤ dotXYZ a a := by
  unfold dotXYZ
  have := mul_self_nonneg a.x
  have := mul_self_nonneg a.y
  have := mul_self_nonneg a.z
  linarith

theorem dot_self_abs (a : P3 K) : |a.x| * |a.x| + |a.y| * |a.y| + |a.z| * |a.z| = dotXYZ a a := by
  simp only [dotXYZ, abs_mul_abs_self]

theorem addThree_nonneg {x u y v z w : K} (h1 : 0 ≤ x) (h2 : 0 ≤ u) (h3 : 0 ≤ y) (h4 : 0 ≤ v) (h5 : 0 ≤ z) (h6 : 0 ≤ w) :
    0 ≤ addThree x u y v z w := by unfold addThree; positivity

theorem sphereAbs_nonneg (a b c d : P3 K) : 0 ≤ sphereAbs a b c d := by
  have h (x y z : K) (a b c d e f : P3 K) : 0 ≤ addThree |x| (crossAbs a b) |y| (crossAbs c d) |z| (crossAbs e f) :=
    addThree_nonneg (abs_nonneg _) (crossAbs_nonneg _ _) (abs_nonneg _) (crossAbs_nonneg _ _) (abs_nonneg _) (crossAbs_nonneg _ _)
  have g (x : K) (a : P3 K) (hx : 0 ≤ x) := mul_nonneg (dotXYZ_nonneg a) hx
  exact add_nonneg (add_nonneg (g _ _ (h _ _ _ _ _ _ _ _ _)) (g _ _ (h _ _ _ _ _ _ _ _ _)))
    (add_nonneg (g _ _ (h _ _ _ _ _ _ _ _ _)) (g _ _ (h _ _ _ _ _ _ _ _ _)))

theorem Jet.cross {ε : K} (hε : 0 ≤ ε) {a b s t : P3 K} (ha : Tails ε a s) (hb : Tails ε b t) :
    Jet ε 2 (crossXY (a + s) (b + t)) (crossXY a b) (crossLin a b s t) (crossAbs a b) :=
  (((Jet.base ha.x).mul hε (Jet.base hb.y)).sub ((Jet.base hb.x).mul hε (Jet.base ha.y))).congr
    rfl rfl (by unfold crossLin; ring) rfl

theorem Jet.square {ε : K} (hε : 0 ≤ ε) {a s : P3 K} (ha : Tails ε a s) :
    Jet ε 2 (dotXYZ (a + s) (a + s)) (dotXYZ a a) (2 * dotXYZ a s) (dotXYZ a a) :=
  ((((Jet.base ha.x).mul hε (Jet.base ha.x)).add ((Jet.base ha.y).mul hε (Jet.base ha.y))).add
    ((Jet.base ha.z).mul hε (Jet.base ha.z))).congr rfl rfl (by unfold dotXYZ; ring) (dot_self_abs a)

theorem Jet.addThree {ε : K} (hε : 0 ≤ ε) {x y z u v w r s t x' y' z' u' v' w' r' s' t' : K} {U V W : K}
    (hx : |x'| ≤ ε * |x|) (hy : |y'| ≤ ε * |y|) (hz : |z'| ≤ ε * |z|)
    (h1 : Jet ε 2 r u u' U) (h2 : Jet ε 2 s v v' V) (h3 : Jet ε 2 t w w' W) :
    Jet ε 3 (Geometrix.addThree (x + x') r (y + y') s (z + z') t) (Geometrix.addThree x u y v z w)
      (Geometrix.addThree x u' y v' z w' + Geometrix.addThree x' u y' v z' w)
      (Geometrix.addThree |x| U |y| V |z| W) :=
  ((((Jet.base hx).mul hε h1).add ((Jet.base hy).mul hε h2)).add ((Jet.base hz).mul hε h3)).congr
    rfl rfl (by unfold Geometrix.addThree; ring) rfl

theorem Jet.subThree {ε : K} (hε : 0 ≤ ε) {x y z u v w r s t x' y' z' u' v' w' r' s' t' : K} {U V W : K}
    (hx : |x'| ≤ ε * |x|) (hy : |y'| ≤ ε * |y|) (hz : |z'| ≤ ε * |z|)
    (h1 : Jet ε 2 r u u' U) (h2 : Jet ε 2 s v v' V) (h3 : Jet ε 2 t w w' W) :
    Jet ε 3 (Geometrix.subThree (x + x') r (y + y') s (z + z') t) (Geometrix.subThree x u y v z w)
      (Geometrix.subThree x u' y v' z w' + Geometrix.subThree x' u y' v z' w)
      (Geometrix.addThree |x| U |y| V |z| W) :=
  ((((Jet.base hx).mul hε h1).sub ((Jet.base hy).mul hε h2)).add ((Jet.base hz).mul hε h3)).congr
    rfl rfl (by unfold Geometrix.subThree; ring) rfl

theorem sphere_jet {ε : K} (hε : 0 ≤ ε) {a b c d s t u v : P3 K} (ha : Tails ε a s) (hb : Tails ε b t) (hc : Tails ε c u)
    (hd : Tails ε d v) :
    Jet ε 5 (sphereForm (a + s) (b + t) (c + u) (d + v)) (sphereForm a b c d) (sphereLin a b c d s t u v)
      (sphereAbs a b c d) := by
  have ab := Jet.cross hε ha hb
  have bc := Jet.cross hε hb hc
  have cd := Jet.cross hε hc hd
  have da := Jet.cross hε hd ha
  have ac := Jet.cross hε ha hc
  have bd := Jet.cross hε hb hd
  have abc := Jet.subThree hε (r' := 0) (s' := 0) (t' := 0) ha.z hb.z hc.z bc ac ab
  have bcd := Jet.subThree hε (r' := 0) (s' := 0) (t' := 0) hb.z hc.z hd.z cd bd bc
  have cda := Jet.addThree hε (r' := 0) (s' := 0) (t' := 0) hc.z hd.z ha.z da ac cd
  have dab := Jet.addThree hε (r' := 0) (s' := 0) (t' := 0) hd.z ha.z hb.z ab bd da
  refine ((((Jet.square hε hd).mul hε abc).sub ((Jet.square hε hc).mul hε dab)).add
    (((Jet.square hε hb).mul hε cda).sub ((Jet.square hε ha).mul hε bcd))).congr rfl rfl ?_ rfl
  unfold sphereLin
  ring

theorem Acc.addE {u : K} {n : Nat} {x' x X y' y Y : K} (hx : Acc u n x' x X) (hy : Acc u n y' y Y) :
    Acc u n (x' + y') (x + y) (X + Y) := by
  refine ⟨(abs_add_le _ _).trans (add_le_add hx.le hy.le), ?_⟩
  rw [show x' + y' - (x + y) = x' - x + (y' - y) by ring, mul_add]
  exact (abs_add_le _ _).trans (add_le_add hx.near hy.near)

theorem Acc.addThree {ε : K} (hε : 0 ≤ ε) {fl : K → K} (hfl : RoundsWithin ε fl) {m n k : Nat}
    {x y z u v w x' y' z' u' v' w' X Y Z U V W : K} (hx : Acc ε m x' x X) (hy : Acc ε m y' y Y) (hz : Acc ε m z' z Z)
    (hu : Acc ε n u' u U) (hv : Acc ε n v' v V) (hw : Acc ε n w' w W) (hk : m + n + 3 ≤ k) :
    Acc ε k (sphComb fl x' u' y' v' z' w') (Geometrix.addThree x u y v z w) (Geometrix.addThree X U Y V Z W) :=
  (((hx.mul hε hfl hu le_rfl).add hε hfl (hy.mul hε hfl hv le_rfl) le_rfl).add hε hfl
    ((hz.mul hε hfl hw le_rfl).mono hε (by omega)) (by omega))

theorem Acc.subThree {ε : K} (hε : 0 ≤ ε) {fl : K → K} (hfl : RoundsWithin ε fl) {m n k : Nat}
    {x y z u v w x' y' z' u' v' w' X Y Z U V W : K} (hx : Acc ε m x' x X) (hy : Acc ε m y' y Y) (hz : Acc ε m z' z Z)
    (hu : Acc ε n u' u U) (hv : Acc ε n v' v V) (hw : Acc ε n w' w W) (hk : m + n + 3 ≤ k) :
    Acc ε k (sphCombSub fl x' u' y' v' z' w') (Geometrix.subThree x u y v z w) (Geometrix.addThree X U Y V Z W) :=
  (((hx.mul hε hfl hu le_rfl).sub hε hfl (hy.mul hε hfl hv le_rfl) le_rfl).add hε hfl
    ((hz.mul hε hfl hw le_rfl).mono hε (by omega)) (by omega))

/-- The coordinates of a point are computed with one rounding. -/
structure AccP (ε : K) (n : Nat) (a' a : P3 K) : Prop where
  x : Acc ε n a'.x a.x |a.x|
  y : Acc ε n a'.y a.y |a.y|
  z : Acc ε n a'.z a.z |a.z|

theorem AccP.exact {ε : K} (a : P3 K) : AccP ε 0 a a := ⟨Acc.exact _, Acc.exact _, Acc.exact _⟩

theorem AccP.cross {ε : K} (hε : 0 ≤ ε) {fl : K → K} (hfl : RoundsWithin ε fl) {n k : Nat} {a a' b b' : P3 K}
    (ha : AccP ε n a' a) (hb : AccP ε n b' b) (hk : n + n + 2 ≤ k) : Acc ε k (sphCross fl a' b') (crossXY a b) (crossAbs a b) :=
  (ha.x.mul hε hfl hb.y le_rfl).sub hε hfl (hb.x.mul hε hfl ha.y le_rfl) hk

theorem AccP.lift {ε : K} (hε : 0 ≤ ε) {fl : K → K} (hfl : RoundsWithin ε fl) {n k : Nat} {a a' : P3 K}
    (ha : AccP ε n a' a) (hk : n + n + 3 ≤ k) : Acc ε k (sphLift fl a') (dotXYZ a a) (dotXYZ a a) := by
  have := (((ha.x.mul hε hfl ha.x le_rfl).add hε hfl (ha.y.mul hε hfl ha.y le_rfl) le_rfl).add hε hfl
    ((ha.z.mul hε hfl ha.z le_rfl).mono hε (Nat.le_succ _)) hk)
  rw [dot_self_abs] at this
  exact this

/-- The first stage. -/
theorem sphFirst_acc {ε : K} (hε : 0 ≤ ε) {fl : K → K} (hfl : RoundsWithin ε fl) {a b c d a' b' c' d' : P3 K}
    (ha : AccP ε 1 a' a) (hb : AccP ε 1 b' b) (hc : AccP ε 1 c' c) (hd : AccP ε 1 d' d) :
    ∃ y, sphFirst fl a' b' c' d' = fl y ∧ Acc ε 15 y (sphereForm a b c d) (sphereAbs a b c d) := by
  have ab := ha.cross hε hfl hb (k := 4) le_rfl
  have bc := hb.cross hε hfl hc (k := 4) le_rfl
  have cd := hc.cross hε hfl hd (k := 4) le_rfl
  have da := hd.cross hε hfl ha (k := 4) le_rfl
  have ac := ha.cross hε hfl hc (k := 4) le_rfl
  have bd := hb.cross hε hfl hd (k := 4) le_rfl
  have abc := Acc.subThree hε hfl ha.z hb.z hc.z bc ac ab (k := 8) le_rfl
  have bcd := Acc.subThree hε hfl hb.z hc.z hd.z cd bd bc (k := 8) le_rfl
  have cda := Acc.addThree hε hfl hc.z hd.z ha.z da ac cd (k := 8) le_rfl
  have dab := Acc.addThree hε hfl hd.z ha.z hb.z ab bd da (k := 8) le_rfl
  have al := ha.lift hε hfl (k := 5) le_rfl
  have bl := hb.lift hε hfl (k := 5) le_rfl
  have cl := hc.lift hε hfl (k := 5) le_rfl
  have dl := hd.lift hε hfl (k := 5) le_rfl
  exact ⟨_, rfl, ((dl.mul hε hfl abc (k := 14) le_rfl).sub hε hfl (cl.mul hε hfl dab (k := 14) le_rfl) le_rfl).addE
    ((bl.mul hε hfl cda (k := 14) le_rfl).sub hε hfl (al.mul hε hfl bcd (k := 14) le_rfl) le_rfl)⟩

theorem sphEps_acc {ε : K} (hε : 0 ≤ ε) {fl : K → K} (hfl : RoundsWithin ε fl) {a b s t : P3 K} (ha : Tails ε a s)
    (hb : Tails ε b t) : Acc ε 3 (sphEps fl a b s t) (crossLin a b s t) (2 * ε * crossAbs a b) := by
  have base (x : K) := Acc.base hε hfl x
  have h := ((base (a.x * t.y)).add hε hfl (base (b.y * s.x)) le_rfl).sub hε hfl
    ((base (a.y * t.x)).add hε hfl (base (b.x * s.y)) le_rfl) le_rfl
  refine Acc.weak hε h ?_
  unfold crossAbs
  simp only [abs_mul]
  have k1 : |a.x| * |t.y| ≤ |a.x| * (ε * |b.y|) := by have := hb.y; gcongr
  have k2 : |b.y| * |s.x| ≤ |b.y| * (ε * |a.x|) := by have := ha.x; gcongr
  have k3 : |a.y| * |t.x| ≤ |a.y| * (ε * |b.x|) := by have := hb.x; gcongr
  have k4 : |b.x| * |s.y| ≤ |b.x| * (ε * |a.y|) := by have := ha.y; gcongr
  linarith

theorem sphLiftTail_acc {ε : K} (hε : 0 ≤ ε) {fl : K → K} (hfl : RoundsWithin ε fl) {a s : P3 K} (ha : Tails ε a s) :
    Acc ε 3 (sphLiftTail fl a s) (dotXYZ a s) (ε * dotXYZ a a) := by
  have base (x : K) := Acc.base hε hfl x
  have h := ((base (a.x * s.x)).add hε hfl (base (a.y * s.y)) le_rfl).add hε hfl
    ((base (a.z * s.z)).mono hε (Nat.le_succ _)) le_rfl
  refine Acc.weak hε h ?_
  rw [← dot_self_abs]
  simp only [abs_mul]
  have k1 : |a.x| * |s.x| ≤ |a.x| * (ε * |a.x|) := by have := ha.x; gcongr
  have k2 : |a.y| * |s.y| ≤ |a.y| * (ε * |a.y|) := by have := ha.y; gcongr
  have k3 : |a.z| * |s.z| ≤ |a.z| * (ε * |a.z|) := by have := ha.z; gcongr
  linarith

/-- The third stage. -/
theorem sphCorrection_acc {ε : K} (hε : 0 ≤ ε) {fl : K → K} (hfl : RoundsWithin ε fl) {k : K} {a b c d s t u v : P3 K}
    (ha : Tails ε a s) (hb : Tails ε b t) (hc : Tails ε c u) (hd : Tails ε d v)
    (top : ∀ x y, (x = a ∨ x = b ∨ x = c ∨ x = d) → (y = a ∨ y = b ∨ y = c ∨ y = d) →
      Acc ε 3 (prodTop fl k x y) (crossXY x y) (crossAbs x y)) :
    Acc ε 14 (sphCorrection fl k a b c d s t u v) (sphereLin a b c d s t u v) (5 * ε * sphereAbs a b c d) := by
  have ab := sphEps_acc hε hfl ha hb
  have bc := sphEps_acc hε hfl hb hc
  have cd := sphEps_acc hε hfl hc hd
  have da := sphEps_acc hε hfl hd ha
  have ac := sphEps_acc hε hfl ha hc
  have bd := sphEps_acc hε hfl hb hd
  have ab3 := top a b (by simp) (by simp)
  have bc3 := top b c (by simp) (by simp)
  have cd3 := top c d (by simp) (by simp)
  have da3 := top d a (by simp) (by simp)
  have ac3 := top a c (by simp) (by simp)
  have bd3 := top b d (by simp) (by simp)
  have az := Acc.exact (u := ε) a.z
  have bz := Acc.exact (u := ε) b.z
  have cz := Acc.exact (u := ε) c.z
  have dz := Acc.exact (u := ε) d.z
  have sz := Acc.weak hε (Acc.exact s.z) ha.z
  have tz := Acc.weak hε (Acc.exact t.z) hb.z
  have uz := Acc.weak hε (Acc.exact u.z) hc.z
  have vz := Acc.weak hε (Acc.exact v.z) hd.z
  have al := (AccP.exact (ε := ε) a).lift hε hfl (k := 3) le_rfl
  have bl := (AccP.exact (ε := ε) b).lift hε hfl (k := 3) le_rfl
  have cl := (AccP.exact (ε := ε) c).lift hε hfl (k := 3) le_rfl
  have dl := (AccP.exact (ε := ε) d).lift hε hfl (k := 3) le_rfl
  have e1 := (Acc.addThree hε hfl cz dz az da ac cd (k := 6) le_rfl).add hε hfl
    (Acc.addThree hε hfl uz vz sz da3 ac3 cd3 (k := 6) le_rfl) le_rfl
  have e2 := (Acc.subThree hε hfl az bz cz bc ac ab (k := 6) le_rfl).add hε hfl
    (Acc.subThree hε hfl sz tz uz bc3 ac3 ab3 (k := 6) le_rfl) le_rfl
  have e3 := (Acc.subThree hε hfl bz cz dz cd bd bc (k := 6) le_rfl).add hε hfl
    (Acc.subThree hε hfl tz uz vz cd3 bd3 bc3 (k := 6) le_rfl) le_rfl
  have e4 := (Acc.addThree hε hfl dz az bz ab bd da (k := 6) le_rfl).add hε hfl
    (Acc.addThree hε hfl vz sz tz ab3 bd3 da3 (k := 6) le_rfl) le_rfl
  have f1 := ((bl.mul hε hfl e1 le_rfl).add hε hfl (dl.mul hε hfl e2 le_rfl) le_rfl).sub hε hfl
    ((al.mul hε hfl e3 le_rfl).add hε hfl (cl.mul hε hfl e4 le_rfl) le_rfl) le_rfl
  have alt := sphLiftTail_acc hε hfl ha
  have blt := sphLiftTail_acc hε hfl hb
  have clt := sphLiftTail_acc hε hfl hc
  have dlt := sphLiftTail_acc hε hfl hd
  have g1 := Acc.addThree hε hfl cz dz az da3 ac3 cd3 (k := 6) le_rfl
  have g2 := Acc.subThree hε hfl az bz cz bc3 ac3 ab3 (k := 6) le_rfl
  have g3 := Acc.subThree hε hfl bz cz dz cd3 bd3 bc3 (k := 6) le_rfl
  have g4 := Acc.addThree hε hfl dz az bz ab3 bd3 da3 (k := 6) le_rfl
  have f2 := ((blt.mul hε hfl g1 le_rfl).add hε hfl (dlt.mul hε hfl g2 le_rfl) le_rfl).sub hε hfl
    ((alt.mul hε hfl g3 le_rfl).add hε hfl (clt.mul hε hfl g4 le_rfl) le_rfl) le_rfl
  have f3 := (Acc.exact (2 : K)).mul hε hfl f2 (k := 13) le_rfl
  have f4 := f1.add hε hfl f3 (k := 14) le_rfl
  refine Acc.weak hε f4 (le_of_eq ?_)
  rw [abs_of_pos (zero_lt_two (α := K))]
  simp only [sphereAbs, Geometrix.addThree]
  ring

/-- The first point is not larger than a multiple of the second. -/
structure LeP (l : K) (a b : P3 K) : Prop where
  x : |a.x| ≤ l * |b.x|
  y : |a.y| ≤ l * |b.y|
  z : |a.z| ≤ l * |b.z|

theorem LeP.cross {l : K} (hl : 0 ≤ l) {a b a' b' : P3 K} (ha : LeP l a a') (hb : LeP l b b') :
    crossAbs a b ≤ l ^ 2 * crossAbs a' b' := by
  have h1 := mul_le_mul ha.x hb.y (abs_nonneg _) (by positivity)
  have h2 := mul_le_mul hb.x ha.y (abs_nonneg _) (by positivity)
  unfold crossAbs
  linarith

theorem LeP.dot {l : K} (hl : 0 ≤ l) {a a' : P3 K} (ha : LeP l a a') : dotXYZ a a ≤ l ^ 2 * dotXYZ a' a' := by
  have h1 := mul_le_mul ha.x ha.x (abs_nonneg _) (by positivity)
  have h2 := mul_le_mul ha.y ha.y (abs_nonneg _) (by positivity)
  have h3 := mul_le_mul ha.z ha.z (abs_nonneg _) (by positivity)
  rw [← dot_self_abs, ← dot_self_abs]
  linarith

theorem LeP.term {l : K} (hl : 0 ≤ l) {q q' x y z x' y' z' u v w u' v' w' : K} (hx : |x| ≤ l * |x'|) (hy : |y| ≤ l * |y'|)
    (hz : |z| ≤ l * |z'|) (u0 : 0 ≤ u) (v0 : 0 ≤ v) (w0 : 0 ≤ w) (hu : u ≤ l ^ 2 * u') (hv : v ≤ l ^ 2 * v')
    (hw : w ≤ l ^ 2 * w') (hq0 : 0 ≤ q) (hq : q ≤ l ^ 2 * q') :
    q * addThree |x| u |y| v |z| w ≤ l ^ 5 * (q' * addThree |x'| u' |y'| v' |z'| w') := by
  have h1 := mul_le_mul hx hu u0 (by positivity)
  have h2 := mul_le_mul hy hv v0 (by positivity)
  have h3 := mul_le_mul hz hw w0 (by positivity)
  have h4 : addThree |x| u |y| v |z| w ≤ l ^ 3 * addThree |x'| u' |y'| v' |z'| w' := by unfold addThree; linarith
  have h0 := addThree_nonneg (abs_nonneg x) u0 (abs_nonneg y) v0 (abs_nonneg z) w0
  have := mul_le_mul hq h4 h0 (hq0.trans hq)
  linarith

theorem sphereAbs_le {l : K} (hl : 0 ≤ l) {a b c d a' b' c' d' : P3 K} (ha : LeP l a a') (hb : LeP l b b') (hc : LeP l c c')
    (hd : LeP l d d') : sphereAbs a b c d ≤ l ^ 5 * sphereAbs a' b' c' d' := by
  have n := crossAbs_nonneg (K := K)
  have q := dotXYZ_nonneg (K := K)
  have ab := ha.cross hl hb
  have bc := hb.cross hl hc
  have cd := hc.cross hl hd
  have da := hd.cross hl ha
  have ac := ha.cross hl hc
  have bd := hb.cross hl hd
  have h1 := LeP.term hl ha.z hb.z hc.z (n _ _) (n _ _) (n _ _) bc ac ab (q _) (hd.dot hl)
  have h2 := LeP.term hl hd.z ha.z hb.z (n _ _) (n _ _) (n _ _) ab bd da (q _) (hc.dot hl)
  have h3 := LeP.term hl hc.z hd.z ha.z (n _ _) (n _ _) (n _ _) da ac cd (q _) (hb.dot hl)
  have h4 := LeP.term hl hb.z hc.z hd.z (n _ _) (n _ _) (n _ _) cd bd bc (q _) (ha.dot hl)
  unfold sphereAbs
  linarith

theorem sphereForm_le (a b c d : P3 K) : |sphereForm a b c d| ≤ sphereAbs a b c d := by
  have t : Tails (0 : K) a 0 ∧ Tails (0 : K) b 0 ∧ Tails (0 : K) c 0 ∧ Tails (0 : K) d 0 :=
    ⟨⟨by simp, by simp, by simp⟩, ⟨by simp, by simp, by simp⟩, ⟨by simp, by simp, by simp⟩, ⟨by simp, by simp, by simp⟩⟩
  exact (sphere_jet le_rfl t.1 t.2.1 t.2.2.1 t.2.2.2).le

end

end Geometrix
