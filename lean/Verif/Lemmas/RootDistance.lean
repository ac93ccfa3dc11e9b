import Verif.Lemmas.ArcLength
import Verif.Lemmas.PointSequence
import Verif.Lemmas.PolylineSplit
import Verif.Lemmas.Sphere
import Verif.Model.RootDistance
import Verif.Spec.Polyline

/-!
# Lemmas about the distance functions that take the root
-/

set_option linter.unusedSectionVars false

namespace Geometrix

open Spec

theorem dist_eq_sqrt_sqDist (A B : P2 ℝ) : Spec.dist A B = Real.sqrt (sqDist A B) := by
  simp only [Spec.dist, sqDist]; congr 1; ring

theorem sqDist_nonneg_real (A B : P2 ℝ) : 0 ≤ sqDist A B := by
  unfold sqDist; positivity

theorem isMinOver_nonneg {α : Type*} {S : α → Prop} {f : α → ℝ} {m : ℝ} (hf : ∀ a, 0 ≤ f a)
    (h : IsMinOver S f m) : 0 ≤ m := by
  obtain ⟨⟨a, -, rfl⟩, -⟩ := h; exact hf a

theorem isMinOver_sqrt {α : Type*} {S : α → Prop} {f g : α → ℝ} {m : ℝ}
    (hg : ∀ a, g a = Real.sqrt (f a)) (h : IsMinOver S f m) : IsMinOver S g (Real.sqrt m) := by
  obtain ⟨⟨a, ha, hm⟩, hmin⟩ := h
  refine ⟨⟨a, ha, by rw [hg, hm]⟩, fun b hb => ?_⟩
  rw [hg]; exact Real.sqrt_le_sqrt (hmin b hb)

theorem isMinDist_nonneg {S T : P2 ℝ → Prop} {m : ℝ} (h : IsMinDist S T m) : 0 ≤ m :=
  isMinOver_nonneg (f := fun PQ : P2 ℝ × P2 ℝ => sqDist PQ.1 PQ.2)
    (fun PQ => sqDist_nonneg_real PQ.1 PQ.2) h

theorem isMinDist_sqrt {S T : P2 ℝ → Prop} {m : ℝ} (h : IsMinDist S T m) :
    IsMinOver (fun PQ : P2 ℝ × P2 ℝ => S PQ.1 ∧ T PQ.2) (fun PQ => Spec.dist PQ.1 PQ.2)
      (Real.sqrt m) :=
  isMinOver_sqrt (f := fun PQ : P2 ℝ × P2 ℝ => sqDist PQ.1 PQ.2)
    (fun PQ => dist_eq_sqrt_sqDist PQ.1 PQ.2) h

theorem rootOf_ok {r : Res ℝ} {d : ℝ} (h : r = .ok d) (hd : 0 ≤ d) :
    rootOf r = .ok (Real.sqrt d) := by
  subst h; exact csqrt_ok hd

theorem rootOfInf_ok {r : Res (Option ℝ)} {d : ℝ} (h : r = .ok (some d)) (hd : 0 ≤ d) :
    rootOfInf r = .ok (some (Real.sqrt d)) := by
  subst h; simp [rootOfInf, csqrt_ok hd]

/-- The distance from a set changes by at most the distance moved. -/
theorem isMinOver_lipschitz {S : P2 ℝ → Prop} {p q : P2 ℝ} {d e : ℝ}
    (hd : IsMinOver S (Spec.dist p) d) (he : IsMinOver S (Spec.dist q) e) :
    |d - e| ≤ Spec.dist p q := by
  have key : ∀ {p q : P2 ℝ} {d e : ℝ}, IsMinOver S (Spec.dist p) d →
      IsMinOver S (Spec.dist q) e → d - e ≤ Spec.dist p q := by
    intro p q d e hd he
    obtain ⟨⟨c, hc, rfl⟩, -⟩ := he
    have h1 := hd.2 c hc
    have h2 := dist_triangle' p q c
    linarith
  have hs : Spec.dist q p = Spec.dist p q := by
    simp only [Spec.dist]; congr 1; ring
  rw [abs_le]
  have h1 := key hd he
  have h2 := key he hd
  rw [hs] at h2
  constructor <;> linarith

theorem isMinOver_zero {S : P2 ℝ → Prop} {p : P2 ℝ} {d : ℝ}
    (hd : IsMinOver S (Spec.dist p) d) : d = 0 ↔ S p := by
  constructor
  · rintro rfl
    obtain ⟨⟨c, hc, h⟩, -⟩ := hd
    rw [dist_eq_zero'] at h
    rwa [h]
  · intro h
    have h1 := hd.2 p h
    rw [dist_self'] at h1
    obtain ⟨⟨c, hc, h2⟩, -⟩ := hd
    have h3 := dist_nonneg' p c
    linarith

/-- The least distance between two sets does not depend on their order. -/
theorem isMinOver_pair_symm {S T : P2 ℝ → Prop} {d e : ℝ}
    (hd : IsMinOver (fun PQ : P2 ℝ × P2 ℝ => S PQ.1 ∧ T PQ.2) (fun PQ => Spec.dist PQ.1 PQ.2) d)
    (he : IsMinOver (fun PQ : P2 ℝ × P2 ℝ => T PQ.1 ∧ S PQ.2) (fun PQ => Spec.dist PQ.1 PQ.2) e) :
    d = e := by
  have hs : ∀ A B : P2 ℝ, Spec.dist A B = Spec.dist B A := by
    intro A B; simp only [Spec.dist]; congr 1; ring
  obtain ⟨⟨⟨a, b⟩, ⟨ha, hb⟩, rfl⟩, h1⟩ := hd
  obtain ⟨⟨⟨c, f⟩, ⟨hc, hf⟩, rfl⟩, h2⟩ := he
  apply le_antisymm
  · have := h1 (f, c) ⟨hf, hc⟩
    simp only at this ⊢
    rwa [hs f c] at this
  · have := h2 (b, a) ⟨hb, ha⟩
    simp only at this ⊢
    rwa [hs b a] at this

/-- The least distance between two sets is zero exactly if they have a common point. -/
theorem isMinOver_pair_zero {S T : P2 ℝ → Prop} {d : ℝ}
    (hd : IsMinOver (fun PQ : P2 ℝ × P2 ℝ => S PQ.1 ∧ T PQ.2) (fun PQ => Spec.dist PQ.1 PQ.2) d) :
    d = 0 ↔ ∃ P, S P ∧ T P := by
  obtain ⟨⟨⟨a, b⟩, ⟨ha, hb⟩, hab⟩, h1⟩ := hd
  simp only at ha hb hab
  constructor
  · rintro rfl
    rw [dist_eq_zero'] at hab
    exact ⟨a, ha, hab ▸ hb⟩
  · rintro ⟨P, hS, hT⟩
    have h2 := h1 (P, P) ⟨hS, hT⟩
    simp only [dist_self'] at h2
    have h3 := dist_nonneg' a b
    linarith

end Geometrix
