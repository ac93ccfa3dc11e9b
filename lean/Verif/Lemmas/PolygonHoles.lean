import Verif.Spec.PolygonHoles
import Mathlib.Data.List.Rotate
import Mathlib.Logic.Function.Basic
import Mathlib.Tactic.Ring

namespace Geometrix

open Spec

variable {α : Type*}

theorem ringSegments_get (l : List α) (h2 : l.length ≠ 1) : ∀ (n i j : Nat), i + n = l.length → (0 < n → j = (i + 1) % l.length) →
    ringSegments l n i j = .ok ((sidesOf l).drop i)
  | 0, i, j, hi, _ => by
    have : (sidesOf l).length ≤ i := by simp [sidesOf]; omega
    rw [ringSegments, List.drop_eq_nil_of_le this]
  | n + 1, i, j, hi, hj => by
    have hj := hj (Nat.succ_pos n)
    have hlt : i < l.length := by omega
    have hjl : j < l.length := hj ▸ Nat.mod_lt _ (by omega)
    have hs : i < (sidesOf l).length := by simp [sidesOf]; omega
    rw [ringSegments, List.getElem?_eq_getElem hlt, List.getElem?_eq_getElem hjl,
      ringSegments_get l h2 n (i + 1) ((j + 1) % l.length) (by omega)
        (fun h => by rw [hj]; simp [Nat.add_mod])]
    rw [List.drop_eq_getElem_cons hs]
    simp only [sidesOf, List.getElem_zip, List.getElem_rotate]
    simp only [hj]

theorem ringSegments_sides {l : List α} (h : l.length ≠ 1) : ringSegments l l.length 0 1 = .ok (sidesOf l) := by
  rw [ringSegments_get l h l.length 0 1 (by omega) (fun h0 => by rw [Nat.mod_eq_of_lt]; omega), List.drop_zero]

theorem ringSegments_one {l : List α} (h : l.length = 1) : ringSegments l l.length 0 1 = .error .outOfRange := by
  obtain ⟨a, rfl⟩ := List.length_eq_one_iff.mp h
  rfl

theorem holesSegments_sides : ∀ {hs : List (List α)}, (∀ h ∈ hs, h.length ≠ 1) → holesSegments hs = .ok (hs.flatMap sidesOf)
  | [], _ => rfl
  | h :: hs, H => by
    rw [holesSegments, ringSegments_sides (H h (by simp)), holesSegments_sides fun x hx => H x (by simp [hx])]
    rfl

theorem holesSegments_one : ∀ {hs : List (List α)}, (∃ h ∈ hs, h.length = 1) → holesSegments hs = .error .outOfRange
  | [], H => by simp at H
  | h :: hs, H => by
    rw [holesSegments]
    by_cases h1 : h.length = 1
    · rw [ringSegments_one h1]
    · rw [ringSegments_sides h1, holesSegments_one (by simpa [h1] using H)]

theorem holesCalls_object : ∀ (cs : List HolesCall) (vars vars' : Nat → List α) (p : PolyHoles α),
    (cs.Pairwise fun a b => calledHow a = .constant ∨ calledVar a ≠ calledVar b) →
    (∀ c ∈ cs, vars' (calledVar c) = vars (calledVar c)) →
    (holesCalls cs vars' p).2 = ⟨wantedOuter vars p.outer cs, p.holes ++ wantedHoles vars cs⟩
  | [], vars, vars', p, _, _ => by simp [holesCalls, wantedOuter, wantedHoles]
  | c :: cs, vars, vars', p, hc, hv => by
    rw [List.pairwise_cons] at hc
    have hnext : ∀ d ∈ cs, (holesCall c vars' p).1 (calledVar d) = vars (calledVar d) := by
      intro d hd
      rw [← hv d (by simp [hd])]
      rcases hc.1 d hd with h | h
      · cases c <;> simp only [calledHow] at h <;> subst h <;> simp [holesCall, leftBehind]
      · cases c <;> exact Function.update_of_ne (Ne.symm h) _ _
    rw [holesCalls, holesCalls_object cs vars _ _ hc.2 hnext]
    have h0 := hv c (by simp)
    cases c <;> simp only [calledVar] at h0 <;> simp [holesCall, wantedOuter, wantedHoles, h0]

theorem holesCalls_vars : ∀ (cs : List HolesCall) (vars : Nat → List α) (p : PolyHoles α) (v : Nat),
    (holesCalls cs vars p).1 v = if ∃ c ∈ cs, calledVar c = v ∧ calledHow c ≠ .constant then [] else vars v
  | [], vars, p, v => by simp [holesCalls]
  | c :: cs, vars, p, v => by
    rw [holesCalls, holesCalls_vars cs]
    by_cases h : ∃ d ∈ cs, calledVar d = v ∧ calledHow d ≠ .constant
    · obtain ⟨d, hd, h⟩ := h
      rw [if_pos ⟨d, hd, h⟩, if_pos ⟨d, by simp [hd], h⟩]
    · rw [if_neg h]
      have hit : (∃ d ∈ c :: cs, calledVar d = v ∧ calledHow d ≠ .constant) ↔ calledVar c = v ∧ calledHow c ≠ .constant := by
        constructor
        · rintro ⟨d, hd, h'⟩
          rcases List.mem_cons.mp hd with rfl | hd
          · exact h'
          · exact absurd ⟨d, hd, h'⟩ h
        · exact fun h' => ⟨c, by simp, h'⟩
      rw [if_congr hit rfl rfl]
      rcases c with ⟨how, w⟩ | ⟨how, w⟩ <;> simp only [calledVar, calledHow, holesCall] <;> by_cases hw : w = v
      all_goals first | subst hw | skip
      all_goals cases how <;> simp [leftBehind, Function.update_apply, *] <;> (try exact fun h => absurd h.symm hw)

end Geometrix
