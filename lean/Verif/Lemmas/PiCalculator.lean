import Verif.Model.PiCalculator
import Mathlib.Tactic.Linarith
import Mathlib.Tactic.Ring
import Mathlib.Data.List.Basic

/-!
# Helper lemmas about the calculator of pi
-/

namespace Geometrix

/-- The entries of the array are small enough. -/
def PiBound (f : List Nat) : Prop := ∀ i v, f[i]? = some v → v ≤ 2 * i + 2000

theorem piInner_ok : ∀ (b d : Nat) (f : List Nat), b < f.length → PiBound f → b ≤ 52500 →
    d ≤ 20000 * (b + 2) + 20000000 →
    ∃ d' f', piInner b (2 * b) d f = .ok (d', f') ∧ f'.length = f.length ∧ PiBound f' := by
  intro b
  induction b with
  | zero => intro d f _ hf _ _; exact ⟨d, f, rfl, rfl, hf⟩
  | succ b ih =>
    intro d f hl hf hb hd
    have hv : f[b + 1]? = some f[b + 1] := List.getElem?_eq_getElem hl
    have hvb := hf _ _ hv
    generalize f[b + 1] = v at hv hvb
    unfold piInner
    rw [hv]
    have h1 : asInt (v * 10000) = .ok (v * 10000) := by unfold asInt; rw [if_neg (by omega)]
    have h2 : asInt (d + v * 10000) = .ok (d + v * 10000) := by unfold asInt; rw [if_neg (by omega)]
    simp only [h1, h2]
    rw [if_neg (by omega)]
    have e1 : 2 * (b + 1) - 1 = 2 * b + 1 := by omega
    have e2 : 2 * b + 1 - 1 = 2 * b := by omega
    rw [e1, e2]
    have hX : (d + v * 10000) / (2 * b + 1) * b * 2 ≤ d + v * 10000 := by
      have := Nat.div_mul_le_self (d + v * 10000) (2 * b + 1)
      nlinarith [Nat.zero_le ((d + v * 10000) / (2 * b + 1))]
    have hf' : PiBound (f.set (b + 1) ((d + v * 10000) % (2 * b + 1))) := by
      intro i w hw
      by_cases hi : b + 1 = i
      · subst hi
        rw [List.getElem?_set_self hl] at hw
        simp only [Option.some.injEq] at hw
        have := Nat.mod_lt (d + v * 10000) (show 0 < 2 * b + 1 by omega)
        omega
      · rw [List.getElem?_set_ne hi] at hw
        exact hf i w hw
    by_cases hb0 : b = 0
    · subst hb0
      rw [if_neg (by simp)]
      exact ⟨_, _, rfl, by simp, hf'⟩
    · rw [if_pos hb0]
      have h3 : asInt ((d + v * 10000) / (2 * b + 1) * b) = .ok ((d + v * 10000) / (2 * b + 1) * b) := by
        unfold asInt; rw [if_neg (by omega)]
      simp only [h3]
      obtain ⟨d', f', k1, k2, k3⟩ := ih ((d + v * 10000) / (2 * b + 1) * b) (f.set (b + 1) ((d + v * 10000) % (2 * b + 1)))
        (by rw [List.length_set]; omega) hf' (by omega) (by omega)
      exact ⟨d', f', k1, by rw [k2, List.length_set], k3⟩

/-- The rounds after the first one. -/
theorem piOuter_rest : ∀ (fuel c n : Nat) (f : List Nat) (e num den : Nat), n < fuel → c < f.length → PiBound f →
    c ≤ 52500 → n * 14 / 4 ≤ c →
    ∃ num', piOuter fuel c n f e false num den = .ok (num', den * 10 ^ n) := by
  intro fuel
  induction fuel with
  | zero => intro c n f e num den h; omega
  | succ fuel ih =>
    intro c n f e num den hn hl hf hc hcn
    unfold piOuter
    by_cases hn0 : n = 0
    · subst hn0
      rw [if_neg (by omega)]
      exact ⟨num, by simp⟩
    · rw [if_pos (by omega)]
      obtain ⟨d, f', k1, k2, k3⟩ := piInner_ok c 0 f hl hf hc (by omega)
      rw [k1]
      dsimp only
      by_cases h4 : n ≥ 4
      · rw [if_pos h4, if_neg (by simp)]
        obtain ⟨num', hr⟩ := ih (c - 14) (n - 4) f' (d % 10000) (num * 10000 + piPad (e + d / 10000)) (den * 10000)
          (by omega) (by rw [k2]; omega) k3 (by omega) (by omega)
        refine ⟨num', ?_⟩
        rw [hr]
        congr 2
        rw [mul_assoc, show (10000 : Nat) = 10 ^ 4 by norm_num, ← pow_add]
        congr 2; omega
      · rw [if_neg h4]
        obtain ⟨num', hr⟩ := ih (c - 14) 0 f' (d % 10000) (num * 10 ^ n + piPad (e + d / 10000) / 1000) (den * 10 ^ n)
          (by omega) (by rw [k2]; omega) k3 (by omega) (by omega)
        exact ⟨num', by rw [hr]; simp⟩

theorem piOuter_first (p : Nat) (h4 : 4 ≤ p) (hp : p ≤ 15000) :
    ∃ num, piOuter (p + 1) (p * 14 / 4) p (0 :: (List.replicate (p * 14 / 4 - 1) 2000 ++ [0])) 0 true 0 1 =
      .ok (num, 10 ^ (p - 1)) := by
  have hl : p * 14 / 4 < (0 :: (List.replicate (p * 14 / 4 - 1) 2000 ++ [0])).length := by
    simp only [List.length_cons, List.length_append, List.length_replicate, List.length_nil]; omega
  have hf : PiBound (0 :: (List.replicate (p * 14 / 4 - 1) 2000 ++ [0])) := by
    intro i v hv
    have : v = 0 ∨ v = 2000 := by
      have := List.mem_of_getElem? hv
      simp only [List.mem_cons, List.mem_append, List.mem_replicate, List.not_mem_nil, or_false] at this
      omega
    omega
  unfold piOuter
  rw [if_pos (by omega)]
  obtain ⟨d, f', k1, k2, k3⟩ := piInner_ok (p * 14 / 4) 0 _ hl hf (by omega) (by omega)
  rw [k1]
  dsimp only
  rw [if_pos h4, if_pos rfl]
  obtain ⟨num', hr⟩ := piOuter_rest p (p * 14 / 4 - 14) (p - 4) f' (d % 10000) (0 * 10000 + piPad (0 + d / 10000))
    (1 * 1000) (by omega) (by rw [k2]; omega) k3 (by omega) (by omega)
  refine ⟨num', ?_⟩
  rw [hr]
  congr 2
  rw [one_mul, show (1000 : Nat) = 10 ^ 3 by norm_num, ← pow_add]
  congr 1; omega

theorem calculatePi_of {p n d : Nat} (h7 : 7 ≤ p) (hp : p < 54900)
    (h : piOuter (p + 1) (p * 14 / 4) p (0 :: (List.replicate (p * 14 / 4 - 1) 2000 ++ [0])) 0 true 0 1 = .ok (n, d)) :
    calculatePi p = .ok ((n : ℚ) / d) := by
  unfold calculatePi
  split
  all_goals first
    | omega
    | (dsimp only
       rw [if_pos ⟨by omega, hp⟩, h])

end Geometrix
