import Verif.Lemmas.SphereHits

/-!
# Lemmas on moving spheres and on spheres and polylines
-/

set_option linter.unusedSectionVars false

namespace Geometrix

open Spec

/-- The calls made by `sphere_polyline_intersect`. -/
theorem spherePolylineLoop_spec {σ : Type*} (ctr : P2 ℝ) (rad : ℝ) (visit : σ → SphereCall → Bool × σ) (i : Nat)
    (poly : List (P2 ℝ)) (hp : ProperEdges poly) : ∃ calls : List SphereCall,
      (∀ k, (∃ c ∈ calls, c.i = i + k) ↔ EdgeOnCircle ctr rad poly k) ∧
      (∀ c ∈ calls, ∃ k A B, c.i = i + k ∧ c.j = i + k + 1 ∧ IsEdge poly k A B ∧
        segSphereRoots A B ctr rad = .ok (some c.roots)) ∧
      calls.Pairwise (fun c d => c.i < d.i) ∧
      ∀ b s, spherePolylineLoop ctr rad visit i poly b s =
        .ok (b || !calls.isEmpty, callUntil visit s calls) := by
  induction poly generalizing i with
  | nil =>
    refine ⟨[], ?_, by simp, List.Pairwise.nil, ?_⟩
    · intro k; simp [EdgeOnCircle, IsEdge]
    · intro b s; simp [spherePolylineLoop, callUntil]
  | cons p l ih =>
    cases l with
    | nil =>
      refine ⟨[], ?_, by simp, List.Pairwise.nil, ?_⟩
      · intro k; simp [EdgeOnCircle, IsEdge]
      · intro b s; simp [spherePolylineLoop, callUntil]
    | cons q rest =>
      obtain ⟨calls, h1, h2, h3, h4⟩ := ih (i + 1) (properEdges_tail hp)
      obtain ⟨o, ho, hnone, hsome⟩ := segSphereRoots_spec p q ctr rad (hp 0 p q isEdge_zero)
      have hlater : ∀ c ∈ calls, i < c.i := by
        intro c hc
        obtain ⟨k, C, D, hk, -⟩ := h2 c hc
        omega
      have hshift : ∀ k, (∃ c ∈ calls, c.i = i + (k + 1)) ↔ EdgeOnCircle ctr rad (p :: q :: rest) (k + 1) := by
        intro k
        rw [edgeOnCircle_succ, ← h1 k]
        constructor
        · rintro ⟨c, hc, he⟩; exact ⟨c, hc, by omega⟩
        · rintro ⟨c, hc, he⟩; exact ⟨c, hc, by omega⟩
      have hold : ∀ c ∈ calls, ∃ k A B, c.i = i + k ∧ c.j = i + k + 1 ∧ IsEdge (p :: q :: rest) k A B ∧
          segSphereRoots A B ctr rad = .ok (some c.roots) := by
        intro c hc
        obtain ⟨k, C, D, e1, e2, e3, e4⟩ := h2 c hc
        exact ⟨k + 1, C, D, by omega, by omega, isEdge_succ.2 e3, e4⟩
      have hmiss : (¬ ∃ P, OnSegment p q P ∧ OnCircle ctr rad P) → ∀ k, (∃ c ∈ calls, c.i = i + k) ↔
          EdgeOnCircle ctr rad (p :: q :: rest) k := by
        intro hno k
        cases k with
        | zero =>
          rw [edgeOnCircle_zero]
          constructor
          · rintro ⟨c, hc, he⟩
            have := hlater c hc
            omega
          · intro h; exact absurd h hno
        | succ k => exact hshift k
      cases o with
      | none =>
        have hno : ¬ ∃ P, OnSegment p q P ∧ OnCircle ctr rad P := by
          rintro ⟨P, ⟨t, -, -, rfl⟩, hP⟩
          exact hnone.1 rfl t hP
        refine ⟨calls, hmiss hno, hold, h3, ?_⟩
        intro b s
        simp only [spherePolylineLoop, ho, h4]
      | some x =>
        obtain ⟨-, hroots, -, -, hh0, hh1⟩ := hsome x rfl
        have hhit : (x.hit0 || x.hit1) = true ↔ ∃ P, OnSegment p q P ∧ OnCircle ctr rad P := by
          rw [Bool.or_eq_true, hh0, hh1]
          constructor
          · rintro (⟨ha, hb⟩ | ⟨ha, hb⟩)
            · exact ⟨_, ⟨x.t0, ha, hb, rfl⟩, (hroots _).2 (Or.inl rfl)⟩
            · exact ⟨_, ⟨x.t1, ha, hb, rfl⟩, (hroots _).2 (Or.inr rfl)⟩
          · rintro ⟨P, ⟨t, ha, hb, rfl⟩, hP⟩
            rcases (hroots t).1 hP with rfl | rfl
            · exact Or.inl ⟨ha, hb⟩
            · exact Or.inr ⟨ha, hb⟩
        by_cases hx : (x.hit0 || x.hit1) = true
        · refine ⟨⟨i, i + 1, x⟩ :: calls, ?_, ?_, ?_, ?_⟩
          · intro k
            cases k with
            | zero =>
              rw [edgeOnCircle_zero, ← hhit]
              exact ⟨fun _ => hx, fun _ => ⟨_, List.mem_cons_self, rfl⟩⟩
            | succ k =>
              rw [← hshift k]
              constructor
              · rintro ⟨c, hc, he⟩
                rcases List.mem_cons.1 hc with rfl | hc
                · simp at he
                · exact ⟨c, hc, he⟩
              · rintro ⟨c, hc, he⟩
                exact ⟨c, List.mem_cons_of_mem _ hc, he⟩
          · intro c hc
            rcases List.mem_cons.1 hc with rfl | hc
            · exact ⟨0, p, q, rfl, rfl, isEdge_zero, ho⟩
            · exact hold c hc
          · exact List.pairwise_cons.2 ⟨fun c hc => hlater c hc, h3⟩
          · intro b s
            simp only [spherePolylineLoop, ho, if_pos hx, callUntil]
            rcases hv : visit s ⟨i, i + 1, x⟩ with ⟨stop, s'⟩
            cases stop <;> simp [h4]
        · refine ⟨calls, hmiss (fun h => hx (hhit.2 h)), hold, h3, ?_⟩
          intro b s
          simp only [spherePolylineLoop, ho, if_neg hx, h4]

theorem sqDist_moving (c0 c1 v0 v1 : P2 ℝ) (t : ℝ) : sqDist (c0 + t • v0) (c1 + t • v1) =
    dot (v1 - v0) (v1 - v0) * t ^ 2 + 2 * dot (v1 - v0) (c1 - c0) * t + dot (c1 - c0) (c1 - c0) := by
  simp only [sqDist, dot, P2.add_x, P2.add_y, P2.smul_x, P2.smul_y, P2.sub_x, P2.sub_y]
  ring

/-- The unit vector towards another point. -/
theorem normalize_toward {a b : P2 ℝ} {R : ℝ} (hR : 0 < R) (h : sqDist a b = R ^ 2) :
    normalize2 (b - a) = .ok ((1 / R) • (b - a)) := by
  have e : Real.sqrt (normSq (b - a)) = R := by
    have : normSq (b - a) = R ^ 2 := by
      rw [← h]; simp only [normSq, dot, sqDist, P2.sub_x, P2.sub_y]; ring
    rw [this, Real.sqrt_sq hR.le]
  unfold normalize2
  rw [e, if_neg hR.ne']

/-- The moving spheres that neither overlap nor touch at the start, or touch and approach each other. -/
theorem movingSpheres_spec (c0 c1 v0 v1 : P2 ℝ) (r0 r1 : ℝ) (h0 : 0 ≤ r0) (h1 : 0 ≤ r1) (hr : 0 < r0 + r1)
    (hs : (r0 + r1) ^ 2 < sqDist c0 c1 ∨ (r0 + r1) ^ 2 = sqDist c0 c1 ∧ dot (v1 - v0) (c1 - c0) < 0) :
    ∃ o, movingSpheres Cmp.direct c0 r0 c1 r1 v0 v1 = .ok o ∧
      IsFirst (0 ≤ ·) (fun t => sqDist (c0 + t • v0) (c1 + t • v1) ≤ (r0 + r1) ^ 2) (o.map Prod.fst) ∧
      ∀ t q, o = some (t, q) → sqDist (c0 + t • v0) (c1 + t • v1) = (r0 + r1) ^ 2 ∧ ∃ Q, q = some Q ∧
        OnCircle (c0 + t • v0) r0 Q ∧ OnCircle (c1 + t • v1) r1 Q := by
  have hse : sqDist c0 c1 = dot (c1 - c0) (c1 - c0) := by
    simp only [sqDist, dot, P2.sub_x, P2.sub_y]; ring
  rw [hse] at hs
  have ha : 0 ≤ dot (v1 - v0) (v1 - v0) := dot_self_nonneg _
  have ha0 : dot (v1 - v0) (c1 - c0) ≠ 0 → dot (v1 - v0) (v1 - v0) ≠ 0 := by
    intro hb hz
    rw [dot_self_eq_zero] at hz
    apply hb; rw [hz]; simp [dot]
  unfold movingSpheres
  simp only [sqDist_moving]
  have hmov := sqDist_moving c0 c1 v0 v1
  generalize hA : dot (v1 - v0) (v1 - v0) = a at *
  generalize hB : dot (v1 - v0) (c1 - c0) = b at *
  generalize hS : dot (c1 - c0) (c1 - c0) = s at *
  simp only [direct_lt, direct_ge, decide_eq_true_eq]
  have hc0 : ¬ s - (r1 + r0) * (r1 + r0) < 0 := by
    rcases hs with h | h <;> nlinarith
  rw [if_neg hc0, if_neg (not_lt.2 ha)]
  by_cases hb : b ≥ 0
  · rw [if_pos hb]
    refine ⟨none, rfl, fun t ht hf => ?_, by simp⟩
    simp only at ht hf
    rcases hs with h | h
    · nlinarith [mul_nonneg hb ht, mul_nonneg ha (sq_nonneg t)]
    · linarith [h.2]
  · rw [if_neg hb]
    push Not at hb
    have hapos : 0 < a := lt_of_le_of_ne ha (Ne.symm (ha0 hb.ne))
    set c := s - (r1 + r0) * (r1 + r0) with hc
    have hcs : s = c + (r0 + r1) ^ 2 := by rw [hc]; ring
    by_cases hd : b * b - a * c < 0
    · rw [if_pos hd]
      refine ⟨none, rfl, fun t ht hf => ?_, by simp⟩
      simp only at hf
      nlinarith [sq_nonneg (a * t + b)]
    · rw [if_neg hd, csqrt_ok (not_lt.1 hd)]
      have hs0 := Real.sqrt_nonneg (b * b - a * c)
      have hss := Real.mul_self_sqrt (not_lt.1 hd)
      set w := Real.sqrt (b * b - a * c)
      simp only [cdiv_ok hapos.ne']
      set t := (-b - w) / a with htdef
      have hta : a * t = -b - w := by rw [htdef]; field_simp
      have hroot : a * t ^ 2 + 2 * b * t + s = (r0 + r1) ^ 2 := by
        have : a * (a * t ^ 2 + 2 * b * t + c) = 0 := by
          have : a * (a * t ^ 2 + 2 * b * t + c) = (a * t) ^ 2 + 2 * b * (a * t) + a * c := by ring
          rw [this, hta]; nlinarith
        rcases mul_eq_zero.1 this with h | h
        · exact absurd h hapos.ne'
        · rw [hcs]; linarith
      have ht0 : 0 ≤ t := by
        apply div_nonneg _ hapos.le
        have hc' : 0 ≤ c := not_lt.1 hc0
        have : w ≤ -b := by
          apply abs_le_of_sq_le_sq' _ (by linarith) |>.2
          nlinarith [mul_nonneg ha hc']
        linarith
      have hdist : sqDist (c0 + t • v0) (c1 + t • v1) = (r0 + r1) ^ 2 := by rw [hmov, hroot]
      rw [normalize_toward hr hdist]
      refine ⟨_, rfl, ⟨ht0, by simp only; linarith, ?_⟩, ?_⟩
      · intro t' ht' hf
        have h1 : (a * t' + b) ^ 2 ≤ w ^ 2 := by nlinarith
        have h2 := abs_le.1 (abs_le_of_sq_le_sq h1 hs0)
        rw [htdef, div_le_iff₀ hapos]
        linarith [h2.1]
      · intro t' q' hq
        simp only [Option.some.injEq, Prod.mk.injEq] at hq
        obtain ⟨rfl, rfl⟩ := hq
        refine ⟨hroot, _, rfl, ?_, ?_⟩
        · have hd2 := hdist
          unfold OnCircle
          simp only [sqDist, P2.add_x, P2.add_y, P2.smul_x, P2.smul_y, P2.sub_x, P2.sub_y] at hd2 ⊢
          have hR : (r0 + r1) ≠ 0 := hr.ne'
          field_simp
          linear_combination r0 ^ 2 * hd2
        · have hd2 := hdist
          unfold OnCircle
          simp only [sqDist, P2.add_x, P2.add_y, P2.smul_x, P2.smul_y, P2.sub_x, P2.sub_y] at hd2 ⊢
          have hR : (r0 + r1) ≠ 0 := hr.ne'
          field_simp
          linear_combination r1 ^ 2 * hd2

theorem discs_meet_iff {cA cB : P2 ℝ} {rA rB : ℝ} (hA : 0 ≤ rA) (hB : 0 ≤ rB) :
    (∃ P, InDisc cA rA P ∧ InDisc cB rB P) ↔ sqDist cA cB ≤ (rA + rB) ^ 2 := by
  have hdd := sq_dist cA cB
  have hd := Real.sqrt_nonneg (distSq cA cB)
  have e : sqDist cA cB = Real.sqrt (distSq cA cB) ^ 2 := by rw [sq, hdd]; unfold sqDist; ring
  rw [e]
  constructor
  · rintro ⟨P, h1, h2⟩
    exact pow_le_pow_left₀ hd (dist_le_of_discs hA hB h1 h2) 2
  · intro h
    exact discs_meet hA hB (abs_le_of_sq_le_sq' h (add_nonneg hA hB)).2

end Geometrix
