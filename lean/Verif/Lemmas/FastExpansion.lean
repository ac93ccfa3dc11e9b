import Verif.Lemmas.FastSumRun

/-!
`fast_expansion_sum` adds the components of both expansions in the order of their size.
-/

set_option linter.unusedSectionVars false

namespace Geometrix

open Spec

variable {K : Type*} [Field K] [LinearOrder K] [IsStrictOrderedRing K] [FloorRing K]

theorem takesE_true {x y : K} (h : takesE x y = true) : |x| ≤ |y| := by
  unfold takesE at h
  rw [beq_iff_eq, decide_eq_decide] at h
  rcases lt_or_ge x y with h1 | h1
  · have h2 := h.1 h1
    exact (abs_le.2 ⟨by linarith, h1.le⟩).trans (le_abs_self y)
  · have h2 : y ≤ -x := not_lt.1 fun h3 => absurd (h.2 h3) (not_lt.2 h1)
    rw [← abs_neg y]
    exact (abs_le.2 ⟨by linarith, by linarith⟩).trans (le_abs_self (-y))

theorem takesE_false {x y : K} (h : ¬ takesE x y = true) : |y| ≤ |x| := by
  unfold takesE at h
  rw [beq_iff_eq, decide_eq_decide] at h
  rcases lt_or_ge x y with h1 | h1
  · have h2 : y ≤ -x := not_lt.1 fun h3 => h ⟨fun _ => h3, fun _ => h1⟩
    rw [← abs_neg x]
    exact (abs_le.2 ⟨by linarith, h2⟩).trans (le_abs_self (-x))
  · have h2 : -x < y := not_le.1 fun h3 => h ⟨fun h4 => absurd h4 (not_lt.2 h1), fun h4 => absurd h3 (not_le.2 h4)⟩
    exact (abs_le.2 ⟨h2.le, h1⟩).trans (le_abs_self x)

/-- The components of both expansions in the order they are taken. -/
def mergeE : List K → List K → List K
  | [], f => f
  | x :: e, [] => x :: e
  | x :: e, y :: f => if takesE x y then x :: mergeE e (y :: f) else y :: mergeE (x :: e) f
  termination_by e f => e.length + f.length

theorem merge_left : ∀ e : List K, Merge e [] e
  | [] => Merge.nil
  | x :: e => Merge.left x (merge_left e)

theorem merge_right : ∀ f : List K, Merge [] f f
  | [] => Merge.nil
  | x :: f => Merge.right x (merge_right f)

theorem mergeE_merge : ∀ e f : List K, Merge e f (mergeE e f)
  | [], f => by rw [mergeE]; exact merge_right f
  | x :: e, [] => by rw [mergeE]; exact merge_left _
  | x :: e, y :: f => by
    rw [mergeE]
    split_ifs
    · exact Merge.left x (mergeE_merge e (y :: f))
    · exact Merge.right y (mergeE_merge (x :: e) f)
  termination_by e f => e.length + f.length

theorem Merge.filter {e f g : List K} (q : K → Bool) (h : Merge e f g) : Merge (e.filter q) (f.filter q) (g.filter q) := by
  induction h with
  | nil => exact Merge.nil
  | left x _ ih =>
    by_cases hx : q x
    · simp only [List.filter_cons_of_pos hx]; exact Merge.left x ih
    · simp only [List.filter_cons_of_neg hx]; exact ih
  | right x _ ih =>
    by_cases hx : q x
    · simp only [List.filter_cons_of_pos hx]; exact Merge.right x ih
    · simp only [List.filter_cons_of_neg hx]; exact ih

theorem Merge.sum {e f g : List K} (h : Merge e f g) : g.sum = e.sum + f.sum := by
  induction h with
  | nil => simp
  | left x _ ih => rw [List.sum_cons, List.sum_cons, ih]; ring
  | right x _ ih => rw [List.sum_cons, List.sum_cons, ih]; ring

theorem Merge.length {e f g : List K} (h : Merge e f g) : g.length = e.length + f.length := by
  induction h with
  | nil => simp
  | left x _ ih => rw [List.length_cons, List.length_cons, ih]; ring
  | right x _ ih => rw [List.length_cons, List.length_cons, ih]; ring

/-- The components that are not zero grow. -/
def SortedNZ (l : List K) : Prop := l.Pairwise fun x y => y ≠ 0 → |x| ≤ |y|

theorem SortedNZ.merge : ∀ {e f : List K}, SortedNZ e → SortedNZ f → SortedNZ (mergeE e f)
  | [], f, _, hf => by rw [mergeE]; exact hf
  | x :: e, [], he, _ => by rw [mergeE]; exact he
  | x :: e, y :: f, he, hf => by
    have he' := List.pairwise_cons.1 he
    have hf' := List.pairwise_cons.1 hf
    rw [mergeE]
    split_ifs with h
    · refine List.pairwise_cons.2 ⟨fun z hz hz0 => ?_, SortedNZ.merge he'.2 hf⟩
      have := takesE_true h
      rcases List.mem_append.1 (((mergeE_merge e (y :: f)).mem z).1 hz) with hz | hz
      · exact he'.1 z hz hz0
      · rcases List.mem_cons.1 hz with rfl | hz
        · exact this
        · exact this.trans (hf'.1 z hz hz0)
    · refine List.pairwise_cons.2 ⟨fun z hz hz0 => ?_, SortedNZ.merge he hf'.2⟩
      have := takesE_false h
      rcases List.mem_append.1 (((mergeE_merge (x :: e) f).mem z).1 hz) with hz | hz
      · rcases List.mem_cons.1 hz with rfl | hz
        · exact this
        · exact this.trans (he'.1 z hz hz0)
      · exact hf'.1 z hz hz0
  termination_by e f => e.length + f.length

theorem SortedNZ.filter {l : List K} (h : SortedNZ l) : (l.filter (· ≠ 0)).Pairwise fun x y => |x| ≤ |y| := by
  have := List.Pairwise.filter (· ≠ 0) h
  refine this.imp_of_mem fun {x y} _ hy hxy => hxy ?_
  simpa using (List.mem_filter.1 hy).2

theorem sortedNZ_of_filter {l : List K} (h : (l.filter (· ≠ 0)).Pairwise fun x y => |x| ≤ |y|) : SortedNZ l := by
  induction l with
  | nil => exact List.Pairwise.nil
  | cons a l ih =>
    by_cases ha : a = 0
    · rw [List.filter_cons_of_neg (by simpa using ha)] at h
      exact List.pairwise_cons.2 ⟨fun y _ _ => by rw [ha, abs_zero]; exact abs_nonneg _, ih h⟩
    · rw [List.filter_cons_of_pos (by simpa using ha)] at h
      obtain ⟨h1, h2⟩ := List.pairwise_cons.1 h
      exact List.pairwise_cons.2 ⟨fun y hy hy0 => h1 y (by simp [hy, hy0]), ih h2⟩

theorem Spec.Nonoverlapping.sortedNZ {l : List K} (h : Nonoverlapping l) : SortedNZ l := by
  refine sortedNZ_of_filter (List.Pairwise.imp_of_mem (fun {x y} _ hy hxy => ?_) h)
  obtain ⟨e, h1, h2⟩ := hxy
  exact h2.le.trans (h1.le_abs (by simpa using (List.mem_filter.1 hy).2))

theorem Spec.NearlyNonadjacent.nonoverlapping {l : List K} (h : NearlyNonadjacent l) : Nonoverlapping l :=
  h.halfBelow.imp fun hab => hab.below

/-- The sum of the errors and the result. -/
theorem sumErr_sum (p : Nat) : ∀ (g : List K) (Q : K), (sumErr p Q g).sum = Q + g.sum
  | [], Q => by simp [sumErr]
  | x :: g, Q => by
    rw [sumErr, List.sum_cons, sumErr_sum p g, List.sum_cons]
    ring

theorem sumErr_length (p : Nat) : ∀ (g : List K) (Q : K), (sumErr p Q g).length = g.length + 1
  | [], Q => by simp [sumErr]
  | x :: g, Q => by rw [sumErr, List.length_cons, sumErr_length p g, List.length_cons]

theorem sumErr_isFloat {p : Nat} (hp : 1 ≤ p) : ∀ (g : List K) (Q : K), IsFloat p Q → (∀ a ∈ g, IsFloat p a) →
    ∀ a ∈ sumErr p Q g, IsFloat p a
  | [], Q, hQ, _, a, ha => by
    simp only [sumErr, List.mem_singleton] at ha
    rw [ha]; exact hQ
  | x :: g, Q, hQ, hg, a, ha => by
    rw [sumErr, List.mem_cons] at ha
    rcases ha with rfl | ha
    · exact sum_err_isFloat hp hQ (hg x (by simp))
    · exact sumErr_isFloat hp g _ (roundBits_isFloat hp _) (fun b hb => hg b (by simp [hb])) a ha

theorem sumErr_filter {p : Nat} (hp : 1 ≤ p) : ∀ (g : List K) (Q : K), IsFloat p Q → (∀ a ∈ g, IsFloat p a) →
    (sumErr p Q (g.filter (· ≠ 0))).filter (· ≠ 0) = (sumErr p Q g).filter (· ≠ 0)
  | [], Q, _, _ => by simp
  | x :: g, Q, hQ, hg => by
    have hg' : ∀ a ∈ g, IsFloat p a := fun b hb => hg b (by simp [hb])
    by_cases hx : x = 0
    · rw [List.filter_cons_of_neg (by simpa using hx), sumErr, hx, add_zero, hQ.round hp, sub_self,
        List.filter_cons_of_neg (by simp)]
      exact sumErr_filter hp g Q hQ hg'
    · rw [List.filter_cons_of_pos (by simpa using hx), sumErr, sumErr, List.filter_cons, List.filter_cons,
        sumErr_filter hp g _ (roundBits_isFloat hp _) hg']

theorem sumErr_zero {p : Nat} (hp : 1 ≤ p) {x : K} (hx : IsFloat p x) (g : List K) :
    sumErr p 0 (x :: g) = 0 :: sumErr p x g := by
  rw [sumErr, zero_add, hx.round hp, sub_self]

theorem growLoop_eq {p : Nat} (hp : 3 ≤ p) : ∀ (g : List K) (Q : K), IsFloat p Q → (∀ a ∈ g, IsFloat p a) →
    growLoop (roundBits p) Q g = sumErr p Q g
  | [], Q, _, _ => rfl
  | x :: g, Q, hQ, hg => by
    rw [growLoop, sumErr]
    simp only [twoSum_eq hp hQ (hg x (by simp))]
    rw [growLoop_eq hp g _ (roundBits_isFloat (by omega) _) fun b hb => hg b (by simp [hb])]

theorem fastSumLoop_eq {p : Nat} (hp : 3 ≤ p) : ∀ (n : Nat) (Q : K) (e f : List K), e.length + f.length < n → IsFloat p Q →
    (∀ a ∈ e, IsFloat p a) → (∀ a ∈ f, IsFloat p a) →
    fastSumLoop (roundBits p) true n Q e f = .ok (sumErr p Q (mergeE e f))
  | 0, _, _, _, h, _, _, _ => by omega
  | n + 1, Q, [], [], _, _, _, _ => by
    rw [fastSumLoop, mergeE, sumErr]
  | n + 1, Q, x :: e, [], h, hQ, he, hf => by
    have ih := fastSumLoop_eq hp n (roundBits p (Q + x)) e [] (by simp at h ⊢; omega) (roundBits_isFloat (by omega) _)
      (fun b hb => he b (by simp [hb])) hf
    have hm : mergeE e [] = e := by cases e <;> rw [mergeE]
    rw [fastSumLoop, mergeE, sumErr]
    simp only [twoSum_eq hp hQ (he x (by simp)), advance, ih, hm]
  | n + 1, Q, [], y :: f, h, hQ, he, hf => by
    have ih := fastSumLoop_eq hp n (roundBits p (Q + y)) [] f (by simp at h ⊢; omega) (roundBits_isFloat (by omega) _)
      he (fun b hb => hf b (by simp [hb]))
    have hm : mergeE [] f = f := by rw [mergeE]
    rw [fastSumLoop, mergeE, sumErr]
    simp only [twoSum_eq hp hQ (hf y (by simp)), advance, ih, hm]
  | n + 1, Q, x :: e, y :: f, h, hQ, he, hf => by
    rw [fastSumLoop, mergeE]
    split_ifs
    · have ih := fastSumLoop_eq hp n (roundBits p (Q + x)) e (y :: f) (by simp at h ⊢; omega)
        (roundBits_isFloat (by omega) _) (fun b hb => he b (by simp [hb])) hf
      rw [sumErr]
      simp only [twoSum_eq hp hQ (he x (by simp)), advance, ih]
    · have ih := fastSumLoop_eq hp n (roundBits p (Q + y)) (x :: e) f (by simp at h ⊢; omega)
        (roundBits_isFloat (by omega) _) he (fun b hb => hf b (by simp [hb]))
      rw [sumErr]
      simp only [twoSum_eq hp hQ (hf y (by simp)), advance, ih]

theorem fastTwoSum_eq' {p : Nat} (hp : 1 ≤ p) {a b : K} (ha : IsFloat p a) (hb : IsFloat p b) (hab : a ≠ 0 → |b| ≤ |a|) :
    fastTwoSum (roundBits p) a b = (roundBits p (b + a), b + a - roundBits p (b + a)) := by
  by_cases h : a = 0
  · subst h
    unfold fastTwoSum
    simp only [zero_add, add_zero, sub_zero, hb.round hp, sub_self, (isFloat_zero (K := K) p).round hp]
  · rw [fastTwoSum_eq hp ha hb (hab h), add_comm]

theorem fastSumSecond_eq {p : Nat} (hp : 3 ≤ p) {Q : K} {e f : List K} (hQ : IsFloat p Q) (he : ∀ a ∈ e, IsFloat p a)
    (hf : ∀ a ∈ f, IsFloat p a) (hle : ∀ a ∈ e ++ f, a ≠ 0 → |Q| ≤ |a|) :
    fastSumSecond (roundBits p) true Q e f = .ok (sumErr p Q (mergeE e f)) := by
  cases e with
  | nil => rw [fastSumSecond]; exact fastSumLoop_eq hp _ Q [] f (by simp) hQ he hf; simp
  | cons x e =>
    cases f with
    | nil => rw [fastSumSecond]; exact fastSumLoop_eq hp _ Q _ _ (by simp) hQ he hf; simp
    | cons y f =>
      rw [fastSumSecond, mergeE]
      split_ifs
      · rw [sumErr]
        have := fastSumLoop_eq hp (e.length + f.length + 2) (roundBits p (Q + x)) e (y :: f) (by simp; omega)
          (roundBits_isFloat (by omega) _) (fun b hb => he b (by simp [hb])) hf
        simp only [fastTwoSum_eq' (by omega) (he x (by simp)) hQ (hle x (by simp)), advance, this]
      · rw [sumErr]
        have := fastSumLoop_eq hp (e.length + f.length + 2) (roundBits p (Q + y)) (x :: e) f (by simp; omega)
          (roundBits_isFloat (by omega) _) he (fun b hb => hf b (by simp [hb]))
        simp only [fastTwoSum_eq' (by omega) (hf y (by simp)) hQ (hle y (by simp)), advance, this]

theorem fastExpansionSum_eq {p : Nat} (hp : 3 ≤ p) {e f : List K} (e0 : e ≠ []) (f0 : f ≠ []) (he : ∀ a ∈ e, IsFloat p a)
    (hf : ∀ a ∈ f, IsFloat p a) (se : SortedNZ e) (sf : SortedNZ f) :
    ∃ h, fastExpansionSum (roundBits p) true e f = .ok h ∧ sumErr p 0 (mergeE e f) = 0 :: h := by
  cases e with
  | nil => exact absurd rfl e0
  | cons x e =>
    cases f with
    | nil => exact absurd rfl f0
    | cons y f =>
      have se' := List.pairwise_cons.1 se
      have sf' := List.pairwise_cons.1 sf
      rw [fastExpansionSum, mergeE]
      split_ifs with ht
      · have hxy := takesE_true ht
        rw [sumErr_zero (by omega) (he x (by simp))]
        refine ⟨_, ?_, rfl⟩
        simp only [advance]
        refine fastSumSecond_eq hp (he x (by simp)) (fun b hb => he b (by simp [hb])) hf fun a ha ha0 => ?_
        rcases List.mem_append.1 ha with ha | ha
        · exact se'.1 a ha ha0
        · rcases List.mem_cons.1 ha with rfl | ha
          · exact hxy
          · exact hxy.trans (sf'.1 a ha ha0)
      · have hxy := takesE_false ht
        rw [sumErr_zero (by omega) (hf y (by simp))]
        refine ⟨_, ?_, rfl⟩
        simp only [advance]
        refine fastSumSecond_eq hp (hf y (by simp)) he (fun b hb => hf b (by simp [hb])) fun a ha ha0 => ?_
        rcases List.mem_append.1 ha with ha | ha
        · rcases List.mem_cons.1 ha with rfl | ha
          · exact hxy
          · exact hxy.trans (se'.1 a ha ha0)
        · exact sf'.1 a ha ha0

/-- `fast_expansion_sum` is exact. -/
theorem fastExpansionSum_exact {p : Nat} (hp : 3 ≤ p) {e f : List K} (e0 : e ≠ []) (f0 : f ≠ [])
    (he : ∀ a ∈ e, IsFloat p a) (hf : ∀ a ∈ f, IsFloat p a) (se : SortedNZ e) (sf : SortedNZ f) :
    ∃ h, fastExpansionSum (roundBits p) true e f = .ok h ∧ h.sum = e.sum + f.sum ∧ (∀ a ∈ h, IsFloat p a) ∧
      h.length = e.length + f.length ∧ (6 ≤ p → NearlyNonadjacent e → NearlyNonadjacent f → NearlyNonadjacent h) := by
  obtain ⟨h, h1, h2⟩ := fastExpansionSum_eq hp e0 f0 he hf se sf
  have hm := mergeE_merge e f
  have fm : ∀ a ∈ mergeE e f, IsFloat p a := by
    intro a ha
    rcases List.mem_append.1 ((hm.mem a).1 ha) with ha | ha
    · exact he a ha
    · exact hf a ha
  have fs := sumErr_isFloat (by omega) _ _ (isFloat_zero p) fm
  rw [h2] at fs
  have fh : ∀ a ∈ h, IsFloat p a := fun a ha => fs a (by simp [ha])
  refine ⟨h, h1, ?_, fh, ?_, ?_⟩
  · have := sumErr_sum p (mergeE e f) 0
    rw [h2, List.sum_cons, zero_add, zero_add, hm.sum] at this
    exact this
  · have := sumErr_length p (mergeE e f) 0
    rw [h2, List.length_cons, hm.length] at this
    omega
  · intro hp6 ne nf
    have := sumErr_near hp6 (hm.filter (· ≠ 0)) (se.merge sf).filter
      (fun a ha => by simp at ha; exact ⟨he a ha.1, ha.2⟩) (fun a ha => by simp at ha; exact ⟨hf a ha.1, ha.2⟩) ne.rev nf.rev
    rw [sumErr_filter (by omega) _ _ (isFloat_zero p) fm, h2, List.filter_cons_of_neg (by simp)] at this
    exact nearlyNonadjacent_of_rev this fh

/-- Without something to read behind the arrays the loops read there. -/
theorem fastSumLoop_no_slack (fl : K → K) : ∀ (n : Nat) (Q : K) (e f : List K), e.length + f.length < n → e ++ f ≠ [] →
    fastSumLoop fl false n Q e f = .error .outOfRange
  | 0, _, _, _, h, _ => by omega
  | n + 1, Q, [], [], _, h => by simp at h
  | n + 1, Q, [x], [], _, _ => by rw [fastSumLoop]; rfl
  | n + 1, Q, x :: x' :: e, [], h, _ => by
    rw [fastSumLoop]
    simp only [advance]
    rw [fastSumLoop_no_slack fl n _ (x' :: e) [] (by simp at h ⊢; omega) (by simp)]
  | n + 1, Q, [], [y], _, _ => by rw [fastSumLoop]; rfl
  | n + 1, Q, [], y :: y' :: f, h, _ => by
    rw [fastSumLoop]
    simp only [advance]
    rw [fastSumLoop_no_slack fl n _ [] (y' :: f) (by simp at h ⊢; omega) (by simp)]
  | n + 1, Q, x :: e, y :: f, h, _ => by
    rw [fastSumLoop]
    split_ifs
    · cases e with
      | nil => rfl
      | cons x' e =>
        simp only [advance]
        rw [fastSumLoop_no_slack fl n _ (x' :: e) (y :: f) (by simp at h ⊢; omega) (by simp)]
    · cases f with
      | nil => rfl
      | cons y' f =>
        simp only [advance]
        rw [fastSumLoop_no_slack fl n _ (x :: e) (y' :: f) (by simp at h ⊢; omega) (by simp)]

theorem fastSumSecond_no_slack (fl : K → K) (Q : K) (e f : List K) (h : e ++ f ≠ []) :
    fastSumSecond fl false Q e f = .error .outOfRange := by
  rcases e with _ | ⟨x, e⟩
  · rw [fastSumSecond]
    · exact fastSumLoop_no_slack fl _ Q _ _ (by simp) h
    · simp
  rcases f with _ | ⟨y, f⟩
  · rw [fastSumSecond]
    · exact fastSumLoop_no_slack fl _ Q _ _ (by simp) h
    · simp
  rw [fastSumSecond]
  split_ifs
  · cases e with
    | nil => rfl
    | cons x' e =>
      simp only [advance]
      rw [fastSumLoop_no_slack fl _ _ _ _ (by simp; omega) (by simp)]
  · cases f with
    | nil => rfl
    | cons y' f =>
      simp only [advance]
      rw [fastSumLoop_no_slack fl _ _ _ _ (by simp; omega) (by simp)]

theorem fastExpansionSum_no_slack (fl : K → K) (e f : List K) : fastExpansionSum fl false e f = .error .outOfRange := by
  rcases e with _ | ⟨x, e⟩
  · cases f <;> rfl
  rcases f with _ | ⟨y, f⟩
  · rfl
  rw [fastExpansionSum]
  split_ifs
  · cases e with
    | nil => rfl
    | cons x' e =>
      simp only [advance]
      rw [fastSumSecond_no_slack fl _ _ _ (by simp)]
  · cases f with
    | nil => rfl
    | cons y' f =>
      simp only [advance]
      rw [fastSumSecond_no_slack fl _ _ _ (by simp)]

end Geometrix
