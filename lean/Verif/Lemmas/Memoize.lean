import Verif.Model.Memoize
import Verif.Spec.Memoize

/-!
# Lemmas on memoization
-/

namespace Geometrix

open Spec

variable {α β κ : Type*}

theorem sameKey_symm {lt : κ → κ → Bool} {a b : κ} (h : SameKey lt a b) : SameKey lt b a := ⟨h.2, h.1⟩

theorem sameKey_trans {lt : κ → κ → Bool} (hs : StrictWeakOrder lt) {a b c : κ} (h : SameKey lt a b)
    (h' : SameKey lt b c) : SameKey lt a c := hs.incomp_trans a b c h h'

theorem sameKey_refl {lt : κ → κ → Bool} (hs : StrictWeakOrder lt) (a : κ) : SameKey lt a a :=
  ⟨hs.irrefl a, hs.irrefl a⟩

/-- Less than one of two equivalent keys is less than the other. -/
theorem lt_of_lt_same {lt : κ → κ → Bool} (hs : StrictWeakOrder lt) {a b c : κ} (h : lt a b = true)
    (hbc : SameKey lt b c) : lt a c = true := by
  by_contra hac
  rw [Bool.not_eq_true] at hac
  by_cases hca : lt c a = true
  · have := hs.trans c a b hca h
    rw [hbc.2] at this; cases this
  · rw [Bool.not_eq_true] at hca
    have := hs.incomp_trans a c b ⟨hac, hca⟩ (sameKey_symm hbc)
    rw [this.1] at h; cases h

theorem dropWhile_head {p : α → Bool} {l : List α} {x : α} {xs : List α} (h : l.dropWhile p = x :: xs) :
    p x = false := by
  induction l with
  | nil => simp at h
  | cons y ys ih =>
    rw [List.dropWhile_cons] at h
    split_ifs at h with hp
    · exact ih h
    · simp only [List.cons.injEq] at h
      rw [← h.1]; simpa using hp

theorem mem_takeWhile_prop {p : α → Bool} {l : List α} {x : α} (h : x ∈ l.takeWhile p) : p x = true := by
  induction l with
  | nil => simp at h
  | cons y ys ih =>
    rw [List.takeWhile_cons] at h
    split_ifs at h with hp
    · rcases List.mem_cons.1 h with rfl | h
      · exact hp
      · exact ih h
    · simp at h

/-- The outcome of one call. -/
theorem memoCall_spec {lt : κ → κ → Bool} (hs : StrictWeakOrder lt) (mk : α → κ) (f : α → Res β) (g : α → β)
    (S : α → Prop) (hf : ∀ a, S a → f a = .ok (g a))
    (hg : ∀ a b, S a → S b → SameKey lt (mk a) (mk b) → g a = g b) (cache : List (κ × β))
    (hc : ValidCache lt mk S g cache) (a : α) (ha : S a) : ∃ cache' log,
      memoCall lt mk f cache a = .ok (g a, cache', log) ∧ ValidCache lt mk S g cache' ∧
      ((log = [] ∧ cache' = cache ∧ ∃ e ∈ cache, SameKey lt (mk a) e.1) ∨
       (log = [a] ∧ (∀ e ∈ cache, ¬ SameKey lt (mk a) e.1) ∧
        (∀ e, e ∈ cache' ↔ e ∈ cache ∨ e = (mk a, g a)))) := by
  obtain ⟨hsort, hval⟩ := hc
  have hsplit := List.takeWhile_append_dropWhile (p := fun e : κ × β => lt e.1 (mk a)) (l := cache)
  have hbefore : ∀ e ∈ cache.takeWhile (fun e : κ × β => lt e.1 (mk a)), lt e.1 (mk a) = true :=
    fun e he => mem_takeWhile_prop (p := fun e : κ × β => lt e.1 (mk a)) he
  have hsort' := hsort
  rw [← hsplit, List.pairwise_append] at hsort'
  obtain ⟨s1, s2, s3⟩ := hsort'
  -- the outcome when the function is evaluated
  have heval : (∀ e ∈ cache.dropWhile (fun e : κ × β => lt e.1 (mk a)), lt (mk a) e.1 = true) →
      ValidCache lt mk S g (cache.takeWhile (fun e : κ × β => lt e.1 (mk a)) ++
        (mk a, g a) :: cache.dropWhile (fun e : κ × β => lt e.1 (mk a))) ∧
      (∀ e ∈ cache, ¬ SameKey lt (mk a) e.1) ∧
      ∀ e, e ∈ cache.takeWhile (fun e : κ × β => lt e.1 (mk a)) ++
        (mk a, g a) :: cache.dropWhile (fun e : κ × β => lt e.1 (mk a)) ↔ e ∈ cache ∨ e = (mk a, g a) := by
    intro hafter
    have hmem : ∀ e, e ∈ cache.takeWhile (fun e : κ × β => lt e.1 (mk a)) ++
        (mk a, g a) :: cache.dropWhile (fun e : κ × β => lt e.1 (mk a)) ↔ e ∈ cache ∨ e = (mk a, g a) := by
      intro e
      conv_rhs => rw [← hsplit]
      simp only [List.mem_append, List.mem_cons]
      tauto
    refine ⟨⟨?_, ?_⟩, ?_, hmem⟩
    · rw [List.pairwise_append]
      refine ⟨s1, ?_, ?_⟩
      · rw [List.pairwise_cons]; exact ⟨hafter, s2⟩
      · intro e he e' he'
        rcases List.mem_cons.1 he' with rfl | he'
        · exact hbefore e he
        · exact s3 e he e' he'
    · intro e he b hb hsame
      rcases (hmem e).1 he with h | rfl
      · exact hval e h b hb hsame
      · exact hg a b ha hb (sameKey_symm hsame)
    · intro e he hsame
      rw [← hsplit, List.mem_append] at he
      rcases he with he | he
      · have := hbefore e he
        rw [hsame.2] at this; cases this
      · have := hafter e he
        rw [hsame.1] at this; cases this
  unfold memoCall
  simp only [hf a ha]
  cases hd : cache.dropWhile (fun e : κ × β => lt e.1 (mk a)) with
  | nil =>
    rw [hd] at heval
    obtain ⟨h1, h2, h3⟩ := heval (by simp)
    exact ⟨_, _, rfl, h1, Or.inr ⟨rfl, h2, h3⟩⟩
  | cons e rest =>
    obtain ⟨k, v⟩ := e
    have hk : lt k (mk a) = false := dropWhile_head (p := fun e : κ × β => lt e.1 (mk a)) hd
    have hkmem : (k, v) ∈ cache := by
      rw [← hsplit, hd]; simp
    by_cases hlt : lt (mk a) k = true
    · simp only [hlt, Bool.not_true, Bool.false_eq_true, if_false]
      rw [hd] at heval s2
      obtain ⟨h1, h2, h3⟩ := heval (by
        intro e he
        rcases List.mem_cons.1 he with rfl | he
        · exact hlt
        · exact hs.trans _ _ _ hlt ((List.pairwise_cons.1 s2).1 e he))
      exact ⟨_, _, rfl, h1, Or.inr ⟨rfl, h2, h3⟩⟩
    · rw [Bool.not_eq_true] at hlt
      simp only [hlt, Bool.not_false, if_true]
      have hsame : SameKey lt (mk a) k := ⟨hlt, hk⟩
      have hv : v = g a := hval _ hkmem a ha hsame
      rw [hv] at hkmem ⊢
      exact ⟨_, _, rfl, ⟨hsort, hval⟩, Or.inl ⟨rfl, rfl, _, hkmem, hsame⟩⟩

/-- The outcome of a sequence of calls. -/
theorem memoRun_spec {lt : κ → κ → Bool} (hs : StrictWeakOrder lt) (mk : α → κ) (f : α → Res β) (g : α → β)
    (S : α → Prop) (hf : ∀ a, S a → f a = .ok (g a))
    (hg : ∀ a b, S a → S b → SameKey lt (mk a) (mk b) → g a = g b) (args : List α) (hS : ∀ a ∈ args, S a)
    (cache : List (κ × β)) (hc : ValidCache lt mk S g cache) : ∃ cache' log,
      memoRun lt mk f cache args = .ok (args.map g, cache', log) ∧ ValidCache lt mk S g cache' ∧
      log.Sublist args ∧ log.Pairwise (fun a b => ¬ SameKey lt (mk a) (mk b)) ∧
      (∀ a ∈ log, ∀ e ∈ cache, ¬ SameKey lt (mk a) e.1) ∧
      (∀ a ∈ args, (∃ e ∈ cache, SameKey lt (mk a) e.1) ∨ ∃ b ∈ log, SameKey lt (mk a) (mk b)) := by
  induction args generalizing cache with
  | nil => exact ⟨cache, [], rfl, hc, List.Sublist.refl _, List.Pairwise.nil, by simp, by simp⟩
  | cons a as ih =>
    obtain ⟨c1, l1, h1, hv1, hcase⟩ := memoCall_spec hs mk f g S hf hg cache hc a (hS a List.mem_cons_self)
    obtain ⟨c2, l2, h2, hv2, hsub, hpw, hnew, hcov⟩ :=
      ih (fun b hb => hS b (List.mem_cons_of_mem _ hb)) c1 hv1
    have hrun : memoRun lt mk f cache (a :: as) = .ok ((a :: as).map g, c2, l1 ++ l2) := by
      simp only [memoRun, h1, h2, List.map_cons]
    rcases hcase with ⟨rfl, rfl, e, he, hsame⟩ | ⟨rfl, hno, hmem⟩
    · refine ⟨c2, _, hrun, hv2, ?_, ?_, ?_, ?_⟩
      · simpa using hsub.cons a
      · simpa using hpw
      · simpa using hnew
      · intro b hb
        rcases List.mem_cons.1 hb with rfl | hb
        · exact Or.inl ⟨e, he, hsame⟩
        · simpa using hcov b hb
    · refine ⟨c2, _, hrun, hv2, ?_, ?_, ?_, ?_⟩
      · simpa using hsub.cons₂ a
      · simp only [List.singleton_append, List.pairwise_cons]
        refine ⟨fun b hb hsame => ?_, hpw⟩
        exact hnew b hb (mk a, g a) ((hmem _).2 (Or.inr rfl)) (sameKey_symm hsame)
      · intro b hb e he
        simp only [List.singleton_append, List.mem_cons] at hb
        rcases hb with rfl | hb
        · exact hno e he
        · exact hnew b hb e ((hmem e).2 (Or.inl he))
      · intro b hb
        rcases List.mem_cons.1 hb with rfl | hb
        · exact Or.inr ⟨b, by simp, sameKey_refl hs _⟩
        · rcases hcov b hb with ⟨e, he, hsame⟩ | ⟨d, hd, hsame⟩
          · rcases (hmem e).1 he with h | rfl
            · exact Or.inl ⟨e, h, hsame⟩
            · exact Or.inr ⟨a, by simp, hsame⟩
          · exact Or.inr ⟨d, by simp [hd], hsame⟩

end Geometrix
