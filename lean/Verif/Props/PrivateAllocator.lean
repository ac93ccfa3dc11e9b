import Verif.Lemmas.PrivateAllocator

/-!
# C146: the memory of `private_allocator`
-/

namespace Geometrix

open Spec

/-- `max_size()` is the largest number of elements whose size in bytes is a `std::size_t`. -/
theorem C146_max_size (size num : Nat) (hs : 0 < size) : num ≤ allocMaxSize size ↔ num * size < 2 ^ 64 := by
  unfold allocMaxSize
  rw [Nat.le_div_iff_mul_le hs]
  omega

example : allocMaxSize 8 = 2305843009213693951 := by decide

/-- As long as no call asks for more than `max_size()` elements, the live arrays lie in memory of their own,
whatever the order of the calls and whichever allocators give the memory back. -/
theorem C146_sound_partial (calls : List AllocCall) (live : List LiveArray) (h : AllocRun calls live)
    (hw : AllocWithin calls) : Sound live := by
  obtain ⟨h1, h2⟩ := h.inv hw
  refine ⟨fun b hb x hx => ?_, ?_⟩
  · obtain ⟨e1, e2, e3⟩ := h1 b hb
    obtain ⟨x1, x2⟩ := hx
    rw [← e1] at x2
    omega
  · refine List.Pairwise.imp_of_mem ?_ h2
    intro b c hb hc hbc
    have eb := (h1 b hb).1
    have ec := (h1 c hc).1
    refine ⟨fun x hx hx' => ?_, by omega⟩
    obtain ⟨x1, x2⟩ := hx
    obtain ⟨y1, y2⟩ := hx'
    rw [← eb] at x2
    rw [← ec] at y2
    omega

example : AllocRun [.allocate 4 10, .deallocate 8 16 5, .allocate 8 2] [⟨16, 40, 10, 4⟩] ∧
    AllocWithin [.allocate 4 10, .deallocate 8 16 5, .allocate 8 2] := by
  have h1 : AllocRun [.allocate 8 2] [⟨16, 16, 2, 8⟩] :=
    .step .nil (.allocate (p := 16) (size := 8) (num := 2) ⟨by decide, by decide, by simp⟩)
  have h2 : AllocRun [.deallocate 8 16 5, .allocate 8 2] [] :=
    .step h1 (.deallocate (b := ⟨16, 16, 2, 8⟩) (by simp))
  refine ⟨.step h2 (.allocate (p := 16) (size := 4) (num := 10) ⟨by decide, by decide, by simp⟩), ?_⟩
  intro s n h
  simp at h
  rcases h with ⟨rfl, rfl⟩ | ⟨rfl, rfl⟩ <;> decide

/-- Allocators always compare equal, and giving back a live array ends that array and no other, also by the
allocator of another type. -/
theorem C146_deallocate (calls : List AllocCall) (live live' : List LiveArray) (b : LiveArray) (size num : Nat)
    (h : AllocRun calls live) (hw : AllocWithin calls) (hb : b ∈ live)
    (hs : AllocStep live (.deallocate size b.addr num) live') :
    (∀ s s', allocEqual s s' = true) ∧ ∀ c, c ∈ live' ↔ c ∈ live ∧ c ≠ b := by
  refine ⟨fun _ _ => rfl, fun c => ?_⟩
  have hS := C146_sound_partial calls live h hw
  obtain ⟨h1, -⟩ := h.inv hw
  have huniq : ∀ c ∈ live, c.addr = b.addr → c = b := by
    intro c hc e
    by_contra hne
    have : Std.Symm (fun b c : LiveArray => b.addr ≠ c.addr) := ⟨fun _ _ h => h.symm⟩
    exact List.Pairwise.forall (R := fun b c : LiveArray => b.addr ≠ c.addr) (hS.2.imp fun h => h.2) hc hb hne e
  generalize ha : b.addr = q at hs
  cases hs with
  | @deallocate b' hb' =>
    rw [List.mem_filter]
    simp only [ne_eq, decide_not, Bool.not_eq_eq_eq_not, Bool.not_true, decide_eq_false_iff_not]
    refine and_congr_right fun hc => ⟨fun h1 h2 => h1 (by rw [h2, ha]), fun h1 h2 => h1 (huniq c hc (by rw [h2, ha]))⟩
  | null => exact absurd ha (h1 b hb).2.1.ne'

/-- A call that asks for more than `max_size()` elements does not throw: the number of bytes wraps around and
the block is too small, so two live arrays share memory. -/
theorem C146_overflow_refuted : ∃ calls live, AllocRun calls live ∧ ¬ Sound live := by
  have h1 : AllocRun [.allocate 8 2305843009213693953] [⟨16, 8, 2305843009213693953, 8⟩] :=
    .step .nil (.allocate (p := 16) (size := 8) (num := 2305843009213693953) ⟨by decide, by decide, by simp⟩)
  refine ⟨_, _, .step h1 (.allocate (p := 24) (size := 8) (num := 1) ⟨by decide, by decide, ?_⟩), ?_⟩
  · intro b hb
    simp only [List.mem_singleton] at hb
    subst hb
    right; decide
  · intro h
    have := (List.pairwise_cons.1 h.2).1 _ (List.mem_singleton.2 rfl)
    exact this.1 24 ⟨le_rfl, by decide⟩ ⟨by decide, by decide⟩

end Geometrix
