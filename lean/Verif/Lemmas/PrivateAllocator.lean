import Verif.Spec.PrivateAllocator
import Mathlib.Data.List.Pairwise

/-!
# Lemmas about the allocator
-/

namespace Geometrix

open Spec

/-- Every call of `allocate` asks for at most `max_size()` elements of a type with a size. -/
def AllocWithin (calls : List AllocCall) : Prop :=
  ∀ size num, AllocCall.allocate size num ∈ calls → 0 < size ∧ num ≤ allocMaxSize size

theorem allocBytes_eq {size num : Nat} (hs : 0 < size) (h : num ≤ allocMaxSize size) :
    allocBytes size num = num * size := by
  unfold allocBytes
  apply Nat.mod_eq_of_lt
  have := (Nat.le_div_iff_mul_le hs).1 h
  omega

theorem AllocRun.inv {calls : List AllocCall} {live : List LiveArray} (h : AllocRun calls live) (hw : AllocWithin calls) :
    (∀ b ∈ live, b.bytes = b.num * b.size ∧ 0 < b.addr ∧ b.addr + max b.bytes 1 ≤ 2 ^ 64) ∧
    live.Pairwise (fun b c => b.addr + max b.bytes 1 ≤ c.addr ∨ c.addr + max c.bytes 1 ≤ b.addr) := by
  induction h with
  | nil => exact ⟨by simp, List.Pairwise.nil⟩
  | @step calls live live' c hr hs ih =>
    have hw' : AllocWithin calls := fun s n h => hw s n (List.mem_cons_of_mem _ h)
    obtain ⟨h1, h2⟩ := ih hw'
    cases hs with
    | @allocate size num p hn =>
      obtain ⟨hs1, hs2⟩ := hw size num (List.mem_cons_self ..)
      refine ⟨?_, List.pairwise_cons.2 ⟨fun b hb => hn.2.2 b hb, h2⟩⟩
      intro b hb
      rcases List.mem_cons.1 hb with rfl | hb
      · exact ⟨allocBytes_eq hs1 hs2, hn.1, hn.2.1⟩
      · exact h1 b hb
    | throws => exact ⟨h1, h2⟩
    | deallocate hb =>
      exact ⟨fun b hb => h1 b (List.mem_of_mem_filter hb), h2.filter _⟩
    | null => exact ⟨h1, h2⟩

end Geometrix
