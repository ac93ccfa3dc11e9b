import Verif.Spec.TaggedQuantity

namespace Geometrix

open Spec

variable {K : Type*} [Field K] [DecidableEq K]

/-- The value of an expression does not depend on the names. -/
theorem eval_value (F : Nat → K → K) (G : Nat → K → K → K) : ∀ e : TqExpr K,
    (∀ x, plainValue F G e = some x → ∃ t, e.eval F G = .ok ⟨t, x⟩) ∧
    (plainValue F G e = none → e.eval F G = .error .divByZero)
  | .number x => by simp [plainValue, TqExpr.eval]
  | .quantity n x => by simp [plainValue, TqExpr.eval]
  | .neg a => by
    obtain ⟨h1, h2⟩ := eval_value F G a
    cases h : plainValue F G a with
    | none => simp [plainValue, TqExpr.eval, h, h2 h]
    | some x =>
      obtain ⟨t, ht⟩ := h1 x h
      simp [plainValue, TqExpr.eval, h, ht, tqNeg]
  | .fn f a => by
    obtain ⟨h1, h2⟩ := eval_value F G a
    cases h : plainValue F G a with
    | none => simp [plainValue, TqExpr.eval, h, h2 h]
    | some x =>
      obtain ⟨t, ht⟩ := h1 x h
      simp [plainValue, TqExpr.eval, h, ht, tqFn]
  | .fn2 f a b => by
    obtain ⟨h1, h2⟩ := eval_value F G a
    obtain ⟨h3, h4⟩ := eval_value F G b
    cases h : plainValue F G a with
    | none => simp [plainValue, TqExpr.eval, h, h2 h]
    | some x =>
      obtain ⟨t, ht⟩ := h1 x h
      cases h' : plainValue F G b with
      | none => simp [plainValue, TqExpr.eval, h, ht, h', h4 h']
      | some y =>
        obtain ⟨u, hu⟩ := h3 y h'
        simp [plainValue, TqExpr.eval, h, ht, h', hu, tqFn2]
  | .op o a b => by
    obtain ⟨h1, h2⟩ := eval_value F G a
    obtain ⟨h3, h4⟩ := eval_value F G b
    cases h : plainValue F G a with
    | none => simp [plainValue, TqExpr.eval, h, h2 h]
    | some x =>
      obtain ⟨t, ht⟩ := h1 x h
      cases h' : plainValue F G b with
      | none => simp [plainValue, TqExpr.eval, h, ht, h', h4 h']
      | some y =>
        obtain ⟨u, hu⟩ := h3 y h'
        cases o with
        | div =>
          by_cases hy : y = 0
          · simp [plainValue, TqExpr.eval, h, ht, h', hu, tqOp, opNumber, cdiv, hy]
          · simp [plainValue, TqExpr.eval, h, ht, h', hu, tqOp, opNumber, cdiv, hy]
        | _ => simp [plainValue, TqExpr.eval, h, ht, h', hu, tqOp, opNumber]

/-- What the tag of an expression says. -/
def TagSays (e : TqExpr K) : Option TqTag → Prop
  | none => names e = []
  | some (.name n) => names e ≠ [] ∧ (∀ m ∈ names e, m = n) ∧ NoFunction e
  | some _ => ∀ n, ¬ ((∀ m ∈ names e, m = n) ∧ NoFunction e) ∧ names e ≠ []

theorem noFunction_of_empty : ∀ e : TqExpr K, names e = [] → NoFunction e
  | .number _, _ => trivial
  | .quantity _ _, _ => trivial
  | .op _ a b, h => by
    rw [names, List.append_eq_nil_iff] at h
    exact ⟨noFunction_of_empty a h.1, noFunction_of_empty b h.2⟩
  | .neg a, h => noFunction_of_empty a h
  | .fn _ _, h => h
  | .fn2 _ _ _, h => by
    rw [names, List.append_eq_nil_iff] at h
    exact h

theorem tagSays_compound {e : TqExpr K} {t : TqTag} (ht : ∀ n, t ≠ .name n)
    (h : ∀ n, ¬ ((∀ m ∈ names e, m = n) ∧ NoFunction e) ∧ names e ≠ []) : TagSays e (some t) := by
  cases t with
  | name n => exact absurd rfl (ht n)
  | _ => exact h

theorem of_tagSays_compound {e : TqExpr K} {t : TqTag} (ht : ∀ n, t ≠ .name n) (h : TagSays e (some t)) :
    ∀ n, ¬ ((∀ m ∈ names e, m = n) ∧ NoFunction e) ∧ names e ≠ [] := by
  cases t with
  | name n => exact absurd rfl (ht n)
  | _ => exact h

theorem tagSays_nonempty {e : TqExpr K} {t : TqTag} (h : TagSays e (some t)) : names e ≠ [] := by
  cases t with
  | name n => exact h.1
  | _ => exact (h 0).2

theorem tagSays_op (o : TqOp) {a b : TqExpr K} {s t : Option TqTag} (ha : TagSays a s) (hb : TagSays b t) :
    TagSays (.op o a b) (opTag o s t) := by
  cases s with
  | none =>
    have ha' : names a = [] := ha
    cases t with
    | none =>
      show names a ++ names b = []
      rw [ha', show names b = [] from hb]; rfl
    | some u =>
      have hn : names (.op o a b) = names b := by rw [names, ha']; rfl
      cases u with
      | name n => exact ⟨hn ▸ hb.1, hn ▸ hb.2.1, noFunction_of_empty a ha', hb.2.2⟩
      | _ => exact fun n => ⟨fun h => (hb n).1 ⟨hn ▸ h.1, h.2.2⟩, hn ▸ (hb n).2⟩
  | some r =>
    cases t with
    | none =>
      have hb' : names b = [] := hb
      have hn : names (.op o a b) = names a := by rw [names, hb', List.append_nil]
      cases r with
      | name n => exact ⟨hn ▸ ha.1, hn ▸ ha.2.1, ha.2.2, noFunction_of_empty b hb'⟩
      | _ => exact fun n => ⟨fun h => (ha n).1 ⟨hn ▸ h.1, h.2.1⟩, hn ▸ (ha n).2⟩
    | some u =>
      have hne : names (.op o a b) ≠ [] := by
        rw [names]
        exact fun h => tagSays_nonempty ha (List.append_eq_nil_iff.mp h).1
      by_cases hru : r = u
      · subst hru
        have e1 : opTag o (some r) (some r) = some r := by simp [opTag, makeOpTag]
        rw [e1]
        by_cases hr : ∃ n, r = .name n
        · obtain ⟨n, rfl⟩ := hr
          refine ⟨hne, ?_, ha.2.2, hb.2.2⟩
          intro m hm
          rw [names, List.mem_append] at hm
          exact hm.elim (ha.2.1 m) (hb.2.1 m)
        · push Not at hr
          refine tagSays_compound hr fun n => ⟨fun h => ?_, hne⟩
          exact (of_tagSays_compound hr ha n).1 ⟨fun m hm => h.1 m (by rw [names]; exact List.mem_append_left _ hm), h.2.1⟩
      · have e1 : opTag o (some r) (some u) = some (.op o r u) := by simp [opTag, makeOpTag, hru]
        rw [e1]
        refine tagSays_compound (by simp) fun n => ⟨fun h => ?_, hne⟩
        have ha1 : ∀ m ∈ names a, m = n := fun m hm => h.1 m (by rw [names]; exact List.mem_append_left _ hm)
        have hb1 : ∀ m ∈ names b, m = n := fun m hm => h.1 m (by rw [names]; exact List.mem_append_right _ hm)
        have key : ∀ {c : TqExpr K} {t : TqTag}, TagSays c (some t) → (∀ m ∈ names c, m = n) → NoFunction c → t = .name n := by
          intro c t hc h1 h2
          by_cases ht : ∃ k, t = .name k
          · obtain ⟨k, rfl⟩ := ht
            obtain ⟨m, hm⟩ := List.exists_mem_of_ne_nil _ hc.1
            rw [← hc.2.1 m hm, h1 m hm]
          · push Not at ht
            exact absurd ⟨h1, h2⟩ (of_tagSays_compound ht hc n).1
        exact hru ((key ha ha1 h.2.1).trans (key hb hb1 h.2.2).symm)

theorem eval_tag (F : Nat → K → K) (G : Nat → K → K → K) : ∀ (e : TqExpr K) (q : Tq K), e.eval F G = .ok q → TagSays e q.tag
  | .number x, q, h => by
    obtain rfl : _ = q := Except.ok.inj h
    rfl
  | .quantity n x, q, h => by
    obtain rfl : _ = q := Except.ok.inj h
    exact ⟨by simp [names], by simp [names], trivial⟩
  | .neg a, q, h => by
    rw [TqExpr.eval] at h
    cases ha : a.eval F G with
    | error err => simp [ha] at h
    | ok x =>
      simp only [ha, Except.ok.injEq] at h
      subst h
      have := eval_tag F G a x ha
      show TagSays (.neg a) x.tag
      cases hx : x.tag with
      | none => rw [hx] at this; exact this
      | some t => rw [hx] at this; cases t <;> exact this
  | .fn f a, q, h => by
    rw [TqExpr.eval] at h
    cases ha : a.eval F G with
    | error err => simp [ha] at h
    | ok x =>
      simp only [ha, Except.ok.injEq] at h
      subst h
      have := eval_tag F G a x ha
      show TagSays (.fn f a) (x.tag.map (.fn f))
      cases hx : x.tag with
      | none => rw [hx] at this; exact this
      | some t =>
        rw [hx] at this
        have hne : names a ≠ [] := tagSays_nonempty this
        exact fun n => ⟨fun h => hne h.2, hne⟩
  | .fn2 f a b, q, h => by
    rw [TqExpr.eval] at h
    cases ha : a.eval F G with
    | error err => simp [ha] at h
    | ok x =>
      cases hb : b.eval F G with
      | error err => simp [ha, hb] at h
      | ok y =>
        simp only [ha, hb, Except.ok.injEq] at h
        subst h
        have h1 := eval_tag F G a x ha
        have h2 := eval_tag F G b y hb
        simp only [tqFn2]
        cases hx : x.tag with
        | none =>
          rw [hx] at h1
          have h1' : names a = [] := h1
          cases hy : y.tag with
          | none =>
            rw [hy] at h2
            show names a ++ names b = []
            rw [h1', show names b = [] from h2]; rfl
          | some u =>
            rw [hy] at h2
            refine fun n => ⟨fun h => tagSays_nonempty h2 h.2.2, ?_⟩
            rw [names, h1']
            exact tagSays_nonempty h2
        | some t =>
          rw [hx] at h1
          have hne : names (.fn2 f a b) ≠ [] := by
            rw [names]
            exact fun h => tagSays_nonempty h1 (List.append_eq_nil_iff.mp h).1
          exact fun n => ⟨fun h => tagSays_nonempty h1 h.2.1, hne⟩
  | .op o a b, q, h => by
    rw [TqExpr.eval] at h
    cases ha : a.eval F G with
    | error err => simp [ha] at h
    | ok x =>
      cases hb : b.eval F G with
      | error err => simp [ha, hb] at h
      | ok y =>
        simp only [ha, hb, tqOp] at h
        cases hv : opNumber o x.value y.value with
        | error err => simp [hv] at h
        | ok z =>
          simp only [hv, Except.ok.injEq] at h
          subst h
          exact tagSays_op o (eval_tag F G a x ha) (eval_tag F G b y hb)

end Geometrix
