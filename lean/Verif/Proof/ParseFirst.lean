import Verif.Proof.ParseSync
import Verif.Spec.FirstError

/-!
# The first error of the parser
-/

namespace GoThrift.Idl

open Spec
open Scanner (plain)

/-- Where the first error is reported and what is expected there. -/
def PProg.first {α : Type} : PProg α → TS → Option (TS × What)
  | .ret _, _ => none
  | .bad, _ => none
  | .diverge, _ => none
  | .call .tok k, t => (k t.tok).first t
  | .call .pos k, t => (k t.pos).first t
  | .call .lit k, t => (k t.lit).first t
  | .call .next k, t => (k ()).first t.next
  | .call (.expected w) _, t => some (t, w)

/-- The errors that a program reports are about tokens that are left. -/
theorem run_errs {α : Type} {p : PProg α} {t t' : TS} {r : Option α} (h : p.run tokSource t = .done (r, t')) :
    ∃ more, t'.errs = t.errs ++ more ∧ ∀ e ∈ more, ∃ (t2 : TS) (w : What), t2.eof = t.eof ∧ t2.rest <:+ t.rest ∧ e = (t2.pos, .expected w (some t2.found)) := by
  induction p generalizing t with
  | ret a => injection h with h; injection h with _ h; subst h; exact ⟨[], by simp, by simp⟩
  | bad => injection h with h; injection h with _ h; subst h; exact ⟨[], by simp, by simp⟩
  | diverge => cases h
  | call o k ih =>
    cases o with
    | tok => exact ih _ h
    | pos => exact ih _ h
    | lit => exact ih _ h
    | next =>
      obtain ⟨more, h1, h2⟩ := ih () (t := t.next) h
      refine ⟨more, h1, fun e he => ?_⟩
      obtain ⟨t2, w, e1, e2, e3⟩ := h2 e he
      exact ⟨t2, w, e1, e2.trans (List.tail_suffix _), e3⟩
    | expected w =>
      obtain ⟨more, h1, h2⟩ := ih () (t := t.expected w) h
      refine ⟨(t.pos, .expected w (some t.found)) :: more, by rw [h1]; simp [TS.expected], fun e he => ?_⟩
      rcases List.mem_cons.1 he with rfl | he
      · exact ⟨t, w, rfl, List.suffix_refl _, rfl⟩
      · exact h2 e he

theorem first_suffix {α : Type} {p : PProg α} {t t1 : TS} {w : What} (h : p.first t = some (t1, w)) : t1.errs = t.errs ∧ t1.eof = t.eof ∧ t1.rest <:+ t.rest := by
  induction p generalizing t with
  | ret a => cases h
  | bad => cases h
  | diverge => cases h
  | call o k ih =>
    cases o with
    | tok => exact ih _ h
    | pos => exact ih _ h
    | lit => exact ih _ h
    | next =>
      obtain ⟨h1, h2, h3⟩ := ih () (t := t.next) h
      exact ⟨h1, h2, h3.trans (List.tail_suffix _)⟩
    | expected w' =>
      injection h with h
      injection h with h1 h2
      subst h1
      exact ⟨rfl, rfl, List.suffix_refl _⟩

/-- No first error: no error. -/
theorem first_none {α : Type} {p : PProg α} {t t' : TS} {r : Option α} (h : p.run tokSource t = .done (r, t')) (hf : p.first t = none) : t'.errs = t.errs := by
  induction p generalizing t with
  | ret a => injection h with h; injection h with _ h; subst h; rfl
  | bad => injection h with h; injection h with _ h; subst h; rfl
  | diverge => cases h
  | call o k ih =>
    cases o with
    | tok => exact ih _ h hf
    | pos => exact ih _ h hf
    | lit => exact ih _ h hf
    | next => exact ih () (t := t.next) h hf
    | expected w => cases hf

/-- The first error is the first that is reported; the others are about tokens that are left then. -/
theorem first_some {α : Type} {p : PProg α} {t t' t1 : TS} {r : Option α} {w : What} (h : p.run tokSource t = .done (r, t')) (hf : p.first t = some (t1, w)) :
    ∃ more, t'.errs = t.errs ++ (t1.pos, .expected w (some t1.found)) :: more ∧ ∀ e ∈ more, ∃ (t2 : TS) (w : What), t2.eof = t.eof ∧ t2.rest <:+ t1.rest ∧ e = (t2.pos, .expected w (some t2.found)) := by
  induction p generalizing t with
  | ret a => cases hf
  | bad => cases hf
  | diverge => cases hf
  | call o k ih =>
    cases o with
    | tok => exact ih _ h hf
    | pos => exact ih _ h hf
    | lit => exact ih _ h hf
    | next => exact ih () (t := t.next) h hf
    | expected w' =>
      injection hf with hf
      injection hf with h1 h2
      subst h1
      subst h2
      obtain ⟨more, h1, h2⟩ := run_errs (t := t.expected w') h
      exact ⟨more, by rw [h1]; simp [TS.expected], h2⟩

theorem first_bind {α β : Type} {p : PProg α} {f : α → PProg β} {t t' : TS} {r : Option α} (h : p.run tokSource t = .done (r, t')) :
    (p >>= f).first t = (p.first t).or (r.bind fun a => (f a).first t') := by
  show (p.bind f).first t = _
  induction p generalizing t with
  | ret a => injection h with h; injection h with h1 h2; subst h1; subst h2; rfl
  | bad => injection h with h; injection h with h1 h2; subst h1; subst h2; rfl
  | diverge => cases h
  | call o k ih =>
    cases o with
    | tok => exact ih _ h
    | pos => exact ih _ h
    | lit => exact ih _ h
    | next => exact ih () (t := t.next) h
    | expected w => rfl

theorem first_recover {α : Type} {p q : PProg α} {t t' : TS} {r : Option α} (h : p.run tokSource t = .done (r, t')) :
    (p.recover q).first t = (p.first t).or (if r.isSome then none else q.first t') := by
  induction p generalizing t with
  | ret a => injection h with h; injection h with h1 h2; subst h1; subst h2; rfl
  | bad => injection h with h; injection h with h1 h2; subst h1; subst h2; rfl
  | diverge => cases h
  | call o k ih =>
    cases o with
    | tok => exact ih _ h
    | pos => exact ih _ h
    | lit => exact ih _ h
    | next => exact ih () (t := t.next) h
    | expected w => rfl

/-- The parser looks at one token: what it reports about a token does not depend on what follows. -/
theorem first_look {α : Type} {R : α → α → Prop} {p q : PProg α} (h : Sync (fun _ _ => True) R p q) {t t1 t2 : TS} {w : What} {pre r : List (Token × Bytes × Nat)} {s : Token × Bytes × Nat} {r2 : List Lx}
    (hf : p.first t = some (t1, w)) (ht : t.rest = pre ++ s :: r) (h1 : t1.rest = s :: r) (ht2 : t2.plain = pre.map plain ++ plain s :: r2) : ∃ x, q.first t2 = some x := by
  have htok : ∀ {t t2 : TS} {pre : List (Token × Bytes × Nat)}, t.rest = pre ++ s :: r → t2.plain = pre.map plain ++ plain s :: r2 → t.tok = t2.tok ∧ t.lit = t2.lit := by
    intro t t2 pre ht ht2
    unfold TS.plain at ht2
    unfold TS.tok TS.lit
    rw [ht]
    cases h2 : t2.rest with
    | nil => rw [h2] at ht2; cases pre <;> cases ht2
    | cons a l =>
      rw [h2] at ht2
      cases pre with
      | nil =>
        have := (List.cons.inj ht2).1
        exact ⟨(congrArg Prod.fst this).symm, (congrArg Prod.snd this).symm⟩
      | cons b pre =>
        have := (List.cons.inj ht2).1
        exact ⟨(congrArg Prod.fst this).symm, (congrArg Prod.snd this).symm⟩
  induction h generalizing t t2 pre with
  | ret h => cases hf
  | bad => cases hf
  | diverge => cases hf
  | @call o k k' ho _ ih =>
    cases o with
    | pos => exact absurd rfl ho
    | tok =>
      obtain ⟨x, hx⟩ := ih t.tok hf ht ht2
      rw [(htok ht ht2).1] at hx
      exact ⟨x, hx⟩
    | lit =>
      obtain ⟨x, hx⟩ := ih t.lit hf ht ht2
      rw [(htok ht ht2).2] at hx
      exact ⟨x, hx⟩
    | next =>
      cases pre with
      | nil =>
        have hs := (first_suffix (p := k ()) (t := t.next) hf).2.2
        rw [h1] at hs
        have : t.next.rest = r := by show t.rest.tail = r; rw [ht]; rfl
        rw [this] at hs
        have := hs.length_le
        rw [List.length_cons] at this
        omega
      | cons b pre =>
        refine ih () (t := t.next) (t2 := t2.next) (pre := pre) hf (by show t.rest.tail = _; rw [ht]; rfl) ?_
        unfold TS.plain at ht2 ⊢
        show t2.rest.tail.map plain = _
        rw [List.map_tail, ht2]
        rfl
    | expected w' => exact ⟨_, rfl⟩
  | pos _ ih => exact ih t.pos t2.pos trivial hf ht ht2

end GoThrift.Idl
