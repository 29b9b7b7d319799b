import Verif.Proof.ParseTokens
import Verif.Spec.Grammar

/-!
# The parser ends, and what it accepts without errors is in the grammar
-/

namespace GoThrift.Idl

open Spec
open Scanner (plain)

/-- The tokens that are left, without positions. -/
def TS.plain (t : TS) : List Lx := t.rest.map Scanner.plain

/-- The program ends on `t`; it consumes tokens from the front and adds errors at the end. If it returns it consumed at least `k` tokens, if it panics at least `j`
(or all). It panics only after an error. Without an error, what it consumed is a `G` for its result. -/
def Good {α : Type} (G : α → List Lx → Prop) (k j : Nat) (p : PProg α) (t : TS) : Prop :=
  ∃ r t', p.run tokSource t = .done (r, t') ∧ t'.eof = t.eof ∧ t'.rest <:+ t.rest ∧ t.errs <+: t'.errs ∧
    (r = none → t'.errs ≠ t.errs ∧ t'.rest.length ≤ t.rest.length - j) ∧ (r ≠ none → t'.rest.length ≤ t.rest.length - k) ∧
    (t'.errs = t.errs → ∃ a w, r = some a ∧ t.plain = w ++ t'.plain ∧ G a w)

theorem run_bind {S α β : Type} (r : Source S) (p : PProg α) (f : α → PProg β) (s : S) :
    (p >>= f).run r s = (p.run r s).bind fun x => match x.1 with
      | some a => (f a).run r x.2
      | none => .done (none, x.2) := by
  show (p.bind f).run r s = _
  induction p generalizing s with
  | ret a => rfl
  | bad => rfl
  | diverge => rfl
  | call o k ih =>
    rw [PProg.bind, PProg.run, PProg.run, Out.bind_assoc]
    congr 1
    funext x
    exact ih x.1 x.2

theorem Good.mono {α : Type} {G G' : α → List Lx → Prop} {k k' j j' : Nat} {p : PProg α} {t : TS} (h : Good G k j p t) (hk : k' ≤ k) (hj : j' ≤ j) (hG : ∀ a w, G a w → G' a w) :
    Good G' k' j' p t := by
  obtain ⟨r, t', h1, h2, h3, h4, h5, h6, h7⟩ := h
  refine ⟨r, t', h1, h2, h3, h4, fun h => ⟨(h5 h).1, ?_⟩, fun h => ?_, fun he => ?_⟩
  · have := (h5 h).2; omega
  · have := h6 h; omega
  · obtain ⟨a, w, h8, h9, h10⟩ := h7 he
    exact ⟨a, w, h8, h9, hG a w h10⟩

theorem Good.bind {α β : Type} {G : α → List Lx → Prop} {H : α → β → List Lx → Prop} {k1 k2 j j2 : Nat} {p : PProg α} {f : α → PProg β} {t : TS} (hp : Good G k1 j p t) (hj : j ≤ k1 + j2)
    (hf : ∀ a t', t'.rest.length ≤ t.rest.length - k1 → Good (H a) k2 j2 (f a) t') : Good (fun b w => ∃ a w1 w2, w = w1 ++ w2 ∧ G a w1 ∧ H a b w2) (k1 + k2) j (p >>= f) t := by
  obtain ⟨r, t1, h1, h2, h3, h4, h5, h6, h7⟩ := hp
  unfold Good
  rw [run_bind, h1, Out.bind_done]
  cases r with
  | none =>
    refine ⟨none, t1, rfl, h2, h3, h4, fun _ => h5 rfl, fun h => absurd rfl h, fun he => absurd he (h5 rfl).1⟩
  | some a =>
    have hlen := h6 (by simp)
    obtain ⟨r', t2, g1, g2, g3, g4, g5, g6, g7⟩ := hf a t1 hlen
    refine ⟨r', t2, g1, g2.trans h2, g3.trans h3, h4.trans g4, fun hn => ⟨fun he => ?_, ?_⟩, fun hn => ?_, fun he => ?_⟩
    · exact (g5 hn).1 ((Scanner.prefix_eq_both h4 g4).1 he).2
    · have := (g5 hn).2; omega
    · have := g6 hn; omega
    · obtain ⟨e1, e2⟩ := (Scanner.prefix_eq_both h4 g4).1 he
      obtain ⟨a', w1, hr, hw1, hG⟩ := h7 e1
      injection hr with hr
      subst hr
      obtain ⟨b, w2, hb, hw2, hH⟩ := g7 e2
      exact ⟨b, w1 ++ w2, hb, by rw [hw1, hw2, List.append_assoc], a, w1, w2, rfl, hG, hH⟩

theorem Good.pure {α : Type} (a : α) (t : TS) (j : Nat) : Good (fun b w => b = a ∧ w = []) 0 j (pure a) t :=
  ⟨some a, t, rfl, rfl, List.suffix_refl _, List.prefix_refl _, (by intro h; cases h), fun _ => Nat.le_refl _, fun _ => ⟨a, [], rfl, rfl, rfl, rfl⟩⟩

/-- Look at the current token. -/
theorem Good.tok {α : Type} {G : α → List Lx → Prop} {k j : Nat} {f : Token → PProg α} {t : TS} (h : Good G k j (f t.tok) t) : Good G k j (tok >>= f) t := h

theorem Good.lit {α : Type} {G : α → List Lx → Prop} {k j : Nat} {f : Bytes → PProg α} {t : TS} (h : Good G k j (f t.lit) t) : Good G k j (lit >>= f) t := h

theorem Good.pos {α : Type} {G : α → List Lx → Prop} {k j : Nat} {f : Nat → PProg α} {t : TS} (h : Good G k j (f t.pos) t) : Good G k j (pos >>= f) t := h

theorem Good.ite {α : Type} {c : Prop} [Decidable c] {G : α → List Lx → Prop} {k j : Nat} {p q : PProg α} {t : TS} (h : c → Good G k j p t) (h' : ¬ c → Good G k j q t) :
    Good G k j (if c then p else q) t := by
  by_cases hc : c
  · rw [if_pos hc]; exact h hc
  · rw [if_neg hc]; exact h' hc

theorem rest_of_tok {t : TS} {x : Token} (h : t.tok = x) (hx : x ≠ Tk.eof) : ∃ y p l, t.rest = (x, y, p) :: l := by
  obtain ⟨rest, eof, errs⟩ := t
  cases rest with
  | nil => exact absurd h.symm hx
  | cons a l => exact ⟨a.2.1, a.2.2, l, by rw [← h]; rfl⟩

theorem rest_of_tok' {t : TS} (h : t.tok ≠ Tk.eof) : ∃ y p l, t.rest = (t.tok, y, p) :: l := rest_of_tok rfl h

/-- Advance over a token. -/
theorem Good.next {t : TS} {x : Token} {y : Bytes} {p : Nat} {l : List (Token × Bytes × Nat)} (h : t.rest = (x, y, p) :: l) (j : Nat) :
    Good (fun _ w => w = [(x, y)]) 1 j next t := by
  refine ⟨some (), t.next, rfl, rfl, ?_, List.prefix_refl _, (by intro h; cases h), fun _ => ?_, fun _ => ⟨(), [(x, y)], rfl, ?_, rfl⟩⟩
  · show t.rest.tail <:+ _
    exact List.tail_suffix _
  · show t.rest.tail.length ≤ _
    rw [List.length_tail]; omega
  · show t.rest.map plain = _ ++ t.rest.tail.map plain
    rw [h]; rfl

/-- Report an error and go on. -/
theorem Good.error {α : Type} {G : α → List Lx → Prop} {k j : Nat} {w : What} {p : PProg α} {t : TS} (h : ∃ H, Good H k j p (t.expected w)) : Good G k j (errorExpected w >>= fun _ => p) t := by
  obtain ⟨H, r, t', h1, h2, h3, h4, h5, h6, h7⟩ := h
  have hp : t.errs <+: (t.expected w).errs := List.prefix_append _ _
  have hne : t'.errs ≠ t.errs := by
    intro he
    have := h4.length_le
    rw [he] at this
    change (t.errs ++ [_]).length ≤ _ at this
    simp at this
    omega
  refine ⟨r, t', h1, h2, h3, hp.trans h4, fun hr => ⟨hne, (h5 hr).2⟩, h6, fun he => absurd he hne⟩

/-- Report an error and panic. -/
theorem Good.bad {α : Type} {G : α → List Lx → Prop} {k : Nat} {w : What} {t : TS} : Good G k 0 (errorExpected w >>= fun _ => (.bad : PProg α)) t := by
  refine ⟨none, t.expected w, rfl, rfl, List.suffix_refl _, List.prefix_append _ _, fun _ => ⟨?_, Nat.le_refl _⟩, fun h => absurd rfl h, fun he => ?_⟩
  · intro he
    have := congrArg List.length he
    change (t.errs ++ [_]).length = _ at this
    simp at this
  · have := congrArg List.length he
    change (t.errs ++ [_]).length = _ at this
    simp at this

/-- Advance, wherever. -/
theorem Good.next' (t : TS) (j : Nat) : Good (fun _ _ => True) 1 j Idl.next t := by
  refine ⟨some (), t.next, rfl, rfl, ?_, List.prefix_refl _, (by intro h; cases h), fun _ => ?_, fun _ => ⟨(), (t.plain).take 1, rfl, ?_, trivial⟩⟩
  · show t.rest.tail <:+ _
    exact List.tail_suffix _
  · show t.rest.tail.length ≤ _
    rw [List.length_tail]; omega
  · show t.rest.map plain = (t.rest.map plain).take 1 ++ t.rest.tail.map plain
    cases t.rest <;> rfl

/-- `got`: a flag. -/
theorem Good.got {x : Token} (hx : x ≠ Tk.eof) (t : TS) (j : Nat) : Good (FlagG x) 0 j (got x) t := by
  unfold Idl.got
  refine .tok (.ite (fun h => ?_) (fun h => ?_))
  · obtain ⟨y, p, l, hr⟩ := rest_of_tok h hx
    refine ((Good.next hr j).bind (j2 := j) (by omega) fun _ t' _ => Good.pure true t' j).mono (by omega) (Nat.le_refl _) ?_
    rintro b w ⟨_, w1, w2, rfl, rfl, rfl, rfl⟩
    exact .yes
  · refine (Good.pure false t j).mono (by omega) (Nat.le_refl _) ?_
    rintro b w ⟨rfl, rfl⟩
    exact .no

theorem Good.want_err {x : Token} {t : TS} (h : t.tok ≠ x) (j : Nat) : Good (fun _ _ => False) 1 j (want x) t := by
  have hrun : (Idl.want x).run tokSource t = (Idl.errorExpected (.tok x) >>= fun _ => Idl.next).run tokSource t := by
    unfold Idl.want Idl.got
    show (PProg.bind (if t.tok = x then _ else _) _).run tokSource t = _
    rw [if_neg h]
    rfl
  obtain ⟨r, t', h1, h2⟩ := Good.error (G := fun (_ : Unit) _ => False) (w := .tok x) (t := t) ⟨_, Good.next' _ j⟩
  exact ⟨r, t', hrun.trans h1, h2⟩

/-- `want`: a token. -/
theorem Good.want {x : Token} (hx : x ≠ Tk.eof) (t : TS) (j : Nat) : Good (fun _ w => ∃ y, w = [(x, y)]) 1 j (want x) t := by
  by_cases h : t.tok = x
  · obtain ⟨y, p, l, hr⟩ := rest_of_tok h hx
    have hrun : (Idl.want x).run tokSource t = Idl.next.run tokSource t := by
      unfold Idl.want Idl.got
      show (PProg.bind (if t.tok = x then _ else _) _).run tokSource t = _
      rw [if_pos h]
      rfl
    obtain ⟨r, t', h1, h2⟩ := (Good.next hr j).mono (G' := fun _ w => ∃ y, w = [(x, y)]) (Nat.le_refl _) (Nat.le_refl _) fun _ w h => ⟨y, h⟩
    exact ⟨r, t', hrun.trans h1, h2⟩
  · exact (Good.want_err h j).mono (Nat.le_refl _) (Nat.le_refl _) fun _ _ h => h.elim

/-- `lit`: a token and its text. -/
theorem Good.litOf {x : Token} (hx : x ≠ Tk.eof) (t : TS) (j : Nat) : Good (LitG x) 1 j (litOf x) t := by
  unfold Idl.litOf
  refine .tok (.ite (fun h => .lit ?_) (fun h => ?_))
  · obtain ⟨y, p, l, hr⟩ := rest_of_tok h hx
    have hl : t.lit = y := by unfold TS.lit; rw [hr]
    refine ((Good.next hr j).bind (j2 := j) (by omega) fun _ t' _ => Good.pure t.lit t' j).mono (by omega) (Nat.le_refl _) ?_
    rintro b w ⟨_, w1, w2, rfl, rfl, rfl, rfl⟩
    rw [hl]
    exact .mk
  · refine ((Good.want_err h j).bind (j2 := j) (by omega) fun _ t' _ => Good.pure [] t' j).mono (by omega) (Nat.le_refl _) ?_
    rintro b w ⟨_, w1, w2, rfl, h, _⟩
    exact h.elim

/-- `gotAssign` followed by an assigned value, or nothing. -/
theorem Good.gotAssign {α β : Type} {R : α → List Lx → Prop} {H : Option α → β → List Lx → Prop} {k : Nat} {f : Bool → PProg β} {t : TS}
    (ht : ∀ t', t'.rest.length ≤ t.rest.length - 1 → Good (fun b w => ∃ a w1 w2, w = w1 ++ w2 ∧ R a w1 ∧ H (some a) b w2) k 0 (f true) t') (hf : Good (H none) k 0 (f false) t) :
    Good (fun b w => ∃ a w1 w2, w = w1 ++ w2 ∧ AssignedG R a w1 ∧ H a b w2) k 0 (gotAssign >>= f) t := by
  have runIte : ∀ c : Prop, [Decidable c] → ∀ (p q : PProg Bool), ((if c then p else q) >>= f) = if c then p >>= f else q >>= f := by
    intro c _ p q
    split <;> rfl
  by_cases h : t.tok = Tk.assign
  · obtain ⟨y, p, l, hr⟩ := rest_of_tok h (by decide)
    have hrun : (Idl.gotAssign >>= f).run tokSource t = (Idl.next >>= fun _ => f true).run tokSource t := by
      unfold Idl.gotAssign Idl.got
      show (PProg.bind (PProg.bind (if t.tok = Tk.assign then _ else _) _) _).run tokSource t = _
      rw [if_pos h]
      rfl
    obtain ⟨r, t', h1, h2⟩ := ((Good.next hr 0).bind (j2 := 0) (by omega) (fun _ => ht)).mono (G' := fun b w => ∃ a w1 w2, w = w1 ++ w2 ∧ AssignedG R a w1 ∧ H a b w2) (k' := k) (by omega) (Nat.le_refl _) (by
      rintro b w ⟨_, w1, w2, rfl, rfl, a, w3, w4, rfl, h3, h4⟩
      exact ⟨some a, (Tk.assign, y) :: w3, w4, rfl, .some h3, h4⟩)
    exact ⟨r, t', hrun.trans h1, h2⟩
  · by_cases h' : t.tok = Tk.eql
    · have hrun : (Idl.gotAssign >>= f).run tokSource t = (Idl.want Tk.assign >>= fun _ => f true).run tokSource t := by
        unfold Idl.gotAssign
        rw [show Idl.got Tk.assign = (Idl.tok >>= fun x => if x = Tk.assign then (Idl.next >>= fun _ => Pure.pure true) else Pure.pure false) from rfl]
        show (PProg.bind (PProg.bind (if t.tok = Tk.assign then _ else _) _) _).run tokSource t = _
        rw [if_neg h]
        show (PProg.bind (if t.tok = Tk.eql then _ else _) _).run tokSource t = _
        rw [if_pos h']
        show ((Idl.want Tk.assign >>= fun _ => Pure.pure true) >>= f).run tokSource t = _
        rw [run_bind, run_bind, run_bind, Out.bind_assoc]
        congr 1
        funext x
        obtain ⟨r, t1⟩ := x
        cases r <;> rfl
      obtain ⟨r, t', h1, h2⟩ := ((Good.want_err h 0).bind (j2 := 0) (by omega) (fun _ => ht)).mono (G' := fun b w => ∃ a w1 w2, w = w1 ++ w2 ∧ AssignedG R a w1 ∧ H a b w2) (k' := k) (by omega) (Nat.le_refl _) (by
        rintro b w ⟨_, w1, w2, rfl, h3, _⟩
        exact h3.elim)
      exact ⟨r, t', hrun.trans h1, h2⟩
    · have hrun : (Idl.gotAssign >>= f).run tokSource t = (f false).run tokSource t := by
        unfold Idl.gotAssign
        rw [show Idl.got Tk.assign = (Idl.tok >>= fun x => if x = Tk.assign then (Idl.next >>= fun _ => Pure.pure true) else Pure.pure false) from rfl]
        show (PProg.bind (PProg.bind (if t.tok = Tk.assign then _ else _) _) _).run tokSource t = _
        rw [if_neg h]
        show (PProg.bind (if t.tok = Tk.eql then _ else _) _).run tokSource t = _
        rw [if_neg h']
        rfl
      obtain ⟨r, t', h1, h2⟩ := hf.mono (G' := fun b w => ∃ a w1 w2, w = w1 ++ w2 ∧ AssignedG R a w1 ∧ H a b w2) (k' := k) (Nat.le_refl _) (Nat.le_refl _)
        (fun b w h => ⟨none, [], w, rfl, .none, h⟩)
      exact ⟨r, t', hrun.trans h1, h2⟩

theorem assigned_good {α : Type} {R : α → List Lx → Prop} {k : Nat} {f : PProg α} {t : TS} (hf : ∀ t', t'.rest.length ≤ t.rest.length - 1 → Good R k 0 f t') :
    Good (AssignedG R) 0 0 (assigned f) t := by
  unfold assigned
  refine (Good.gotAssign (R := R) (H := fun a b w => b = a ∧ w = []) (k := 0) (fun t' ht' => ?_) ?_).mono (Nat.le_refl _) (Nat.le_refl _) ?_
  · rw [if_pos rfl]
    refine ((hf t' ht').bind (j2 := 0) (Nat.zero_le _) fun v t2 _ => Good.pure (some v) t2 0).mono (by omega) (Nat.le_refl _) ?_
    rintro b w ⟨v, w1, w2, rfl, h1, rfl, rfl⟩
    exact ⟨v, w1, [], rfl, h1, rfl, rfl⟩
  · rw [if_neg (by decide)]
    exact Good.pure none t 0
  · rintro b w ⟨a, w1, w2, rfl, h1, rfl, rfl⟩
    rw [List.append_nil]
    exact h1

theorem after_good {α : Type} {R : α → List Lx → Prop} {k : Nat} {x : Token} (hx : x ≠ Tk.eof) {f : PProg α} {t : TS} (hf : ∀ t', t'.rest.length ≤ t.rest.length → Good R k 0 f t') :
    Good (fun a w => (a = none ∧ w = []) ∨ ∃ v y w', a = some v ∧ w = (x, y) :: w' ∧ R v w') 0 0 (after x f) t := by
  unfold after
  refine ((Good.got hx t 0).bind (k2 := 0) (j2 := 0) (H := fun b a w => (b = false ∧ a = none ∧ w = []) ∨ (b = true ∧ ∃ v, a = some v ∧ R v w)) (Nat.zero_le _) fun b t1 h1 => .ite (fun hb => ?_) fun hb => ?_).mono (Nat.le_refl _) (Nat.le_refl _) ?_
  · refine ((hf t1 h1).bind (j2 := 0) (Nat.zero_le _) fun v t2 _ => Good.pure (some v) t2 0).mono (by omega) (Nat.le_refl _) ?_
    rintro b w ⟨v, w1, w2, rfl, h1, rfl, rfl⟩
    rw [List.append_nil]
    exact .inr ⟨hb, v, rfl, h1⟩
  · refine (Good.pure none t1 0).mono (by omega) (Nat.le_refl _) ?_
    rintro b w ⟨rfl, rfl⟩
    exact .inl ⟨by simpa using hb, rfl, rfl⟩
  · rintro a w ⟨b, w1, w2, rfl, h1, ⟨rfl, rfl, rfl⟩ | ⟨rfl, v, rfl, h2⟩⟩
    · cases h1
      exact .inl ⟨rfl, rfl⟩
    · cases h1
      exact .inr ⟨v, _, w2, rfl, rfl, h2⟩

end GoThrift.Idl
