import Verif.Proof.ParseFirst

/-!
# What the parser has consumed before its first error can be continued: tools
-/

namespace GoThrift.Idl

open Spec
open Scanner (plain)

/-- There is a sample of the token. -/
def Sampled (x : Token) : Prop := (samples.any fun p => p.1 == x) = true

instance (x : Token) : Decidable (Sampled x) := inferInstanceAs (Decidable (_ = true))

/-- Only samples. -/
def StdW (w : List Lx) : Prop := ∀ z ∈ w, Sampled z.1 ∧ z.2 = sample z.1

theorem StdW.nil : StdW [] := fun _ h => nomatch h

theorem StdW.append {v w : List Lx} (hv : StdW v) (hw : StdW w) : StdW (v ++ w) := by
  intro z hz
  rcases List.mem_append.1 hz with hz | hz
  · exact hv z hz
  · exact hw z hz

theorem StdW.cons {x : Token} {w : List Lx} (hx : Sampled x) (hw : StdW w) : StdW ((x, sample x) :: w) := by
  intro z hz
  rcases List.mem_cons.1 hz with rfl | hz
  · exact ⟨hx, rfl⟩
  · exact hw z hz

theorem StdW.one {x : Token} (hx : Sampled x) : StdW [(x, sample x)] := .cons hx .nil

theorem Sampled.ne_eof {x : Token} (h : Sampled x) : x ≠ Tk.eof := by
  intro he
  rw [he] at h
  exact absurd h (by decide)

/-- The program is `Good`; the grammar has a word of samples; and if an error is reported, what was consumed before the first one, followed by any of the tokens that are expected, is the beginning of a
word of the grammar that ends with samples. -/
structure Full {α : Type} (G : α → List Lx → Prop) (k j : Nat) (p : PProg α) (t : TS) : Prop where
  good : Good G k j p t
  word : ∃ a w, StdW w ∧ G a w
  first : ∀ t1 w, p.first t = some (t1, w) → ∃ pre, t.plain = pre ++ t1.plain ∧ ∀ x ∈ begins w, ∃ a suf, StdW ((x, sample x) :: suf) ∧ G a (pre ++ (x, sample x) :: suf)

theorem Full.mono {α : Type} {G G' : α → List Lx → Prop} {k k' j j' : Nat} {p : PProg α} {t : TS} (h : Full G k j p t) (hk : k' ≤ k) (hj : j' ≤ j) (hG : ∀ a w, G a w → G' a w) :
    Full G' k' j' p t where
  good := h.good.mono hk hj hG
  word := by
    obtain ⟨a, w, h1, h2⟩ := h.word
    exact ⟨a, w, h1, hG a w h2⟩
  first := fun t1 w hf => by
    obtain ⟨pre, h1, h2⟩ := h.first t1 w hf
    refine ⟨pre, h1, fun x hx => ?_⟩
    obtain ⟨a, suf, h3, h4⟩ := h2 x hx
    exact ⟨a, suf, h3, hG _ _ h4⟩

theorem Full.bind {α β : Type} {G : α → List Lx → Prop} {H : α → β → List Lx → Prop} {k1 k2 j j2 : Nat} {p : PProg α} {f : α → PProg β} {t : TS} (hp : Full G k1 j p t) (hj : j ≤ k1 + j2)
    (hf : ∀ a t', t'.rest.length ≤ t.rest.length - k1 → Full (H a) k2 j2 (f a) t') : Full (fun b w => ∃ a w1 w2, w = w1 ++ w2 ∧ G a w1 ∧ H a b w2) (k1 + k2) j (p >>= f) t := by
  have hH : ∀ a, ∃ b w, StdW w ∧ H a b w := fun a => (hf a ⟨[], t.eof, t.errs⟩ (Nat.zero_le _)).word
  refine ⟨hp.good.bind hj fun a t' h => (hf a t' h).good, ?_, fun t1 w hfst => ?_⟩
  · obtain ⟨a, w1, h1, h2⟩ := hp.word
    obtain ⟨b, w2, h3, h4⟩ := hH a
    exact ⟨b, w1 ++ w2, h1.append h3, a, w1, w2, rfl, h2, h4⟩
  · obtain ⟨r, t2, g1, g2, g3, g4, g5, g6, g7⟩ := hp.good
    rw [first_bind g1] at hfst
    cases hpf : p.first t with
    | some x =>
      rw [hpf, Option.some_or] at hfst
      obtain ⟨pre, h1, h2⟩ := hp.first t1 w (hpf.trans hfst)
      refine ⟨pre, h1, fun x hx => ?_⟩
      obtain ⟨a, suf, h3, h4⟩ := h2 x hx
      obtain ⟨b, w2, h5, h6⟩ := hH a
      exact ⟨b, suf ++ w2, h3.append h5, a, _, w2, by simp, h4, h6⟩
    | none =>
      rw [hpf, Option.none_or] at hfst
      obtain ⟨a, w1, rfl, h2, h3⟩ := g7 (first_none g1 hpf)
      obtain ⟨pre, h4, h5⟩ := (hf a t2 (g6 (by simp))).first t1 w hfst
      refine ⟨w1 ++ pre, by rw [h2, h4, List.append_assoc], fun x hx => ?_⟩
      obtain ⟨b, suf, h6, h7⟩ := h5 x hx
      exact ⟨b, suf, h6, a, w1, _, by simp, h3, h7⟩

theorem Full.seq {α β : Type} {G : α → List Lx → Prop} {H : α → β → List Lx → Prop} {k1 k2 : Nat} {p : PProg α} {f : α → PProg β} {t : TS} (hp : Full G k1 0 p t)
    (hf : ∀ a t', t'.rest.length ≤ t.rest.length - k1 → Full (H a) k2 0 (f a) t') : Full (fun b w => ∃ a w1 w2, w = w1 ++ w2 ∧ G a w1 ∧ H a b w2) (k1 + k2) 0 (p >>= f) t :=
  hp.bind (Nat.zero_le _) hf

theorem Full.pure {α : Type} (a : α) (t : TS) (j : Nat) : Full (fun b w => b = a ∧ w = []) 0 j (pure a) t :=
  ⟨Good.pure a t j, ⟨a, [], .nil, rfl, rfl⟩, fun _ _ h => nomatch h⟩

theorem Full.tok {α : Type} {G : α → List Lx → Prop} {k j : Nat} {f : Token → PProg α} {t : TS} (h : Full G k j (f t.tok) t) : Full G k j (tok >>= f) t := ⟨h.good.tok, h.word, h.first⟩

theorem Full.pos {α : Type} {G : α → List Lx → Prop} {k j : Nat} {f : Nat → PProg α} {t : TS} (h : Full G k j (f t.pos) t) : Full G k j (pos >>= f) t := ⟨h.good.pos, h.word, h.first⟩

theorem Full.ite {α : Type} {c : Prop} [Decidable c] {G : α → List Lx → Prop} {k j : Nat} {p q : PProg α} {t : TS} (h : c → Full G k j p t) (h' : ¬ c → Full G k j q t) :
    Full G k j (if c then p else q) t := by
  by_cases hc : c
  · rw [if_pos hc]; exact h hc
  · rw [if_neg hc]; exact h' hc

/-- No error is reported. -/
theorem Full.quiet {α : Type} {G : α → List Lx → Prop} {k j : Nat} {p : PProg α} {t : TS} (h : Good G k j p t) (hw : ∃ a w, StdW w ∧ G a w) (hf : p.first t = none) : Full G k j p t :=
  ⟨h, hw, fun _ _ h => by rw [hf] at h; cases h⟩

/-- The first error is about the current token. -/
theorem Full.here {α : Type} {G : α → List Lx → Prop} {k j : Nat} {p : PProg α} {t : TS} {w : What} (h : Good G k j p t) (hf : p.first t = some (t, w)) (hne : ∃ x, x ∈ begins w)
    (hx : ∀ x ∈ begins w, Sampled x ∧ ∃ a suf, StdW suf ∧ G a ((x, sample x) :: suf)) : Full G k j p t := by
  refine ⟨h, ?_, fun t1 w' hf' => ?_⟩
  · obtain ⟨x, hb⟩ := hne
    obtain ⟨hs, a, suf, h1, h2⟩ := hx x hb
    exact ⟨a, _, .cons hs h1, h2⟩
  · rw [hf] at hf'
    injection hf' with hf'
    injection hf' with h1 h2
    subst h1
    subst h2
    refine ⟨[], rfl, fun x hb => ?_⟩
    obtain ⟨hs, a, suf, h1, h2⟩ := hx x hb
    exact ⟨a, suf, .cons hs h1, h2⟩

/-- Report an error and panic. -/
theorem Full.bad {α : Type} {G : α → List Lx → Prop} {k : Nat} {w : What} {t : TS} (hne : ∃ x, x ∈ begins w) (hx : ∀ x ∈ begins w, Sampled x ∧ ∃ a suf, StdW suf ∧ G a ((x, sample x) :: suf)) :
    Full G k 0 (errorExpected w >>= fun _ => (.bad : PProg α)) t := .here Good.bad rfl hne hx

theorem got_first (x : Token) (t : TS) : (got x).first t = none := by
  show (if t.tok = x then _ else _ : PProg Bool).first t = none
  split <;> rfl

theorem Full.got {x : Token} (hx : Sampled x) (t : TS) (j : Nat) : Full (FlagG x) 0 j (got x) t := .quiet (Good.got hx.ne_eof t j) ⟨false, [], .nil, .no⟩ (got_first x t)

theorem want_first (x : Token) (t : TS) : (want x).first t = if t.tok = x then none else some (t, .tok x) := by
  show (PProg.bind (if t.tok = x then _ else _) _).first t = _
  by_cases h : t.tok = x
  · rw [if_pos h, if_pos h]; rfl
  · rw [if_neg h, if_neg h]; rfl

theorem Full.want {x : Token} (hx : Sampled x) (t : TS) (j : Nat) : Full (fun _ w => ∃ y, w = [(x, y)]) 1 j (want x) t := by
  have hf := want_first x t
  by_cases h : t.tok = x
  · rw [if_pos h] at hf
    exact .quiet (Good.want hx.ne_eof t j) ⟨(), _, .one hx, _, rfl⟩ hf
  · rw [if_neg h] at hf
    refine .here (Good.want hx.ne_eof t j) hf ⟨x, by simp [begins]⟩ fun y hy => ?_
    rw [List.mem_singleton.1 hy]
    exact ⟨hx, (), [], .nil, _, rfl⟩

theorem litOf_first (x : Token) (t : TS) : (litOf x).first t = if t.tok = x then none else some (t, .tok x) := by
  show (if t.tok = x then _ else _ : PProg Bytes).first t = _
  by_cases h : t.tok = x
  · rw [if_pos h, if_pos h]; rfl
  · rw [if_neg h, if_neg h]
    have := want_first x t
    rw [if_neg h] at this
    obtain ⟨r, t', h1, _⟩ := Good.want_err h 0
    rw [first_bind h1, this]
    rfl

theorem Full.litOf {x : Token} (hx : Sampled x) (t : TS) (j : Nat) : Full (LitG x) 1 j (litOf x) t := by
  have hf := litOf_first x t
  by_cases h : t.tok = x
  · rw [if_pos h] at hf
    exact .quiet (Good.litOf hx.ne_eof t j) ⟨_, _, .one hx, .mk⟩ hf
  · rw [if_neg h] at hf
    refine .here (Good.litOf hx.ne_eof t j) hf ⟨x, by simp [begins]⟩ fun y hy => ?_
    rw [List.mem_singleton.1 hy]
    exact ⟨hx, _, [], .nil, .mk⟩

/-- `gotAssign` followed by an assigned value, or nothing. -/
theorem Full.gotAssign {α β : Type} {R : α → List Lx → Prop} {H : Option α → β → List Lx → Prop} {k : Nat} {f : Bool → PProg β} {t : TS}
    (ht : ∀ t', t'.rest.length ≤ t.rest.length - 1 → Full (fun b w => ∃ a w1 w2, w = w1 ++ w2 ∧ R a w1 ∧ H (some a) b w2) k 0 (f true) t') (hf : Full (H none) k 0 (f false) t) :
    Full (fun b w => ∃ a w1 w2, w = w1 ++ w2 ∧ AssignedG R a w1 ∧ H a b w2) k 0 (gotAssign >>= f) t := by
  have hg := Good.gotAssign (R := R) (H := H) (k := k) (f := f) (t := t) (fun t' h => (ht t' h).good) hf.good
  have hword : ∃ b w, StdW w ∧ ∃ a w1 w2, w = w1 ++ w2 ∧ AssignedG R a w1 ∧ H a b w2 := by
    obtain ⟨b, w, h1, h2⟩ := hf.word
    exact ⟨b, w, h1, none, [], w, rfl, .none, h2⟩
  by_cases h : t.tok = Tk.assign
  · have hfst : (Idl.gotAssign >>= f).first t = (f true).first t.next := by
      unfold Idl.gotAssign Idl.got
      show (PProg.bind (PProg.bind (if t.tok = Tk.assign then _ else _) _) _).first t = _
      rw [if_pos h]
      rfl
    obtain ⟨y, p, l, hr⟩ := rest_of_tok h (by decide)
    refine ⟨hg, hword, fun t1 w hw => ?_⟩
    rw [hfst] at hw
    obtain ⟨pre, h1, h2⟩ := (ht t.next (by show t.rest.tail.length ≤ _; rw [List.length_tail]; omega)).first t1 w hw
    refine ⟨(Tk.assign, y) :: pre, ?_, fun x hx => ?_⟩
    · rw [List.cons_append, ← h1]
      unfold TS.plain
      show _ = _ :: t.rest.tail.map plain
      rw [hr]
      rfl
    · obtain ⟨b, suf, h3, a, w1, w2, h4, h5, h6⟩ := h2 x hx
      exact ⟨b, suf, h3, some a, (Tk.assign, y) :: w1, w2, by rw [List.cons_append, List.cons_append, h4], .some h5, h6⟩
  · by_cases h' : t.tok = Tk.eql
    · have hfst : (Idl.gotAssign >>= f).first t = some (t, .tok Tk.assign) := by
        unfold Idl.gotAssign
        rw [show Idl.got Tk.assign = (Idl.tok >>= fun x => if x = Tk.assign then (Idl.next >>= fun _ => Pure.pure true) else Pure.pure false) from rfl]
        show (PProg.bind (PProg.bind (if t.tok = Tk.assign then _ else _) _) _).first t = _
        rw [if_neg h]
        show (PProg.bind (if t.tok = Tk.eql then _ else _) _).first t = _
        rw [if_pos h']
        show ((Idl.want Tk.assign >>= fun _ => Pure.pure true) >>= f).first t = _
        have hw := want_first Tk.assign t
        rw [if_neg h] at hw
        obtain ⟨r, t', h1, _⟩ := Good.want_err h 0
        have h2 : (Idl.want Tk.assign >>= fun _ => (Pure.pure true : PProg Bool)).first t = some (t, .tok Tk.assign) := by rw [first_bind h1, hw]; rfl
        obtain ⟨r2, t2, h3⟩ : ∃ r2 t2, (Idl.want Tk.assign >>= fun _ => (Pure.pure true : PProg Bool)).run tokSource t = .done (r2, t2) := by
          rw [run_bind, h1, Out.bind_done]
          cases r <;> exact ⟨_, _, rfl⟩
        rw [first_bind h3, h2]
        rfl
      refine .here hg hfst ⟨_, List.mem_singleton.2 rfl⟩ fun x hx => ?_
      rw [List.mem_singleton.1 hx]
      obtain ⟨b, w, h1, a, w1, w2, rfl, h3, h4⟩ := (ht ⟨[], t.eof, t.errs⟩ (Nat.zero_le _)).word
      exact ⟨by decide, b, w1 ++ w2, h1, some a, (Tk.assign, _) :: w1, w2, rfl, .some h3, h4⟩
    · have hfst : (Idl.gotAssign >>= f).first t = (f false).first t := by
        unfold Idl.gotAssign
        rw [show Idl.got Tk.assign = (Idl.tok >>= fun x => if x = Tk.assign then (Idl.next >>= fun _ => Pure.pure true) else Pure.pure false) from rfl]
        show (PProg.bind (PProg.bind (if t.tok = Tk.assign then _ else _) _) _).first t = _
        rw [if_neg h]
        show (PProg.bind (if t.tok = Tk.eql then _ else _) _).first t = _
        rw [if_neg h']
        rfl
      refine ⟨hg, hword, fun t1 w hw => ?_⟩
      rw [hfst] at hw
      obtain ⟨pre, h1, h2⟩ := hf.first t1 w hw
      refine ⟨pre, h1, fun x hx => ?_⟩
      obtain ⟨b, suf, h3, h4⟩ := h2 x hx
      exact ⟨b, suf, h3, none, [], _, rfl, .none, h4⟩

theorem assigned_full {α : Type} {R : α → List Lx → Prop} {k : Nat} {f : PProg α} {t : TS} (hf : ∀ t', t'.rest.length ≤ t.rest.length - 1 → Full R k 0 f t') :
    Full (AssignedG R) 0 0 (assigned f) t := by
  unfold assigned
  refine (Full.gotAssign (R := R) (H := fun a b w => b = a ∧ w = []) (k := 0) (fun t' ht' => ?_) ?_).mono (Nat.le_refl _) (Nat.le_refl _) ?_
  · rw [if_pos rfl]
    refine ((hf t' ht').bind (j2 := 0) (Nat.zero_le _) fun v t2 _ => Full.pure (some v) t2 0).mono (by omega) (Nat.le_refl _) ?_
    rintro b w ⟨v, w1, w2, rfl, h1, rfl, rfl⟩
    exact ⟨v, w1, [], rfl, h1, rfl, rfl⟩
  · rw [if_neg (by decide)]
    exact Full.pure none t 0
  · rintro b w ⟨a, w1, w2, rfl, h1, rfl, rfl⟩
    rw [List.append_nil]
    exact h1

theorem after_full {α : Type} {R : α → List Lx → Prop} {k : Nat} {x : Token} (hx : Sampled x) {f : PProg α} {t : TS} (hf : ∀ t', t'.rest.length ≤ t.rest.length → Full R k 0 f t') :
    Full (fun a w => (a = none ∧ w = []) ∨ ∃ v y w', a = some v ∧ w = (x, y) :: w' ∧ R v w') 0 0 (after x f) t := by
  unfold after
  refine ((Full.got hx t 0).bind (k2 := 0) (j2 := 0) (H := fun b a w => (b = false ∧ a = none ∧ w = []) ∨ (b = true ∧ ∃ v, a = some v ∧ R v w)) (Nat.zero_le _) fun b t1 h1 => .ite (fun hb => ?_) fun hb => ?_).mono (Nat.le_refl _) (Nat.le_refl _) ?_
  · refine ((hf t1 h1).bind (j2 := 0) (Nat.zero_le _) fun v t2 _ => Full.pure (some v) t2 0).mono (by omega) (Nat.le_refl _) ?_
    rintro b w ⟨v, w1, w2, rfl, h1, rfl, rfl⟩
    rw [List.append_nil]
    exact .inr ⟨hb, v, rfl, h1⟩
  · refine (Full.pure none t1 0).mono (by omega) (Nat.le_refl _) ?_
    rintro b w ⟨rfl, rfl⟩
    exact .inl ⟨by simpa using hb, rfl, rfl⟩
  · rintro a w ⟨b, w1, w2, rfl, h1, ⟨rfl, rfl, rfl⟩ | ⟨rfl, v, rfl, h2⟩⟩
    · cases h1
      exact .inl ⟨rfl, rfl⟩
    · cases h1
      exact .inr ⟨v, _, w2, rfl, rfl, h2⟩

end GoThrift.Idl
