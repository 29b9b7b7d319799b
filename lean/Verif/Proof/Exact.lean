import Verif.Proof.WireBufio
import Verif.Proof.Varint
import Verif.Props.Varint

/-!
# What the methods of the readers accept, exactly

`Exact sz fin m P`: on a stream that ends as `fin` says, `m` succeeds exactly in front of byte sequences described by `P`, and consumes exactly those.
-/

namespace GoThrift

open Spec

/-- See the head of this file. `P c a b c'`: with fields `c`, the bytes `b` give the answer `a` and leave the fields `c'`. -/
def Exact {C α : Type} (sz : Nat) (fin : End) (m : RM C α) (P : C → α → Bytes → C → Prop) : Prop :=
  ∀ c a c' input f', m.run c ⟨sz, input, fin⟩ = .done ((.ok a, c'), f') ↔ ∃ b rest, input = b ++ rest ∧ P c a b c' ∧ f' = ⟨sz, rest, fin⟩

namespace Exact

variable {C α β : Type} {sz : Nat} {fin : End}

theorem congr {m : RM C α} {P Q : C → α → Bytes → C → Prop} (h : Exact sz fin m P) (hq : ∀ c a b c', P c a b c' ↔ Q c a b c') : Exact sz fin m Q := by
  intro c a c' input f'
  rw [h]
  constructor
  · rintro ⟨b, rest, h1, h2, h3⟩; exact ⟨b, rest, h1, (hq _ _ _ _).1 h2, h3⟩
  · rintro ⟨b, rest, h1, h2, h3⟩; exact ⟨b, rest, h1, (hq _ _ _ _).2 h2, h3⟩

theorem bind {m : RM C α} {f : α → RM C β} {P : C → α → Bytes → C → Prop} {Q : α → C → β → Bytes → C → Prop} (hm : Exact sz fin m P) (hf : ∀ a, Exact sz fin (f a) (Q a)) :
    Exact sz fin (m.bind f) fun c a b c' => ∃ a1 b1 c1 b2, P c a1 b1 c1 ∧ Q a1 c1 a b2 c' ∧ b = b1 ++ b2 := by
  intro c a c' input f'
  rw [RM.run_bind]
  constructor
  · intro h
    cases hr : m.run c ⟨sz, input, fin⟩ with
    | done x =>
      obtain ⟨⟨x, c1⟩, f1⟩ := x
      rw [hr] at h
      cases x with
      | error e => simp at h
      | ok a1 =>
        obtain ⟨b1, rest1, rfl, h1, rfl⟩ := (hm _ _ _ _ _).1 hr
        obtain ⟨b2, rest2, rfl, h2, rfl⟩ := (hf a1 _ _ _ _ _).1 h
        exact ⟨b1 ++ b2, rest2, by rw [List.append_assoc], ⟨a1, b1, c1, b2, h1, h2, rfl⟩, rfl⟩
    | blocked => rw [hr] at h; cases h
    | diverged => rw [hr] at h; cases h
    | panicked => rw [hr] at h; cases h
  · rintro ⟨b, rest, rfl, ⟨a1, b1, c1, b2, h1, h2, rfl⟩, rfl⟩
    rw [(hm _ _ _ _ _).2 ⟨b1, b2 ++ rest, by rw [List.append_assoc], h1, rfl⟩]
    exact (hf a1 _ _ _ _ _).2 ⟨b2, rest, rfl, h2, rfl⟩

theorem ok (x : α) : Exact sz fin (RM.ok x : RM C α) fun c a b c' => a = x ∧ b = [] ∧ c' = c := by
  intro c a c' input f'
  rw [RM.run_ok]
  constructor
  · intro h
    cases h
    exact ⟨[], input, rfl, ⟨rfl, rfl, rfl⟩, rfl⟩
  · rintro ⟨b, rest, rfl, ⟨rfl, rfl, rfl⟩, rfl⟩; rfl

theorem fail (e : Err) : Exact sz fin (RM.fail e : RM C α) fun _ _ _ _ => False := by
  intro c a c' input f'
  rw [RM.run_fail]
  exact ⟨fun h => by simp at h, fun ⟨_, _, _, h, _⟩ => h.elim⟩

theorem get : Exact sz fin (RM.get : RM C C) fun c a b c' => a = c ∧ b = [] ∧ c' = c := by
  intro c a c' input f'
  rw [RM.run_get]
  constructor
  · intro h
    cases h
    exact ⟨[], input, rfl, ⟨rfl, rfl, rfl⟩, rfl⟩
  · rintro ⟨b, rest, rfl, ⟨rfl, rfl, rfl⟩, rfl⟩; rfl

theorem set (x : C) : Exact sz fin (RM.set x : RM C Unit) fun _ _ b c' => b = [] ∧ c' = x := by
  intro c a c' input f'
  rw [RM.run_set]
  constructor
  · intro h
    cases h
    exact ⟨[], input, rfl, ⟨rfl, rfl⟩, rfl⟩
  · rintro ⟨b, rest, rfl, ⟨rfl, rfl⟩, rfl⟩; rfl

/-- A call that does not involve the fields. -/
theorem lift {p : BProg (Except Err α)} {P : α → Bytes → Prop}
    (h : ∀ a input f', p.run ⟨sz, input, fin⟩ = .done (.ok a, f') ↔ ∃ b rest, input = b ++ rest ∧ P a b ∧ f' = ⟨sz, rest, fin⟩) :
    Exact sz fin (RM.lift p : RM C α) fun c a b c' => P a b ∧ c' = c := by
  intro c a c' input f'
  rw [RM.run_lift]
  constructor
  · intro hr
    cases hp : p.run ⟨sz, input, fin⟩ with
    | done x =>
      obtain ⟨x, f1⟩ := x
      rw [hp] at hr
      cases hr
      obtain ⟨b, rest, h1, h2, h3⟩ := (h _ _ _).1 hp
      exact ⟨b, rest, h1, ⟨h2, rfl⟩, h3⟩
    | blocked => rw [hp] at hr; cases hr
    | diverged => rw [hp] at hr; cases hr
    | panicked => rw [hp] at hr; cases hr
  · rintro ⟨b, rest, h1, ⟨h2, rfl⟩, h3⟩
    rw [(h _ _ _).2 ⟨b, rest, h1, h2, h3⟩]
    rfl

/-- A call that returns a value and an error. -/
theorem pair {p : BProg (α × Option Err)} {P : α → Bytes → Prop}
    (h : ∀ a input f', p.run ⟨sz, input, fin⟩ = .done ((a, none), f') ↔ ∃ b rest, input = b ++ rest ∧ P a b ∧ f' = ⟨sz, rest, fin⟩) :
    Exact sz fin (RM.lift (p.bind fun r => .ret (toExcept r)) : RM C α) fun c a b c' => P a b ∧ c' = c := by
  refine lift fun a input f' => ?_
  rw [BProg.run_bind, ← h]
  cases hp : p.run ⟨sz, input, fin⟩ with
  | done x =>
    obtain ⟨⟨x, e⟩, f1⟩ := x
    cases e <;> simp [BProg.run, toExcept]
  | blocked => simp
  | diverged => simp
  | panicked => simp

theorem readByte : Exact sz fin (RM.lift (.readByte fun r => .ret r) : RM C Byte) fun c a b c' => b = [a] ∧ c' = c := by
  refine lift fun a input f' => ?_
  simp only [BProg.run, Flat.readByte]
  cases input with
  | nil =>
    constructor
    · intro h; cases fin <;> simp at h
    · rintro ⟨b, rest, h1, rfl, _⟩; cases h1
  | cons x xs =>
    simp only [Out.bind_done]
    constructor
    · intro h; cases h; exact ⟨[_], xs, rfl, rfl, rfl⟩
    · rintro ⟨b, rest, h1, rfl, rfl⟩; cases h1; rfl

theorem split_take {input : Bytes} {n : Nat} (h : n ≤ input.length) : input = input.take n ++ input.drop n ∧ (input.take n).length = n := by
  rw [List.take_append_drop, List.length_take]
  exact ⟨rfl, by omega⟩

theorem next {n : Nat} (hn : n ≤ sz) (a : Bytes) (input : Bytes) (f' : Flat) :
    (GoThrift.next n).run ⟨sz, input, fin⟩ = .done ((a, none), f') ↔ ∃ b rest, input = b ++ rest ∧ (b.length = n ∧ a = b) ∧ f' = ⟨sz, rest, fin⟩ := by
  constructor
  · intro h
    by_cases hl : n ≤ input.length
    · rw [next_ok _ _ (by omega) (by simpa using hn) (by simpa using hl)] at h
      cases h
      exact ⟨_, _, (split_take hl).1, ⟨(split_take hl).2, rfl⟩, rfl⟩
    · cases fin with
      | err e => rw [next_short _ _ e (by omega) (by simpa using hn) (by simpa using hl) rfl] at h; cases h
      | block => rw [next_block _ _ (by omega) (by simpa using hn) (by simpa using hl) rfl] at h; cases h
  · rintro ⟨b, rest, rfl, ⟨rfl, rfl⟩, rfl⟩
    rw [next_ok _ _ (by omega) (by simpa using hn) (by simp)]
    simp

theorem readLoop_block (n : Int) : ∀ (fuel : Nat) (left : Int) (acc : Bytes) (s : Flat), left.toNat ≤ fuel → 0 < s.size → s.bytes.length < left.toNat → s.fin = .block →
    (readLoop fuel n left acc).run s = .blocked := by
  intro fuel
  induction fuel with
  | zero => intro left acc s hf _ hl; omega
  | succ fuel ih =>
    intro left acc s hf hs hl he
    rw [readLoop, if_pos (by omega)]
    simp only [BProg.run, BProg.run_bind]
    by_cases hc : s.bytes.length < (min left (s.size : Int)).toNat
    · rw [next_block s (min left s.size) (by omega) (by omega) hc he]; rfl
    · rw [next_ok s (min left s.size) (by omega) (by omega) (by omega)]
      simp only [Out.bind_done]
      have hlen : (s.bytes.take (min left (s.size : Int)).toNat).length = (min left (s.size : Int)).toNat := by
        rw [List.length_take]; omega
      simp only [hlen]
      generalize hm : (min left (s.size : Int)).toNat = m at *
      exact ih (left - (m : Int)) _ { s with bytes := s.bytes.drop m } (by omega) hs (by simp only [List.length_drop]; omega) he

theorem wireReadString (hs : 0 < sz) (n : Int) (a : Bytes) (input : Bytes) (f' : Flat) :
    (GoThrift.wireReadString n).run ⟨sz, input, fin⟩ = .done ((a, none), f') ↔ ∃ b rest, input = b ++ rest ∧ ((b.length : Int) = n ∧ a = b) ∧ f' = ⟨sz, rest, fin⟩ := by
  constructor
  · intro h
    by_cases h0 : n < 0
    · rw [wireReadString_neg _ _ h0] at h; cases h
    by_cases hl : n.toNat ≤ input.length
    · rw [wireReadString_ok _ _ (by omega) hs hl] at h
      cases h
      exact ⟨_, _, (split_take hl).1, ⟨by rw [(split_take hl).2]; omega, rfl⟩, rfl⟩
    · cases fin with
      | err e => rw [wireReadString_short _ _ e hs (by simpa using hl) rfl] at h; cases h
      | block =>
        simp only [GoThrift.wireReadString, BProg.run] at h
        split at h
        · rw [next_block _ _ (by omega) (by dsimp only; omega) (by simpa using hl) rfl] at h; cases h
        · rw [readLoop_block _ _ _ _ _ (by omega) hs (by simpa using hl) rfl] at h; cases h
  · rintro ⟨b, rest, rfl, ⟨rfl, rfl⟩, rfl⟩
    rw [wireReadString_ok _ _ (by omega) hs (by simp)]
    simp

theorem wireReadBytes (hs : 0 < sz) (n : Int) (buf a : Bytes) (input : Bytes) (f' : Flat) :
    (GoThrift.wireReadBytes n buf).run ⟨sz, input, fin⟩ = .done ((a, none), f') ↔ ∃ b rest, input = b ++ rest ∧ ((b.length : Int) = n ∧ a = buf ++ b) ∧ f' = ⟨sz, rest, fin⟩ := by
  constructor
  · intro h
    by_cases h0 : n < 0
    · rw [wireReadBytes_neg _ _ _ h0] at h; cases h
    by_cases hl : n.toNat ≤ input.length
    · rw [wireReadBytes_ok _ _ _ (by omega) hs hl] at h
      cases h
      exact ⟨_, _, (split_take hl).1, ⟨by rw [(split_take hl).2]; omega, rfl⟩, rfl⟩
    · cases fin with
      | err e => rw [wireReadBytes_short _ _ _ e hs (by simpa using hl) rfl] at h; cases h
      | block =>
        simp only [GoThrift.wireReadBytes, BProg.run] at h
        split at h
        · rw [BProg.run_bind, next_block _ _ (by omega) (by dsimp only; omega) (by simpa using hl) rfl] at h; cases h
        · rw [readLoop_block _ _ _ _ _ (by omega) hs (by simpa using hl) rfl] at h; cases h
  · rintro ⟨b, rest, rfl, ⟨rfl, rfl⟩, rfl⟩
    rw [wireReadBytes_ok _ _ _ (by omega) hs (by simp)]
    simp

theorem discard (n : Int) : Exact sz fin (RM.lift (.discard n fun e => .ret (toExcept ((), e))) : RM C Unit) fun c _ b c' => (b.length : Int) = n ∧ c' = c := by
  refine lift (P := fun _ b => (b.length : Int) = n) fun a input f' => ?_
  simp only [BProg.run]
  constructor
  · intro h
    by_cases h0 : n < 0
    · rw [Flat.discard_neg _ _ h0] at h; cases h
    by_cases hl : n.toNat ≤ input.length
    · rw [Flat.discard_ok _ _ (by omega) hl] at h
      cases h
      exact ⟨_, _, (split_take hl).1, by rw [(split_take hl).2]; omega, rfl⟩
    · cases fin with
      | err e => rw [Flat.discard_short _ _ e (by omega) (by simpa using hl) rfl] at h; cases h
      | block => unfold Flat.discard at h; rw [if_neg h0, if_neg hl] at h; cases h
  · rintro ⟨b, rest, rfl, rfl, rfl⟩
    rw [Flat.discard_ok _ _ (by omega) (by simp)]
    simp [toExcept]

theorem readFull (n : Nat) : Exact sz fin (RM.lift (.readFull n fun b e => .ret (toExcept (b, e))) : RM C Bytes) fun c a b c' => (b.length = n ∧ a = b) ∧ c' = c := by
  refine lift (P := fun a b => b.length = n ∧ a = b) fun a input f' => ?_
  simp only [BProg.run]
  constructor
  · intro h
    by_cases hl : n ≤ input.length
    · rw [Flat.readFull_ok _ _ hl] at h
      cases h
      exact ⟨_, _, (split_take hl).1, ⟨(split_take hl).2, rfl⟩, rfl⟩
    · cases fin with
      | err e => rw [Flat.readFull_short _ _ e (by simpa using hl) rfl] at h; cases h
      | block => unfold Flat.readFull at h; rw [if_neg hl] at h; cases h
  · rintro ⟨b, rest, rfl, ⟨rfl, rfl⟩, rfl⟩
    rw [Flat.readFull_ok _ _ (by simp)]
    simp [toExcept]

/-- A varint as `binary.ReadUvarint` accepts it. -/
theorem uvarint (v : BitVec 64) (input : Bytes) (f' : Flat) :
    binReadUvarint.run ⟨sz, input, fin⟩ = .done ((v, none), f') ↔
      ∃ b rest, input = b ++ rest ∧ (IsLeb b ∧ b.length ≤ 10 ∧ lebValue b < 2 ^ 64 ∧ v.toNat = lebValue b) ∧ f' = ⟨sz, rest, fin⟩ := by
  rw [C19_accepts_exactly]
  constructor
  · rintro ⟨w, rest, h1, h2, h3, h4, h5, h6⟩; exact ⟨w, rest, h1, ⟨h2, h3, h4, h5⟩, h6⟩
  · rintro ⟨w, rest, h1, ⟨h2, h3, h4, h5⟩, h6⟩; exact ⟨w, rest, h1, h2, h3, h4, h5, h6⟩

end Exact

end GoThrift
