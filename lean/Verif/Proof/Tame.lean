import Verif.Proof.Varint
import Verif.Proof.WireBufio
import Verif.Model.Binary
import Verif.Model.Compact

/-!
# Reader methods on arbitrary bytes

`Tame J m`: on every stream that ends, the method `m` returns (it neither waits, loops nor panics), consumes a prefix of the bytes, and if
it succeeds then it would give the same answer on every stream starting with that prefix; `J` relates the fields of the reader before
and after and the number of bytes consumed.
-/

namespace GoThrift

open Spec

variable {C α β : Type}

/-- See the head of this file. -/
def Tame (J : C → C → Nat → Prop) (m : RM C α) : Prop :=
  ∀ (size : Nat), 16 ≤ size → ∀ (c : C) (bytes : Bytes) (e : Err),
    ∃ (r : Except Err α) (c' : C) (used rest : Bytes), bytes = used ++ rest ∧
      m.run c ⟨size, bytes, .err e⟩ = .done ((r, c'), ⟨size, rest, .err e⟩) ∧
      ∀ a, r = .ok a → J c c' used.length ∧
        ∀ q e', m.run c ⟨size, used ++ q, .err e'⟩ = .done ((.ok a, c'), ⟨size, q, .err e'⟩)

/-- The same for code that does not touch the reader's fields; at least `k` bytes are consumed on success. -/
def TameB (k : Nat) (p : BProg (Except Err α)) : Prop :=
  ∀ (size : Nat), 16 ≤ size → ∀ (bytes : Bytes) (e : Err),
    ∃ (r : Except Err α) (used rest : Bytes), bytes = used ++ rest ∧
      p.run ⟨size, bytes, .err e⟩ = .done (r, ⟨size, rest, .err e⟩) ∧
      ∀ a, r = .ok a → k ≤ used.length ∧
        ∀ q e', p.run ⟨size, used ++ q, .err e'⟩ = .done (.ok a, ⟨size, q, .err e'⟩)

/-- Fields unchanged, at least `k` bytes consumed. -/
def Jk (k : Nat) (c c' : C) (n : Nat) : Prop := c' = c ∧ k ≤ n

theorem TameB.lift {k : Nat} {p : BProg (Except Err α)} (h : TameB k p) : Tame (Jk k) (RM.lift p : RM C α) := by
  intro size hs c bytes e
  obtain ⟨r, used, rest, h1, h2, h3⟩ := h size hs bytes e
  refine ⟨r, c, used, rest, h1, ?_, fun a ha => ⟨⟨rfl, (h3 a ha).1⟩, fun q e' => ?_⟩⟩
  · rw [RM.run_lift, h2]; rfl
  · rw [RM.run_lift, (h3 a ha).2]; rfl

theorem TameB.mono {k k' : Nat} {p : BProg (Except Err α)} (h : TameB k p) (hk : k' ≤ k) : TameB k' p := by
  intro size hs bytes e
  obtain ⟨r, used, rest, h1, h2, h3⟩ := h size hs bytes e
  exact ⟨r, used, rest, h1, h2, fun a ha => ⟨Nat.le_trans hk (h3 a ha).1, (h3 a ha).2⟩⟩

theorem Tame.mono {J J' : C → C → Nat → Prop} {m : RM C α} (h : Tame J m) (hJ : ∀ c c' n, J c c' n → J' c c' n) : Tame J' m := by
  intro size hs c bytes e
  obtain ⟨r, c', used, rest, h1, h2, h3⟩ := h size hs c bytes e
  exact ⟨r, c', used, rest, h1, h2, fun a ha => ⟨hJ _ _ _ (h3 a ha).1, (h3 a ha).2⟩⟩

theorem Tame.ok (a : α) : Tame (Jk 0) (RM.ok a : RM C α) := by
  intro size hs c bytes e
  refine ⟨.ok a, c, [], bytes, rfl, RM.run_ok a c _, fun b hb => ⟨⟨rfl, Nat.le_refl _⟩, fun q e' => ?_⟩⟩
  cases hb; rfl

theorem Tame.fail (J : C → C → Nat → Prop) (err : Err) : Tame J (RM.fail err : RM C α) := by
  intro size hs c bytes e
  exact ⟨.error err, c, [], bytes, rfl, rfl, fun a ha => by cases ha⟩

theorem Tame.bind {J1 J2 J3 : C → C → Nat → Prop} {m : RM C α} {f : α → RM C β} (hm : Tame J1 m) (hf : ∀ a, Tame J2 (f a))
    (hJ : ∀ c c1 c2 n1 n2, J1 c c1 n1 → J2 c1 c2 n2 → J3 c c2 (n1 + n2)) : Tame J3 (m.bind f) := by
  intro size hs c bytes e
  obtain ⟨r, c1, used, rest, h1, h2, h3⟩ := hm size hs c bytes e
  cases r with
  | error err =>
    refine ⟨.error err, c1, used, rest, h1, ?_, fun a ha => by cases ha⟩
    rw [RM.run_bind, h2]; rfl
  | ok a =>
    obtain ⟨r2, c2, used2, rest2, g1, g2, g3⟩ := hf a size hs c1 rest e
    refine ⟨r2, c2, used ++ used2, rest2, by rw [h1, g1, List.append_assoc], ?_, fun b hb => ⟨?_, fun q e' => ?_⟩⟩
    · rw [RM.run_bind, h2]; exact g2
    · rw [List.length_append]; exact hJ _ _ _ _ _ (h3 a rfl).1 (g3 b hb).1
    · rw [RM.run_bind, List.append_assoc, (h3 a rfl).2]
      exact (g3 b hb).2 q e'

theorem Tame.bindk {k1 k2 : Nat} {m : RM C α} {f : α → RM C β} (hm : Tame (Jk k1) m) (hf : ∀ a, Tame (Jk k2) (f a)) :
    Tame (Jk (k1 + k2)) (m.bind f) :=
  hm.bind hf fun _ _ _ _ _ h1 h2 => ⟨h2.1.trans h1.1, Nat.add_le_add h1.2 h2.2⟩

theorem Tame.get_bind {J : C → C → Nat → Prop} {f : C → RM C β} (hf : ∀ c, Tame J (f c)) : Tame J (RM.get.bind f) := by
  intro size hs c bytes e
  obtain ⟨r, c', used, rest, h1, h2, h3⟩ := hf c size hs c bytes e
  refine ⟨r, c', used, rest, h1, ?_, fun a ha => ⟨(h3 a ha).1, fun q e' => ?_⟩⟩
  · rw [RM.run_bind, RM.run_get]; exact h2
  · rw [RM.run_bind, RM.run_get]; exact (h3 a ha).2 q e'

/-! ## Building blocks -/

theorem tameB_ret (r : Except Err α) : TameB 0 (.ret r) := by
  intro size hs bytes e
  refine ⟨r, [], bytes, rfl, rfl, fun a ha => ⟨Nat.le_refl _, fun q e' => ?_⟩⟩
  subst ha; rfl

theorem tameB_readByte : TameB 1 (.readByte fun r => .ret r) := by
  intro size hs bytes e
  cases bytes with
  | nil => exact ⟨.error e, [], [], rfl, rfl, fun a ha => by cases ha⟩
  | cons b bs =>
    refine ⟨.ok b, [b], bs, rfl, rfl, fun a ha => ⟨Nat.le_refl _, fun q e' => ?_⟩⟩
    cases ha; rfl

/-- Code that reads exactly `n` bytes or fails. -/
theorem tameB_take {n : Int} {p : BProg (Bytes × Option Err)} (g : Bytes → α)
    (hok : ∀ s : Flat, 16 ≤ s.size → 0 ≤ n → n.toNat ≤ s.bytes.length → ∃ b,
      p.run s = .done ((b, none), { s with bytes := s.bytes.drop n.toNat }) ∧ b = s.bytes.take n.toNat)
    (hshort : ∀ (s : Flat) (e : Err), 16 ≤ s.size → s.fin = .err e → s.bytes.length < n.toNat →
      ∃ b e', p.run s = .done ((b, some e'), { s with bytes := [] }))
    (hneg : ∀ s : Flat, n < 0 → ∃ b e', p.run s = .done ((b, some e'), s)) :
    TameB n.toNat (p.bind fun r => .ret (toExcept (g r.1, r.2))) := by
  intro size hs bytes e
  by_cases h0 : n < 0
  · obtain ⟨b, e', h⟩ := hneg ⟨size, bytes, .err e⟩ h0
    refine ⟨.error e', [], bytes, rfl, ?_, fun a ha => by cases ha⟩
    rw [BProg.run_bind, h]; rfl
  · by_cases hl : n.toNat ≤ bytes.length
    · obtain ⟨b, h, hb⟩ := hok ⟨size, bytes, .err e⟩ hs (by omega) hl
      refine ⟨.ok (g b), bytes.take n.toNat, bytes.drop n.toNat, (List.take_append_drop _ _).symm, ?_, fun a ha => ⟨?_, fun q e' => ?_⟩⟩
      · rw [BProg.run_bind, h]; rfl
      · rw [List.length_take]; omega
      · cases ha
        have hlen : (bytes.take n.toNat).length = n.toNat := by rw [List.length_take]; omega
        obtain ⟨b', h', hb'⟩ := hok ⟨size, bytes.take n.toNat ++ q, .err e'⟩ hs (by omega) (by simp only [List.length_append]; omega)
        have e1 : (bytes.take n.toNat ++ q).take n.toNat = bytes.take n.toNat := by
          rw [List.take_append_of_le_length (by omega), List.take_of_length_le (by omega)]
        have e2 : (bytes.take n.toNat ++ q).drop n.toNat = q := by
          rw [List.drop_append_of_le_length (by omega), List.drop_of_length_le (by omega), List.nil_append]
        simp only [e1] at hb'
        simp only [e2] at h'
        rw [BProg.run_bind, h', hb', hb]
        rfl
    · obtain ⟨b, e', h⟩ := hshort ⟨size, bytes, .err e⟩ e hs rfl (by simpa using hl)
      refine ⟨.error e', bytes, [], by simp, ?_, fun a ha => by cases ha⟩
      rw [BProg.run_bind, h]; rfl

theorem tameB_next (n : Nat) (hn : n ≤ 16) : TameB n ((next n).bind fun r => .ret (toExcept r)) :=
  tameB_take (n := (n : Int)) id
    (fun s hs h0 hl => ⟨_, next_ok s n h0 (by omega) hl, rfl⟩)
    (fun s e hs he hl => ⟨_, _, next_short s n e (by omega) (by omega) hl he⟩)
    (fun s h => by omega)

theorem tameB_readString (n : Int) : TameB 0 ((wireReadString n).bind fun r => .ret (toExcept r)) :=
  (tameB_take (n := n) id
    (fun s hs h0 hl => ⟨_, wireReadString_ok s n h0 (by omega) hl, rfl⟩)
    (fun s e hs he hl => ⟨_, _, wireReadString_short s n e (by omega) hl he⟩)
    (fun s h => ⟨_, _, wireReadString_neg s n h⟩)).mono (Nat.zero_le _)

theorem tameB_readBytes (n : Int) (buf : Bytes) : TameB 0 ((wireReadBytes n buf).bind fun r => .ret (toExcept r)) := by
  intro size hs bytes e
  by_cases h0 : n < 0
  · refine ⟨.error .negativeCount, [], bytes, rfl, ?_, fun a ha => by cases ha⟩
    rw [BProg.run_bind, wireReadBytes_neg _ _ _ h0]; rfl
  · by_cases hl : n.toNat ≤ bytes.length
    · refine ⟨.ok (buf ++ bytes.take n.toNat), bytes.take n.toNat, bytes.drop n.toNat, (List.take_append_drop _ _).symm, ?_,
        fun a ha => ⟨Nat.zero_le _, fun q e' => ?_⟩⟩
      · rw [BProg.run_bind, wireReadBytes_ok _ _ _ (by omega) (by simp; omega) hl]; rfl
      · cases ha
        have hlen : (bytes.take n.toNat).length = n.toNat := by rw [List.length_take]; omega
        have e1 : (bytes.take n.toNat ++ q).take n.toNat = bytes.take n.toNat := by
          rw [List.take_append_of_le_length (by omega), List.take_of_length_le (by omega)]
        have e2 : (bytes.take n.toNat ++ q).drop n.toNat = q := by
          rw [List.drop_append_of_le_length (by omega), List.drop_of_length_le (by omega), List.nil_append]
        rw [BProg.run_bind, wireReadBytes_ok _ _ _ (by omega) (by simp; omega) (by simp only [List.length_append]; omega)]
        simp only [e1, e2]
        rfl
    · refine ⟨.error (shortErr bytes e), bytes, [], by simp, ?_, fun a ha => by cases ha⟩
      rw [BProg.run_bind, wireReadBytes_short _ _ _ e (by simp; omega) (by simpa using hl) rfl]; rfl

theorem tameB_discard (n : Int) : TameB n.toNat (.discard n fun e => .ret (toExcept ((), e))) := by
  have h : (BProg.discard n fun e => .ret (toExcept ((), e))) =
      (BProg.discard n fun e => (.ret (([] : Bytes), e))).bind fun r => .ret (toExcept ((fun _ => ()) r.1, r.2)) := rfl
  rw [h]
  intro size hs bytes e
  by_cases h0 : n < 0
  · refine ⟨.error .negativeCount, [], bytes, rfl, ?_, fun a ha => by cases ha⟩
    simp only [BProg.bind, BProg.run, Flat.discard_neg _ _ h0, Out.bind_done]; rfl
  · by_cases hl : n.toNat ≤ bytes.length
    · refine ⟨.ok (), bytes.take n.toNat, bytes.drop n.toNat, (List.take_append_drop _ _).symm, ?_, fun a ha => ⟨?_, fun q e' => ?_⟩⟩
      · simp only [BProg.bind, BProg.run, Flat.discard_ok ⟨size, bytes, .err e⟩ n (by omega) hl, Out.bind_done]; rfl
      · rw [List.length_take]; omega
      · have hlen : (bytes.take n.toNat).length = n.toNat := by rw [List.length_take]; omega
        have e2 : (bytes.take n.toNat ++ q).drop n.toNat = q := by
          rw [List.drop_append_of_le_length (by omega), List.drop_of_length_le (by omega), List.nil_append]
        simp only [BProg.bind, BProg.run, Flat.discard_ok ⟨size, bytes.take n.toNat ++ q, .err e'⟩ n (by omega)
          (by simp only [List.length_append]; omega), Out.bind_done, e2]; rfl
    · refine ⟨.error e, bytes, [], by simp, ?_, fun a ha => by cases ha⟩
      simp only [BProg.bind, BProg.run, Flat.discard_short ⟨size, bytes, .err e⟩ n e (by omega) (by simpa using hl) rfl, Out.bind_done]; rfl

theorem tameB_readFull (n : Nat) : TameB n (.readFull n fun b e => .ret (toExcept (b, e))) := by
  intro size hs bytes e
  by_cases hl : n ≤ bytes.length
  · refine ⟨.ok (bytes.take n), bytes.take n, bytes.drop n, (List.take_append_drop _ _).symm, ?_, fun a ha => ⟨?_, fun q e' => ?_⟩⟩
    · simp only [BProg.run, Flat.readFull_ok ⟨size, bytes, .err e⟩ n hl, Out.bind_done]; rfl
    · rw [List.length_take]; omega
    · cases ha
      have hlen : (bytes.take n).length = n := by rw [List.length_take]; omega
      have e1 : (bytes.take n ++ q).take n = bytes.take n := by
        rw [List.take_append_of_le_length (by omega), List.take_of_length_le (by omega)]
      have e2 : (bytes.take n ++ q).drop n = q := by
        rw [List.drop_append_of_le_length (by omega), List.drop_of_length_le (by omega), List.nil_append]
      simp only [BProg.run, Flat.readFull_ok ⟨size, bytes.take n ++ q, .err e'⟩ n (by simp only [List.length_append]; omega),
        Out.bind_done, e1, e2]; rfl
  · refine ⟨.error (if bytes ≠ [] ∧ e = .eof then .unexpectedEOF else e), bytes, [], by simp, ?_, fun a ha => by cases ha⟩
    simp only [BProg.run, Flat.readFull_short ⟨size, bytes, .err e⟩ n e (by simpa using hl) rfl, Out.bind_done, toExcept]

theorem tameB_uvarintLoop : ∀ (left i : Nat) (x : BitVec 64) (s : Nat),
    TameB 1 ((binReadUvarintLoop left i x s).bind fun r => .ret (toExcept r)) := by
  intro left
  induction left with
  | zero => intro i x s size hs bytes e; exact ⟨.error .varintOverflow, [], bytes, rfl, rfl, fun a ha => by cases ha⟩
  | succ left ih =>
    intro i x s size hs bytes e
    cases bytes with
    | nil => exact ⟨_, [], [], rfl, rfl, fun a ha => by cases ha⟩
    | cons b bs =>
      by_cases hb : b < 0x80
      · by_cases h9 : i = maxVarintLen64 - 1 ∧ b > 1
        · refine ⟨.error .varintOverflow, [b], bs, rfl, ?_, fun a ha => by cases ha⟩
          simp only [binReadUvarintLoop, BProg.bind, BProg.run, Flat.readByte, Out.bind_done, if_pos hb, if_pos h9]; rfl
        · refine ⟨.ok (x ||| (b.setWidth 64 <<< s)), [b], bs, rfl, ?_, fun a ha => ⟨Nat.le_refl _, fun q e' => ?_⟩⟩
          · simp only [binReadUvarintLoop, BProg.bind, BProg.run, Flat.readByte, Out.bind_done, if_pos hb, if_neg h9]; rfl
          · cases ha
            simp only [binReadUvarintLoop, BProg.bind, BProg.run, Flat.readByte, Out.bind_done, if_pos hb, if_neg h9, List.cons_append]; rfl
      · have key : ∀ (bs : Bytes) (e : Err), (((binReadUvarintLoop (left + 1) i x s).bind fun r => .ret (toExcept r)).run
            ⟨size, b :: bs, .err e⟩ : Out (Except Err (BitVec 64) × Flat)) =
            ((binReadUvarintLoop left (i + 1) (x ||| ((b &&& 0x7f).setWidth 64 <<< s)) (s + 7)).bind fun r => .ret (toExcept r)).run
              ⟨size, bs, .err e⟩ := by
          intro bs e
          simp only [binReadUvarintLoop, BProg.bind, BProg.run, Flat.readByte, Out.bind_done, if_neg hb]
        obtain ⟨r, used, rest, h1, h2, h3⟩ := ih (i + 1) (x ||| ((b &&& 0x7f).setWidth 64 <<< s)) (s + 7) size hs bs e
        refine ⟨r, b :: used, rest, by rw [h1]; rfl, by rw [key]; exact h2, fun a ha => ⟨by simp, fun q e' => ?_⟩⟩
        rw [List.cons_append, key]
        exact (h3 a ha).2 q e'

theorem tameB_binReadUvarint : TameB 1 (binReadUvarint.bind fun r => .ret (toExcept r)) := tameB_uvarintLoop 10 0 0 0

theorem tameB_binReadVarint : TameB 1 (binReadVarint.bind fun r => .ret (toExcept r)) := by
  intro size hs bytes e
  obtain ⟨r, used, rest, h1, h2, h3⟩ := tameB_binReadUvarint size hs bytes e
  have key : ∀ s : Flat, ((binReadVarint.bind fun r => .ret (toExcept r)).run s : Out (Except Err (BitVec 64) × Flat)) =
      ((binReadUvarint.bind fun r => .ret (toExcept r)).run s).bind fun x => .done (x.1.map unzigzag, x.2) := by
    intro s
    simp only [binReadVarint, BProg.run_bind, Out.bind_assoc]
    congr 1; funext x
    rcases x with ⟨⟨v, _ | e⟩, s'⟩ <;> rfl
  cases r with
  | error err =>
    refine ⟨.error err, used, rest, h1, by rw [key, h2]; rfl, fun a ha => by cases ha⟩
  | ok v =>
    refine ⟨.ok (unzigzag v), used, rest, h1, by rw [key, h2]; rfl, fun a ha => ⟨(h3 v rfl).1, fun q e' => ?_⟩⟩
    cases ha
    rw [key, (h3 v rfl).2]; rfl

theorem tameB_readUvarint : TameB 1 (readUvarint.bind fun r => .ret (toExcept r)) := by
  intro size hs bytes e
  have key : ∀ bytes e, ((readUvarint.bind fun r => .ret (toExcept r)).run ⟨size, bytes, .err e⟩ : Out (Except Err (BitVec 64) × Flat)) =
      ((binReadUvarint.bind fun r => .ret (toExcept r)).run ⟨size, bytes, .err e⟩) := by
    intro bytes e
    rw [BProg.run_bind, BProg.run_bind, readUvarint_flat _ hs (.inl ⟨e, rfl⟩)]
  obtain ⟨r, used, rest, h1, h2, h3⟩ := tameB_binReadUvarint size hs bytes e
  refine ⟨r, used, rest, h1, by rw [key]; exact h2, fun a ha => ⟨(h3 a ha).1, fun q e' => ?_⟩⟩
  rw [key]; exact (h3 a ha).2 q e'

/-- A fixed-size number: `Next` and the load, which does not panic because `Next` returned that many bytes. -/
theorem tame_load (n : Nat) (hn : n ≤ 16) (g : Bytes → α) :
    Tame (Jk n) ((RM.lift ((next n).bind fun r => .ret (toExcept r))).bind fun buf => (RM.need n buf).bind fun _ => RM.ok (g buf) : RM C α) := by
  intro size hs c bytes e
  have key : ∀ (bytes : Bytes) (e : Err), n ≤ bytes.length →
      ((RM.lift ((next n).bind fun r => .ret (toExcept r))).bind fun buf => (RM.need n buf).bind fun _ => RM.ok (g buf) : RM C α).run c
        ⟨size, bytes, .err e⟩ = .done ((.ok (g (bytes.take n)), c), ⟨size, bytes.drop n, .err e⟩) := by
    intro bytes e hl
    rw [RM.run_bind, RM.run_lift, BProg.run_bind, next_ok _ n (by omega) (by simp; omega) (by simpa using hl)]
    simp only [Out.bind_done, BProg.run, toExcept, Int.toNat_natCast, RM.run_bind]
    rw [RM.run_need _ _ (by rw [List.length_take]; omega)]
    rfl
  by_cases hl : n ≤ bytes.length
  · refine ⟨_, c, bytes.take n, bytes.drop n, (List.take_append_drop _ _).symm, key bytes e hl, fun a ha => ⟨⟨rfl, ?_⟩, fun q e' => ?_⟩⟩
    · rw [List.length_take]; omega
    · cases ha
      have hlen : (bytes.take n).length = n := by rw [List.length_take]; omega
      have e1 : (bytes.take n ++ q).take n = bytes.take n := by
        rw [List.take_append_of_le_length (by omega), List.take_of_length_le (by omega)]
      have e2 : (bytes.take n ++ q).drop n = q := by
        rw [List.drop_append_of_le_length (by omega), List.drop_of_length_le (by omega), List.nil_append]
      rw [key _ _ (by rw [List.length_append]; omega), e1, e2]
  · refine ⟨.error (shortErr bytes e), c, bytes, [], by simp, ?_, fun a ha => by cases ha⟩
    rw [RM.run_bind, RM.run_lift, BProg.run_bind, next_short _ n e (by omega) (by simp; omega) (by simpa using hl) rfl]
    rfl

/-- The number of bytes a method consumes at least when it succeeds (compact bool fields excepted). -/
def ROp.least : ROp → Nat
  | .messageEnd | .structBegin | .structEnd | .fieldEnd | .mapEnd | .setEnd | .listEnd => 0
  | _ => 1

/-! ## Binary -/

namespace Binary

theorem tame_readByte : Tame (Jk 1) readByte := tameB_readByte.lift
theorem tame_readI16 : Tame (Jk 2) readI16 := tame_load 2 (by decide) _
theorem tame_readI32 : Tame (Jk 4) readI32 := tame_load 4 (by decide) _
theorem tame_readI64 : Tame (Jk 8) readI64 := tame_load 8 (by decide) _
theorem tame_readDouble : Tame (Jk 8) readDouble := tame_load 8 (by decide) _
theorem tame_readSize : Tame (Jk 4) readSize := tame_readI32.bindk fun _ => .ok _
theorem tame_readString : Tame (Jk 4) readString := tame_readSize.bindk fun _ => (tameB_readString _).lift

theorem tame_messageBegin (strict : Bool) : Tame (Jk 1) (readMessageBegin strict) := by
  refine (tame_readSize.bindk (k2 := 0) fun n => ?_).mono fun c c' n h => ⟨h.1, by have := h.2; omega⟩
  split
  · dsimp only
    split
    · exact .fail _ _
    · exact (tame_readString.bindk fun _ => tame_readI32.bindk fun _ => .ok _).mono fun _ _ _ h => ⟨h.1, Nat.zero_le _⟩
  · split
    · exact .fail _ _
    · exact ((tameB_readString _).lift.bindk fun _ => tame_readByte.bindk fun _ => tame_readI32.bindk fun _ => .ok _).mono
        fun _ _ _ h => ⟨h.1, Nat.zero_le _⟩

theorem tame_fieldBegin : Tame (Jk 1) readFieldBegin := by
  refine tame_readByte.bindk (k2 := 0) fun t => ?_
  split
  · exact .ok _
  · exact (tame_readI16.bindk fun _ => .ok _).mono fun _ _ _ h => ⟨h.1, Nat.zero_le _⟩

/-- Every method of the binary reader is tame. -/
theorem tame (strict : Bool) (o : ROp) : Tame (Jk o.least) (impl strict o) := by
  have le1 : ∀ {α : Type} {k : Nat} {m : M α}, Tame (Jk k) m → 1 ≤ k → Tame (Jk 1) m := fun h hk =>
    h.mono fun _ _ _ g => ⟨g.1, by have := g.2; omega⟩
  cases o
  case messageBegin => exact tame_messageBegin strict
  case fieldBegin => exact tame_fieldBegin
  case mapBegin => exact le1 (tame_readByte.bindk fun _ => tame_readByte.bindk fun _ => tame_readSize.bindk fun _ => .ok _) (by decide)
  case setBegin => exact le1 (tame_readByte.bindk fun _ => tame_readSize.bindk fun _ => .ok _) (by decide)
  case listBegin => exact le1 (tame_readByte.bindk fun _ => tame_readSize.bindk fun _ => .ok _) (by decide)
  case bool => exact tame_readByte.bindk fun _ => .ok _
  case byte => exact tame_readByte
  case double => exact le1 tame_readDouble (by decide)
  case i16 => exact le1 tame_readI16 (by decide)
  case i32 => exact le1 tame_readI32 (by decide)
  case i64 => exact le1 tame_readI64 (by decide)
  case string => exact le1 tame_readString (by decide)
  case bytes buf => exact le1 (tame_readSize.bindk fun _ => (tameB_readBytes _ buf).lift) (by decide)
  case uuid => exact le1 (tameB_readFull 16).lift (by decide)
  case skipString => exact le1 (tame_readSize.bindk (k2 := 0) fun _ => ((tameB_discard _).mono (Nat.zero_le _)).lift) (by decide)
  case skipUUID => exact le1 (tameB_discard 16).lift (by decide)
  all_goals exact .ok _

end Binary

/-! ## Compact -/

namespace Compact

/-- 1 when the value of a bool field has been read with its header and is waiting for ReadBool. -/
def pending (c : RState) : Nat := if c.boolField = .none then 0 else 1

/-- The reader's fields and the bytes consumed when method `o` succeeds. -/
def JC (o : ROp) (c c' : RState) (n : Nat) : Prop := pending c' + o.least ≤ 2 * n + pending c ∧ (o ≠ .bool → o.least ≤ n)

theorem JC.of {o : ROp} {k : Nat} (hk : o.least ≤ k) {α : Type} {m : M α} (h : Tame (Jk k) m) : Tame (JC o) m :=
  h.mono fun c c' n g => by unfold JC; rw [g.1]; have := g.2; exact ⟨by omega, fun _ => by omega⟩

theorem tame_readByte : Tame (Jk 1) readByte := tameB_readByte.lift
theorem tame_ofExcept {α : Type} (r : Except Err α) : Tame (Jk 0) (ofExcept r) := (tameB_ret r).lift
theorem tame_readUvarint : Tame (Jk 1) readUvarint := tameB_readUvarint.lift
theorem tame_readStringSize : Tame (Jk 1) readStringSize := tameB_readUvarint.lift
theorem tame_readSize : Tame (Jk 1) readSize := tameB_binReadUvarint.lift
theorem tame_readI64 : Tame (Jk 1) readI64 := tameB_binReadVarint.lift
theorem tame_readI32 : Tame (Jk 1) readI32 := tame_readI64.bindk fun _ => .ok _
theorem tame_readI16 : Tame (Jk 1) readI16 := tame_readI64.bindk fun _ => .ok _
theorem tame_readDouble : Tame (Jk 8) readDouble := tame_load 8 (by decide) _
theorem tame_readString : Tame (Jk 1) readString := tame_readStringSize.bindk fun _ => (tameB_readString _).lift

theorem tame_set_bind {α : Type} (J : RState → RState → Nat → Prop) (c : RState) (a : α) (hJ : ∀ c0, J c0 c 0) :
    Tame J ((RM.set c).bind fun _ => RM.ok a : M α) := by
  intro size hs c0 bytes e
  exact ⟨.ok a, c, [], bytes, rfl, rfl, fun b hb => ⟨hJ c0, fun q e' => by cases hb; rfl⟩⟩

/-- Like `Tame.get_bind`, remembering that what was read is the current state. -/
theorem tame_get_bind {α : Type} {J : RState → RState → Nat → Prop} {f : RState → M α}
    (hf : ∀ c, Tame (fun c0 c' n => c0 = c → J c0 c' n) (f c)) : Tame J (RM.get.bind f) := by
  intro size hs c bytes e
  obtain ⟨r, c', used, rest, h1, h2, h3⟩ := hf c size hs c bytes e
  refine ⟨r, c', used, rest, h1, ?_, fun a ha => ⟨(h3 a ha).1 rfl, fun q e' => ?_⟩⟩
  · rw [RM.run_bind, RM.run_get]; exact h2
  · rw [RM.run_bind, RM.run_get]; exact (h3 a ha).2 q e'

theorem tame_bool : Tame (JC .bool) readBool := by
  unfold readBool
  change Tame _ (RM.bind _ _)
  refine tame_get_bind fun c => ?_
  cases hb : c.boolField with
  | none =>
    exact ((tame_readByte.bindk (k2 := 0) fun _ => .ok _).mono fun c c' n g _ => by
      refine ⟨?_, fun h => absurd rfl h⟩; show pending c' + 1 ≤ _; rw [g.1]; have := g.2; omega)
  | true =>
    refine tame_set_bind _ _ _ fun c0 h => ?_
    subst h
    simp [JC, pending, hb, ROp.least]
  | false =>
    refine tame_set_bind _ _ _ fun c0 h => ?_
    subst h
    simp [JC, pending, hb, ROp.least]

theorem tame_structBegin : Tame (JC .structBegin) readStructBegin := by
  unfold readStructBegin
  change Tame _ (RM.bind _ _)
  refine tame_get_bind fun c => tame_set_bind _ _ _ fun c0 h => ?_
  subst h
  simp [JC, pending, ROp.least]

theorem tame_structEnd : Tame (JC .structEnd) readStructEnd := by
  unfold readStructEnd
  change Tame _ (RM.bind _ _)
  refine tame_get_bind fun c => ?_
  cases hi : c.ids with
  | nil => exact .fail _ _
  | cons id ids =>
    intro size hs c0 bytes e
    refine ⟨.ok (), _, [], bytes, rfl, rfl, fun b hb => ⟨fun h => ?_, fun q e' => rfl⟩⟩
    subst h
    simp [JC, pending, ROp.least]

theorem tame_fieldBegin : Tame (JC .fieldBegin) readFieldBegin := by
  have hp : ∀ c, pending c ≤ 1 := fun c => by unfold pending; split <;> omega
  refine tame_readByte.bind (J2 := fun c c' n => pending c' ≤ pending c ∨ True) (fun dt => ?_) ?_
  · refine (tame_ofExcept _).bind (J2 := fun _ _ _ => True) (fun ty => ?_) (fun _ _ _ _ _ _ _ => .inr trivial)
    split
    · exact (Tame.ok _).mono fun _ _ _ _ => trivial
    · change Tame _ (RM.bind _ _)
      refine Tame.get_bind fun c => ?_
      have last : ∀ id, Tame (fun _ _ _ => True) 
          (RM.get.bind fun c : RState => (RM.set { c with last := id, boolField := c.boolField.setBy (dt &&& 15) }).bind fun _ => RM.ok (⟨[], ty, id⟩ : FieldHeader)) := fun id =>
        Tame.get_bind fun c => tame_set_bind _ _ _ fun _ => trivial
      dsimp only
      split
      · exact tame_readI16.bind last fun _ _ _ _ _ _ _ => trivial
      · exact last _
  · intro c c1 c2 n1 n2 h1 _
    unfold JC
    have := hp c2
    have := h1.2
    refine ⟨?_, fun _ => ?_⟩
    · show pending c2 + 1 ≤ _
      omega
    · show 1 ≤ _
      omega

theorem tame_messageBegin : Tame (Jk 1) readMessageBegin := by
  refine tame_readByte.bindk (k2 := 0) fun p => ?_
  split
  · exact .fail _ _
  · refine Tame.mono (J := Jk 1) (tame_readByte.bindk (k2 := 0) fun vt => ?_) fun _ _ _ h => ⟨h.1, Nat.zero_le _⟩
    dsimp only
    split
    · exact .fail _ _
    · exact (tame_readUvarint.bindk fun _ => tame_readString.bindk fun _ => .ok _).mono fun _ _ _ h => ⟨h.1, Nat.zero_le _⟩

/-- Every method of the compact reader is tame. -/
theorem tame (o : ROp) : Tame (JC o) (impl o) := by
  cases o
  case messageBegin => exact JC.of (by decide) tame_messageBegin
  case structBegin => exact tame_structBegin
  case structEnd => exact tame_structEnd
  case fieldBegin => exact tame_fieldBegin
  case mapBegin =>
    refine JC.of (k := 1) (by decide) (tame_readSize.bindk (k2 := 0) fun n => ?_)
    split
    · exact .ok _
    · exact (tame_readByte.bindk fun _ => (tame_ofExcept _).bindk fun _ => (tame_ofExcept _).bindk fun _ => .ok _).mono
        fun _ _ _ h => ⟨h.1, Nat.zero_le _⟩
  case setBegin =>
    refine JC.of (k := 1) (by decide) (tame_readByte.bindk (k2 := 0) fun n => (tame_ofExcept _).bindk (k2 := 0) fun _ => ?_)
    dsimp only
    split
    · exact (tame_readSize.bindk fun _ => .ok _).mono fun _ _ _ h => ⟨h.1, Nat.zero_le _⟩
    · exact .ok _
  case listBegin =>
    refine JC.of (k := 1) (by decide) (tame_readByte.bindk (k2 := 0) fun n => (tame_ofExcept _).bindk (k2 := 0) fun _ => ?_)
    dsimp only
    split
    · exact (tame_readSize.bindk fun _ => .ok _).mono fun _ _ _ h => ⟨h.1, Nat.zero_le _⟩
    · exact .ok _
  case bool => exact tame_bool
  case byte => exact JC.of (by decide) tame_readByte
  case double => exact JC.of (by decide) tame_readDouble
  case i16 => exact JC.of (by decide) tame_readI16
  case i32 => exact JC.of (by decide) tame_readI32
  case i64 => exact JC.of (by decide) tame_readI64
  case string => exact JC.of (by decide) tame_readString
  case bytes buf => exact JC.of (k := 1) (by show 1 ≤ 1; decide) (tame_readStringSize.bindk fun _ => (tameB_readBytes _ buf).lift)
  case uuid => exact JC.of (k := 16) (by decide) (tameB_readFull 16).lift
  case skipString =>
    exact JC.of (k := 1) (by decide) (tame_readStringSize.bindk (k2 := 0) fun _ => ((tameB_discard _).mono (Nat.zero_le _)).lift)
  case skipUUID => exact JC.of (k := 16) (by decide) (tameB_discard 16).lift
  all_goals exact JC.of (k := 0) (by decide) (.ok _)

end Compact

end GoThrift
