import Verif.Model.Basic

/-!
# Programs that read bytes

Code of the repository that consumes a `*bufio.Reader` is modelled as a tree of the calls it makes on that reader.
A tree can be run on a flat byte stream (this file) or on the real `bufio.Reader` algorithm over a fragmenting transport
(`Verif/Model/Bufio.lean`).
-/

namespace GoThrift

/-- A program making calls on a `*bufio.Reader`.
* `peek n` is `b.Peek(n)`, answered by the bytes and the error;
* `discard n` is `b.Discard(n)`; every caller in the repository ignores the returned count, so only the error is kept
  (encoding/thriftwire/bufio.go:14, varint.go:12,23, thriftbinary.go:229,234, thriftcompact.go:271,276);
* `readByte` is `b.ReadByte()`;
* `readFull n` is `io.ReadFull(b, buf)` with `len(buf) = n` (thriftbinary.go:220, thriftcompact.go:262);
* `size` is `b.Size()`;
* `diverge` is a loop that never ends;
* `panic` is a run-time panic. -/
inductive BProg (α : Type) : Type where
  | ret (a : α)
  | diverge
  | panic
  | peek (n : Int) (k : Bytes → Option Err → BProg α)
  | discard (n : Int) (k : Option Err → BProg α)
  | readByte (k : Except Err Byte → BProg α)
  | readFull (n : Nat) (k : Bytes → Option Err → BProg α)
  | size (k : Nat → BProg α)

namespace BProg

/-- Sequential composition. -/
def bind {α β : Type} : BProg α → (α → BProg β) → BProg β
  | ret a, f => f a
  | diverge, _ => diverge
  | panic, _ => panic
  | peek n k, f => peek n fun b e => (k b e).bind f
  | discard n k, f => discard n fun e => (k e).bind f
  | readByte k, f => readByte fun r => (k r).bind f
  | readFull n k, f => readFull n fun b e => (k b e).bind f
  | size k, f => size fun n => (k n).bind f

instance : Monad BProg where
  pure := ret
  bind := bind

@[simp] theorem pure_eq {α : Type} (a : α) : (pure a : BProg α) = ret a := rfl
@[simp] theorem bind_eq {α β : Type} (m : BProg α) (f : α → BProg β) : (m >>= f) = m.bind f := rfl
@[simp] theorem ret_bind {α β : Type} (a : α) (f : α → BProg β) : (ret a).bind f = f a := rfl

theorem bind_assoc {α β γ : Type} (m : BProg α) (f : α → BProg β) (g : β → BProg γ) :
    (m.bind f).bind g = m.bind (fun a => (f a).bind g) := by
  induction m <;> simp_all [bind]

end BProg

/-- How a byte stream ends: every further read reports an error (`io.EOF` being the usual one), or
the transport is idle and a further read blocks forever. -/
inductive End where
  | err (e : Err)
  | block
  deriving DecidableEq, Repr

/-- A flat byte stream seen through a `bufio.Reader` whose buffer has `size` bytes. -/
structure Flat where
  size : Nat
  bytes : Bytes
  fin : End
  deriving DecidableEq, Repr

namespace Flat

/-- `bufio.Reader.Peek` on a flat stream (Go standard library, bufio/bufio.go). -/
def peek (s : Flat) (n : Int) : Out (Bytes × Option Err) :=
  if n < 0 then .done ([], some .negativeCount)
  else if n.toNat > s.size then
    if s.size ≤ s.bytes.length then .done (s.bytes.take s.size, some .bufferFull)
    else match s.fin with
      | .block => .blocked
      | .err _ => .done (s.bytes, some .bufferFull)
  else if n.toNat ≤ s.bytes.length then .done (s.bytes.take n.toNat, none)
  else match s.fin with
    | .block => .blocked
    | .err e => .done (s.bytes, some e)

/-- `bufio.Reader.Discard` on a flat stream. -/
def discard (s : Flat) (n : Int) : Out (Option Err × Flat) :=
  if n < 0 then .done (some .negativeCount, s)
  else if n.toNat ≤ s.bytes.length then .done (none, { s with bytes := s.bytes.drop n.toNat })
  else match s.fin with
    | .block => .blocked
    | .err e => .done (some e, { s with bytes := [] })

/-- `bufio.Reader.ReadByte` on a flat stream. -/
def readByte (s : Flat) : Out (Except Err Byte × Flat) :=
  match s.bytes with
  | b :: bs => .done (.ok b, { s with bytes := bs })
  | [] => match s.fin with
    | .block => .blocked
    | .err e => .done (.error e, s)

/-- `io.ReadFull` on a flat stream: `io.EOF` becomes `io.ErrUnexpectedEOF` when something was read. -/
def readFull (s : Flat) (n : Nat) : Out ((Bytes × Option Err) × Flat) :=
  if n ≤ s.bytes.length then .done ((s.bytes.take n, none), { s with bytes := s.bytes.drop n })
  else match s.fin with
    | .block => .blocked
    | .err e =>
      .done ((s.bytes, some (if s.bytes ≠ [] ∧ e = .eof then .unexpectedEOF else e)), { s with bytes := [] })

end Flat

/-- Run a program on a flat stream. -/
def BProg.run {α : Type} : BProg α → Flat → Out (α × Flat)
  | .ret a, s => .done (a, s)
  | .diverge, _ => .diverged
  | .panic, _ => .panicked
  | .peek n k, s => (s.peek n).bind fun r => (k r.1 r.2).run s
  | .discard n k, s => (s.discard n).bind fun r => (k r.1).run r.2
  | .readByte k, s => s.readByte.bind fun r => (k r.1).run r.2
  | .readFull n k, s => (s.readFull n).bind fun r => (k r.1.1 r.1.2).run r.2
  | .size k, s => (k s.size).run s

theorem BProg.run_bind {α β : Type} (m : BProg α) (f : α → BProg β) (s : Flat) :
    (m.bind f).run s = (m.run s).bind fun r => (f r.1).run r.2 := by
  induction m generalizing s <;> simp_all [BProg.bind, BProg.run, Out.bind_assoc]

/-- Methods of a protocol reader: they use the reader's own fields (state `C`) and make calls on its `*bufio.Reader`.
The fields are kept also when an error is returned. -/
def RM (C α : Type) := C → BProg (Except Err α × C)

namespace RM

/-- `return a, nil` -/
def ok {C α : Type} (a : α) : RM C α := fun c => .ret (.ok a, c)

/-- `return _, err` -/
def fail {C α : Type} (e : Err) : RM C α := fun c => .ret (.error e, c)

/-- `x, err := m(); if err != nil { return err }; ...` -/
def bind {C α β : Type} (m : RM C α) (f : α → RM C β) : RM C β := fun c =>
  (m c).bind fun r => match r with
    | (.ok a, c') => f a c'
    | (.error e, c') => .ret (.error e, c')

instance {C : Type} : Monad (RM C) where
  pure := ok
  bind := bind

/-- A byte-level call returning a value and an error, none of the fields involved. -/
def lift {C α : Type} (p : BProg (Except Err α)) : RM C α := fun c => p.bind fun r => .ret (r, c)

/-- Read the fields. -/
def get {C : Type} : RM C C := fun c => .ret (.ok c, c)

/-- Write the fields. -/
def set {C : Type} (c : C) : RM C Unit := fun _ => .ret (.ok (), c)

/-- The access `_ = b[n-1]` that `binary.BigEndian.UintXX`/`LittleEndian.UintXX` make first: it panics if the slice is too short. -/
def need {C : Type} (n : Nat) (b : Bytes) : RM C Unit := fun c => if b.length < n then .panic else .ret (.ok (), c)

/-- Run a method on a flat stream. -/
def run {C α : Type} (m : RM C α) (c : C) (s : Flat) : Out ((Except Err α × C) × Flat) := (m c).run s

@[simp] theorem pure_eq {C α : Type} (a : α) : (pure a : RM C α) = ok a := rfl
@[simp] theorem bind_eq {C α β : Type} (m : RM C α) (f : α → RM C β) : (m >>= f) = m.bind f := rfl

@[simp] theorem run_ok {C α : Type} (a : α) (c : C) (s : Flat) :
    (ok a : RM C α).run c s = .done ((.ok a, c), s) := rfl
@[simp] theorem run_fail {C α : Type} (e : Err) (c : C) (s : Flat) :
    (fail e : RM C α).run c s = .done ((.error e, c), s) := rfl
@[simp] theorem run_get {C : Type} (c : C) (s : Flat) :
    (get : RM C C).run c s = .done ((.ok c, c), s) := rfl
@[simp] theorem run_set {C : Type} (c' c : C) (s : Flat) :
    (set c' : RM C Unit).run c s = .done ((.ok (), c'), s) := rfl

theorem run_need {C : Type} (n : Nat) (b : Bytes) (h : n ≤ b.length) (c : C) (s : Flat) :
    (need n b : RM C Unit).run c s = .done ((.ok (), c), s) := by
  simp [run, need, Nat.not_lt.2 h, BProg.run]

theorem run_bind {C α β : Type} (m : RM C α) (f : α → RM C β) (c : C) (s : Flat) :
    (m.bind f).run c s = (m.run c s).bind fun r => match r with
      | ((.ok a, c'), s') => (f a).run c' s'
      | ((.error e, c'), s') => .done ((.error e, c'), s') := by
  simp only [run, bind, BProg.run_bind]
  congr 1; funext r
  rcases r with ⟨⟨(_ | _), _⟩, _⟩ <;> rfl

theorem run_lift {C α : Type} (p : BProg (Except Err α)) (c : C) (s : Flat) :
    (lift p : RM C α).run c s = (p.run s).bind fun r => .done ((r.1, c), r.2) := by
  simp [run, lift, BProg.run_bind, BProg.run]

end RM

end GoThrift
