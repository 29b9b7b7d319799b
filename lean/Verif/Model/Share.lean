import Verif.Model.Feed

/-!
# `bufio.Reader`s that several readers share

`bufio.NewReader(r)` does not make a new `*bufio.Reader` if `r` already is one with a buffer of at least 4096 bytes: it returns `r`. So protocol readers (thriftbinary.go:61-68,
thriftcompact.go:26-28) made from a `*bufio.Reader` of the caller's work on that one. Here the `*bufio.Reader`s have addresses, each reads from a transport or from another `*bufio.Reader`, and a
protocol reader holds the address of one. Algorithms and conditions as in Go 1.21 (bufio/bufio.go).
-/

namespace GoThrift.Share

/-- An `io.Reader`: the `i`-th transport or the `*bufio.Reader` at address `j`. -/
inductive RSrc where
  | raw (i : Nat)
  | buf (j : Nat)
  deriving DecidableEq

/-- The fields of `bufio.Reader`: `len(buf)`, `buf[r:w]`, `err`, `rd`. -/
structure BCell where
  size : Nat
  unread : Bytes
  err : Option Err
  src : RSrc

/-- All transports, and the `*bufio.Reader`s at the addresses below `next`. -/
structure Heap (ρ : Type) where
  raws : Nat → ρ
  bufs : Nat → BCell
  next : Nat

/-- Change one value of a function. -/
def upd {α : Type} (f : Nat → α) (i : Nat) (a : α) : Nat → α := fun j => if j = i then a else f j

section
variable {ρ : Type} (rd : ReadFn ρ)

/-- Work on the `*bufio.Reader` at `j`. -/
def load (j : Nat) (h : Heap ρ) : GBuf (Heap ρ) := ⟨(h.bufs j).size, (h.bufs j).unread, (h.bufs j).err, h⟩

/-- The heap after that work; Reset apart, no method changes where it reads from. -/
def store (j : Nat) (g : GBuf (Heap ρ)) : Heap ρ := ⟨g.src.raws, upd g.src.bufs j ⟨g.size, g.unread, g.err, (g.src.bufs j).src⟩, g.src.next⟩

/-- Read of an `io.Reader`. The first argument bounds the number of `*bufio.Reader`s below each other; a cycle would read forever. -/
def readSrc : Nat → RSrc → ReadFn (Heap ρ)
  | _, .raw i => fun h cap => (rd (h.raws i) cap).bind fun r => .done (r.1, ⟨upd h.raws i r.2, h.bufs, h.next⟩)
  | 0, .buf _ => fun _ _ => .diverged
  | fuel + 1, .buf j => fun h cap => ((load j h).read (readSrc fuel (h.bufs j).src) cap).bind fun r => .done (r.1, store j r.2)

/-- Run a program on the `*bufio.Reader` at `j`. -/
def runOn {α : Type} (j : Nat) (p : BProg α) (h : Heap ρ) : Out (α × Heap ρ) :=
  (p.runG (readSrc rd h.next (h.bufs j).src) (load j h)).bind fun r => .done (r.1, store j r.2)

/-- `bufio.NewReaderSize(s, size)` -/
def newReaderSize (size : Nat) (s : RSrc) (h : Heap ρ) : Nat × Heap ρ :=
  let alloc := (h.next, (⟨h.raws, upd h.bufs h.next ⟨max size 16, [], none, s⟩, h.next + 1⟩ : Heap ρ))
  match s with
  | .raw _ => alloc
  | .buf j => if (h.bufs j).size ≥ size then (j, h) else alloc

/-- `bufio.NewReader(s)` -/
def newReader (s : RSrc) (h : Heap ρ) : Nat × Heap ρ := newReaderSize 4096 s h

/-- `func (b *Reader) Reset(r io.Reader)` of the one at `j`: nothing if `r` is `b` itself. -/
def bufReset (j : Nat) (s : RSrc) (h : Heap ρ) : Heap ρ :=
  if s = .buf j then h else ⟨h.raws, upd h.bufs j ⟨(h.bufs j).size, [], none, s⟩, h.next⟩

end

/-- The protocols. -/
inductive Proto where
  | binary (strict : Bool)
  | compact

/-- The fields of a protocol reader apart from its `*bufio.Reader`. -/
inductive PState where
  | binary (strict : Bool)
  | compact (c : Compact.RState)

/-- A new one's. -/
def Proto.start : Proto → PState
  | .binary strict => .binary strict
  | .compact => .compact {}

/-- One after Reset (thriftcompact.go:289-295; that of the binary reader is the one of bufio.Reader, thriftbinary.go:61-64). -/
def PState.again : PState → PState
  | .binary strict => .binary strict
  | .compact _ => .compact { ids := [] }

/-- A protocol reader (thriftbinary.go:61-64, thriftcompact.go:38-43). -/
structure PRd where
  buf : Nat
  st : PState

/-- The code of a method. -/
def PState.impl (st : PState) (o : ROp) : BProg (Except Err o.Ans × PState) :=
  match st with
  | .binary strict => (Binary.impl strict o ()).bind fun r => .ret (r.1, .binary strict)
  | .compact c => (Compact.impl o c).bind fun r => .ret (r.1, .compact r.2)

section
variable {ρ : Type}

/-- `NewReader(s)` (thriftbinary.go:66-68, thriftcompact.go:26-28) -/
def newPRd (p : Proto) (s : RSrc) (h : Heap ρ) : PRd × Heap ρ :=
  let r := newReader s h
  (⟨r.1, p.start⟩, r.2)

/-- `x.Reset(s)`: the binary reader has the method of its `*bufio.Reader`; the compact one calls that and then takes `bufio.NewReader(s)` (thriftcompact.go:289-295). -/
def resetPRd (x : PRd) (s : RSrc) (h : Heap ρ) : PRd × Heap ρ :=
  match x.st with
  | .binary _ => (⟨x.buf, x.st.again⟩, bufReset x.buf s h)
  | .compact _ =>
    let r := newReader s (bufReset x.buf s h)
    (⟨r.1, x.st.again⟩, r.2)

end

/-- The heap, the number of transports in use (those after it are not), the caller's own `*bufio.Reader`s, the protocol readers made from one of these, and the protocol readers made from a
transport. -/
structure World (ρ : Type) where
  heap : Heap ρ
  used : Nat
  bs : List Nat
  rs : List PRd
  os : List PRd

/-- A program that works with many readers. -/
inductive Client (α : Type) where
  | ret (a : α)
  | diverge
  | panic
  /-- `bufio.NewReaderSize(t, 4096 + n)` of the next transport -/
  | openBuf (n : Nat) (k : Client α)
  /-- `p.NewReader(b)` of the `j`-th `*bufio.Reader` -/
  | new (p : Proto) (j : Nat) (k : Client α)
  /-- the `i`-th reader made from a `*bufio.Reader` is reset to that -/
  | reset (i : Nat) (k : Client α)
  /-- the `i`-th reader made from a `*bufio.Reader` -/
  | call (i : Nat) (o : ROp) (k : Except Err o.Ans → Client α)
  /-- `p.NewReader(t)` of the next transport -/
  | openOwn (p : Proto) (k : Client α)
  /-- the `i`-th reader made from a transport is reset to the next transport -/
  | resetOwn (i : Nat) (k : Client α)
  /-- the `i`-th reader made from a transport -/
  | callOwn (i : Nat) (o : ROp) (k : Except Err o.Ans → Client α)
  /-- methods of the `j`-th `*bufio.Reader` -/
  | peek (j : Nat) (n : Int) (k : Bytes → Option Err → Client α)
  | discard (j : Nat) (n : Int) (k : Option Err → Client α)
  | readByte (j : Nat) (k : Except Err Byte → Client α)
  | readFull (j : Nat) (n : Nat) (k : Bytes → Option Err → Client α)

/-- Run it; there is a panic if it uses a reader it has not made. -/
def Client.run {ρ α : Type} (rd : ReadFn ρ) : Client α → World ρ → Out (α × World ρ)
  | .ret a, w => .done (a, w)
  | .diverge, _ => .diverged
  | .panic, _ => .panicked
  | .openBuf n k, w => let r := newReaderSize (4096 + n) (.raw w.used) w.heap; k.run rd ⟨r.2, w.used + 1, w.bs ++ [r.1], w.rs, w.os⟩
  | .new p j k, w => match w.bs[j]? with
    | none => .panicked
    | some a => let r := newPRd p (.buf a) w.heap; k.run rd ⟨r.2, w.used, w.bs, w.rs ++ [r.1], w.os⟩
  | .reset i k, w => match w.rs[i]? with
    | none => .panicked
    | some x => let r := resetPRd x (.buf x.buf) w.heap; k.run rd ⟨r.2, w.used, w.bs, w.rs.set i r.1, w.os⟩
  | .call i o k, w => match w.rs[i]? with
    | none => .panicked
    | some x => (runOn rd x.buf (x.st.impl o) w.heap).bind fun r => (k r.1.1).run rd ⟨r.2, w.used, w.bs, w.rs.set i ⟨x.buf, r.1.2⟩, w.os⟩
  | .openOwn p k, w => let r := newPRd p (.raw w.used) w.heap; k.run rd ⟨r.2, w.used + 1, w.bs, w.rs, w.os ++ [r.1]⟩
  | .resetOwn i k, w => match w.os[i]? with
    | none => .panicked
    | some x => let r := resetPRd x (.raw w.used) w.heap; k.run rd ⟨r.2, w.used + 1, w.bs, w.rs, w.os.set i r.1⟩
  | .callOwn i o k, w => match w.os[i]? with
    | none => .panicked
    | some x => (runOn rd x.buf (x.st.impl o) w.heap).bind fun r => (k r.1.1).run rd ⟨r.2, w.used, w.bs, w.rs, w.os.set i ⟨x.buf, r.1.2⟩⟩
  | .peek j n k, w => match w.bs[j]? with
    | none => .panicked
    | some a => (runOn rd a (.peek n fun b e => .ret (b, e)) w.heap).bind fun r => (k r.1.1 r.1.2).run rd ⟨r.2, w.used, w.bs, w.rs, w.os⟩
  | .discard j n k, w => match w.bs[j]? with
    | none => .panicked
    | some a => (runOn rd a (.discard n .ret) w.heap).bind fun r => (k r.1).run rd ⟨r.2, w.used, w.bs, w.rs, w.os⟩
  | .readByte j k, w => match w.bs[j]? with
    | none => .panicked
    | some a => (runOn rd a (.readByte .ret) w.heap).bind fun r => (k r.1).run rd ⟨r.2, w.used, w.bs, w.rs, w.os⟩
  | .readFull j n k, w => match w.bs[j]? with
    | none => .panicked
    | some a => (runOn rd a (.readFull n fun b e => .ret (b, e)) w.heap).bind fun r => (k r.1.1 r.1.2).run rd ⟨r.2, w.used, w.bs, w.rs, w.os⟩

/-- No readers yet, and these transports. -/
def World.start {ρ : Type} (raws : Nat → ρ) : World ρ := ⟨⟨raws, fun _ => ⟨0, [], none, .raw 0⟩, 0⟩, 0, [], [], []⟩

end GoThrift.Share
