import Verif.Model.Byte

/-!
# encoding/thriftwire: types, the Reader and Writer interfaces, Skip
-/

namespace GoThrift

/-! `thriftwire.Type` constants (encoding/thriftwire/types.go:27-41). -/
namespace Ty
def stop : WType := 0
def bool : WType := 2
def byte : WType := 3
def double : WType := 4
def i16 : WType := 6
def i32 : WType := 8
def i64 : WType := 10
def string : WType := 11
def struct : WType := 12
def map : WType := 13
def set : WType := 14
def list : WType := 15
def uuid : WType := 16
end Ty

/-- `thriftwire.MessageHeader` (types.go:51-55); the type is a `MessageType`, a named byte (types.go:6). -/
structure MessageHeader where
  name : Bytes
  type : Byte
  id : BitVec 32
  deriving DecidableEq, Repr

/-- `thriftwire.FieldHeader` (types.go:63-67) -/
structure FieldHeader where
  name : Bytes
  type : WType
  id : BitVec 16
  deriving DecidableEq, Repr

/-- `thriftwire.MapHeader` (types.go:70-73) -/
structure MapHeader where
  key : WType
  value : WType
  size : BitVec 64
  deriving DecidableEq, Repr

/-- `thriftwire.SetHeader` (types.go:76-79) and `thriftwire.ListHeader` (types.go:82-85); Go converts freely between
the two (thriftbinary.go:159,332; thriftcompact.go:202,449,461). -/
structure SetHeader where
  element : WType
  size : BitVec 64
  deriving DecidableEq, Repr

/-- Number of iterations of `for i := 0; i < size; i++` for a Go `int` size. -/
def loopCount (size : BitVec 64) : Nat := size.toInt.toNat

/-- The methods of `thriftwire.Reader` except Reset (encoding/thriftwire/protocol.go:39-64). `StructHeader` carries only a name. -/
inductive ROp where
  | messageBegin | messageEnd
  | structBegin | structEnd
  | fieldBegin | fieldEnd
  | mapBegin | mapEnd
  | setBegin | setEnd
  | listBegin | listEnd
  | bool | byte | double | i16 | i32 | i64
  | string
  /-- `ReadBytes(buf)` -/
  | bytes (buf : Bytes)
  /-- `ReadUUID(v)`: the answer is the new contents of `*v` on success (its contents after an error are not modelled) -/
  | uuid
  | skipString | skipUUID
  deriving DecidableEq, Repr

/-- What a Reader method returns besides its error. -/
@[reducible] def ROp.Ans : ROp → Type
  | .messageBegin => MessageHeader
  | .structBegin => Bytes
  | .fieldBegin => FieldHeader
  | .mapBegin => MapHeader
  | .setBegin => SetHeader
  | .listBegin => SetHeader
  | .bool => Bool
  | .byte => BitVec 8
  | .double => BitVec 64
  | .i16 => BitVec 16
  | .i32 => BitVec 32
  | .i64 => BitVec 64
  | .string => Bytes
  | .bytes _ => Bytes
  | .uuid => Bytes
  | _ => Unit

/-- The methods of `thriftwire.Writer` except Flush and Reset (encoding/thriftwire/protocol.go:74-97). -/
inductive WOp where
  | messageBegin (h : MessageHeader) | messageEnd
  | structBegin (name : Bytes) | structEnd
  | fieldBegin (h : FieldHeader) | fieldEnd
  | mapBegin (h : MapHeader) | mapEnd
  | setBegin (h : SetHeader) | setEnd
  | listBegin (h : SetHeader) | listEnd
  | bool (v : Bool) | byte (v : BitVec 8) | double (v : BitVec 64)
  | i16 (v : BitVec 16) | i32 (v : BitVec 32) | i64 (v : BitVec 64)
  | string (v : Bytes) | bytes (v : Bytes)
  | uuid (v : Bytes)
  deriving DecidableEq, Repr

/-- A program using a `thriftwire.Reader`: each call is answered by a value or an error. -/
inductive RProg (α : Type) : Type where
  | ret (a : α)
  | diverge
  | panic
  | call (o : ROp) (k : Except Err o.Ans → RProg α)

namespace RProg

/-- Sequential composition. -/
def bind {α β : Type} : RProg α → (α → RProg β) → RProg β
  | ret a, f => f a
  | diverge, _ => diverge
  | panic, _ => panic
  | call o k, f => call o fun r => (k r).bind f

@[simp] theorem ret_bind {α β : Type} (a : α) (f : α → RProg β) : (ret a).bind f = f a := rfl
@[simp] theorem diverge_bind {α β : Type} (f : α → RProg β) : (diverge : RProg α).bind f = diverge := rfl
@[simp] theorem panic_bind {α β : Type} (f : α → RProg β) : (panic : RProg α).bind f = panic := rfl
@[simp] theorem call_bind {α β : Type} (o : ROp) (k : Except Err o.Ans → RProg α) (f : α → RProg β) :
    (call o k).bind f = call o fun r => (k r).bind f := rfl

theorem bind_assoc {α β γ : Type} (m : RProg α) (f : α → RProg β) (g : β → RProg γ) :
    (m.bind f).bind g = m.bind (fun a => (f a).bind g) := by
  induction m <;> simp_all [bind]

/-- `a, err := r.Op(); if err != nil { return err }; k(a)` -/
def try' (o : ROp) (k : o.Ans → RProg (Option Err)) : RProg (Option Err) :=
  .call o fun r => match r with
    | .ok a => k a
    | .error e => .ret (some e)

/-- `return r.Op()` (or `_, err = r.Op(); return err`) -/
def last (o : ROp) : RProg (Option Err) :=
  .call o fun r => match r with
    | .ok _ => .ret none
    | .error e => .ret (some e)

/-- `if err := p; err != nil { return err }; q` -/
def andThen (p q : RProg (Option Err)) : RProg (Option Err) :=
  p.bind fun e => match e with
    | none => q
    | some e => .ret (some e)

/-- `for i := 0; i < n; i++ { if err := p; err != nil { return err } }; q` -/
def loop : Nat → RProg (Option Err) → RProg (Option Err) → RProg (Option Err)
  | 0, _, q => q
  | n + 1, p, q => p.andThen (loop n p q)

end RProg

/-- A reader implementation: the effect of each method on the reader's state `S`. -/
structure Rdr (S : Type) where
  step : (o : ROp) → S → Out (Except Err o.Ans × S)

/-- Run a program against a reader implementation. -/
def RProg.run {α S : Type} (r : Rdr S) : RProg α → S → Out (α × S)
  | .ret a, s => .done (a, s)
  | .diverge, _ => .diverged
  | .panic, _ => .panicked
  | .call o k, s => (r.step o s).bind fun x => (k x.1).run r x.2

theorem RProg.run_bind {α β S : Type} (r : Rdr S) (m : RProg α) (f : α → RProg β) (s : S) :
    (m.bind f).run r s = (m.run r s).bind fun x => (f x.1).run r x.2 := by
  induction m generalizing s <;> simp_all [RProg.bind, RProg.run, Out.bind_assoc]

open RProg in
mutual
/-- `thriftwire.Skip` (encoding/thriftwire/skip.go:4-82). The fuel bounds the recursion (see C06: it is sufficient). -/
def skip : Nat → WType → RProg (Option Err)
  | 0, _ => .diverge
  | fuel + 1, t =>
    if t = Ty.bool then last .bool                                      -- skip.go:8-9
    else if t = Ty.byte then last .byte                                 -- skip.go:10-11
    else if t = Ty.double then last .double                             -- skip.go:12-13
    else if t = Ty.i16 then last .i16                                   -- skip.go:14-15
    else if t = Ty.i32 then last .i32                                   -- skip.go:16-17
    else if t = Ty.i64 then last .i64                                   -- skip.go:18-19
    else if t = Ty.string then last .skipString                         -- skip.go:20-21
    else if t = Ty.struct then                                          -- skip.go:22-41
      try' .structBegin fun _ => skipFields fuel
    else if t = Ty.map then                                             -- skip.go:42-55
      try' .mapBegin fun h =>
        loop (loopCount h.size) ((skip fuel h.key).andThen (skip fuel h.value)) (last .mapEnd)
    else if t = Ty.set then                                             -- skip.go:56-66
      try' .setBegin fun h => loop (loopCount h.size) (skip fuel h.element) (last .setEnd)
    else if t = Ty.list then                                            -- skip.go:67-77
      try' .listBegin fun h => loop (loopCount h.size) (skip fuel h.element) (last .listEnd)
    else if t = Ty.uuid then last .skipUUID                             -- skip.go:78-79
    else .ret (some (.invalidType t))                                   -- skip.go:6-7
/-- The field loop of `Skip` (encoding/thriftwire/skip.go:26-41). -/
def skipFields : Nat → RProg (Option Err)
  | 0 => .diverge
  | fuel + 1 =>
    try' .fieldBegin fun h =>
      if h.type = Ty.stop then last .structEnd
      else (skip fuel h.type).andThen (try' .fieldEnd fun _ => skipFields fuel)
end

/-- A program using a `thriftwire.Writer`; the result is the returned error. -/
inductive WProg : Type where
  | ret (e : Option Err)
  | diverge
  | panic
  | call (o : WOp) (k : Option Err → WProg)

namespace WProg

/-- `if err := p; err != nil { return err }; q` -/
def andThen : WProg → WProg → WProg
  | ret none, q => q
  | ret (some e), _ => ret (some e)
  | diverge, _ => diverge
  | panic, _ => panic
  | call o k, q => call o fun r => (k r).andThen q

/-- A fixed sequence of calls, stopped by the first error: `if err := w.Op1(); err != nil { return err }; ...; return nil`. -/
def ofCalls : List WOp → WProg
  | [] => ret none
  | o :: os => call o fun r => match r with
    | none => ofCalls os
    | some e => ret (some e)

end WProg

/-- A writer implementation. -/
structure Wtr (S : Type) where
  step : WOp → S → Out (Option Err × S)

/-- Run a program against a writer implementation. -/
def WProg.run {S : Type} (w : Wtr S) : WProg → S → Out (Option Err × S)
  | .ret e, s => .done (e, s)
  | .diverge, _ => .diverged
  | .panic, _ => .panicked
  | .call o k, s => (w.step o s).bind fun x => (k x.1).run w x.2

end GoThrift
