import Verif.Model.Basic

/-!
# Programs that write bytes

Code of the repository that uses a `*bufio.Writer` is modelled as a tree of the calls it makes on it.
A tree can be run on an ideal sink (this file) or on the `bufio.Writer` algorithm over a
transport that may fail (`Verif/Model/BufWriter.lean`).
-/

namespace GoThrift

/-- Which `bufio.Writer` method performs a write. -/
inductive WKind where
  /-- `Write([]byte)` -/
  | bytes
  /-- `WriteString(string)` -/
  | string
  /-- `WriteByte(byte)` -/
  | byte
  deriving DecidableEq, Repr

/-- A program making calls on a `*bufio.Writer`. `write` is answered by the returned error (the count is ignored by every
caller in the repository). `ensure n` is `if Available() >= n { nil } else { Flush() }`
(encoding/thriftcompact/thriftcompact.go:554-559), the only use of `Available`. -/
inductive BWProg (α : Type) : Type where
  | ret (a : α)
  | write (kind : WKind) (b : Bytes) (k : Option Err → BWProg α)
  | ensure (n : Nat) (k : Option Err → BWProg α)

namespace BWProg

/-- Sequential composition. -/
def bind {α β : Type} : BWProg α → (α → BWProg β) → BWProg β
  | ret a, f => f a
  | write kind b k, f => write kind b fun e => (k e).bind f
  | ensure n k, f => ensure n fun e => (k e).bind f

@[simp] theorem ret_bind {α β : Type} (a : α) (f : α → BWProg β) : (ret a).bind f = f a := rfl
@[simp] theorem write_bind {α β : Type} (kind : WKind) (b : Bytes) (k : Option Err → BWProg α) (f : α → BWProg β) :
    (write kind b k).bind f = write kind b fun e => (k e).bind f := rfl
@[simp] theorem ensure_bind {α β : Type} (n : Nat) (k : Option Err → BWProg α) (f : α → BWProg β) :
    (ensure n k).bind f = ensure n fun e => (k e).bind f := rfl

/-- Run on a sink that accepts everything: the result and the bytes written. -/
def ideal {α : Type} : BWProg α → α × Bytes
  | ret a => (a, [])
  | write _ b k => let r := (k none).ideal; (r.1, b ++ r.2)
  | ensure _ k => (k none).ideal

theorem ideal_bind {α β : Type} (m : BWProg α) (f : α → BWProg β) :
    (m.bind f).ideal = ((f m.ideal.1).ideal.1, m.ideal.2 ++ (f m.ideal.1).ideal.2) := by
  induction m with
  | ret a => simp [bind, ideal]
  | write kind b k ih => simp [bind, ideal, ih]
  | ensure n k ih => simp [bind, ideal, ih]

end BWProg

/-- Methods of a protocol writer: they use the writer's own fields (state `C`) and make calls on its `*bufio.Writer`. -/
def WM (C α : Type) := C → BWProg (Except Err α × C)

namespace WM

/-- `return nil` -/
def ok {C α : Type} (a : α) : WM C α := fun c => .ret (.ok a, c)

/-- `return err` -/
def fail {C α : Type} (e : Err) : WM C α := fun c => .ret (.error e, c)

/-- `if err := m; err != nil { return err }; ...` -/
def bind {C α β : Type} (m : WM C α) (f : α → WM C β) : WM C β := fun c =>
  (m c).bind fun r => match r with
    | (.ok a, c') => f a c'
    | (.error e, c') => .ret (.error e, c')

instance {C : Type} : Monad (WM C) where
  pure := ok
  bind := bind

/-- Read the fields. -/
def get {C : Type} : WM C C := fun c => .ret (.ok c, c)

/-- Write the fields. -/
def set {C : Type} (c : C) : WM C Unit := fun _ => .ret (.ok (), c)

/-- An optional error as a result. -/
def res {C : Type} (e : Option Err) (c : C) : BWProg (Except Err Unit × C) :=
  match e with
  | none => .ret (.ok (), c)
  | some e => .ret (.error e, c)

/-- `_, err := x.Write(b); if err != nil { return err }` (or WriteString/WriteByte) -/
def write {C : Type} (kind : WKind) (b : Bytes) : WM C Unit := fun c => .write kind b fun e => res e c

/-- `if err := x.ensureAvailable(n); err != nil { return err }` -/
def ensure {C : Type} (n : Nat) : WM C Unit := fun c => .ensure n fun e => res e c

/-- Return a computed result or error. -/
def ofExcept {C α : Type} (r : Except Err α) : WM C α := fun c => .ret (r, c)

/-- Run on a sink that accepts everything. -/
def ideal {C α : Type} (m : WM C α) (c : C) : (Except Err α × C) × Bytes := (m c).ideal

@[simp] theorem pure_eq {C α : Type} (a : α) : (pure a : WM C α) = ok a := rfl
@[simp] theorem bind_eq {C α β : Type} (m : WM C α) (f : α → WM C β) : (m >>= f) = m.bind f := rfl
@[simp] theorem ideal_ok {C α : Type} (a : α) (c : C) : (ok a : WM C α).ideal c = ((.ok a, c), []) := rfl
@[simp] theorem ideal_fail {C α : Type} (e : Err) (c : C) : (fail e : WM C α).ideal c = ((.error e, c), []) := rfl
@[simp] theorem ideal_get {C : Type} (c : C) : (get : WM C C).ideal c = ((.ok c, c), []) := rfl
@[simp] theorem ideal_set {C : Type} (c' c : C) : (set c' : WM C Unit).ideal c = ((.ok (), c'), []) := rfl
@[simp] theorem ideal_write {C : Type} (kind : WKind) (b : Bytes) (c : C) :
    (write kind b : WM C Unit).ideal c = ((.ok (), c), b) := by
  simp [ideal, write, BWProg.ideal, res]
@[simp] theorem ideal_ensure {C : Type} (n : Nat) (c : C) :
    (ensure n : WM C Unit).ideal c = ((.ok (), c), []) := rfl
@[simp] theorem ideal_ofExcept {C α : Type} (r : Except Err α) (c : C) :
    (ofExcept r : WM C α).ideal c = ((r, c), []) := rfl

theorem ideal_bind {C α β : Type} (m : WM C α) (f : α → WM C β) (c : C) :
    (m.bind f).ideal c = match m.ideal c with
      | ((.ok a, c'), b) => (((f a).ideal c').1, b ++ ((f a).ideal c').2)
      | ((.error e, c'), b) => ((.error e, c'), b) := by
  simp only [ideal, bind, BWProg.ideal_bind]
  rcases h : (m c).ideal with ⟨⟨(_ | _), _⟩, _⟩ <;> simp [BWProg.ideal]

end WM

/-- The error a method returns. -/
def errOf {α : Type} : Except Err α → Option Err
  | .ok _ => none
  | .error e => some e

end GoThrift
