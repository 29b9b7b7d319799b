import Verif.Model.Share
import Verif.Spec.Arshal
import Verif.Spec.GoValue
import Verif.Spec.Same
import Verif.Spec.Feed

/-!
# What a program with shared readers is expected to see
-/

namespace GoThrift.Share

/-- The lists have equal lengths and related elements at equal places. -/
inductive Each {α β : Type} (R : α → β → Prop) : List α → List β → Prop where
  | nil : Each R [] []
  | cons {a b as bs} : R a b → Each R as bs → Each R (a :: as) (b :: bs)

/-- A protocol reader on a plain stream: the number of the stream, and its own fields. -/
structure SRd where
  src : Nat
  st : PState

/-- Plain streams, one for each transport; the number of those in use; the streams of the caller's `*bufio.Reader`s; the protocol readers made from one of these, and those made from a transport. -/
structure Streams where
  fs : Nat → Flat
  used : Nat
  bs : List Nat
  rs : List SRd
  os : List SRd

/-- The method of a protocol reader on a plain stream. -/
def PState.step (st : PState) (o : ROp) (f : Flat) : Out ((Except Err o.Ans × PState) × Flat) :=
  match st with
  | .binary strict => ((Binary.reader strict).step o ((), f)).bind fun r => .done ((r.1, .binary strict), r.2.2)
  | .compact c => (Compact.reader.step o (c, f)).bind fun r => .done ((r.1, .compact r.2.1), r.2.2)

/-- The protocol it reads. -/
def PState.proto : PState → Proto
  | .binary strict => .binary strict
  | .compact _ => .compact

/-- Every call takes from its stream what it returns and nothing else; making or resetting a protocol reader takes nothing, and one that is reset is like a new one. -/
def Client.ideal {α : Type} : Client α → Streams → Out (α × Streams)
  | .ret a, w => .done (a, w)
  | .diverge, _ => .diverged
  | .panic, _ => .panicked
  | .openBuf n k, w => k.ideal ⟨upd w.fs w.used ⟨4096 + n, (w.fs w.used).bytes, (w.fs w.used).fin⟩, w.used + 1, w.bs ++ [w.used], w.rs, w.os⟩
  | .new p j k, w => match w.bs[j]? with
    | none => .panicked
    | some s => k.ideal ⟨w.fs, w.used, w.bs, w.rs ++ [⟨s, p.start⟩], w.os⟩
  | .reset i k, w => match w.rs[i]? with
    | none => .panicked
    | some x => k.ideal ⟨w.fs, w.used, w.bs, w.rs.set i ⟨x.src, x.st.proto.start⟩, w.os⟩
  | .call i o k, w => match w.rs[i]? with
    | none => .panicked
    | some x => (x.st.step o (w.fs x.src)).bind fun r => (k r.1.1).ideal ⟨upd w.fs x.src r.2, w.used, w.bs, w.rs.set i ⟨x.src, r.1.2⟩, w.os⟩
  | .openOwn p k, w => k.ideal ⟨w.fs, w.used + 1, w.bs, w.rs, w.os ++ [⟨w.used, p.start⟩]⟩
  | .resetOwn i k, w => match w.os[i]? with
    | none => .panicked
    | some x => k.ideal ⟨w.fs, w.used + 1, w.bs, w.rs, w.os.set i ⟨w.used, x.st.proto.start⟩⟩
  | .callOwn i o k, w => match w.os[i]? with
    | none => .panicked
    | some x => (x.st.step o (w.fs x.src)).bind fun r => (k r.1.1).ideal ⟨upd w.fs x.src r.2, w.used, w.bs, w.rs, w.os.set i ⟨x.src, r.1.2⟩⟩
  | .peek j n k, w => match w.bs[j]? with
    | none => .panicked
    | some s => ((w.fs s).peek n).bind fun r => (k r.1 r.2).ideal w
  | .discard j n k, w => match w.bs[j]? with
    | none => .panicked
    | some s => ((w.fs s).discard n).bind fun r => (k r.1).ideal ⟨upd w.fs s r.2, w.used, w.bs, w.rs, w.os⟩
  | .readByte j k, w => match w.bs[j]? with
    | none => .panicked
    | some s => (w.fs s).readByte.bind fun r => (k r.1).ideal ⟨upd w.fs s r.2, w.used, w.bs, w.rs, w.os⟩
  | .readFull j n k, w => match w.bs[j]? with
    | none => .panicked
    | some s => ((w.fs s).readFull n).bind fun r => (k r.1.1 r.1.2).ideal ⟨upd w.fs s r.2, w.used, w.bs, w.rs, w.os⟩

/-- The streams of the transports, before anything has been read. -/
def Streams.start {ρ : Type} {rd : ReadFn ρ} (C : rd.Contract) (raws : Nat → ρ) : Streams := ⟨fun i => ⟨4096, C.left (raws i), C.fin (raws i)⟩, 0, [], [], []⟩

/-- What has not been read yet of the `*bufio.Reader` at `a`: what is in its buffer and what its transport still has. -/
def unread {ρ : Type} {rd : ReadFn ρ} (C : rd.Contract) (h : Heap ρ) (a : Nat) : Bytes :=
  match (h.bufs a).src with
  | .raw i => (h.bufs a).unread ++ C.left (h.raws i)
  | .buf _ => []

/-- The same readers, each with as much unread as its stream has left. -/
structure Agree {ρ : Type} {rd : ReadFn ρ} (C : rd.Contract) (w : World ρ) (v : Streams) : Prop where
  used : w.used = v.used
  bs : Each (fun a s => unread C w.heap a = (v.fs s).bytes) w.bs v.bs
  rs : Each (fun x y => x.st = y.st ∧ unread C w.heap x.buf = (v.fs y.src).bytes) w.rs v.rs
  os : Each (fun x y => x.st = y.st ∧ unread C w.heap x.buf = (v.fs y.src).bytes) w.os v.os

/-- Give the `i`-th protocol reader made from a `*bufio.Reader` to code that works with a Reader, such as Unmarshal. -/
def Client.prog {α β : Type} (i : Nat) : RProg β → (β → Client α) → Client α
  | .ret b, k => k b
  | .diverge, _ => .diverge
  | .panic, _ => .panic
  | .call o c, k => .call i o fun a => Client.prog i (c a) k

/-! ## Streams of mixed content -/

open Spec

/-- Something in a stream: a Go value in one of the protocols, of the type that `ptr` points to, or plain bytes. -/
inductive Seg where
  | value (p : Proto) (x : AnyVal) (t ptr : TypeId) (v : GoVal)
  | bytes (b : Bytes)

/-- What the caller gets when it reads it. -/
inductive Got where
  | value (x : AnyVal) (e : Option Err)
  | bytes (b : Bytes) (e : Option Err)

/-- `out` is what Marshal writes for it (hypotheses as in C01 and C02). -/
def Seg.Writes (env : Env) : Seg → Bytes → Prop
  | .value (.binary strict) x t ptr v, out => Passes env x t v ∧ (env.type ptr).kind = .ptr t ∧ HasType env t v ∧ SizesAtMost env (2 ^ 31 - 1) t v ∧
    KeysSurvive env t v ∧ (∀ t', Within env t' t → DistinctIds env t') ∧ MarshalReturns env (Binary.writer strict) x ((), []) none ((), out)
  | .value .compact x t ptr v, out => Passes env x t v ∧ (env.type ptr).kind = .ptr t ∧ HasType env t v ∧ SizesAtMost env (2 ^ 63 - 1) t v ∧
    KeysSurvive env t v ∧ (∀ t', Within env t' t → DistinctIds env t') ∧ ∃ c', MarshalReturns env Compact.writer x ({}, []) none (c', out)
  | .bytes b, out => out = b

/-- What the caller should get. -/
def Seg.Returns (env : Env) : Seg → Got → Prop
  | .value _ _ t ptr v, g => ∃ v', g = .value (.val ptr (.ptr v')) none ∧ RoundTrip env t v v'
  | .bytes b, g => g = .bytes b none

/-- Read the things one after the other from the first `*bufio.Reader`: a value with a protocol reader made for it (the `i`-th) and Unmarshal into a zero value, bytes with io.ReadFull. -/
def readAll (env : Env) (fuel : Nat) : List Seg → Nat → List Got → Client (List Got)
  | [], _, acc => .ret acc
  | .value p _ t ptr _ :: segs, i, acc =>
    .new p 0 (.prog i (Unmarshal env fuel (.val ptr (.ptr (env.zero t)))) fun r => readAll env fuel segs (i + 1) (acc ++ [.value r.1 r.2]))
  | .bytes b :: segs, i, acc => .readFull 0 b.length fun p e => readAll env fuel segs i (acc ++ [.bytes p e])

end GoThrift.Share
