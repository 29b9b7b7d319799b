import Verif.Model.ShareW
import Verif.Spec.Share

/-!
# What writers that share a `bufio.Writer` are expected to deliver
-/

namespace GoThrift.Share

open Spec

/-- One list of bytes, and the protocol writers that append to it. -/
structure Sink where
  out : Bytes
  ws : List WState

/-- A method of a protocol writer: its answer, its fields afterwards, and the bytes. -/
def WState.step (st : WState) (o : WOp) : Option Err × WState × Bytes :=
  match st with
  | .binary strict => let r := (Binary.wimpl strict o).ideal (); (errOf r.1.1, .binary strict, r.2)
  | .compact c => let r := (Compact.wimpl o).ideal c; (errOf r.1.1, .compact r.1.2, r.2)

/-- The protocol it writes. -/
def WState.proto : WState → Proto
  | .binary strict => .binary strict
  | .compact _ => .compact

/-- The action on the list: everything is appended at once, flushing does nothing, and a writer that is reset is like a new one. -/
def Sink.step (v : Sink) : WAct → Option Err × Sink
  | .new p => (none, ⟨v.out, v.ws ++ [p.startW]⟩)
  | .op i o =>
    match v.ws[i]? with
    | none => (none, v)
    | some st => let r := st.step o; (r.1, ⟨v.out ++ r.2.2, v.ws.set i r.2.1⟩)
  | .flush _ => (none, v)
  | .reset i =>
    match v.ws[i]? with
    | none => (none, v)
    | some st => (none, ⟨v.out, v.ws.set i st.proto.startW⟩)
  | .write _ p => (none, ⟨v.out ++ p, v.ws⟩)
  | .flushOwn => (none, v)

/-- Some actions. -/
def Sink.run (v : Sink) : List WAct → List (Option Err) × Sink
  | [] => ([], v)
  | a :: as => let r := v.step a; let q := r.2.run as; (r.1 :: q.1, q.2)

/-- The action writes (or would write) bytes. -/
def Sink.Writes (v : Sink) (a : WAct) : Prop := (v.step a).2.out ≠ v.out

/-- The action flushes: the caller's Flush, or that of a protocol writer which exists. -/
def WWorld.Flushes {σ : Type} (w : WWorld σ) : WAct → Prop
  | .flushOwn => True
  | .flush i => i < w.ws.length
  | _ => False

/-- The answers to the actions that do not flush. -/
def plainAnswers : List WAct → List (Option Err) → List (Option Err)
  | .flush _ :: as, _ :: es => plainAnswers as es
  | .flushOwn :: as, _ :: es => plainAnswers as es
  | _ :: as, e :: es => e :: plainAnswers as es
  | _, _ => []

/-- Write the things one after the other: a value with a protocol writer made for it and Marshal, bytes with Write; stop at the first error. -/
def writeAll {σ : Type} (T : Transport σ) (env : Env) (fuel : Nat) : List Seg → WWorld σ → Out (Option Err × WWorld σ)
  | [], w => .done (none, w)
  | .value p x _ _ _ :: segs, w =>
    (w.step T (.new p)).bind fun r => ((Marshal env fuel x).run (sharedWriter T w.ws.length) r.2).bind fun q =>
      match q.1 with
      | some e => .done (some e, q.2)
      | none => writeAll T env fuel segs q.2
  | .bytes b :: segs, w => (w.step T (.write .bytes b)).bind fun q =>
      match q.1 with
      | some e => .done (some e, q.2)
      | none => writeAll T env fuel segs q.2

end GoThrift.Share
