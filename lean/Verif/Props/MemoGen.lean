import Verif.Proof.ZMemo
import Verif.Proof.MemoGen
import Verif.Proof.MemoAny

/-!
# C93: the generator of zmemo.go
-/

namespace GoThrift

open MemoGen

/-- C93: what the generator writes for the interfaces as they are is the file zmemo.go, up to spaces, tabs and ends of lines. -/
theorem C93_text : ∃ t, generate readerSigs writerSigs = some t ∧ squeeze t = zmemo.flatMap squeeze := by
  have h := generate_same
  cases hg : generate readerSigs writerSigs with
  | none => rw [hg] at h; cases h
  | some t => rw [hg] at h; exact ⟨t, rfl, by simpa using h⟩

/-- The interfaces are in the order of their names, as reflection has them, and no name occurs twice. -/
example : (readerSigs.map fun s => String.ofList s.name).Pairwise (· < ·) ∧ (writerSigs.map fun s => String.ofList s.name).Pairwise (· < ·) := by decide +kernel

/-- C93: at every Memo, each generated method of the Reader does what the Reader of a Memo does. -/
theorem C93_reader (o : ROp) (m : Memo) : callR readerSigs o.method m = (Memo.reader.step o m).bind fun x => .done (x.1.map o.returned, x.2) := reader_all o m

/-- There is a value to be read. -/
example : callR readerSigs ROp.i16.method { steps := ["I16"], values := [[.i16 7]] } = .done (.ok [.i16 7], { r := 1, steps := ["I16", "I16"], values := [[.i16 7]] }) := by rw [C93_reader]; rfl

/-- C93: at every Memo, each generated method of the Writer does what the Writer of a Memo does. -/
theorem C93_writer (o : WOp) (m : Memo) : callW writerSigs o.method o.args m = Memo.writer.step o m := writer_all o m

/-- The breakpoint is met between the two steps of WriteStructEnd. -/
example : callW writerSigs WOp.structEnd.method [] { breakpoint := 2 } = .done (some .brk, { breakpoint := 2, w := 1, steps := ["FieldBegin"], values := [[.fieldHeader ⟨[], Ty.stop, 0⟩]] }) := by decide +kernel

/-- C93: the generator panics for just those interfaces that have a method to read, skip or write whose last result is not an error, or a method to skip something else than a string or a UUID. -/
theorem C93_panics (r w : List Sig) : generate r w = none ↔
    (∃ m ∈ r, ((∃ s, m.name = c! "Read" ++ s) ∨ (∃ s, m.name = c! "Skip" ++ s)) ∧ m.outs.getLast? ≠ some (c! "error") ∨ (∃ s, m.name = c! "Skip" ++ s) ∧ m.name ≠ c! "SkipString" ∧ m.name ≠ c! "SkipUUID") ∨
    ∃ m ∈ w, (∃ s, m.name = c! "Write" ++ s) ∧ m.outs.getLast? ≠ some (c! "error") := by
  rw [generate_none]
  simp only [readerBody_none, writerBody_none]

/-- It panics for a method to skip a struct, and for a method that returns nothing. -/
example : generate [⟨c! "SkipStruct", [], [c! "error"]⟩] [] = none ∧ generate [] [⟨c! "WriteBool", [c! "bool"], []⟩] = none := by decide +kernel

/-- C93: for all interfaces, also with methods that are not there yet and that have several parameters or none: what the generated Writer is given, the generated Reader returns, in any number of calls in any order. -/
theorem C93_any (r w : List Sig) (hr : (r.map Sig.name).Nodup) (hw : (w.map Sig.name).Nodup) (cs : List Call) (h : ∀ c ∈ cs, c.Ok ∧ c.writer ∈ w ∧ c.reader ∈ r) :
    ∃ m m', writeAll w cs {} = .done (none, m) ∧ m.Steps = cs.map (fun c => String.ofList c.step) ∧ readAll r cs m = .done (.ok (cs.map Call.vals), m') := by
  have h1 := writeAll_free hw cs {} (fun c hc => ⟨(h c hc).1, (h c hc).2.1⟩) rfl
  obtain ⟨m', h2⟩ := readAll_free hr cs { w := 0 + cs.length, steps := [] ++ cs.map (fun c => String.ofList c.step), values := [] ++ cs.map Call.vals } [] [] [] (fun c hc => ⟨(h c hc).1, (h c hc).2.2⟩) rfl (by simp) rfl rfl rfl
  exact ⟨_, m', h1, by simp [Memo.Steps], h2⟩

/-- A method with two parameters, twice, and one without. -/
example : let d (v : BitVec 64) (n : BitVec 8) : Call := ⟨c! "Decimal", [c! "int64", c! "uint8"], [.i64 v, .byte n]⟩
    let e : Call := ⟨c! "DecimalEnd", [], []⟩
    (∀ c ∈ [d 5 2, e, d 7 0], c.Ok ∧ c.writer ∈ [(d 0 0).writer, e.writer] ∧ c.reader ∈ [(d 0 0).reader, e.reader]) ∧ ([(d 0 0).writer, e.writer].map Sig.name).Nodup ∧ ([(d 0 0).reader, e.reader].map Sig.name).Nodup := by
  simp only [Call.Ok]
  decide +kernel

end GoThrift
