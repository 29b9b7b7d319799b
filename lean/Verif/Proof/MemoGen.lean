import Verif.Spec.MemoGen

/-!
# The generated methods and the Memo
-/

namespace GoThrift.MemoGen

/-! ## The present interfaces -/

theorem callR_eq {name : Text} {s : Sig} {b : List Stmt} (h : find readerBody readerSigs name = some (s, b)) (m : Memo) : callR readerSigs name m = execR s b [] [] m := by
  simp only [callR, h]

theorem callW_eq {name : Text} {s : Sig} {b : List Stmt} (h : find writerBody writerSigs name = some (s, b)) (ins : List MVal) (m : Memo) : callW writerSigs name ins m = execW ins b m := by
  simp only [callW, h]

/-- A method that returns one value. -/
theorem read1_eq {α : Type} (s : Sig) (step : Text) (a : Arg) (tmp t : Text) (as : MVal → Option α) (ret : α → List MVal) (m : Memo)
    (ht : a.target s tmp = some t) (has : ∀ v, (t = typeOf v → ∃ x, as v = some x ∧ ret x = if a = .tmp then [] else [v]) ∧ (t ≠ typeOf v → as v = none)) :
    execR s [.read step [a], .ret] tmp [] m = (m.read1 (String.ofList step) as).bind fun x => .done (x.1.map ret, x.2) := by
  unfold Memo.read1
  simp only [execR]
  cases hc : m.check (String.ofList step) with
  | panicked => rfl
  | done m' =>
    simp only [Out.bind, assign]
    cases hv : m'.values[m'.r - 1]? with
    | none => rfl
    | some vs =>
      cases vs with
      | nil => rfl
      | cons v vs =>
        simp only [Option.bind_some, List.getElem?_cons_zero, ht, Option.some.injEq]
        by_cases he : t = typeOf v
        · obtain ⟨x, hx, hr⟩ := (has v).1 he
          simp only [if_pos he, hx, List.nil_append, Except.map, hr]
        · simp only [if_neg he, (has v).2 he]
  | _ => simp [Memo.check] at hc; split at hc <;> (try split at hc) <;> cases hc

theorem read0_eq (s : Sig) (step : Text) (tmp : Text) (ret : Unit → List MVal) (m : Memo) (h : ret () = []) :
    execR s [.read step [], .ret] tmp [] m = (m.read0 (String.ofList step)).bind fun x => .done (x.1.map ret, x.2) := by
  unfold Memo.read0
  simp only [execR, assign]
  cases hc : m.check (String.ofList step) <;> simp [Out.bind, Except.map, h]

theorem reader_eq (o : ROp) {s : Sig} {k : Nat} {b : List Stmt} (h : find readerBody readerSigs o.method = some (s, .advance k :: b))
    (hb : ∀ m : Memo, execR s b [] [] m = (m.readStep o).bind fun x => .done (x.1.map o.returned, x.2)) (m : Memo) :
    callR readerSigs o.method m = (Memo.reader.step o m).bind fun x => .done (x.1.map o.returned, x.2) := by
  rw [callR_eq h]
  simp only [execR, Memo.reader]
  cases m.advanceR with
  | none => rfl
  | some m => exact hb m

/-- Ready to be applied: each of the conditions is decided. -/
theorem reader1 (o : ROp) {s : Sig} {k : Nat} {step : Text} {a : Arg} (t : Text) (as : MVal → Option o.Ans)
    (h : find readerBody readerSigs o.method = some (s, [.advance k, .read step [a], .ret])) (hs : ∀ m : Memo, m.readStep o = m.read1 (String.ofList step) as)
    (ht : a.target s [] = some t) (has : ∀ v, (t = typeOf v → ∃ x, as v = some x ∧ o.returned x = if a = .tmp then [] else [v]) ∧ (t ≠ typeOf v → as v = none)) (m : Memo) :
    callR readerSigs o.method m = (Memo.reader.step o m).bind fun x => .done (x.1.map o.returned, x.2) :=
  reader_eq o h (fun m => by rw [hs m]; exact read1_eq s step a [] t as o.returned m ht has) m

theorem reader_all (o : ROp) (m : Memo) : callR readerSigs o.method m = (Memo.reader.step o m).bind fun x => .done (x.1.map o.returned, x.2) := by
  cases o with
  | bool =>
    refine reader1 .bool (step := c! "Bool") (a := .out 0) (k := 1) (s := ⟨c! "ReadBool", [], [c! "bool", c! "error"]⟩) (c! "bool") (fun | .bool v => some v | _ => none) (by decide +kernel) (fun _ => rfl) (by decide) ?_ m
    intro v
    cases v <;> simp [typeOf, ROp.returned]
  | byte =>
    refine reader1 .byte (step := c! "Byte") (a := .out 0) (k := 1) (s := ⟨c! "ReadByte", [], [c! "uint8", c! "error"]⟩) (c! "byte") (fun | .byte v => some v | _ => none) (by decide +kernel) (fun _ => rfl) (by decide) ?_ m
    intro v
    cases v <;> simp [typeOf, ROp.returned]
  | double =>
    refine reader1 .double (step := c! "Double") (a := .out 0) (k := 1) (s := ⟨c! "ReadDouble", [], [c! "float64", c! "error"]⟩) (c! "float64") (fun | .double v => some v | _ => none) (by decide +kernel) (fun _ => rfl) (by decide) ?_ m
    intro v
    cases v <;> simp [typeOf, ROp.returned]
  | fieldBegin =>
    refine reader1 .fieldBegin (step := c! "FieldBegin") (a := .out 0) (k := 1) (s := ⟨c! "ReadFieldBegin", [], [c! "thriftwire.FieldHeader", c! "error"]⟩) (c! "thriftwire.FieldHeader") (fun | .fieldHeader v => some v | _ => none) (by decide +kernel) (fun _ => rfl) (by decide) ?_ m
    intro v
    cases v <;> simp [typeOf, ROp.returned]
  | i16 =>
    refine reader1 .i16 (step := c! "I16") (a := .out 0) (k := 1) (s := ⟨c! "ReadI16", [], [c! "int16", c! "error"]⟩) (c! "int16") (fun | .i16 v => some v | _ => none) (by decide +kernel) (fun _ => rfl) (by decide) ?_ m
    intro v
    cases v <;> simp [typeOf, ROp.returned]
  | i32 =>
    refine reader1 .i32 (step := c! "I32") (a := .out 0) (k := 1) (s := ⟨c! "ReadI32", [], [c! "int32", c! "error"]⟩) (c! "int32") (fun | .i32 v => some v | _ => none) (by decide +kernel) (fun _ => rfl) (by decide) ?_ m
    intro v
    cases v <;> simp [typeOf, ROp.returned]
  | i64 =>
    refine reader1 .i64 (step := c! "I64") (a := .out 0) (k := 1) (s := ⟨c! "ReadI64", [], [c! "int64", c! "error"]⟩) (c! "int64") (fun | .i64 v => some v | _ => none) (by decide +kernel) (fun _ => rfl) (by decide) ?_ m
    intro v
    cases v <;> simp [typeOf, ROp.returned]
  | listBegin =>
    refine reader1 .listBegin (step := c! "ListBegin") (a := .out 0) (k := 1) (s := ⟨c! "ReadListBegin", [], [c! "thriftwire.ListHeader", c! "error"]⟩) (c! "thriftwire.ListHeader") (fun | .listHeader v => some v | _ => none) (by decide +kernel) (fun _ => rfl) (by decide) ?_ m
    intro v
    cases v <;> simp [typeOf, ROp.returned]
  | mapBegin =>
    refine reader1 .mapBegin (step := c! "MapBegin") (a := .out 0) (k := 1) (s := ⟨c! "ReadMapBegin", [], [c! "thriftwire.MapHeader", c! "error"]⟩) (c! "thriftwire.MapHeader") (fun | .mapHeader v => some v | _ => none) (by decide +kernel) (fun _ => rfl) (by decide) ?_ m
    intro v
    cases v <;> simp [typeOf, ROp.returned]
  | messageBegin =>
    refine reader1 .messageBegin (step := c! "MessageBegin") (a := .out 0) (k := 1) (s := ⟨c! "ReadMessageBegin", [], [c! "thriftwire.MessageHeader", c! "error"]⟩) (c! "thriftwire.MessageHeader") (fun | .messageHeader v => some v | _ => none) (by decide +kernel) (fun _ => rfl) (by decide) ?_ m
    intro v
    cases v <;> simp [typeOf, ROp.returned]
  | setBegin =>
    refine reader1 .setBegin (step := c! "SetBegin") (a := .out 0) (k := 1) (s := ⟨c! "ReadSetBegin", [], [c! "thriftwire.SetHeader", c! "error"]⟩) (c! "thriftwire.SetHeader") (fun | .setHeader v => some v | _ => none) (by decide +kernel) (fun _ => rfl) (by decide) ?_ m
    intro v
    cases v <;> simp [typeOf, ROp.returned]
  | string =>
    refine reader1 .string (step := c! "String") (a := .out 0) (k := 1) (s := ⟨c! "ReadString", [], [c! "string", c! "error"]⟩) (c! "string") (fun | .string v => some v | _ => none) (by decide +kernel) (fun _ => rfl) (by decide) ?_ m
    intro v
    cases v <;> simp [typeOf, ROp.returned]
  | structBegin =>
    refine reader1 .structBegin (step := c! "StructBegin") (a := .out 0) (k := 1) (s := ⟨c! "ReadStructBegin", [], [c! "thriftwire.StructHeader", c! "error"]⟩) (c! "thriftwire.StructHeader") (fun | .structHeader v => some v | _ => none) (by decide +kernel) (fun _ => rfl) (by decide) ?_ m
    intro v
    cases v <;> simp [typeOf, ROp.returned]
  | bytes buf =>
    refine reader1 (.bytes buf) (step := c! "Bytes") (a := .out 0) (k := 1) (s := ⟨c! "ReadBytes", [c! "[]uint8"], [c! "[]uint8", c! "error"]⟩) (c! "[]byte") (fun | .bytes v => some v | _ => none) (show find readerBody readerSigs (c! "ReadBytes") = _ by decide +kernel) (fun _ => rfl) (by decide) ?_ m
    intro v
    cases v <;> simp [typeOf, ROp.returned]
  | uuid =>
    refine reader1 .uuid (step := c! "UUID") (a := .param 0) (k := 0) (s := ⟨c! "ReadUUID", [c! "*[16]uint8"], [c! "error"]⟩) (c! "[16]byte") (fun | .uuid v => some v | _ => none) (by decide +kernel) (fun _ => rfl) (by decide) ?_ m
    intro v
    cases v <;> simp [typeOf, ROp.returned]
  | skipString =>
    refine reader_eq .skipString (b := [.var (c! "string"), .read (c! "String") [.tmp], .ret]) (k := 0) (s := ⟨c! "SkipString", [], [c! "error"]⟩) (by decide +kernel) (fun m => ?_) m
    refine read1_eq _ (c! "String") .tmp (c! "string") (c! "string") (fun | .string _ => some () | _ => none) (ROp.returned .skipString) m rfl ?_
    intro v
    cases v <;> simp [typeOf, ROp.returned]
  | skipUUID =>
    refine reader_eq .skipUUID (b := [.var (c! "[16]byte"), .read (c! "UUID") [.tmp], .ret]) (k := 0) (s := ⟨c! "SkipUUID", [], [c! "error"]⟩) (by decide +kernel) (fun m => ?_) m
    refine read1_eq _ (c! "UUID") .tmp (c! "[16]byte") (c! "[16]byte") (fun | .uuid _ => some () | _ => none) (ROp.returned .skipUUID) m rfl ?_
    intro v
    cases v <;> simp [typeOf, ROp.returned]
  | fieldEnd => exact reader_eq .fieldEnd (b := [.read (c! "FieldEnd") [], .ret]) (k := 0) (s := ⟨c! "ReadFieldEnd", [], [c! "error"]⟩) (by decide +kernel) (fun m => read0_eq _ (c! "FieldEnd") [] (ROp.returned .fieldEnd) m rfl) m
  | listEnd => exact reader_eq .listEnd (b := [.read (c! "ListEnd") [], .ret]) (k := 0) (s := ⟨c! "ReadListEnd", [], [c! "error"]⟩) (by decide +kernel) (fun m => read0_eq _ (c! "ListEnd") [] (ROp.returned .listEnd) m rfl) m
  | mapEnd => exact reader_eq .mapEnd (b := [.read (c! "MapEnd") [], .ret]) (k := 0) (s := ⟨c! "ReadMapEnd", [], [c! "error"]⟩) (by decide +kernel) (fun m => read0_eq _ (c! "MapEnd") [] (ROp.returned .mapEnd) m rfl) m
  | messageEnd => exact reader_eq .messageEnd (b := [.read (c! "MessageEnd") [], .ret]) (k := 0) (s := ⟨c! "ReadMessageEnd", [], [c! "error"]⟩) (by decide +kernel) (fun m => read0_eq _ (c! "MessageEnd") [] (ROp.returned .messageEnd) m rfl) m
  | setEnd => exact reader_eq .setEnd (b := [.read (c! "SetEnd") [], .ret]) (k := 0) (s := ⟨c! "ReadSetEnd", [], [c! "error"]⟩) (by decide +kernel) (fun m => read0_eq _ (c! "SetEnd") [] (ROp.returned .setEnd) m rfl) m
  | structEnd => exact reader_eq .structEnd (b := [.read (c! "StructEnd") [], .ret]) (k := 0) (s := ⟨c! "ReadStructEnd", [], [c! "error"]⟩) (by decide +kernel) (fun m => read0_eq _ (c! "StructEnd") [] (ROp.returned .structEnd) m rfl) m

theorem write1_eq (step : Text) (v : MVal) (a : Arg) (ha : a.value [v] = some v) (k : Nat) (m : Memo) :
    execW [v] [.advance k, .write step [a], .ret] m = .done (m.record (String.ofList step) [v] fun m => (none, m)) := by
  simp only [execW, Memo.record]
  cases m.advanceW with
  | none => rfl
  | some m => simp [ha]

theorem write0_eq (step : Text) (ins : List MVal) (k : Nat) (m : Memo) :
    execW ins [.advance k, .write step [], .ret] m = .done (m.record (String.ofList step) [] fun m => (none, m)) := by
  simp only [execW, Memo.record]
  cases m.advanceW <;> rfl

theorem writer_all (o : WOp) (m : Memo) : callW writerSigs o.method o.args m = Memo.writer.step o m := by
  cases o with
  | bool v => exact (callW_eq (name := c! "WriteBool") (s := ⟨c! "WriteBool", [c! "bool"], [c! "error"]⟩) (b := [.advance 0, .write (c! "Bool") [.param 0], .ret]) (by decide +kernel) _ m).trans (write1_eq (c! "Bool") _ (.param 0) rfl 0 m)
  | byte v => exact (callW_eq (name := c! "WriteByte") (s := ⟨c! "WriteByte", [c! "uint8"], [c! "error"]⟩) (b := [.advance 0, .write (c! "Byte") [.param 0], .ret]) (by decide +kernel) _ m).trans (write1_eq (c! "Byte") _ (.param 0) rfl 0 m)
  | double v => exact (callW_eq (name := c! "WriteDouble") (s := ⟨c! "WriteDouble", [c! "float64"], [c! "error"]⟩) (b := [.advance 0, .write (c! "Double") [.param 0], .ret]) (by decide +kernel) _ m).trans (write1_eq (c! "Double") _ (.param 0) rfl 0 m)
  | fieldBegin v => exact (callW_eq (name := c! "WriteFieldBegin") (s := ⟨c! "WriteFieldBegin", [c! "thriftwire.FieldHeader"], [c! "error"]⟩) (b := [.advance 0, .write (c! "FieldBegin") [.param 0], .ret]) (by decide +kernel) _ m).trans (write1_eq (c! "FieldBegin") _ (.param 0) rfl 0 m)
  | i16 v => exact (callW_eq (name := c! "WriteI16") (s := ⟨c! "WriteI16", [c! "int16"], [c! "error"]⟩) (b := [.advance 0, .write (c! "I16") [.param 0], .ret]) (by decide +kernel) _ m).trans (write1_eq (c! "I16") _ (.param 0) rfl 0 m)
  | i32 v => exact (callW_eq (name := c! "WriteI32") (s := ⟨c! "WriteI32", [c! "int32"], [c! "error"]⟩) (b := [.advance 0, .write (c! "I32") [.param 0], .ret]) (by decide +kernel) _ m).trans (write1_eq (c! "I32") _ (.param 0) rfl 0 m)
  | i64 v => exact (callW_eq (name := c! "WriteI64") (s := ⟨c! "WriteI64", [c! "int64"], [c! "error"]⟩) (b := [.advance 0, .write (c! "I64") [.param 0], .ret]) (by decide +kernel) _ m).trans (write1_eq (c! "I64") _ (.param 0) rfl 0 m)
  | listBegin v => exact (callW_eq (name := c! "WriteListBegin") (s := ⟨c! "WriteListBegin", [c! "thriftwire.ListHeader"], [c! "error"]⟩) (b := [.advance 0, .write (c! "ListBegin") [.param 0], .ret]) (by decide +kernel) _ m).trans (write1_eq (c! "ListBegin") _ (.param 0) rfl 0 m)
  | mapBegin v => exact (callW_eq (name := c! "WriteMapBegin") (s := ⟨c! "WriteMapBegin", [c! "thriftwire.MapHeader"], [c! "error"]⟩) (b := [.advance 0, .write (c! "MapBegin") [.param 0], .ret]) (by decide +kernel) _ m).trans (write1_eq (c! "MapBegin") _ (.param 0) rfl 0 m)
  | messageBegin v => exact (callW_eq (name := c! "WriteMessageBegin") (s := ⟨c! "WriteMessageBegin", [c! "thriftwire.MessageHeader"], [c! "error"]⟩) (b := [.advance 0, .write (c! "MessageBegin") [.param 0], .ret]) (by decide +kernel) _ m).trans (write1_eq (c! "MessageBegin") _ (.param 0) rfl 0 m)
  | setBegin v => exact (callW_eq (name := c! "WriteSetBegin") (s := ⟨c! "WriteSetBegin", [c! "thriftwire.SetHeader"], [c! "error"]⟩) (b := [.advance 0, .write (c! "SetBegin") [.param 0], .ret]) (by decide +kernel) _ m).trans (write1_eq (c! "SetBegin") _ (.param 0) rfl 0 m)
  | string v => exact (callW_eq (name := c! "WriteString") (s := ⟨c! "WriteString", [c! "string"], [c! "error"]⟩) (b := [.advance 0, .write (c! "String") [.param 0], .ret]) (by decide +kernel) _ m).trans (write1_eq (c! "String") _ (.param 0) rfl 0 m)
  | structBegin v => exact (callW_eq (name := c! "WriteStructBegin") (s := ⟨c! "WriteStructBegin", [c! "thriftwire.StructHeader"], [c! "error"]⟩) (b := [.advance 0, .write (c! "StructBegin") [.param 0], .ret]) (by decide +kernel) _ m).trans (write1_eq (c! "StructBegin") _ (.param 0) rfl 0 m)
  | bytes v => exact (callW_eq (name := c! "WriteBytes") (s := ⟨c! "WriteBytes", [c! "[]uint8"], [c! "error"]⟩) (b := [.advance 0, .write (c! "Bytes") [.param 0], .ret]) (by decide +kernel) _ m).trans (write1_eq (c! "Bytes") _ (.param 0) rfl 0 m)
  | uuid v => exact (callW_eq (name := c! "WriteUUID") (s := ⟨c! "WriteUUID", [c! "*[16]uint8"], [c! "error"]⟩) (b := [.advance 0, .write (c! "UUID") [.deref 0], .ret]) (by decide +kernel) _ m).trans (write1_eq (c! "UUID") _ (.deref 0) rfl 0 m)
  | fieldEnd => exact (callW_eq (name := c! "WriteFieldEnd") (s := ⟨c! "WriteFieldEnd", [], [c! "error"]⟩) (b := [.advance 0, .write (c! "FieldEnd") [], .ret]) (by decide +kernel) _ m).trans (write0_eq (c! "FieldEnd") _ 0 m)
  | listEnd => exact (callW_eq (name := c! "WriteListEnd") (s := ⟨c! "WriteListEnd", [], [c! "error"]⟩) (b := [.advance 0, .write (c! "ListEnd") [], .ret]) (by decide +kernel) _ m).trans (write0_eq (c! "ListEnd") _ 0 m)
  | mapEnd => exact (callW_eq (name := c! "WriteMapEnd") (s := ⟨c! "WriteMapEnd", [], [c! "error"]⟩) (b := [.advance 0, .write (c! "MapEnd") [], .ret]) (by decide +kernel) _ m).trans (write0_eq (c! "MapEnd") _ 0 m)
  | messageEnd => exact (callW_eq (name := c! "WriteMessageEnd") (s := ⟨c! "WriteMessageEnd", [], [c! "error"]⟩) (b := [.advance 0, .write (c! "MessageEnd") [], .ret]) (by decide +kernel) _ m).trans (write0_eq (c! "MessageEnd") _ 0 m)
  | setEnd => exact (callW_eq (name := c! "WriteSetEnd") (s := ⟨c! "WriteSetEnd", [], [c! "error"]⟩) (b := [.advance 0, .write (c! "SetEnd") [], .ret]) (by decide +kernel) _ m).trans (write0_eq (c! "SetEnd") _ 0 m)
  | structEnd =>
    rw [show WOp.structEnd.method = c! "WriteStructEnd" from rfl, callW_eq (s := ⟨c! "WriteStructEnd", [], [c! "error"]⟩) (b := [.advance 0, .write (c! "FieldBegin") [.stop], .advance 0, .write (c! "StructEnd") [], .ret]) (by decide +kernel)]
    simp only [execW, Memo.writer, Memo.writeStep, Memo.record]
    cases m.advanceW with
    | none => rfl
    | some m =>
      have e : [Arg.stop].mapM (Arg.value WOp.structEnd.args) = some [MVal.fieldHeader ⟨[], Ty.stop, 0⟩] := rfl
      have e1 : String.ofList (c! "FieldBegin") = "FieldBegin" := rfl
      have e2 : String.ofList (c! "StructEnd") = "StructEnd" := rfl
      simp only [e, e1, e2]
      cases (m.write "FieldBegin" [MVal.fieldHeader ⟨[], Ty.stop, 0⟩]).advanceW <;> rfl

end GoThrift.MemoGen
