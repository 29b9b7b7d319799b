import Verif.Spec.Numbers
import Verif.Props.Binary
import Verif.Props.Compact
import Verif.Model.Token

/-!
# C30, C46: the numbers and the names of the constants
-/

namespace GoThrift

open Spec Spec.TVal Stringer

/-- **C30** (types, binary): in a struct with one field, the byte before the id of the field is the number that the protocol gives the type of its value, and the first byte of a list or set is that of the type of its elements; those of a
map are those of its keys and of its values. -/
theorem C30_binary_types (strict : Bool) (name field : Bytes) (id : BitVec 16) (v w : TVal) (b : Bytes) :
    Writes (Binary.writer strict) (calls (.struct name [(field, id, v)])) ((), b) ((), b ++ (BitVec.ofNat 8 (number v) :: be 2 id.toNat) ++ encBin v ++ [0]) ∧
    Writes (Binary.writer strict) (calls (.list v.ty [v])) ((), b) ((), b ++ [BitVec.ofNat 8 (number v), 0, 0, 0, 1] ++ encBin v) ∧
    Writes (Binary.writer strict) (calls (.set v.ty [v])) ((), b) ((), b ++ [BitVec.ofNat 8 (number v), 0, 0, 0, 1] ++ encBin v) ∧
    Writes (Binary.writer strict) (calls (.map v.ty w.ty [(v, w)])) ((), b) ((), b ++ [BitVec.ofNat 8 (number v), BitVec.ofNat 8 (number w), 0, 0, 0, 1] ++ encBin v ++ encBin w) := by
  have hn : ∀ v : TVal, v.ty = BitVec.ofNat 8 (number v) := fun v => by cases v <;> rfl
  have h1 : be 4 1 = [0, 0, 0, 1] := rfl
  refine ⟨?_, ?_, ?_, ?_⟩
  · have := C30_binary_value strict (.struct name [(field, id, v)]) b
    simpa [encBin, encBinFields, hn] using this
  · have := C30_binary_value strict (.list v.ty [v]) b
    simpa [encBin, encBinElems, h1, hn] using this
  · have := C30_binary_value strict (.set v.ty [v]) b
    simpa [encBin, encBinElems, h1, hn] using this
  · have := C30_binary_value strict (.map v.ty w.ty [(v, w)]) b
    simpa [encBin, encBinEntries, h1, hn] using this

/-- **C30** (types, compact): in a struct with one field of the id 1, the first byte has the number that the protocol gives the type of its value in the lower half. What is missing: values with field ids that wrap around, as in `C30_compact_value_partial`, and fields of other ids, whose first byte C30 gives only through the layout `encCompact`. -/
theorem C30_compact_types_partial (name field : Bytes) (v : TVal) (hw : WF (2 ^ 63 - 1) v) (ht : TypesOK v) (hn : NoWrap v) (c : Compact.WState) (b : Bytes) (hc : c.boolField.type = Ty.stop) :
    ∃ c', Writes Compact.writer (calls (.struct name [(field, 1, v)])) (c, b)
      (c', b ++ [BitVec.ofNat 8 (16 + compactNumber v)] ++ (match v with | .bool _ => [] | v => encCompact v) ++ [0]) := by
  obtain ⟨c', h⟩ := C30_compact_value_partial (.struct name [(field, 1, v)]) (by simp [WF, WFFields, hw]) (by simp [TypesOK, TypesOKFields, ht]) (by simp [NoWrap, NoWrapFields, hn]) c b hc
  refine ⟨c', ?_⟩
  have he : encCompact (.struct name [(field, 1, v)]) = [BitVec.ofNat 8 (16 + compactNumber v)] ++ (match v with | .bool _ => [] | v => encCompact v) ++ [0] := by
    rw [encCompact, encCompactFields, encCompactFields]
    cases v with
    | bool x => cases x <;> rfl
    | _ => rfl
  rw [he] at h
  simpa using h

/-- The structs of a map and of a UUID. -/
example : number (.map 11 8 []) = 13 ∧ compactNumber (.uuid (List.replicate 16 0)) = 13 ∧ encCompact (.struct [] [([], 1, .bool true)]) = [0x11, 0] := ⟨rfl, rfl, by decide +kernel⟩

/-- **C46** (constants): each constant of `Type` and of `token` that the readers, the writers and the parser use has its own name. -/
theorem C46_constants :
    (∀ p ∈ [(Ty.stop, "Stop"), (Ty.bool, "Bool"), (Ty.byte, "Byte"), (Ty.double, "Double"), (Ty.i16, "I16"), (Ty.i32, "I32"), (Ty.i64, "I64"), (Ty.string, "String"), (Ty.struct, "Struct"), (Ty.map, "Map"), (Ty.set, "Set"),
      (Ty.list, "List"), (Ty.uuid, "UUID")], typeString p.1 = .done p.2) ∧
    (∀ p ∈ [(Compact.CT.stop, "STOP"), (Compact.CT.boolTrue, "BOOLEAN_TRUE"), (Compact.CT.boolFalse, "BOOLEAN_FALSE"), (Compact.CT.i8, "I8"), (Compact.CT.i16, "I16"), (Compact.CT.i32, "I32"), (Compact.CT.i64, "I64"),
      (Compact.CT.double, "DOUBLE"), (Compact.CT.binary, "BINARY"), (Compact.CT.list, "LIST"), (Compact.CT.set, "SET"), (Compact.CT.map, "MAP"), (Compact.CT.struct, "STRUCT"), (Compact.CT.uuid, "UUID")],
      compactTypeString p.1 = .done p.2) ∧
    ∀ p ∈ [(Idl.Tk.illegal, "ILLEGAL"), (Idl.Tk.eof, "EOF"), (Idl.Tk.comment, "COMMENT"), (Idl.Tk.ident, "IDENT"), (Idl.Tk.int, "INT"), (Idl.Tk.float, "FLOAT"), (Idl.Tk.string, "STRING"), (Idl.Tk.add, "+"), (Idl.Tk.sub, "-"),
      (Idl.Tk.mul, "*"), (Idl.Tk.quo, "/"), (Idl.Tk.rem, "%"), (Idl.Tk.and, "&"), (Idl.Tk.or, "|"), (Idl.Tk.xor, "^"), (Idl.Tk.eql, "=="), (Idl.Tk.lss, "<"), (Idl.Tk.gtr, ">"), (Idl.Tk.assign, "="), (Idl.Tk.not, "!"),
      (Idl.Tk.lparen, "("), (Idl.Tk.lbrack, "["), (Idl.Tk.lbrace, "{"), (Idl.Tk.comma, ","), (Idl.Tk.period, "."), (Idl.Tk.rparen, ")"), (Idl.Tk.rbrack, "]"), (Idl.Tk.rbrace, "}"), (Idl.Tk.semicolon, ";"), (Idl.Tk.colon, ":"),
      (Idl.Tk.include_, "include"), (Idl.Tk.namespace_, "namespace"), (Idl.Tk.const, "const"), (Idl.Tk.typedef, "typedef"), (Idl.Tk.enum, "enum"), (Idl.Tk.struct, "struct"), (Idl.Tk.union, "union"),
      (Idl.Tk.exception, "exception"), (Idl.Tk.service, "service"), (Idl.Tk.required, "required"), (Idl.Tk.optional, "optional"), (Idl.Tk.extends_, "extends"), (Idl.Tk.oneway, "oneway"), (Idl.Tk.void, "void"),
      (Idl.Tk.throws, "throws"), (Idl.Tk.map, "map"), (Idl.Tk.set, "set"), (Idl.Tk.list, "list")], tokenString p.1 = .done p.2 := by
  decide +kernel

end GoThrift
