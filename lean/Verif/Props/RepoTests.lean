import Verif.Props.ParseText
import Verif.Props.ErrorText
import Verif.Props.WireBufio
import Verif.Model.Compact

/-!
# The tables of the tests of the repository, on the model

Nothing here is a proof of a property. These are the expectations that the tests of the repository have of the code, computed with the model, so they show that the model does on these inputs what the code does.
`TestArshaler` is in Props/ArshalTest.lean, `TestProtocol` in Props/ThriftTest.lean.
-/

namespace GoThrift.RepoTests

open Idl Spec

/-- tools/thriftfile/testdata/test.thrift -/
def testThrift : Bytes :=
  [47, 42, 32, 67, 111, 109, 109, 101, 110, 116, 32, 42, 47, 10, 47, 47, 32, 67, 111, 109, 109, 101, 110, 116, 10, 35, 32, 67, 111, 109, 109, 101, 110, 116, 10, 10, 101, 110, 117, 109, 32, 84, 101, 115,
  116, 69, 110, 117, 109, 32, 123, 10, 32, 32, 32, 32, 65, 66, 67, 32, 61, 61, 32, 47, 42, 32, 69, 82, 82, 79, 82, 32, 34, 101, 120, 112, 101, 99, 116, 101, 100, 32, 39, 61, 39, 44, 32, 102, 111, 117,
  110, 100, 32, 39, 61, 61, 39, 34, 32, 42, 47, 32, 49, 44, 10, 32, 32, 32, 32, 88, 89, 90, 32, 61, 32, 50, 32, 40, 103, 111, 46, 110, 97, 109, 101, 32, 61, 61, 32, 47, 42, 32, 69, 82, 82, 79, 82, 32,
  34, 101, 120, 112, 101, 99, 116, 101, 100, 32, 39, 61, 39, 44, 32, 102, 111, 117, 110, 100, 32, 39, 61, 61, 39, 34, 32, 42, 47, 32, 34, 88, 89, 90, 34, 41, 44, 10, 125, 10, 10, 110, 97, 109, 101, 115,
  112, 97, 99, 101, 32, 47, 42, 32, 69, 82, 82, 79, 82, 32, 34, 101, 120, 112, 101, 99, 116, 101, 100, 32, 100, 101, 102, 105, 110, 105, 116, 105, 111, 110, 44, 32, 102, 111, 117, 110, 100, 32, 39, 110,
  97, 109, 101, 115, 112, 97, 99, 101, 39, 34, 32, 42, 47, 32, 42, 32, 116, 101, 115, 116, 10, 10, 115, 116, 114, 117, 99, 116, 32, 84, 101, 115, 116, 83, 116, 114, 117, 99, 116, 32, 123, 10, 32, 32,
  32, 32, 114, 101, 113, 117, 105, 114, 101, 100, 32, 115, 116, 114, 105, 110, 103, 32, 49, 50, 51, 32, 47, 42, 32, 69, 82, 82, 79, 82, 32, 34, 101, 120, 112, 101, 99, 116, 101, 100, 32, 39, 73, 68, 69,
  78, 84, 39, 44, 32, 102, 111, 117, 110, 100, 32, 49, 50, 51, 34, 32, 42, 47, 44, 10, 32, 32, 32, 32, 114, 101, 113, 117, 105, 114, 101, 100, 32, 108, 105, 115, 116, 60, 115, 116, 114, 105, 110, 103,
  62, 32, 115, 116, 114, 105, 110, 103, 115, 32, 61, 61, 32, 47, 42, 32, 69, 82, 82, 79, 82, 32, 34, 101, 120, 112, 101, 99, 116, 101, 100, 32, 39, 61, 39, 44, 32, 102, 111, 117, 110, 100, 32, 39, 61,
  61, 39, 34, 32, 42, 47, 32, 91, 93, 10, 125, 10]

/-- `TestParser` (tools/thriftfile/parser_test.go, error_test.go) at that file: the errors are those that its comments announce, where they announce them (at the token before the comment). -/
example : (Parse exIdlEnv testThrift).bind (fun r => .done (r.2.map fun e => (e.line, e.column, e.msg.text exIdlEnv))) =
    .done [(6, 9, text "expected '=', found '=='"), (7, 22, text "expected '=', found '=='"), (10, 1, text "expected definition, found 'namespace'"), (13, 21, text "expected 'IDENT', found 123"),
      (14, 35, text "expected '=', found '=='")] := by decide +kernel

/-- The text of `n` letters. -/
def as (n : Nat) : Bytes := List.replicate n 0x61

/-- `TestReadString` (encoding/thriftwire/bufio_test.go): a buffer of 16 bytes; 15 and 17 bytes, and one more than there is. -/
example : (wireReadString 15).run ⟨16, as 15, .err .eof⟩ = .done ((as 15, none), ⟨16, [], .err .eof⟩) ∧
    (wireReadString 16).run ⟨16, as 15, .err .eof⟩ = .done ((as 15, some .unexpectedEOF), ⟨16, [], .err .eof⟩) ∧
    (wireReadString 17).run ⟨16, as 17, .err .eof⟩ = .done ((as 17, none), ⟨16, [], .err .eof⟩) ∧
    (wireReadString 17).run ⟨16, as 16, .err .eof⟩ = .done ((as 16, some .unexpectedEOF), ⟨16, [], .err .eof⟩) := by decide +kernel

/-- `TestReadBytes` (encoding/thriftwire/bufio_test.go). -/
example : (wireReadBytes 15 [1, 2]).run ⟨16, as 15, .err .eof⟩ = .done ((1 :: 2 :: as 15, none), ⟨16, [], .err .eof⟩) ∧
    (wireReadBytes 16 [1, 2]).run ⟨16, as 15, .err .eof⟩ = .done ((1 :: 2 :: as 15, some .unexpectedEOF), ⟨16, [], .err .eof⟩) ∧
    (wireReadBytes 17 [1, 2]).run ⟨16, as 17, .err .eof⟩ = .done ((1 :: 2 :: as 17, none), ⟨16, [], .err .eof⟩) ∧
    (wireReadBytes 17 [1, 2]).run ⟨16, as 16, .err .eof⟩ = .done ((1 :: 2 :: as 16, some .unexpectedEOF), ⟨16, [], .err .eof⟩) := by decide +kernel

/-- `TestReadUvarint` and `TestReadVarint` (encoding/thriftwire/varint_test.go): `1 << (n - 1)` for n = 1, 2, 4, ..., 64, which is negative for n = 64 in the second; then eleven bytes 0x80. -/
example :
    (∀ n ∈ [0, 1, 3, 7, 15, 31, 63], readUvarint.run ⟨4096, putUvarint (1#64 <<< n), .err .eof⟩ = .done ((1#64 <<< n, none), ⟨4096, [], .err .eof⟩)) ∧
    (∀ n ∈ [0, 1, 3, 7, 15, 31, 63], readVarint.run ⟨4096, putVarint (1#64 <<< n), .err .eof⟩ = .done ((1#64 <<< n, none), ⟨4096, [], .err .eof⟩)) ∧
    (readUvarint.run ⟨4096, List.replicate 11 0x80, .err .eof⟩).bind (fun r => .done r.1.2) = .done (some .varintOverflow) ∧
    (readVarint.run ⟨4096, List.replicate 11 0x80, .err .eof⟩).bind (fun r => .done r.1.2) = .done (some .varintOverflow) := by decide +kernel

/-- `TestType` (encoding/thriftcompact/types_test.go) -/
example :
    let table := [(Compact.CT.stop, Ty.stop), (Compact.CT.boolTrue, Ty.bool), (Compact.CT.boolFalse, Ty.bool), (Compact.CT.i8, Ty.byte), (Compact.CT.i16, Ty.i16), (Compact.CT.i32, Ty.i32), (Compact.CT.i64, Ty.i64),
      (Compact.CT.double, Ty.double), (Compact.CT.binary, Ty.string), (Compact.CT.list, Ty.list), (Compact.CT.set, Ty.set), (Compact.CT.map, Ty.map), (Compact.CT.struct, Ty.struct), (Compact.CT.uuid, Ty.uuid)]
    ∀ x ∈ table, (Compact.wire x.1).toOption = some x.2 ∧ (x.2 ≠ Ty.stop → x.2 ≠ Ty.bool → (Compact.typeCompact x.2).toOption = some x.1) := by
  intro table
  decide +kernel

/-- The names and texts that the next examples need. -/
def texts : Texts where
  goType
    | 0 => "int"
    | 1 => "uint"
    | 2 => "bytes.Buffer"
    | 3 => "strings.Reader"
    | 4 => "float64"
    | 5 => "complex128"
    | _ => "io.Reader"
  other
    | .eof => "EOF"
    | _ => "some underlying error"

/-- `TestWireError` (thrift/errors_test.go) -/
example : errorText texts (fun _ => true) (.wire "WriteString" .unexpectedEOF) = "thrift: WriteString: some underlying error" ∧
    errorText texts (fun _ => true) (.wire "ReadString" .eof) = "thrift: ReadString: EOF" := by decide +kernel

/-- `TestSemanticError` (thrift/errors_test.go), the rows with an action. -/
example :
    let t := fun e => errorText texts (fun _ => true) e
    t (.semantic .unmarshal Ty.byte none) = "thrift: cannot unmarshal Thrift byte" ∧
    t (.semantic .unmarshal Ty.stop none) = "thrift: cannot unmarshal" ∧
    t (.semantic .marshal Ty.double none) = "thrift: cannot marshal Thrift double" ∧
    t (.semantic .marshal 0 (some 0)) = "thrift: cannot marshal Go value of type int" ∧
    t (.semantic .unmarshal 0 (some 1)) = "thrift: cannot unmarshal Go value of type uint" ∧
    t (.semantic .marshal Ty.i32 (some 2)) = "thrift: cannot marshal Thrift i32 from Go value of type bytes.Buffer" ∧
    t (.semantic .unmarshal Ty.i64 (some 3)) = "thrift: cannot unmarshal Thrift i64 into Go value of type strings.Reader" ∧
    t (.semantic .unmarshal Ty.string (some 4)) = "thrift: cannot unmarshal Thrift string into Go value of type float64" ∧
    t (.semantic .marshal Ty.struct (some 5)) = "thrift: cannot marshal Thrift struct from Go value of type complex128" ∧
    t (.semanticE .unmarshal Ty.map (some 6) .unexpectedEOF) = "thrift: cannot unmarshal Thrift map into Go value of type io.Reader: some underlying error" ∧
    t (.semantic .marshal Ty.set none) = "thrift: cannot marshal Thrift set" ∧
    t (.semantic .marshal Ty.list none) = "thrift: cannot marshal Thrift list" ∧
    t (.semantic .marshal Ty.uuid none) = "thrift: cannot marshal Thrift UUID" := by
  intro t
  decide +kernel

end GoThrift.RepoTests
