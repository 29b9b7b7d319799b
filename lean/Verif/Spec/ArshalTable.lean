import Verif.Model.ArshalTest
import Verif.Spec.Example

/-!
# The table of `TestArshaler`
-/

namespace GoThrift.ArshalTest

open Ex (fld)

/-- The types in the table (thrift/arshal_test.go:17-24, 30-119); `100 + t` is the type of pointers to `t`. -/
def type (t : TypeId) : GoType := if 100 ≤ t then { name := [], kind := .ptr (t - 100) } else match t with
  | 0 => { name := ascii "bool", kind := .bool }
  | 1 => { name := ascii "int8", kind := .int8 }
  | 2 => { name := ascii "int16", kind := .int16 }
  | 3 => { name := ascii "int32", kind := .int32 }
  | 4 => { name := ascii "int64", kind := .int64 }
  | 5 => { name := ascii "uint8", kind := .uint8 }
  | 6 => { name := ascii "uint16", kind := .uint16 }
  | 7 => { name := ascii "uint32", kind := .uint32 }
  | 8 => { name := ascii "uint64", kind := .uint64 }
  | 9 => { name := ascii "string", kind := .string }
  | 10 => { name := [], kind := .slice 5, isBytes := true }
  | 11 => { name := [], kind := .uuid }
  | 12 => { name := [], kind := .map 0 0 }
  | 13 => { name := ascii "Set[float32]", kind := .slice 20, isSet := true }
  | 14 => { name := ascii "List[bool]", kind := .slice 0, isList := true }
  | 15 => { name := [], kind := .slice 109 }
  | 16 => { name := [], kind := .map 9 9 }
  | 17 => { name := [], kind := .slice 9 }
  | 18 => { name := ascii "aStruct", kind := .struct [fld "String" "1" 9, fld "List" "2" 21] }
  | 19 => { name := ascii "aRequiredField", kind := .struct [fld "RequiredField" "1,required" 9] }
  | 20 => { name := ascii "float32", kind := .float32 }
  | 21 => { name := [], kind := .slice 118 }
  | _ => { name := [], kind := .other }

/-- Their zero values. -/
def zero (t : TypeId) : GoVal := if 100 ≤ t then .ptrNil else match t with
  | 0 => .bool false
  | 1 => .i8 0
  | 2 => .i16 0
  | 3 => .i32 0
  | 4 => .i64 0
  | 5 => .i8 0
  | 6 => .i16 0
  | 7 => .i32 0
  | 8 => .i64 0
  | 9 => .str []
  | 10 => .bytes none
  | 11 => .uuid (List.replicate 16 0)
  | 12 => .mapNil
  | 13 => .sliceNil
  | 14 => .sliceNil
  | 15 => .sliceNil
  | 16 => .mapNil
  | 17 => .sliceNil
  | 18 => .struct [.str [], .sliceNil]
  | 19 => .struct [.str []]
  | 20 => .f32 0
  | 21 => .sliceNil
  | _ => .other 0

theorem zero_eq (t : TypeId) : zero t = (type t).kind.zero zero (type t).asBytes := by
  by_cases h : 100 ≤ t
  · simp only [zero, type, if_pos h]; rfl
  · match t with
    | 0 | 1 | 2 | 3 | 4 | 5 | 6 | 7 | 8 | 9 | 10 | 11 | 12 | 13 | 14 | 15 | 16 | 17 | 18 | 19 | 20 | 21 => rfl
    | n + 22 =>
      simp only [zero, type, if_neg h]
      rfl

/-- The program. -/
def tableEnv : Env := { Ex.env with type := type, zero := zero, zero_eq := zero_eq }

/-- A row. -/
def row (t : TypeId) (v : GoVal) (steps : List String) : Row := ⟨t, 100 + t, v, steps⟩

/-- The table (thrift/arshal_test.go:30-119) -/
def table : List Row := [
  row 0 (.bool true) ["Bool"],
  row 1 (.i8 127) ["Byte"],
  row 2 (.i16 32767) ["I16"],
  row 3 (.i32 2147483647) ["I32"],
  row 4 (.i64 9223372036854775807) ["I64"],
  row 5 (.i8 255) ["Byte"],
  row 6 (.i16 65535) ["I16"],
  row 7 (.i32 4294967295) ["I32"],
  row 8 (.i64 18446744073709551615) ["I64"],
  row 9 (.str (ascii "hello, world!")) ["String"],
  row 10 (.bytes (some (ascii "hello, world!"))) ["Bytes"],
  row 11 (.uuid (List.replicate 16 0)) ["UUID"],
  row 12 (.map [(.bool false, .bool false), (.bool true, .bool true)]) ["MapBegin", "Bool", "Bool", "Bool", "Bool", "MapEnd"],
  row 13 (.slice [.f32 0, .f32 0x3f800000, .f32 0] []) ["SetBegin", "Double", "Double", "Double", "SetEnd"],
  row 14 (.slice [.bool false, .bool true, .bool false] []) ["ListBegin", "Bool", "Bool", "Bool", "ListEnd"],
  row 15 (.slice [.ptr (.str (ascii "hello")), .ptr (.str (ascii "world")), .ptrNil] []) ["ListBegin", "String", "String", "String", "ListEnd"],
  row 16 .mapNil ["MapBegin", "MapEnd"],
  row 17 .sliceNil ["ListBegin", "ListEnd"],
  row 18 (.struct [.str (ascii "hello, world!"), .slice [.ptr (.struct [.str [], .sliceNil])] []])
    ["StructBegin", "FieldBegin", "String", "FieldEnd", "FieldBegin", "ListBegin", "StructBegin", "FieldStop", "StructEnd", "ListEnd", "FieldEnd", "FieldStop", "StructEnd"],
  row 19 (.struct [.str []]) ["StructBegin", "FieldBegin", "String", "FieldEnd", "FieldStop", "StructEnd"]]

end GoThrift.ArshalTest
