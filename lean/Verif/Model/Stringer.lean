import Verif.Model.Basic

/-!
# The String methods generated by stringer

A slice expression out of range panics.
-/

namespace GoThrift.Stringer

/-- `s[lo:hi]` -/
def slice (s : String) (lo hi : Nat) : Out String := if lo ≤ hi ∧ hi ≤ s.length then .done (String.ofList ((s.toList.drop lo).take (hi - lo))) else .panicked

/-- `name[index[i]:index[i+1]]`; indexing out of range panics. -/
def entry (name : String) (index : List Nat) (i : Nat) : Out String := match index[i]?, index[i + 1]? with
  | some lo, some hi => slice name lo hi
  | _, _ => .panicked

/-- `strconv.FormatInt(int64(i), 10)` of a byte -/
def format (i : BitVec 8) : String := String.ofList (Nat.toDigits 10 i.toNat)

/-- `Type.String` (encoding/thriftwire/type_string.go:26-56) -/
def typeString (i : BitVec 8) : Out String :=
  let name1 := "BoolByteDouble"
  let name4 := "I64StringStructMapSetListUUID"
  let index1 := [0, 4, 8, 14]
  let index4 := [0, 3, 9, 15, 18, 21, 25, 29]
  if i = 0 then .done "Stop"
  else if 2 ≤ i ∧ i ≤ 4 then entry name1 index1 (i - 2).toNat
  else if i = 6 then .done "I16"
  else if i = 8 then .done "I32"
  else if 10 ≤ i ∧ i ≤ 16 then entry name4 index4 (i - 10).toNat
  else .done ("Type(" ++ format i ++ ")")

/-- `MessageType.String` (encoding/thriftwire/messagetype_string.go:17-27) -/
def messageTypeString (i : BitVec 8) : Out String :=
  let name := "CallReplyExceptionOneWay"
  let index := [0, 4, 9, 18, 24]
  let i := i - 1
  if i ≥ BitVec.ofNat 8 (index.length - 1) then .done ("MessageType(" ++ format (i + 1) ++ ")") else entry name index i.toNat

/-- `_compactType_index` (encoding/thriftcompact/compacttype_string.go:29) -/
def compactTypeIndex : List Nat := [0, 4, 16, 29, 31, 34, 37, 40, 46, 52, 56, 59, 62, 68, 72]

/-- `compactType.String` (encoding/thriftcompact/compacttype_string.go:27-36) -/
def compactTypeString (i : BitVec 8) : Out String :=
  let name := "STOPBOOLEAN_TRUEBOOLEAN_FALSEI8I16I32I64DOUBLEBINARYLISTSETMAPSTRUCTUUID"
  if i ≥ BitVec.ofNat 8 (compactTypeIndex.length - 1) then .done ("compactType(" ++ format i ++ ")") else entry name compactTypeIndex i.toNat

/-- `_token_index` (tools/thriftfile/token_string.go:69) -/
def tokenIndex : List Nat := [0, 7, 10, 17, 28, 33, 36, 41, 47, 58, 59, 60, 61, 62, 63, 64, 65, 66, 68, 69, 70, 71, 72, 73, 74, 75, 76, 77, 78, 79, 80, 81, 82, 93, 100, 109, 123, 128, 135, 139, 145,
  150, 159, 166, 180, 188, 196, 203, 209, 213, 219, 222, 225, 229, 240]

/-- `token.String` (tools/thriftfile/token_string.go:67-76) -/
def tokenString (i : BitVec 8) : Out String :=
  let name := "ILLEGALEOFCOMMENTliteral_begIDENTINTFLOATSTRINGliteral_end+-*/%&|^==<>=!([{,.)]};:keyword_begincludenamespacedefinition_begconsttypedefenumstructunionexceptionservicedefinition_endrequiredoptionalextendsonewayvoidthrowsmapsetlistkeyword_end"
  if i ≥ BitVec.ofNat 8 (tokenIndex.length - 1) then .done ("token(" ++ format i ++ ")") else entry name tokenIndex i.toNat

end GoThrift.Stringer
