import Verif.Model.Stringer

/-!
# Tokens of .thrift files (tools/thriftfile/tokens.go)
-/

namespace GoThrift.Idl

/-- `token` (tools/thriftfile/tokens.go:4) -/
abbrev Token := BitVec 8

/-! The constants (tools/thriftfile/tokens.go:6-79). -/
namespace Tk
def illegal : Token := 0
def eof : Token := 1
def comment : Token := 2
def literalBeg : Token := 3
def ident : Token := 4
def int : Token := 5
def float : Token := 6
def string : Token := 7
def literalEnd : Token := 8
def add : Token := 9
def sub : Token := 10
def mul : Token := 11
def quo : Token := 12
def rem : Token := 13
def and : Token := 14
def or : Token := 15
def xor : Token := 16
def eql : Token := 17
def lss : Token := 18
def gtr : Token := 19
def assign : Token := 20
def not : Token := 21
def lparen : Token := 22
def lbrack : Token := 23
def lbrace : Token := 24
def comma : Token := 25
def period : Token := 26
def rparen : Token := 27
def rbrack : Token := 28
def rbrace : Token := 29
def semicolon : Token := 30
def colon : Token := 31
def keywordBeg : Token := 32
def include_ : Token := 33
def namespace_ : Token := 34
def definitionBeg : Token := 35
def const : Token := 36
def typedef : Token := 37
def enum : Token := 38
def struct : Token := 39
def union : Token := 40
def exception : Token := 41
def service : Token := 42
def definitionEnd : Token := 43
def required : Token := 44
def optional : Token := 45
def extends_ : Token := 46
def oneway : Token := 47
def void : Token := 48
def throws : Token := 49
def map : Token := 50
def set : Token := 51
def list : Token := 52
def keywordEnd : Token := 53

end Tk

/-- `isLiteral` (tools/thriftfile/tokens.go:90) -/
def isLiteral (t : Token) : Bool := Tk.literalBeg < t && t < Tk.literalEnd

/-- `isKeyword` (tools/thriftfile/tokens.go:91) -/
def isKeyword (t : Token) : Bool := Tk.keywordBeg < t && t < Tk.keywordEnd

/-- `isDefinition` (tools/thriftfile/tokens.go:92) -/
def isDefinition (t : Token) : Bool := Tk.definitionBeg < t && t < Tk.definitionEnd

/-- `i.String()` as bytes; `String` never panics (`C46_token`). -/
def tokenText (t : Token) : Bytes := match Stringer.tokenString t with
  | .done s => s.toList.map fun c => BitVec.ofNat 8 c.toNat
  | _ => []

/-- The loop of `init` (tools/thriftfile/tokens.go:83-88) over `n` tokens from `i`, as the list of the map's entries. No name occurs twice. -/
def initKeywords : Nat → Token → List (Bytes × Token)
  | 0, _ => []
  | n + 1, i => (tokenText i, i) :: initKeywords n (i + 1)

/-- The global `keywords` (tools/thriftfile/tokens.go:81) as `init` leaves it; that it does is `keywords_init`. -/
def keywords : List (Bytes × Token) := [
  ([105, 110, 99, 108, 117, 100, 101], Tk.include_), -- include
  ([110, 97, 109, 101, 115, 112, 97, 99, 101], Tk.namespace_), -- namespace
  ([100, 101, 102, 105, 110, 105, 116, 105, 111, 110, 95, 98, 101, 103], Tk.definitionBeg), -- definition_beg
  ([99, 111, 110, 115, 116], Tk.const), -- const
  ([116, 121, 112, 101, 100, 101, 102], Tk.typedef), -- typedef
  ([101, 110, 117, 109], Tk.enum), -- enum
  ([115, 116, 114, 117, 99, 116], Tk.struct), -- struct
  ([117, 110, 105, 111, 110], Tk.union), -- union
  ([101, 120, 99, 101, 112, 116, 105, 111, 110], Tk.exception), -- exception
  ([115, 101, 114, 118, 105, 99, 101], Tk.service), -- service
  ([100, 101, 102, 105, 110, 105, 116, 105, 111, 110, 95, 101, 110, 100], Tk.definitionEnd), -- definition_end
  ([114, 101, 113, 117, 105, 114, 101, 100], Tk.required), -- required
  ([111, 112, 116, 105, 111, 110, 97, 108], Tk.optional), -- optional
  ([101, 120, 116, 101, 110, 100, 115], Tk.extends_), -- extends
  ([111, 110, 101, 119, 97, 121], Tk.oneway), -- oneway
  ([118, 111, 105, 100], Tk.void), -- void
  ([116, 104, 114, 111, 119, 115], Tk.throws), -- throws
  ([109, 97, 112], Tk.map), -- map
  ([115, 101, 116], Tk.set), -- set
  ([108, 105, 115, 116], Tk.list)] -- list

end GoThrift.Idl
