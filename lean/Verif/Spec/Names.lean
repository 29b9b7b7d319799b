/-!
# The names of the constants
-/

namespace GoThrift.Spec

/-- A named constant has its name; other values have the name of the type with the number in decimal. -/
def nameOf (type : String) (names : List (Nat × String)) (i : BitVec 8) : String := (names.lookup i.toNat).getD (type ++ "(" ++ toString i.toNat ++ ")")

/-- The constants of `thriftwire.Type` -/
def typeNames : List (Nat × String) := [(0, "Stop"), (2, "Bool"), (3, "Byte"), (4, "Double"), (6, "I16"), (8, "I32"), (10, "I64"), (11, "String"), (12, "Struct"), (13, "Map"), (14, "Set"), (15, "List"),
  (16, "UUID")]

/-- The constants of `thriftwire.MessageType` -/
def messageTypeNames : List (Nat × String) := [(1, "Call"), (2, "Reply"), (3, "Exception"), (4, "OneWay")]

/-- The constants of `thriftcompact.compactType`, without the underscore -/
def compactTypeNames : List (Nat × String) := [(0, "STOP"), (1, "BOOLEAN_TRUE"), (2, "BOOLEAN_FALSE"), (3, "I8"), (4, "I16"), (5, "I32"), (6, "I64"), (7, "DOUBLE"), (8, "BINARY"), (9, "LIST"), (10, "SET"),
  (11, "MAP"), (12, "STRUCT"), (13, "UUID")]

/-- The constants of `thriftfile.token` -/
def tokenNames : List (Nat × String) := [(0, "ILLEGAL"), (1, "EOF"), (2, "COMMENT"), (3, "literal_beg"), (4, "IDENT"), (5, "INT"), (6, "FLOAT"), (7, "STRING"), (8, "literal_end"), (9, "+"), (10, "-"), (11, "*"),
  (12, "/"), (13, "%"), (14, "&"), (15, "|"), (16, "^"), (17, "=="), (18, "<"), (19, ">"), (20, "="), (21, "!"), (22, "("), (23, "["), (24, "{"), (25, ","), (26, "."), (27, ")"), (28, "]"), (29, "}"),
  (30, ";"), (31, ":"), (32, "keyword_beg"), (33, "include"), (34, "namespace"), (35, "definition_beg"), (36, "const"), (37, "typedef"), (38, "enum"), (39, "struct"), (40, "union"), (41, "exception"),
  (42, "service"), (43, "definition_end"), (44, "required"), (45, "optional"), (46, "extends"), (47, "oneway"), (48, "void"), (49, "throws"), (50, "map"), (51, "set"), (52, "list"), (53, "keyword_end")]

end GoThrift.Spec
