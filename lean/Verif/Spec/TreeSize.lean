import Verif.Model.Syntax

/-!
# The nodes of a syntax tree, and the texts in it

The nodes are those of tools/thriftfile/nodes.go: identifiers, literals and lists are nodes of their own. The texts are in the order of the fields of the nodes, which is
the order in which they are written; where something is missing in the source the text is empty, and left out here.
-/

namespace GoThrift.Idl

/-- The text, unless it is empty. -/
def word (b : Bytes) : List Bytes := if b = [] then [] else [b]

def Annotation.nodes (a : Annotation) : Nat := 2 + a.value.elim 0 fun _ => 1
def Annotation.texts (a : Annotation) : List Bytes := word a.name ++ a.value.elim [] word

def notesNodes (a : Annotations) : Nat := a.elim 0 fun l => 1 + (l.map Annotation.nodes).sum
def notesTexts (a : Annotations) : List Bytes := a.elim [] fun l => l.flatMap Annotation.texts

def TypeNode.nodes : TypeNode → Nat
  | .map k v a => 1 + k.nodes + v.nodes + notesNodes a
  | .set e a => 1 + e.nodes + notesNodes a
  | .list e a => 1 + e.nodes + notesNodes a
  | .ref _ a => 2 + notesNodes a
def TypeNode.texts : TypeNode → List Bytes
  | .map k v a => k.texts ++ v.texts ++ notesTexts a
  | .set e a => e.texts ++ notesTexts a
  | .list e a => e.texts ++ notesTexts a
  | .ref n a => word n ++ notesTexts a

mutual
def Value.nodes : Value → Nat
  | .ident _ | .int _ | .float _ | .string _ => 1
  | .list l => 1 + valuesNodes l
  | .pairs l => 1 + pairsNodes l
def valuesNodes : List Value → Nat
  | [] => 0
  | a :: l => a.nodes + valuesNodes l
def pairsNodes : List (Value × Value) → Nat
  | [] => 0
  | (a, b) :: l => (1 + a.nodes + b.nodes) + pairsNodes l
end
mutual
def Value.texts : Value → List Bytes
  | .ident b | .int b | .float b | .string b => word b
  | .list l => valuesTexts l
  | .pairs l => pairsTexts l
def valuesTexts : List Value → List Bytes
  | [] => []
  | a :: l => a.texts ++ valuesTexts l
def pairsTexts : List (Value × Value) → List Bytes
  | [] => []
  | (a, b) :: l => (a.texts ++ b.texts) ++ pairsTexts l
end

def EnumValue.nodes (v : EnumValue) : Nat := 2 + v.value.elim 0 (fun _ => 1) + notesNodes v.annotations
def EnumValue.texts (v : EnumValue) : List Bytes := word v.name ++ v.value.elim [] word ++ notesTexts v.annotations

def Field.nodes (f : Field) : Nat := 2 + f.id.elim 0 (fun _ => 1) + f.type.nodes + f.default.elim 0 Value.nodes + notesNodes f.annotations
def Field.texts (f : Field) : List Bytes := f.id.elim [] word ++ f.type.texts ++ word f.name ++ f.default.elim [] Value.texts ++ notesTexts f.annotations

def fieldsNodes (l : List Field) : Nat := 1 + (l.map Field.nodes).sum
def fieldsTexts (l : List Field) : List Bytes := l.flatMap Field.texts

def Method.nodes (m : Method) : Nat := 2 + m.ret.elim 0 TypeNode.nodes + fieldsNodes m.arguments + m.throws.elim 0 fieldsNodes + notesNodes m.annotations
def Method.texts (m : Method) : List Bytes := m.ret.elim [] TypeNode.texts ++ word m.name ++ fieldsTexts m.arguments ++ m.throws.elim [] fieldsTexts ++ notesTexts m.annotations

def Def.nodes : Def → Nat
  | .bad _ _ => 1
  | .const t _ v => 2 + t.nodes + v.nodes
  | .typedef t _ a => 2 + t.nodes + notesNodes a
  | .enum _ l a => 3 + (l.map EnumValue.nodes).sum + notesNodes a
  | .struct _ _ _ l a => 2 + fieldsNodes l + notesNodes a
  | .service _ e l a => 3 + e.elim 0 (fun _ => 1) + (l.map Method.nodes).sum + notesNodes a
def Def.texts : Def → List Bytes
  | .bad _ _ => []
  | .const t n v => t.texts ++ word n ++ v.texts
  | .typedef t n a => t.texts ++ word n ++ notesTexts a
  | .enum n l a => word n ++ l.flatMap EnumValue.texts ++ notesTexts a
  | .struct _ _ n l a => word n ++ fieldsTexts l ++ notesTexts a
  | .service n e l a => word n ++ e.elim [] word ++ l.flatMap Method.texts ++ notesTexts a

def Header.nodes : Header → Nat
  | .include _ => 2
  | .namespace s _ a => 2 + s.elim 0 (fun _ => 1) + notesNodes a
def Header.texts : Header → List Bytes
  | .include p => word p
  | .namespace s n a => s.elim [] word ++ word n ++ notesTexts a

/-- All nodes of the file, itself included. -/
def File.nodes (f : File) : Nat := 1 + (f.headers.map Header.nodes).sum + (f.defs.map Def.nodes).sum

/-- All texts of the file. -/
def File.texts (f : File) : List Bytes := f.headers.flatMap Header.texts ++ f.defs.flatMap Def.texts

end GoThrift.Idl
