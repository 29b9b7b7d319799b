import Verif.Spec.Lex
import Verif.Model.Syntax

/-!
# Syntax trees that can be written down

Independent of the grammar of sequences of tokens: what the parts of a tree must be.
-/

namespace GoThrift.Spec

open Idl

/-- The bytes are the text of one token: its characters may stand in a source and are a lexeme of the token. -/
def TextOf (u : Unicode) (t : Token) (n : Bytes) : Prop := (∀ c ∈ chars n, c.Ok) ∧ Lexeme u t (chars n)

/-- An identifier: a word that is not reserved. -/
abbrev Identifier (u : Unicode) (n : Bytes) : Prop := TextOf u Tk.ident n

/-- What may be the name of a field: an identifier, or a reserved word. -/
def FieldWord (u : Unicode) (n : Bytes) : Prop := Identifier u n ∨ ∃ t, Reserved n t

/-- The names of annotations are identifiers, and their values are string literals with their quotes. -/
def AnnotationsOK (u : Unicode) (an : Annotations) : Prop :=
  ∀ l, an = some l → ∀ a ∈ l, Identifier u a.name ∧ ∀ v, a.value = some v → TextOf u Tk.string v

/-- Names of types are identifiers. -/
inductive TypeOK (u : Unicode) : TypeNode → Prop
  | map {k v : TypeNode} {an : Annotations} : TypeOK u k → TypeOK u v → AnnotationsOK u an → TypeOK u (.map k v an)
  | set {e : TypeNode} {an : Annotations} : TypeOK u e → AnnotationsOK u an → TypeOK u (.set e an)
  | list {e : TypeNode} {an : Annotations} : TypeOK u e → AnnotationsOK u an → TypeOK u (.list e an)
  | ref {n : Bytes} {an : Annotations} : Identifier u n → AnnotationsOK u an → TypeOK u (.ref n an)

/-- The texts in a value are those of literals of their kinds. -/
inductive ValueOK (u : Unicode) : Value → Prop
  | ident {x : Bytes} : Identifier u x → ValueOK u (.ident x)
  | int {x : Bytes} : TextOf u Tk.int x → ValueOK u (.int x)
  | float {x : Bytes} : TextOf u Tk.float x → ValueOK u (.float x)
  | string {x : Bytes} : TextOf u Tk.string x → ValueOK u (.string x)
  | list {l : List Value} : (∀ v ∈ l, ValueOK u v) → ValueOK u (.list l)
  | pairs {l : List (Value × Value)} : (∀ p ∈ l, ValueOK u p.1) → (∀ p ∈ l, ValueOK u p.2) → ValueOK u (.pairs l)

/-- Values of enums are integer literals. -/
def EnumValueOK (u : Unicode) (e : EnumValue) : Prop := Identifier u e.name ∧ (∀ v, e.value = some v → TextOf u Tk.int v) ∧ AnnotationsOK u e.annotations

/-- A field is not both required and optional. -/
def FieldOK (u : Unicode) (f : Field) : Prop :=
  (∀ i, f.id = some i → TextOf u Tk.int i) ∧ ¬ (f.required = true ∧ f.optional = true) ∧ TypeOK u f.type ∧ FieldWord u f.name ∧ (∀ v, f.default = some v → ValueOK u v) ∧
    AnnotationsOK u f.annotations

/-- A method is void iff it has no type. -/
def MethodOK (u : Unicode) (m : Method) : Prop :=
  (m.void = true ↔ m.ret = none) ∧ (∀ t, m.ret = some t → TypeOK u t) ∧ Identifier u m.name ∧ (∀ f ∈ m.arguments, FieldOK u f) ∧ (∀ l, m.throws = some l → ∀ f ∈ l, FieldOK u f) ∧
    AnnotationsOK u m.annotations

/-- No definition has been given up, and nothing is both a union and an exception. -/
def DefOK (u : Unicode) : Def → Prop
  | .bad _ _ => False
  | .const t n v => TypeOK u t ∧ Identifier u n ∧ ValueOK u v
  | .typedef t n an => TypeOK u t ∧ Identifier u n ∧ AnnotationsOK u an
  | .enum n l an => Identifier u n ∧ (∀ e ∈ l, EnumValueOK u e) ∧ AnnotationsOK u an
  | .struct un ex n l an => ¬ (un = true ∧ ex = true) ∧ Identifier u n ∧ (∀ f ∈ l, FieldOK u f) ∧ AnnotationsOK u an
  | .service n e l an => Identifier u n ∧ (∀ b, e = some b → Identifier u b) ∧ (∀ m ∈ l, MethodOK u m) ∧ AnnotationsOK u an

/-- The path of an include is a string literal; the names of a namespace are identifiers. -/
def HeaderOK (u : Unicode) : Header → Prop
  | .include p => TextOf u Tk.string p
  | .namespace sc n an => (∀ s, sc = some s → Identifier u s) ∧ Identifier u n ∧ AnnotationsOK u an

/-- The tree can be written down. -/
def Writable (u : Unicode) (f : File) : Prop := (∀ h ∈ f.headers, HeaderOK u h) ∧ ∀ d ∈ f.defs, DefOK u d

end GoThrift.Spec
