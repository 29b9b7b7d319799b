import Verif.Model.GoType
import Verif.Model.Utf8

/-!
# The grammar of `thrift` struct tags

`tag = id { "," option }`, `id` a decimal int16, `option` a Go identifier.
-/

namespace GoThrift.Spec

/-- The number a sequence of ASCII digits denotes. -/
def decimal (digits : Bytes) : Nat := digits.foldl (fun n d => 10 * n + (d.toNat - 0x30)) 0

/-- `s` is a decimal integer, with an optional sign, of value `n`. -/
def DecimalInt (s : Bytes) (n : Int) : Prop :=
  ∃ digits, digits ≠ [] ∧ (∀ d ∈ digits, 0x30 ≤ d.toNat ∧ d.toNat ≤ 0x39) ∧
    ((s = digits ∧ n = decimal digits) ∨ (s = 0x2b :: digits ∧ n = decimal digits) ∨ (s = 0x2d :: digits ∧ n = -(decimal digits : Int)))

/-- All runes of `s` satisfy `f`. -/
inductive AllRunes (f : Nat → Bool) : Bytes → Prop where
  | nil : AllRunes f []
  | cons {s : Bytes} : s ≠ [] → f (Utf8.decodeRune s).1 = true → AllRunes f (s.drop (Utf8.decodeRune s).2) → AllRunes f s

/-- A Go identifier, with numbers of all kinds allowed after the first rune. -/
def Ident (u : Unicode) (s : Bytes) : Prop :=
  s ≠ [] ∧ ((Utf8.decodeRune s).1 = 0x5f ∨ u.isLetter (Utf8.decodeRune s).1 = true) ∧
    AllRunes (fun r => r == 0x5f || u.isLetter r || u.isNumber r) s

/-- The bytes of `required`. -/
def requiredText : Bytes := [0x72, 0x65, 0x71, 0x75, 0x69, 0x72, 0x65, 0x64]

/-- An option that is spelled like `required` up to case and underscores, without being it. -/
def Resembles (u : Unicode) (o : Bytes) : Prop := o ≠ requiredText ∧ (u.toLower o).filter (· != 0x5f) = requiredText

/-- `tag` declares a field with this id; `required` says whether the option is there. -/
def TagDeclares (u : Unicode) (tag : Bytes) (id : BitVec 16) (required : Bool) : Prop :=
  ∃ (s : Bytes) (opts : List Bytes), tag = s ++ (opts.map (0x2c :: ·)).flatten ∧
    DecimalInt s id.toInt ∧ (∀ o ∈ opts, Ident u o ∧ ¬ Resembles u o) ∧ opts.Nodup ∧
    (required = true ↔ requiredText ∈ opts)

end GoThrift.Spec
