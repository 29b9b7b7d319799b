import Verif.Model.Utf8
import Verif.Model.GoType
import Verif.Model.Token

/-!
# The lexical grammar of .thrift files

Independent of the scanner: a text is a sequence of characters, a character is a rune with its bytes, and a text is cut into white space and lexemes, each of them the longest
one there is at its place.
-/

namespace GoThrift.Spec

open Idl

/-- A character: the rune and its bytes. A byte that does not begin an encoded rune counts as the rune `U+FFFD`. -/
abbrev Chr := Nat × Bytes

/-- At most `n` characters of the bytes. -/
def charsUpTo : Nat → Bytes → List Chr
  | 0, _ => []
  | n + 1, src => if src = [] then [] else ((Utf8.decodeRune src).1, src.take (Utf8.decodeRune src).2) :: charsUpTo n (src.drop (Utf8.decodeRune src).2)

/-- The characters of the bytes. -/
def chars (src : Bytes) : List Chr := charsUpTo src.length src

/-- The bytes of a text. -/
def bytesOf (w : List Chr) : Bytes := w.flatMap Prod.snd

/-- The runes of a text. -/
def runesOf (w : List Chr) : List Nat := w.map Prod.fst

/-- A character that may stand in a source: not NUL, not a byte that is not UTF-8, not a byte order mark. -/
def Chr.Ok (c : Chr) : Prop := c.1 ≠ 0 ∧ ¬ (c.1 = 0xfffd ∧ c.2.length = 1) ∧ c.1 ≠ 0xfeff

instance (c : Chr) : Decidable c.Ok := inferInstanceAs (Decidable (_ ∧ _))

/-- The text of a source, without a byte order mark at its beginning. -/
def sourceText (src : Bytes) : List Chr := match chars src with
  | c :: cs => if c.1 = 0xfeff then cs else c :: cs
  | [] => []

/-- White space -/
def White (r : Nat) : Prop := r = 0x20 ∨ r = 0x09 ∨ r = 0x0a ∨ r = 0x0d

/-- Decimal digits -/
def Digit (r : Nat) : Prop := 0x30 ≤ r ∧ r ≤ 0x39

/-- Hexadecimal digits -/
def HexDigit (r : Nat) : Prop := Digit r ∨ (0x41 ≤ r ∧ r ≤ 0x46) ∨ (0x61 ≤ r ∧ r ≤ 0x66)

/-- What an identifier begins with. -/
def IdentStart (u : Unicode) (r : Nat) : Prop := (0x41 ≤ r ∧ r ≤ 0x5a) ∨ (0x61 ≤ r ∧ r ≤ 0x7a) ∨ r = 0x5f ∨ (0x80 ≤ r ∧ u.isLetter r)

/-- What an identifier consists of. -/
def IdentPart (u : Unicode) (r : Nat) : Prop := IdentStart u r ∨ Digit r ∨ r = 0x2e ∨ (0x80 ≤ r ∧ u.isDigit r)

/-- The tables of package unicode agree with ASCII. -/
def AsciiTables (u : Unicode) : Prop := ∀ r, r < 0x80 →
  (u.isLetter r = true ↔ (0x41 ≤ r ∧ r ≤ 0x5a) ∨ (0x61 ≤ r ∧ r ≤ 0x7a)) ∧ (u.isDigit r = true ↔ 0x30 ≤ r ∧ r ≤ 0x39)

/-- The reserved words. The words of the language are those of its grammar; `definition_beg` and `definition_end` are reserved because of how the
code fills its table. -/
def reserved : List (String × Token) := [("include", Tk.include_), ("namespace", Tk.namespace_), ("definition_beg", Tk.definitionBeg), ("const", Tk.const), ("typedef", Tk.typedef),
  ("enum", Tk.enum), ("struct", Tk.struct), ("union", Tk.union), ("exception", Tk.exception), ("service", Tk.service), ("definition_end", Tk.definitionEnd),
  ("required", Tk.required), ("optional", Tk.optional), ("extends", Tk.extends_), ("oneway", Tk.oneway), ("void", Tk.void), ("throws", Tk.throws),
  ("map", Tk.map), ("set", Tk.set), ("list", Tk.list)]

/-- The text of a word. -/
def wordBytes (s : String) : Bytes := s.toList.map fun c => BitVec.ofNat 8 c.toNat

/-- A word is reserved for a token. -/
def Reserved (w : Bytes) (t : Token) : Prop := ∃ s, (s, t) ∈ reserved ∧ w = wordBytes s

/-- The operators and delimiters. -/
def operators : List (List Nat × Token) := [([0x2b], Tk.add), ([0x2d], Tk.sub), ([0x2a], Tk.mul), ([0x25], Tk.rem), ([0x26], Tk.and), ([0x7c], Tk.or), ([0x5e], Tk.xor),
  ([0x3d, 0x3d], Tk.eql), ([0x3c], Tk.lss), ([0x3e], Tk.gtr), ([0x3d], Tk.assign), ([0x21], Tk.not), ([0x28], Tk.lparen), ([0x5b], Tk.lbrack), ([0x7b], Tk.lbrace), ([0x2c], Tk.comma), ([0x2e], Tk.period),
  ([0x29], Tk.rparen), ([0x5d], Tk.rbrack), ([0x7d], Tk.rbrace), ([0x3b], Tk.semicolon), ([0x3a], Tk.colon), ([0x2f], Tk.quo)]

/-- A sign or nothing. -/
def Sign (w : List Nat) : Prop := w = [] ∨ w = [0x2b] ∨ w = [0x2d]

/-- A fraction: a point and digits, or nothing. -/
def Fraction (w : List Nat) : Prop := w = [] ∨ ∃ ds, (∀ d ∈ ds, Digit d) ∧ w = 0x2e :: ds

/-- An exponent: `e`, a sign, and digits, or nothing. -/
def Exponent (w : List Nat) : Prop := w = [] ∨ ∃ e s ds, (e = 0x65 ∨ e = 0x45) ∧ Sign s ∧ (∀ d ∈ ds, Digit d) ∧ w = e :: (s ++ ds)

/-- What may stand between the quotes `q` of a string. -/
inductive StringBody (q : Nat) : List Nat → Prop
  | nil : StringBody q []
  | plain {r : Nat} {w : List Nat} : r ≠ q → r ≠ 0x5c → r ≠ 0x0a → StringBody q w → StringBody q (r :: w)
  | escape {r : Nat} {w : List Nat} : r = q ∨ r = 0x5c ∨ r = 0x6e ∨ r = 0x72 ∨ r = 0x74 → StringBody q w → StringBody q (0x5c :: r :: w)

/-- Lexemes: the token and the text. -/
inductive Lexeme (u : Unicode) : Token → List Chr → Prop
  | word {c : Chr} {w : List Chr} {t : Token} : IdentStart u c.1 → (∀ d ∈ w, IdentPart u d.1) →
      (Reserved (bytesOf (c :: w)) t ∨ (t = Tk.ident ∧ ∀ t, ¬ Reserved (bytesOf (c :: w)) t)) → Lexeme u t (c :: w)
  | hex {w : List Chr} {sign ds : List Nat} {x : Nat} : Sign sign → (x = 0x78 ∨ x = 0x58) → (∀ d ∈ ds, HexDigit d) → runesOf w = sign ++ 0x30 :: x :: ds → Lexeme u Tk.int w
  | int {w : List Chr} {sign ds : List Nat} : Sign sign → ds ≠ [] → (∀ d ∈ ds, Digit d) → runesOf w = sign ++ ds → Lexeme u Tk.int w
  | float {w : List Chr} {sign ds f e : List Nat} : Sign sign → ds ≠ [] → (∀ d ∈ ds, Digit d) → Fraction f → Exponent e → f ++ e ≠ [] → runesOf w = sign ++ ds ++ f ++ e →
      Lexeme u Tk.float w
  | string {w : List Chr} {q : Nat} {body : List Nat} : q = 0x22 ∨ q = 0x27 → StringBody q body → runesOf w = q :: (body ++ [q]) → Lexeme u Tk.string w
  | operator {w : List Chr} {t : Token} : (runesOf w, t) ∈ operators → Lexeme u t w
  | lineComment {w : List Chr} {open_ body : List Nat} : open_ = [0x23] ∨ open_ = [0x2f, 0x2f] → 0x0a ∉ body → runesOf w = open_ ++ body → Lexeme u Tk.comment w
  | fullComment {w : List Chr} {body : List Nat} : ¬ [0x2a, 0x2f] <:+: body ++ [0x2a] → runesOf w = [0x2f, 0x2a] ++ body ++ [0x2a, 0x2f] → Lexeme u Tk.comment w

/-- The next lexeme of a text and what follows it: the longest one. A `/*` begins a comment also if the comment has no end. -/
structure NextLexeme (u : Unicode) (cs : List Chr) (t : Token) (w rest : List Chr) : Prop where
  split : cs = w ++ rest
  lexeme : Lexeme u t w
  longest : ∀ t' w' rest', cs = w' ++ rest' → Lexeme u t' w' → w'.length ≤ w.length
  comment : ¬ (runesOf w = [0x2f] ∧ ∃ c rest', rest = c :: rest' ∧ c.1 = 0x2a)

/-- A text is white space and lexemes; the result is the lexemes that are not comments. -/
inductive Lex (u : Unicode) : List Chr → List (Token × Bytes) → Prop
  | nil : Lex u [] []
  | white {c : Chr} {cs : List Chr} {l : List (Token × Bytes)} : White c.1 → Lex u cs l → Lex u (c :: cs) l
  | comment {cs w rest : List Chr} {l : List (Token × Bytes)} : NextLexeme u cs Tk.comment w rest → Lex u rest l → Lex u cs l
  | token {cs w rest : List Chr} {t : Token} {l : List (Token × Bytes)} : NextLexeme u cs t w rest → t ≠ Tk.comment → Lex u rest l → Lex u cs ((t, bytesOf w) :: l)

end GoThrift.Spec
