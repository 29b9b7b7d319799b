import Verif.Model.Scanner

/-!
# Lines, columns and ranges of a source
-/

namespace GoThrift.Spec

open Idl

/-- A line begins here: behind a newline, but not at the end of the source. -/
def startsLine (src : Bytes) (i : Nat) : Bool := decide (0 < i ∧ src[i - 1]? = some 0x0a)

/-- The offsets at which lines begin: 0 and behind each newline, but not at the end of the source. -/
def lineStarts (src : Bytes) : List Nat := 0 :: (List.range src.length).filter (startsLine src)

/-- The line of an offset, counted from 1: the number of lines that begin at or before it. -/
def lineOf (src : Bytes) (offset : Nat) : Nat := ((lineStarts src).filter fun b => decide (b ≤ offset)).length

/-- The column of an offset, in bytes counted from 1, in the last line that begins at or before it. -/
def columnOf (src : Bytes) (offset : Nat) : Nat := offset - ((lineStarts src).filter fun b => decide (b ≤ offset)).getLastD 0 + 1

/-- One text is before the other or equal in the order of the bytes: a beginning of it, or smaller where they first differ. -/
def TextLE (x y : Bytes) : Prop := x <+: y ∨ ∃ p a r b s, x = p ++ a :: r ∧ y = p ++ b :: s ∧ a.toNat < b.toNat

/-- A token with the range of its bytes and its text. -/
structure TokenAt where
  tok : Token
  from_ : Nat
  to : Nat
  text : Bytes
  deriving DecidableEq, Repr

/-- Call `next` until the token is EOF. -/
def scanAll (u : Unicode) : Nat → Scanner → Out (List TokenAt × Scanner)
  | 0, _ => .diverged
  | n + 1, s =>
    (s.next u).bind fun s => s.lit.bind fun l =>
    if s.tok = Tk.eof then .done ([⟨s.tok, s.pos, s.offset, l⟩], s)
    else (scanAll u n s).bind fun r => .done (⟨s.tok, s.pos, s.offset, l⟩ :: r.1, r.2)

/-- What is not a comment and not the end. -/
def code (l : List TokenAt) : List TokenAt := l.filter fun t => decide (t.tok ≠ Tk.comment ∧ t.tok ≠ Tk.eof)

/-- Token and text of what is not a comment and not the end. -/
def lexemes (l : List TokenAt) : List (Token × Bytes) := (l.filter fun t => decide (t.tok ≠ Tk.comment ∧ t.tok ≠ Tk.eof)).map fun t => (t.tok, t.text)

end GoThrift.Spec
