import Verif.Spec.Grammar
import Verif.Model.Scanner
import Verif.Spec.Names

/-!
# What an error of the parser means
-/

namespace GoThrift.Spec

open Idl

/-- The tokens that what is expected may begin with. -/
def begins : What → List Token
  | .tok t => [t]
  | .definition => defWords
  | .type => [Tk.map, Tk.set, Tk.list, Tk.ident]
  | .value => [Tk.ident, Tk.int, Tk.float, Tk.string, Tk.lbrack, Tk.lbrace]

/-- A text for each token: `a`, `1`, `1.5`, `""`, the operators and the reserved words. -/
def samples : List (Token × Bytes) := [(Tk.ident, [0x61]), (Tk.int, [0x31]), (Tk.float, [0x31, 0x2e, 0x35]), (Tk.string, [0x22, 0x22])] ++
  operators.map (fun p => (p.2, p.1.map fun r => BitVec.ofNat 8 r)) ++ reserved.map (fun p => (p.2, wordBytes p.1))

/-- The text for a token. -/
def sample (t : Token) : Bytes := (samples.lookup t).getD []

/-- A token in quotes: the operator or the reserved word, `IDENT`, `INT`, `FLOAT`, `STRING`, or `EOF`. -/
def quoted (t : Token) : Bytes := wordBytes "'" ++ wordBytes (nameOf "token" tokenNames t) ++ wordBytes "'"

/-- What the message says after "expected". -/
def whatText : What → Bytes
  | .tok t => quoted t
  | .definition => wordBytes "definition"
  | .type => wordBytes "type"
  | .value => wordBytes "value"

/-- What the message says after "found": the text of a name, a number or a string, else the token in quotes. -/
def foundText (t : Token) (text : Bytes) : Bytes :=
  if t ∈ [Tk.ident, Tk.int, Tk.float, Tk.string] then text else quoted t

end GoThrift.Spec
