import Verif.Spec.Lex

/-!
# Layout: what may be inserted between the lexemes of a text
-/

namespace GoThrift.Spec

open Idl

/-- A comment that ends at the end of its line; the newline does not belong to it. -/
def LineComment (w : List Chr) : Prop := ∃ open_ body, (open_ = [0x23] ∨ open_ = [0x2f, 0x2f]) ∧ 0x0a ∉ body ∧ runesOf w = open_ ++ body

/-- A comment between `/*` and `*/`. -/
def FullComment (w : List Chr) : Prop := ∃ body, ¬ [0x2a, 0x2f] <:+: body ++ [0x2a] ∧ runesOf w = [0x2f, 0x2a] ++ body ++ [0x2a, 0x2f]

/-- White space and comments, where each line comment has its newline. -/
inductive Gap : List Chr → Prop
  | nil : Gap []
  | white {c : Chr} {v : List Chr} : White c.1 → Gap v → Gap (c :: v)
  | line {w v : List Chr} {c : Chr} : LineComment w → c.1 = 0x0a → Gap v → Gap (w ++ c :: v)
  | full {w v : List Chr} : FullComment w → Gap v → Gap (w ++ v)

/-- The gap may stand behind the lexeme `w`: behind a line comment it begins with a newline, and behind the operator `/` not with another slash. -/
def Apart (w gap : List Chr) : Prop := ∀ c v, gap = c :: v → (LineComment w → c.1 = 0x0a) ∧ (runesOf w = [0x2f] → c.1 ≠ 0x2f)

/-- In the text `x ++ y`, `x` is white space and whole lexemes, and the gap may stand behind them. -/
inductive Cut (u : Unicode) (y gap : List Chr) : List Chr → Prop
  | nil : Cut u y gap []
  | white {c : Chr} {x : List Chr} : White c.1 → Cut u y gap x → Cut u y gap (c :: x)
  | lexeme {t : Token} {w x : List Chr} : NextLexeme u (w ++ (x ++ y)) t w (x ++ y) → (x = [] → Apart w gap) → Cut u y gap x → Cut u y gap (w ++ x)

end GoThrift.Spec
