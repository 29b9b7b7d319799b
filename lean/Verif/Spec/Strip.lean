import Verif.Spec.Grammar

/-!
# Tokens without separators
-/

namespace GoThrift.Spec

open Idl

/-- A comma or a semicolon. -/
def isSeparator (t : Token) : Bool := t = Tk.comma || t = Tk.semicolon

/-- The tokens without commas and semicolons. -/
def strip (w : List Lx) : List Lx := w.filter fun x => !isSeparator x.1

/-- The tokens without semicolons. -/
def noSemicolons (w : List Lx) : List Lx := w.filter fun x => x.1 != Tk.semicolon

end GoThrift.Spec
