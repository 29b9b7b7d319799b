import Verif.Spec.Grammar
import Verif.Spec.Lines

/-!
# Where things stand

A file in which what was given up is from the `i`-th token to the `j`-th, and the same with positions in a source.
-/

namespace GoThrift.Idl

/-- The position `pl i` of the `i`-th token for each `i` in what was given up. -/
def Def.place (pl : Nat → Nat) : Def → Def
  | .bad i j => .bad (pl i) (pl j)
  | d => d

/-- The same for all definitions of a file. -/
def File.place (pl : Nat → Nat) (f : File) : File := ⟨f.headers, f.defs.map (Def.place pl)⟩

/-- Where the `i`-th token that is not a comment begins; behind the last one, where the source ends. -/
def placeOf (src : Bytes) (toks : List Spec.TokenAt) (i : Nat) : Nat := (((Spec.code toks).map Spec.TokenAt.from_)[i]?).getD src.length

end GoThrift.Idl
