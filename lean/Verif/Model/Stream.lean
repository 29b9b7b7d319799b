import Verif.Model.BufWriter
import Verif.Model.Bufio

/-!
# The protocol writers as Writers
-/

namespace GoThrift

/-- A protocol writer on its `bufio.Writer`, as a `thriftwire.Writer` (protocol.go:63-105): the methods of `*writer` (thriftbinary.go:264-393, thriftcompact.go:306-524). -/
def PW.wtr {C σ : Type} (T : Transport σ) (impl : WOp → WM C Unit) : Wtr (PW C σ) where
  step o x := x.step T impl (.op o)

/-- The binary writer (thriftbinary.go:264-393) on a transport. -/
def Binary.bufWriter {σ : Type} (strict : Bool) (T : Transport σ) : Wtr (PW Unit σ) := PW.wtr T (Binary.wimpl strict)

/-- The compact writer (thriftcompact.go:306-524) on a transport. -/
def Compact.bufWriter {σ : Type} (T : Transport σ) : Wtr (PW Compact.WState σ) := PW.wtr T Compact.wimpl

end GoThrift
