import Verif.Model.Binary
import Verif.Model.Compact

/-!
# thriftwire.Protocol: the protocols of the repository and JoinProtocol
-/

namespace GoThrift

/-- A Reader: an implementation together with its current state. -/
structure AnyReader where
  S : Type
  impl : Rdr S
  state : S

/-- A Writer (over a sink that accepts everything): an implementation together with its current state. -/
structure AnyWriter where
  S : Type
  impl : Wtr S
  state : S

/-- `thriftwire.Protocol` (encoding/thriftwire/protocol.go:13-16). The `io.Reader` is given by the bytes it will deliver and how
it ends; the fragmentation into reads is the subject of `Verif/Model/Bufio.lean`. -/
structure Protocol where
  newReader : Bytes → End → AnyReader
  newWriter : AnyWriter

/-- Buffer size of `bufio.NewReader` (Go standard library, `defaultBufSize`). -/
abbrev defaultBufSize : Nat := 4096

/-- `thriftbinary.Protocol` (strict) and `ProtocolNonStrict` (thriftbinary.go:26-53; newReader 66-68, newWriter 260-262) -/
def Binary.protocol (strict : Bool) : Protocol where
  newReader b fin := ⟨Unit × Flat, Binary.reader strict, ((), ⟨defaultBufSize, b, fin⟩)⟩
  newWriter := ⟨Unit × Bytes, Binary.writer strict, ((), [])⟩

/-- `thriftcompact.Protocol` (thriftcompact.go:22-32) -/
def Compact.protocol : Protocol where
  newReader b fin := ⟨RState × Flat, Compact.reader, ({}, ⟨defaultBufSize, b, fin⟩)⟩
  newWriter := ⟨WState × Bytes, Compact.writer, ({}, [])⟩

/-- `thriftwire.JoinProtocol` (encoding/thriftwire/protocol.go:20-27) -/
def joinProtocol (r w : Protocol) : Protocol where
  newReader b fin := r.newReader b fin
  newWriter := w.newWriter

end GoThrift
