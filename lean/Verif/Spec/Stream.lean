import Verif.Model.Basic

/-! # What short reads report -/

namespace GoThrift.Spec

/-- The error expected when some bytes were wanted and only the bytes `got` were there before the stream ended with `e`:
`io.EOF` in the middle becomes `io.ErrUnexpectedEOF`. -/
def shortErr (got : Bytes) (e : Err) : Err := if got ≠ [] ∧ e = .eof then .unexpectedEOF else e

end GoThrift.Spec
