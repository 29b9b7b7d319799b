import Verif.Model.Varint

/-!
# encoding/thriftwire/bufio.go
-/

namespace GoThrift

/-- `thriftwire.Next` (encoding/thriftwire/bufio.go:12-21). -/
def next (n : Int) : BProg (Bytes × Option Err) :=
  .peek n fun buf err =>
  .discard buf.length fun _ =>
  .ret (buf,
    if (buf.length : Int) = n then none
    else if buf.length > 0 ∧ err = some .eof then some .unexpectedEOF
    else err)

/-- The loop shared by `ReadString` (bufio.go:29-43, `acc` is the string builder) and
`ReadBytes` (bufio.go:52-65, `acc` is `buf`). The first argument is fuel: every iteration that does not return
reads at least one byte, so `n` iterations suffice. -/
def readLoop : Nat → Int → Int → Bytes → BProg (Bytes × Option Err)
  | fuel, n, left, acc =>
    if left > 0 then
      match fuel with
      | 0 => .diverge
      | fuel + 1 =>
        .size fun sz =>
        (next (min left sz)).bind fun r =>
          let acc := acc ++ r.1
          let left := left - r.1.length
          match r.2 with
          | some e => .ret (acc, some (if left ≠ n ∧ e = .eof then .unexpectedEOF else e))
          | none => readLoop fuel n left acc
    else .ret (acc, none)

/-- `thriftwire.ReadString` (encoding/thriftwire/bufio.go:24-43). -/
def wireReadString (n : Int) : BProg (Bytes × Option Err) :=
  .size fun sz =>
    if (sz : Int) ≥ n then next n
    else readLoop n.toNat n n []

/-- `thriftwire.ReadBytes` (encoding/thriftwire/bufio.go:47-65). -/
def wireReadBytes (n : Int) (buf : Bytes) : BProg (Bytes × Option Err) :=
  .size fun sz =>
    if (sz : Int) ≥ n then (next n).bind fun r => .ret (buf ++ r.1, r.2)
    else readLoop n.toNat n n buf

end GoThrift
