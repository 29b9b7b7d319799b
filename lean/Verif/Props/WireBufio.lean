import Verif.Proof.WireBufio

/-!
# C20, C21: Next, ReadString, ReadBytes
-/

namespace GoThrift

open Spec

/-- **C20** enough input: exactly the next `n` bytes, advancing by `n`. -/
theorem C20_next_ok (size n : Nat) (hn : n ≤ size) (bytes : Bytes) (hl : n ≤ bytes.length) (fin : End) :
    (next n).run ⟨size, bytes, fin⟩ = .done ((bytes.take n, none), ⟨size, bytes.drop n, fin⟩) :=
  next_ok ⟨size, bytes, fin⟩ n (by omega) (by simpa using hn) (by simpa using hl)

/-- **C20** too little input: what is left, advancing past it, with the stream's own error; `io.EOF` becomes
`io.ErrUnexpectedEOF` when something was left. -/
theorem C20_next_short (size n : Nat) (hn : n ≤ size) (bytes : Bytes) (hl : bytes.length < n) (e : Err) :
    (next n).run ⟨size, bytes, .err e⟩ =
      .done ((bytes, some (if bytes ≠ [] ∧ e = .eof then .unexpectedEOF else e)), ⟨size, [], .err e⟩) :=
  next_short ⟨size, bytes, .err e⟩ n e (by omega) (by simpa using hn) (by simpa using hl) rfl

/-- **C20** a negative count is an error and consumes nothing. -/
theorem C20_next_negative (n : Int) (hn : n < 0) (s : Flat) :
    (next n).run s = .done (([], some .negativeCount), s) :=
  next_neg s n hn

example : (next 2).run ⟨16, [1, 2, 3], .err .eof⟩ = .done (([1, 2], none), ⟨16, [3], .err .eof⟩) ∧
    (next 4).run ⟨16, [1, 2, 3], .err .eof⟩ = .done (([1, 2, 3], some .unexpectedEOF), ⟨16, [], .err .eof⟩) ∧
    (next 4).run ⟨16, [], .err .eof⟩ = .done (([], some .eof), ⟨16, [], .err .eof⟩) := by
  decide

/-- **C21** ReadString with enough input, for every `n`, also larger than the buffer. -/
theorem C21_readString_ok (size n : Nat) (hsize : 0 < size) (bytes : Bytes) (hl : n ≤ bytes.length) (fin : End) :
    (wireReadString n).run ⟨size, bytes, fin⟩ = .done ((bytes.take n, none), ⟨size, bytes.drop n, fin⟩) :=
  wireReadString_ok ⟨size, bytes, fin⟩ n (by omega) hsize (by simpa using hl)

/-- **C21** ReadString with too little input. -/
theorem C21_readString_short (size n : Nat) (hsize : 0 < size) (bytes : Bytes) (hl : bytes.length < n) (e : Err) :
    (wireReadString n).run ⟨size, bytes, .err e⟩ =
      .done ((bytes, some (if bytes ≠ [] ∧ e = .eof then .unexpectedEOF else e)), ⟨size, [], .err e⟩) :=
  wireReadString_short ⟨size, bytes, .err e⟩ n e hsize (by simpa using hl) rfl

/-- **C21** ReadString with a negative count. -/
theorem C21_readString_negative (n : Int) (hn : n < 0) (s : Flat) :
    (wireReadString n).run s = .done (([], some .negativeCount), s) :=
  wireReadString_neg s n hn

/-- **C21** ReadBytes with enough input: appended to `buf`. -/
theorem C21_readBytes_ok (size n : Nat) (hsize : 0 < size) (buf bytes : Bytes) (hl : n ≤ bytes.length) (fin : End) :
    (wireReadBytes n buf).run ⟨size, bytes, fin⟩ = .done ((buf ++ bytes.take n, none), ⟨size, bytes.drop n, fin⟩) :=
  wireReadBytes_ok ⟨size, bytes, fin⟩ n buf (by omega) hsize (by simpa using hl)

/-- **C21** ReadBytes with too little input. -/
theorem C21_readBytes_short (size n : Nat) (hsize : 0 < size) (buf bytes : Bytes) (hl : bytes.length < n) (e : Err) :
    (wireReadBytes n buf).run ⟨size, bytes, .err e⟩ =
      .done ((buf ++ bytes, some (if bytes ≠ [] ∧ e = .eof then .unexpectedEOF else e)), ⟨size, [], .err e⟩) :=
  wireReadBytes_short ⟨size, bytes, .err e⟩ n buf e hsize (by simpa using hl) rfl

/-- **C21** ReadBytes with a negative count. -/
theorem C21_readBytes_negative (n : Int) (hn : n < 0) (buf : Bytes) (s : Flat) :
    (wireReadBytes n buf).run s = .done ((buf, some .negativeCount), s) :=
  wireReadBytes_neg s n buf hn

/-- A string longer than the buffer: several chunks. -/
example : (wireReadString 5).run ⟨2, [1, 2, 3, 4, 5, 6], .block⟩ = .done (([1, 2, 3, 4, 5], none), ⟨2, [6], .block⟩) ∧
    (wireReadString 5).run ⟨2, [1, 2, 3, 4], .err .eof⟩ = .done (([1, 2, 3, 4], some .unexpectedEOF), ⟨2, [], .err .eof⟩) := by
  decide

end GoThrift
