import Verif.Proof.Varint

/-!
# C18, C19: varints
-/

namespace GoThrift

open Spec

/-- **C18** (unsigned). On every byte stream that ends (with whatever error) `thriftwire.ReadUvarint` returns the same
value and error, and leaves the stream in the same position, as `binary.ReadUvarint`. `bufio.Reader` buffers have at least 16 bytes. -/
theorem C18_ReadUvarint (size : Nat) (hsize : 16 ≤ size) (bytes : Bytes) (e : Err) :
    readUvarint.run ⟨size, bytes, .err e⟩ = binReadUvarint.run ⟨size, bytes, .err e⟩ :=
  readUvarint_flat _ hsize (.inl ⟨e, rfl⟩)

/-- **C18** (signed). -/
theorem C18_ReadVarint (size : Nat) (hsize : 16 ≤ size) (bytes : Bytes) (e : Err) :
    readVarint.run ⟨size, bytes, .err e⟩ = binReadVarint.run ⟨size, bytes, .err e⟩ :=
  readVarint_flat _ hsize (.inl ⟨e, rfl⟩)

/-- Both sides of C18 return the value 300 on `AC 02` and the error `io.ErrUnexpectedEOF` on `AC`. -/
example : readUvarint.run ⟨16, [0xac, 0x02, 0x07], .err .eof⟩ = .done ((300, none), ⟨16, [0x07], .err .eof⟩) ∧
    (∃ x, readUvarint.run ⟨16, [0xac], .err .eof⟩ = .done ((x, some .unexpectedEOF), ⟨16, [], .err .eof⟩)) := by
  constructor
  · decide
  · exact ⟨_, rfl⟩

/-- **C19** round trip of unsigned varints through `encoding/binary`, followed by anything, however the stream ends
(in particular without waiting when the stream is idle after the last byte). -/
theorem C19_uvarint_roundtrip (x : BitVec 64) (size : Nat) (rest : Bytes) (fin : End) :
    binReadUvarint.run ⟨size, putUvarint x ++ rest, fin⟩ = .done ((x, none), ⟨size, rest, fin⟩) :=
  binReadUvarint_put x size rest fin

/-- **C19** round trip of zigzag varints. -/
theorem C19_varint_roundtrip (x : BitVec 64) (size : Nat) (rest : Bytes) (fin : End) :
    binReadVarint.run ⟨size, putVarint x ++ rest, fin⟩ = .done ((x, none), ⟨size, rest, fin⟩) :=
  binReadVarint_put x size rest fin

/-- **C19** the same through `thriftwire.ReadUvarint`, on streams that end. -/
theorem C19_wire_uvarint_roundtrip (x : BitVec 64) (size : Nat) (hsize : 16 ≤ size) (rest : Bytes) (e : Err) :
    readUvarint.run ⟨size, putUvarint x ++ rest, .err e⟩ = .done ((x, none), ⟨size, rest, .err e⟩) := by
  rw [C18_ReadUvarint _ hsize, C19_uvarint_roundtrip]

/-- **C19** the same through `thriftwire.ReadVarint`, on streams that end. -/
theorem C19_wire_varint_roundtrip (x : BitVec 64) (size : Nat) (hsize : 16 ≤ size) (rest : Bytes) (e : Err) :
    readVarint.run ⟨size, putVarint x ++ rest, .err e⟩ = .done ((x, none), ⟨size, rest, .err e⟩) := by
  rw [C18_ReadVarint _ hsize, C19_varint_roundtrip]

/-- **C19** the bytes written are the ULEB128 encoding of the number. -/
theorem C19_uvarint_bytes (x : BitVec 64) : putUvarint x = leb x.toNat := putUvarint_eq_leb x

/-- **C19** the bytes written for a signed number are the ULEB128 encoding of its zigzag image. -/
theorem C19_varint_bytes (x : BitVec 64) : putVarint x = leb (Spec.zigzag x.toInt) := by
  rw [putVarint, putUvarint_eq_leb, zigzag_eq]

theorem zigzag_lt (x : Int) (k : Nat) (h1 : -(2 ^ k : Nat) ≤ x) (h2 : x < (2 ^ k : Nat)) : Spec.zigzag x < 2 ^ (k + 1) := by
  unfold Spec.zigzag
  rw [Nat.pow_succ]
  split <;> omega

/-- **C19** at most 10 bytes. -/
theorem C19_uvarint_length (x : BitVec 64) : 0 < (putUvarint x).length ∧ (putUvarint x).length ≤ 10 := by
  rw [putUvarint_eq_leb]
  refine ⟨List.length_pos_iff.2 (leb_ne_nil _), leb_length_le 9 _ (Nat.lt_of_lt_of_le x.isLt (by decide))⟩

/-- **C19** at most 10 bytes for any int64, 5 for an int32, 3 for an int16. -/
theorem C19_varint_length (x64 : BitVec 64) (x32 : BitVec 32) (x16 : BitVec 16) :
    (putVarint x64).length ≤ 10 ∧ (putVarint (x32.signExtend 64)).length ≤ 5 ∧
      (putVarint (x16.signExtend 64)).length ≤ 3 := by
  refine ⟨(C19_uvarint_length _).2, ?_, ?_⟩
  · rw [C19_varint_bytes, BitVec.toInt_signExtend_of_le (by omega)]
    refine leb_length_le 4 _ (Nat.lt_of_lt_of_le (zigzag_lt _ 31 ?_ ?_) (by decide))
    · have := BitVec.le_toInt x32; omega
    · have := BitVec.toInt_lt (x := x32); omega
  · rw [C19_varint_bytes, BitVec.toInt_signExtend_of_le (by omega)]
    refine leb_length_le 2 _ (Nat.lt_of_lt_of_le (zigzag_lt _ 15 ?_ ?_) (by decide))
    · have := BitVec.le_toInt x16; omega
    · have := BitVec.toInt_lt (x := x16); omega

/-- **C19** `binary.ReadUvarint` accepts exactly the well-formed words of at most 10 bytes whose value fits in 64 bits,
consumes exactly the word and returns its value. -/
theorem C19_accepts_exactly (size : Nat) (bytes : Bytes) (fin : End) (v : BitVec 64) (s' : Flat) :
    binReadUvarint.run ⟨size, bytes, fin⟩ = .done ((v, none), s') ↔
      ∃ w rest, bytes = w ++ rest ∧ IsLeb w ∧ w.length ≤ 10 ∧ lebValue w < 2 ^ 64 ∧ v.toNat = lebValue w ∧
        s' = ⟨size, rest, fin⟩ := by
  constructor
  · intro h
    obtain ⟨w, rest, h1, h2, h3, h4, h5, h6⟩ := binReadUvarintLoop_ok size fin 10 0 0 bytes v s' rfl (by decide) h
    exact ⟨w, rest, h1, h2, h3, by simpa using h4, by simpa using h5, h6⟩
  · rintro ⟨w, rest, rfl, hw, hl, hv, he, rfl⟩
    have := binReadUvarintLoop_leb size fin rest w 10 0 0 hw rfl hl (by decide) (by simpa using hv)
    rw [binReadUvarint, show (0 : Nat) = 7 * 0 from rfl, this]
    congr 3
    apply BitVec.eq_of_toNat_eq
    simp [he]; omega

/-- **C19** a word of more than 10 bytes, or whose value exceeds 64 bits, is reported as overflow. -/
theorem C19_rejects (size : Nat) (w rest : Bytes) (fin : End) (hw : IsLeb w) (hbad : 10 < w.length ∨ 2 ^ 64 ≤ lebValue w) :
    ∃ v s', binReadUvarint.run ⟨size, w ++ rest, fin⟩ = .done ((v, some .varintOverflow), s') :=
  binReadUvarintLoop_reject size fin rest w 10 0 0 hw rfl (by decide) (by simpa using hbad)

/-- **C19** a word that is cut off by the end of the stream is an error: the transport's own if nothing was read or if it is not io.EOF,
and io.ErrUnexpectedEOF if io.EOF comes in the middle. -/
theorem C19_truncated (size : Nat) (w : Bytes) (hw : ∀ b ∈ w, 128 ≤ b.toNat) (hlen : w.length < 10) (e : Err) :
    ∃ v, binReadUvarint.run ⟨size, w, .err e⟩ =
      .done ((v, some (if w ≠ [] ∧ e = .eof then .unexpectedEOF else e)), ⟨size, [], .err e⟩) := by
  obtain ⟨v, h⟩ := binReadUvarintLoop_short size e w 10 0 0 0 hw hlen
  refine ⟨v, ?_⟩
  rw [binReadUvarint, maxVarintLen64, h]
  simp [List.length_pos_iff]

example : ∀ b ∈ ([0xac, 0xff] : Bytes), 128 ≤ b.toNat := by decide

/-- Both alternatives of C19_rejects occur. -/
example : IsLeb [0x80, 0x80, 0x80, 0x80, 0x80, 0x80, 0x80, 0x80, 0x80, 0x80, 0] ∧
    IsLeb [0xff, 0xff, 0xff, 0xff, 0xff, 0xff, 0xff, 0xff, 0xff, 0x02] ∧
    2 ^ 64 ≤ lebValue [0xff, 0xff, 0xff, 0xff, 0xff, 0xff, 0xff, 0xff, 0xff, 0x02] := by
  simp [IsLeb, lebValue]

example : IsLeb [0xac, 0x02] ∧ lebValue [0xac, 0x02] = 300 := by simp [IsLeb, lebValue]

end GoThrift
