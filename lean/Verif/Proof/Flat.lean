import Verif.Model.Byte

/-! # Lemmas about flat streams -/

namespace GoThrift.Flat

theorem peek_ok (s : Flat) (n : Int) (h0 : 0 ≤ n) (hs : n.toNat ≤ s.size) (hl : n.toNat ≤ s.bytes.length) :
    s.peek n = .done (s.bytes.take n.toNat, none) := by
  unfold peek
  rw [if_neg (by omega), if_neg (by omega), if_pos hl]

theorem peek_short (s : Flat) (n : Int) (e : Err) (h0 : 0 ≤ n) (hs : n.toNat ≤ s.size) (hl : s.bytes.length < n.toNat)
    (he : s.fin = .err e) : s.peek n = .done (s.bytes, some e) := by
  unfold peek
  rw [if_neg (by omega), if_neg (by omega), if_neg (by omega), he]

theorem peek_block (s : Flat) (n : Int) (h0 : 0 ≤ n) (hs : n.toNat ≤ s.size) (hl : s.bytes.length < n.toNat)
    (he : s.fin = .block) : s.peek n = .blocked := by
  unfold peek
  rw [if_neg (by omega), if_neg (by omega), if_neg (by omega), he]

theorem peek_neg (s : Flat) (n : Int) (h0 : n < 0) : s.peek n = .done ([], some .negativeCount) := by
  unfold peek; rw [if_pos h0]

theorem discard_ok (s : Flat) (n : Int) (h0 : 0 ≤ n) (hl : n.toNat ≤ s.bytes.length) :
    s.discard n = .done (none, { s with bytes := s.bytes.drop n.toNat }) := by
  unfold discard; rw [if_neg (by omega), if_pos hl]

theorem discard_short (s : Flat) (n : Int) (e : Err) (h0 : 0 ≤ n) (hl : s.bytes.length < n.toNat) (he : s.fin = .err e) :
    s.discard n = .done (some e, { s with bytes := [] }) := by
  unfold discard; rw [if_neg (by omega), if_neg (by omega), he]

theorem discard_neg (s : Flat) (n : Int) (h0 : n < 0) : s.discard n = .done (some .negativeCount, s) := by
  unfold discard; rw [if_pos h0]

theorem discard_len (s : Flat) (b : Bytes) (h : b.length ≤ s.bytes.length) :
    s.discard b.length = .done (none, { s with bytes := s.bytes.drop b.length }) := by
  rw [discard_ok _ _ (by omega) (by omega)]; rfl

theorem readFull_ok (s : Flat) (n : Nat) (hl : n ≤ s.bytes.length) :
    s.readFull n = .done ((s.bytes.take n, none), { s with bytes := s.bytes.drop n }) := by
  unfold readFull; rw [if_pos hl]

theorem readFull_short (s : Flat) (n : Nat) (e : Err) (hl : s.bytes.length < n) (he : s.fin = .err e) :
    s.readFull n =
      .done ((s.bytes, some (if s.bytes ≠ [] ∧ e = .eof then .unexpectedEOF else e)), { s with bytes := [] }) := by
  unfold readFull; rw [if_neg (by omega), he]

end GoThrift.Flat
