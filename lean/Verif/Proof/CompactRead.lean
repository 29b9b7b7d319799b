import Verif.Proof.BE
import Verif.Proof.Holds
import Verif.Proof.WireBufio
import Verif.Proof.Varint

/-! # The compact reader on compact encodings -/

namespace GoThrift.Compact

open Spec Spec.TVal

deriving instance DecidableEq for Except

/-! ## Varints of the spec and of the model -/

theorem toInt_ofNat64 (n : Nat) (hn : n < 2 ^ 63) : (BitVec.ofNat 64 n).toInt = n := by
  rw [BitVec.toInt_ofNat']; simp [Int.bmod]; omega

theorem loopCount_ofNat (n : Nat) (h : n < 2 ^ 63) : loopCount (BitVec.ofNat 64 n) = n := by
  rw [loopCount, toInt_ofNat64 n h]; rfl

theorem leb_eq_put (n : Nat) (h : n < 2 ^ 64) : leb n = putUvarint (BitVec.ofNat 64 n) := by
  rw [putUvarint_eq_leb, BitVec.toNat_ofNat, Nat.mod_eq_of_lt h]

theorem lebz16 (v : BitVec 16) : leb (Spec.zigzag v.toInt) = putVarint (v.signExtend 64) := by
  rw [putVarint, putUvarint_eq_leb, zigzag_eq, BitVec.toInt_signExtend_of_le (by omega)]

theorem lebz32 (v : BitVec 32) : leb (Spec.zigzag v.toInt) = putVarint (v.signExtend 64) := by
  rw [putVarint, putUvarint_eq_leb, zigzag_eq, BitVec.toInt_signExtend_of_le (by omega)]

theorem lebz64 (v : BitVec 64) : leb (Spec.zigzag v.toInt) = putVarint v := by
  rw [putVarint, putUvarint_eq_leb, zigzag_eq]

theorem setWidth_signExtend16 (v : BitVec 16) : (v.signExtend 64).setWidth 16 = v := by
  apply BitVec.eq_of_getLsbD_eq; intro i hi; simp [BitVec.getLsbD_signExtend, hi]; omega

theorem setWidth_signExtend32 (v : BitVec 32) : (v.signExtend 64).setWidth 32 = v := by
  apply BitVec.eq_of_getLsbD_eq; intro i hi; simp [BitVec.getLsbD_signExtend, hi]; omega

/-! ## Nibbles and type codes -/

theorem nibbles_lo (hi lo : Nat) (h1 : hi < 16) (h2 : lo < 16) : nibbles hi lo &&& 15 = BitVec.ofNat 8 lo := by
  have : ∀ a b : Fin 16, nibbles a b &&& 15 = BitVec.ofNat 8 b := by decide +kernel
  exact this ⟨hi, h1⟩ ⟨lo, h2⟩

theorem nibbles_hi (hi lo : Nat) (h1 : hi < 16) (h2 : lo < 16) : nibbles hi lo >>> 4 = BitVec.ofNat 8 hi := by
  have : ∀ a b : Fin 16, nibbles a b >>> 4 = BitVec.ofNat 8 a := by decide +kernel
  exact this ⟨hi, h1⟩ ⟨lo, h2⟩

theorem code_spec (t : WType) (h : ValidTy t) :
    typeCompact t = .ok (compactCode t) ∧ wire (compactCode t) = .ok t ∧ (compactCode t).toNat < 16 ∧ compactCode t ≠ 0 ∧
      t ≠ Ty.stop := by
  revert h; revert t; decide +kernel

theorem validTy_ty (v : TVal) : ValidTy v.ty := by
  cases v <;> simp only [ty] <;> decide

/-- The code in the header of a field with value `v`. -/
theorem fieldCode_spec (v : TVal) : wire (compactFieldCode v) = .ok v.ty ∧ (compactFieldCode v).toNat < 16 := by
  cases v with
  | bool b => cases b <;> decide
  | _ => simp only [compactFieldCode, ty]; decide

section
variable (sz : Nat) (rest : Bytes) (fin : End) (c : RState)

theorem readByte_run (b : Byte) : readByte.run c ⟨sz, b :: rest, fin⟩ = .done ((.ok b, c), ⟨sz, rest, fin⟩) := by
  simp [readByte, RM.run_lift, BProg.run, Flat.readByte]

theorem ofExcept_run {α : Type} (r : Except Err α) (s : Flat) : (ofExcept r : M α).run c s = .done ((r, c), s) := by
  simp [ofExcept, RM.run_lift, BProg.run]

theorem readSize_run (n : Nat) (hn : n < 2 ^ 64) :
    readSize.run c ⟨sz, leb n ++ rest, fin⟩ = .done ((.ok (BitVec.ofNat 64 n), c), ⟨sz, rest, fin⟩) := by
  rw [readSize, RM.run_lift, BProg.run_bind, leb_eq_put n hn, binReadUvarint_put]
  simp [BProg.run, toExcept]

theorem readI64_run (v : BitVec 64) :
    readI64.run c ⟨sz, leb (Spec.zigzag v.toInt) ++ rest, fin⟩ = .done ((.ok v, c), ⟨sz, rest, fin⟩) := by
  rw [readI64, RM.run_lift, BProg.run_bind, lebz64, binReadVarint_put]
  simp [BProg.run, toExcept]

theorem readI64_run' (v : BitVec 64) :
    readI64.run c ⟨sz, putVarint v ++ rest, fin⟩ = .done ((.ok v, c), ⟨sz, rest, fin⟩) := by
  rw [← lebz64, readI64_run]

theorem readI32_run (v : BitVec 32) :
    readI32.run c ⟨sz, leb (Spec.zigzag v.toInt) ++ rest, fin⟩ = .done ((.ok v, c), ⟨sz, rest, fin⟩) := by
  simp only [readI32, RM.bind_eq, RM.run_bind, lebz32, readI64_run', Out.bind_done, RM.pure_eq, RM.run_ok,
    setWidth_signExtend32]

theorem readI16_run (v : BitVec 16) :
    readI16.run c ⟨sz, leb (Spec.zigzag v.toInt) ++ rest, fin⟩ = .done ((.ok v, c), ⟨sz, rest, fin⟩) := by
  simp only [readI16, RM.bind_eq, RM.run_bind, lebz16, readI64_run', Out.bind_done, RM.pure_eq, RM.run_ok,
    setWidth_signExtend16]

theorem discard_run (v : Bytes) :
    (discard v.length).run c ⟨sz, v ++ rest, fin⟩ = .done ((.ok (), c), ⟨sz, rest, fin⟩) := by
  rw [discard, RM.run_lift]
  simp only [BProg.run]
  rw [Flat.discard_ok _ _ (by omega) (by simp)]
  simp [toExcept]

theorem readUUID_run (v : Bytes) (hv : v.length = 16) :
    readUUID.run c ⟨sz, v ++ rest, fin⟩ = .done ((.ok v, c), ⟨sz, rest, fin⟩) := by
  rw [readUUID, RM.run_lift]
  simp only [BProg.run]
  rw [Flat.readFull_ok _ _ (by simp; omega)]
  simp [toExcept, ← hv]

theorem skipUUID_run (v : Bytes) (hv : v.length = 16) :
    skipUUID.run c ⟨sz, v ++ rest, fin⟩ = .done ((.ok (), c), ⟨sz, rest, fin⟩) := by
  rw [skipUUID, show (16 : Int) = v.length by omega, discard_run]

theorem readMapBegin_run (kt vt : WType) (n : Nat) (hk : n ≠ 0 → ValidTy kt ∧ ValidTy vt) (hn : n < 2 ^ 63) :
    readMapBegin.run c ⟨sz, compactMapHeader kt vt n ++ rest, fin⟩ =
      .done ((.ok ⟨if n = 0 then Ty.stop else kt, if n = 0 then Ty.stop else vt, BitVec.ofNat 64 n⟩, c), ⟨sz, rest, fin⟩) := by
  simp only [readMapBegin, RM.bind_eq, RM.run_bind, compactMapHeader]
  by_cases h0 : n = 0
  · subst h0
    have := readSize_run sz rest fin c 0 (by omega)
    rw [show leb 0 = [0] by rw [leb]; rfl] at this
    simp only [if_true, this, Out.bind_done]
    rfl
  · obtain ⟨hk, hv⟩ := hk h0
    obtain ⟨-, k2, k3, -⟩ := code_spec kt hk
    obtain ⟨-, v2, v3, -⟩ := code_spec vt hv
    have hne : BitVec.ofNat 64 n ≠ 0 := by
      intro hc
      have := congrArg BitVec.toNat hc
      simp at this; omega
    simp only [if_neg h0, List.append_assoc, readSize_run _ _ _ _ _ (show n < 2 ^ 64 by omega), Out.bind_done, if_neg hne,
      RM.run_bind, List.cons_append, List.nil_append, readByte_run, nibbles_hi _ _ k3 v3, nibbles_lo _ _ k3 v3,
      BitVec.ofNat_toNat, BitVec.setWidth_eq, k2, v2, ofExcept_run, RM.pure_eq, RM.run_ok]

theorem readSetBegin_run (et : WType) (n : Nat) (he : ValidTy et) (hn : n < 2 ^ 63) :
    readSetBegin.run c ⟨sz, compactListHeader et n ++ rest, fin⟩ =
      .done ((.ok ⟨et, BitVec.ofNat 64 n⟩, c), ⟨sz, rest, fin⟩) := by
  obtain ⟨-, e2, e3, -⟩ := code_spec et he
  simp only [readSetBegin, RM.bind_eq, RM.run_bind, compactListHeader]
  by_cases h : n < 15
  · have h16 : n < 16 := by omega
    have hs : (BitVec.ofNat 8 n).setWidth 64 = BitVec.ofNat 64 n := by
      apply BitVec.eq_of_toNat_eq; simp; omega
    have hne : BitVec.ofNat 64 n ≠ 15 := by
      intro hc
      have := congrArg BitVec.toNat hc
      simp at this; omega
    simp only [if_pos h, List.cons_append, List.nil_append, readByte_run, Out.bind_done, nibbles_hi _ _ h16 e3,
      nibbles_lo _ _ h16 e3, BitVec.ofNat_toNat, BitVec.setWidth_eq, e2, ofExcept_run, hs, if_neg hne, RM.pure_eq, RM.run_ok]
  · have hs : (BitVec.ofNat 8 15).setWidth 64 = (15 : BitVec 64) := by decide
    simp only [if_neg h, List.cons_append, List.nil_append, readByte_run, Out.bind_done, nibbles_hi 15 _ (by omega) e3,
      nibbles_lo 15 _ (by omega) e3, BitVec.ofNat_toNat, BitVec.setWidth_eq, e2, ofExcept_run, hs, if_true, RM.run_bind,
      readSize_run _ _ _ _ _ (show n < 2 ^ 64 by omega), RM.pure_eq, RM.run_ok]

theorem readFieldBegin_stop :
    readFieldBegin.run c ⟨sz, 0 :: rest, fin⟩ = .done ((.ok ⟨[], Ty.stop, 0⟩, c), ⟨sz, rest, fin⟩) := by
  simp only [readFieldBegin, RM.bind_eq, RM.run_bind, readByte_run, Out.bind_done, ofExcept_run]
  rfl

/-- A header in the long form. -/
theorem readFieldBegin_long (code : Byte) (t : WType) (hw : wire code = .ok t) (ht : t ≠ Ty.stop) (hc : code.toNat < 16)
    (id : BitVec 16) :
    readFieldBegin.run c ⟨sz, [code] ++ leb (Spec.zigzag id.toInt) ++ rest, fin⟩ =
      .done ((.ok ⟨[], t, id⟩, { c with last := id, boolField := c.boolField.setBy code }), ⟨sz, rest, fin⟩) := by
  have h1 : code &&& 15 = code := by
    have : ∀ b : Byte, b.toNat < 16 → b &&& 15 = b := by decide +kernel
    exact this code hc
  have h2 : (code >>> 4).setWidth 16 = (0 : BitVec 16) := by
    have : ∀ b : Byte, b.toNat < 16 → (b >>> 4).setWidth 16 = (0 : BitVec 16) := by decide +kernel
    exact this code hc
  simp only [readFieldBegin, RM.bind_eq, RM.run_bind, List.cons_append, List.nil_append, readByte_run, Out.bind_done, h1, hw,
    ofExcept_run, if_neg ht, h2, if_true, RM.run_get, readI16_run, RM.run_set, RM.pure_eq, RM.run_ok]

/-- A header in the short form. -/
theorem readFieldBegin_short (code : Byte) (t : WType) (hw : wire code = .ok t) (ht : t ≠ Ty.stop) (hc : code.toNat < 16)
    (d : Nat) (h0 : 0 < d) (hd : d ≤ 15) :
    readFieldBegin.run c ⟨sz, nibbles d code.toNat :: rest, fin⟩ =
      .done ((.ok ⟨[], t, c.last + BitVec.ofNat 16 d⟩,
        { c with last := c.last + BitVec.ofNat 16 d, boolField := c.boolField.setBy code }), ⟨sz, rest, fin⟩) := by
  have hs : (BitVec.ofNat 8 d).setWidth 16 = BitVec.ofNat 16 d := by
    apply BitVec.eq_of_toNat_eq; simp; omega
  have hne : BitVec.ofNat 16 d ≠ 0 := by
    intro hc
    have := congrArg BitVec.toNat hc
    simp at this; omega
  have hd' : d < 16 := by omega
  simp only [readFieldBegin, RM.bind_eq, RM.run_bind, readByte_run, Out.bind_done, nibbles_hi _ _ hd' hc,
    nibbles_lo _ _ hd' hc, BitVec.ofNat_toNat, BitVec.setWidth_eq, hw, ofExcept_run, if_neg ht, hs, if_neg hne, RM.run_get,
    RM.pure_eq, RM.run_ok, RM.run_set]

/-- A header as the specification writes it. -/
theorem readFieldBegin_spec (code : Byte) (t : WType) (hw : wire code = .ok t) (ht : t ≠ Ty.stop) (hc : code.toNat < 16)
    (id : BitVec 16) :
    readFieldBegin.run c ⟨sz, compactFieldHeader code c.last id ++ rest, fin⟩ =
      .done ((.ok ⟨[], t, id⟩, { c with last := id, boolField := c.boolField.setBy code }), ⟨sz, rest, fin⟩) := by
  rw [compactFieldHeader]
  split
  · rename_i h
    rw [List.cons_append, List.nil_append, readFieldBegin_short _ _ _ _ _ _ hw ht hc _ (by omega) (by omega)]
    have : c.last + BitVec.ofNat 16 (id.toInt - c.last.toInt).toNat = id := by
      apply BitVec.eq_of_toInt_eq
      rw [BitVec.toInt_add, BitVec.toInt_ofNat']
      have h1 := @BitVec.le_toInt 16 id; have h2 := @BitVec.toInt_lt 16 id
      have h3 := @BitVec.le_toInt 16 c.last; have h4 := @BitVec.toInt_lt 16 c.last
      simp [Int.bmod] at *; omega
    rw [this]
  · rw [readFieldBegin_long _ _ _ _ _ _ hw ht hc]

/-- ReadUvarint does not wait: the stream ends with an error or ten bytes are there. -/
def Safe (fin : End) (n : Nat) : Prop := (∃ e, fin = .err e) ∨ 9 ≤ n

theorem Safe.mono {fin : End} {n m : Nat} (h : Safe fin n) (hm : n ≤ m) : Safe fin m := by
  rcases h with h | h
  · exact .inl h
  · exact .inr (by omega)

/-- The same, with the number of bytes that are there from the beginning of the varint on. -/
def Room (fin : End) (n : Nat) : Prop := (∃ e, fin = .err e) ∨ 10 ≤ n

theorem Safe.room {fin : End} {n m : Nat} (h : Safe fin n) (hm : n < m) : Room fin m := by
  rcases h with h | h
  · exact .inl h
  · exact .inr (by omega)

theorem leb_length_pos (n : Nat) : 0 < (leb n).length := List.length_pos_iff.2 (leb_ne_nil _)

variable (hsz : 16 ≤ sz)
include hsz

theorem readUvarint_run (v : BitVec 64) (hs : Room fin ((putUvarint v).length + rest.length)) :
    readUvarint.run c ⟨sz, putUvarint v ++ rest, fin⟩ = .done ((.ok v, c), ⟨sz, rest, fin⟩) := by
  rw [readUvarint, RM.run_lift, BProg.run_bind, readUvarint_flat _ hsz, binReadUvarint_put]
  · simp [BProg.run, toExcept]
  · exact hs.imp_right fun h => by rw [List.length_append]; exact h

theorem readUvarint_waits (bytes : Bytes) (h : bytes.length < 10) : readUvarint.run c ⟨sz, bytes, .block⟩ = .blocked := by
  rw [readUvarint, RM.run_lift, BProg.run_bind]
  have : GoThrift.readUvarint.run ⟨sz, bytes, .block⟩ = .blocked := by
    simp only [GoThrift.readUvarint, BProg.run]
    rw [show ((maxVarintLen64 : Nat) : Int) = 10 from rfl, Flat.peek_block ⟨sz, bytes, .block⟩ 10 (by decide) (by simp; omega) (by simpa using h) rfl]
    rfl
  rw [this]; rfl

theorem readStringSize_run (n : Nat) (hn : n < 2 ^ 64) (hs : Room fin ((leb n).length + rest.length)) :
    readStringSize.run c ⟨sz, leb n ++ rest, fin⟩ = .done ((.ok (BitVec.ofNat 64 n), c), ⟨sz, rest, fin⟩) := by
  rw [leb_eq_put n hn] at hs
  rw [readStringSize, leb_eq_put n hn, readUvarint_run _ _ _ _ hsz _ hs]

theorem readDouble_run (v : BitVec 64) :
    readDouble.run c ⟨sz, (be 8 v.toNat).reverse ++ rest, fin⟩ = .done ((.ok v, c), ⟨sz, rest, fin⟩) := by
  have hl : ((be 8 v.toNat).reverse).length = 8 := by simp [be_length]
  simp only [readDouble, RM.bind_eq, RM.run_bind]
  rw [RM.run_lift, BProg.run_bind, next_ok _ _ (by omega) (by simp; omega) (by simp at hl ⊢; omega)]
  have h8 : (8 : Int).toNat = ((be 8 v.toNat).reverse).length := by rw [hl]; rfl
  simp only [Out.bind_done, BProg.run, toExcept]
  rw [h8, List.take_left, List.drop_left]
  simp only [RM.run_bind, RM.run_need 8 _ (Nat.le_of_eq hl.symm), Out.bind_done, RM.pure_eq, RM.run_ok, getLE_reverse, getBE_be]
  congr 4; apply BitVec.eq_of_toNat_eq; simp; omega

theorem readString_run (v : Bytes) (hv : v.length < 2 ^ 63) (hs : Room fin ((leb v.length ++ v).length + rest.length)) :
    readString.run c ⟨sz, leb v.length ++ v ++ rest, fin⟩ = .done ((.ok v, c), ⟨sz, rest, fin⟩) := by
  simp only [readString, RM.bind_eq, RM.run_bind, List.append_assoc]
  rw [readStringSize_run _ _ _ _ hsz _ (by omega) (by simpa [Nat.add_assoc] using hs)]
  simp only [Out.bind_done]
  rw [toInt_ofNat64 _ (by omega), RM.run_lift, BProg.run_bind, wireReadString_ok _ _ (by omega) (by simp; omega) (by simp)]
  simp [BProg.run, toExcept]

theorem readBytes_run (buf v : Bytes) (hv : v.length < 2 ^ 63) (hs : Room fin ((leb v.length ++ v).length + rest.length)) :
    (readBytes buf).run c ⟨sz, leb v.length ++ v ++ rest, fin⟩ = .done ((.ok (buf ++ v), c), ⟨sz, rest, fin⟩) := by
  simp only [readBytes, RM.bind_eq, RM.run_bind, List.append_assoc]
  rw [readStringSize_run _ _ _ _ hsz _ (by omega) (by simpa [Nat.add_assoc] using hs)]
  simp only [Out.bind_done]
  rw [toInt_ofNat64 _ (by omega), RM.run_lift, BProg.run_bind, wireReadBytes_ok _ _ _ (by omega) (by simp; omega) (by simp)]
  simp [BProg.run, toExcept]

theorem skipString_run (v : Bytes) (hv : v.length < 2 ^ 63) (hs : Room fin ((leb v.length ++ v).length + rest.length)) :
    skipString.run c ⟨sz, leb v.length ++ v ++ rest, fin⟩ = .done ((.ok (), c), ⟨sz, rest, fin⟩) := by
  simp only [skipString, RM.bind_eq, RM.run_bind, List.append_assoc]
  rw [readStringSize_run _ _ _ _ hsz _ (by omega) (by simpa [Nat.add_assoc] using hs)]
  simp only [Out.bind_done]
  rw [toInt_ofNat64 _ (by omega), discard_run]

end

theorem gives {o : ROp} {c c' : RState} {f f' : Flat} {a : o.Ans}
    (h : (impl o).run c f = .done ((.ok a, c'), f')) : Gives reader o (c, f) a (c', f') := by
  simp [Gives, reader, h]

/-! ## Whole values, for any way `hdr` of writing field headers that the reader understands -/

mutual
/-- `encCompact` with field headers written by `hdr`. -/
def encWith (hdr : Byte → BitVec 16 → BitVec 16 → Bytes) : TVal → Bytes
  | .bool v => [if v then 1 else 0]
  | .byte v => [v]
  | .double v => (be 8 v.toNat).reverse
  | .i16 v => leb (Spec.zigzag v.toInt)
  | .i32 v => leb (Spec.zigzag v.toInt)
  | .i64 v => leb (Spec.zigzag v.toInt)
  | .str _ v => leb v.length ++ v
  | .uuid v => v
  | .struct _ fs => encWithFields hdr 0 fs
  | .map kt vt es => compactMapHeader kt vt es.length ++ encWithEntries hdr es
  | .set et es => compactListHeader et es.length ++ encWithElems hdr es
  | .list et es => compactListHeader et es.length ++ encWithElems hdr es
/-- See `encWith`. -/
def encWithFields (hdr : Byte → BitVec 16 → BitVec 16 → Bytes) (last : BitVec 16) : List (Bytes × BitVec 16 × TVal) → Bytes
  | [] => [0]
  | (_, id, v) :: fs =>
    hdr (compactFieldCode v) last id ++ (if v.ty = Ty.bool then [] else encWith hdr v) ++ encWithFields hdr id fs
/-- See `encWith`. -/
def encWithEntries (hdr : Byte → BitVec 16 → BitVec 16 → Bytes) : List (TVal × TVal) → Bytes
  | [] => []
  | (k, v) :: es => encWith hdr k ++ encWith hdr v ++ encWithEntries hdr es
/-- See `encWith`. -/
def encWithElems (hdr : Byte → BitVec 16 → BitVec 16 → Bytes) : List TVal → Bytes
  | [] => []
  | v :: es => encWith hdr v ++ encWithElems hdr es
end

theorem encWithFields_spec (fs : List (Bytes × BitVec 16 × TVal))
    (h : ∀ f ∈ fs, encWith compactFieldHeader f.2.2 = encCompact f.2.2) :
    ∀ last, encWithFields compactFieldHeader last fs = encCompactFields last fs := by
  induction fs with
  | nil => intro; rfl
  | cons f fs ih =>
    obtain ⟨n, id, v⟩ := f
    intro last
    rw [encWithFields, encCompactFields, ih (fun f hf => h f (by simp [hf])), h (n, id, v) (by simp)]

theorem encWithElems_spec (es : List TVal) (h : ∀ e ∈ es, encWith compactFieldHeader e = encCompact e) :
    encWithElems compactFieldHeader es = encCompactElems es := by
  induction es with
  | nil => rfl
  | cons e es ih => rw [encWithElems, encCompactElems, ih (fun e he => h e (by simp [he])), h e (by simp)]

theorem encWithEntries_spec (es : List (TVal × TVal))
    (h : ∀ e ∈ es, encWith compactFieldHeader e.1 = encCompact e.1 ∧ encWith compactFieldHeader e.2 = encCompact e.2) :
    encWithEntries compactFieldHeader es = encCompactEntries es := by
  induction es with
  | nil => rfl
  | cons e es ih =>
    obtain ⟨k, v⟩ := e
    obtain ⟨h1, h2⟩ := h (k, v) (by simp)
    rw [encWithEntries, encCompactEntries, ih (fun e he => h e (by simp [he])), h1, h2]

theorem encWith_spec (t : TVal) : encWith compactFieldHeader t = encCompact t := by
  induction t using TVal.ind with
  | hstruct n fs h => rw [encWith, encCompact, encWithFields_spec fs h]
  | hmap kt vt es h => rw [encWith, encCompact, encWithEntries_spec es h]
  | hset et es h => rw [encWith, encCompact, encWithElems_spec es h]
  | hlist et es h => rw [encWith, encCompact, encWithElems_spec es h]
  | _ => simp [encWith, encCompact]

/-- The reader understands headers written by `hdr`. -/
def HdrOK (hdr : Byte → BitVec 16 → BitVec 16 → Bytes) : Prop :=
  ∀ (sz : Nat) (rest : Bytes) (fin : End) (c : RState) (code : Byte) (t : WType), wire code = .ok t → t ≠ Ty.stop →
    code.toNat < 16 → ∀ id : BitVec 16,
    readFieldBegin.run c ⟨sz, hdr code c.last id ++ rest, fin⟩ =
      .done ((.ok ⟨[], t, id⟩, { c with last := id, boolField := c.boolField.setBy code }), ⟨sz, rest, fin⟩)

mutual
/-- From the beginning of each string in the value, ten bytes are there, if `n` bytes are there behind the value. -/
def FitWith (hdr : Byte → BitVec 16 → BitVec 16 → Bytes) (n : Nat) : TVal → Prop
  | .bool _ | .byte _ | .double _ | .i16 _ | .i32 _ | .i64 _ | .uuid _ => True
  | .str _ v => 10 ≤ (leb v.length ++ v).length + n
  | .struct _ fs => FitWithFields hdr n fs
  | .map _ _ es => FitWithEntries hdr n es
  | .set _ es => FitWithElems hdr n es
  | .list _ es => FitWithElems hdr n es
/-- See `FitWith`. -/
def FitWithFields (hdr : Byte → BitVec 16 → BitVec 16 → Bytes) (n : Nat) : List (Bytes × BitVec 16 × TVal) → Prop
  | [] => True
  | (_, id, v) :: fs => FitWith hdr ((encWithFields hdr id fs).length + n) v ∧ FitWithFields hdr n fs
/-- See `FitWith`. -/
def FitWithEntries (hdr : Byte → BitVec 16 → BitVec 16 → Bytes) (n : Nat) : List (TVal × TVal) → Prop
  | [] => True
  | (k, v) :: es => FitWith hdr ((encWith hdr v ++ encWithEntries hdr es).length + n) k ∧ FitWith hdr ((encWithEntries hdr es).length + n) v ∧ FitWithEntries hdr n es
/-- See `FitWith`. -/
def FitWithElems (hdr : Byte → BitVec 16 → BitVec 16 → Bytes) (n : Nat) : List TVal → Prop
  | [] => True
  | v :: es => FitWith hdr ((encWithElems hdr es).length + n) v ∧ FitWithElems hdr n es
end

/-- Nothing has to be waited for in order to read the value. -/
def Fits (hdr : Byte → BitVec 16 → BitVec 16 → Bytes) (fin : End) (n : Nat) (t : TVal) : Prop := (∃ e, fin = .err e) ∨ FitWith hdr n t

/-- What has to be shown for each value. -/
def OK (hdr : Byte → BitVec 16 → BitVec 16 → Bytes) (sz : Nat) (fin : End) (t : TVal) : Prop :=
  WF (2 ^ 63 - 1) t → TypesOK t → ∀ (c : RState) (rest : Bytes), c.boolField = .none →
    Fits hdr fin rest.length t → Holds reader t (c, ⟨sz, encWith hdr t ++ rest, fin⟩) (c, ⟨sz, rest, fin⟩)

variable {hdr : Byte → BitVec 16 → BitVec 16 → Bytes} {sz : Nat} {fin : End}

theorem elems_hold (et : WType) (es : List TVal) (hall : ∀ e ∈ es, OK hdr sz fin e) (hw : WFElems (2 ^ 63 - 1) et es)
    (ht : TypesOKElems es) (c : RState) (rest : Bytes) (hc : c.boolField = .none)
    (hs : (∃ e, fin = .err e) ∨ FitWithElems hdr rest.length es) :
    HoldsElems reader et es (c, ⟨sz, encWithElems hdr es ++ rest, fin⟩) (c, ⟨sz, rest, fin⟩) := by
  induction es with
  | nil => rfl
  | cons e es ih =>
    simp only [WFElems] at hw
    simp only [TypesOKElems] at ht
    simp only [HoldsElems, encWithElems, List.append_assoc]
    exact ⟨hw.1, (c, ⟨sz, encWithElems hdr es ++ rest, fin⟩), hall e (by simp) hw.2.1 ht.1 c _ hc
      (hs.imp_right fun h => by rw [List.length_append]; exact h.1), ih (fun e he => hall e (by simp [he])) hw.2.2 ht.2 (hs.imp id (fun h => h.2))⟩

theorem entries_hold (kt vt : WType) (es : List (TVal × TVal)) (hall : ∀ e ∈ es, OK hdr sz fin e.1 ∧ OK hdr sz fin e.2)
    (hw : WFEntries (2 ^ 63 - 1) kt vt es) (ht : TypesOKEntries es) (c : RState) (rest : Bytes) (hc : c.boolField = .none)
    (hs : (∃ e, fin = .err e) ∨ FitWithEntries hdr rest.length es) :
    HoldsEntries reader kt vt es (c, ⟨sz, encWithEntries hdr es ++ rest, fin⟩) (c, ⟨sz, rest, fin⟩) := by
  induction es with
  | nil => rfl
  | cons e es ih =>
    obtain ⟨k, v⟩ := e
    simp only [WFEntries] at hw
    simp only [TypesOKEntries] at ht
    simp only [HoldsEntries, encWithEntries, List.append_assoc]
    obtain ⟨hk, hv⟩ := hall (k, v) (by simp)
    exact ⟨hw.1, hw.2.1, (c, ⟨sz, encWith hdr v ++ (encWithEntries hdr es ++ rest), fin⟩),
      (c, ⟨sz, encWithEntries hdr es ++ rest, fin⟩), hk hw.2.2.1 ht.1 c _ hc
        (hs.imp_right fun h => by rw [← List.append_assoc, List.length_append]; exact h.1),
      hv hw.2.2.2.1 ht.2.1 c _ hc (hs.imp_right fun h => by rw [List.length_append]; exact h.2.1),
      ih (fun e he => hall e (by simp [he])) hw.2.2.2.2 ht.2.2 (hs.imp id (fun h => h.2.2))⟩

theorem setBy_ne_bool (v : TVal) (h : v.ty ≠ Ty.bool) (b : BoolField) : b.setBy (compactFieldCode v) = b := by
  cases v with
  | bool b => exact absurd rfl h
  | _ => simp only [compactFieldCode, ty]; cases b <;> decide

theorem fields_hold (hh : HdrOK hdr) (fs : List (Bytes × BitVec 16 × TVal))
    (hall : ∀ f ∈ fs, OK hdr sz fin f.2.2) (hw : WFFields (2 ^ 63 - 1) fs) (ht : TypesOKFields fs) (ids : List (BitVec 16))
    (rest : Bytes) (hs : (∃ e, fin = .err e) ∨ FitWithFields hdr rest.length fs) : ∀ last, ∃ last',
    HoldsFields reader fs (⟨ids, last, .none⟩, ⟨sz, encWithFields hdr last fs ++ rest, fin⟩)
      (⟨ids, last', .none⟩, ⟨sz, rest, fin⟩) := by
  induction fs with
  | nil => intro last; exact ⟨last, _, gives (readFieldBegin_stop sz rest fin _), rfl⟩
  | cons f fs ih =>
    obtain ⟨n, id, v⟩ := f
    intro last
    simp only [WFFields] at hw
    simp only [TypesOKFields] at ht
    obtain ⟨last', hrec⟩ := ih (fun f hf => hall f (by simp [hf])) hw.2 ht.2 (hs.imp (fun h => h) (fun h => h.2)) id
    refine ⟨last', ?_⟩
    simp only [HoldsFields, encWithFields, List.append_assoc]
    obtain ⟨w1, w2⟩ := fieldCode_spec v
    have hb := hh sz ((if v.ty = Ty.bool then [] else encWith hdr v) ++ (encWithFields hdr id fs ++ rest)) fin
      ⟨ids, last, .none⟩ (compactFieldCode v) v.ty w1 (ty_ne_stop v) w2 id
    by_cases hv : v.ty = Ty.bool
    · cases v with
      | bool b =>
        rw [if_pos hv, List.nil_append] at hb ⊢
        refine ⟨[], _, (⟨ids, id, .none⟩, ⟨sz, encWithFields hdr id fs ++ rest, fin⟩), _, gives hb, ?_, rfl, hrec⟩
        apply gives
        cases b <;> rfl
      | _ => exact absurd hv (by simp only [ty]; decide)
    · rw [if_neg hv] at hb ⊢
      rw [setBy_ne_bool v hv] at hb
      exact ⟨[], _, (⟨ids, id, .none⟩, ⟨sz, encWithFields hdr id fs ++ rest, fin⟩), _, gives hb,
        hall (n, id, v) (by simp) hw.1 ht.1 _ _ rfl (hs.imp_right fun h => by rw [List.length_append]; exact h.1), rfl, hrec⟩

theorem entries_types (lim : Nat) (kt vt : WType) (es : List (TVal × TVal)) (hw : WFEntries lim kt vt es) (h : es.length ≠ 0) :
    ValidTy kt ∧ ValidTy vt := by
  cases es with
  | nil => exact absurd rfl h
  | cons e es =>
    obtain ⟨k, v⟩ := e
    simp only [WFEntries] at hw
    exact ⟨hw.1 ▸ validTy_ty k, hw.2.1 ▸ validTy_ty v⟩

/-- The compact reader in front of the compact encoding of a value holds that value. -/
theorem holdsFit (hh : HdrOK hdr) (sz : Nat) (hsz : 16 ≤ sz) (fin : End) (t : TVal) : OK hdr sz fin t := by
  induction t using TVal.ind with
  | hbool v =>
    intro _ _ c rest hc hs
    refine gives ?_
    simp only [impl, readBool, encWith, List.cons_append, List.nil_append, RM.bind_eq, RM.run_bind, RM.run_get,
      Out.bind_done, hc, readByte_run]
    cases v <;> rfl
  | hbyte v => intro _ _ c rest hc hs; exact gives (readByte_run sz rest fin c v)
  | hdouble v => intro _ _ c rest hc hs; exact gives (readDouble_run sz rest fin c hsz v)
  | hi16 v => intro _ _ c rest hc hs; exact gives (readI16_run sz rest fin c v)
  | hi32 v => intro _ _ c rest hc hs; exact gives (readI32_run sz rest fin c v)
  | hi64 v => intro _ _ c rest hc hs; exact gives (readI64_run sz rest fin c v)
  | hstr raw v =>
    intro hw _ c rest hc hs
    simp only [WF] at hw
    have hs : Room fin ((leb v.length ++ v).length + rest.length) := hs
    exact ⟨gives (readString_run sz rest fin c hsz v (by omega) hs),
      fun buf => gives (readBytes_run sz rest fin c hsz buf v (by omega) hs),
      gives (skipString_run sz rest fin c hsz v (by omega) hs)⟩
  | huuid v =>
    intro hw _ c rest hc hs
    exact ⟨gives (readUUID_run sz rest fin c v hw), gives (skipUUID_run sz rest fin c v hw)⟩
  | hstruct n fs hall =>
    intro hw ht c rest hc hs
    obtain ⟨ids, last, b⟩ := c
    obtain rfl : b = .none := hc
    obtain ⟨last', h⟩ := fields_hold hh fs hall hw ht (last :: ids) rest hs 0
    exact ⟨[], (⟨last :: ids, 0, .none⟩, ⟨sz, encWithFields hdr 0 fs ++ rest, fin⟩), _, gives rfl, h, gives rfl⟩
  | hmap kt vt es hall =>
    intro hw ht c rest hc hs
    simp only [WF] at hw
    simp only [Holds, encWith]
    rw [List.append_assoc]
    refine ⟨_, (c, ⟨sz, encWithEntries hdr es ++ rest, fin⟩), (c, ⟨sz, rest, fin⟩),
      gives (readMapBegin_run sz (encWithEntries hdr es ++ rest) fin c kt vt es.length (entries_types _ kt vt es hw.2) (by omega)),
      loopCount_ofNat _ (by omega), ?_, entries_hold kt vt es hall hw.2 ht c rest hc hs, rfl⟩
    intro hne
    have : es.length ≠ 0 := fun h => hne (List.length_eq_zero_iff.1 h)
    simp only [if_neg this, and_self]
  | hset et es hall =>
    intro hw ht c rest hc hs
    simp only [WF] at hw
    simp only [TypesOK] at ht
    simp only [Holds, encWith]
    rw [List.append_assoc]
    exact ⟨⟨et, BitVec.ofNat 64 es.length⟩, (c, ⟨sz, encWithElems hdr es ++ rest, fin⟩), (c, ⟨sz, rest, fin⟩),
      gives (readSetBegin_run sz (encWithElems hdr es ++ rest) fin c et es.length ht.1 (by omega)), loopCount_ofNat _ (by omega),
      rfl, elems_hold et es hall hw.2 ht.2 c rest hc hs, rfl⟩
  | hlist et es hall =>
    intro hw ht c rest hc hs
    simp only [WF] at hw
    simp only [TypesOK] at ht
    simp only [Holds, encWith]
    rw [List.append_assoc]
    exact ⟨⟨et, BitVec.ofNat 64 es.length⟩, (c, ⟨sz, encWithElems hdr es ++ rest, fin⟩), (c, ⟨sz, rest, fin⟩),
      gives (readSetBegin_run sz (encWithElems hdr es ++ rest) fin c et es.length ht.1 (by omega)), loopCount_ofNat _ (by omega),
      rfl, elems_hold et es hall hw.2 ht.2 c rest hc hs, rfl⟩

theorem fit_of {n : Nat} (t : TVal) : 9 ≤ n ∨ NoStr t → FitWith hdr n t := by
  induction t using TVal.ind generalizing n with
  | hstr raw v =>
    intro h
    have := leb_length_pos v.length
    rcases h with h | h
    · simp only [FitWith, List.length_append]; omega
    · exact h.elim
  | hstruct nm fs hall =>
    intro h
    simp only [FitWith, NoStr] at h ⊢
    induction fs with
    | nil => trivial
    | cons f fs ih =>
      obtain ⟨fn, id, v⟩ := f
      exact ⟨hall (fn, id, v) (by simp) (h.imp (fun h => by omega) (·.1)), ih (fun f hf => hall f (by simp [hf])) (h.imp_right (·.2))⟩
  | hmap kt vt es hall =>
    intro h
    simp only [FitWith, NoStr] at h ⊢
    induction es with
    | nil => trivial
    | cons e es ih =>
      obtain ⟨k, v⟩ := e
      obtain ⟨hk, hv⟩ := hall (k, v) (by simp)
      exact ⟨hk (h.imp (fun h => by omega) (·.1)), hv (h.imp (fun h => by omega) (·.2.1)), ih (fun f hf => hall f (by simp [hf])) (h.imp_right (·.2.2))⟩
  | hset et es hall =>
    intro h
    simp only [FitWith, NoStr] at h ⊢
    induction es with
    | nil => trivial
    | cons e es ih => exact ⟨hall e (by simp) (h.imp (fun h => by omega) (·.1)), ih (fun f hf => hall f (by simp [hf])) (h.imp_right (·.2))⟩
  | hlist et es hall =>
    intro h
    simp only [FitWith, NoStr] at h ⊢
    induction es with
    | nil => trivial
    | cons e es ih => exact ⟨hall e (by simp) (h.imp (fun h => by omega) (·.1)), ih (fun f hf => hall f (by simp [hf])) (h.imp_right (·.2))⟩
  | _ => intro _; trivial

/-- The same, if the stream ends, nine bytes follow, or there are no strings. -/
theorem holdsWith (hh : HdrOK hdr) (sz : Nat) (hsz : 16 ≤ sz) (fin : End) (t : TVal) (hw : WF (2 ^ 63 - 1) t) (ht : TypesOK t) (c : RState)
    (rest : Bytes) (hc : c.boolField = .none) (hs : Safe fin rest.length ∨ NoStr t) :
    Holds reader t (c, ⟨sz, encWith hdr t ++ rest, fin⟩) (c, ⟨sz, rest, fin⟩) :=
  holdsFit hh sz hsz fin t hw ht c rest hc (by
    rcases hs with (h | h) | h
    · exact .inl h
    · exact .inr (fit_of t (.inl h))
    · exact .inr (fit_of t (.inr h)))

/-- The compact reader in front of the encoding the specification gives. -/
theorem holds (sz : Nat) (hsz : 16 ≤ sz) (fin : End) (t : TVal) (hw : WF (2 ^ 63 - 1) t) (ht : TypesOK t) (c : RState)
    (rest : Bytes) (hc : c.boolField = .none) (hs : Safe fin rest.length ∨ NoStr t) :
    Holds reader t (c, ⟨sz, encCompact t ++ rest, fin⟩) (c, ⟨sz, rest, fin⟩) := by
  rw [← encWith_spec]
  exact holdsWith (fun sz rest fin c code t h1 h2 h3 id => readFieldBegin_spec sz rest fin c code t h1 h2 h3 id) sz hsz fin t
    hw ht c rest hc hs

end GoThrift.Compact
