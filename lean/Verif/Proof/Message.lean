import Verif.Proof.Binary
import Verif.Proof.Writes

/-! # Message headers -/

namespace GoThrift

open Spec Spec.TVal

namespace Binary

variable {strict : Bool}

theorem version_bytes (t : Byte) : putBE 4 (t.setWidth 32 ||| version1).toNat = [0x80, 0x01, 0x00, t] := by
  revert t; decide +kernel

theorem be_version (t : Byte) : be 4 (t.setWidth 32 ||| version1).toNat = [0x80, 0x01, 0x00, t] := by
  rw [← putBE_eq, version_bytes]

theorem message_write (strict : Bool) (h : MessageHeader) (b : Bytes) :
    (writer strict).step (.messageBegin h) ((), b) = .done (none, ((), b ++ encBinMessage strict h)) := by
  refine step_run ?_
  cases strict
  · simp [wimpl, writeMessageBegin, writeString, writeSize, writeI32, writeByte, lenInt, ideal_write_bind, writeI32_size,
      WM.ideal_bind, encBinMessage, putBE_eq]
    rw [← putBE_eq, writeI32_size]
  · simp only [wimpl, writeMessageBegin, writeString, writeSize, writeI32, lenInt, ideal_write_bind, version_bytes,
      WM.ideal_bind, encBinMessage, if_true, WM.bind_eq, WM.ideal_write]
    simp [writeI32_size, putBE_eq]
    rw [← putBE_eq, writeI32_size]

theorem msg_word (t : Byte) : ((t.setWidth 32 ||| version1).signExtend 64).toInt < 0 ∧
    (t.setWidth 32 ||| version1).signExtend 64 &&& versionMask = version1.setWidth 64 ∧
    ((t.setWidth 32 ||| version1).signExtend 64).setWidth 8 = t := by
  revert t; decide +kernel

theorem message_read (sz : Nat) (hsz : 16 ≤ sz) (rest : Bytes) (fin : End) (w r : Bool) (hwr : w = r ∨ (w = true ∧ r = false))
    (h : MessageHeader) (hn : h.name.length < 2 ^ 31) :
    (readMessageBegin r).run () ⟨sz, encBinMessage w h ++ rest, fin⟩ = .done ((.ok h, ()), ⟨sz, rest, fin⟩) := by
  cases w
  · have hr : r = false := by
      rcases hwr with h | h
      · exact h.symm
      · exact absurd h.1 (by decide)
    subst hr
    simp only [readMessageBegin, encBinMessage, RM.bind_eq, RM.run_bind, Bool.false_eq_true, if_false, List.append_assoc]
    rw [readSize_run _ _ _ hsz _ hn]
    simp only [Out.bind_done, toInt_ofNat64 _ (show h.name.length < 2 ^ 63 by omega)]
    rw [if_neg (by omega)]
    simp only [RM.run_bind]
    rw [RM.run_lift, BProg.run_bind, wireReadString_ok _ _ (by omega) (by simp; omega) (by simp)]
    simp only [Out.bind_done, BProg.run, toExcept, Int.toNat_natCast, List.take_left, List.drop_left, RM.run_bind,
      List.cons_append, List.nil_append, readByte_run, readI32_run _ _ _ hsz, RM.pure_eq, RM.run_ok]
  · simp only [readMessageBegin, encBinMessage, RM.bind_eq, RM.run_bind, if_true, readSize]
    rw [← be_version, List.append_assoc, List.append_assoc, List.append_assoc, readI32_run _ _ _ hsz]
    obtain ⟨h1, h2, h3⟩ := msg_word h.type
    simp only [Out.bind_done, RM.pure_eq, RM.run_ok, if_pos h1, h2, ne_eq, not_true_eq_false, if_false, RM.run_bind]
    rw [← List.append_assoc, readString_run _ _ _ hsz _ hn]
    simp only [Out.bind_done, RM.run_bind, readI32_run _ _ _ hsz, RM.run_ok, h3]

/-- The number in front of a header. -/
theorem readSize4 (sz : Nat) (hsz : 16 ≤ sz) (rest : Bytes) (fin : End) (b0 b1 b2 b3 : Byte) :
    readSize.run () ⟨sz, b0 :: b1 :: b2 :: b3 :: rest, fin⟩ =
      .done ((.ok ((BitVec.ofNat 32 (getBE [b0, b1, b2, b3])).signExtend 64), ()), ⟨sz, rest, fin⟩) := by
  have := nextM_run sz rest fin 4 [b0, b1, b2, b3] rfl (by omega)
  simp only [List.cons_append, List.nil_append] at this
  simp only [readSize, readI32, RM.bind_eq, RM.run_bind]
  rw [show (4 : Int) = (4 : Nat) from rfl, this]
  rfl

theorem mask_high (n : BitVec 64) : ((n &&& versionMask) >>> 16).setWidth 16 = (n >>> 16).setWidth 16 := by
  apply BitVec.eq_of_getLsbD_eq
  intro i hi
  have hm : versionMask.getLsbD (16 + i) = true := by
    have : ∀ j : Fin 16, versionMask.getLsbD (16 + j) = true := by decide +kernel
    exact this ⟨i, hi⟩
  simp only [BitVec.getLsbD_setWidth, BitVec.getLsbD_ushiftRight, BitVec.getLsbD_and, hm, Bool.and_true]

theorem high_of_word (w : Nat) (hw : w < 2 ^ 32) (h : (BitVec.ofNat 32 w).signExtend 64 &&& versionMask = version1.setWidth 64) :
    w / 65536 = 32769 := by
  have h1 := congrArg (fun x : BitVec 64 => (x >>> 16).setWidth 16) h
  simp only [mask_high] at h1
  have h2 : (((BitVec.ofNat 32 w).signExtend 64) >>> 16).setWidth 16 = (32769 : BitVec 16) := h1.trans (by decide)
  have h3 := congrArg BitVec.toNat h2
  simp only [BitVec.toNat_setWidth, BitVec.toNat_ushiftRight, BitVec.toNat_signExtend, BitVec.toNat_ofNat, Nat.shiftRight_eq_div_pow,
    show (32769 : BitVec 16).toNat = 32769 from rfl] at h3
  split at h3 <;> omega

theorem word_neg (w : Nat) (hw : w < 2 ^ 32) (h : 2 ^ 31 ≤ w) : ((BitVec.ofNat 32 w).signExtend 64).toInt < 0 := by
  rw [BitVec.toInt_signExtend_of_le (by omega), BitVec.toInt_ofNat']
  simp only [Int.bmod]
  omega

theorem getBE4 (b0 b1 b2 b3 : Byte) : getBE [b0, b1, b2, b3] = b0.toNat * 16777216 + b1.toNat * 65536 + b2.toNat * 256 + b3.toNat := by
  simp [getBE]; omega

theorem bad_version (b0 b1 b2 b3 : Byte) (h : ¬ (b0 = 0x80 ∧ b1 = 0x01)) (w : Nat)
   (hw : w = b0.toNat * 16777216 + b1.toNat * 65536 + b2.toNat * 256 + b3.toNat) :
  ¬ ((BitVec.ofNat 32 w).signExtend 64 &&& versionMask = version1.setWidth 64) := by
  have hb0 := b0.isLt; have hb1 := b1.isLt; have hb2 := b2.isLt; have hb3 := b3.isLt
  have hlt : w < 2 ^ 32 := by omega
  intro hv
  have := high_of_word w hlt hv
  apply h
  constructor
  · apply BitVec.eq_of_toNat_eq; show b0.toNat = 128; omega
  · apply BitVec.eq_of_toNat_eq; show b1.toNat = 1; omega

theorem gives' {strict : Bool} {o : ROp} {s s' : Flat} {r : Except Err o.Ans} (h : (impl strict o).run () s = .done ((r, ()), s')) :
    (reader strict).step o ((), s) = .done (r, ((), s')) := by
  show ((impl strict o).run () s).bind _ = _
  rw [h]; rfl

theorem rmb_neg {strict : Bool} {s s' : Flat} {n : BitVec 64} (hr : readSize.run () s = .done ((.ok n, ()), s'))
    (h1 : n.toInt < 0) (h2 : ¬ (n &&& versionMask = version1.setWidth 64)) :
    (readMessageBegin strict).run () s = .done ((.error (.binBadVersion (n &&& versionMask)), ()), s') := by
  rw [readMessageBegin, RM.bind_eq, RM.run_bind, hr, Out.bind_done]
  simp only [if_pos h1, ne_eq, h2, not_false_eq_true, if_true]
  rfl

theorem rmb_pos {s s' : Flat} {n : BitVec 64} (hr : readSize.run () s = .done ((.ok n, ()), s'))
    (h1 : ¬ n.toInt < 0) :
    (readMessageBegin true).run () s = .done ((.error .binMissingVersion, ()), s') := by
  rw [readMessageBegin, RM.bind_eq, RM.run_bind, hr, Out.bind_done]
  simp only [if_neg h1, if_true]
  rfl

theorem strict_rejects (strict : Bool) (b0 b1 b2 b3 : Byte) (h : ¬ (b0 = 0x80 ∧ b1 = 0x01)) (h0 : strict = true ∨ 128 ≤ b0.toNat)
    (size : Nat) (hsize : 16 ≤ size) (rest : Bytes) (fin : End) :
    ∃ err s', (reader strict).step .messageBegin ((), ⟨size, b0 :: b1 :: b2 :: b3 :: rest, fin⟩) = .done (.error err, s') ∧
      (err = .binMissingVersion ∨ ∃ v, err = .binBadVersion v) := by
  have hb0 := b0.isLt; have hb1 := b1.isLt; have hb2 := b2.isLt; have hb3 := b3.isLt
  have hr := readSize4 size hsize rest fin b0 b1 b2 b3
  have hv := bad_version b0 b1 b2 b3 h _ (getBE4 b0 b1 b2 b3)
  have hw := getBE4 b0 b1 b2 b3
  have hng : 128 ≤ b0.toNat → ((BitVec.ofNat 32 (getBE [b0, b1, b2, b3])).signExtend 64).toInt < 0 := fun h =>
    word_neg _ (by omega) (by omega)
  revert hr hv hng
  generalize (BitVec.ofNat 32 (getBE [b0, b1, b2, b3])).signExtend 64 = n
  intro hr hv hng
  by_cases hneg : n.toInt < 0
  · refine ⟨_, _, gives' (rmb_neg hr hneg hv), .inr ⟨_, rfl⟩⟩
  · rcases h0 with rfl | h0
    · exact ⟨_, _, gives' (rmb_pos hr hneg), .inl rfl⟩
    · exact absurd (hng h0) hneg

end Binary

namespace Compact

theorem message_byte (t : Byte) (h : t.toNat < 8) : version1 ||| (t <<< 5) = BitVec.ofNat 8 (32 * t.toNat + 1) ∧
    (version1 ||| (t <<< 5)) &&& 0x1f = version1 ∧ (version1 ||| (t <<< 5)) >>> 5 = t := by
  revert h; revert t; decide +kernel

/-- The header the writer produces. -/
def msgW (h : MessageHeader) : Bytes :=
  [(0x82 : Byte), version1 ||| (h.type <<< 5)] ++ putUvarint (h.id.signExtend 64) ++ leb h.name.length ++ h.name

theorem message_write (h : MessageHeader) (hn : h.name.length < 2 ^ 64) (c : WState) (b : Bytes) :
    writer.step (.messageBegin h) (c, b) = .done (none, (c, b ++ msgW h)) := by
  refine step_run ?_
  simp [wimpl, writeMessageBegin, writeString, writeSize, writeUvarint, writeByte, lenInt, WM.ideal_bind, msgW,
    leb_eq_put _ hn, protocolID]

theorem msgW_spec (h : MessageHeader) (ht : h.type.toNat < 8) (hid : 0 ≤ h.id.toInt) : msgW h = encCompactMessage h := by
  have : (h.id.signExtend 64).toNat = h.id.toNat := by
    have h1 : (h.id.signExtend 64).toInt = h.id.toInt := BitVec.toInt_signExtend_of_le (by omega)
    rw [BitVec.toInt_eq_toNat_cond] at h1
    have := h.id.isLt
    have := (h.id.signExtend 64).isLt
    rw [BitVec.toInt_eq_toNat_cond] at hid h1
    split at h1 <;> split at hid <;> split at h1 <;> omega
  rw [msgW, encCompactMessage, putUvarint_eq_leb, this, (message_byte _ ht).1]

theorem message_read (sz : Nat) (hsz : 16 ≤ sz) (rest : Bytes) (fin : End) (c : RState)
    (t : Byte) (ht : t.toNat < 8) (id : BitVec 32) (u : BitVec 64) (hu : u.setWidth 32 = id) (name : Bytes)
    (hs : Room fin ((leb name.length ++ name).length + rest.length)) (hn : name.length < 2 ^ 63) :
    readMessageBegin.run c ⟨sz, [(0x82 : Byte), version1 ||| (t <<< 5)] ++ putUvarint u ++ leb name.length ++ name ++ rest, fin⟩ =
      .done ((.ok ⟨name, t, id⟩, c), ⟨sz, rest, fin⟩) := by
  obtain ⟨-, h2, h3⟩ := message_byte t ht
  simp only [readMessageBegin, RM.bind_eq, RM.run_bind, List.cons_append, List.nil_append, readByte_run, Out.bind_done]
  rw [if_neg (by decide)]
  simp only [RM.run_bind, readByte_run, Out.bind_done, h2, ne_eq, not_true_eq_false, if_false, List.append_assoc]
  rw [readUvarint_run _ _ _ _ hsz _ (hs.imp_right fun h => by simp only [List.length_append] at h ⊢; omega)]
  simp only [Out.bind_done, RM.run_bind]
  rw [← List.append_assoc, readString_run _ _ _ _ hsz _ hn hs]
  simp only [Out.bind_done, RM.pure_eq, RM.run_ok, h3, hu]

theorem name_room (name : Bytes) {fin : End} {n : Nat} (hs : Safe fin n) : Room fin ((leb name.length ++ name).length + n) :=
  hs.room (by have := leb_length_pos name.length; simp only [List.length_append]; omega)

theorem message_read_spec (sz : Nat) (hsz : 16 ≤ sz) (rest : Bytes) (fin : End) (hs : Safe fin rest.length) (c : RState)
    (h : MessageHeader) (ht : h.type.toNat < 8) (hn : h.name.length < 2 ^ 63) :
    readMessageBegin.run c ⟨sz, encCompactMessage h ++ rest, fin⟩ = .done ((.ok h, c), ⟨sz, rest, fin⟩) := by
  have := message_read sz hsz rest fin c h.type ht h.id (BitVec.ofNat 64 h.id.toNat) (by simp) h.name (name_room h.name hs) hn
  rw [(message_byte _ ht).1, ← leb_eq_put _ (by have := h.id.isLt; omega)] at this
  exact this

theorem message_read_w (sz : Nat) (hsz : 16 ≤ sz) (rest : Bytes) (fin : End) (hs : Safe fin rest.length) (c : RState)
    (h : MessageHeader) (ht : h.type.toNat < 8) (hn : h.name.length < 2 ^ 63) :
    readMessageBegin.run c ⟨sz, msgW h ++ rest, fin⟩ = .done ((.ok h, c), ⟨sz, rest, fin⟩) :=
  message_read sz hsz rest fin c h.type ht h.id (h.id.signExtend 64) (setWidth_signExtend32 _) h.name (name_room h.name hs) hn

/-! ## Without wrap-around the writer's headers are those of the specification -/

theorem hdrW_spec (code : Byte) (hc : code.toNat < 16) (last id : BitVec 16) (h : -65521 < id.toInt - last.toInt) :
    hdrW code last id = compactFieldHeader code last id := by
  have hd : (id - last).toInt = if id.toInt - last.toInt ≥ 32768 then id.toInt - last.toInt - 65536
      else if id.toInt - last.toInt < -32768 then id.toInt - last.toInt + 65536 else id.toInt - last.toInt := by
    have h1 := @BitVec.le_toInt 16 id; have h2 := @BitVec.toInt_lt 16 id
    have h3 := @BitVec.le_toInt 16 last; have h4 := @BitVec.toInt_lt 16 last
    rw [BitVec.toInt_sub]
    simp only [Int.bmod] at *
    split <;> split <;> (try split) <;> omega
  rw [hdrW, compactFieldHeader]
  have h1 := @BitVec.le_toInt 16 id; have h2 := @BitVec.toInt_lt 16 id
  have h3 := @BitVec.le_toInt 16 last; have h4 := @BitVec.toInt_lt 16 last
  by_cases hs : 0 < id.toInt - last.toInt ∧ id.toInt - last.toInt ≤ 15
  · have hd' : (id - last).toInt = id.toInt - last.toInt := by rw [hd, if_neg (by omega), if_neg (by omega)]
    rw [if_pos (by omega), if_pos hs]
    obtain ⟨e1, -, -⟩ := delta_nibbles (id - last) (by omega) code hc
    rw [e1]
    congr 2
    rw [← hd', BitVec.toInt_eq_toNat_cond, if_pos]
    · exact (Int.toNat_natCast _).symm
    · rw [BitVec.toInt_eq_toNat_cond] at hd'
      have := (id - last).isLt
      split at hd' <;> omega
  · rw [if_neg hs, if_neg, appendI16, ← lebz16]
    rw [hd]
    split
    · omega
    · split <;> omega

theorem encFields_noWrap (fs : List (Bytes × BitVec 16 × TVal))
    (h : ∀ f ∈ fs, NoWrap f.2.2 → encWith hdrW f.2.2 = encCompact f.2.2) :
    ∀ last, NoWrapFields last fs → encWithFields hdrW last fs = encCompactFields last fs := by
  induction fs with
  | nil => intro _ _; rfl
  | cons f fs ih =>
    obtain ⟨n, id, v⟩ := f
    intro last hw
    simp only [NoWrapFields] at hw
    rw [encWithFields, encCompactFields, ih (fun f hf => h f (by simp [hf])) _ hw.2.2, h (n, id, v) (by simp) hw.2.1,
      hdrW_spec _ (fieldCode_spec v).2 _ _ hw.1]

theorem encElems_noWrap (es : List TVal) (h : ∀ e ∈ es, NoWrap e → encWith hdrW e = encCompact e) (hw : NoWrapElems es) :
    encWithElems hdrW es = encCompactElems es := by
  induction es with
  | nil => rfl
  | cons e es ih =>
    simp only [NoWrapElems] at hw
    rw [encWithElems, encCompactElems, ih (fun e he => h e (by simp [he])) hw.2, h e (by simp) hw.1]

theorem encEntries_noWrap (es : List (TVal × TVal))
    (h : ∀ e ∈ es, (NoWrap e.1 → encWith hdrW e.1 = encCompact e.1) ∧ (NoWrap e.2 → encWith hdrW e.2 = encCompact e.2))
    (hw : NoWrapEntries es) : encWithEntries hdrW es = encCompactEntries es := by
  induction es with
  | nil => rfl
  | cons e es ih =>
    obtain ⟨k, v⟩ := e
    simp only [NoWrapEntries] at hw
    obtain ⟨h1, h2⟩ := h (k, v) (by simp)
    rw [encWithEntries, encCompactEntries, ih (fun e he => h e (by simp [he])) hw.2.2, h1 hw.1, h2 hw.2.1]

theorem enc_noWrap (t : TVal) : NoWrap t → encWith hdrW t = encCompact t := by
  induction t using TVal.ind with
  | hstruct n fs h => intro hw; rw [encWith, encCompact, encFields_noWrap fs h _ hw]
  | hmap kt vt es h => intro hw; rw [encWith, encCompact, encEntries_noWrap es h hw]
  | hset et es h => intro hw; rw [encWith, encCompact, encElems_noWrap es h hw]
  | hlist et es h => intro hw; rw [encWith, encCompact, encElems_noWrap es h hw]
  | _ => intro _; simp [encWith, encCompact]

end Compact

end GoThrift
