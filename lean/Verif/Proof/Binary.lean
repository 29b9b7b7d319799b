import Verif.Proof.BE
import Verif.Proof.Holds
import Verif.Proof.WireBufio

/-! # The binary reader on binary encodings -/

namespace GoThrift.Binary

open Spec Spec.TVal

section
variable (sz : Nat) (rest : Bytes) (fin : End)

theorem nextM_run (n : Nat) (b : Bytes) (hb : b.length = n) (hn : n ≤ sz) :
    (nextM n).run () ⟨sz, b ++ rest, fin⟩ = .done ((.ok b, ()), ⟨sz, rest, fin⟩) := by
  rw [nextM, RM.run_lift, BProg.run_bind, next_ok _ _ (by omega) (by simpa using hn) (by simp; omega)]
  simp [BProg.run, toExcept, ← hb]

theorem readByte_run (b : Byte) : readByte.run () ⟨sz, b :: rest, fin⟩ = .done ((.ok b, ()), ⟨sz, rest, fin⟩) := by
  simp [readByte, RM.run_lift, BProg.run, Flat.readByte]

variable (hsz : 16 ≤ sz)
include hsz

theorem readI16_run (v : BitVec 16) :
    readI16.run () ⟨sz, be 2 v.toNat ++ rest, fin⟩ = .done ((.ok v, ()), ⟨sz, rest, fin⟩) := by
  simp only [readI16, RM.bind_eq, RM.run_bind]
  rw [show (2 : Int) = (2 : Nat) from rfl, nextM_run _ _ _ 2 _ (be_length _ _) (by omega)]
  simp only [Out.bind_done, RM.run_bind, RM.run_need 2 _ (Nat.le_of_eq (be_length _ _).symm), RM.pure_eq, RM.run_ok, getBE_be]
  congr 4; apply BitVec.eq_of_toNat_eq; simp; omega

theorem readI32_run (v : BitVec 32) :
    readI32.run () ⟨sz, be 4 v.toNat ++ rest, fin⟩ = .done ((.ok v, ()), ⟨sz, rest, fin⟩) := by
  simp only [readI32, RM.bind_eq, RM.run_bind]
  rw [show (4 : Int) = (4 : Nat) from rfl, nextM_run _ _ _ 4 _ (be_length _ _) (by omega)]
  simp only [Out.bind_done, RM.run_bind, RM.run_need 4 _ (Nat.le_of_eq (be_length _ _).symm), RM.pure_eq, RM.run_ok, getBE_be]
  congr 4; apply BitVec.eq_of_toNat_eq; simp; omega

theorem readI64_run (v : BitVec 64) :
    readI64.run () ⟨sz, be 8 v.toNat ++ rest, fin⟩ = .done ((.ok v, ()), ⟨sz, rest, fin⟩) := by
  simp only [readI64, RM.bind_eq, RM.run_bind]
  rw [show (8 : Int) = (8 : Nat) from rfl, nextM_run _ _ _ 8 _ (be_length _ _) (by omega)]
  simp only [Out.bind_done, RM.run_bind, RM.run_need 8 _ (Nat.le_of_eq (be_length _ _).symm), RM.pure_eq, RM.run_ok, getBE_be]
  congr 4; apply BitVec.eq_of_toNat_eq; simp; omega

theorem readDouble_run (v : BitVec 64) :
    readDouble.run () ⟨sz, be 8 v.toNat ++ rest, fin⟩ = .done ((.ok v, ()), ⟨sz, rest, fin⟩) :=
  readI64_run sz rest fin hsz v

theorem readSize_run (n : Nat) (hn : n < 2 ^ 31) :
    readSize.run () ⟨sz, be 4 n ++ rest, fin⟩ = .done ((.ok (BitVec.ofNat 64 n), ()), ⟨sz, rest, fin⟩) := by
  have h := readI32_run sz rest fin hsz (BitVec.ofNat 32 n)
  rw [BitVec.toNat_ofNat, Nat.mod_eq_of_lt (by omega)] at h
  simp only [readSize, RM.bind_eq, RM.run_bind, h]
  simp only [Out.bind_done, RM.pure_eq, RM.run_ok]
  congr 4
  apply BitVec.eq_of_toInt_eq
  rw [BitVec.toInt_signExtend_of_le (by omega), BitVec.toInt_ofNat', BitVec.toInt_ofNat']
  simp [Int.bmod]; omega

omit hsz in
theorem toInt_ofNat64 (n : Nat) (hn : n < 2 ^ 63) : (BitVec.ofNat 64 n).toInt = n := by
  rw [BitVec.toInt_ofNat']; simp [Int.bmod]; omega

theorem readString_run (v : Bytes) (hv : v.length < 2 ^ 31) :
    readString.run () ⟨sz, be 4 v.length ++ v ++ rest, fin⟩ = .done ((.ok v, ()), ⟨sz, rest, fin⟩) := by
  simp only [readString, RM.bind_eq, RM.run_bind, List.append_assoc]
  rw [readSize_run _ _ _ hsz _ hv]
  simp only [Out.bind_done]
  rw [toInt_ofNat64 _ (by omega), RM.run_lift, BProg.run_bind, wireReadString_ok _ _ (by omega) (by simp; omega) (by simp)]
  simp [BProg.run, toExcept]

theorem readBytes_run (buf v : Bytes) (hv : v.length < 2 ^ 31) :
    (readBytes buf).run () ⟨sz, be 4 v.length ++ v ++ rest, fin⟩ = .done ((.ok (buf ++ v), ()), ⟨sz, rest, fin⟩) := by
  simp only [readBytes, RM.bind_eq, RM.run_bind, List.append_assoc]
  rw [readSize_run _ _ _ hsz _ hv]
  simp only [Out.bind_done]
  rw [toInt_ofNat64 _ (by omega), RM.run_lift, BProg.run_bind, wireReadBytes_ok _ _ _ (by omega) (by simp; omega) (by simp)]
  simp [BProg.run, toExcept]

omit hsz in
theorem discard_run (v : Bytes) :
    (discard v.length).run () ⟨sz, v ++ rest, fin⟩ = .done ((.ok (), ()), ⟨sz, rest, fin⟩) := by
  rw [discard, RM.run_lift]
  simp only [BProg.run]
  rw [Flat.discard_ok _ _ (by omega) (by simp)]
  simp [toExcept]

theorem skipString_run (v : Bytes) (hv : v.length < 2 ^ 31) :
    skipString.run () ⟨sz, be 4 v.length ++ v ++ rest, fin⟩ = .done ((.ok (), ()), ⟨sz, rest, fin⟩) := by
  simp only [skipString, RM.bind_eq, RM.run_bind, List.append_assoc]
  rw [readSize_run _ _ _ hsz _ hv]
  simp only [Out.bind_done]
  rw [toInt_ofNat64 _ (by omega), discard_run]

omit hsz in
theorem readUUID_run (v : Bytes) (hv : v.length = 16) :
    readUUID.run () ⟨sz, v ++ rest, fin⟩ = .done ((.ok v, ()), ⟨sz, rest, fin⟩) := by
  rw [readUUID, RM.run_lift]
  simp only [BProg.run]
  rw [Flat.readFull_ok _ _ (by simp; omega)]
  simp [toExcept, ← hv]

omit hsz in
theorem skipUUID_run (v : Bytes) (hv : v.length = 16) :
    skipUUID.run () ⟨sz, v ++ rest, fin⟩ = .done ((.ok (), ()), ⟨sz, rest, fin⟩) := by
  rw [skipUUID, show (16 : Int) = v.length by omega, discard_run]

theorem readMapBegin_run (kt vt : WType) (n : Nat) (hn : n < 2 ^ 31) :
    readMapBegin.run () ⟨sz, [kt, vt] ++ be 4 n ++ rest, fin⟩ =
      .done ((.ok ⟨kt, vt, BitVec.ofNat 64 n⟩, ()), ⟨sz, rest, fin⟩) := by
  simp only [readMapBegin, RM.bind_eq, RM.run_bind, List.cons_append, List.nil_append, readByte_run,
    Out.bind_done, readSize_run _ _ _ hsz _ hn, RM.pure_eq, RM.run_ok]

theorem readSetBegin_run (et : WType) (n : Nat) (hn : n < 2 ^ 31) :
    readSetBegin.run () ⟨sz, [et] ++ be 4 n ++ rest, fin⟩ =
      .done ((.ok ⟨et, BitVec.ofNat 64 n⟩, ()), ⟨sz, rest, fin⟩) := by
  simp only [readSetBegin, RM.bind_eq, RM.run_bind, List.cons_append, List.nil_append, readByte_run,
    Out.bind_done, readSize_run _ _ _ hsz _ hn, RM.pure_eq, RM.run_ok]

theorem readFieldBegin_run (t : WType) (ht : t ≠ Ty.stop) (id : BitVec 16) :
    readFieldBegin.run () ⟨sz, [t] ++ be 2 id.toNat ++ rest, fin⟩ =
      .done ((.ok ⟨[], t, id⟩, ()), ⟨sz, rest, fin⟩) := by
  simp only [readFieldBegin, RM.bind_eq, RM.run_bind, List.cons_append, List.nil_append, readByte_run,
    Out.bind_done, if_neg ht, readI16_run _ _ _ hsz, RM.pure_eq, RM.run_ok]

omit hsz in
theorem readFieldBegin_stop :
    readFieldBegin.run () ⟨sz, 0 :: rest, fin⟩ = .done ((.ok ⟨[], Ty.stop, 0⟩, ()), ⟨sz, rest, fin⟩) := by
  simp only [readFieldBegin, RM.bind_eq, RM.run_bind, readByte_run, Out.bind_done]
  rfl

end

theorem gives {strict : Bool} {o : ROp} {f f' : Flat} {a : o.Ans}
    (h : (impl strict o).run () f = .done ((.ok a, ()), f')) : Gives (reader strict) o ((), f) a ((), f') := by
  simp [Gives, reader, h]

/-- The state of a binary reader in front of some bytes. -/
abbrev at' (sz : Nat) (b : Bytes) (fin : End) : Unit × Flat := ((), ⟨sz, b, fin⟩)

theorem loopCount_ofNat (n : Nat) (h : n < 2 ^ 63) : loopCount (BitVec.ofNat 64 n) = n := by
  rw [loopCount, BitVec.toInt_ofNat']; simp [Int.bmod]; omega

/-- What has to be shown for each value. -/
def OK (strict : Bool) (sz : Nat) (fin : End) (t : TVal) : Prop :=
  WF (2 ^ 31 - 1) t → ∀ rest, Holds (reader strict) t (at' sz (encBin t ++ rest) fin) (at' sz rest fin)

variable {strict : Bool} {sz : Nat} {fin : End}

theorem elems_hold (et : WType) (es : List TVal) (hall : ∀ e ∈ es, OK strict sz fin e) (hw : WFElems (2 ^ 31 - 1) et es)
    (rest : Bytes) : HoldsElems (reader strict) et es (at' sz (encBinElems es ++ rest) fin) (at' sz rest fin) := by
  induction es with
  | nil => rfl
  | cons e es ih =>
    simp only [WFElems] at hw
    simp only [HoldsElems, encBinElems, List.append_assoc]
    exact ⟨hw.1, _, hall e (by simp) hw.2.1 _, ih (fun e he => hall e (by simp [he])) hw.2.2⟩

theorem entries_hold (kt vt : WType) (es : List (TVal × TVal)) (hall : ∀ e ∈ es, OK strict sz fin e.1 ∧ OK strict sz fin e.2)
    (hw : WFEntries (2 ^ 31 - 1) kt vt es) (rest : Bytes) :
    HoldsEntries (reader strict) kt vt es (at' sz (encBinEntries es ++ rest) fin) (at' sz rest fin) := by
  induction es with
  | nil => rfl
  | cons e es ih =>
    obtain ⟨k, v⟩ := e
    simp only [WFEntries] at hw
    simp only [HoldsEntries, encBinEntries, List.append_assoc]
    obtain ⟨hk, hv⟩ := hall (k, v) (by simp)
    exact ⟨hw.1, hw.2.1, _, _, hk hw.2.2.1 _, hv hw.2.2.2.1 _, ih (fun e he => hall e (by simp [he])) hw.2.2.2.2⟩

theorem fields_hold (hsz : 16 ≤ sz) (fs : List (Bytes × BitVec 16 × TVal)) (hall : ∀ f ∈ fs, OK strict sz fin f.2.2)
    (hw : WFFields (2 ^ 31 - 1) fs) (rest : Bytes) :
    HoldsFields (reader strict) fs (at' sz (encBinFields fs ++ rest) fin) (at' sz rest fin) := by
  induction fs with
  | nil => exact ⟨_, gives (readFieldBegin_stop sz rest fin), rfl⟩
  | cons f fs ih =>
    obtain ⟨n, id, v⟩ := f
    simp only [WFFields] at hw
    simp only [HoldsFields, encBinFields, List.append_assoc]
    refine ⟨[], at' sz (encBin v ++ (encBinFields fs ++ rest)) fin, at' sz (encBinFields fs ++ rest) fin,
      at' sz (encBinFields fs ++ rest) fin, gives ?_, hall (n, id, v) (by simp) hw.1 _, rfl,
      ih (fun f hf => hall f (by simp [hf])) hw.2⟩
    have := readFieldBegin_run sz (encBin v ++ (encBinFields fs ++ rest)) fin hsz v.ty (ty_ne_stop v) id
    simp only [List.cons_append, List.nil_append] at this ⊢
    exact this

/-- The binary reader in front of the binary encoding of a value holds that value. -/
theorem holds (strict : Bool) (sz : Nat) (hsz : 16 ≤ sz) (fin : End) (t : TVal) : OK strict sz fin t := by
  induction t using TVal.ind with
  | hbool v =>
    intro _ rest
    refine gives ?_
    simp only [impl, readBool, encBin, List.cons_append, List.nil_append, RM.bind_eq, RM.run_bind, readByte_run, Out.bind_done]
    cases v <;> rfl
  | hbyte v => intro _ rest; exact gives (readByte_run sz rest fin v)
  | hdouble v => intro _ rest; exact gives (readDouble_run sz rest fin hsz v)
  | hi16 v => intro _ rest; exact gives (readI16_run sz rest fin hsz v)
  | hi32 v => intro _ rest; exact gives (readI32_run sz rest fin hsz v)
  | hi64 v => intro _ rest; exact gives (readI64_run sz rest fin hsz v)
  | hstr raw v =>
    intro hw rest
    simp only [WF] at hw
    exact ⟨gives (readString_run sz rest fin hsz v (by omega)), fun buf => gives (readBytes_run sz rest fin hsz buf v (by omega)),
      gives (skipString_run sz rest fin hsz v (by omega))⟩
  | huuid v =>
    intro hw rest
    exact ⟨gives (readUUID_run sz rest fin v hw), gives (skipUUID_run sz rest fin v hw)⟩
  | hstruct n fs hall =>
    intro hw rest
    exact ⟨[], _, _, rfl, fields_hold hsz fs hall hw rest, rfl⟩
  | hmap kt vt es hall =>
    intro hw rest
    simp only [WF] at hw
    simp only [Holds, encBin]
    rw [List.append_assoc]
    exact ⟨⟨kt, vt, BitVec.ofNat 64 es.length⟩, at' sz (encBinEntries es ++ rest) fin, at' sz rest fin,
      gives (readMapBegin_run sz (encBinEntries es ++ rest) fin hsz kt vt es.length (by omega)), loopCount_ofNat _ (by omega),
      fun _ => ⟨rfl, rfl⟩, entries_hold kt vt es hall hw.2 rest, rfl⟩
  | hset et es hall =>
    intro hw rest
    simp only [WF] at hw
    simp only [Holds, encBin]
    rw [List.append_assoc]
    exact ⟨⟨et, BitVec.ofNat 64 es.length⟩, at' sz (encBinElems es ++ rest) fin, at' sz rest fin,
      gives (readSetBegin_run sz (encBinElems es ++ rest) fin hsz et es.length (by omega)), loopCount_ofNat _ (by omega),
      rfl, elems_hold et es hall hw.2 rest, rfl⟩
  | hlist et es hall =>
    intro hw rest
    simp only [WF] at hw
    simp only [Holds, encBin]
    rw [List.append_assoc]
    exact ⟨⟨et, BitVec.ofNat 64 es.length⟩, at' sz (encBinElems es ++ rest) fin, at' sz rest fin,
      gives (readSetBegin_run sz (encBinElems es ++ rest) fin hsz et es.length (by omega)), loopCount_ofNat _ (by omega),
      rfl, elems_hold et es hall hw.2 rest, rfl⟩

end GoThrift.Binary
