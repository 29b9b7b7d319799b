import Verif.Proof.WrapExact
import Verif.Proof.Message
import Verif.Proof.Nesting
import Verif.Spec.Scalar
import Verif.Props.Varint

/-!
# C25 - C29, C30 (compact), C48 (compact)
-/

namespace GoThrift

open Spec Spec.TVal

/-! ## C25 -/

/-- **C25** every message header with a type below 8 is read back. -/
theorem C25_message_round_trip (h : MessageHeader) (ht : h.type.toNat < 8) (hn : h.name.length < 2 ^ 63) (cw : Compact.WState)
    (cr : Compact.RState) :
    WritesThenReads Compact.writer Compact.reader cw cr (.messageBegin h) .messageBegin h :=
  ⟨Compact.msgW h, fun b => Compact.message_write h (Nat.lt_trans hn (by decide)) cw b, fun size rest e hs =>
    Compact.gives (o := .messageBegin) (Compact.message_read_w size hs rest (.err e) (.inl ⟨e, rfl⟩) cr h ht hn)⟩

example : WritesThenReads Compact.writer Compact.reader {} {} (.messageBegin ⟨[0x70], 2, -5⟩) .messageBegin ⟨[0x70], 2, -5⟩ :=
  C25_message_round_trip _ (by decide) (by decide) _ _

/-- **C25** every first byte other than the protocol id `82` is rejected. -/
theorem C25_rejects_protocol (b0 : Byte) (h : b0 ≠ 0x82) (c : Compact.RState) (size : Nat) (rest : Bytes) (fin : End) :
    Compact.reader.step .messageBegin (c, ⟨size, b0 :: rest, fin⟩) =
      .done (.error (.compactBadProtocolID b0), (c, ⟨size, rest, fin⟩)) := by
  have : b0 ≠ Compact.protocolID := h
  simp only [Compact.reader, Compact.impl, Compact.readMessageBegin, RM.bind_eq, RM.run_bind, Compact.readByte_run, Out.bind_done,
    if_pos this, RM.run_fail]

/-- **C25** every version (lower five bits of the second byte) other than 1 is rejected. -/
theorem C25_rejects_version (b1 : Byte) (h : b1.toNat % 32 ≠ 1) (c : Compact.RState) (size : Nat) (rest : Bytes) (fin : End) :
    ∃ v, Compact.reader.step .messageBegin (c, ⟨size, 0x82 :: b1 :: rest, fin⟩) =
      .done (.error (.compactBadVersion v), (c, ⟨size, rest, fin⟩)) := by
  have hv : b1 &&& 0x1f ≠ Compact.version1 := by
    have : ∀ b : Byte, b &&& 0x1f = Compact.version1 → b.toNat % 32 = 1 := by decide +kernel
    exact fun hc => h (this b1 hc)
  have hp : ¬ ((0x82 : Byte) ≠ Compact.protocolID) := by decide
  refine ⟨b1 &&& 0x1f, ?_⟩
  simp only [Compact.reader, Compact.impl, Compact.readMessageBegin, RM.bind_eq, RM.run_bind, Compact.readByte_run, Out.bind_done,
    if_neg hp, if_pos hv, RM.run_fail]

example : (0x83 : Byte) ≠ 0x82 ∧ (0x22 : Byte).toNat % 32 ≠ 1 := by decide

/-! ## C26 -/

/-- **C26** for every field header of a valid type, both bool values and every previous id: AppendFieldHeader appends at most
MaxFieldHeaderSize bytes, one byte exactly when the 16-bit (wrapping) delta of the ids is 1..15, and a reader whose previous field id is that one reads
them back as the same type and id. For a bool field the following ReadBool returns the bool without reading anything. -/
theorem C26_field_header (h : FieldHeader) (ht : ValidTy h.type) (isTrue : Bool) (last : BitVec 16) :
    ∃ out, Compact.appendFieldHeader h isTrue last = .ok out ∧ out.length ≤ Compact.maxFieldHeaderSize ∧
      (out.length = 1 ↔ 1 ≤ (h.id - last).toInt ∧ (h.id - last).toInt ≤ 15) ∧
      ∀ (c : Compact.RState) (size : Nat) (rest : Bytes) (fin : End), c.last = last →
        ∃ c', Compact.reader.step .fieldBegin (c, ⟨size, out ++ rest, fin⟩) =
            .done (.ok ⟨[], h.type, h.id⟩, (c', ⟨size, rest, fin⟩)) ∧ c'.last = h.id ∧ c'.ids = c.ids ∧
          (h.type = Ty.bool → seen (Compact.reader.step .bool (c', ⟨size, rest, fin⟩)) = .done (.ok isTrue, ⟨size, rest, fin⟩)) ∧
          (h.type ≠ Ty.bool → c'.boolField = c.boolField) := by
  have hcode : ∃ code, (if h.type = Ty.bool then
           (if isTrue then Except.ok Compact.CT.boolTrue else Except.ok Compact.CT.boolFalse)
         else Compact.typeCompact h.type : Except Err Byte) = .ok code ∧ Compact.wire code = .ok h.type ∧ code.toNat < 16 ∧
         (h.type = Ty.bool → ∀ b : Compact.BoolField, b.setBy code = if isTrue then .true else .false) ∧
         (h.type ≠ Ty.bool → ∀ b : Compact.BoolField, b.setBy code = b) := by
    by_cases hb : h.type = Ty.bool
    · rw [if_pos hb, hb]
      cases isTrue
      · exact ⟨_, rfl, by decide, by decide, fun _ b => by cases b <;> rfl, fun h => absurd rfl h⟩
      · exact ⟨_, rfl, by decide, by decide, fun _ b => by cases b <;> rfl, fun h => absurd rfl h⟩
    · rw [if_neg hb]
      obtain ⟨h1, h2, h3, -, -⟩ := Compact.code_spec h.type ht
      refine ⟨_, h1, h2, h3, fun h => absurd h hb, fun _ b => ?_⟩
      have : ∀ t : WType, ValidTy t → t ≠ Ty.bool → compactCode t ≠ Compact.CT.boolTrue ∧ compactCode t ≠ Compact.CT.boolFalse := by
        decide +kernel
      have := this h.type ht hb
      rw [Compact.BoolField.setBy, if_neg this.1, if_neg this.2]
  obtain ⟨code, h1, h2, h3, h4, h5⟩ := hcode
  have hstop : h.type ≠ Ty.stop := (Compact.code_spec h.type ht).2.2.2.2
  have happ : Compact.appendFieldHeader h isTrue last = .ok (Compact.hdrW code last h.id) := by
    simp only [Compact.appendFieldHeader, h1, Compact.hdrW]
    split <;> rfl
  have hlen16 := (C19_varint_length 0 0 h.id).2.2
  have hpos := (C19_uvarint_length (zigzag (h.id.signExtend 64))).1
  refine ⟨_, happ, ?_, ?_, ?_⟩
  · rw [Compact.hdrW]
    split
    · simp [Compact.maxFieldHeaderSize]
    · simp [Compact.appendI16, Compact.maxFieldHeaderSize]; omega
  · rw [Compact.hdrW]
    split
    · rename_i hd; exact ⟨fun _ => ⟨hd.1, hd.2⟩, fun _ => rfl⟩
    · rename_i hd
      simp only [List.cons_append, List.nil_append, List.length_cons, Compact.appendI16, putVarint]
      omega
  · intro c size rest fin hc
    subst hc
    have hr := Compact.gives (o := .fieldBegin) (Compact.hdrW_ok size rest fin c code h.type h2 hstop h3 h.id)
    refine ⟨_, hr, rfl, rfl, fun hb => ?_, fun hb => h5 hb _⟩
    rw [h4 hb]
    cases isTrue <;> rfl

/-- **C26** a header of any other type is an error. -/
theorem C26_field_header_invalid (h : FieldHeader) (ht : ¬ ValidTy h.type) (isTrue : Bool) (last : BitVec 16) :
    Compact.appendFieldHeader h isTrue last = .error (.invalidType h.type) := by
  have hb : h.type ≠ Ty.bool := fun hc => ht (.inl hc)
  have : ∀ t : WType, ¬ ValidTy t → Compact.typeCompact t = .error (.invalidType t) := by decide +kernel
  rw [Compact.appendFieldHeader, if_neg hb, this h.type ht]

/-- Wrapping and non-wrapping deltas. -/
example : Compact.appendFieldHeader ⟨[], Ty.i32, 3⟩ false 1 = .ok [0x25] ∧
    Compact.appendFieldHeader ⟨[], Ty.bool, -32768⟩ true 32767 = .ok [0x11] ∧
    Compact.appendFieldHeader ⟨[], Ty.i32, 300⟩ false 1 = .ok [0x05, 0xd8, 0x04] ∧
    ValidTy Ty.i32 ∧ ¬ ValidTy 0 := by decide +kernel

/-! ## C27 -/

/-- Size of a non-negative Go int. -/
theorem ofNat_toNat_size (n : BitVec 64) (hn : 0 ≤ n.toInt) : n.toNat < 2 ^ 63 ∧ BitVec.ofNat 64 n.toNat = n ∧ (n = 0 ↔ n.toNat = 0) := by
  refine ⟨?_, by simp, ?_⟩
  · rw [BitVec.toInt_eq_toNat_cond] at hn
    have := n.isLt
    split at hn <;> omega
  · constructor
    · rintro rfl; rfl
    · intro h; exact BitVec.eq_of_toNat_eq h

theorem compactListHeader_length (et : WType) (n : Nat) (hn : n < 2 ^ 63) : (compactListHeader et n).length ≤ 11 := by
  unfold compactListHeader
  split
  · simp
  · have := leb_length_le 9 n (Nat.lt_of_lt_of_le hn (by decide))
    simp; omega

theorem compactMapHeader_length (kt vt : WType) (n : Nat) (hn : n < 2 ^ 63) : (compactMapHeader kt vt n).length ≤ 11 := by
  unfold compactMapHeader
  split
  · simp
  · have := leb_length_le 9 n (Nat.lt_of_lt_of_le hn (by decide))
    simp; omega

/-- **C27** list and set headers (ReadListHeader and ReadSetHeader are one function, as are the Append functions). -/
theorem C27_set_header (h : SetHeader) (he : ValidTy h.element) (hn : 0 ≤ h.size.toInt) :
    ∃ out, Compact.appendSetHeader h = .ok out ∧ out.length ≤ Compact.maxSetHeaderSize ∧
      ∀ (c : Compact.RState) (size : Nat) (rest : Bytes) (fin : End),
        Compact.reader.step .setBegin (c, ⟨size, out ++ rest, fin⟩) = .done (.ok h, (c, ⟨size, rest, fin⟩)) ∧
        Compact.reader.step .listBegin (c, ⟨size, out ++ rest, fin⟩) = .done (.ok h, (c, ⟨size, rest, fin⟩)) := by
  obtain ⟨h1, h2, -⟩ := ofNat_toNat_size h.size hn
  have ha := Compact.appendSetHeader_eq h.element h.size.toNat he h1
  have hh : (⟨h.element, BitVec.ofNat 64 h.size.toNat⟩ : SetHeader) = h := by rw [h2]
  rw [hh] at ha
  refine ⟨_, ha, compactListHeader_length _ _ h1, fun c size rest fin => ?_⟩
  have hr := Compact.readSetBegin_run size rest fin c h.element h.size.toNat he h1
  rw [hh] at hr
  exact ⟨Compact.gives (o := .setBegin) hr, Compact.gives (o := .listBegin) hr⟩

/-- **C27** map headers; an empty map is read back without types (both are then STOP). -/
theorem C27_map_header (h : MapHeader) (ht : h.size ≠ 0 → ValidTy h.key ∧ ValidTy h.value) (hn : 0 ≤ h.size.toInt) :
    ∃ out, Compact.appendMapHeader h = .ok out ∧ out.length ≤ Compact.maxMapHeaderSize ∧
      ∀ (c : Compact.RState) (size : Nat) (rest : Bytes) (fin : End),
        Compact.reader.step .mapBegin (c, ⟨size, out ++ rest, fin⟩) =
          .done (.ok (if h.size = 0 then ⟨Ty.stop, Ty.stop, 0⟩ else h), (c, ⟨size, rest, fin⟩)) := by
  obtain ⟨h1, h2, h3⟩ := ofNat_toNat_size h.size hn
  have ht' : h.size.toNat ≠ 0 → ValidTy h.key ∧ ValidTy h.value := fun hz => ht (fun hc => hz (h3.1 hc))
  have ha := Compact.appendMapHeader_eq h.key h.value h.size.toNat ht' h1
  have hh : (⟨h.key, h.value, BitVec.ofNat 64 h.size.toNat⟩ : MapHeader) = h := by rw [h2]
  rw [hh] at ha
  refine ⟨_, ha, compactMapHeader_length _ _ _ h1, fun c size rest fin => ?_⟩
  have hr := Compact.readMapBegin_run size rest fin c h.key h.value h.size.toNat ht' h1
  rw [h2] at hr
  by_cases hz : h.size = 0
  · rw [if_pos (h3.1 hz), if_pos (h3.1 hz)] at hr
    rw [if_pos hz]
    have := Compact.gives (o := .mapBegin) hr
    rw [Gives] at this
    rw [this, hz]
  · rw [if_neg (fun hc => hz (h3.2 hc)), if_neg (fun hc => hz (h3.2 hc))] at hr
    rw [if_neg hz]
    exact Compact.gives (o := .mapBegin) hr

/-- **C27** invalid element types are an error, and the writer then writes nothing. -/
theorem C27_invalid (c : Compact.WState) (b : Bytes) :
    (∀ h : SetHeader, ¬ ValidTy h.element → ∃ e, Compact.appendSetHeader h = .error e ∧
      Compact.writer.step (.setBegin h) (c, b) = .done (some e, (c, b)) ∧
      Compact.writer.step (.listBegin h) (c, b) = .done (some e, (c, b))) ∧
    (∀ h : MapHeader, 0 < h.size.toInt → ¬ (ValidTy h.key ∧ ValidTy h.value) → ∃ e, Compact.appendMapHeader h = .error e ∧
      Compact.writer.step (.mapBegin h) (c, b) = .done (some e, (c, b))) := by
  have hinv : ∀ t : WType, ¬ ValidTy t → Compact.typeCompact t = .error (.invalidType t) := by decide +kernel
  have hval := fun t h => (Compact.code_spec t h).1
  have haw : ∀ max e, (Compact.appendWrite max (.error e)).ideal c = ((.error e, c), []) := by
    intro max e; simp [Compact.appendWrite, WM.ideal_bind, WM.ofExcept]
  constructor
  · intro h hi
    have ha : Compact.appendSetHeader h = .error (.invalidType h.element) := by
      rw [Compact.appendSetHeader, hinv _ hi]
    refine ⟨_, ha, ?_, ?_⟩ <;> simp [Compact.writer, Compact.wimpl, ha, haw, errOf]
  · intro h hs hi
    have hne : ¬ h.size.toInt ≤ 0 := by omega
    have ha : ∃ e, Compact.appendMapHeader h = .error e := by
      rw [Compact.appendMapHeader, if_neg hne]
      by_cases hk : ValidTy h.key
      · rw [hval _ hk]
        have hv : ¬ ValidTy h.value := fun hv => hi ⟨hk, hv⟩
        exact ⟨_, by simp only [hinv _ hv]; rfl⟩
      · exact ⟨_, by rw [hinv _ hk]⟩
    obtain ⟨e, ha⟩ := ha
    exact ⟨e, ha, by simp [Compact.writer, Compact.wimpl, ha, haw, errOf]⟩

example : ValidTy (⟨Ty.struct, 15⟩ : SetHeader).element ∧ 0 ≤ (⟨Ty.struct, 15⟩ : SetHeader).size.toInt ∧
    ¬ ValidTy (⟨7, 15⟩ : SetHeader).element ∧ 0 < (⟨Ty.i32, 1, 2⟩ : MapHeader).size.toInt ∧
    Compact.appendMapHeader ⟨Ty.string, Ty.i32, 300⟩ = .ok [0xac, 0x02, 0x85] := by decide +kernel

/-! ## C28 -/

/-- **C28** writing: whatever balanced sequence of calls makes up a nested struct, and whether or not they succeed, the header of the
next field of the outer struct is the same (in bytes and in error) as if the nested struct had not been there. -/
theorem C28_write (n : Bytes) (os : List WOp) (hb : balancedW 0 os = true) (c : Compact.WState) (b : Bytes) :
    ∃ c' b', writeAll Compact.writer (.structBegin n :: os ++ [.structEnd]) (c, b) = .done (c', b') ∧
      (∀ h : FieldHeader, h.type ≠ Ty.bool → ∃ e c1 c1' out,
        Compact.writer.step (.fieldBegin h) (c, b) = .done (e, (c1, b ++ out)) ∧
        Compact.writer.step (.fieldBegin h) (c', b') = .done (e, (c1', b' ++ out))) ∧
      (∀ (h : FieldHeader) (v : Bool), h.type = Ty.bool → ∃ c1 c1' out,
        Writes Compact.writer [.fieldBegin h, .bool v] (c, b) (c1, b ++ out) ∧
        Writes Compact.writer [.fieldBegin h, .bool v] (c', b') (c1', b' ++ out)) := by
  obtain ⟨⟨c', b'⟩, h1, h2, h3⟩ := Compact.writeAll_struct n os hb (c, b)
  exact ⟨c', b', h1, fun h ht => Compact.written_fieldBegin c c' h3 h ht b b',
    fun h v ht => Compact.written_boolField c c' h3 h ht v b b'⟩

/-- **C28** reading: after any balanced sequence of calls inside a nested struct (any answers), the next field header is read as if
the nested struct had not been there. -/
theorem C28_read (os : List ROp) (hb : balancedR 0 os = true) (c c' : Compact.RState) (f f' : Flat)
    (h : readAll Compact.reader (.structBegin :: os ++ [.structEnd]) (c, f) = .done (c', f')) (g : Flat) :
    seen (Compact.reader.step .fieldBegin (c', g)) = seen (Compact.reader.step .fieldBegin (c, g)) :=
  Compact.seen_fieldBegin c c' (Compact.readAll_struct os hb c c' f f' h).2 g

/-- **C28** an unmatched ReadStructEnd is an error: after any balanced calls on a new reader. -/
theorem C28_read_unbalanced (os : List ROp) (hb : balancedR 0 os = true) (f : Flat) (c' : Compact.RState) (f' : Flat)
    (h : readAll Compact.reader os ({}, f) = .done (c', f')) :
    Compact.reader.step .structEnd (c', f') = .done (.error .readStructEndUnbalanced, (c', f')) := by
  have := Compact.readAll_balanced os 0 {} f [] [] c' f' hb rfl rfl h
  obtain ⟨i, l, bf⟩ := c'
  simp only at this
  subst this
  rfl

/-- **C28** an unmatched WriteStructEnd is an error and writes nothing. -/
theorem C28_write_unbalanced (os : List WOp) (hb : balancedW 0 os = true) (b : Bytes) :
    ∃ c' b', writeAll Compact.writer os ({}, b) = .done (c', b') ∧
      Compact.writer.step .structEnd (c', b') = .done (some .writeStructEndUnbalanced, (c', b')) := by
  obtain ⟨⟨⟨i, l, bf⟩, b'⟩, h1, h2⟩ := Compact.writeAll_balanced os 0 ({}, b) [] [] hb rfl rfl
  simp only at h2
  subst h2
  refine ⟨_, b', h1, ?_⟩
  simp [Compact.writer, Compact.wimpl, Compact.writeStructEnd, WM.ideal_bind, errOf]

/-- A nested struct inside a nested struct, with the reader's answers. -/
example : balancedR 0 [.fieldBegin, .structBegin, .fieldBegin, .structEnd, .fieldEnd] = true ∧
    balancedW 0 [.fieldBegin ⟨[], Ty.struct, 9⟩, .structBegin [], .fieldBegin ⟨[], Ty.i32, 3⟩, .i32 1, .structEnd] = true ∧
    readAll Compact.reader (.structBegin :: [.fieldBegin, .structBegin, .fieldBegin, .structEnd, .fieldEnd] ++ [.structEnd])
      (⟨[], 5, .none⟩, ⟨16, [0x9c, 0x00, 0x00], .err .eof⟩) = .done (⟨[], 5, .none⟩, ⟨16, [0x00], .err .eof⟩) := by
  decide +kernel

/-! ## C29 -/

/-- **C29** the twelve types have the codes of the specification and come back; every other wire type is rejected. -/
theorem C29_type_codes (t : WType) :
    (ValidTy t → Compact.typeCompact t = .ok (compactCode t) ∧ Compact.wire (compactCode t) = .ok t) ∧
    (¬ ValidTy t → Compact.typeCompact t = .error (.invalidType t)) := by
  revert t; decide +kernel

/-- **C29** every compact code that is not one of the fourteen of the specification is rejected; 1 is bool and 0 is STOP. -/
theorem C29_unknown_codes (code : Byte) :
    (14 ≤ code.toNat → Compact.wire code = .error (.invalidCompactType code)) ∧
    (code = 1 → Compact.wire code = .ok Ty.bool) ∧ (code = 0 → Compact.wire code = .ok Ty.stop) ∧
    (2 ≤ code.toNat → code.toNat < 14 → ∃ t, ValidTy t ∧ compactCode t = code ∧ Compact.wire code = .ok t) := by
  have h1 : ∀ code : Byte, 14 ≤ code.toNat → Compact.wire code = .error (.invalidCompactType code) := by decide +kernel
  have h2 : ∀ code : Byte, 2 ≤ code.toNat → code.toNat < 14 →
      ∃ t ∈ [Ty.bool, Ty.byte, Ty.double, Ty.i16, Ty.i32, Ty.i64, Ty.string, Ty.struct, Ty.map, Ty.set, Ty.list, Ty.uuid],
        ValidTy t ∧ compactCode t = code ∧ Compact.wire code = .ok t := by decide +kernel
  refine ⟨h1 code, by rintro rfl; decide, by rintro rfl; decide, fun ha hb => ?_⟩
  obtain ⟨t, -, h⟩ := h2 code ha hb
  exact ⟨t, h⟩

/-! ## C30, compact half -/

/-- **C30** compact, what holds: the calls for a value in which no field id is lower than its predecessor by 65521 or more succeed and
write exactly the bytes of the specification. (Missing: ids that wrap around, see `C30_compact_wrap_violated`.) -/
theorem C30_compact_value_partial (t : TVal) (hw : WF (2 ^ 63 - 1) t) (ht : TypesOK t) (hn : NoWrap t) (c : Compact.WState) (b : Bytes)
    (hc : c.boolField.type = Ty.stop) :
    ∃ c', Writes Compact.writer (calls t) (c, b) (c', b ++ encCompact t) := by
  obtain ⟨c', -, h⟩ := Compact.writes t hw ht c b hc
  rw [Compact.enc_noWrap t hn] at h
  exact ⟨c', h⟩

/-- **C30** compact, what holds: message headers with a non-negative sequence id. (Missing: negative ids, see
`C30_compact_message_violated`.) -/
theorem C30_compact_message_partial (h : MessageHeader) (ht : h.type.toNat < 8) (hid : 0 ≤ h.id.toInt) (hn : h.name.length < 2 ^ 64)
    (c : Compact.WState) (b : Bytes) :
    Writes Compact.writer [.messageBegin h] (c, b) (c, b ++ encCompactMessage h) := by
  rw [← Compact.msgW_spec h ht hid]
  exact .one (Compact.message_write h hn c b)

/-- **C30 violated** for compact message headers: the specification writes the sequence id -1 as the varint of its 32-bit pattern (five
bytes), the writer as the varint of its 64-bit sign extension (ten bytes). -/
theorem C30_compact_message_violated : ∃ h : MessageHeader, h.type.toNat < 8 ∧ h.name.length < 2 ^ 64 ∧
    encCompactMessage h = [0x82, 0x21, 0xff, 0xff, 0xff, 0xff, 0x0f, 0x00] ∧
    Compact.writer.step (.messageBegin h) ({}, []) =
      .done (none, ({}, [0x82, 0x21, 0xff, 0xff, 0xff, 0xff, 0xff, 0xff, 0xff, 0xff, 0xff, 0x01, 0x00])) := by
  refine ⟨⟨[], 1, -1⟩, by decide, by decide, ?_, by decide +kernel⟩
  have h0 : leb 0 = [0] := by rw [leb]; rfl
  have h1 : leb 4294967295 = [0xff, 0xff, 0xff, 0xff, 0x0f] := by
    rw [leb, if_neg (by decide), leb, if_neg (by decide), leb, if_neg (by decide), leb, if_neg (by decide), leb, if_pos (by decide)]
    decide
  have h2 : (-1 : BitVec 32).toNat = 4294967295 := by decide
  simp [encCompactMessage, h0, h2, h1]

/-- **C30 violated** for compact field headers: with previous id 32767 the specification writes field id -32768 in the long form, the
writer in the short form. -/
theorem C30_compact_wrap_violated : ∃ t : TVal, WF (2 ^ 63 - 1) t ∧ TypesOK t ∧
    encCompact t = [0x01, 0xfe, 0xff, 0x03, 0x01, 0xff, 0xff, 0x03, 0x00] ∧
    ∃ c', Writes Compact.writer (calls t) ({}, []) (c', [0x01, 0xfe, 0xff, 0x03, 0x11, 0x00]) := by
  refine ⟨.struct [] [([], 32767, .bool true), ([], -32768, .bool true)], by simp [WF, WFFields], by simp [TypesOK, TypesOKFields],
    ?_, ⟨⟨[], 0, ⟨[], 0, -32768⟩⟩, by unfold Writes; decide +kernel⟩⟩
  have h1 : Spec.zigzag (BitVec.toInt (32767 : BitVec 16)) = 65534 := by decide
  have h2 : Spec.zigzag (BitVec.toInt (-32768 : BitVec 16)) = 65535 := by decide
  have l1 : leb 65534 = [0xfe, 0xff, 0x03] := by
    rw [leb, if_neg (by decide), leb, if_neg (by decide), leb, if_pos (by decide)]; decide
  have l2 : leb 65535 = [0xff, 0xff, 0x03] := by
    rw [leb, if_neg (by decide), leb, if_neg (by decide), leb, if_pos (by decide)]; decide
  have n1 : ¬ (0 < (32767 : BitVec 16).toInt - (0 : BitVec 16).toInt ∧ (32767 : BitVec 16).toInt - (0 : BitVec 16).toInt ≤ 15) := by decide
  have n2 : ¬ (0 < (-32768 : BitVec 16).toInt - (32767 : BitVec 16).toInt ∧ (-32768 : BitVec 16).toInt - (32767 : BitVec 16).toInt ≤ 15) := by
    decide
  simp only [encCompact, encCompactFields, compactFieldHeader, if_neg n1, if_neg n2, h1, h2, l1, l2, compactFieldCode, ty, if_true]
  decide

/-- **C30** compact, exactly: the calls for any value succeed; what they write is what the specification prescribes iff no field id is lower than its predecessor by 65521 or more. -/
theorem C30_compact_value_exact_partial (t : TVal) (hw : WF (2 ^ 63 - 1) t) (ht : TypesOK t) (c : Compact.WState) (b : Bytes) (hc : c.boolField.type = Ty.stop) :
    ∃ c' out, Writes Compact.writer (calls t) (c, b) (c', b ++ out) ∧ (out = encCompact t ↔ NoWrap t) := by
  obtain ⟨c', -, h⟩ := Compact.writes t hw ht c b hc
  exact ⟨c', _, h, fun he => (Compact.enc_length t).2 (by rw [he]), fun hn => Compact.enc_noWrap t hn⟩

/-- **C30** compact, exactly, for message headers: what is written is what the specification prescribes iff the sequence id is not negative. -/
theorem C30_compact_message_exact_partial (h : MessageHeader) (ht : h.type.toNat < 8) (hn : h.name.length < 2 ^ 64) (c : Compact.WState) (b : Bytes) :
    ∃ out, Compact.writer.step (.messageBegin h) (c, b) = .done (none, (c, b ++ out)) ∧ (out = encCompactMessage h ↔ 0 ≤ h.id.toInt) :=
  ⟨_, Compact.message_write h hn c b, Compact.msgW_exact h ht⟩

example : ¬ NoWrap (.struct [] [([], 32767, .bool true), ([], -32768, .bool true)]) ∧ NoWrap (.struct [] [([], -32768, .bool true), ([], 32767, .bool true)]) := by
  simp [NoWrap, NoWrapFields]

/-- The partial theorem applies to ordinary values: ascending ids. -/
example : let t := TVal.struct [] [([], 1, .bool true), ([], 300, .map Ty.string Ty.list
    [(.str false [0x61], .list Ty.i32 [.i32 1, .i32 (-1)])])]
    WF (2 ^ 63 - 1) t ∧ TypesOK t ∧ NoWrap t := by
  simp [WF, WFFields, WFEntries, WFElems, TypesOK, TypesOKFields, TypesOKEntries, TypesOKElems, ty, ValidTy, NoWrap, NoWrapFields,
    NoWrapEntries, NoWrapElems]

/-! ## C48, compact half -/

/-- **C48** compact: every scalar is read back bit for bit (doubles are bit patterns), by a writer and a reader that are not in the
middle of a bool field (for those see C26). -/
theorem C48_compact (cw : Compact.WState) (hcw : cw.boolField.type = Ty.stop) (cr : Compact.RState) (hcr : cr.boolField = .none) :
    (∀ v, WritesThenReads Compact.writer Compact.reader cw cr (.bool v) .bool v) ∧
    (∀ v, WritesThenReads Compact.writer Compact.reader cw cr (.byte v) .byte v) ∧
    (∀ v, WritesThenReads Compact.writer Compact.reader cw cr (.i16 v) .i16 v) ∧
    (∀ v, WritesThenReads Compact.writer Compact.reader cw cr (.i32 v) .i32 v) ∧
    (∀ v, WritesThenReads Compact.writer Compact.reader cw cr (.i64 v) .i64 v) ∧
    (∀ v, WritesThenReads Compact.writer Compact.reader cw cr (.double v) .double v) ∧
    (∀ v : Bytes, v.length < 2 ^ 63 → WritesThenReads Compact.writer Compact.reader cw cr (.string v) .string v) ∧
    (∀ v buf : Bytes, v.length < 2 ^ 63 → WritesThenReads Compact.writer Compact.reader cw cr (.bytes v) (.bytes buf) (buf ++ v)) ∧
    (∀ v : Bytes, v.length = 16 → WritesThenReads Compact.writer Compact.reader cw cr (.uuid v) .uuid v) := by
  have key : ∀ (ow : WOp) (o : ROp) (v : o.Ans) (t : TVal), WF (2 ^ 63 - 1) t → TypesOK t →
      (Compact.wimpl ow).ideal cw = ((.ok (), cw), encCompact t) →
      (∀ s s', Holds Compact.reader t s s' → Gives Compact.reader o s v s') →
      WritesThenReads Compact.writer Compact.reader cw cr ow o v := by
    intro ow o v t hw ht hs hg
    exact ⟨encCompact t, fun b => Compact.step_run hs, fun size rest e hsz => hg _ _
      (Compact.holds size hsz (.err e) t hw ht cr rest hcr (.inl (.inl ⟨e, rfl⟩)))⟩
  refine ⟨fun v => key _ _ _ (.bool v) trivial trivial ?_ fun _ _ h => h,
    fun v => key _ _ _ (.byte v) trivial trivial ?_ fun _ _ h => h,
    fun v => key _ _ _ (.i16 v) trivial trivial ?_ fun _ _ h => h, fun v => key _ _ _ (.i32 v) trivial trivial ?_ fun _ _ h => h,
    fun v => key _ _ _ (.i64 v) trivial trivial ?_ fun _ _ h => h, fun v => key _ _ _ (.double v) trivial trivial ?_ fun _ _ h => h,
    fun v hv => key _ _ _ (.str false v) (Nat.le_pred_of_lt hv) trivial ?_ fun _ _ h => h.1,
    fun v buf hv => key _ _ _ (.str true v) (Nat.le_pred_of_lt hv) trivial ?_ fun _ _ h => h.2.1 buf,
    fun v hv => key _ _ _ (.uuid v) hv trivial ?_ fun _ _ h => h.1⟩
  · simp only [Compact.wimpl, Compact.writeBool, WM.bind_eq, Compact.ideal_get_bind]
    rw [if_neg (by simp [hcw])]
    cases v <;> simp [Compact.writeByte, encCompact]
  · simp [Compact.wimpl, Compact.writeByte, encCompact]
  · simp [Compact.wimpl, Compact.writeI64, encCompact, Compact.lebz16]
  · simp [Compact.wimpl, Compact.writeI64, encCompact, Compact.lebz32]
  · simp [Compact.wimpl, Compact.writeI64, encCompact, Compact.lebz64]
  · simp [Compact.wimpl, Compact.writeDouble, encCompact, putLE_eq]
  · simp [Compact.wimpl, Compact.writeString, Compact.writeSize, Compact.writeUvarint, Compact.lenInt, Compact.ideal_write_bind, encCompact,
      Compact.leb_eq_put v.length (by omega)]
  · simp [Compact.wimpl, Compact.writeBytes, Compact.writeSize, Compact.writeUvarint, Compact.lenInt, Compact.ideal_write_bind, encCompact,
      Compact.leb_eq_put v.length (by omega)]
  · simp [Compact.wimpl, encCompact]

/-- Even between the fields of a struct, e.g. after field 7. -/
example : WritesThenReads Compact.writer Compact.reader ⟨[0], 7, ⟨[], Ty.stop, 0⟩⟩ ⟨[0], 7, .none⟩ (.double 0x7ff0000000000001) .double
    0x7ff0000000000001 := (C48_compact _ rfl _ rfl).2.2.2.2.2.1 _

end GoThrift
