import Verif.Proof.Message

/-!
# When the compact writer writes what the specification prescribes
-/

namespace GoThrift.Compact

open Spec Spec.TVal

theorem appendI16_length_pos (id : BitVec 16) : 0 < (appendI16 id).length := by
  rw [appendI16, ← lebz16]; exact leb_length_pos _

/-- A header that the writer writes is not longer than that of the specification, and shorter if the ids wrap around. -/
theorem hdrW_length (code : Byte) (hc : code.toNat < 16) (last id : BitVec 16) :
    (hdrW code last id).length ≤ (compactFieldHeader code last id).length ∧
      ((hdrW code last id).length = (compactFieldHeader code last id).length → -65521 < id.toInt - last.toInt) := by
  by_cases h : -65521 < id.toInt - last.toInt
  · rw [hdrW_spec code hc last id h]; exact ⟨Nat.le_refl _, fun _ => h⟩
  · have h1 := @BitVec.le_toInt 16 id; have h2 := @BitVec.toInt_lt 16 id
    have h3 := @BitVec.le_toInt 16 last; have h4 := @BitVec.toInt_lt 16 last
    have hd : (id - last).toInt = id.toInt - last.toInt + 65536 := by
      rw [BitVec.toInt_sub]
      simp only [Int.bmod] at *
      split <;> omega
    have e1 : (hdrW code last id).length = 1 := by
      rw [hdrW, if_pos (by omega)]; rfl
    have e2 : (compactFieldHeader code last id).length = 1 + (leb (Spec.zigzag id.toInt)).length := by
      rw [compactFieldHeader, if_neg (by omega)]; simp; omega
    have := leb_length_pos (Spec.zigzag id.toInt)
    omega

/-- The same for values. -/
theorem enc_length (t : TVal) : (encWith hdrW t).length ≤ (encCompact t).length ∧ ((encWith hdrW t).length = (encCompact t).length → NoWrap t) := by
  induction t using TVal.ind with
  | hstruct n fs hall =>
    rw [encWith, encCompact, NoWrap]
    generalize (0 : BitVec 16) = last
    induction fs generalizing last with
    | nil => exact ⟨Nat.le_refl _, fun _ => trivial⟩
    | cons f fs ih =>
      obtain ⟨fn, id, v⟩ := f
      obtain ⟨i1, i2⟩ := ih (fun f hf => hall f (by simp [hf])) id
      obtain ⟨h1, h2⟩ := hdrW_length _ (fieldCode_spec v).2 last id
      obtain ⟨v1, v2⟩ := hall (fn, id, v) (by simp)
      simp only [encWithFields, encCompactFields, NoWrapFields, List.length_append]
      dsimp only at v1 v2
      by_cases hb : v.ty = Ty.bool
      · have hn : NoWrap v := by
          cases v with
          | bool b => trivial
          | _ => exact absurd hb (by simp only [ty]; decide)
        simp only [if_pos hb, List.length_nil]
        exact ⟨by omega, fun h => ⟨h2 (by omega), hn, i2 (by omega)⟩⟩
      · simp only [if_neg hb]
        exact ⟨by omega, fun h => ⟨h2 (by omega), v2 (by omega), i2 (by omega)⟩⟩
  | hmap kt vt es hall =>
    rw [encWith, encCompact, NoWrap, List.length_append, List.length_append]
    have key : (encWithEntries hdrW es).length ≤ (encCompactEntries es).length ∧ ((encWithEntries hdrW es).length = (encCompactEntries es).length → NoWrapEntries es) := by
      induction es with
      | nil => exact ⟨Nat.le_refl _, fun _ => trivial⟩
      | cons e es ih =>
        obtain ⟨k, v⟩ := e
        obtain ⟨i1, i2⟩ := ih (fun f hf => hall f (by simp [hf]))
        obtain ⟨⟨k1, k2⟩, v1, v2⟩ := hall (k, v) (by simp)
        dsimp only at k1 k2 v1 v2
        simp only [encWithEntries, encCompactEntries, NoWrapEntries, List.length_append]
        exact ⟨by omega, fun h => ⟨k2 (by omega), v2 (by omega), i2 (by omega)⟩⟩
    exact ⟨by omega, fun h => key.2 (by omega)⟩
  | hset et es hall =>
    rw [encWith, encCompact, NoWrap, List.length_append, List.length_append]
    have key : (encWithElems hdrW es).length ≤ (encCompactElems es).length ∧ ((encWithElems hdrW es).length = (encCompactElems es).length → NoWrapElems es) := by
      induction es with
      | nil => exact ⟨Nat.le_refl _, fun _ => trivial⟩
      | cons e es ih =>
        obtain ⟨i1, i2⟩ := ih (fun f hf => hall f (by simp [hf]))
        obtain ⟨v1, v2⟩ := hall e (by simp)
        simp only [encWithElems, encCompactElems, NoWrapElems, List.length_append]
        exact ⟨by omega, fun h => ⟨v2 (by omega), i2 (by omega)⟩⟩
    exact ⟨by omega, fun h => key.2 (by omega)⟩
  | hlist et es hall =>
    rw [encWith, encCompact, NoWrap, List.length_append, List.length_append]
    have key : (encWithElems hdrW es).length ≤ (encCompactElems es).length ∧ ((encWithElems hdrW es).length = (encCompactElems es).length → NoWrapElems es) := by
      induction es with
      | nil => exact ⟨Nat.le_refl _, fun _ => trivial⟩
      | cons e es ih =>
        obtain ⟨i1, i2⟩ := ih (fun f hf => hall f (by simp [hf]))
        obtain ⟨v1, v2⟩ := hall e (by simp)
        simp only [encWithElems, encCompactElems, NoWrapElems, List.length_append]
        exact ⟨by omega, fun h => ⟨v2 (by omega), i2 (by omega)⟩⟩
    exact ⟨by omega, fun h => key.2 (by omega)⟩
  | _ => simp [encWith, encCompact, NoWrap]

/-- A varint determines its value. -/
theorem putUvarint_inj {u v : BitVec 64} (h : putUvarint u = putUvarint v) : u = v := by
  have h1 := binReadUvarint_put u 16 [] (.err .eof)
  have h2 := binReadUvarint_put v 16 [] (.err .eof)
  rw [h, h2] at h1
  injection h1 with h1
  exact ((Prod.mk.inj (Prod.mk.inj h1).1).1).symm

theorem msgW_exact (h : MessageHeader) (ht : h.type.toNat < 8) : msgW h = encCompactMessage h ↔ 0 ≤ h.id.toInt := by
  refine ⟨fun he => ?_, fun hid => msgW_spec h ht hid⟩
  rw [msgW, encCompactMessage, (message_byte _ ht).1] at he
  simp only [List.append_assoc] at he
  have he := List.append_cancel_left he
  rw [leb_eq_put h.id.toNat (by have := h.id.isLt; omega)] at he
  have he := putUvarint_inj (List.append_cancel_right he)
  have h1 := congrArg BitVec.toInt he
  rw [BitVec.toInt_signExtend_of_le (by decide)] at h1
  rw [h1, toInt_ofNat64 _ (by have := h.id.isLt; omega)]
  omega

end GoThrift.Compact
