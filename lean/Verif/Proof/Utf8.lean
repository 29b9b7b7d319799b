import Verif.Spec.Utf8
import Verif.Proof.Chars

/-!
# DecodeRune decodes UTF-8
-/

namespace GoThrift.Utf8

open Spec

theorem decodeRune_utf8 {r : Nat} (hr : Scalar r) (rest : Bytes) : decodeRune (utf8 r ++ rest) = (r, (utf8 r).length) := by
  unfold Scalar at hr
  unfold utf8
  by_cases h1 : r < 0x80
  · rw [if_pos h1]
    show decodeRune (_ :: rest) = _
    rw [decodeRune_ascii _ _ (by rw [BitVec.toNat_ofNat]; omega)]
    simp; omega
  rw [if_neg h1]
  by_cases h2 : r < 0x800
  · rw [if_pos h2]
    show decodeRune (_ :: _ :: rest) = _
    have e0 : (BitVec.ofNat 8 (0xc0 + r / 64)).toNat = 0xc0 + r / 64 := by rw [BitVec.toNat_ofNat]; omega
    have e1 : (BitVec.ofNat 8 (0x80 + r % 64)).toNat = 0x80 + r % 64 := by rw [BitVec.toNat_ofNat]; omega
    unfold decodeRune
    dsimp only
    rw [e0, if_neg (by omega), if_neg (by omega), if_pos (by omega), if_pos (by rw [inRange_iff, e1]; omega), e1]
    simp; omega
  rw [if_neg h2]
  by_cases h3 : r < 0x10000
  · rw [if_pos h3]
    show decodeRune (_ :: _ :: _ :: rest) = _
    have e0 : (BitVec.ofNat 8 (0xe0 + r / 4096)).toNat = 0xe0 + r / 4096 := by rw [BitVec.toNat_ofNat]; omega
    have e1 : (BitVec.ofNat 8 (0x80 + r / 64 % 64)).toNat = 0x80 + r / 64 % 64 := by rw [BitVec.toNat_ofNat]; omega
    have e2 : (BitVec.ofNat 8 (0x80 + r % 64)).toNat = 0x80 + r % 64 := by rw [BitVec.toNat_ofNat]; omega
    unfold decodeRune
    dsimp only
    rw [e0, if_neg (by omega), if_neg (by omega), if_neg (by omega), if_pos (by omega), if_pos, e1, e2]
    · simp; omega
    · rw [Bool.and_eq_true, inRange_iff, inRange_iff, e1, e2]
      refine ⟨⟨?_, ?_⟩, ?_⟩
      · split <;> omega
      · split <;> omega
      · omega
  rw [if_neg h3]
  show decodeRune (_ :: _ :: _ :: _ :: rest) = _
  have e0 : (BitVec.ofNat 8 (0xf0 + r / 262144)).toNat = 0xf0 + r / 262144 := by rw [BitVec.toNat_ofNat]; omega
  have e1 : (BitVec.ofNat 8 (0x80 + r / 4096 % 64)).toNat = 0x80 + r / 4096 % 64 := by rw [BitVec.toNat_ofNat]; omega
  have e2 : (BitVec.ofNat 8 (0x80 + r / 64 % 64)).toNat = 0x80 + r / 64 % 64 := by rw [BitVec.toNat_ofNat]; omega
  have e3 : (BitVec.ofNat 8 (0x80 + r % 64)).toNat = 0x80 + r % 64 := by rw [BitVec.toNat_ofNat]; omega
  unfold decodeRune
  dsimp only
  rw [e0, if_neg (by omega), if_neg (by omega), if_neg (by omega), if_neg (by omega), if_pos (by omega), if_pos, e1, e2, e3]
  · simp; omega
  · rw [Bool.and_eq_true, Bool.and_eq_true, inRange_iff, inRange_iff, inRange_iff, e1, e2, e3]
    refine ⟨⟨⟨?_, ?_⟩, ?_⟩, ?_⟩
    · split <;> omega
    · split <;> omega
    · omega
    · omega

theorem byte_eq {b : Byte} {n : Nat} (h : b.toNat = n) : b = BitVec.ofNat 8 n := BitVec.eq_of_toNat_eq (by rw [BitVec.toNat_ofNat]; omega)

theorem utf8_of_decodeRune {s : Bytes} (hs : s ≠ []) : (∃ r rest, Scalar r ∧ s = utf8 r ++ rest) ∨ decodeRune s = (0xfffd, 1) := by
  cases s with
  | nil => exact absurd rfl hs
  | cons b p =>
    by_cases h1 : b.toNat < 0x80
    · refine .inl ⟨b.toNat, p, .inl (by omega), ?_⟩
      rw [utf8, if_pos h1, ← byte_eq rfl]
      rfl
    unfold decodeRune
    dsimp only
    rw [if_neg h1]
    by_cases h2 : b.toNat < 0xc2
    · rw [if_pos h2]; exact .inr rfl
    rw [if_neg h2]
    by_cases h3 : b.toNat < 0xe0
    · rw [if_pos h3]
      cases p with
      | nil => exact .inr rfl
      | cons b1 p =>
        dsimp only
        by_cases hc : inRange 0x80 0xbf b1 = true
        · rw [inRange_iff] at hc
          refine .inl ⟨(b.toNat % 32) * 64 + b1.toNat % 64, p, .inl (by omega), ?_⟩
          rw [utf8, if_neg (by omega), if_pos (by omega), ← byte_eq (b := b) (by omega), ← byte_eq (b := b1) (by omega)]
          rfl
        · rw [if_neg hc]; exact .inr rfl
    rw [if_neg h3]
    by_cases h4 : b.toNat < 0xf0
    · rw [if_pos h4]
      match p with
      | [] => exact .inr rfl
      | [_] => exact .inr rfl
      | b1 :: b2 :: p =>
        dsimp only
        by_cases hc : (inRange (if b.toNat = 0xe0 then 0xa0 else 0x80) (if b.toNat = 0xed then 0x9f else 0xbf) b1 && inRange 0x80 0xbf b2) = true
        · rw [Bool.and_eq_true, inRange_iff, inRange_iff] at hc
          obtain ⟨⟨c1, c2⟩, c3⟩ := hc
          have hb : (b.toNat = 0xe0 → 0xa0 ≤ b1.toNat) ∧ (b.toNat = 0xed → b1.toNat ≤ 0x9f) ∧ 0x80 ≤ b1.toNat ∧ b1.toNat ≤ 0xbf := by
            split at c1 <;> split at c2 <;> omega
          refine .inl ⟨(b.toNat % 16) * 4096 + (b1.toNat % 64) * 64 + b2.toNat % 64, p, ?_, ?_⟩
          · unfold Scalar; omega
          · rw [utf8, if_neg (by omega), if_neg (by omega), if_pos (by omega), ← byte_eq (b := b) (by omega), ← byte_eq (b := b1) (by omega), ← byte_eq (b := b2) (by omega)]
            rfl
        · rw [if_neg hc]; exact .inr rfl
    rw [if_neg h4]
    by_cases h5 : b.toNat < 0xf5
    · rw [if_pos h5]
      match p with
      | [] => exact .inr rfl
      | [_] => exact .inr rfl
      | [_, _] => exact .inr rfl
      | b1 :: b2 :: b3 :: p =>
        dsimp only
        by_cases hc : (inRange (if b.toNat = 0xf0 then 0x90 else 0x80) (if b.toNat = 0xf4 then 0x8f else 0xbf) b1 && inRange 0x80 0xbf b2 && inRange 0x80 0xbf b3) = true
        · rw [Bool.and_eq_true, Bool.and_eq_true, inRange_iff, inRange_iff, inRange_iff] at hc
          obtain ⟨⟨⟨c1, c2⟩, c3⟩, c4⟩ := hc
          have hb : (b.toNat = 0xf0 → 0x90 ≤ b1.toNat) ∧ (b.toNat = 0xf4 → b1.toNat ≤ 0x8f) ∧ 0x80 ≤ b1.toNat ∧ b1.toNat ≤ 0xbf := by
            split at c1 <;> split at c2 <;> omega
          refine .inl ⟨(b.toNat % 8) * 262144 + (b1.toNat % 64) * 4096 + (b2.toNat % 64) * 64 + b3.toNat % 64, p, ?_, ?_⟩
          · unfold Scalar; omega
          · rw [utf8, if_neg (by omega), if_neg (by omega), if_neg (by omega), ← byte_eq (b := b) (by omega), ← byte_eq (b := b1) (by omega), ← byte_eq (b := b2) (by omega), ← byte_eq (b := b3) (by omega)]
            rfl
        · rw [if_neg hc]; exact .inr rfl
    · rw [if_neg h5]; exact .inr rfl

end GoThrift.Utf8

namespace GoThrift

open Spec

theorem utf8_ne_nil (r : Nat) : utf8 r ≠ [] := by
  unfold utf8
  repeat' split
  all_goals simp

/-- The characters of an encoded character and more. -/
theorem chars_utf8 {r : Nat} (hr : Scalar r) (rest : Bytes) : chars (utf8 r ++ rest) = (r, utf8 r) :: chars rest := by
  rw [chars_of_ne _ (by simp [utf8_ne_nil]), Utf8.decodeRune_utf8 hr, List.take_left, List.drop_left]

/-- A byte that does not begin an encoded character. -/
theorem chars_bad {b : Byte} {rest : Bytes} (h : ∀ r rest', Scalar r → b :: rest ≠ utf8 r ++ rest') : chars (b :: rest) = (0xfffd, [b]) :: chars rest := by
  rcases Utf8.utf8_of_decodeRune (s := b :: rest) (by simp) with ⟨r, rest', hr, he⟩ | hd
  · exact absurd he (h r rest' hr)
  · rw [chars_of_ne _ (by simp), hd]
    rfl

/-- A character that may stand in a source is encoded by its bytes. -/
theorem ok_utf8 {c : Chr} {src : Bytes} (hc : c ∈ chars src) (hok : c.Ok) : Scalar c.1 ∧ c.2 = utf8 c.1 := by
  generalize hn : src.length = n
  induction n using Nat.strongRecOn generalizing src with
  | ind n ih =>
    subst hn
    cases src with
    | nil => cases hc
    | cons b p =>
      rcases Utf8.utf8_of_decodeRune (s := b :: p) (by simp) with ⟨r, rest', hr, he⟩ | hd
      · rw [he, chars_utf8 hr] at hc
        rcases List.mem_cons.1 hc with rfl | hc
        · exact ⟨hr, rfl⟩
        · refine ih rest'.length ?_ hc rfl
          have := congrArg List.length he
          have hne : (utf8 r).length ≠ 0 := fun h => utf8_ne_nil r (List.eq_nil_of_length_eq_zero h)
          rw [List.length_append] at this
          omega
      · rw [chars_of_ne _ (by simp), hd] at hc
        rcases List.mem_cons.1 hc with rfl | hc
        · exact absurd ⟨rfl, rfl⟩ hok.2.1
        · exact ih _ (by simp) hc rfl

/-- Characters that may stand in a source, and more. -/
theorem chars_append {x : List Chr} (h : ∀ c ∈ x, Scalar c.1 ∧ c.2 = utf8 c.1) (rest : Bytes) : chars (bytesOf x ++ rest) = x ++ chars rest := by
  induction x with
  | nil => rfl
  | cons c x ih =>
    obtain ⟨h1, h2⟩ := h c List.mem_cons_self
    rw [bytesOf_cons, List.append_assoc, h2, chars_utf8 h1, ih fun d hd => h d (List.mem_cons_of_mem _ hd), ← h2]
    rfl

end GoThrift
