import Verif.Model.Varint
import Verif.Spec.Varint
import Verif.Proof.Flat

/-! # Lemmas about varints -/

namespace GoThrift

open Spec

theorem toNat_or_shift (x : BitVec 64) (b k : Nat) (hx : x.toNat < 2 ^ k) (h : b * 2 ^ k < 2 ^ 64) :
    (x ||| (BitVec.ofNat 64 b <<< k)).toNat = x.toNat + b * 2 ^ k := by
  have hb : b < 2 ^ 64 := Nat.lt_of_le_of_lt (Nat.le_mul_of_pos_right _ (Nat.two_pow_pos k)) h
  have h1 : (BitVec.ofNat 64 b <<< k).toNat = b <<< k := by
    rw [BitVec.toNat_shiftLeft, BitVec.toNat_ofNat, Nat.mod_eq_of_lt hb, Nat.shiftLeft_eq, Nat.mod_eq_of_lt h]
  rw [BitVec.toNat_or, h1, Nat.or_comm, ← Nat.shiftLeft_add_eq_or_of_lt hx, Nat.shiftLeft_eq]
  omega

theorem setWidth64_eq (b : Byte) : b.setWidth 64 = BitVec.ofNat 64 b.toNat := by
  revert b; decide +kernel

theorem and7f_setWidth (b : Byte) : (b &&& 0x7f).setWidth 64 = BitVec.ofNat 64 (b.toNat % 128) := by
  revert b; decide +kernel

theorem byte_lt_iff (b : Byte) : b < 0x80 ↔ b.toNat < 128 := by
  rw [BitVec.lt_def]; simp

theorem byte_gt_one_iff (b : Byte) : b > 1 ↔ 1 < b.toNat := by
  show (1 : Byte) < b ↔ _
  rw [BitVec.lt_def]; simp

theorem pow7 (i : Nat) : 2 ^ (7 * (i + 1)) = 2 ^ (7 * i) * 128 := by
  rw [Nat.mul_add, Nat.pow_add]

/-- Reading a well-formed word that fits. -/
theorem binReadUvarintLoop_leb (sz : Nat) (fin : End) (rest : Bytes) :
    ∀ (w : Bytes) (left i : Nat) (x : BitVec 64), IsLeb w → i + left = 10 → w.length ≤ left → x.toNat < 2 ^ (7 * i) →
      x.toNat + 2 ^ (7 * i) * lebValue w < 2 ^ 64 →
      (binReadUvarintLoop left i x (7 * i)).run ⟨sz, w ++ rest, fin⟩ =
        .done ((BitVec.ofNat 64 (x.toNat + 2 ^ (7 * i) * lebValue w), none), ⟨sz, rest, fin⟩) := by
  intro w
  induction w with
  | nil => intro _ _ _ h; exact h.elim
  | cons b bs ih =>
    intro left i x hw hil hlen hx hv
    obtain ⟨left, rfl⟩ : ∃ l, left = l + 1 := by
      cases left with
      | zero => simp at hlen
      | succ l => exact ⟨l, rfl⟩
    rw [binReadUvarintLoop]
    simp only [BProg.run, Flat.readByte, List.cons_append, Out.bind_done]
    simp only [lebValue] at hv ⊢
    have hpos : 0 < 2 ^ (7 * i) := Nat.two_pow_pos _
    have hdist : 2 ^ (7 * i) * (b.toNat % 128 + 128 * lebValue bs) =
        b.toNat % 128 * 2 ^ (7 * i) + 2 ^ (7 * i) * 128 * lebValue bs := by
      rw [Nat.mul_add, Nat.mul_comm (2 ^ (7 * i)) (b.toNat % 128), Nat.mul_assoc]
    rw [hdist] at hv ⊢
    rcases hw with ⟨hb, rfl⟩ | ⟨hb, hbs⟩
    · have hmod : b.toNat % 128 = b.toNat := Nat.mod_eq_of_lt hb
      simp only [lebValue, Nat.mul_zero, Nat.add_zero, hmod] at hv ⊢
      rw [if_pos ((byte_lt_iff b).2 hb), if_neg]
      · simp only [BProg.run, List.nil_append]
        congr 3
        apply BitVec.eq_of_toNat_eq
        rw [setWidth64_eq, toNat_or_shift _ _ _ hx (by omega), BitVec.toNat_ofNat, Nat.mod_eq_of_lt hv]
      · rintro ⟨h9, h1⟩
        rw [byte_gt_one_iff] at h1
        have : i = 9 := h9
        subst this
        simp at hv
        omega
    · rw [if_neg (by rw [byte_lt_iff]; omega)]
      have hx' : (x ||| ((b &&& 0x7f).setWidth 64 <<< (7 * i))).toNat = x.toNat + b.toNat % 128 * 2 ^ (7 * i) := by
        rw [and7f_setWidth, toNat_or_shift _ _ _ hx (by omega)]
      have := ih left (i + 1) (x ||| ((b &&& 0x7f).setWidth 64 <<< (7 * i))) hbs (by omega) (by simp at hlen; omega)
        (by
          rw [hx', pow7]
          have : b.toNat % 128 ≤ 127 := by omega
          have := Nat.mul_le_mul_right (2 ^ (7 * i)) this
          omega)
        (by rw [hx', pow7]; omega)
      rw [show 7 * i + 7 = 7 * (i + 1) by omega, this, hx', pow7]
      congr 4
      omega

/-- If reading succeeds, the input started with a well-formed word that fits. -/
theorem binReadUvarintLoop_ok (sz : Nat) (fin : End) :
    ∀ (left i : Nat) (x : BitVec 64) (bytes : Bytes) (v : BitVec 64) (s' : Flat), i + left = 10 → x.toNat < 2 ^ (7 * i) →
      (binReadUvarintLoop left i x (7 * i)).run ⟨sz, bytes, fin⟩ = .done ((v, none), s') →
      ∃ w rest, bytes = w ++ rest ∧ IsLeb w ∧ w.length ≤ left ∧ x.toNat + 2 ^ (7 * i) * lebValue w < 2 ^ 64 ∧
        v.toNat = x.toNat + 2 ^ (7 * i) * lebValue w ∧ s' = ⟨sz, rest, fin⟩ := by
  intro left
  induction left with
  | zero => intro i x bytes v s' _ _ h; simp [binReadUvarintLoop, BProg.run] at h
  | succ left ih =>
    intro i x bytes v s' hil hx h
    rw [binReadUvarintLoop] at h
    simp only [BProg.run, Flat.readByte] at h
    cases bytes with
    | nil => cases fin <;> simp [BProg.run] at h
    | cons b bs =>
      simp only [Out.bind_done] at h
      by_cases hb : b.toNat < 128
      · rw [if_pos ((byte_lt_iff b).2 hb)] at h
        by_cases h9 : i = maxVarintLen64 - 1 ∧ b > 1
        · rw [if_pos h9] at h; simp [BProg.run] at h
        · rw [if_neg h9] at h
          simp only [BProg.run, Out.done.injEq, Prod.mk.injEq] at h
          obtain ⟨⟨rfl, -⟩, rfl⟩ := h
          have hfit : b.toNat * 2 ^ (7 * i) < 2 ^ 63 * 2 := by
            by_cases hi9 : i = 9
            · subst hi9
              have : b.toNat ≤ 1 := by
                rw [byte_gt_one_iff] at h9
                simp [maxVarintLen64] at h9; omega
              simp; omega
            · have hi : i ≤ 8 := by omega
              have h2 : 2 ^ (7 * i) ≤ 2 ^ 56 := Nat.pow_le_pow_right (by omega) (by omega)
              have := Nat.mul_le_mul (show b.toNat ≤ 127 by omega) h2
              omega
          have hsum : x.toNat + b.toNat * 2 ^ (7 * i) < 2 ^ 64 := by
            rw [← toNat_or_shift _ _ _ hx (by omega)]; exact BitVec.isLt _
          refine ⟨[b], bs, rfl, Or.inl ⟨hb, rfl⟩, by simp, ?_, ?_, rfl⟩
          · simp only [lebValue, Nat.mod_eq_of_lt hb, Nat.mul_zero, Nat.add_zero, Nat.mul_comm (2 ^ (7 * i))]
            exact hsum
          · rw [setWidth64_eq, toNat_or_shift _ _ _ hx (by omega)]
            simp only [lebValue, Nat.mod_eq_of_lt hb, Nat.mul_zero, Nat.add_zero, Nat.mul_comm (2 ^ (7 * i))]
      · rw [if_neg (by rw [byte_lt_iff]; exact hb)] at h
        by_cases hl : left = 0
        · subst hl; simp [binReadUvarintLoop, BProg.run] at h
        have hi : i ≤ 8 := by omega
        have h2 : 2 ^ (7 * i) ≤ 2 ^ 56 := Nat.pow_le_pow_right (by omega) (by omega)
        have hm : b.toNat % 128 ≤ 127 := by omega
        have h3 := Nat.mul_le_mul_right (2 ^ (7 * i)) hm
        have hx' : (x ||| ((b &&& 0x7f).setWidth 64 <<< (7 * i))).toNat = x.toNat + b.toNat % 128 * 2 ^ (7 * i) := by
          rw [and7f_setWidth, toNat_or_shift _ _ _ hx (by omega)]
        obtain ⟨w, rest, hbs, hleb, hlen, hlt, hv, hs⟩ := ih (i + 1) _ bs v s' (by omega)
          (by rw [hx', pow7]; omega) (by rw [show 7 * (i + 1) = 7 * i + 7 by omega]; exact h)
        have hdist : 2 ^ (7 * i) * (b.toNat % 128 + 128 * lebValue w) =
            b.toNat % 128 * 2 ^ (7 * i) + 2 ^ (7 * i) * 128 * lebValue w := by
          rw [Nat.mul_add, Nat.mul_comm (2 ^ (7 * i)) (b.toNat % 128), Nat.mul_assoc]
        rw [hx', pow7] at hlt hv
        refine ⟨b :: w, rest, by rw [hbs]; rfl, Or.inr ⟨by omega, hleb⟩, by simp; omega, ?_, ?_, hs⟩
        · simp only [lebValue]; rw [hdist]; omega
        · simp only [lebValue]; rw [hdist]; omega

/-- A word that is too long or too large is rejected. -/
theorem binReadUvarintLoop_reject (sz : Nat) (fin : End) (rest : Bytes) :
    ∀ (w : Bytes) (left i : Nat) (x : BitVec 64), IsLeb w → i + left = 10 → x.toNat < 2 ^ (7 * i) →
      (left < w.length ∨ 2 ^ 64 ≤ x.toNat + 2 ^ (7 * i) * lebValue w) →
      ∃ v s', (binReadUvarintLoop left i x (7 * i)).run ⟨sz, w ++ rest, fin⟩ = .done ((v, some .varintOverflow), s') := by
  intro w
  induction w with
  | nil => intro _ _ _ h; exact h.elim
  | cons b bs ih =>
    intro left i x hw hil hx hbad
    cases left with
    | zero => exact ⟨x, _, rfl⟩
    | succ left =>
    rw [binReadUvarintLoop]
    simp only [BProg.run, Flat.readByte, List.cons_append, Out.bind_done]
    rcases hw with ⟨hb, rfl⟩ | ⟨hb, hbs⟩
    · rw [if_pos ((byte_lt_iff b).2 hb)]
      by_cases h9 : i = maxVarintLen64 - 1 ∧ b > 1
      · rw [if_pos h9]; exact ⟨_, _, rfl⟩
      · exfalso
        rcases hbad with hbad | hbad
        · simp at hbad
        simp only [lebValue, Nat.mod_eq_of_lt hb, Nat.mul_zero, Nat.add_zero, Nat.mul_comm (2 ^ (7 * i))] at hbad
        have hfit : b.toNat * 2 ^ (7 * i) < 2 ^ 64 := by
          by_cases hi9 : i = 9
          · subst hi9
            have : b.toNat ≤ 1 := by
              rw [byte_gt_one_iff] at h9
              simp [maxVarintLen64] at h9; omega
            simp; omega
          · have hi : i ≤ 8 := by omega
            have h2 : 2 ^ (7 * i) ≤ 2 ^ 56 := Nat.pow_le_pow_right (by omega) (by omega)
            have := Nat.mul_le_mul (show b.toNat ≤ 127 by omega) h2
            omega
        have : x.toNat + b.toNat * 2 ^ (7 * i) < 2 ^ 64 := by
          rw [← toNat_or_shift _ _ _ hx hfit]; exact BitVec.isLt _
        omega
    · rw [if_neg (by rw [byte_lt_iff]; omega)]
      by_cases hl : left = 0
      · subst hl; exact ⟨_, _, rfl⟩
      have hi : i ≤ 8 := by omega
      have h2 : 2 ^ (7 * i) ≤ 2 ^ 56 := Nat.pow_le_pow_right (by omega) (by omega)
      have hm : b.toNat % 128 ≤ 127 := by omega
      have h3 := Nat.mul_le_mul_right (2 ^ (7 * i)) hm
      have hx' : (x ||| ((b &&& 0x7f).setWidth 64 <<< (7 * i))).toNat = x.toNat + b.toNat % 128 * 2 ^ (7 * i) := by
        rw [and7f_setWidth, toNat_or_shift _ _ _ hx (by omega)]
      rw [show 7 * i + 7 = 7 * (i + 1) by omega]
      refine ih left (i + 1) _ hbs (by omega) (by rw [hx', pow7]; omega) ?_
      rcases hbad with hbad | hbad
      · left; simp at hbad; omega
      · right
        have hdist : 2 ^ (7 * i) * (b.toNat % 128 + 128 * lebValue bs) =
            b.toNat % 128 * 2 ^ (7 * i) + 2 ^ (7 * i) * 128 * lebValue bs := by
          rw [Nat.mul_add, Nat.mul_comm (2 ^ (7 * i)) (b.toNat % 128), Nat.mul_assoc]
        simp only [lebValue] at hbad
        rw [hdist] at hbad
        rw [hx', pow7]; omega

/-- A word cut off by the end of the stream. -/
theorem binReadUvarintLoop_short (sz : Nat) (e : Err) :
    ∀ (w : Bytes) (left i : Nat) (x : BitVec 64) (sh : Nat), (∀ b ∈ w, 128 ≤ b.toNat) → w.length < left →
      ∃ v, (binReadUvarintLoop left i x sh).run ⟨sz, w, .err e⟩ =
        .done ((v, some (if i + w.length > 0 ∧ e = .eof then .unexpectedEOF else e)), ⟨sz, [], .err e⟩) := by
  intro w
  induction w with
  | nil =>
    intro left i x sh _ hl
    obtain ⟨left, rfl⟩ : ∃ m, left = m + 1 := ⟨left - 1, by simp at hl; omega⟩
    exact ⟨x, rfl⟩
  | cons b bs ih =>
    intro left i x sh hw hl
    obtain ⟨left, rfl⟩ : ∃ m, left = m + 1 := ⟨left - 1, by simp at hl; omega⟩
    rw [binReadUvarintLoop]
    simp only [BProg.run, Flat.readByte, Out.bind_done]
    rw [if_neg (by rw [byte_lt_iff]; have := hw b (by simp); omega)]
    obtain ⟨v, h⟩ := ih left (i + 1) (x ||| ((b &&& 0x7f).setWidth 64 <<< sh)) (sh + 7) (fun c hc => hw c (by simp [hc]))
      (by simp at hl; omega)
    refine ⟨v, ?_⟩
    rw [h, List.length_cons]
    have : i + 1 + bs.length = i + (bs.length + 1) := by omega
    rw [this]

/-- `uvarint` on a prefix agrees with the byte-wise loop. -/
theorem uvarintLoop_sound (sz : Nat) (fin : End) :
    ∀ (bytes : Bytes) (left i : Nat) (x v : BitVec 64) (s : Nat) (n : Int), i + left = 10 →
      uvarintLoop i x s (bytes.take left) = (v, n) → n > 0 →
      (i : Int) ≤ n ∧ (n - i).toNat ≤ bytes.length ∧ n ≤ 10 ∧
      (binReadUvarintLoop left i x s).run ⟨sz, bytes, fin⟩ = .done ((v, none), ⟨sz, bytes.drop (n - i).toNat, fin⟩) := by
  intro bytes
  induction bytes with
  | nil => intro left i x v s n _ h hn; simp [uvarintLoop] at h; omega
  | cons b bs ih =>
    intro left i x v s n hil h hn
    cases left with
    | zero => simp [uvarintLoop] at h; omega
    | succ left =>
      simp only [List.take_succ_cons, uvarintLoop] at h
      rw [if_neg (show ¬ i = maxVarintLen64 by simp [maxVarintLen64]; omega)] at h
      rw [binReadUvarintLoop]
      simp only [BProg.run, Flat.readByte, Out.bind_done]
      by_cases hb : b < 0x80
      · rw [if_pos hb] at h ⊢
        by_cases h9 : i = maxVarintLen64 - 1 ∧ b > 1
        · rw [if_pos h9] at h; simp at h; omega
        · rw [if_neg h9] at h ⊢
          simp only [Prod.mk.injEq] at h
          obtain ⟨rfl, rfl⟩ := h
          have : ((i : Int) + 1 - i).toNat = 1 := by omega
          rw [this]
          exact ⟨by omega, by simp, by omega, rfl⟩
      · rw [if_neg hb] at h ⊢
        have hb' := ih left (i + 1) _ v _ n (by omega) h hn
        obtain ⟨h1, h2, h3, h4⟩ := hb'
        rw [h4]
        have e : (n - (i : Int)).toNat = (n - ((i + 1 : Nat) : Int)).toNat + 1 := by omega
        rw [e]
        exact ⟨by omega, by simp; omega, h3, rfl⟩

theorem peek10 (sz : Nat) (bytes : Bytes) (fin : End) (hs : 16 ≤ sz) (h : (∃ e, fin = .err e) ∨ 10 ≤ bytes.length) :
    ∃ e, Flat.peek ⟨sz, bytes, fin⟩ (maxVarintLen64 : Nat) = .done (bytes.take 10, e) := by
  by_cases hl : 10 ≤ bytes.length
  · exact ⟨_, Flat.peek_ok _ _ (by omega) (show 10 ≤ sz by omega) hl⟩
  · rcases h with ⟨e, rfl⟩ | he
    · refine ⟨some e, ?_⟩
      rw [List.take_of_length_le (by omega)]
      exact Flat.peek_short _ _ e (by omega) (show 10 ≤ sz by omega) (by simpa using hl) rfl
    · exact absurd he hl

theorem readUvarint_flat (s : Flat) (hs : 16 ≤ s.size) (h : (∃ e, s.fin = .err e) ∨ 10 ≤ s.bytes.length) :
    readUvarint.run s = binReadUvarint.run s := by
  obtain ⟨sz, bytes, fin⟩ := s
  obtain ⟨e, hp⟩ := peek10 sz bytes fin hs h
  simp only [readUvarint, BProg.run, hp, Out.bind_done]
  by_cases hl : (bytes.take 10).length > 0
  · rw [if_pos hl]
    obtain ⟨v, n, hu⟩ : ∃ v n, uvarint (bytes.take 10) = (v, n) := ⟨_, _, rfl⟩
    simp only [hu]
    by_cases hn : n > 0
    · simp only [if_pos hn, BProg.run]
      obtain ⟨-, h2, -, h4⟩ := uvarintLoop_sound sz fin bytes 10 0 0 v 0 n (by omega) hu hn
      simp only [Int.natCast_zero, Int.sub_zero] at h2 h4
      simp only [binReadUvarint, maxVarintLen64]
      rw [h4, Flat.discard_ok _ _ (by omega) h2]
      rfl
    · simp only [if_neg hn]
  · rw [if_neg hl]

theorem readVarint_flat (s : Flat) (hs : 16 ≤ s.size) (h : (∃ e, s.fin = .err e) ∨ 10 ≤ s.bytes.length) :
    readVarint.run s = binReadVarint.run s := by
  obtain ⟨sz, bytes, fin⟩ := s
  obtain ⟨e, hp⟩ := peek10 sz bytes fin hs h
  simp only [readVarint, BProg.run, hp, Out.bind_done, varint]
  by_cases hl : (bytes.take 10).length > 0
  · rw [if_pos hl]
    obtain ⟨v, n, hu⟩ : ∃ v n, uvarint (bytes.take 10) = (v, n) := ⟨_, _, rfl⟩
    simp only [hu]
    by_cases hn : n > 0
    · simp only [if_pos hn, BProg.run]
      obtain ⟨-, h2, -, h4⟩ := uvarintLoop_sound sz fin bytes 10 0 0 v 0 n (by omega) hu hn
      simp only [Int.natCast_zero, Int.sub_zero] at h2 h4
      rw [binReadVarint, BProg.run_bind]
      simp only [binReadUvarint, maxVarintLen64]
      rw [h4, Flat.discard_ok _ _ (by omega) h2]
      rfl
    · simp only [if_neg hn]
  · rw [if_neg hl]

/-! ## Writing -/

theorem putUvarintLoop_eq (fuel : Nat) : ∀ x : BitVec 64, x.toNat < 128 ^ (fuel + 1) → putUvarintLoop fuel x = leb x.toNat := by
  induction fuel with
  | zero =>
    intro x hx
    rw [leb, if_pos (by simpa using hx), putUvarintLoop]; rfl
  | succ n ih =>
    intro x hx
    have hlt : x < 0x80 ↔ x.toNat < 128 := by rw [BitVec.lt_def]; simp
    rw [putUvarintLoop, leb]
    by_cases h : x.toNat < 128
    · rw [if_pos (hlt.2 h), if_pos h]; rfl
    · rw [if_neg (by rw [hlt]; exact h), if_neg h]
      have hd : (x >>> 7).toNat = x.toNat / 128 := by simp [Nat.shiftRight_eq_div_pow]
      rw [ih _ (by rw [hd]; rw [Nat.pow_succ] at hx; omega), hd]
      congr 1
      have : ∀ b : BitVec 8, (b ||| 0x80).toNat = b.toNat % 128 + 128 := by decide +kernel
      apply BitVec.eq_of_toNat_eq
      rw [this, BitVec.toNat_setWidth, BitVec.toNat_ofNat]
      omega

theorem putUvarint_eq_leb (x : BitVec 64) : putUvarint x = leb x.toNat :=
  putUvarintLoop_eq 9 x (Nat.lt_of_lt_of_le x.isLt (by decide))

theorem leb_length_le (k : Nat) : ∀ v, v < 128 ^ (k + 1) → (leb v).length ≤ k + 1 := by
  induction k with
  | zero => intro v h; rw [leb, if_pos (by simpa using h)]; simp
  | succ k ih =>
    intro v h
    rw [leb]; split
    · simp
    · simp; exact ih _ (by rw [Nat.pow_succ] at h; omega)

theorem isLeb_leb (v : Nat) : IsLeb (leb v) ∧ lebValue (leb v) = v := by
  induction v using Nat.strongRecOn with
  | ind v ih =>
    rw [leb]
    split
    · have : v % 2 ^ 8 = v := Nat.mod_eq_of_lt (by omega)
      simp only [IsLeb, lebValue, BitVec.toNat_ofNat, this, and_true]; omega
    · obtain ⟨h1, h2⟩ := ih (v / 128) (by omega)
      simp only [IsLeb, lebValue, BitVec.toNat_ofNat, h2]
      exact ⟨Or.inr ⟨by omega, h1⟩, by omega⟩

theorem leb_ne_nil (v : Nat) : leb v ≠ [] := by rw [leb]; split <;> simp

/-! ## Zigzag -/

theorem unzigzag_zigzag (x : BitVec 64) : unzigzag (zigzag x) = x := by
  unfold unzigzag zigzag
  by_cases h : x.toInt < 0
  · rw [if_pos h]
    have hm : x.msb = true := by rw [BitVec.msb_eq_toInt]; simpa using h
    have h1 : ~~~(x <<< 1) &&& 1 ≠ 0 := by
      intro hc
      have := congrArg (fun y => y.getLsbD 0) hc
      simp at this
    rw [if_pos h1]
    apply BitVec.eq_of_getLsbD_eq
    intro i hi
    simp only [BitVec.getLsbD_not, BitVec.getLsbD_ushiftRight, BitVec.getLsbD_shiftLeft]
    by_cases h63 : i = 63
    · subst h63
      simp [BitVec.msb_eq_getLsbD_last] at hm ⊢
      exact hm
    · have : 1 + i < 64 := by omega
      simp [hi, this]
  · rw [if_neg h]
    have hm : x.msb = false := by rw [BitVec.msb_eq_toInt]; simpa using h
    have h1 : ¬ (x <<< 1 &&& 1 ≠ 0) := by
      simp only [ne_eq, Decidable.not_not]
      apply BitVec.eq_of_getLsbD_eq
      intro i hi
      simp [BitVec.getLsbD_one]
      intro h _ h2; omega
    rw [if_neg h1]
    apply BitVec.eq_of_getLsbD_eq
    intro i hi
    simp only [BitVec.getLsbD_ushiftRight, BitVec.getLsbD_shiftLeft]
    by_cases h63 : i = 63
    · subst h63
      simp [BitVec.msb_eq_getLsbD_last] at hm ⊢
      exact hm
    · have : 1 + i < 64 := by omega
      simp [this]

theorem zigzag_eq (x : BitVec 64) : (zigzag x).toNat = Spec.zigzag x.toInt := by
  unfold zigzag Spec.zigzag
  have h2 := x.isLt
  by_cases h : x.toInt < 0
  · rw [if_pos h, if_neg (by omega)]
    rw [BitVec.toNat_not, BitVec.toNat_shiftLeft, Nat.shiftLeft_eq]
    rw [BitVec.toInt_eq_toNat_cond] at h ⊢
    split at h
    · omega
    · rename_i hh; rw [if_neg hh]; omega
  · rw [if_neg h, if_pos (by omega)]
    rw [BitVec.toNat_shiftLeft, Nat.shiftLeft_eq]
    rw [BitVec.toInt_eq_toNat_cond] at h ⊢
    split at h
    · rename_i hh; rw [if_pos hh]; omega
    · omega

/-! ## Round trips -/

theorem binReadUvarint_put (x : BitVec 64) (sz : Nat) (rest : Bytes) (fin : End) :
    binReadUvarint.run ⟨sz, putUvarint x ++ rest, fin⟩ = .done ((x, none), ⟨sz, rest, fin⟩) := by
  rw [putUvarint_eq_leb]
  obtain ⟨h1, h2⟩ := isLeb_leb x.toNat
  have hl := leb_length_le 9 x.toNat (Nat.lt_of_lt_of_le x.isLt (by decide))
  have := binReadUvarintLoop_leb sz fin rest (leb x.toNat) 10 0 0 h1 rfl hl (by decide) (by simp [h2]; exact x.isLt)
  rw [binReadUvarint]
  simp only [maxVarintLen64]
  rw [show (0 : Nat) = 7 * 0 from rfl, this, h2]
  simp

theorem binReadVarint_put (x : BitVec 64) (sz : Nat) (rest : Bytes) (fin : End) :
    binReadVarint.run ⟨sz, putVarint x ++ rest, fin⟩ = .done ((x, none), ⟨sz, rest, fin⟩) := by
  rw [binReadVarint, BProg.run_bind, putVarint, binReadUvarint_put]
  simp [BProg.run, unzigzag_zigzag]

end GoThrift
