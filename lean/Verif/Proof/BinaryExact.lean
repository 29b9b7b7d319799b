import Verif.Proof.Exact
import Verif.Proof.Binary
import Verif.Proof.Message
import Verif.Proof.Accept
import Verif.Spec.Accept

/-!
# What the binary reader accepts, exactly
-/

namespace GoThrift

open Spec Spec.TVal

theorem getBE_lt (b : Bytes) : Binary.getBE b < 256 ^ b.length := by
  induction b with
  | nil => simp [Binary.getBE]
  | cons x xs ih =>
    rw [Binary.getBE, List.length_cons, Nat.pow_succ]
    have := Nat.mul_le_mul_right (256 ^ xs.length) (Nat.le_of_lt_succ x.isLt)
    omega

theorem be_mod (k n : Nat) : be k (n % 256 ^ k) = be k n := by
  induction k generalizing n with
  | zero => rfl
  | succ k ih =>
    rw [be_succ, be_succ, ← ih (n % 256 ^ (k + 1)), ← ih n]
    congr 1
    · apply BitVec.eq_of_toNat_eq
      rw [BitVec.toNat_ofNat, BitVec.toNat_ofNat, Nat.pow_succ, Nat.mod_mul_right_div_self]
      omega
    · rw [Nat.pow_succ, Nat.mod_mul_right_mod]

theorem be_getBE (b : Bytes) : be b.length (Binary.getBE b) = b := by
  induction b with
  | nil => rfl
  | cons x xs ih =>
    have h := getBE_lt xs
    rw [Binary.getBE, List.length_cons, be_succ, ← be_mod xs.length]
    have h1 : (x.toNat * 256 ^ xs.length + Binary.getBE xs) % 256 ^ xs.length = Binary.getBE xs := by
      rw [Nat.add_comm, Nat.add_mul_mod_self_right, Nat.mod_eq_of_lt h]
    have h2 : (x.toNat * 256 ^ xs.length + Binary.getBE xs) / 256 ^ xs.length = x.toNat := by
      rw [Nat.add_comm, Nat.add_mul_div_right _ _ (Nat.pow_pos (by omega)), Nat.div_eq_of_lt h, Nat.zero_add]
    rw [h1, h2, ih, BitVec.ofNat_toNat, BitVec.setWidth_eq]

/-- `k` bytes and the number they stand for determine each other. -/
theorem be_iff {w : Nat} (k : Nat) (hw : 2 ^ w = 256 ^ k) (b : Bytes) (v : BitVec w) : (b.length = k ∧ v = BitVec.ofNat w (Binary.getBE b)) ↔ b = be k v.toNat := by
  constructor
  · rintro ⟨rfl, rfl⟩
    rw [BitVec.toNat_ofNat, hw, Nat.mod_eq_of_lt (getBE_lt b), be_getBE]
  · rintro rfl
    refine ⟨be_length _ _, ?_⟩
    rw [getBE_be, ← hw, Nat.mod_eq_of_lt v.isLt]
    simp

namespace Exact

theorem need {C : Type} {sz : Nat} {fin : End} (n : Nat) (buf : Bytes) : Exact sz fin (RM.need n buf : RM C Unit) fun c _ b c' => n ≤ buf.length ∧ b = [] ∧ c' = c := by
  intro c a c' input f'
  by_cases h : n ≤ buf.length
  · rw [RM.run_need n buf h]
    constructor
    · intro h2; cases h2; exact ⟨[], input, rfl, ⟨h, rfl, rfl⟩, rfl⟩
    · rintro ⟨b, rest, rfl, ⟨_, rfl, rfl⟩, rfl⟩; rfl
  · constructor
    · intro h2
      simp [RM.run, RM.need, Nat.lt_of_not_le h, BProg.run] at h2
    · rintro ⟨b, rest, rfl, ⟨h2, _⟩, rfl⟩; exact absurd h2 h

/-- Loading a fixed number of bytes. -/
theorem load {C α : Type} {sz : Nat} {fin : End} (n : Nat) (hn : n ≤ sz) (g : Bytes → α) :
    Exact sz fin ((RM.lift ((GoThrift.next (n : Int)).bind fun r => .ret (toExcept r)) : RM C Bytes).bind fun buf => (RM.need n buf).bind fun _ => RM.ok (g buf))
      fun c a b c' => (b.length = n ∧ a = g b) ∧ c' = c := by
  refine (bind (pair (next hn)) fun buf => bind (need n buf) fun _ => ok (g buf)).congr fun c a b c' => ?_
  constructor
  · rintro ⟨a1, b1, c1, b2, ⟨⟨h1, rfl⟩, rfl⟩, ⟨a2, b3, c2, b4, ⟨h3, rfl, rfl⟩, ⟨rfl, rfl, rfl⟩, rfl⟩, rfl⟩
    simp [h1]
  · rintro ⟨⟨h1, rfl⟩, rfl⟩
    exact ⟨b, b, c', [], ⟨⟨h1, rfl⟩, rfl⟩, ⟨(), [], c', [], ⟨by omega, rfl, rfl⟩, ⟨rfl, rfl, rfl⟩, rfl⟩, by simp⟩

end Exact

namespace Binary

variable {strict : Bool} {sz : Nat} {fin : End}

theorem gives_iff {o : ROp} {P : Unit → o.Ans → Bytes → Unit → Prop} (h : Exact sz fin (impl strict o) P) (input : Bytes) (a : o.Ans) (s' : Unit × Flat) :
    Gives (reader strict) o (at' sz input fin) a s' ↔ ∃ b rest, input = b ++ rest ∧ P () a b () ∧ s' = at' sz rest fin := by
  have h := h () a () input s'.2
  simp only [Gives, reader]
  constructor
  · intro hr
    cases hx : (impl strict o).run () ⟨sz, input, fin⟩ with
    | done x =>
      obtain ⟨⟨x, ⟨⟩⟩, f⟩ := x
      rw [hx] at hr
      simp only [Out.bind_done, Out.done.injEq, Prod.mk.injEq] at hr
      obtain ⟨rfl, rfl⟩ := hr
      obtain ⟨b, rest, h1, h2, h3⟩ := h.1 hx
      exact ⟨b, rest, h1, h2, by rw [at', ← h3]⟩
    | blocked => rw [hx] at hr; cases hr
    | diverged => rw [hx] at hr; cases hr
    | panicked => rw [hx] at hr; cases hr
  · rintro ⟨b, rest, h1, h2, h3⟩
    rw [h.2 ⟨b, rest, h1, h2, by rw [h3]⟩]
    rfl

section
variable (hsz : 16 ≤ sz)
include hsz

theorem exact_i16 : Exact sz fin readI16 fun _ a b _ => b = be 2 a.toNat :=
  (Exact.load 2 (by omega) _).congr fun c a b c' => by rw [← be_iff 2 (by decide)]; simp

theorem exact_i32 : Exact sz fin readI32 fun _ a b _ => b = be 4 a.toNat :=
  (Exact.load 4 (by omega) _).congr fun c a b c' => by rw [← be_iff 4 (by decide)]; simp

theorem exact_i64 : Exact sz fin readI64 fun _ a b _ => b = be 8 a.toNat :=
  (Exact.load 8 (by omega) _).congr fun c a b c' => by rw [← be_iff 8 (by decide)]; simp

theorem exact_double : Exact sz fin readDouble fun _ a b _ => b = be 8 a.toNat := exact_i64 hsz

omit hsz in
theorem exact_bool : Exact sz fin readBool fun _ a b _ => ∃ x, b = [x] ∧ (a = true ↔ x ≠ 0) := by
  refine (Exact.bind Exact.readByte fun x => Exact.ok _).congr fun c a b c' => ?_
  constructor
  · rintro ⟨x, b1, c1, b2, ⟨rfl, rfl⟩, ⟨rfl, rfl, rfl⟩, rfl⟩
    exact ⟨x, rfl, by simp⟩
  · rintro ⟨x, rfl, h⟩
    refine ⟨x, [x], c', [], ⟨rfl, rfl⟩, ⟨?_, rfl, rfl⟩, rfl⟩
    cases a <;> simp at h <;> simp [h]

theorem exact_size : Exact sz fin readSize fun _ a b _ => ∃ v : BitVec 32, a = v.signExtend 64 ∧ b = be 4 v.toNat := by
  refine (Exact.bind (exact_i32 hsz) fun x => Exact.ok _).congr fun c a b c' => ?_
  constructor
  · rintro ⟨x, b1, c1, b2, rfl, ⟨rfl, rfl, rfl⟩, rfl⟩
    exact ⟨x, rfl, by simp⟩
  · rintro ⟨v, rfl, rfl⟩
    exact ⟨v, _, c', [], rfl, ⟨rfl, rfl, rfl⟩, by simp⟩

omit hsz in
/-- The sizes that are lengths. -/
theorem size_len (n : Nat) (b : Bytes) : (∃ v : BitVec 32, (n : Int) = (v.signExtend 64).toInt ∧ b = be 4 v.toNat) ↔ n < 2 ^ 31 ∧ b = be 4 n := by
  constructor
  · rintro ⟨v, h, rfl⟩
    rw [BitVec.toInt_signExtend_of_le (by omega), BitVec.toInt_eq_toNat_cond] at h
    split at h
    · exact ⟨by omega, by congr 1; omega⟩
    · omega
  · rintro ⟨h, rfl⟩
    refine ⟨BitVec.ofNat 32 n, ?_, ?_⟩
    · rw [BitVec.toInt_signExtend_of_le (by omega), BitVec.toInt_ofNat']; simp [Int.bmod]; omega
    · rw [BitVec.toNat_ofNat, Nat.mod_eq_of_lt (by omega)]

omit hsz in
theorem sized {α : Type} {f : Int → M α} {P : Int → α → Bytes → Prop} {Q : α → Bytes → Prop} (hr : 16 ≤ sz) (hf : ∀ n, Exact sz fin (f n) fun c a b c' => P n a b ∧ c' = c)
    (hq : ∀ n a b, P n a b ↔ (b.length : Int) = n ∧ Q a b) :
    Exact sz fin (readSize.bind fun n => f n.toInt) fun _ a b _ => ∃ v, v.length < 2 ^ 31 ∧ b = be 4 v.length ++ v ∧ Q a v := by
  refine (Exact.bind (exact_size hr) fun n => hf _).congr fun c a b c' => ?_
  constructor
  · rintro ⟨x, b1, c1, b2, ⟨v, rfl, rfl⟩, ⟨h2, rfl⟩, rfl⟩
    rw [hq] at h2
    obtain ⟨h3, h4⟩ := (size_len b2.length _).1 ⟨v, h2.1, rfl⟩
    exact ⟨b2, h3, by rw [← h4], h2.2⟩
  · rintro ⟨v, h1, rfl, h2⟩
    obtain ⟨x, h3, h4⟩ := (size_len v.length _).2 ⟨h1, rfl⟩
    exact ⟨_, _, c', v, ⟨x, rfl, h4⟩, ⟨(hq _ _ _).2 ⟨h3, h2⟩, rfl⟩, rfl⟩

theorem exact_string : Exact sz fin readString fun _ a b _ => a.length < 2 ^ 31 ∧ b = be 4 a.length ++ a := by
  refine (sized (Q := fun a b => a = b) hsz (fun n => Exact.pair (Exact.wireReadString (by omega) n)) fun n a b => Iff.rfl).congr fun c a b c' => ?_
  constructor
  · rintro ⟨v, h1, h2, rfl⟩; exact ⟨h1, h2⟩
  · rintro ⟨h1, h2⟩; exact ⟨a, h1, h2, rfl⟩

theorem exact_bytes (buf : Bytes) : Exact sz fin (readBytes buf) fun _ a b _ => ∃ v, v.length < 2 ^ 31 ∧ b = be 4 v.length ++ v ∧ a = buf ++ v :=
  sized (Q := fun a b => a = buf ++ b) hsz (fun n => Exact.pair (Exact.wireReadBytes (by omega) n buf)) fun n a b => Iff.rfl

theorem exact_skipString : Exact sz fin skipString fun _ _ b _ => ∃ v, v.length < 2 ^ 31 ∧ b = be 4 v.length ++ v := by
  refine (sized (Q := fun _ _ => True) (P := fun n _ b => (b.length : Int) = n) hsz (fun n => Exact.discard n) fun n a b => by simp).congr fun c a b c' => by simp

omit hsz in
theorem exact_uuid : Exact sz fin readUUID fun _ a b _ => b.length = 16 ∧ a = b := (Exact.readFull 16).congr fun _ _ _ _ => by simp

omit hsz in
theorem exact_skipUUID : Exact sz fin skipUUID fun _ _ b _ => b.length = 16 := (Exact.discard 16).congr fun _ _ _ _ => by simp; omega

theorem exact_field : Exact sz fin readFieldBegin fun _ a b _ =>
    a.name = [] ∧ ((a.type = Ty.stop ∧ a.id = 0 ∧ b = [0]) ∨ (a.type ≠ Ty.stop ∧ b = [a.type] ++ be 2 a.id.toNat)) := by
  have h : ∀ t : WType, Exact sz fin (if t = Ty.stop then RM.ok ⟨[], t, 0⟩ else readI16.bind fun id => RM.ok ⟨[], t, id⟩ : M FieldHeader) fun _ a b _ =>
      a.name = [] ∧ a.type = t ∧ if t = Ty.stop then a.id = 0 ∧ b = [] else b = be 2 a.id.toNat := by
    intro t
    split
    · refine (Exact.ok _).congr fun c a b c' => ?_
      obtain ⟨n, ty, id⟩ := a
      simp [and_assoc]
    · refine (Exact.bind (exact_i16 hsz) fun x => Exact.ok _).congr fun c a b c' => ?_
      obtain ⟨n, ty, id⟩ := a
      constructor
      · rintro ⟨x, b1, c1, b2, rfl, ⟨h, rfl, rfl⟩, rfl⟩
        cases h
        simp
      · rintro ⟨h1, h2, rfl⟩
        dsimp only at h1 h2; subst h1 h2
        exact ⟨id, _, c', [], rfl, ⟨rfl, rfl, rfl⟩, by simp⟩
  refine (Exact.bind Exact.readByte h).congr fun c a b c' => ?_
  obtain ⟨n, ty, id⟩ := a
  constructor
  · rintro ⟨x, b1, c1, b2, ⟨rfl, rfl⟩, ⟨h1, h2, h3⟩, rfl⟩
    dsimp only at h1 h2; subst h1 h2
    refine ⟨rfl, ?_⟩
    split at h3
    · rename_i hs
      exact .inl ⟨hs, h3.1, by rw [h3.2, hs]; rfl⟩
    · rename_i hs
      exact .inr ⟨hs, by rw [h3]⟩
  · rintro ⟨h1, h2⟩
    dsimp only at h1 h2; subst h1
    rcases h2 with ⟨h2, h3, rfl⟩ | ⟨h2, rfl⟩
    · exact ⟨ty, [ty], c', [], ⟨rfl, rfl⟩, ⟨rfl, rfl, by rw [if_pos h2]; exact ⟨h3, rfl⟩⟩, by rw [h2]; rfl⟩
    · exact ⟨ty, [ty], c', _, ⟨rfl, rfl⟩, ⟨rfl, rfl, by rw [if_neg h2]⟩, rfl⟩

theorem exact_set : Exact sz fin readSetBegin fun _ a b _ => ∃ v : BitVec 32, a.size = v.signExtend 64 ∧ b = [a.element] ++ be 4 v.toNat := by
  refine (Exact.bind Exact.readByte fun e => Exact.bind (exact_size hsz) fun n => Exact.ok _).congr fun c a b c' => ?_
  obtain ⟨e, n⟩ := a
  constructor
  · rintro ⟨x, b1, c1, b2, ⟨rfl, rfl⟩, ⟨y, b3, c3, b4, ⟨v, rfl, rfl⟩, ⟨h, rfl, rfl⟩, rfl⟩, rfl⟩
    cases h
    exact ⟨v, rfl, by simp⟩
  · rintro ⟨v, h, rfl⟩
    dsimp only at h; subst h
    exact ⟨e, [e], c', _, ⟨rfl, rfl⟩, ⟨_, _, c', [], ⟨v, rfl, rfl⟩, ⟨rfl, rfl, rfl⟩, rfl⟩, by simp⟩

theorem exact_map : Exact sz fin readMapBegin fun _ a b _ => ∃ v : BitVec 32, a.size = v.signExtend 64 ∧ b = [a.key, a.value] ++ be 4 v.toNat := by
  refine (Exact.bind Exact.readByte fun e => Exact.bind Exact.readByte fun e2 => Exact.bind (exact_size hsz) fun n => Exact.ok _).congr fun c a b c' => ?_
  obtain ⟨e, e2, n⟩ := a
  constructor
  · rintro ⟨x, b1, c1, b2, ⟨rfl, rfl⟩, ⟨x2, _, c2, b22, ⟨rfl, rfl⟩, ⟨y, b3, c3, b4, ⟨v, rfl, rfl⟩, ⟨h, rfl, rfl⟩, rfl⟩, rfl⟩, rfl⟩
    cases h
    exact ⟨v, rfl, by simp⟩
  · rintro ⟨v, h, rfl⟩
    dsimp only at h; subst h
    exact ⟨e, [e], c', _, ⟨rfl, rfl⟩, ⟨e2, [e2], c', _, ⟨rfl, rfl⟩, ⟨_, _, c', [], ⟨v, rfl, rfl⟩, ⟨rfl, rfl, rfl⟩, rfl⟩, rfl⟩, by simp⟩

omit hsz in
theorem version_of_high (v : BitVec 32) (h : v.toNat / 65536 = 32769) : v.signExtend 64 &&& versionMask = version1.setWidth 64 := by
  have h1 : v >>> 16 = (0x8001 : BitVec 32) := by
    apply BitVec.eq_of_toNat_eq
    rw [BitVec.toNat_ushiftRight, Nat.shiftRight_eq_div_pow]
    exact h
  have h2 : ∀ i, v.getLsbD (16 + i) = (0x8001 : BitVec 32).getLsbD i := fun i => by rw [← h1, BitVec.getLsbD_ushiftRight]
  have hm : ∀ j : Fin 64, versionMask.getLsbD j = decide (16 ≤ j.val ∧ j.val < 32) := by decide +kernel
  have hv : ∀ j : Fin 64, (version1.setWidth 64).getLsbD j = (decide (16 ≤ j.val ∧ j.val < 32) && (0x8001 : BitVec 32).getLsbD (j.val - 16)) := by decide +kernel
  apply BitVec.eq_of_getLsbD_eq
  intro i hi
  rw [BitVec.getLsbD_and, hm ⟨i, hi⟩, hv ⟨i, hi⟩]
  by_cases hr : 16 ≤ i ∧ i < 32
  · have := h2 (i - 16)
    rw [show 16 + (i - 16) = i by omega] at this
    simp only [hr, and_self, decide_true, Bool.and_true, Bool.true_and, BitVec.getLsbD_signExtend, hi, this, if_true]
  · simp [hr]

omit hsz in
theorem be4 (n : Nat) : be 4 n = [BitVec.ofNat 8 (n / 16777216), BitVec.ofNat 8 (n / 65536), BitVec.ofNat 8 (n / 256), BitVec.ofNat 8 n] := by
  rw [be_succ, be_succ, be_succ, be_succ]
  simp [be]

omit hsz in
/-- The version word and what it means. -/
theorem version_iff (v : BitVec 32) : ((v.signExtend 64).toInt < 0 ∧ v.signExtend 64 &&& versionMask = version1.setWidth 64) ↔
    ∃ x, be 4 v.toNat = [0x80, 0x01, x, (v.signExtend 64).setWidth 8] := by
  have hlt := v.isLt
  have hlow : (v.signExtend 64).setWidth 8 = BitVec.ofNat 8 v.toNat := by
    apply BitVec.eq_of_toNat_eq
    rw [BitVec.toNat_setWidth, BitVec.toNat_signExtend, BitVec.toNat_setWidth, BitVec.toNat_ofNat]
    split <;> omega
  rw [hlow, be4]
  constructor
  · rintro ⟨h1, h2⟩
    have h3 := high_of_word v.toNat hlt (by rwa [BitVec.ofNat_toNat, BitVec.setWidth_eq])
    refine ⟨_, by
      rw [show BitVec.ofNat 8 (v.toNat / 16777216) = 0x80 from BitVec.eq_of_toNat_eq (by simp; omega),
        show BitVec.ofNat 8 (v.toNat / 65536) = 0x01 from BitVec.eq_of_toNat_eq (by simp; omega)]⟩
  · rintro ⟨x, h⟩
    simp only [List.cons.injEq] at h
    have h1 := congrArg BitVec.toNat h.1
    have h2 := congrArg BitVec.toNat h.2.1
    simp only [BitVec.toNat_ofNat, BitVec.ofNat_eq_ofNat, Nat.reducePow, Nat.reduceMod] at h1 h2
    refine ⟨?_, version_of_high v (by omega)⟩
    have := word_neg v.toNat hlt (by omega)
    rwa [BitVec.ofNat_toNat, BitVec.setWidth_eq] at this

omit hsz in
theorem Exact.ite {C α : Type} {p : Prop} [Decidable p] {m m' : RM C α} {P Q : C → α → Bytes → C → Prop} (h1 : Exact sz fin m P) (h2 : Exact sz fin m' Q) :
    Exact sz fin (if p then m else m') fun c a b c' => (p ∧ P c a b c') ∨ (¬ p ∧ Q c a b c') := by
  split
  · rename_i h; exact h1.congr fun _ _ _ _ => by simp [h]
  · rename_i h; exact h2.congr fun _ _ _ _ => by simp [h]

theorem exact_message (strict : Bool) : Exact sz fin (readMessageBegin strict) fun _ a b _ => BinMessage strict a b := by
  have h1 : ∀ n : BitVec 64, Exact sz fin (readString.bind fun name => readI32.bind fun id => RM.ok ⟨name, n.setWidth 8, id⟩ : M MessageHeader) fun _ a b _ =>
      a.name.length < 2 ^ 31 ∧ a.type = n.setWidth 8 ∧ b = be 4 a.name.length ++ a.name ++ be 4 a.id.toNat := by
    intro n
    refine (Exact.bind (exact_string hsz) fun _ => Exact.bind (exact_i32 hsz) fun _ => Exact.ok _).congr fun c a b c' => ?_
    obtain ⟨name, ty, id⟩ := a
    constructor
    · rintro ⟨x, b1, c1, b2, ⟨h1, rfl⟩, ⟨y, b3, c3, b4, rfl, ⟨h, rfl, rfl⟩, rfl⟩, rfl⟩
      cases h
      exact ⟨h1, rfl, by simp⟩
    · rintro ⟨h1, h2, rfl⟩
      dsimp only at h1 h2; subst h2
      exact ⟨name, _, c', _, ⟨h1, rfl⟩, ⟨id, _, c', [], rfl, ⟨rfl, rfl, rfl⟩, rfl⟩, by simp⟩
  have h2 : ∀ n : BitVec 64, Exact sz fin ((RM.lift ((wireReadString n.toInt).bind fun r => .ret (toExcept r))).bind fun name => readByte.bind fun t => readI32.bind fun id =>
      RM.ok ⟨name, t, id⟩ : M MessageHeader) fun _ a b _ => (a.name.length : Int) = n.toInt ∧ b = a.name ++ [a.type] ++ be 4 a.id.toNat := by
    intro n
    refine (Exact.bind (Exact.pair (Exact.wireReadString (by omega) n.toInt)) fun _ => Exact.bind Exact.readByte fun _ => Exact.bind (exact_i32 hsz) fun _ => Exact.ok _).congr fun c a b c' => ?_
    obtain ⟨name, ty, id⟩ := a
    constructor
    · rintro ⟨x, b1, c1, b2, ⟨⟨h1, rfl⟩, rfl⟩, ⟨y, b3, c3, b4, ⟨rfl, rfl⟩, ⟨z, b5, c5, b6, rfl, ⟨h, rfl, rfl⟩, rfl⟩, rfl⟩, rfl⟩
      cases h
      exact ⟨h1, by simp⟩
    · rintro ⟨h1, rfl⟩
      exact ⟨name, _, c', _, ⟨⟨h1, rfl⟩, rfl⟩, ⟨ty, [ty], c', _, ⟨rfl, rfl⟩, ⟨id, _, c', [], rfl, ⟨rfl, rfl, rfl⟩, rfl⟩, rfl⟩, by simp⟩
  refine (Exact.bind (exact_size hsz) fun n => Exact.ite (p := n.toInt < 0) (Exact.ite (p := n &&& versionMask ≠ version1.setWidth 64) (Exact.fail _) (h1 n))
    (Exact.ite (p := strict = true) (Exact.fail _) (h2 n))).congr fun c a b c' => ?_
  obtain ⟨name, ty, id⟩ := a
  constructor
  · rintro ⟨x, b1, c1, b2, ⟨v, rfl, rfl⟩, ⟨hv, ⟨_, h⟩ | ⟨hn, h3, h4, rfl⟩⟩ | ⟨hv, ⟨_, h⟩ | ⟨hn, h3, rfl⟩⟩, rfl⟩
    · exact h.elim
    · obtain ⟨x, hx⟩ := (version_iff v).1 ⟨hv, Decidable.not_not.1 hn⟩
      dsimp only at h3 h4
      exact .inl ⟨x, h3, by rw [hx, h4]; simp⟩
    · exact h.elim
    · obtain ⟨h5, h6⟩ := (size_len name.length _).1 ⟨v, h3, rfl⟩
      exact .inr ⟨by simpa using hn, h5, by rw [h6]; simp⟩
  · rintro (⟨x, h1, rfl⟩ | ⟨h1, h2, rfl⟩)
    · obtain ⟨v, hv⟩ : ∃ v : BitVec 32, be 4 v.toNat = [0x80, 0x01, x, ty] := ⟨_, ((be_iff 4 (by decide) [0x80, 0x01, x, ty] _).1 ⟨rfl, rfl⟩).symm⟩
      have hty : ty = (v.signExtend 64).setWidth 8 := by
        have := hv
        rw [be4] at this
        simp only [List.cons.injEq] at this
        rw [← this.2.2.2.1]
        apply BitVec.eq_of_toNat_eq
        rw [BitVec.toNat_setWidth, BitVec.toNat_signExtend, BitVec.toNat_setWidth, BitVec.toNat_ofNat]
        have := v.isLt
        split <;> omega
      obtain ⟨h3, h4⟩ := (version_iff v).2 ⟨x, by rw [hv, ← hty]⟩
      exact ⟨_, _, c', be 4 name.length ++ name ++ be 4 id.toNat, ⟨v, rfl, rfl⟩, .inl ⟨h3, .inr ⟨by simp [h4], h1, hty, rfl⟩⟩, by rw [hv]; simp⟩
    · obtain ⟨v, h3, h4⟩ := (size_len name.length _).2 ⟨h2, rfl⟩
      refine ⟨_, _, c', name ++ [ty] ++ be 4 id.toNat, ⟨v, rfl, rfl⟩, .inr ⟨?_, .inr ⟨by simp [h1], h3, rfl⟩⟩, by rw [← h4]; simp⟩
      omega

omit hsz in
theorem count_iff (n : Nat) (b : Bytes) : (∃ v : BitVec 32, loopCount (v.signExtend 64) = n ∧ b = be 4 v.toNat) ↔ BinCount n b := by
  have key : ∀ v : BitVec 32, loopCount (v.signExtend 64) = if v.toNat < 2 ^ 31 then v.toNat else 0 := by
    intro v
    rw [loopCount, BitVec.toInt_signExtend_of_le (by omega), BitVec.toInt_eq_toNat_cond]
    split <;> split <;> omega
  constructor
  · rintro ⟨v, rfl, rfl⟩
    exact ⟨v.toNat, v.isLt, rfl, key v⟩
  · rintro ⟨c, h1, rfl, rfl⟩
    refine ⟨BitVec.ofNat 32 c, ?_, ?_⟩
    · rw [key, BitVec.toNat_ofNat, Nat.mod_eq_of_lt h1]
    · rw [BitVec.toNat_ofNat, Nat.mod_eq_of_lt h1]

omit hsz in
theorem count_le {n : Nat} {b : Bytes} (h : BinCount n b) : n ≤ 2 ^ 31 - 1 := by
  obtain ⟨c, h1, _, rfl⟩ := h
  split <;> omega

end

/-- A reader over a stream that ends as `fin` says, with a buffer of size `sz`. -/
def Over (sz : Nat) (fin : End) (s : Unit × Flat) : Prop := ∃ b, s = at' sz b fin

/-- Every call that succeeds consumes some bytes. -/
theorem keeps (hsz : 16 ≤ sz) {o : ROp} {s : Unit × Flat} {a : o.Ans} {s' : Unit × Flat} (hs : Over sz fin s) (h : Gives (reader strict) o s a s') : Over sz fin s' := by
  obtain ⟨b, rfl⟩ := hs
  have key : ∀ {o : ROp} {P : Unit → o.Ans → Bytes → Unit → Prop} {a : o.Ans}, Exact sz fin (impl strict o) P → Gives (reader strict) o (at' sz b fin) a s' → Over sz fin s' := by
    intro o P a he h
    obtain ⟨b1, rest, _, _, rfl⟩ := (gives_iff he _ _ _).1 h
    exact ⟨rest, rfl⟩
  cases o with
  | messageBegin => exact key (exact_message hsz strict) h
  | messageEnd => exact key (Exact.ok _) h
  | structBegin => exact key (Exact.ok _) h
  | structEnd => exact key (Exact.ok _) h
  | fieldBegin => exact key (exact_field hsz) h
  | fieldEnd => exact key (Exact.ok _) h
  | mapBegin => exact key (exact_map hsz) h
  | mapEnd => exact key (Exact.ok _) h
  | setBegin => exact key (exact_set hsz) h
  | setEnd => exact key (Exact.ok _) h
  | listBegin => exact key (exact_set hsz) h
  | listEnd => exact key (Exact.ok _) h
  | bool => exact key exact_bool h
  | byte => exact key Exact.readByte h
  | double => exact key (exact_double hsz) h
  | i16 => exact key (exact_i16 hsz) h
  | i32 => exact key (exact_i32 hsz) h
  | i64 => exact key (exact_i64 hsz) h
  | string => exact key (exact_string hsz) h
  | bytes buf => exact key (exact_bytes hsz buf) h
  | uuid => exact key exact_uuid h
  | skipString => exact key (exact_skipString hsz) h
  | skipUUID => exact key exact_skipUUID h

theorem coherent (strict : Bool) (hsz : 16 ≤ sz) : Coherent (2 ^ 31 - 1) (reader strict) (Over sz fin) where
  keeps := keeps hsz
  string := by
    rintro _ v s' ⟨input, rfl⟩ h
    obtain ⟨b, rest, rfl, ⟨h1, h2⟩, rfl⟩ := (gives_iff (exact_string hsz) _ _ _).1 h
    exact ⟨by omega, fun buf => (gives_iff (exact_bytes hsz buf) _ _ _).2 ⟨b, rest, rfl, ⟨v, h1, h2, rfl⟩, rfl⟩,
      (gives_iff (exact_skipString hsz) _ _ _).2 ⟨b, rest, rfl, ⟨v, h1, h2⟩, rfl⟩⟩
  bytes := by
    rintro _ buf v s' ⟨input, rfl⟩ h
    obtain ⟨b, rest, rfl, ⟨v', h1, h2, _⟩, rfl⟩ := (gives_iff (exact_bytes hsz buf) _ _ _).1 h
    exact ⟨v', (gives_iff (exact_string hsz) _ _ _).2 ⟨b, rest, rfl, ⟨h1, h2⟩, rfl⟩⟩
  skipString := by
    rintro _ a s' ⟨input, rfl⟩ h
    obtain ⟨b, rest, rfl, ⟨v', h1, h2⟩, rfl⟩ := (gives_iff (exact_skipString hsz) _ _ _).1 h
    exact ⟨v', (gives_iff (exact_string hsz) _ _ _).2 ⟨b, rest, rfl, ⟨h1, h2⟩, rfl⟩⟩
  uuid := by
    rintro _ v s' ⟨input, rfl⟩ h
    obtain ⟨b, rest, rfl, ⟨h1, rfl⟩, rfl⟩ := (gives_iff exact_uuid _ _ _).1 h
    exact ⟨h1, (gives_iff exact_skipUUID _ _ _).2 ⟨_, rest, rfl, h1, rfl⟩⟩
  skipUUID := by
    rintro _ a s' ⟨input, rfl⟩ h
    obtain ⟨b, rest, rfl, h1, rfl⟩ := (gives_iff exact_skipUUID _ _ _).1 h
    exact ⟨b, (gives_iff exact_uuid _ _ _).2 ⟨_, rest, rfl, ⟨h1, rfl⟩, rfl⟩⟩
  map := by
    rintro _ h s' ⟨input, rfl⟩ hg
    obtain ⟨b, rest, rfl, ⟨v, h1, h2⟩, rfl⟩ := (gives_iff (exact_map hsz) _ _ _).1 hg
    exact count_le ((count_iff _ _).1 ⟨v, by rw [← h1], rfl⟩)
  set := by
    rintro _ h s' ⟨input, rfl⟩ hg
    obtain ⟨b, rest, rfl, ⟨v, h1, h2⟩, rfl⟩ := (gives_iff (exact_set hsz) _ _ _).1 hg
    exact count_le ((count_iff _ _).1 ⟨v, by rw [← h1], rfl⟩)
  list := by
    rintro _ h s' ⟨input, rfl⟩ hg
    obtain ⟨b, rest, rfl, ⟨v, h1, h2⟩, rfl⟩ := (gives_iff (o := .listBegin) (exact_set hsz) _ _ _).1 hg
    exact count_le ((count_iff _ _).1 ⟨v, by rw [← h1], rfl⟩)

/-! ## The bytes of a value -/

/-- The reader holds the value exactly in front of its bytes. -/
def Wire (strict : Bool) (sz : Nat) (fin : End) (t : TVal) : Prop :=
  ∀ input s', Holds (reader strict) t (at' sz input fin) s' ↔ ∃ b rest, input = b ++ rest ∧ BinWire t b ∧ s' = at' sz rest fin

theorem elems_wire (et : WType) (es : List TVal) (hall : ∀ e ∈ es, Wire strict sz fin e) (input : Bytes) (s' : Unit × Flat) :
    HoldsElems (reader strict) et es (at' sz input fin) s' ↔ ∃ b rest, input = b ++ rest ∧ BinWireElems et es b ∧ s' = at' sz rest fin := by
  induction es generalizing input with
  | nil =>
    simp only [HoldsElems, BinWireElems]
    constructor
    · rintro rfl; exact ⟨[], input, rfl, rfl, rfl⟩
    · rintro ⟨b, rest, rfl, rfl, rfl⟩; rfl
  | cons e es ih =>
    have he := hall e (by simp)
    have ih := ih fun e he => hall e (by simp [he])
    simp only [HoldsElems, BinWireElems]
    constructor
    · rintro ⟨ht, s1, h1, h2⟩
      obtain ⟨b1, rest1, rfl, h3, rfl⟩ := (he _ _).1 h1
      obtain ⟨b2, rest2, rfl, h4, rfl⟩ := (ih _).1 h2
      exact ⟨b1 ++ b2, rest2, by simp, ⟨ht, b1, b2, rfl, h3, h4⟩, rfl⟩
    · rintro ⟨b, rest, rfl, ⟨ht, b1, b2, rfl, h3, h4⟩, rfl⟩
      exact ⟨ht, at' sz (b2 ++ rest) fin, (he _ _).2 ⟨b1, b2 ++ rest, by simp, h3, rfl⟩, (ih _).2 ⟨b2, rest, rfl, h4, rfl⟩⟩

theorem entries_wire (kt vt : WType) (es : List (TVal × TVal)) (hall : ∀ e ∈ es, Wire strict sz fin e.1 ∧ Wire strict sz fin e.2) (input : Bytes) (s' : Unit × Flat) :
    HoldsEntries (reader strict) kt vt es (at' sz input fin) s' ↔ ∃ b rest, input = b ++ rest ∧ BinWireEntries kt vt es b ∧ s' = at' sz rest fin := by
  induction es generalizing input with
  | nil =>
    simp only [HoldsEntries, BinWireEntries]
    constructor
    · rintro rfl; exact ⟨[], input, rfl, rfl, rfl⟩
    · rintro ⟨b, rest, rfl, rfl, rfl⟩; rfl
  | cons e es ih =>
    obtain ⟨k, v⟩ := e
    obtain ⟨hk, hv⟩ := hall (k, v) (by simp)
    have ih := ih fun e he => hall e (by simp [he])
    simp only [HoldsEntries, BinWireEntries]
    constructor
    · rintro ⟨ht, ht2, s1, s2, h1, h2, h3⟩
      obtain ⟨b1, rest1, rfl, h4, rfl⟩ := (hk _ _).1 h1
      obtain ⟨b2, rest2, rfl, h5, rfl⟩ := (hv _ _).1 h2
      obtain ⟨b3, rest3, rfl, h6, rfl⟩ := (ih _).1 h3
      exact ⟨b1 ++ b2 ++ b3, rest3, by simp, ⟨ht, ht2, b1, b2, b3, rfl, h4, h5, h6⟩, rfl⟩
    · rintro ⟨b, rest, rfl, ⟨ht, ht2, b1, b2, b3, rfl, h4, h5, h6⟩, rfl⟩
      exact ⟨ht, ht2, at' sz (b2 ++ b3 ++ rest) fin, at' sz (b3 ++ rest) fin, (hk _ _).2 ⟨b1, b2 ++ b3 ++ rest, by simp, h4, rfl⟩,
        (hv _ _).2 ⟨b2, b3 ++ rest, by simp, h5, rfl⟩, (ih _).2 ⟨b3, rest, rfl, h6, rfl⟩⟩

theorem gives_end {o : ROp} {x : o.Ans} (h : impl strict o = RM.ok x) (f : Unit × Flat) (a : o.Ans) (s' : Unit × Flat) : Gives (reader strict) o f a s' ↔ a = x ∧ s' = f := by
  obtain ⟨⟨⟩, f⟩ := f
  simp only [Gives, reader, h, RM.run_ok, Out.bind_done, Out.done.injEq, Prod.mk.injEq, Except.ok.injEq]
  constructor
  · rintro ⟨rfl, rfl⟩; exact ⟨rfl, rfl⟩
  · rintro ⟨rfl, rfl⟩; exact ⟨rfl, rfl⟩

theorem fields_wire (hsz : 16 ≤ sz) (fs : List (Bytes × BitVec 16 × TVal)) (hall : ∀ f ∈ fs, Wire strict sz fin f.2.2) (input : Bytes) (s' : Unit × Flat) :
    HoldsFields (reader strict) fs (at' sz input fin) s' ↔ ∃ b rest, input = b ++ rest ∧ BinWireFields fs b ∧ s' = at' sz rest fin := by
  induction fs generalizing input with
  | nil =>
    simp only [HoldsFields, BinWireFields]
    constructor
    · rintro ⟨h, hg, hs⟩
      obtain ⟨b, rest, rfl, ⟨_, ⟨_, _, rfl⟩ | ⟨hn, _⟩⟩, rfl⟩ := (gives_iff (exact_field hsz) _ _ _).1 hg
      · exact ⟨[0], rest, rfl, rfl, rfl⟩
      · exact absurd hs hn
    · rintro ⟨b, rest, rfl, rfl, rfl⟩
      exact ⟨⟨[], Ty.stop, 0⟩, (gives_iff (exact_field hsz) _ _ _).2 ⟨[0], rest, rfl, ⟨rfl, .inl ⟨rfl, rfl, rfl⟩⟩, rfl⟩, rfl⟩
  | cons f fs ih =>
    obtain ⟨n, id, v⟩ := f
    have hv := hall (n, id, v) (by simp)
    have ih := ih fun e he => hall e (by simp [he])
    simp only [HoldsFields, BinWireFields]
    constructor
    · rintro ⟨n, s1, s2, s3, h1, h2, h3, h4⟩
      obtain ⟨b, rest, rfl, ⟨_, ⟨hs, _⟩ | ⟨_, rfl⟩⟩, rfl⟩ := (gives_iff (exact_field hsz) _ _ _).1 h1
      · exact absurd hs (ty_ne_stop v)
      · obtain ⟨b1, rest1, rfl, h5, rfl⟩ := (hv _ _).1 h2
        obtain ⟨_, rfl⟩ := (gives_end (o := .fieldEnd) rfl _ _ _).1 h3
        obtain ⟨b2, rest2, rfl, h6, rfl⟩ := (ih _).1 h4
        exact ⟨[v.ty] ++ be 2 id.toNat ++ b1 ++ b2, rest2, by simp, ⟨b1, b2, rfl, h5, h6⟩, rfl⟩
    · rintro ⟨b, rest, rfl, ⟨b1, b2, rfl, h5, h6⟩, rfl⟩
      exact ⟨[], at' sz (b1 ++ b2 ++ rest) fin, at' sz (b2 ++ rest) fin, _, (gives_iff (exact_field hsz) _ _ _).2 ⟨[v.ty] ++ be 2 id.toNat, _, by simp, ⟨rfl, .inr ⟨ty_ne_stop v, rfl⟩⟩, rfl⟩,
        (hv _ _).2 ⟨b1, b2 ++ rest, by simp, h5, rfl⟩, (gives_end (o := .fieldEnd) rfl _ _ _).2 ⟨rfl, rfl⟩, (ih _).2 ⟨b2, rest, rfl, h6, rfl⟩⟩

theorem seq_wire (hsz : 16 ≤ sz) (et : WType) (es : List TVal) (hall : ∀ e ∈ es, Wire strict sz fin e) (input : Bytes) (s' : Unit × Flat) :
    (∃ h s1, Gives (reader strict) .setBegin (at' sz input fin) h s1 ∧ loopCount h.size = es.length ∧ h.element = et ∧ HoldsElems (reader strict) et es s1 s') ↔
      ∃ b rest, input = b ++ rest ∧ (∃ c b1, b = [et] ++ c ++ b1 ∧ BinCount es.length c ∧ BinWireElems et es b1) ∧ s' = at' sz rest fin := by
  constructor
  · rintro ⟨h, s1, h1, h2, rfl, h3⟩
    obtain ⟨b, rest, rfl, ⟨v, h4, rfl⟩, rfl⟩ := (gives_iff (exact_set hsz) _ _ _).1 h1
    obtain ⟨b2, rest2, rfl, h6, rfl⟩ := (elems_wire _ es hall _ _).1 h3
    exact ⟨[h.element] ++ be 4 v.toNat ++ b2, rest2, by simp, ⟨_, b2, rfl, (count_iff _ _).1 ⟨v, by rw [← h4, h2], rfl⟩, h6⟩, rfl⟩
  · rintro ⟨b, rest, rfl, ⟨c, b1, rfl, h1, h2⟩, rfl⟩
    obtain ⟨v, h3, rfl⟩ := (count_iff _ _).2 h1
    exact ⟨⟨et, v.signExtend 64⟩, at' sz (b1 ++ rest) fin, (gives_iff (exact_set hsz) _ _ _).2 ⟨[et] ++ be 4 v.toNat, _, by simp, ⟨v, rfl, rfl⟩, rfl⟩, h3, rfl,
      (elems_wire _ es hall _ _).2 ⟨b1, rest, rfl, h2, rfl⟩⟩

theorem wire (strict : Bool) (hsz : 16 ≤ sz) (fin : End) (t : TVal) : Wire strict sz fin t := by
  induction t using TVal.ind with
  | hbool v => intro input s'; exact gives_iff (o := .bool) exact_bool _ _ _
  | hbyte v =>
    intro input s'
    refine (gives_iff (o := .byte) Exact.readByte _ _ _).trans ?_
    simp [BinWire]
  | hdouble v => intro input s'; exact gives_iff (o := .double) (exact_double hsz) _ _ _
  | hi16 v => intro input s'; exact gives_iff (o := .i16) (exact_i16 hsz) _ _ _
  | hi32 v => intro input s'; exact gives_iff (o := .i32) (exact_i32 hsz) _ _ _
  | hi64 v => intro input s'; exact gives_iff (o := .i64) (exact_i64 hsz) _ _ _
  | hstr raw v =>
    intro input s'
    refine Iff.trans ?_ (gives_iff (strict := strict) (o := .string) (exact_string hsz) _ _ _)
    exact ⟨fun h => h.1, fun h => ⟨h, ((coherent strict hsz).string ⟨_, rfl⟩ h).2⟩⟩
  | huuid v =>
    intro input s'
    refine Iff.trans (b := Gives (reader strict) .uuid (at' sz input fin) v s') ?_ ((gives_iff (o := .uuid) exact_uuid _ _ _).trans ?_)
    · exact ⟨fun h => h.1, fun h => ⟨h, ((coherent strict hsz).uuid ⟨_, rfl⟩ h).2⟩⟩
    · constructor
      · rintro ⟨b, rest, h1, ⟨h2, h4⟩, h3⟩; exact ⟨b, rest, h1, ⟨h4 ▸ h2, h4.symm⟩, h3⟩
      · rintro ⟨b, rest, h1, ⟨h2, h4⟩, h3⟩; exact ⟨b, rest, h1, ⟨h4 ▸ h2, h4.symm⟩, h3⟩
  | hstruct n fs hall =>
    intro input s'
    refine Iff.trans ?_ (fields_wire hsz fs hall input s')
    simp only [Holds]
    constructor
    · rintro ⟨n, s1, s2, h1, h2, h3⟩
      obtain ⟨_, rfl⟩ := (gives_end (o := .structBegin) rfl _ _ _).1 h1
      obtain ⟨_, rfl⟩ := (gives_end (o := .structEnd) rfl _ _ _).1 h3
      exact h2
    · exact fun h => ⟨[], _, s', (gives_end (o := .structBegin) rfl _ _ _).2 ⟨rfl, rfl⟩, h, (gives_end (o := .structEnd) rfl _ _ _).2 ⟨rfl, rfl⟩⟩
  | hmap kt vt es hall =>
    intro input s'
    simp only [Holds, BinWire]
    constructor
    · rintro ⟨h, s1, s2, h1, h2, h3, h4, h5⟩
      obtain ⟨_, rfl⟩ := (gives_end (o := .mapEnd) rfl _ _ _).1 h5
      obtain ⟨b, rest, rfl, ⟨v, h6, rfl⟩, rfl⟩ := (gives_iff (exact_map hsz) _ _ _).1 h1
      obtain ⟨b2, rest2, rfl, h7, rfl⟩ := (entries_wire _ _ es hall _ _).1 h4
      exact ⟨[h.key, h.value] ++ be 4 v.toNat ++ b2, rest2, by simp, ⟨_, _, _, b2, rfl, (count_iff _ _).1 ⟨v, by rw [← h6, h2], rfl⟩, h3, h7⟩, rfl⟩
    · rintro ⟨b, rest, rfl, ⟨k, v, c, b1, rfl, h1, h2, h3⟩, rfl⟩
      obtain ⟨x, h4, rfl⟩ := (count_iff _ _).2 h1
      exact ⟨⟨k, v, x.signExtend 64⟩, at' sz (b1 ++ rest) fin, _, (gives_iff (exact_map hsz) _ _ _).2 ⟨[k, v] ++ be 4 x.toNat, _, by simp, ⟨x, rfl, rfl⟩, rfl⟩, h4, h2,
        (entries_wire _ _ es hall _ _).2 ⟨b1, rest, rfl, h3, rfl⟩, (gives_end (o := .mapEnd) rfl _ _ _).2 ⟨rfl, rfl⟩⟩
  | hset et es hall =>
    intro input s'
    refine Iff.trans ?_ (seq_wire hsz et es hall input s')
    simp only [Holds]
    constructor
    · rintro ⟨h, s1, s2, h1, h2, h3, h4, h5⟩
      obtain ⟨_, rfl⟩ := (gives_end (o := .setEnd) rfl _ _ _).1 h5
      exact ⟨h, s1, h1, h2, h3, h4⟩
    · rintro ⟨h, s1, h1, h2, h3, h4⟩
      exact ⟨h, s1, s', h1, h2, h3, h4, (gives_end (o := .setEnd) rfl _ _ _).2 ⟨rfl, rfl⟩⟩
  | hlist et es hall =>
    intro input s'
    refine Iff.trans ?_ (seq_wire hsz et es hall input s')
    simp only [Holds]
    constructor
    · rintro ⟨h, s1, s2, h1, h2, h3, h4, h5⟩
      obtain ⟨_, rfl⟩ := (gives_end (o := .listEnd) rfl _ _ _).1 h5
      exact ⟨h, s1, h1, h2, h3, h4⟩
    · rintro ⟨h, s1, h1, h2, h3, h4⟩
      exact ⟨h, s1, s', h1, h2, h3, h4, (gives_end (o := .listEnd) rfl _ _ _).2 ⟨rfl, rfl⟩⟩

/-- What stands for a value is small enough to be written. -/
theorem wire_wf (t : TVal) : ∀ b, BinWire t b → WF (2 ^ 31 - 1) t := by
  have helems : ∀ (et : WType) (es : List TVal), (∀ e ∈ es, ∀ b, BinWire e b → WF (2 ^ 31 - 1) e) → ∀ b, BinWireElems et es b → WFElems (2 ^ 31 - 1) et es := by
    intro et es hall
    induction es with
    | nil => intro _ _; trivial
    | cons e es ih =>
      rintro b ⟨ht, b1, b2, rfl, h1, h2⟩
      exact ⟨ht, hall e (by simp) _ h1, ih (fun e he => hall e (by simp [he])) _ h2⟩
  induction t using TVal.ind with
  | hstr r v => rintro b ⟨h, _⟩; simp only [WF]; omega
  | huuid v => rintro b ⟨h, _⟩; exact h
  | hstruct n fs hall =>
    intro b h
    simp only [BinWire] at h
    simp only [WF]
    induction fs generalizing b with
    | nil => trivial
    | cons f fs ih =>
      obtain ⟨n, id, v⟩ := f
      obtain ⟨b1, b2, rfl, h1, h2⟩ := h
      exact ⟨hall (n, id, v) (by simp) _ h1, ih (fun e he => hall e (by simp [he])) _ h2⟩
  | hmap kt vt es hall =>
    rintro b ⟨k, v, c, b1, rfl, h1, h0, h2⟩
    refine ⟨count_le h1, ?_⟩
    clear h1 h0
    induction es generalizing b1 with
    | nil => trivial
    | cons e es ih =>
      obtain ⟨k, v⟩ := e
      obtain ⟨ht, ht2, b1, b2, b3, rfl, h3, h4, h5⟩ := h2
      obtain ⟨hk, hv⟩ := hall (k, v) (by simp)
      exact ⟨ht, ht2, hk _ h3, hv _ h4, ih (fun e he => hall e (by simp [he])) _ h5⟩
  | hset et es hall => rintro b ⟨c, b1, rfl, h1, h2⟩; exact ⟨count_le h1, helems et es hall _ h2⟩
  | hlist et es hall => rintro b ⟨c, b1, rfl, h1, h2⟩; exact ⟨count_le h1, helems et es hall _ h2⟩
  | _ => intro _ _; trivial

end Binary

end GoThrift
