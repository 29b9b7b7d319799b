import Verif.Proof.BinaryExact
import Verif.Proof.CompactRead

/-!
# What the compact reader accepts, exactly
-/

namespace GoThrift

open Spec Spec.TVal

namespace Exact

variable {C α β : Type} {sz : Nat} {fin : End}

theorem ite {p : Prop} [Decidable p] {m m' : RM C α} {P Q : C → α → Bytes → C → Prop} (h1 : Exact sz fin m P) (h2 : Exact sz fin m' Q) :
    Exact sz fin (if p then m else m') fun c a b c' => (p ∧ P c a b c') ∨ (¬ p ∧ Q c a b c') := by
  split
  · rename_i h; exact h1.congr fun _ _ _ _ => by simp [h]
  · rename_i h; exact h2.congr fun _ _ _ _ => by simp [h]

theorem withState {f : C → RM C β} {Q : C → C → β → Bytes → C → Prop} (hf : ∀ c, Exact sz fin (f c) (Q c)) : Exact sz fin (RM.get.bind f) fun c a b c' => Q c c a b c' := by
  refine (bind get hf).congr fun c a b c' => ?_
  constructor
  · rintro ⟨_, _, _, b2, ⟨rfl, rfl, rfl⟩, h, rfl⟩; exact h
  · intro h; exact ⟨c, [], c, b, ⟨rfl, rfl, rfl⟩, h, rfl⟩

theorem setState {x : C} {m : RM C β} {Q : C → β → Bytes → C → Prop} (hf : Exact sz fin m Q) : Exact sz fin ((RM.set x).bind fun _ => m) fun _ a b c' => Q x a b c' := by
  refine (bind (set x) fun _ => hf).congr fun c a b c' => ?_
  constructor
  · rintro ⟨_, _, _, b2, ⟨rfl, rfl⟩, h, rfl⟩; exact h
  · intro h; exact ⟨(), [], x, b, ⟨rfl, rfl⟩, h, rfl⟩

theorem ofExcept (r : Except Err α) : Exact sz fin (RM.lift (.ret r) : RM C α) fun c a b c' => (r = .ok a ∧ b = []) ∧ c' = c := by
  refine lift fun a input f' => ?_
  simp only [BProg.run, Out.done.injEq, Prod.mk.injEq]
  constructor
  · rintro ⟨rfl, rfl⟩; exact ⟨[], input, rfl, ⟨rfl, rfl⟩, rfl⟩
  · rintro ⟨b, rest, rfl, ⟨rfl, rfl⟩, rfl⟩; exact ⟨rfl, rfl⟩

end Exact

namespace Compact

variable {sz : Nat} {fin : End}

theorem unzigzag_eq (u : BitVec 64) : unzigzag u = BitVec.ofInt 64 (unzig u.toNat) := by
  apply BitVec.eq_of_toNat_eq
  have hlt := u.isLt
  have hand : (u &&& 1 ≠ 0) ↔ u.toNat % 2 = 1 := by
    rw [ne_eq, ← BitVec.toNat_inj, BitVec.toNat_and]
    show ¬ u.toNat &&& 1 = 0 ↔ _
    rw [Nat.and_one_is_mod]; omega
  unfold unzigzag unzig
  by_cases h : u.toNat % 2 = 1
  · rw [if_pos (hand.2 h), if_neg (by omega), BitVec.toNat_not, BitVec.toNat_ushiftRight, Nat.shiftRight_eq_div_pow, BitVec.toNat_ofInt]
    omega
  · rw [if_neg (fun hc => h (hand.1 hc)), if_pos (by omega), BitVec.toNat_ushiftRight, Nat.shiftRight_eq_div_pow, BitVec.toNat_ofInt]
    omega

theorem setWidth_ofInt (w : Nat) (hw : w = 16 ∨ w = 32 ∨ w = 64) (i : Int) : (BitVec.ofInt 64 i).setWidth w = BitVec.ofInt w i := by
  apply BitVec.eq_of_toNat_eq
  rw [BitVec.toNat_setWidth, BitVec.toNat_ofInt, BitVec.toNat_ofInt]
  rcases hw with rfl | rfl | rfl <;> omega

theorem svarint_iff (w : Nat) (hw : w = 16 ∨ w = 32 ∨ w = 64) (v : BitVec w) (b : Bytes) :
    (∃ u : BitVec 64, UVarint u.toNat b ∧ v = (unzigzag u).setWidth w) ↔ SVarint v b := by
  constructor
  · rintro ⟨u, h, rfl⟩; exact ⟨_, h, by rw [unzigzag_eq, setWidth_ofInt w hw]⟩
  · rintro ⟨n, h, rfl⟩
    have hn : (BitVec.ofNat 64 n).toNat = n := by rw [BitVec.toNat_ofNat, Nat.mod_eq_of_lt h.2.2.2]
    exact ⟨BitVec.ofNat 64 n, by rwa [hn], by rw [unzigzag_eq, setWidth_ofInt w hw, hn]⟩

theorem uvarint_iff (v : BitVec 64) (b : Bytes) : (IsLeb b ∧ b.length ≤ 10 ∧ lebValue b < 2 ^ 64 ∧ v.toNat = lebValue b) ↔ UVarint v.toNat b := by
  constructor
  · rintro ⟨h1, h2, h3, h4⟩; exact ⟨h1, h2, h4.symm, v.isLt⟩
  · rintro ⟨h1, h2, h3, h4⟩; exact ⟨h1, h2, by omega, h3.symm⟩

theorem exact_size : Exact sz fin readSize fun c a b c' => UVarint a.toNat b ∧ c' = c :=
  (Exact.pair Exact.uvarint).congr fun c a b c' => by rw [uvarint_iff]

theorem exact_varint (v : BitVec 64) (input : Bytes) (f' : Flat) :
    binReadVarint.run ⟨sz, input, fin⟩ = .done ((v, none), f') ↔ ∃ b rest, input = b ++ rest ∧ SVarint v b ∧ f' = ⟨sz, rest, fin⟩ := by
  rw [binReadVarint, BProg.run_bind]
  constructor
  · intro h
    cases hr : binReadUvarint.run ⟨sz, input, fin⟩ with
    | done x =>
      obtain ⟨⟨u, e⟩, f1⟩ := x
      rw [hr] at h
      simp only [Out.bind_done, BProg.run, Out.done.injEq, Prod.mk.injEq] at h
      obtain ⟨⟨rfl, rfl⟩, rfl⟩ := h
      obtain ⟨b, rest, h1, h2, h3⟩ := (Exact.uvarint _ _ _).1 hr
      exact ⟨b, rest, h1, (svarint_iff 64 (by simp) _ _).1 ⟨u, (uvarint_iff _ _).1 h2, by simp⟩, h3⟩
    | blocked => rw [hr] at h; cases h
    | diverged => rw [hr] at h; cases h
    | panicked => rw [hr] at h; cases h
  · rintro ⟨b, rest, h1, h2, h3⟩
    obtain ⟨u, h4, rfl⟩ := (svarint_iff 64 (by simp) _ _).2 h2
    rw [(Exact.uvarint u _ _).2 ⟨b, rest, h1, (uvarint_iff _ _).2 h4, h3⟩]
    simp [BProg.run]

theorem exact_i64 : Exact sz fin readI64 fun c a b c' => SVarint a b ∧ c' = c := Exact.pair exact_varint

theorem svarint_narrow (w : Nat) (hw : w = 16 ∨ w = 32 ∨ w = 64) (v : BitVec w) (b : Bytes) : (∃ u : BitVec 64, SVarint u b ∧ v = u.setWidth w) ↔ SVarint v b := by
  constructor
  · rintro ⟨u, ⟨n, h1, rfl⟩, rfl⟩; exact ⟨n, h1, setWidth_ofInt w hw _⟩
  · rintro ⟨n, h1, rfl⟩; exact ⟨_, ⟨n, h1, rfl⟩, (setWidth_ofInt w hw _).symm⟩

theorem exact_i32 : Exact sz fin readI32 fun c a b c' => SVarint a b ∧ c' = c := by
  refine (Exact.bind exact_i64 fun _ => Exact.ok _).congr fun c a b c' => ?_
  rw [← svarint_narrow 32 (by simp)]
  constructor
  · rintro ⟨x, b1, c1, b2, ⟨h1, rfl⟩, ⟨rfl, rfl, rfl⟩, rfl⟩; exact ⟨⟨x, by simpa using h1, rfl⟩, rfl⟩
  · rintro ⟨⟨x, h1, rfl⟩, rfl⟩; exact ⟨x, b, c', [], ⟨h1, rfl⟩, ⟨rfl, rfl, rfl⟩, by simp⟩

theorem exact_i16 : Exact sz fin readI16 fun c a b c' => SVarint a b ∧ c' = c := by
  refine (Exact.bind exact_i64 fun _ => Exact.ok _).congr fun c a b c' => ?_
  rw [← svarint_narrow 16 (by simp)]
  constructor
  · rintro ⟨x, b1, c1, b2, ⟨h1, rfl⟩, ⟨rfl, rfl, rfl⟩, rfl⟩; exact ⟨⟨x, by simpa using h1, rfl⟩, rfl⟩
  · rintro ⟨⟨x, h1, rfl⟩, rfl⟩; exact ⟨x, b, c', [], ⟨h1, rfl⟩, ⟨rfl, rfl, rfl⟩, by simp⟩

theorem exact_double (hsz : 16 ≤ sz) : Exact sz fin readDouble fun c a b c' => b = (be 8 a.toNat).reverse ∧ c' = c := by
  refine (Exact.load 8 (by omega) _).congr fun c a b c' => ?_
  have h : getLE b = Binary.getBE b.reverse := by rw [← getLE_reverse, List.reverse_reverse]
  have := be_iff (w := 64) 8 (by decide) b.reverse a
  rw [List.length_reverse, ← h] at this
  rw [this, ← List.reverse_inj (ys := (be 8 a.toNat).reverse), List.reverse_reverse]

theorem exact_bool : Exact sz fin readBool fun c a b c' => match c.boolField with
    | .none => (∃ x, b = [x] ∧ (a = true ↔ x ≠ 0)) ∧ c' = c
    | .true => a = true ∧ b = [] ∧ c' = { c with boolField := .none }
    | .false => a = false ∧ b = [] ∧ c' = { c with boolField := .none } := by
  unfold readBool
  rw [RM.bind_eq]
  refine (Exact.withState (Q := fun (c0 c : RState) a b c' => match c0.boolField with
    | .none => (∃ x, b = [x] ∧ (a = true ↔ x ≠ 0)) ∧ c' = c
    | .true => a = true ∧ b = [] ∧ c' = { c0 with boolField := .none }
    | .false => a = false ∧ b = [] ∧ c' = { c0 with boolField := .none }) fun c0 => ?_)
  obtain ⟨ids, last, bf⟩ := c0
  cases bf with
  | none =>
    refine (Exact.bind Exact.readByte fun x => Exact.ok _).congr fun c a b c' => ?_
    constructor
    · rintro ⟨x, b1, c1, b2, ⟨rfl, rfl⟩, ⟨rfl, rfl, rfl⟩, rfl⟩
      exact ⟨⟨x, rfl, by simp⟩, rfl⟩
    · rintro ⟨⟨x, rfl, h⟩, rfl⟩
      refine ⟨x, [x], c', [], ⟨rfl, rfl⟩, ⟨?_, rfl, rfl⟩, rfl⟩
      cases a <;> simp at h <;> simp [h]
  | true => exact Exact.setState (Exact.ok _)
  | false => exact Exact.setState (Exact.ok _)

section
variable (hsz : 16 ≤ sz) {e : Err}
include hsz

theorem exact_uvarint : Exact sz (.err e) readUvarint fun c a b c' => UVarint a.toNat b ∧ c' = c := by
  refine (Exact.pair (P := fun (v : BitVec 64) b => IsLeb b ∧ b.length ≤ 10 ∧ lebValue b < 2 ^ 64 ∧ v.toNat = lebValue b) fun a input f' => ?_).congr fun c a b c' => by rw [uvarint_iff]
  rw [readUvarint_flat _ hsz (.inl ⟨e, rfl⟩)]
  exact Exact.uvarint _ _ _

omit hsz in
theorem size_len (n : Nat) (b : Bytes) : (∃ v : BitVec 64, (n : Int) = v.toInt ∧ UVarint v.toNat b) ↔ n < 2 ^ 63 ∧ UVarint n b := by
  constructor
  · rintro ⟨v, h, h2⟩
    rw [BitVec.toInt_eq_toNat_cond] at h
    split at h
    · have : v.toNat = n := by omega
      rw [this] at h2
      exact ⟨by omega, h2⟩
    · omega
  · rintro ⟨h, h2⟩
    exact ⟨BitVec.ofNat 64 n, by rw [toInt_ofNat64 _ h], by rwa [BitVec.toNat_ofNat, Nat.mod_eq_of_lt (by omega)]⟩

omit hsz in
theorem sized {α : Type} {f : Int → M α} {P : Int → α → Bytes → Prop} {Q : α → Bytes → Prop} (hr : 16 ≤ sz) (hf : ∀ n, Exact sz (.err e) (f n) fun c a b c' => P n a b ∧ c' = c)
    (hq : ∀ n a b, P n a b ↔ (b.length : Int) = n ∧ Q a b) :
    Exact sz (.err e) (readStringSize.bind fun n => f n.toInt) fun c a b c' => (∃ v w, v.length < 2 ^ 63 ∧ UVarint v.length w ∧ b = w ++ v ∧ Q a v) ∧ c' = c := by
  refine (Exact.bind (exact_uvarint hr) fun n => hf _).congr fun c a b c' => ?_
  constructor
  · rintro ⟨x, b1, c1, b2, ⟨h1, rfl⟩, ⟨h2, rfl⟩, rfl⟩
    rw [hq] at h2
    obtain ⟨h3, h4⟩ := (size_len b2.length _).1 ⟨x, h2.1, h1⟩
    exact ⟨⟨b2, b1, h3, h4, rfl, h2.2⟩, rfl⟩
  · rintro ⟨⟨v, w, h1, h2, rfl, h3⟩, rfl⟩
    obtain ⟨x, h4, h5⟩ := (size_len v.length _).2 ⟨h1, h2⟩
    exact ⟨x, w, c', v, ⟨h5, rfl⟩, ⟨(hq _ _ _).2 ⟨h4, h3⟩, rfl⟩, rfl⟩

theorem exact_string : Exact sz (.err e) readString fun c a b c' => (∃ w, a.length < 2 ^ 63 ∧ UVarint a.length w ∧ b = w ++ a) ∧ c' = c := by
  refine (sized (Q := fun a b => a = b) hsz (fun n => Exact.pair (Exact.wireReadString (by omega) n)) fun n a b => Iff.rfl).congr fun c a b c' => ?_
  constructor
  · rintro ⟨⟨v, w, h1, h2, h3, rfl⟩, h4⟩; exact ⟨⟨w, h1, h2, h3⟩, h4⟩
  · rintro ⟨⟨w, h1, h2, h3⟩, h4⟩; exact ⟨⟨a, w, h1, h2, h3, rfl⟩, h4⟩

theorem exact_bytes (buf : Bytes) : Exact sz (.err e) (readBytes buf) fun c a b c' => (∃ v w, v.length < 2 ^ 63 ∧ UVarint v.length w ∧ b = w ++ v ∧ a = buf ++ v) ∧ c' = c :=
  sized (Q := fun a b => a = buf ++ b) hsz (fun n => Exact.pair (Exact.wireReadBytes (by omega) n buf)) fun n a b => Iff.rfl

theorem exact_skipString : Exact sz (.err e) skipString fun c _ b c' => (∃ v w, v.length < 2 ^ 63 ∧ UVarint v.length w ∧ b = w ++ v) ∧ c' = c := by
  refine (sized (Q := fun _ _ => True) (P := fun n _ b => (b.length : Int) = n) hsz (fun n => Exact.discard n) fun n a b => by simp).congr fun c a b c' => by simp

end

theorem exact_uuid : Exact sz fin readUUID fun c a b c' => (b.length = 16 ∧ a = b) ∧ c' = c := Exact.readFull 16

theorem exact_skipUUID : Exact sz fin skipUUID fun c _ b c' => b.length = 16 ∧ c' = c := (Exact.discard 16).congr fun _ _ _ _ => by
  rw [show ((16 : Int)) = ((16 : Nat) : Int) from rfl, Int.ofNat_inj]

theorem exact_structBegin : Exact sz fin readStructBegin fun c a b c' => a = [] ∧ b = [] ∧ c' = { c with ids := c.last :: c.ids, last := 0 } :=
  Exact.withState fun _ => Exact.setState (Exact.ok _)

theorem exact_structEnd : Exact sz fin readStructEnd fun c _ b c' => ∃ id ids, c.ids = id :: ids ∧ b = [] ∧ c' = { c with ids := ids, last := id } := by
  unfold readStructEnd
  rw [RM.bind_eq]
  refine Exact.withState (Q := fun (c0 _ : RState) _ b c' => ∃ id ids, c0.ids = id :: ids ∧ b = [] ∧ c' = { c0 with ids := ids, last := id }) fun c0 => ?_
  obtain ⟨ids, last, bf⟩ := c0
  cases ids with
  | nil => exact (Exact.fail _).congr fun _ _ _ _ => by simp
  | cons id ids =>
    refine (Exact.set _).congr fun c a b c' => ?_
    constructor
    · rintro ⟨rfl, rfl⟩; exact ⟨id, ids, rfl, rfl, rfl⟩
    · rintro ⟨_, _, h, rfl, rfl⟩; cases h; exact ⟨rfl, rfl⟩

theorem wire_iff (t : WType) (code : Byte) (hc : code.toNat < 16) : wire code = .ok t ↔ CompactType t code.toNat := by
  revert code t
  unfold CompactType
  decide +kernel

theorem byte_nibbles (x : Byte) : x = nibbles (x >>> 4).toNat (x &&& 15).toNat := by revert x; decide +kernel
theorem hi_lt (x : Byte) : (x >>> 4).toNat < 16 := by revert x; decide +kernel
theorem lo_lt (x : Byte) : (x &&& 15).toNat < 16 := by revert x; decide +kernel

theorem ofNat_toNat8 (x : Byte) : BitVec.ofNat 8 x.toNat = x := by simp

/-- What the field header says. -/
def FieldOK (c : RState) (a : FieldHeader) (b : Bytes) (c' : RState) : Prop :=
  a.name = [] ∧ ((a.type = Ty.stop ∧ a.id = 0 ∧ (∃ d, d < 16 ∧ b = [nibbles d 0]) ∧ c' = c) ∨
    (a.type ≠ Ty.stop ∧ ∃ code : Byte, code.toNat < 16 ∧ wire code = .ok a.type ∧ CompactField code.toNat c.last a.id b ∧ c' = { c with last := a.id, boolField := c.boolField.setBy code }))

theorem wire_stop (code : Byte) (h : code.toNat < 16) (hw : wire code = .ok Ty.stop) : code = 0 := by
  revert code; decide +kernel

theorem hi_zero (x : Byte) : (x >>> 4).setWidth 16 = (0 : BitVec 16) ↔ (x >>> 4).toNat = 0 := by revert x; decide +kernel

theorem exact_field : Exact sz fin readFieldBegin FieldOK := by
  have h0 : ∀ (dt : Byte) (ty : WType) (id : BitVec 16), Exact sz fin (RM.get.bind fun c : RState => (RM.set { c with last := id, boolField := c.boolField.setBy (dt &&& 15) }).bind fun _ => RM.ok (⟨[], ty, id⟩ : FieldHeader) : M FieldHeader) _ :=
    fun dt ty id => Exact.withState fun c1 => Exact.setState (Exact.ok _)
  have h1 : ∀ (dt : Byte) (ty : WType), Exact sz fin (RM.get.bind fun c : RState => if (dt >>> 4).setWidth 16 = (0 : BitVec 16) then readI16.bind fun id =>
        RM.get.bind fun c : RState => (RM.set { c with last := id, boolField := c.boolField.setBy (dt &&& 15) }).bind fun _ => RM.ok (⟨[], ty, id⟩ : FieldHeader)
      else (RM.ok (c.last + (dt >>> 4).setWidth 16)).bind fun id =>
        RM.get.bind fun c : RState => (RM.set { c with last := id, boolField := c.boolField.setBy (dt &&& 15) }).bind fun _ => RM.ok (⟨[], ty, id⟩ : FieldHeader) : M FieldHeader) fun c a b c' =>
        a.name = [] ∧ a.type = ty ∧ c' = { c with last := a.id, boolField := c.boolField.setBy (dt &&& 15) } ∧
        (((dt >>> 4).toNat = 0 ∧ SVarint a.id b) ∨ ((dt >>> 4).toNat ≠ 0 ∧ b = [] ∧ a.id = c.last + BitVec.ofNat 16 (dt >>> 4).toNat)) := by
    intro dt ty
    have hm : (dt >>> 4).setWidth 16 = BitVec.ofNat 16 (dt >>> 4).toNat := by
      apply BitVec.eq_of_toNat_eq; rw [BitVec.toNat_setWidth, BitVec.toNat_ofNat]
    refine (Exact.withState fun c0 => Exact.ite (Exact.bind exact_i16 fun id => h0 dt ty id) (Exact.bind (Exact.ok _) fun id => h0 dt ty id)).congr fun c a b c' => ?_
    obtain ⟨n, ty', id⟩ := a
    rw [hi_zero]
    constructor
    · rintro (⟨hz, x, b1, c1, b2, ⟨hs, rfl⟩, ⟨h, rfl, rfl⟩, rfl⟩ | ⟨hz, x, b1, c1, b2, ⟨rfl, rfl, rfl⟩, ⟨h, rfl, rfl⟩, rfl⟩)
      · cases h; exact ⟨rfl, rfl, rfl, .inl ⟨hz, by simpa using hs⟩⟩
      · cases h; exact ⟨rfl, rfl, rfl, .inr ⟨hz, rfl, by rw [hm]⟩⟩
    · rintro ⟨h1, h2, rfl, ⟨hz, hs⟩ | ⟨hz, rfl, h3⟩⟩
      · dsimp only at h1 h2; subst h1 h2
        exact .inl ⟨hz, id, b, c, [], ⟨hs, rfl⟩, ⟨rfl, rfl, rfl⟩, by simp⟩
      · dsimp only at h1 h2 h3; subst h1 h2 h3
        exact .inr ⟨hz, _, [], c, [], ⟨rfl, rfl, rfl⟩, ⟨by rw [hm], rfl, by rw [hm]⟩, rfl⟩
  refine (Exact.bind Exact.readByte fun dt => Exact.bind (Exact.ofExcept (wire (dt &&& 15))) fun ty => Exact.ite (p := ty = Ty.stop) (Exact.ok _) (h1 dt ty)).congr fun c a b c' => ?_
  obtain ⟨n, ty, id⟩ := a
  constructor
  · rintro ⟨dt, b1, c1, b2, ⟨rfl, rfl⟩, ⟨ty', b3, c3, b4, ⟨⟨hw, rfl⟩, rfl⟩, ⟨rfl, h, rfl, rfl⟩ | ⟨hs, h2, h3, h4, h5⟩, rfl⟩, rfl⟩
    · cases h
      refine ⟨rfl, .inl ⟨rfl, rfl, ⟨(dt >>> 4).toNat, hi_lt dt, ?_⟩, rfl⟩⟩
      have := byte_nibbles dt
      rw [wire_stop _ (lo_lt dt) hw] at this
      rw [show ((0 : Byte)).toNat = 0 from rfl] at this
      rw [← this]; rfl
    · dsimp only at h2 h3; subst h2 h3
      refine ⟨rfl, .inr ⟨hs, dt &&& 15, lo_lt dt, hw, ?_, h4⟩⟩
      have hb := byte_nibbles dt
      rcases h5 with ⟨h5, h6⟩ | ⟨h5, rfl, h6⟩
      · refine .inr ⟨_, h6, ?_⟩
        rw [← h5, ← hb]; rfl
      · exact .inl ⟨(dt >>> 4).toNat, by omega, hi_lt dt, by rw [← hb]; rfl, h6⟩
  · rintro ⟨h1, ⟨h2, h3, ⟨d, hd, rfl⟩, rfl⟩ | ⟨hs, code, hc, hw, h4, rfl⟩⟩
    · dsimp only at h1 h2 h3; subst h1 h2 h3
      exact ⟨nibbles d 0, _, c', [], ⟨rfl, rfl⟩, ⟨Ty.stop, [], c', [], ⟨⟨by rw [nibbles_lo d 0 hd (by omega)]; rfl, rfl⟩, rfl⟩, .inl ⟨rfl, rfl, rfl, rfl⟩, rfl⟩, rfl⟩
    · dsimp only at h1; subst h1
      rcases h4 with ⟨d, h5, h6, rfl, h7⟩ | ⟨w, h5, rfl⟩
      · refine ⟨nibbles d code.toNat, _, c, [], ⟨rfl, rfl⟩, ⟨ty, [], c, [], ⟨⟨by rw [nibbles_lo d _ h6 hc, ofNat_toNat8, hw], rfl⟩, rfl⟩, .inr ⟨hs, rfl, rfl, ?_, .inr ?_⟩, rfl⟩, rfl⟩
        · rw [nibbles_lo d _ h6 hc, ofNat_toNat8]
        · rw [nibbles_hi d _ h6 hc, BitVec.toNat_ofNat, Nat.mod_eq_of_lt (by omega)]
          exact ⟨by omega, rfl, h7⟩
      · refine ⟨nibbles 0 code.toNat, _, c, w, ⟨rfl, rfl⟩, ⟨ty, [], c, w, ⟨⟨by rw [nibbles_lo 0 _ (by omega) hc, ofNat_toNat8, hw], rfl⟩, rfl⟩, .inr ⟨hs, rfl, rfl, ?_, .inl ?_⟩, rfl⟩, rfl⟩
        · rw [nibbles_lo 0 _ (by omega) hc, ofNat_toNat8]
        · rw [nibbles_hi 0 _ (by omega) hc]
          exact ⟨rfl, h5⟩

theorem hi_fifteen (x : Byte) : (x >>> 4).setWidth 64 = (15 : BitVec 64) ↔ (x >>> 4).toNat = 15 := by revert x; decide +kernel

/-- What the header of a list or set says. -/
def SetOK (a : SetHeader) (b : Bytes) : Prop := ∃ code : Byte, code.toNat < 16 ∧ wire code = .ok a.element ∧
  ((a.size.toNat < 15 ∧ b = [nibbles a.size.toNat code.toNat]) ∨ ∃ w, UVarint a.size.toNat w ∧ b = nibbles 15 code.toNat :: w)

theorem exact_set : Exact sz fin readSetBegin fun c a b c' => SetOK a b ∧ c' = c := by
  refine (Exact.bind Exact.readByte fun st => Exact.bind (Exact.ofExcept (wire (st &&& 15))) fun e =>
    Exact.ite (p := (st >>> 4).setWidth 64 = (15 : BitVec 64)) (Exact.bind exact_size fun n => Exact.ok _) (Exact.ok _)).congr fun c a b c' => ?_
  obtain ⟨e, n⟩ := a
  constructor
  · rintro ⟨st, b1, c1, b2, ⟨rfl, rfl⟩, ⟨e', b3, c3, b4, ⟨⟨hw, rfl⟩, rfl⟩, ⟨hf, x, b5, c5, b6, ⟨hu, rfl⟩, ⟨h, rfl, rfl⟩, rfl⟩ | ⟨hf, h, rfl, rfl⟩, rfl⟩, rfl⟩
    · cases h
      refine ⟨⟨st &&& 15, lo_lt st, hw, .inr ⟨b5, hu, ?_⟩⟩, rfl⟩
      have hb := byte_nibbles st
      rw [← (hi_fifteen st).1 hf, ← hb]; simp
    · cases h
      have hb := byte_nibbles st
      have hlt := hi_lt st
      have hn : ((st >>> 4).setWidth 64).toNat = (st >>> 4).toNat := by
        rw [BitVec.toNat_setWidth]; omega
      rw [hi_fifteen] at hf
      exact ⟨⟨st &&& 15, lo_lt st, hw, .inl ⟨by rw [hn]; omega, by rw [hn, ← hb]; rfl⟩⟩, rfl⟩
  · rintro ⟨⟨code, hc, hw, ⟨h1, rfl⟩ | ⟨w, h1, rfl⟩⟩, rfl⟩
    · dsimp only at hw h1
      refine ⟨nibbles n.toNat code.toNat, _, c', [], ⟨rfl, rfl⟩, ⟨e, [], c', [], ⟨⟨by rw [nibbles_lo _ _ (by omega) hc, ofNat_toNat8, hw], rfl⟩, rfl⟩, .inr ⟨?_, ?_, rfl, rfl⟩, rfl⟩, rfl⟩
      · rw [hi_fifteen, nibbles_hi _ _ (by omega) hc, BitVec.toNat_ofNat]; omega
      · rw [nibbles_hi _ _ (by omega) hc]
        congr 1
        apply BitVec.eq_of_toNat_eq
        rw [BitVec.toNat_setWidth, BitVec.toNat_ofNat]; omega
    · dsimp only at hw h1
      refine ⟨nibbles 15 code.toNat, _, c', w, ⟨rfl, rfl⟩, ⟨e, [], c', w, ⟨⟨by rw [nibbles_lo _ _ (by omega) hc, ofNat_toNat8, hw], rfl⟩, rfl⟩, .inl ⟨?_, n, w, c', [], ⟨h1, rfl⟩, ⟨rfl, rfl, rfl⟩, by simp⟩, rfl⟩, rfl⟩
      rw [hi_fifteen, nibbles_hi _ _ (by omega) hc]; rfl

/-- What the header of a map says. -/
def MapOK (a : MapHeader) (b : Bytes) : Prop := (a = ⟨Ty.stop, Ty.stop, 0⟩ ∧ UVarint 0 b) ∨
  (a.size ≠ 0 ∧ ∃ (w : Bytes) (k v : Byte), k.toNat < 16 ∧ v.toNat < 16 ∧ UVarint a.size.toNat w ∧ wire k = .ok a.key ∧ wire v = .ok a.value ∧ b = w ++ [nibbles k.toNat v.toNat])

theorem exact_map : Exact sz fin readMapBegin fun c a b c' => MapOK a b ∧ c' = c := by
  refine (Exact.bind exact_size fun n => Exact.ite (p := n = 0) (Exact.ok _) (Exact.bind Exact.readByte fun kv => Exact.bind (Exact.ofExcept (wire (kv >>> 4))) fun k =>
    Exact.bind (Exact.ofExcept (wire (kv &&& 15))) fun v => Exact.ok _)).congr fun c a b c' => ?_
  obtain ⟨k, v, n⟩ := a
  constructor
  · rintro ⟨x, b1, c1, b2, ⟨hu, rfl⟩, ⟨rfl, h, rfl, rfl⟩ | ⟨hx, kv, _, c3, b4, ⟨rfl, rfl⟩, ⟨k', _, c5, b6, ⟨⟨hk, rfl⟩, rfl⟩, ⟨v', _, c7, b8, ⟨⟨hv, rfl⟩, rfl⟩, ⟨h, rfl, rfl⟩, rfl⟩, rfl⟩, rfl⟩, rfl⟩
    · cases h; exact ⟨.inl ⟨rfl, by simpa using hu⟩, rfl⟩
    · cases h
      exact ⟨.inr ⟨hx, b1, kv >>> 4, kv &&& 15, hi_lt kv, lo_lt kv, hu, hk, hv, by rw [← byte_nibbles kv]; rfl⟩, rfl⟩
  · rintro ⟨⟨h, hu⟩ | ⟨hx, w, k', v', h1, h2, hu, hk, hv, rfl⟩, rfl⟩
    · cases h
      exact ⟨0, b, c', [], ⟨hu, rfl⟩, .inl ⟨rfl, rfl, rfl, rfl⟩, by simp⟩
    · refine ⟨n, w, c', _, ⟨hu, rfl⟩, .inr ⟨hx, nibbles k'.toNat v'.toNat, _, c', [], ⟨rfl, rfl⟩, ⟨k, [], c', [], ⟨⟨?_, rfl⟩, rfl⟩, ⟨v, [], c', [], ⟨⟨?_, rfl⟩, rfl⟩, ⟨rfl, rfl, rfl⟩, rfl⟩, rfl⟩, rfl⟩, rfl⟩
      · rw [nibbles_hi _ _ h1 h2, ofNat_toNat8]; exact hk
      · rw [nibbles_lo _ _ h1 h2, ofNat_toNat8]; exact hv

theorem version_byte (x : Byte) : x &&& 0x1f = version1 ↔ x = BitVec.ofNat 8 (32 * (x >>> 5).toNat + 1) := by revert x; decide +kernel
theorem type_byte (x : Byte) : (x >>> 5).toNat < 8 := by revert x; decide +kernel
theorem type_version (t : Byte) (h : t.toNat < 8) : (BitVec.ofNat 8 (32 * t.toNat + 1) : Byte) >>> 5 = t := by revert t; decide +kernel

theorem exact_message (hsz : 16 ≤ sz) (e : Err) : Exact sz (.err e) readMessageBegin fun c a b c' => CompactMessage a b ∧ c' = c := by
  refine (Exact.bind Exact.readByte fun p => Exact.ite (p := p ≠ protocolID) (Exact.fail _) (Exact.bind Exact.readByte fun vt => Exact.ite (p := vt &&& 0x1f ≠ version1) (Exact.fail _)
    (Exact.bind (exact_uvarint hsz) fun id => Exact.bind (exact_string hsz) fun name => Exact.ok _))).congr fun c a b c' => ?_
  obtain ⟨name, ty, id⟩ := a
  constructor
  · rintro ⟨p, _, c1, b2, ⟨rfl, rfl⟩, ⟨_, h⟩ | ⟨hp, vt, _, c3, b4, ⟨rfl, rfl⟩, ⟨_, h⟩ | ⟨hv, m, b5, c5, b6, ⟨hm, rfl⟩, ⟨nm, b7, c7, b8, ⟨⟨w, h1, h2, rfl⟩, rfl⟩, ⟨h, rfl, rfl⟩, rfl⟩, rfl⟩, rfl⟩, rfl⟩
    · exact h.elim
    · exact h.elim
    · cases h
      have hv := (version_byte vt).1 (Decidable.not_not.1 hv)
      refine ⟨⟨type_byte vt, h1, m.toNat, b5, w, hm, ?_, h2, ?_⟩, rfl⟩
      · apply BitVec.eq_of_toNat_eq; simp
      · rw [← hv, Decidable.not_not.1 hp]; simp [protocolID]
  · rintro ⟨⟨h1, h2, m, w1, w2, h3, h4, h5, rfl⟩, rfl⟩
    dsimp only at h1 h2 h4 h5
    have hm : (BitVec.ofNat 64 m).toNat = m := by rw [BitVec.toNat_ofNat, Nat.mod_eq_of_lt h3.2.2.2]
    have ht := type_version ty h1
    refine ⟨protocolID, _, c', _, ⟨rfl, rfl⟩, .inr ⟨by simp, BitVec.ofNat 8 (32 * ty.toNat + 1), _, c', w1 ++ (w2 ++ name), ⟨rfl, rfl⟩, .inr ⟨?_, BitVec.ofNat 64 m, w1, c', w2 ++ name,
      ⟨by rwa [hm], rfl⟩, ⟨name, _, c', [], ⟨⟨w2, h2, h5, rfl⟩, rfl⟩, ⟨?_, rfl, rfl⟩, by simp⟩, rfl⟩, rfl⟩, by simp [protocolID]⟩
    · rw [Decidable.not_not, version_byte, ht]
    · rw [ht, h4]
      congr 1
      apply BitVec.eq_of_toNat_eq
      rw [BitVec.toNat_setWidth, hm, BitVec.toNat_ofNat]

end Compact

end GoThrift
