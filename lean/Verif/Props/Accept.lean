import Verif.Props.Decode
import Verif.Props.Hostile
import Verif.Props.Binary
import Verif.Props.Compact
import Verif.Proof.CanonSettle
import Verif.Proof.CompactWire

/-!
# C62: what the readers accept, exactly

`BinWire v b` and `CompactWire v b` (`Spec/Accept.lean`): the bytes `b` stand for the wire value `v`. The theorems hold for every input, valid or not.
-/

namespace GoThrift

open Spec Spec.TVal

/-- Skip is deterministic. -/
theorem SkipReturns.unique {S : Type} {r : Rdr S} {t : WType} {s s1 s2 : S} {e1 e2 : Option Err} (h1 : SkipReturns r t s e1 s1) (h2 : SkipReturns r t s e2 s2) : e1 = e2 ∧ s1 = s2 := by
  obtain ⟨n, h1⟩ := h1
  obtain ⟨m, h2⟩ := h2
  have := (h1 (max n m) (Nat.le_max_left _ _)).symm.trans (h2 (max n m) (Nat.le_max_right _ _))
  simp only [Out.done.injEq, Prod.mk.injEq] at this
  exact this

/-! ## Message headers -/

/-- **C62**: the headers that the binary reader accepts. -/
theorem C62_message_binary (strict : Bool) (size : Nat) (hsize : 16 ≤ size) (input : Bytes) (fin : End) (h : MessageHeader) (s' : Unit × Flat) :
    Gives (Binary.reader strict) .messageBegin ((), ⟨size, input, fin⟩) h s' ↔ ∃ b rest, input = b ++ rest ∧ BinMessage strict h b ∧ s' = ((), ⟨size, rest, fin⟩) :=
  Binary.gives_iff (o := .messageBegin) (Binary.exact_message hsize strict) input h s'

/-- **C62**: the headers that the compact reader accepts. -/
theorem C62_message_compact (c : Compact.RState) (size : Nat) (hsize : 16 ≤ size) (input : Bytes) (e : Err) (h : MessageHeader) (s' : Compact.RState × Flat) :
    Gives Compact.reader .messageBegin (c, ⟨size, input, .err e⟩) h s' ↔ ∃ b rest, input = b ++ rest ∧ CompactMessage h b ∧ s' = (c, ⟨size, rest, .err e⟩) :=
  Compact.gives_plain (o := .messageBegin) (Compact.exact_message hsize e) c input h s'

/-! ## Values: Reader calls -/

/-- **C62**: the binary reader answers with a value exactly if bytes that stand for it are next, and consumes exactly these. -/
theorem C62_value_binary (strict : Bool) (v : TVal) (size : Nat) (hsize : 16 ≤ size) (input : Bytes) (fin : End) (s' : Unit × Flat) :
    Holds (Binary.reader strict) v ((), ⟨size, input, fin⟩) s' ↔ ∃ b rest, input = b ++ rest ∧ BinWire v b ∧ s' = ((), ⟨size, rest, fin⟩) :=
  Binary.wire strict hsize fin v input s'

/-- **C62**: the compact reader, likewise. -/
theorem C62_value_compact (v : TVal) (c : Compact.RState) (hc : c.boolField = .none) (size : Nat) (hsize : 16 ≤ size) (input : Bytes) (e : Err) (s' : Compact.RState × Flat) :
    Holds Compact.reader v (c, ⟨size, input, .err e⟩) s' ↔ ∃ b rest, input = b ++ rest ∧ CompactWire v b ∧ s' = (c, ⟨size, rest, .err e⟩) :=
  Compact.wire_value hsize e v c input s' hc

/-! ## Skip -/

/-- **C62**: Skip on a binary reader returns nil exactly if the next bytes stand for a value of the type, and it consumes exactly these. -/
theorem C62_skip_binary (strict : Bool) (t : WType) (size : Nat) (hsize : 16 ≤ size) (input : Bytes) (fin : End) (s' : Unit × Flat) :
    SkipReturns (Binary.reader strict) t ((), ⟨size, input, fin⟩) none s' ↔ ∃ v b rest, v.ty = t ∧ input = b ++ rest ∧ BinWire v b ∧ s' = ((), ⟨size, rest, fin⟩) := by
  constructor
  · intro h
    obtain ⟨v, hv, hh, _⟩ := (Binary.coherent strict hsize).skip ⟨input, rfl⟩ h
    obtain ⟨b, rest, h1, h2, h3⟩ := (C62_value_binary strict v size hsize input fin s').1 hh
    exact ⟨v, b, rest, hv, h1, h2, h3⟩
  · rintro ⟨v, b, rest, rfl, h1, h2, h3⟩
    exact C03_skip_any _ v _ _ ((C62_value_binary strict v size hsize input fin s').2 ⟨b, rest, h1, h2, h3⟩)

/-- **C62**: Skip on a compact reader, likewise. -/
theorem C62_skip_compact (t : WType) (c : Compact.RState) (hc : c.boolField = .none) (size : Nat) (hsize : 16 ≤ size) (input : Bytes) (e : Err) (s' : Compact.RState × Flat) :
    SkipReturns Compact.reader t (c, ⟨size, input, .err e⟩) none s' ↔ ∃ v b rest, v.ty = t ∧ input = b ++ rest ∧ CompactWire v b ∧ s' = (c, ⟨size, rest, .err e⟩) := by
  constructor
  · intro h
    obtain ⟨v, hv, hh, _⟩ := (Compact.coherent hsize).skip ⟨c, input, rfl⟩ h
    obtain ⟨b, rest, h1, h2, h3⟩ := (C62_value_compact v c hc size hsize input e s').1 hh
    exact ⟨v, b, rest, hv, h1, h2, h3⟩
  · rintro ⟨v, b, rest, rfl, h1, h2, h3⟩
    exact C03_skip_any _ v _ _ ((C62_value_compact v c hc size hsize input e s').2 ⟨b, rest, h1, h2, h3⟩)

/-- **C62**: on every other input that ends, Skip returns an error. -/
theorem C62_skip_rejects (strict : Bool) (t : WType) (c : Compact.RState) (hc : c.boolField = .none) (size : Nat) (hsize : 16 ≤ size) (input : Bytes) (e : Err) :
    ((¬ ∃ v b rest, v.ty = t ∧ input = b ++ rest ∧ BinWire v b) → ∃ err s', SkipReturns (Binary.reader strict) t ((), ⟨size, input, .err e⟩) (some err) s') ∧
    ((¬ ∃ v b rest, v.ty = t ∧ input = b ++ rest ∧ CompactWire v b) → ∃ err s', SkipReturns Compact.reader t (c, ⟨size, input, .err e⟩) (some err) s') := by
  obtain ⟨⟨x, s1, h1⟩, y, s2, h2⟩ := C49_skip strict t c size hsize input e
  constructor
  · intro h
    cases x with
    | none =>
      obtain ⟨v, b, rest, h3, h4, h5, _⟩ := (C62_skip_binary strict t size hsize input (.err e) s1).1 h1
      exact absurd ⟨v, b, rest, h3, h4, h5⟩ h
    | some err => exact ⟨err, s1, h1⟩
  · intro h
    cases y with
    | none =>
      obtain ⟨v, b, rest, h3, h4, h5, _⟩ := (C62_skip_compact t c hc size hsize input e s2).1 h2
      exact absurd ⟨v, b, rest, h3, h4, h5⟩ h
    | some err => exact ⟨err, s2, h2⟩

/-- **C62**: where a value ends is determined by its type and the bytes: no byte sequence for a value is a proper prefix of one for another value of the same type. -/
theorem C62_prefix_free (v v' : TVal) (ht : v.ty = v'.ty) (b b' rest rest' : Bytes) (hi : b ++ rest = b' ++ rest') :
    (BinWire v b → BinWire v' b' → b = b' ∧ rest = rest') ∧ (CompactWire v b → CompactWire v' b' → b = b' ∧ rest = rest') := by
  have fin : rest = rest' → b = b' ∧ rest = rest' := by
    rintro rfl
    exact ⟨List.append_cancel_right hi, rfl⟩
  constructor
  · intro h1 h2
    have k1 := (C62_skip_binary true v.ty 16 (by decide) (b ++ rest) .block ((), ⟨16, rest, .block⟩)).2 ⟨v, b, rest, rfl, rfl, h1, rfl⟩
    have k2 := (C62_skip_binary true v.ty 16 (by decide) (b ++ rest) .block ((), ⟨16, rest', .block⟩)).2 ⟨v', b', rest', ht.symm, hi, h2, rfl⟩
    have := (k1.unique k2).2
    simp only [Prod.mk.injEq, Flat.mk.injEq] at this
    exact fin this.2.2.1
  · intro h1 h2
    have k1 := (C62_skip_compact v.ty {} rfl 16 (by decide) (b ++ rest) .eof ({}, ⟨16, rest, .err .eof⟩)).2 ⟨v, b, rest, rfl, rfl, h1, rfl⟩
    have k2 := (C62_skip_compact v.ty {} rfl 16 (by decide) (b ++ rest) .eof ({}, ⟨16, rest', .err .eof⟩)).2 ⟨v', b', rest', ht.symm, hi, h2, rfl⟩
    have := (k1.unique k2).2
    simp only [Prod.mk.injEq, Flat.mk.injEq] at this
    exact fin this.2.2.1

/-! ## Unmarshal -/

/-- For any Reader of which the bytes of a value are known. -/
theorem unmarshal_exact {S : Type} {lim : Nat} {r : Rdr S} {ok : S → Prop} (hco : Coherent lim r ok) (env : Env) (p t : TypeId) (hp : (env.type p).kind = .ptr t) (hacc : Acc (InPart env) t) (hg : AllGood env t)
    (hd : ∀ t', Within env t' t → DistinctIds env t') (w : WType) (hw : WireTypeOf env t w) (old : GoVal) (ht : HasType env t old) (s s' : S) (hs : ok s) (hwf : ∀ tv, Holds r tv s s' → WF lim tv) :
    (∃ x', UnmarshalReturns env r (.val p (.ptr old)) s none x' s') ↔ ∃ tv, tv.ty = w ∧ Holds r tv s s' ∧ ¬ ∃ bad t', Mismatch env t tv bad t' := by
  constructor
  · rintro ⟨x', h⟩
    obtain ⟨tv, rfl, hh, _⟩ := hco.unmarshal hp hw hs h
    refine ⟨tv, rfl, hh, ?_⟩
    rintro ⟨bad, t', hm⟩
    obtain ⟨v, _, hdec⟩ := C51_success env r p t hp tv hw s s' s' hh old x' h
    exact hm.not_decodes hd old v hdec
  · rintro ⟨tv, rfl, hh, hm⟩
    rcases C51_outcome env r p t hp hacc hg hd lim tv (hwf tv hh) hw s s' hh old ht with ⟨_, v, h, _⟩ | ⟨bad, t', _, _, h, _⟩
    · exact ⟨_, h⟩
    · exact absurd ⟨bad, t', h⟩ hm

/-- **C62**: Unmarshal from a binary reader returns nil exactly if the next bytes stand for a value of the wire type of the Go type, in which no value of the wrong wire type is where a declared field or an element
is expected; it consumes exactly these. -/
theorem C62_unmarshal_binary (env : Env) (p t : TypeId) (hp : (env.type p).kind = .ptr t) (hacc : Acc (InPart env) t) (hg : AllGood env t) (hd : ∀ t', Within env t' t → DistinctIds env t') (w : WType)
    (hw : WireTypeOf env t w) (old : GoVal) (ht : HasType env t old) (strict : Bool) (size : Nat) (hsize : 16 ≤ size) (input : Bytes) (fin : End) (s' : Unit × Flat) :
    (∃ x', UnmarshalReturns env (Binary.reader strict) (.val p (.ptr old)) ((), ⟨size, input, fin⟩) none x' s') ↔
      ∃ tv b rest, tv.ty = w ∧ input = b ++ rest ∧ BinWire tv b ∧ s' = ((), ⟨size, rest, fin⟩) ∧ ¬ ∃ bad t', Mismatch env t tv bad t' := by
  rw [unmarshal_exact (Binary.coherent strict hsize) env p t hp hacc hg hd w hw old ht _ s' ⟨input, rfl⟩ fun tv hh => by
    obtain ⟨b, _, _, h, _⟩ := (C62_value_binary strict tv size hsize input fin s').1 hh
    exact Binary.wire_wf tv b h]
  constructor
  · rintro ⟨tv, h1, h2, h3⟩
    obtain ⟨b, rest, h4, h5, h6⟩ := (C62_value_binary strict tv size hsize input fin s').1 h2
    exact ⟨tv, b, rest, h1, h4, h5, h6, h3⟩
  · rintro ⟨tv, b, rest, h1, h4, h5, h6, h3⟩
    exact ⟨tv, h1, (C62_value_binary strict tv size hsize input fin s').2 ⟨b, rest, h4, h5, h6⟩, h3⟩

/-- **C62**: Unmarshal from a compact reader, likewise. -/
theorem C62_unmarshal_compact (env : Env) (p t : TypeId) (hp : (env.type p).kind = .ptr t) (hacc : Acc (InPart env) t) (hg : AllGood env t) (hd : ∀ t', Within env t' t → DistinctIds env t') (w : WType)
    (hw : WireTypeOf env t w) (old : GoVal) (ht : HasType env t old) (c : Compact.RState) (hc : c.boolField = .none) (size : Nat) (hsize : 16 ≤ size) (input : Bytes) (e : Err) (s' : Compact.RState × Flat) :
    (∃ x', UnmarshalReturns env Compact.reader (.val p (.ptr old)) (c, ⟨size, input, .err e⟩) none x' s') ↔
      ∃ tv b rest, tv.ty = w ∧ input = b ++ rest ∧ CompactWire tv b ∧ s' = (c, ⟨size, rest, .err e⟩) ∧ ¬ ∃ bad t', Mismatch env t tv bad t' := by
  rw [unmarshal_exact (Compact.coherent hsize) env p t hp hacc hg hd w hw old ht _ s' ⟨c, input, rfl⟩ fun tv hh => by
    obtain ⟨b, _, _, h, _⟩ := (C62_value_compact tv c hc size hsize input e s').1 hh
    exact Compact.wire_wf tv b h]
  constructor
  · rintro ⟨tv, h1, h2, h3⟩
    obtain ⟨b, rest, h4, h5, h6⟩ := (C62_value_compact tv c hc size hsize input e s').1 h2
    exact ⟨tv, b, rest, h1, h4, h5, h6, h3⟩
  · rintro ⟨tv, b, rest, h1, h4, h5, h6, h3⟩
    exact ⟨tv, h1, (C62_value_compact tv c hc size hsize input e s').2 ⟨b, rest, h4, h5, h6⟩, h3⟩

/-- **C62**: whatever Unmarshal accepts, the variable then holds what the value that the bytes stand for decodes to. -/
theorem C62_unmarshal_meaning (env : Env) (p t : TypeId) (hp : (env.type p).kind = .ptr t) (tv : TVal) (hw : WireTypeOf env t tv.ty) (old : GoVal) (strict : Bool) (c : Compact.RState) (hc : c.boolField = .none)
    (size : Nat) (hsize : 16 ≤ size) (b rest : Bytes) (fin : End) (e : Err) (x' : AnyVal) :
    (∀ s', BinWire tv b → UnmarshalReturns env (Binary.reader strict) (.val p (.ptr old)) ((), ⟨size, b ++ rest, fin⟩) none x' s' → ∃ v, x' = .val p (.ptr v) ∧ Decodes env t old tv v) ∧
    (∀ s', CompactWire tv b → UnmarshalReturns env Compact.reader (.val p (.ptr old)) (c, ⟨size, b ++ rest, .err e⟩) none x' s' → ∃ v, x' = .val p (.ptr v) ∧ Decodes env t old tv v) :=
  ⟨fun s' hb h => C51_success env _ p t hp tv hw _ _ s' ((C62_value_binary strict tv size hsize _ fin _).2 ⟨b, rest, rfl, hb, rfl⟩) old x' h,
    fun s' hb h => C51_success env _ p t hp tv hw _ _ s' ((C62_value_compact tv c hc size hsize _ e _).2 ⟨b, rest, rfl, hb, rfl⟩) old x' h⟩

/-! ## The encodings are among the accepted byte sequences -/

/-- **C62**: the bytes that the specification prescribes for a value stand for it. -/
theorem C62_canonical (v : TVal) : (WF (2 ^ 31 - 1) v → BinWire v (encBin v)) ∧ (WF (2 ^ 63 - 1) v → TypesOK v → CompactWire v (encCompact v)) := by
  constructor
  · intro hw
    obtain ⟨b, rest, h1, h2, h3⟩ := (C62_value_binary true v 16 (by decide) _ .block _).1 (Binary.holds true 16 (by decide) .block v hw [])
    cases h3
    rw [List.append_nil, List.append_nil] at h1
    exact h1 ▸ h2
  · intro hw ht
    obtain ⟨b, rest, h1, h2, h3⟩ := (C62_value_compact v {} rfl 16 (by decide) _ .eof _).1 (Compact.holds 16 (by decide) (.err .eof) v hw ht {} [] rfl (.inl (.inl ⟨_, rfl⟩)))
    cases h3
    rw [List.append_nil, List.append_nil] at h1
    exact h1 ▸ h2

/-- **C62**: so are the message headers that the specification prescribes; a strict header also for a reader that is not strict. -/
theorem C62_canonical_message (h : MessageHeader) :
    (∀ w r, (w = r ∨ (w = true ∧ r = false)) → h.name.length < 2 ^ 31 → BinMessage r h (encBinMessage w h)) ∧
    (h.type.toNat < 8 → h.name.length < 2 ^ 63 → CompactMessage h (encCompactMessage h)) := by
  constructor
  · rintro w r hwr hn
    cases w with
    | true => exact .inl ⟨0, hn, rfl⟩
    | false =>
      rcases hwr with rfl | ⟨h, _⟩
      · exact .inr ⟨rfl, hn, rfl⟩
      · cases h
  · intro ht hn
    have key : ∀ n, n < 2 ^ 64 → UVarint n (leb n) := fun n hn =>
      ⟨(isLeb_leb n).1, leb_length_le 9 n (Nat.lt_of_lt_of_le hn (by decide)), (isLeb_leb n).2, hn⟩
    exact ⟨ht, hn, h.id.toNat, leb h.id.toNat, leb h.name.length, key _ (Nat.lt_trans h.id.isLt (by decide)), by simp, key _ (Nat.lt_trans hn (by decide)), rfl⟩

/-! ## Examples -/

/-- A header with something else between version and type. -/
example : Gives (Binary.reader true) .messageBegin ((), ⟨16, [0x80, 1, 0x55, 1, 0, 0, 0, 1, 0x70, 0, 0, 0, 5, 9], .block⟩) ⟨[0x70], 1, 5⟩ ((), ⟨16, [9], .block⟩) :=
  (C62_message_binary true 16 (by decide) _ _ _ _).2 ⟨[0x80, 1, 0x55, 1, 0, 0, 0, 1, 0x70, 0, 0, 0, 5], [9], rfl, .inl ⟨0x55, by decide, by decide⟩, rfl⟩

/-- A header with padded varints; of the sequence id the low 32 bits are taken. -/
example : Gives Compact.reader .messageBegin ({}, ⟨16, [0x82, 0x21, 0x85, 0x80, 0x80, 0x80, 0x10, 0x81, 0x00, 0x70, 9], .err .eof⟩) ⟨[0x70], 1, 5⟩ ({}, ⟨16, [9], .err .eof⟩) :=
  (C62_message_compact {} 16 (by decide) _ _ _ _).2 ⟨[0x82, 0x21, 0x85, 0x80, 0x80, 0x80, 0x10, 0x81, 0x00, 0x70], [9], rfl, ⟨by decide, by decide, 2 ^ 32 + 5, [0x85, 0x80, 0x80, 0x80, 0x10], [0x81, 0x00], ⟨by simp [IsLeb], by decide, by decide, by decide⟩, by decide,
    ⟨by simp [IsLeb], by decide, by decide, by decide⟩, by decide⟩, rfl⟩

/-- A list that announces −1 elements, and a bool that is 7: accepted by the binary reader. -/
example : SkipReturns (Binary.reader true) Ty.struct ((), ⟨16, [15, 0, 1, 8, 255, 255, 255, 255, 2, 0, 2, 7, 0, 9], .block⟩) none ((), ⟨16, [9], .block⟩) :=
  (C62_skip_binary true Ty.struct 16 (by decide) _ _ _).2 ⟨.struct [] [([], 1, .list Ty.i32 []), ([], 2, .bool true)], [15, 0, 1, 8, 255, 255, 255, 255, 2, 0, 2, 7, 0], [9], rfl, rfl,
    ⟨[8, 255, 255, 255, 255], [2, 0, 2, 7, 0], by decide, ⟨[255, 255, 255, 255], [], rfl, ⟨0xffffffff, by decide, by decide, by decide⟩, rfl⟩,
      [7], [0], by decide, ⟨7, rfl, by decide⟩, rfl⟩, rfl⟩

/-- A padded varint, a list in the long form for want of elements, a stop byte with something in its upper half: accepted by the compact reader. -/
example : SkipReturns Compact.reader Ty.struct ({}, ⟨16, [0x15, 0x82, 0x00, 0x19, 0xf5, 0x00, 0x70, 9], .err .eof⟩) none ({}, ⟨16, [9], .err .eof⟩) :=
  (C62_skip_compact Ty.struct {} rfl 16 (by decide) _ _ _).2 ⟨.struct [] [([], 1, .i32 1), ([], 2, .list Ty.i32 [])], [0x15, 0x82, 0x00, 0x19, 0xf5, 0x00, 0x70], [9], rfl, rfl,
    ⟨[0x15], [0x82, 0x00], [0x19, 0xf5, 0x00, 0x70], rfl, .inl ⟨1, by decide, by decide, by decide, by decide⟩,
      (show SVarint _ _ from ⟨2, ⟨by simp [IsLeb], by decide, by decide, by decide⟩, by decide⟩),
      [0x19], [0xf5, 0x00], [0x70], rfl, .inl ⟨1, by decide, by decide, by decide, by decide⟩,
      (show CompactWire (.list Ty.i32 []) _ from ⟨[0xf5, 0x00], [], rfl, ⟨5, .inr (.inr ⟨by decide, by decide⟩), .inr ⟨0, [0x00], ⟨by simp [IsLeb], by decide, by decide, by decide⟩, by decide, by decide⟩⟩, rfl⟩),
      7, by decide, by decide⟩, rfl⟩

/-- The hypothesis of the rejection: no bytes that begin like these stand for a list. -/
example : ¬ ∃ v b rest, v.ty = Ty.list ∧ [0x1e, 0x00] = b ++ rest ∧ CompactWire v b := by
  rintro ⟨v, b, rest, h1, h2, h3⟩
  have h := (C62_skip_compact Ty.list {} rfl 16 (by decide) _ .eof _).2 ⟨v, b, rest, h1, h2, h3, rfl⟩
  obtain ⟨n, h⟩ := h
  have h := h (n + 1) (by omega)
  revert h
  exact fun h => absurd h (by intro h; cases h)

theorem Ex.unmarshals_seven : UnmarshalReturns Ex.env Compact.reader (.val 4 (.ptr Ex.valP)) ({}, ⟨16, encCompact (.struct [] [([], 1, .i32 7)]) ++ [1], .err .eof⟩) none
    (.val 4 (.ptr (.struct [.map [(.str (ascii "k"), .i64 7)], .i32 7, .ptr (.str (ascii "hi")), .other 0, .slice [.str (ascii "x"), .str []] [], .other 3, .bool true]))) ({}, ⟨16, [1], .err .eof⟩) :=
  ⟨20, fun fuel hf => ((Unmarshal_le Ex.env 20 fuel hf _).run _ _).done (sameResult_eq (by decide +kernel))⟩

/-- The hypotheses of the theorems about Unmarshal hold of `Ex.P`, and it accepts the field 1 with a padded value, in the long form. -/
example : ∃ x', UnmarshalReturns Ex.env Compact.reader (.val 4 (.ptr Ex.valQ)) ({}, ⟨16, [0x05, 0x02, 0x8e, 0x00, 0x70, 9], .err .eof⟩) none x' ({}, ⟨16, [9], .err .eof⟩) :=
  (C62_unmarshal_compact Ex.env 4 0 rfl Ex.acc_P Ex.allGood_P Ex.distinct_P Ty.struct (.struct rfl) Ex.valQ Ex.hasType_valQ {} rfl 16 (by decide) _ _ _).2
    ⟨.struct [] [([], 1, .i32 7)], [0x05, 0x02, 0x8e, 0x00, 0x70], [9], rfl, rfl,
      ⟨[0x05, 0x02], [0x8e, 0x00], [0x70], rfl, .inr ⟨[0x02], ⟨2, ⟨by simp [IsLeb], by decide, by decide, by decide⟩, by decide⟩, by decide⟩,
        (show SVarint _ _ from ⟨14, ⟨by simp [IsLeb], by decide, by decide, by decide⟩, by decide⟩), 7, by decide, by decide⟩, rfl, by
        rintro ⟨bad, t', hm⟩
        obtain ⟨v, _, h⟩ := C51_success Ex.env Compact.reader 4 0 rfl _ (.struct rfl) _ _ _ (Compact.holds 16 (by decide) (.err .eof) (.struct [] [([], 1, .i32 7)]) (by simp [WF, WFFields]) (by simp [TypesOK, TypesOKFields]) {} [1] rfl
          (.inl (.inl ⟨_, rfl⟩))) Ex.valP _ Ex.unmarshals_seven
        exact hm.not_decodes Ex.distinct_P _ v h⟩

/-- The same for the binary reader: field 1, read from a transport that stays idle afterwards. -/
example : ∃ x', UnmarshalReturns Ex.env (Binary.reader true) (.val 4 (.ptr Ex.valQ)) ((), ⟨16, [8, 0, 1, 0, 0, 0, 7, 0, 9], .block⟩) none x' ((), ⟨16, [9], .block⟩) :=
  (C62_unmarshal_binary Ex.env 4 0 rfl Ex.acc_P Ex.allGood_P Ex.distinct_P Ty.struct (.struct rfl) Ex.valQ Ex.hasType_valQ true 16 (by decide) _ _ _).2
    ⟨.struct [] [([], 1, .i32 7)], [8, 0, 1, 0, 0, 0, 7, 0], [9], rfl, rfl, ⟨[0, 0, 0, 7], [0], by decide, by simp only [BinWire]; decide, rfl⟩, rfl, by
      rintro ⟨bad, t', hm⟩
      obtain ⟨v, _, h⟩ := C51_success Ex.env Compact.reader 4 0 rfl _ (.struct rfl) _ _ _ (Compact.holds 16 (by decide) (.err .eof) (.struct [] [([], 1, .i32 7)]) (by simp [WF, WFFields]) (by simp [TypesOK, TypesOKFields]) {} [1] rfl
        (.inl (.inl ⟨_, rfl⟩))) Ex.valP _ Ex.unmarshals_seven
      exact hm.not_decodes Ex.distinct_P _ v h⟩

/-- The hypotheses of the theorem about where a value ends and of the one about encodings: the same list, once with size −1. -/
example : BinWire (.list Ty.i32 []) (encBin (.list Ty.i32 [])) ∧ BinWire (.list Ty.i32 []) [8, 255, 255, 255, 255] ∧ BinWire sample (encBin sample) ∧ CompactWire sample (encCompact sample) := by
  refine ⟨(C62_canonical _).1 (by simp [WF, WFElems]), ⟨[255, 255, 255, 255], [], rfl, ⟨0xffffffff, by decide, by decide, by decide⟩, rfl⟩, (C62_canonical _).1 ?_, (C62_canonical _).2 ?_ ?_⟩ <;>
    simp [sample, WF, WFFields, WFEntries, WFElems, TypesOK, TypesOKFields, TypesOKEntries, TypesOKElems, ty, ValidTy]

end GoThrift
