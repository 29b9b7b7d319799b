import Verif.Proof.CompactExact

/-!
# The bytes the compact reader takes for a value, exactly
-/

namespace GoThrift

open Spec Spec.TVal

namespace Compact

variable {sz : Nat} {fin : End} {e : Err}

theorem gives_iff {o : ROp} {P : RState → o.Ans → Bytes → RState → Prop} (h : Exact sz fin (impl o) P) (c : RState) (input : Bytes) (a : o.Ans) (s' : RState × Flat) :
    Gives reader o (c, ⟨sz, input, fin⟩) a s' ↔ ∃ b rest c', input = b ++ rest ∧ P c a b c' ∧ s' = (c', ⟨sz, rest, fin⟩) := by
  obtain ⟨c', f'⟩ := s'
  have h := h c a c' input f'
  simp only [Gives, reader]
  constructor
  · intro hr
    cases hx : (impl o).run c ⟨sz, input, fin⟩ with
    | done x =>
      obtain ⟨⟨x, c1⟩, f⟩ := x
      rw [hx] at hr
      simp only [Out.bind_done, Out.done.injEq, Prod.mk.injEq] at hr
      obtain ⟨rfl, rfl, rfl⟩ := hr
      obtain ⟨b, rest, h1, h2, rfl⟩ := h.1 hx
      exact ⟨b, rest, c1, h1, h2, rfl⟩
    | blocked => rw [hx] at hr; cases hr
    | diverged => rw [hx] at hr; cases hr
    | panicked => rw [hx] at hr; cases hr
  · rintro ⟨b, rest, c1, h1, h2, h3⟩
    cases h3
    rw [h.2 ⟨b, rest, h1, h2, rfl⟩]; rfl

/-- For methods that leave the fields alone. -/
theorem gives_plain {o : ROp} {P : o.Ans → Bytes → Prop} (h : Exact sz fin (impl o) fun c a b c' => P a b ∧ c' = c) (c : RState) (input : Bytes) (a : o.Ans) (s' : RState × Flat) :
    Gives reader o (c, ⟨sz, input, fin⟩) a s' ↔ ∃ b rest, input = b ++ rest ∧ P a b ∧ s' = (c, ⟨sz, rest, fin⟩) := by
  rw [gives_iff h]
  constructor
  · rintro ⟨b, rest, c', h1, ⟨h2, rfl⟩, h3⟩; exact ⟨b, rest, h1, h2, h3⟩
  · rintro ⟨b, rest, h1, h2, h3⟩; exact ⟨b, rest, c, h1, ⟨h2, rfl⟩, h3⟩

theorem gives_end {o : ROp} {x : o.Ans} (h : impl o = RM.ok x) (s : RState × Flat) (a : o.Ans) (s' : RState × Flat) : Gives reader o s a s' ↔ a = x ∧ s' = s := by
  obtain ⟨c, f⟩ := s
  simp only [Gives, reader, h, RM.run_ok, Out.bind_done, Out.done.injEq, Prod.mk.injEq, Except.ok.injEq]
  constructor
  · rintro ⟨rfl, rfl⟩; exact ⟨rfl, rfl⟩
  · rintro ⟨rfl, rfl⟩; exact ⟨rfl, rfl⟩

/-- A reader over a stream that ends with the error `e`, with a buffer of size `sz`. -/
def Over (sz : Nat) (e : Err) (s : RState × Flat) : Prop := ∃ c b, s = (c, ⟨sz, b, .err e⟩)

theorem keeps (hsz : 16 ≤ sz) {o : ROp} {s : RState × Flat} {a : o.Ans} {s' : RState × Flat} (hs : Over sz e s) (h : Gives reader o s a s') : Over sz e s' := by
  obtain ⟨c, b, rfl⟩ := hs
  have key : ∀ {o : ROp} {P : RState → o.Ans → Bytes → RState → Prop} {a : o.Ans}, Exact sz (.err e) (impl o) P → Gives reader o (c, ⟨sz, b, .err e⟩) a s' → Over sz e s' := by
    intro o P a he h
    obtain ⟨b1, rest, c', _, _, rfl⟩ := (gives_iff he _ _ _ _).1 h
    exact ⟨c', rest, rfl⟩
  cases o with
  | messageBegin => exact key (o := .messageBegin) (exact_message hsz e) h
  | messageEnd => exact key (Exact.ok _) h
  | structBegin => exact key exact_structBegin h
  | structEnd => exact key exact_structEnd h
  | fieldBegin => exact key exact_field h
  | fieldEnd => exact key (Exact.ok _) h
  | mapBegin => exact key exact_map h
  | mapEnd => exact key (Exact.ok _) h
  | setBegin => exact key exact_set h
  | setEnd => exact key (Exact.ok _) h
  | listBegin => exact key exact_set h
  | listEnd => exact key (Exact.ok _) h
  | bool => exact key exact_bool h
  | byte => exact key Exact.readByte h
  | double => exact key (exact_double hsz) h
  | i16 => exact key exact_i16 h
  | i32 => exact key exact_i32 h
  | i64 => exact key exact_i64 h
  | string => exact key (exact_string hsz) h
  | bytes buf => exact key (exact_bytes hsz buf) h
  | uuid => exact key exact_uuid h
  | skipString => exact key (exact_skipString hsz) h
  | skipUUID => exact key exact_skipUUID h

theorem loopCount_eq (n : BitVec 64) : loopCount n = compactCount n.toNat := by
  have := n.isLt
  rw [loopCount, compactCount, BitVec.toInt_eq_toNat_cond]
  split <;> split <;> omega

theorem count_le (n : BitVec 64) : loopCount n ≤ 2 ^ 63 - 1 := by
  rw [loopCount_eq, compactCount]; split <;> omega

theorem coherent (hsz : 16 ≤ sz) : Coherent (2 ^ 63 - 1) reader (Over sz e) where
  keeps := keeps hsz
  string := by
    rintro _ v s' ⟨c, input, rfl⟩ h
    obtain ⟨b, rest, rfl, ⟨w, h1, h2, h3⟩, rfl⟩ := (gives_plain (exact_string hsz) _ _ _ _).1 h
    exact ⟨by omega, fun buf => (gives_plain (exact_bytes hsz buf) _ _ _ _).2 ⟨b, rest, rfl, ⟨v, w, h1, h2, h3, rfl⟩, rfl⟩,
      (gives_plain (P := fun _ b => _) (exact_skipString hsz) _ _ _ _).2 ⟨b, rest, rfl, ⟨v, w, h1, h2, h3⟩, rfl⟩⟩
  bytes := by
    rintro _ buf v s' ⟨c, input, rfl⟩ h
    obtain ⟨b, rest, rfl, ⟨v', w, h1, h2, h3, _⟩, rfl⟩ := (gives_plain (exact_bytes hsz buf) _ _ _ _).1 h
    exact ⟨v', (gives_plain (exact_string hsz) _ _ _ _).2 ⟨b, rest, rfl, ⟨w, h1, h2, h3⟩, rfl⟩⟩
  skipString := by
    rintro _ a s' ⟨c, input, rfl⟩ h
    obtain ⟨b, rest, rfl, ⟨v', w, h1, h2, h3⟩, rfl⟩ := (gives_plain (P := fun _ b => _) (exact_skipString hsz) _ _ _ _).1 h
    exact ⟨v', (gives_plain (exact_string hsz) _ _ _ _).2 ⟨b, rest, rfl, ⟨w, h1, h2, h3⟩, rfl⟩⟩
  uuid := by
    rintro _ v s' ⟨c, input, rfl⟩ h
    obtain ⟨b, rest, rfl, ⟨h1, rfl⟩, rfl⟩ := (gives_plain exact_uuid _ _ _ _).1 h
    exact ⟨h1, (gives_plain (P := fun _ b => b.length = 16) exact_skipUUID _ _ _ _).2 ⟨_, rest, rfl, h1, rfl⟩⟩
  skipUUID := by
    rintro _ a s' ⟨c, input, rfl⟩ h
    obtain ⟨b, rest, rfl, h1, rfl⟩ := (gives_plain (P := fun _ b => b.length = 16) exact_skipUUID _ _ _ _).1 h
    exact ⟨b, (gives_plain exact_uuid _ _ _ _).2 ⟨_, rest, rfl, ⟨h1, rfl⟩, rfl⟩⟩
  map := fun _ _ => count_le _
  set := fun _ _ => count_le _
  list := fun _ _ => count_le _

/-! ## Headers of containers -/

theorem compactType_lt {t : WType} {code : Nat} (h : CompactType t code) : code < 16 := by
  rcases h with ⟨rfl, _⟩ | ⟨rfl, _⟩ | ⟨h, rfl⟩
  · omega
  · omega
  · exact (code_spec t h).2.2.1

theorem wire_ok {t : WType} {code : Nat} (h : CompactType t code) : (BitVec.ofNat 8 code).toNat = code ∧ wire (BitVec.ofNat 8 code) = .ok t := by
  have hlt := compactType_lt h
  have : (BitVec.ofNat 8 code).toNat = code := by rw [BitVec.toNat_ofNat]; omega
  exact ⟨this, (wire_iff _ _ (by omega)).2 (by rwa [this])⟩

theorem list_iff (et : WType) (n : Nat) (b : Bytes) : (∃ a : SetHeader, SetOK a b ∧ loopCount a.size = n ∧ a.element = et) ↔ CompactList et n b := by
  constructor
  · rintro ⟨⟨e, m⟩, ⟨code, hc, hw, h⟩, h1, h2⟩
    dsimp only at hw h h1 h2; subst h2
    rw [loopCount_eq] at h1
    refine ⟨code.toNat, (wire_iff _ _ hc).1 hw, ?_⟩
    rcases h with ⟨h2, rfl⟩ | ⟨w, h2, rfl⟩
    · rw [compactCount, if_pos (by omega)] at h1
      subst h1
      exact .inl ⟨h2, rfl⟩
    · exact .inr ⟨_, w, h2, h1.symm, rfl⟩
  · rintro ⟨code, hc, h⟩
    obtain ⟨h1, h2⟩ := wire_ok hc
    have hlt := compactType_lt hc
    rcases h with ⟨h3, rfl⟩ | ⟨m, w, h3, rfl, rfl⟩
    · have hn : (BitVec.ofNat 64 n).toNat = n := by rw [BitVec.toNat_ofNat]; omega
      exact ⟨⟨et, BitVec.ofNat 64 n⟩, ⟨BitVec.ofNat 8 code, by omega, h2, .inl ⟨by dsimp only; omega, by dsimp only; rw [h1, hn]⟩⟩,
        by rw [loopCount_eq, hn, compactCount, if_pos (by omega)], rfl⟩
    · have hm : (BitVec.ofNat 64 m).toNat = m := by rw [BitVec.toNat_ofNat, Nat.mod_eq_of_lt h3.2.2.2]
      exact ⟨⟨et, BitVec.ofNat 64 m⟩, ⟨BitVec.ofNat 8 code, by omega, h2, .inr ⟨w, by dsimp only; rwa [hm], by rw [h1]⟩⟩, by rw [loopCount_eq, hm], rfl⟩

theorem map_iff (kt vt : WType) (n : Nat) (b : Bytes) : (∃ a : MapHeader, MapOK a b ∧ loopCount a.size = n ∧ (n ≠ 0 → a.key = kt ∧ a.value = vt)) ↔ CompactMap kt vt n b := by
  constructor
  · rintro ⟨⟨k, v, m⟩, h, h1, h2⟩
    rw [loopCount_eq] at h1
    rcases h with ⟨h, h3⟩ | ⟨h3, w, k', v', hk, hv, h4, h5, h6, rfl⟩
    · cases h
      exact .inl ⟨by rw [← h1]; rfl, h3⟩
    · dsimp only at h1 h2 h3 h4 h5 h6
      refine .inr ⟨m.toNat, w, k'.toNat, v'.toNat, k, v, fun hm => h3 (BitVec.eq_of_toNat_eq hm), h4, h1.symm, (wire_iff _ _ hk).1 h5, (wire_iff _ _ hv).1 h6, h2, rfl⟩
  · rintro (⟨rfl, h⟩ | ⟨m, w, k, v, kt', vt', h0, h1, rfl, hk, hv, h2, rfl⟩)
    · exact ⟨⟨Ty.stop, Ty.stop, 0⟩, .inl ⟨rfl, h⟩, rfl, fun h => absurd rfl h⟩
    · have hm : (BitVec.ofNat 64 m).toNat = m := by rw [BitVec.toNat_ofNat, Nat.mod_eq_of_lt h1.2.2.2]
      obtain ⟨hk1, hk2⟩ := wire_ok hk
      obtain ⟨hv1, hv2⟩ := wire_ok hv
      have hlt := compactType_lt hk
      have hlt2 := compactType_lt hv
      refine ⟨⟨kt', vt', BitVec.ofNat 64 m⟩, .inr ⟨fun h => h0 ?_, w, BitVec.ofNat 8 k, BitVec.ofNat 8 v, by omega, by omega, by dsimp only; rwa [hm], hk2, hv2, by rw [hk1, hv1]⟩, by rw [loopCount_eq, hm], h2⟩
      have := congrArg BitVec.toNat h
      rw [hm] at this; simpa using this

/-- The code in the header of a field says which type the value has, and for bool, which value. -/
theorem field_code (v : TVal) (code : Byte) (hc : code.toNat < 16) (hw : wire code = .ok v.ty) (h : v.ty ≠ Ty.bool) : code = compactFieldCode v := by
  have hv : compactFieldCode v = compactCode v.ty := by
    cases v with
    | bool b => exact absurd rfl h
    | _ => rfl
  rw [hv]
  have hval := validTy_ty v
  revert hval h hw
  generalize v.ty = t
  revert code t; decide +kernel

theorem bool_code (code : Byte) (hc : code.toNat < 16) (hw : wire code = .ok Ty.bool) : code = 1 ∨ code = 2 := by
  revert code; decide +kernel

/-! ## Values -/

/-- The reader holds the value exactly in front of its bytes. -/
def Wire (sz : Nat) (e : Err) (t : TVal) : Prop :=
  ∀ c input s', c.boolField = .none → (Holds reader t (c, ⟨sz, input, .err e⟩) s' ↔ ∃ b rest, input = b ++ rest ∧ CompactWire t b ∧ s' = (c, ⟨sz, rest, .err e⟩))

theorem elems_wire (et : WType) (es : List TVal) (hall : ∀ v ∈ es, Wire sz e v) (c : RState) (input : Bytes) (s' : RState × Flat) (hc : c.boolField = .none) :
    HoldsElems reader et es (c, ⟨sz, input, .err e⟩) s' ↔ ∃ b rest, input = b ++ rest ∧ CompactWireElems et es b ∧ s' = (c, ⟨sz, rest, .err e⟩) := by
  induction es generalizing input with
  | nil =>
    simp only [HoldsElems, CompactWireElems]
    constructor
    · rintro rfl; exact ⟨[], input, rfl, rfl, rfl⟩
    · rintro ⟨b, rest, rfl, rfl, rfl⟩; rfl
  | cons v es ih =>
    have he := hall v (by simp)
    have ih := ih fun e he => hall e (by simp [he])
    simp only [HoldsElems, CompactWireElems]
    constructor
    · rintro ⟨ht, s1, h1, h2⟩
      obtain ⟨b1, rest1, rfl, h3, rfl⟩ := (he _ _ _ hc).1 h1
      obtain ⟨b2, rest2, rfl, h4, rfl⟩ := (ih _).1 h2
      exact ⟨b1 ++ b2, rest2, by simp, ⟨ht, b1, b2, rfl, h3, h4⟩, rfl⟩
    · rintro ⟨b, rest, rfl, ⟨ht, b1, b2, rfl, h3, h4⟩, rfl⟩
      exact ⟨ht, (c, ⟨sz, b2 ++ rest, .err e⟩), (he _ _ _ hc).2 ⟨b1, b2 ++ rest, by simp, h3, rfl⟩, (ih _).2 ⟨b2, rest, rfl, h4, rfl⟩⟩

theorem entries_wire (kt vt : WType) (es : List (TVal × TVal)) (hall : ∀ v ∈ es, Wire sz e v.1 ∧ Wire sz e v.2) (c : RState) (input : Bytes) (s' : RState × Flat) (hc : c.boolField = .none) :
    HoldsEntries reader kt vt es (c, ⟨sz, input, .err e⟩) s' ↔ ∃ b rest, input = b ++ rest ∧ CompactWireEntries kt vt es b ∧ s' = (c, ⟨sz, rest, .err e⟩) := by
  induction es generalizing input with
  | nil =>
    simp only [HoldsEntries, CompactWireEntries]
    constructor
    · rintro rfl; exact ⟨[], input, rfl, rfl, rfl⟩
    · rintro ⟨b, rest, rfl, rfl, rfl⟩; rfl
  | cons x es ih =>
    obtain ⟨k, v⟩ := x
    obtain ⟨hk, hv⟩ := hall (k, v) (by simp)
    have ih := ih fun e he => hall e (by simp [he])
    simp only [HoldsEntries, CompactWireEntries]
    constructor
    · rintro ⟨ht, ht2, s1, s2, h1, h2, h3⟩
      obtain ⟨b1, rest1, rfl, h4, rfl⟩ := (hk _ _ _ hc).1 h1
      obtain ⟨b2, rest2, rfl, h5, rfl⟩ := (hv _ _ _ hc).1 h2
      obtain ⟨b3, rest3, rfl, h6, rfl⟩ := (ih _).1 h3
      exact ⟨b1 ++ b2 ++ b3, rest3, by simp, ⟨ht, ht2, b1, b2, b3, rfl, h4, h5, h6⟩, rfl⟩
    · rintro ⟨b, rest, rfl, ⟨ht, ht2, b1, b2, b3, rfl, h4, h5, h6⟩, rfl⟩
      exact ⟨ht, ht2, (c, ⟨sz, b2 ++ b3 ++ rest, .err e⟩), (c, ⟨sz, b3 ++ rest, .err e⟩), (hk _ _ _ hc).2 ⟨b1, b2 ++ b3 ++ rest, by simp, h4, rfl⟩,
        (hv _ _ _ hc).2 ⟨b2, b3 ++ rest, by simp, h5, rfl⟩, (ih _).2 ⟨b3, rest, rfl, h6, rfl⟩⟩

/-- The id of the last field, or `last` if there is none. -/
def lastId (last : BitVec 16) : List (Bytes × BitVec 16 × TVal) → BitVec 16
  | [] => last
  | (_, id, _) :: fs => lastId id fs

/-- Reading a bool from the header of its field. -/
theorem holds_header_bool (c : RState) (input : Bytes) (v : Bool) (s' : RState × Flat) (hc : c.boolField ≠ .none) :
    Holds reader (.bool v) (c, ⟨sz, input, fin⟩) s' ↔ c.boolField = (if v then .true else .false) ∧ s' = ({ c with boolField := .none }, ⟨sz, input, fin⟩) := by
  simp only [Holds]
  rw [gives_iff exact_bool]
  cases hb : c.boolField with
  | none => exact absurd hb hc
  | true =>
    constructor
    · rintro ⟨b, rest, c', rfl, ⟨rfl, rfl, rfl⟩, rfl⟩; exact ⟨rfl, rfl⟩
    · rintro ⟨h, rfl⟩
      cases v
      · cases h
      · exact ⟨[], input, _, rfl, ⟨rfl, rfl, rfl⟩, rfl⟩
  | false =>
    constructor
    · rintro ⟨b, rest, c', rfl, ⟨rfl, rfl, rfl⟩, rfl⟩; exact ⟨rfl, rfl⟩
    · rintro ⟨h, rfl⟩
      cases v
      · exact ⟨[], input, _, rfl, ⟨rfl, rfl, rfl⟩, rfl⟩
      · cases h

theorem fields_wire (fs : List (Bytes × BitVec 16 × TVal)) (hall : ∀ f ∈ fs, Wire sz e f.2.2) (c : RState) (input : Bytes) (s' : RState × Flat) (hc : c.boolField = .none) :
    HoldsFields reader fs (c, ⟨sz, input, .err e⟩) s' ↔ ∃ b rest, input = b ++ rest ∧ CompactWireFields c.last fs b ∧ s' = ({ c with last := lastId c.last fs }, ⟨sz, rest, .err e⟩) := by
  induction fs generalizing c input with
  | nil =>
    simp only [HoldsFields, CompactWireFields, lastId]
    constructor
    · rintro ⟨h, hg, hs⟩
      obtain ⟨b, rest, c', rfl, ⟨_, ⟨_, _, hd, rfl⟩ | ⟨hn, _⟩⟩, rfl⟩ := (gives_iff exact_field _ _ _ _).1 hg
      · exact ⟨b, rest, rfl, hd, rfl⟩
      · exact absurd hs hn
    · rintro ⟨b, rest, rfl, hd, rfl⟩
      exact ⟨⟨[], Ty.stop, 0⟩, (gives_iff exact_field _ _ _ _).2 ⟨b, rest, c, rfl, ⟨rfl, .inl ⟨rfl, rfl, hd, rfl⟩⟩, rfl⟩, rfl⟩
  | cons f fs ih =>
    obtain ⟨n, id, v⟩ := f
    have hv := hall (n, id, v) (by simp)
    have ih := ih fun e he => hall e (by simp [he])
    simp only [HoldsFields, CompactWireFields, lastId]
    have hfc := fieldCode_spec v
    by_cases hb : v.ty = Ty.bool
    · obtain ⟨x, rfl⟩ : ∃ x, v = .bool x := by
        cases v with
        | bool x => exact ⟨x, rfl⟩
        | _ => exact absurd hb (by simp only [ty]; decide)
      constructor
      · rintro ⟨n, s1, s2, s3, h1, h2, h3, h4⟩
        obtain ⟨b, rest, c', rfl, ⟨_, ⟨hs, _⟩ | ⟨_, code, hlt, hw, hf, rfl⟩⟩, rfl⟩ := (gives_iff exact_field _ _ _ _).1 h1
        · exact absurd hs (ty_ne_stop (.bool x))
        · have hcode : code = compactFieldCode (.bool x) ∧ s2 = ({ c with last := id }, ⟨sz, rest, .err e⟩) := by
            rcases bool_code code hlt hw with rfl | rfl
            · obtain ⟨h5, h6⟩ := (holds_header_bool _ _ _ _ (by simp [BoolField.setBy, CT.boolTrue])).1 h2
              cases x <;> first | (simp [BoolField.setBy, CT.boolTrue] at h5; done) | exact ⟨rfl, by rw [h6, hc]⟩
            · obtain ⟨h5, h6⟩ := (holds_header_bool _ _ _ _ (by simp [BoolField.setBy, CT.boolTrue, CT.boolFalse])).1 h2
              cases x <;> first | (simp [BoolField.setBy, CT.boolTrue, CT.boolFalse] at h5; done) | exact ⟨rfl, by rw [h6, hc]⟩
          obtain ⟨rfl, rfl⟩ := hcode
          obtain ⟨_, rfl⟩ := (gives_end (o := .fieldEnd) rfl _ _ _).1 h3
          obtain ⟨b2, rest2, rfl, h6, rfl⟩ := (ih { c with last := id } _ hc).1 h4
          exact ⟨b ++ [] ++ b2, rest2, by simp, ⟨b, [], b2, rfl, hf, by rw [if_pos hb], h6⟩, rfl⟩
      · rintro ⟨b, rest, rfl, ⟨hd, b1, b2, rfl, hf, hb1, h6⟩, rfl⟩
        rw [if_pos hb] at hb1
        subst hb1
        refine ⟨[], ({ c with last := id, boolField := if x then .true else .false }, ⟨sz, b2 ++ rest, .err e⟩), ({ c with last := id }, ⟨sz, b2 ++ rest, .err e⟩), _,
          (gives_iff exact_field _ _ _ _).2 ⟨hd, b2 ++ rest, _, by simp, ⟨rfl, .inr ⟨ty_ne_stop (.bool x), _, hfc.2, hfc.1, hf, rfl⟩⟩, ?_⟩, ?_, (gives_end (o := .fieldEnd) rfl _ _ _).2 ⟨rfl, rfl⟩, (ih { c with last := id } _ hc).2 ⟨b2, rest, rfl, h6, rfl⟩⟩
        · cases x <;> rfl
        · rw [holds_header_bool _ _ _ _ (by cases x <;> simp)]
          exact ⟨rfl, by rw [← hc]⟩
    · have hset : ∀ f : BoolField, f.setBy (compactFieldCode v) = f := setBy_ne_bool v hb
      constructor
      · rintro ⟨n, s1, s2, s3, h1, h2, h3, h4⟩
        obtain ⟨b, rest, c', rfl, ⟨_, ⟨hs, _⟩ | ⟨_, code, hlt, hw, hf, rfl⟩⟩, rfl⟩ := (gives_iff exact_field _ _ _ _).1 h1
        · exact absurd hs (ty_ne_stop v)
        · obtain rfl := field_code v code hlt hw hb
          obtain ⟨b1, rest1, rfl, h5, rfl⟩ := (hv _ _ _ (by rw [hset]; exact hc)).1 h2
          obtain ⟨_, rfl⟩ := (gives_end (o := .fieldEnd) rfl _ _ _).1 h3
          rw [hset] at h4
          obtain ⟨b2, rest2, rfl, h6, rfl⟩ := (ih { c with last := id } _ hc).1 h4
          exact ⟨b ++ b1 ++ b2, rest2, by simp, ⟨b, b1, b2, rfl, hf, by rwa [if_neg hb], h6⟩, rfl⟩
      · rintro ⟨b, rest, rfl, ⟨hd, b1, b2, rfl, hf, hb1, h6⟩, rfl⟩
        rw [if_neg hb] at hb1
        exact ⟨[], ({ c with last := id }, ⟨sz, b1 ++ b2 ++ rest, .err e⟩), ({ c with last := id }, ⟨sz, b2 ++ rest, .err e⟩), _,
          (gives_iff exact_field _ _ _ _).2 ⟨hd, b1 ++ b2 ++ rest, _, by simp, ⟨rfl, .inr ⟨ty_ne_stop v, _, hfc.2, hfc.1, hf, rfl⟩⟩, by rw [hset]⟩,
          (hv { c with last := id } _ _ hc).2 ⟨b1, b2 ++ rest, by simp, hb1, rfl⟩, (gives_end (o := .fieldEnd) rfl _ _ _).2 ⟨rfl, rfl⟩, (ih { c with last := id } _ hc).2 ⟨b2, rest, rfl, h6, rfl⟩⟩

theorem seq_wire (et : WType) (es : List TVal) (hall : ∀ v ∈ es, Wire sz e v) (c : RState) (input : Bytes) (s' : RState × Flat) (hc : c.boolField = .none) :
    (∃ h s1, Gives reader .setBegin (c, ⟨sz, input, .err e⟩) h s1 ∧ loopCount h.size = es.length ∧ h.element = et ∧ HoldsElems reader et es s1 s') ↔
      ∃ b rest, input = b ++ rest ∧ (∃ hd b1, b = hd ++ b1 ∧ CompactList et es.length hd ∧ CompactWireElems et es b1) ∧ s' = (c, ⟨sz, rest, .err e⟩) := by
  constructor
  · rintro ⟨h, s1, h1, h2, h3, h4⟩
    obtain ⟨b, rest, rfl, h5, rfl⟩ := (gives_plain exact_set _ _ _ _).1 h1
    obtain ⟨b2, rest2, rfl, h6, rfl⟩ := (elems_wire _ es hall _ _ _ hc).1 h4
    exact ⟨b ++ b2, rest2, by simp, ⟨b, b2, rfl, (list_iff _ _ _).1 ⟨h, h5, h2, h3⟩, h6⟩, rfl⟩
  · rintro ⟨b, rest, rfl, ⟨hd, b1, rfl, h1, h2⟩, rfl⟩
    obtain ⟨a, h3, h4, h5⟩ := (list_iff _ _ _).2 h1
    exact ⟨a, (c, ⟨sz, b1 ++ rest, .err e⟩), (gives_plain exact_set _ _ _ _).2 ⟨hd, _, by simp, h3, rfl⟩, h4, h5, (elems_wire _ es hall _ _ _ hc).2 ⟨b1, rest, rfl, h2, rfl⟩⟩

theorem wire_value (hsz : 16 ≤ sz) (e : Err) (t : TVal) : Wire sz e t := by
  induction t using TVal.ind with
  | hbool v =>
    intro c input s' hc
    simp only [Holds, CompactWire]
    rw [gives_iff exact_bool]
    simp only [hc]
    constructor
    · rintro ⟨b, rest, c', h1, ⟨h2, rfl⟩, h3⟩; exact ⟨b, rest, h1, h2, h3⟩
    · rintro ⟨b, rest, h1, h2, h3⟩; exact ⟨b, rest, c, h1, ⟨h2, rfl⟩, h3⟩
  | hbyte v =>
    intro c input s' hc
    refine (gives_iff (o := .byte) Exact.readByte _ _ _ _).trans ?_
    simp only [CompactWire]
    constructor
    · rintro ⟨b, rest, c', h1, ⟨h2, rfl⟩, h3⟩; exact ⟨b, rest, h1, h2, h3⟩
    · rintro ⟨b, rest, h1, h2, h3⟩; exact ⟨b, rest, c, h1, ⟨h2, rfl⟩, h3⟩
  | hdouble v => intro c input s' hc; exact gives_plain (o := .double) (exact_double hsz) _ _ _ _
  | hi16 v => intro c input s' hc; exact gives_plain (o := .i16) exact_i16 _ _ _ _
  | hi32 v => intro c input s' hc; exact gives_plain (o := .i32) exact_i32 _ _ _ _
  | hi64 v => intro c input s' hc; exact gives_plain (o := .i64) exact_i64 _ _ _ _
  | hstr raw v =>
    intro c input s' hc
    refine Iff.trans ?_ ((gives_plain (o := .string) (exact_string (e := e) hsz) c input v s').trans ?_)
    · exact ⟨fun h => h.1, fun h => ⟨h, ((coherent hsz).string ⟨_, _, rfl⟩ h).2⟩⟩
    · simp only [CompactWire]
      constructor
      · rintro ⟨b, rest, h1, ⟨w, h2, h4, h5⟩, h3⟩; exact ⟨b, rest, h1, ⟨h2, w, h4, h5⟩, h3⟩
      · rintro ⟨b, rest, h1, ⟨h2, w, h4, h5⟩, h3⟩; exact ⟨b, rest, h1, ⟨w, h2, h4, h5⟩, h3⟩
  | huuid v =>
    intro c input s' hc
    refine Iff.trans (b := Gives reader .uuid (c, ⟨sz, input, .err e⟩) v s') ?_ ((gives_plain (o := .uuid) exact_uuid _ _ _ _).trans ?_)
    · exact ⟨fun h => h.1, fun h => ⟨h, ((coherent hsz).uuid ⟨_, _, rfl⟩ h).2⟩⟩
    · constructor
      · rintro ⟨b, rest, h1, ⟨h2, h4⟩, h3⟩; exact ⟨b, rest, h1, ⟨h4 ▸ h2, h4.symm⟩, h3⟩
      · rintro ⟨b, rest, h1, ⟨h2, h4⟩, h3⟩; exact ⟨b, rest, h1, ⟨h4 ▸ h2, h4.symm⟩, h3⟩
  | hstruct n fs hall =>
    intro c input s' hc
    simp only [Holds, CompactWire]
    constructor
    · rintro ⟨n, s1, s2, h1, h2, h3⟩
      obtain ⟨b, rest, c1, rfl, ⟨_, rfl, rfl⟩, rfl⟩ := (gives_iff exact_structBegin _ _ _ _).1 h1
      obtain ⟨b1, rest1, rfl, h4, rfl⟩ := (fields_wire fs hall _ _ _ (by exact hc)).1 h2
      obtain ⟨b2, rest2, c2, h6, ⟨id, ids, h5, rfl, rfl⟩, rfl⟩ := (gives_iff exact_structEnd _ _ _ _).1 h3
      cases h5
      rw [List.nil_append] at h6
      subst h6
      exact ⟨b1, rest1, by simp, h4, rfl⟩
    · rintro ⟨b, rest, rfl, h1, rfl⟩
      exact ⟨[], ({ c with ids := c.last :: c.ids, last := 0 }, ⟨sz, b ++ rest, .err e⟩), _, (gives_iff exact_structBegin _ _ _ _).2 ⟨[], _, _, rfl, ⟨rfl, rfl, rfl⟩, rfl⟩,
        (fields_wire fs hall _ _ _ (by exact hc)).2 ⟨b, rest, rfl, h1, rfl⟩, (gives_iff exact_structEnd _ _ _ _).2 ⟨[], rest, _, rfl, ⟨_, _, rfl, rfl, rfl⟩, rfl⟩⟩
  | hmap kt vt es hall =>
    intro c input s' hc
    simp only [Holds, CompactWire]
    have hne : es ≠ [] ↔ es.length ≠ 0 := by cases es <;> simp
    constructor
    · rintro ⟨h, s1, s2, h1, h2, h3, h4, h5⟩
      obtain ⟨_, rfl⟩ := (gives_end (o := .mapEnd) rfl _ _ _).1 h5
      obtain ⟨b, rest, rfl, h6, rfl⟩ := (gives_plain exact_map _ _ _ _).1 h1
      obtain ⟨b2, rest2, rfl, h7, rfl⟩ := (entries_wire _ _ es hall _ _ _ hc).1 h4
      exact ⟨b ++ b2, rest2, by simp, ⟨b, b2, rfl, (map_iff _ _ _ _).1 ⟨h, h6, h2, fun hx => h3 (hne.2 hx)⟩, h7⟩, rfl⟩
    · rintro ⟨b, rest, rfl, ⟨hd, b1, rfl, h1, h2⟩, rfl⟩
      obtain ⟨a, h3, h4, h5⟩ := (map_iff _ _ _ _).2 h1
      exact ⟨a, (c, ⟨sz, b1 ++ rest, .err e⟩), _, (gives_plain exact_map _ _ _ _).2 ⟨hd, _, by simp, h3, rfl⟩, h4, fun hx => h5 (hne.1 hx), (entries_wire _ _ es hall _ _ _ hc).2 ⟨b1, rest, rfl, h2, rfl⟩,
        (gives_end (o := .mapEnd) rfl _ _ _).2 ⟨rfl, rfl⟩⟩
  | hset et es hall =>
    intro c input s' hc
    refine Iff.trans ?_ (seq_wire et es hall c input s' hc)
    simp only [Holds]
    constructor
    · rintro ⟨h, s1, s2, h1, h2, h3, h4, h5⟩
      obtain ⟨_, rfl⟩ := (gives_end (o := .setEnd) rfl _ _ _).1 h5
      exact ⟨h, s1, h1, h2, h3, h4⟩
    · rintro ⟨h, s1, h1, h2, h3, h4⟩
      exact ⟨h, s1, s', h1, h2, h3, h4, (gives_end (o := .setEnd) rfl _ _ _).2 ⟨rfl, rfl⟩⟩
  | hlist et es hall =>
    intro c input s' hc
    refine Iff.trans ?_ (seq_wire et es hall c input s' hc)
    simp only [Holds]
    constructor
    · rintro ⟨h, s1, s2, h1, h2, h3, h4, h5⟩
      obtain ⟨_, rfl⟩ := (gives_end (o := .listEnd) rfl _ _ _).1 h5
      exact ⟨h, s1, h1, h2, h3, h4⟩
    · rintro ⟨h, s1, h1, h2, h3, h4⟩
      exact ⟨h, s1, s', h1, h2, h3, h4, (gives_end (o := .listEnd) rfl _ _ _).2 ⟨rfl, rfl⟩⟩

theorem list_le {et : WType} {n : Nat} {b : Bytes} (h : CompactList et n b) : n ≤ 2 ^ 63 - 1 := by
  obtain ⟨a, _, rfl, _⟩ := (list_iff _ _ _).2 h
  exact count_le _

theorem map_le {kt vt : WType} {n : Nat} {b : Bytes} (h : CompactMap kt vt n b) : n ≤ 2 ^ 63 - 1 := by
  obtain ⟨a, _, rfl, _⟩ := (map_iff _ _ _ _).2 h
  exact count_le _

/-- What stands for a value is small enough to be written. -/
theorem wire_wf (t : TVal) : ∀ b, CompactWire t b → WF (2 ^ 63 - 1) t := by
  have helems : ∀ (et : WType) (es : List TVal), (∀ e ∈ es, ∀ b, CompactWire e b → WF (2 ^ 63 - 1) e) → ∀ b, CompactWireElems et es b → WFElems (2 ^ 63 - 1) et es := by
    intro et es hall
    induction es with
    | nil => intro _ _; trivial
    | cons e es ih =>
      rintro b ⟨ht, b1, b2, rfl, h1, h2⟩
      exact ⟨ht, hall e (by simp) _ h1, ih (fun e he => hall e (by simp [he])) _ h2⟩
  induction t using TVal.ind with
  | hstr r v => rintro b ⟨h, _⟩; simp only [WF]; omega
  | huuid v => rintro b ⟨h, _⟩; exact h
  | hstruct n fs hall =>
    intro b h
    simp only [CompactWire] at h
    simp only [WF]
    generalize (0 : BitVec 16) = last at h
    induction fs generalizing b last with
    | nil => trivial
    | cons f fs ih =>
      obtain ⟨n, id, v⟩ := f
      obtain ⟨hd, b1, b2, rfl, h0, h1, h2⟩ := h
      refine ⟨?_, ih (fun e he => hall e (by simp [he])) _ _ h2⟩
      by_cases hb : v.ty = Ty.bool
      · cases v <;> first | (exact absurd hb (by simp only [ty]; decide)) | trivial
      · rw [if_neg hb] at h1
        exact hall (n, id, v) (by simp) _ h1
  | hmap kt vt es hall =>
    rintro b ⟨hd, b1, rfl, h1, h2⟩
    refine ⟨map_le h1, ?_⟩
    clear h1
    induction es generalizing b1 with
    | nil => trivial
    | cons e es ih =>
      obtain ⟨k, v⟩ := e
      obtain ⟨ht, ht2, b1, b2, b3, rfl, h3, h4, h5⟩ := h2
      obtain ⟨hk, hv⟩ := hall (k, v) (by simp)
      exact ⟨ht, ht2, hk _ h3, hv _ h4, ih (fun e he => hall e (by simp [he])) _ h5⟩
  | hset et es hall =>
    rintro b ⟨hd, b1, rfl, h1, h2⟩
    exact ⟨list_le h1, helems et es hall _ h2⟩
  | hlist et es hall =>
    rintro b ⟨hd, b1, rfl, h1, h2⟩
    exact ⟨list_le h1, helems et es hall _ h2⟩
  | _ => intros; trivial

end Compact

end GoThrift
