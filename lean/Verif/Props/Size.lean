import Verif.Proof.Size
import Verif.Props.Marshal
import Verif.Props.RoundTrip

/-!
# C85: how long the two encodings of the same value are
-/

namespace GoThrift

open Spec Spec.TVal

theorem marshals_both (env : Env) (x : AnyVal) (t : TypeId) (v : GoVal) (hx : Passes env x t v) (ht : HasType env t v) (hs : SizesAtMost env (2 ^ 31 - 1) t v) (hacc : Acc (InPart env) t)
    (tv0 : TVal) (hr : Rep env t v tv0) :
    ∃ tv, Rep env t v tv ∧ WF (2 ^ 31 - 1) tv ∧ (∀ strict b, MarshalReturns env (Binary.writer strict) x ((), b) none ((), b ++ encBin tv)) ∧
      (∀ (c : Compact.WState) b, c.boolField.type = Ty.stop → ∃ c', MarshalReturns env Compact.writer x (c, b) none (c', b ++ encCompact tv)) ∧
      ∀ {S : Type} (w : Wtr S) (s s' : S), Writes w (calls tv) s s' → MarshalReturns env w x s none s' := by
  obtain ⟨tv, h1, h2⟩ := C54_any_writer env x t v hx ht hacc tv0 hr
  obtain ⟨w1, w2, w3⟩ := rep_wf h1 _ ht hs
  refine ⟨tv, h1, w1, fun strict b => h2 _ _ _ (Binary.writes strict tv b), fun c b hc => ?_, h2⟩
  obtain ⟨c', _, h⟩ := Compact.writes tv (wf_mono (by decide) tv w1) w2 c b hc
  rw [Compact.enc_noWrap tv w3] at h
  exact ⟨c', h2 _ _ _ h⟩

/-- **C85**: if Marshal writes a value in the binary protocol, it also writes it in the compact protocol, and what it writes is at most half as long again and at least an eighth as long. -/
theorem C85_ratio (env : Env) (strict : Bool) (x : AnyVal) (t : TypeId) (v : GoVal) (hx : Passes env x t v) (ht : HasType env t v) (hs : SizesAtMost env (2 ^ 31 - 1) t v) (b : Bytes)
    (s' : Unit × Bytes) (h : MarshalReturns env (Binary.writer strict) x ((), b) none s') (c : Compact.WState) (hc : c.boolField.type = Ty.stop) (b2 : Bytes) :
    ∃ out c' out2, s' = ((), b ++ out) ∧ MarshalReturns env Compact.writer x (c, b2) none (c', b2 ++ out2) ∧ 2 * out2.length ≤ 3 * out.length ∧ out.length ≤ 8 * out2.length := by
  obtain ⟨tv0, hr, _, n, a, hl, _⟩ := h.rep hx ht
  obtain ⟨tv, _, hw, h1, h2, _⟩ := marshals_both env x t v hx ht hs ((lookup_iff_acc env t).1 ⟨n, a, hl⟩) tv0 hr
  obtain ⟨c', h3⟩ := h2 c b2 hc
  exact ⟨_, c', _, (h.unique (h1 strict b)).2, h3, between_value tv hw⟩

/-- A slice of `n` copies of a number, and what stands for it. -/
theorem slice_marshals (env : Env) (t e : TypeId) (hk : (env.type t).kind = .slice e) (hset : (env.type t).isSet = false) (hb : (env.type t).asBytes = false) (v : GoVal) (tv : TVal)
    (hw : WireTypeOf env e tv.ty) (hr : Rep env e v tv) (hu : ∀ tv', Rep env e v tv' → tv' = tv) (ht : HasType env e v) (hs : SizesAtMost env (2 ^ 31 - 1) e v) (hacc : Acc (InPart env) e)
    (n : Nat) (hn : n ≤ 2 ^ 31 - 1) (b : Bytes) (c : Compact.WState) (hc : c.boolField.type = Ty.stop) :
    (∀ strict, MarshalReturns env (Binary.writer strict) (.val t (.slice (List.replicate n v) [])) ((), b) none ((), b ++ encBin (.list tv.ty (List.replicate n tv)))) ∧
    (∃ c', MarshalReturns env Compact.writer (.val t (.slice (List.replicate n v) [])) (c, b) none (c', b ++ encCompact (.list tv.ty (List.replicate n tv)))) ∧
    ∀ {S : Type} (w : Wtr S) (s s' : S), Writes w (calls (.list tv.ty (List.replicate n tv))) s s' → MarshalReturns env w (.val t (.slice (List.replicate n v) [])) s none s' := by
  have he : env.elemType t = e := by simp [Env.elemType, hk]
  have all : ∀ P : TypeId → GoVal → Prop, P t (.slice (List.replicate n v) []) → Everywhere env P e v → Everywhere env P t (.slice (List.replicate n v) []) := by
    intro P h1 h2
    simp only [Everywhere]
    refine ⟨h1, ?_⟩
    rw [he]
    generalize n = m
    induction m with
    | zero => simp [EverywhereElems]
    | succ m ih => rw [List.replicate_succ, EverywhereElems]; exact ⟨h2, ih⟩
  have hacct : Acc (InPart env) t := .intro _ fun t' h => by
    have := h.1
    simp only [PartOf, hk] at this
    rw [this.2]
    exact hacc
  have hrt : Rep env t (.slice (List.replicate n v) []) (.list tv.ty (List.replicate n tv)) := by
    refine .list hk hset hb (.inr ⟨_, _, rfl⟩) hw (by simp [elemsOf]) fun i x y hx hy => ?_
    simp only [elemsOf, List.getElem?_replicate, Option.ite_none_right_eq_some] at hx hy
    obtain ⟨_, hx⟩ := hx
    obtain ⟨_, hy⟩ := hy
    cases hx
    cases hy
    exact hr
  obtain ⟨tv', h1, _, h2, h3, h4⟩ := marshals_both env (.val t (.slice (List.replicate n v) [])) t _ (.inl ⟨rfl, fun e' h => by rw [hk] at h; cases h⟩)
    (all _ (by simp [Shape, hk, hb]) ht) (all _ (by simpa using hn) hs) hacct _ hrt
  have : tv' = .list tv.ty (List.replicate n tv) := by
    cases h1 with
    | leaf h => cases h
    | set hk' hs' => rw [hset] at hs'; cases hs'
    | map _ hv => rcases hv with hv | ⟨_, hv⟩ <;> cases hv
    | list hk' _ _ _ hw' hl he =>
      rw [hk] at hk'
      cases hk'
      rw [hw'.unique hw]
      congr 1
      simp only [elemsOf, List.length_replicate] at hl he
      refine List.ext_getElem? fun i => ?_
      rw [List.getElem?_replicate]
      split
      · next h =>
        rw [← hl] at h
        rw [List.getElem?_eq_getElem h]
        refine congrArg _ (hu _ (he i v _ ?_ (List.getElem?_eq_getElem h)))
        simp only [List.getElem?_replicate]
        rw [if_pos (by omega)]
      · next h => exact List.getElem?_eq_none (by omega)
  subst this
  exact ⟨fun strict => h2 strict b, h3 c b hc, h4⟩

theorem rep_i16 {env : Env} {e : TypeId} {x : BitVec 16} (tv : TVal) (h : Rep env e (.i16 x) tv) : tv = .i16 x := by
  cases h with
  | leaf h => cases h; rfl
  | set _ _ hv | list _ _ _ hv | map _ hv => rcases hv with hv | hv <;> simp at hv

theorem rep_i64 {env : Env} {e : TypeId} {x : BitVec 64} (tv : TVal) (h : Rep env e (.i64 x) tv) : tv = .i64 x := by
  cases h with
  | leaf h => cases h; rfl
  | set _ _ hv | list _ _ _ hv | map _ hv => rcases hv with hv | hv <;> simp at hv

theorem encBinElems_replicate (n : Nat) (tv : TVal) : (encBinElems (List.replicate n tv)).length = n * (encBin tv).length := by
  induction n with
  | zero => simp [encBinElems]
  | succ n ih => rw [List.replicate_succ, encBinElems, List.length_append, ih, Nat.succ_mul]; omega

theorem encCompactElems_replicate (n : Nat) (tv : TVal) : (encCompactElems (List.replicate n tv)).length = n * (encCompact tv).length := by
  induction n with
  | zero => simp [encCompactElems]
  | succ n ih => rw [List.replicate_succ, encCompactElems, List.length_append, ih, Nat.succ_mul]; omega

theorem acc_number (env : Env) (t : TypeId) (h : (env.type t).kind = .int16 ∨ (env.type t).kind = .int64) : Acc (InPart env) t := .intro _ fun t' ht => by
  have := ht.1
  rcases h with h | h <;> simp [PartOf, h] at this

/-- **C85**: the first bound cannot be improved: a slice of `n` numbers of type int16 can be that long in the compact protocol, up to 13 bytes (six and a half bytes of the compact encoding). -/
theorem C85_reaches_longest (env : Env) (t e : TypeId) (hk : (env.type t).kind = .slice e) (hset : (env.type t).isSet = false) (hb : (env.type t).asBytes = false)
    (he : (env.type e).kind = .int16) (n : Nat) (hn : n ≤ 2 ^ 31 - 1) (b : Bytes) (c : Compact.WState) (hc : c.boolField.type = Ty.stop) :
    ∃ x out out2 c', x = AnyVal.val t (.slice (List.replicate n (.i16 (-32768))) []) ∧ (∀ strict, MarshalReturns env (Binary.writer strict) x ((), b) none ((), b ++ out)) ∧
      MarshalReturns env Compact.writer x (c, b) none (c', b ++ out2) ∧ out.length = 5 + 2 * n ∧ 3 * out.length ≤ 2 * out2.length + 13 := by
  obtain ⟨h1, ⟨c', h2⟩, _⟩ := slice_marshals env t e hk hset hb (.i16 (-32768)) (.i16 (-32768)) (.i16 (.inl he)) (.leaf (.i16 _ (.inl he))) rep_i16
    (by simp [HasType, Everywhere, Shape, he]) (by simp [SizesAtMost, Everywhere]) (acc_number env e (.inl he)) n hn b c hc
  refine ⟨_, _, _, c', rfl, h1, h2, ?_, ?_⟩
  all_goals simp only [encBin, encCompact, List.length_append, encBinElems_replicate, encCompactElems_replicate, be_length, List.length_replicate, List.length_cons, List.length_nil]
  · omega
  · have h3 := leb_length_ge 2 (Spec.zigzag (-32768 : BitVec 16).toInt) (by decide)
    have h4 := (listHeader_length (TVal.i16 (-32768)).ty n hn).1
    have h5 := Nat.mul_le_mul_left n h3
    omega

/-- **C85**: nor can the second: a slice of `n` numbers of type int64 can be that short, up to 43 bytes of the binary encoding. -/
theorem C85_reaches_shortest (env : Env) (t e : TypeId) (hk : (env.type t).kind = .slice e) (hset : (env.type t).isSet = false) (hb : (env.type t).asBytes = false)
    (he : (env.type e).kind = .int64) (n : Nat) (hn : n ≤ 2 ^ 31 - 1) (b : Bytes) (c : Compact.WState) (hc : c.boolField.type = Ty.stop) :
    ∃ x out out2 c', x = AnyVal.val t (.slice (List.replicate n (.i64 0)) []) ∧ (∀ strict, MarshalReturns env (Binary.writer strict) x ((), b) none ((), b ++ out)) ∧
      MarshalReturns env Compact.writer x (c, b) none (c', b ++ out2) ∧ out.length = 5 + 8 * n ∧ 8 * out2.length ≤ out.length + 43 := by
  obtain ⟨h1, ⟨c', h2⟩, _⟩ := slice_marshals env t e hk hset hb (.i64 0) (.i64 0) (.i64 (.inl he)) (.leaf (.i64 _ (.inl he))) rep_i64
    (by simp [HasType, Everywhere, Shape, he]) (by simp [SizesAtMost, Everywhere]) (acc_number env e (.inr he)) n hn b c hc
  refine ⟨_, _, _, c', rfl, h1, h2, ?_, ?_⟩
  all_goals simp only [encBin, encCompact, List.length_append, encBinElems_replicate, encCompactElems_replicate, be_length, List.length_replicate, List.length_cons, List.length_nil]
  · omega
  · have h3 := leb_length_le 0 (Spec.zigzag (0 : BitVec 64).toInt) (by decide)
    have h4 := (listHeader_length (TVal.i64 0).ty n hn).2
    have h5 := Nat.mul_le_mul_left n h3
    omega

/-- **C85** for message headers: a header in the strict binary encoding takes twelve bytes and the name, one in the old encoding three less. The compact header is no longer than the strict one
exactly if the sequence id is not negative; it is never more than five bytes longer, and at least four bytes and the name. -/
theorem C85_message (h : MessageHeader) (hn : h.name.length < 2 ^ 31) (b b2 : Bytes) (c : Compact.WState) :
    ∃ strict old compact, (Binary.writer true).step (.messageBegin h) ((), b) = .done (none, ((), b ++ strict)) ∧
      (Binary.writer false).step (.messageBegin h) ((), b) = .done (none, ((), b ++ old)) ∧ Compact.writer.step (.messageBegin h) (c, b2) = .done (none, (c, b2 ++ compact)) ∧
      strict.length = 12 + h.name.length ∧ old.length = 9 + h.name.length ∧
      (compact.length ≤ strict.length ↔ 0 ≤ h.id.toInt) ∧ compact.length ≤ strict.length + 5 ∧ 4 + h.name.length ≤ compact.length := by
  refine ⟨_, _, _, Binary.message_write true h b, Binary.message_write false h b, Compact.message_write h (by omega) c b2, ?_, ?_, ?_⟩
  · simp [encBinMessage, be_length]; omega
  · simp [encBinMessage, be_length]; omega
  · have e1 : (encBinMessage true h).length = 12 + h.name.length := by simp [encBinMessage, be_length]; omega
    have h1 := leb_length_le 4 h.name.length (by omega)
    have h2 := leb_pos h.name.length
    have h3 := leb_pos (h.id.signExtend 64).toNat
    have h4 := msgW_id h
    rw [e1, msgW_length]
    by_cases h0 : 0 ≤ h.id.toInt
    · have := h4.1 h0
      refine ⟨⟨fun _ => h0, fun _ => ?_⟩, ?_, ?_⟩ <;> omega
    · have := h4.2 (by omega)
      refine ⟨⟨fun _ => ?_, fun h => absurd h h0⟩, ?_, ?_⟩ <;> omega

/-! ## The hypotheses hold of these -/

/-- A struct: its binary encoding, and how long the compact one is. -/
example : ∃ c' out2, MarshalReturns Ex.env Compact.writer (.val 0 Ex.valQ) ({}, []) none (c', [] ++ out2) ∧ 2 * out2.length ≤ 3 * Ex.bytesQ.length ∧ Ex.bytesQ.length ≤ 8 * out2.length := by
  obtain ⟨out, c', out2, h1, h2, h3, h4⟩ := C85_ratio Ex.env true (.val 0 Ex.valQ) 0 Ex.valQ (.inl ⟨rfl, fun e h => by cases h⟩) Ex.hasType_valQ (Ex.sizes_valQ.mono (by decide)) [1] _ Ex.marshalsQ {} rfl []
  obtain rfl : Ex.bytesQ = out := by simpa using h1
  exact ⟨c', out2, h2, h3, h4⟩

/-- `type A []int16` and `type B []int64`. -/
def Ex.typeS : TypeId → GoType
  | 0 => { name := ascii "A", kind := .slice 1 }
  | 1 => { name := ascii "int16", kind := .int16 }
  | 2 => { name := ascii "B", kind := .slice 3 }
  | 3 => { name := ascii "int64", kind := .int64 }
  | _ => { name := [], kind := .other }

/-- Their zero values. -/
def Ex.zeroS : TypeId → GoVal
  | 0 | 2 => .sliceNil
  | 1 => .i16 0
  | 3 => .i64 0
  | _ => .other 0

/-- These types as a program. -/
def Ex.envS : Env := { Ex.env with
  type := Ex.typeS, zero := Ex.zeroS
  zero_eq := fun t => match t with
    | 0 | 1 | 2 | 3 => rfl
    | _ + 4 => rfl }

/-- A thousand numbers: 2005 and at least 3001 bytes; 8005 and at most 1006 bytes. -/
example : (∃ x out out2 c', x = AnyVal.val 0 (.slice (List.replicate 1000 (.i16 (-32768))) []) ∧ (∀ strict, MarshalReturns Ex.envS (Binary.writer strict) x ((), []) none ((), [] ++ out)) ∧
      MarshalReturns Ex.envS Compact.writer x ({}, []) none (c', [] ++ out2) ∧ out.length = 5 + 2 * 1000 ∧ 3 * out.length ≤ 2 * out2.length + 13) ∧
    (∃ x out out2 c', x = AnyVal.val 2 (.slice (List.replicate 1000 (.i64 0)) []) ∧ (∀ strict, MarshalReturns Ex.envS (Binary.writer strict) x ((), []) none ((), [] ++ out)) ∧
      MarshalReturns Ex.envS Compact.writer x ({}, []) none (c', [] ++ out2) ∧ out.length = 5 + 8 * 1000 ∧ 8 * out2.length ≤ out.length + 43) :=
  ⟨C85_reaches_longest Ex.envS 0 1 rfl rfl rfl rfl 1000 (by decide) [] {} rfl, C85_reaches_shortest Ex.envS 2 3 rfl rfl rfl rfl 1000 (by decide) [] {} rfl⟩

end GoThrift
