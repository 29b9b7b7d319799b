import Verif.Proof.Apart
import Verif.Proof.CanonSettle

/-!
# C97: what Marshal writes can be taken apart in one way only

`BinaryOf` and `CompactOf` are in `Proof/Apart.lean`.
-/

namespace GoThrift

open Spec Spec.TVal

/-- **C97** binary: of what Marshal writes for two values whose types have the same wire type - they need not be the same type - neither is the beginning of the other, unless they are the same; so
if two streams begin with such values and are the same, the values end at the same place. -/
theorem C97_binary (env env' : Env) (strict : Bool) (w : WType) (out out' rest rest' : Bytes) (h : BinaryOf env strict w out) (h' : BinaryOf env' strict w out') (he : out ++ rest = out' ++ rest') :
    out = out' ∧ rest = rest' := by
  have h1 := h.skips rest
  rw [he] at h1
  have := (h1.unique (h'.skips rest')).2
  obtain rfl : rest = rest' := by simpa using this
  exact ⟨List.append_cancel_right he, rfl⟩

/-- **C97** compact. -/
theorem C97_compact (env env' : Env) (w : WType) (out out' rest rest' : Bytes) (h : CompactOf env w out) (h' : CompactOf env' w out') (he : out ++ rest = out' ++ rest') :
    out = out' ∧ rest = rest' := by
  have h1 := h.skips rest
  rw [he] at h1
  have := (h1.unique (h'.skips rest')).2
  obtain rfl : rest = rest' := by simpa using this
  exact ⟨List.append_cancel_right he, rfl⟩

/-- **C97** binary, any number of values one after the other: the wire types determine how the stream is taken apart. -/
theorem C97_binary_stream (env : Env) (strict : Bool) (ws : List WType) (outs outs' : List Bytes) (rest rest' : Bytes) (hl : outs.length = ws.length) (hl' : outs'.length = ws.length)
    (h : ∀ (i : Nat) w out, ws[i]? = some w → outs[i]? = some out → BinaryOf env strict w out) (h' : ∀ (i : Nat) w out, ws[i]? = some w → outs'[i]? = some out → BinaryOf env strict w out)
    (he : outs.flatten ++ rest = outs'.flatten ++ rest') : outs = outs' ∧ rest = rest' :=
  apart (C97_binary env env strict) ws outs outs' rest rest' hl hl' h h' he

/-- **C97** compact, any number of values one after the other. -/
theorem C97_compact_stream (env : Env) (ws : List WType) (outs outs' : List Bytes) (rest rest' : Bytes) (hl : outs.length = ws.length) (hl' : outs'.length = ws.length)
    (h : ∀ (i : Nat) w out, ws[i]? = some w → outs[i]? = some out → CompactOf env w out) (h' : ∀ (i : Nat) w out, ws[i]? = some w → outs'[i]? = some out → CompactOf env w out)
    (he : outs.flatten ++ rest = outs'.flatten ++ rest') : outs = outs' ∧ rest = rest' :=
  apart (C97_compact env env) ws outs outs' rest rest' hl hl' h h' he

/-- **C97** binary: values of a type that Marshal writes alike, or of which one is written as the beginning of the other, are received alike. -/
theorem C97_binary_alike (env : Env) (strict : Bool) (x1 x2 : AnyVal) (t p : TypeId) (v1 v2 : GoVal) (hx1 : Passes env x1 t v1) (hx2 : Passes env x2 t v2) (hp : (env.type p).kind = .ptr t)
    (ht1 : HasType env t v1) (ht2 : HasType env t v2) (hs1 : SizesAtMost env (2 ^ 31 - 1) t v1) (hs2 : SizesAtMost env (2 ^ 31 - 1) t v2) (hk1 : KeysSurvive env t v1) (hk2 : KeysSurvive env t v2)
    (hd : ∀ t', Within env t' t → DistinctIds env t') (b1 b2 out1 out2 rest1 rest2 : Bytes) (h1 : MarshalReturns env (Binary.writer strict) x1 ((), b1) none ((), b1 ++ out1))
    (h2 : MarshalReturns env (Binary.writer strict) x2 ((), b2) none ((), b2 ++ out2)) (he : out1 ++ rest1 = out2 ++ rest2) : ∃ v, RoundTrip env t v1 v ∧ RoundTrip env t v2 v := by
  obtain ⟨o1, u1, e1, r1, f1⟩ := C01_binary_round_trip env strict x1 t p v1 hx1 hp ht1 hs1 hk1 hd b1 _ h1
  obtain ⟨o2, u2, e2, r2, f2⟩ := C01_binary_round_trip env strict x2 t p v2 hx2 hp ht2 hs2 hk2 hd b2 _ h2
  obtain rfl : out1 = o1 := by simpa using e1
  obtain rfl : out2 = o2 := by simpa using e2
  have h3 := f1 16 rest1 (.err .eof) (by decide)
  rw [he] at h3
  have := (h3.unique (f2 16 rest2 (.err .eof) (by decide))).2.1
  cases this
  exact ⟨u1, r1, r2⟩

/-- **C97** compact. -/
theorem C97_compact_alike (env : Env) (x1 x2 : AnyVal) (t p : TypeId) (v1 v2 : GoVal) (hx1 : Passes env x1 t v1) (hx2 : Passes env x2 t v2) (hp : (env.type p).kind = .ptr t)
    (ht1 : HasType env t v1) (ht2 : HasType env t v2) (hs1 : SizesAtMost env (2 ^ 63 - 1) t v1) (hs2 : SizesAtMost env (2 ^ 63 - 1) t v2) (hk1 : KeysSurvive env t v1) (hk2 : KeysSurvive env t v2)
    (hd : ∀ t', Within env t' t → DistinctIds env t') (c1 c2 c1' c2' : Compact.WState) (hc1 : c1.boolField.type = Ty.stop) (hc2 : c2.boolField.type = Ty.stop) (b1 b2 out1 out2 rest1 rest2 : Bytes)
    (h1 : MarshalReturns env Compact.writer x1 (c1, b1) none (c1', b1 ++ out1)) (h2 : MarshalReturns env Compact.writer x2 (c2, b2) none (c2', b2 ++ out2)) (he : out1 ++ rest1 = out2 ++ rest2) :
    ∃ v, RoundTrip env t v1 v ∧ RoundTrip env t v2 v := by
  obtain ⟨_, o1, u1, e1, r1, f1⟩ := C02_compact_round_trip env x1 t p v1 hx1 hp ht1 hs1 hk1 hd c1 hc1 b1 _ h1
  obtain ⟨_, o2, u2, e2, r2, f2⟩ := C02_compact_round_trip env x2 t p v2 hx2 hp ht2 hs2 hk2 hd c2 hc2 b2 _ h2
  obtain rfl : out1 = o1 := by simpa using congrArg Prod.snd e1
  obtain rfl : out2 = o2 := by simpa using congrArg Prod.snd e2
  have h3 := f1 16 rest1 (.err .eof) {} (by decide) rfl (.inl ⟨_, rfl⟩)
  rw [he] at h3
  have := (h3.unique (f2 16 rest2 (.err .eof) {} (by decide) rfl (.inl ⟨_, rfl⟩))).2.1
  cases this
  exact ⟨u1, r1, r2⟩

/-! ## Examples -/

/-- The wire types have to be the same: an empty string and an int32 that is zero are written alike, and an int64 that is zero begins like both. -/
theorem C97_wire_types : BinaryOf Ex.env true Ty.string [0, 0, 0, 0] ∧ BinaryOf Ex.env true Ty.i32 [0, 0, 0, 0] ∧ BinaryOf Ex.env true Ty.i64 ([0, 0, 0, 0] ++ [0, 0, 0, 0]) := by
  refine ⟨⟨.val 3 (.str []), 3, .str [], [], .inl ⟨rfl, fun e h => by cases h⟩, trivial, Nat.zero_le _, .string rfl, ⟨20, fun fuel hf => ((Marshal_le Ex.env 20 fuel hf _).run _ _).done (by decide +kernel)⟩⟩,
    ⟨.val 1 (.i32 0), 1, .i32 0, [], .inl ⟨rfl, fun e h => by cases h⟩, trivial, trivial, .i32 (.inl rfl), ⟨20, fun fuel hf => ((Marshal_le Ex.env 20 fuel hf _).run _ _).done (by decide +kernel)⟩⟩,
    ⟨.val 7 (.i64 0), 7, .i64 0, [], .inl ⟨rfl, fun e h => by cases h⟩, trivial, trivial, .i64 (.inl rfl), ⟨20, fun fuel hf => ((Marshal_le Ex.env 20 fuel hf _).run _ _).done (by decide +kernel)⟩⟩⟩

theorem Ex.binaryOf_Q : BinaryOf Ex.env true Ty.struct Ex.bytesQ :=
  ⟨.val 0 Ex.valQ, 0, Ex.valQ, [1], .inl ⟨rfl, fun e h => by cases h⟩, Ex.hasType_valQ, Ex.sizes_valQ.mono (by decide), .struct rfl, Ex.marshalsQ⟩

theorem Ex.compactOf_Q : CompactOf Ex.env Ty.struct Ex.compactQ :=
  ⟨.val 0 Ex.valQ, 0, Ex.valQ, [1], {}, {}, .inl ⟨rfl, fun e h => by cases h⟩, Ex.hasType_valQ, Ex.sizes_valQ.mono (by decide), .struct rfl, rfl, Ex.marshalsQ_compact⟩

/-- A stream that begins with these bytes begins with no other struct. -/
example (out rest rest' : Bytes) (h : BinaryOf Ex.env true Ty.struct out) (he : out ++ rest = Ex.bytesQ ++ rest') : out = Ex.bytesQ :=
  (C97_binary Ex.env Ex.env true _ _ _ _ _ h Ex.binaryOf_Q he).1

example (out rest rest' : Bytes) (h : CompactOf Ex.env Ty.struct out) (he : out ++ rest = Ex.compactQ ++ rest') : out = Ex.compactQ :=
  (C97_compact Ex.env Ex.env _ _ _ _ _ h Ex.compactOf_Q he).1

/-- A struct, then an int32. -/
example (out out' rest : Bytes) (h : BinaryOf Ex.env true Ty.struct out) (h' : BinaryOf Ex.env true Ty.i32 out') (he : out ++ (out' ++ rest) = Ex.bytesQ ++ [0, 0, 0, 0, 9]) :
    out = Ex.bytesQ ∧ out' = [0, 0, 0, 0] ∧ rest = [9] := by
  have := C97_binary_stream Ex.env true [Ty.struct, Ty.i32] [out, out'] [Ex.bytesQ, [0, 0, 0, 0]] rest [9] rfl rfl
    (fun i w o hw ho => match i with
      | 0 => by cases hw; cases ho; exact h
      | 1 => by cases hw; cases ho; exact h'
      | i + 2 => by cases hw)
    (fun i w o hw ho => match i with
      | 0 => by cases hw; cases ho; exact Ex.binaryOf_Q
      | 1 => by cases hw; cases ho; exact C97_wire_types.2.1
      | i + 2 => by cases hw)
    (by simpa using he)
  simpa [and_assoc] using this

/-- The hypotheses of `C97_binary_alike` and `C97_compact_alike` can be met. -/
example (x : AnyVal) (v : GoVal) (hx : Passes Ex.env x 0 v) (ht : HasType Ex.env 0 v) (hs : SizesAtMost Ex.env 2 0 v) (hk : KeysSurvive Ex.env 0 v)
    (h : MarshalReturns Ex.env (Binary.writer true) x ((), []) none ((), [] ++ Ex.bytesQ)) : ∃ u, RoundTrip Ex.env 0 Ex.valQ u ∧ RoundTrip Ex.env 0 v u :=
  C97_binary_alike Ex.env true (.val 0 Ex.valQ) x 0 4 Ex.valQ v (.inl ⟨rfl, fun e h => by cases h⟩) hx rfl Ex.hasType_valQ ht (Ex.sizes_valQ.mono (by decide)) (hs.mono (by decide)) Ex.keys_valQ hk
    Ex.distinct_P [1] [] Ex.bytesQ Ex.bytesQ [] [] Ex.marshalsQ h rfl

example (x : AnyVal) (v : GoVal) (hx : Passes Ex.env x 0 v) (ht : HasType Ex.env 0 v) (hs : SizesAtMost Ex.env 2 0 v) (hk : KeysSurvive Ex.env 0 v)
    (h : MarshalReturns Ex.env Compact.writer x ({}, []) none ({}, [] ++ Ex.compactQ)) : ∃ u, RoundTrip Ex.env 0 Ex.valQ u ∧ RoundTrip Ex.env 0 v u :=
  C97_compact_alike Ex.env (.val 0 Ex.valQ) x 0 4 Ex.valQ v (.inl ⟨rfl, fun e h => by cases h⟩) hx rfl Ex.hasType_valQ ht (Ex.sizes_valQ.mono (by decide)) (hs.mono (by decide)) Ex.keys_valQ hk
    Ex.distinct_P {} {} {} {} rfl rfl [1] [] Ex.compactQ Ex.compactQ [] [] Ex.marshalsQ_compact h rfl

end GoThrift
