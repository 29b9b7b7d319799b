import Verif.Proof.CanonSettle
import Verif.Props.RoundTrip

/-!
# C59: what has been through Marshal and Unmarshal once is not changed by going through them again
-/

namespace GoThrift

open Spec Spec.TVal

/-- **C59** Marshal has written `v`, and Unmarshal read it back into a zero value as `v1`. `u` is `v1`, with its map entries in whatever order they come when it is marshalled. Then Marshal of `u`
succeeds; Unmarshal of what it writes returns a value that is the same as `u` in all but spare capacity; and Marshal of this value, with its map entries coming in the same order, writes the same
bytes. -/
theorem C59_binary_settles (env : Env) (strict : Bool) (x : AnyVal) (t p : TypeId) (v : GoVal) (hx : Passes env x t v) (hp : (env.type p).kind = .ptr t)
    (ht : HasType env t v) (hs : SizesAtMost env (2 ^ 31 - 1) t v) (hk : KeysSurvive env t v) (hd : ∀ t', Within env t' t → DistinctIds env t') (hz : ZeroLaw env t) (hfl : FloatLaw env)
    (b out : Bytes) (h1 : MarshalReturns env (Binary.writer strict) x ((), b) none ((), b ++ out))
    (size : Nat) (hsize : 16 ≤ size) (rest : Bytes) (fin : End) (v1 : GoVal) (s1 : Unit × Flat)
    (h2 : UnmarshalReturns env (Binary.reader strict) (.val p (.ptr (env.zero t))) ((), ⟨size, out ++ rest, fin⟩) none (.val p (.ptr v1)) s1)
    (u : GoVal) (hu : SameValue false v1 u) :
    ∃ out2, (∀ x2 b2, Passes env x2 t u → MarshalReturns env (Binary.writer strict) x2 ((), b2) none ((), b2 ++ out2)) ∧
      ∃ v2, SameValue true u v2 ∧
        (∀ (size : Nat) (rest : Bytes) (fin : End), 16 ≤ size →
          UnmarshalReturns env (Binary.reader strict) (.val p (.ptr (env.zero t))) ((), ⟨size, out2 ++ rest, fin⟩) none (.val p (.ptr v2)) ((), ⟨size, rest, fin⟩)) ∧
        ∀ u3 x3 b3, SameValue true v2 u3 → Passes env x3 t u3 → MarshalReturns env (Binary.writer strict) x3 ((), b3) none ((), b3 ++ out2) := by
  obtain ⟨out', v1', e1, hrt, h3⟩ := C01_binary_round_trip env strict x t p v hx hp ht hs hk hd b _ h1
  obtain rfl : out = out' := by simpa using e1
  obtain ⟨-, e2, -⟩ := h2.unique (h3 size rest fin hsize)
  cases e2
  obtain ⟨tv, hr, hw, n, a, hl, hty⟩ := h1.rep hx ht
  obtain ⟨tv2, hr2, htu, hsu, v2, h4, h5, h6⟩ := settles hfl hz _ ht hs hk hd hr hrt hu hl hty
  obtain ⟨w1, -, -⟩ := rep_wf hr2 _ htu hsu
  exact ⟨encBin tv2, fun x2 b2 hx2 => h6 u x2 (.inl rfl) hx2 _ _ _ (Binary.writes strict tv2 b2), v2, h4,
    fun size rest fin hsize => h5 _ _ _ _ hp (Binary.holds strict size hsize fin tv2 w1 rest), fun u3 x3 b3 hu3 hx3 => h6 u3 x3 (.inr hu3) hx3 _ _ _ (Binary.writes strict tv2 b3)⟩

/-- **C59** the same for the compact protocol. -/
theorem C59_compact_settles (env : Env) (x : AnyVal) (t p : TypeId) (v : GoVal) (hx : Passes env x t v) (hp : (env.type p).kind = .ptr t)
    (ht : HasType env t v) (hs : SizesAtMost env (2 ^ 63 - 1) t v) (hk : KeysSurvive env t v) (hd : ∀ t', Within env t' t → DistinctIds env t') (hz : ZeroLaw env t) (hfl : FloatLaw env)
    (c c' : Compact.WState) (hc : c.boolField.type = Ty.stop) (b out : Bytes) (h1 : MarshalReturns env Compact.writer x (c, b) none (c', b ++ out))
    (size : Nat) (hsize : 16 ≤ size) (rest : Bytes) (fin : End) (rs : Compact.RState) (hrs : rs.boolField = .none) (hfin : (∃ e, fin = .err e) ∨ 9 ≤ rest.length)
    (v1 : GoVal) (s1 : Compact.RState × Flat)
    (h2 : UnmarshalReturns env Compact.reader (.val p (.ptr (env.zero t))) (rs, ⟨size, out ++ rest, fin⟩) none (.val p (.ptr v1)) s1)
    (u : GoVal) (hu : SameValue false v1 u) :
    ∃ out2, (∀ x2 c2 b2, Passes env x2 t u → c2.boolField.type = Ty.stop → ∃ c3, MarshalReturns env Compact.writer x2 (c2, b2) none (c3, b2 ++ out2)) ∧
      ∃ v2, SameValue true u v2 ∧
        (∀ (size : Nat) (rest : Bytes) (fin : End) (rs : Compact.RState), 16 ≤ size → rs.boolField = .none → ((∃ e, fin = .err e) ∨ 9 ≤ rest.length) →
          UnmarshalReturns env Compact.reader (.val p (.ptr (env.zero t))) (rs, ⟨size, out2 ++ rest, fin⟩) none (.val p (.ptr v2)) (rs, ⟨size, rest, fin⟩)) ∧
        ∀ u3 x3 c3 b3, SameValue true v2 u3 → Passes env x3 t u3 → c3.boolField.type = Ty.stop → ∃ c4, MarshalReturns env Compact.writer x3 (c3, b3) none (c4, b3 ++ out2) := by
  obtain ⟨c'', out', v1', e1, hrt, h3⟩ := C02_compact_round_trip env x t p v hx hp ht hs hk hd c hc b _ h1
  obtain ⟨rfl, e1⟩ := Prod.mk.inj e1
  obtain rfl : out = out' := by simpa using e1
  obtain ⟨-, e2, -⟩ := h2.unique (h3 size rest fin rs hsize hrs hfin)
  cases e2
  obtain ⟨tv, hr, hw, n, a, hl, hty⟩ := h1.rep hx ht
  obtain ⟨tv2, hr2, htu, hsu, v2, h4, h5, h6⟩ := settles hfl hz _ ht hs hk hd hr hrt hu hl hty
  obtain ⟨w1, w2, w3⟩ := rep_wf hr2 _ htu hsu
  have writes : ∀ (c : Compact.WState) (b : Bytes), c.boolField.type = Ty.stop → ∃ c', Writes Compact.writer (calls tv2) (c, b) (c', b ++ encCompact tv2) := fun c b hc => by
    obtain ⟨c', _, h⟩ := Compact.writes tv2 w1 w2 c b hc
    rw [Compact.enc_noWrap tv2 w3] at h
    exact ⟨c', h⟩
  refine ⟨encCompact tv2, fun x2 c2 b2 hx2 hc2 => ?_, v2, h4, fun size rest fin rs hsize hrs hfin => h5 _ _ _ _ hp (Compact.holds size hsize fin tv2 w1 w2 rs rest hrs (.inl hfin)),
    fun u3 x3 c3 b3 hu3 hx3 hc3 => ?_⟩
  · obtain ⟨c3, hw⟩ := writes c2 b2 hc2
    exact ⟨c3, h6 u x2 (.inl rfl) hx2 _ _ _ hw⟩
  · obtain ⟨c4, hw⟩ := writes c3 b3 hc3
    exact ⟨c4, h6 u3 x3 (.inr hu3) hx3 _ _ _ hw⟩

/-- **C59** The bytes written first may be others: an optional slice that is empty and not nil is written, comes back nil, and is then left out. -/
theorem C59_first_time_differs :
    MarshalReturns Ex.env (Binary.writer true) (.val 0 (.struct [.mapNil, .i32 0, .ptr (.str []), .other 0, .slice [] [], .other 0, .bool false])) ((), []) none
      ((), [11, 0, 2, 0, 0, 0, 0, 15, 0, 3, 11, 0, 0, 0, 0, 0]) ∧
    UnmarshalReturns Ex.env (Binary.reader true) (.val 4 (.ptr (Ex.env.zero 0))) ((), ⟨16, [11, 0, 2, 0, 0, 0, 0, 15, 0, 3, 11, 0, 0, 0, 0, 0], .err .eof⟩)
      none (.val 4 (.ptr (.struct [.mapNil, .i32 0, .ptr (.str []), .other 0, .sliceNil, .other 0, .bool false]))) ((), ⟨16, [], .err .eof⟩) ∧
    MarshalReturns Ex.env (Binary.writer true) (.val 0 (.struct [.mapNil, .i32 0, .ptr (.str []), .other 0, .sliceNil, .other 0, .bool false])) ((), []) none
      ((), [11, 0, 2, 0, 0, 0, 0, 0]) :=
  ⟨⟨20, fun fuel hf => ((Marshal_le Ex.env 20 fuel hf _).run _ _).done (by decide +kernel)⟩,
    ⟨20, fun fuel hf => ((Unmarshal_le Ex.env 20 fuel hf _).run _ _).done (sameResult_eq (by decide +kernel))⟩,
    ⟨20, fun fuel hf => ((Marshal_le Ex.env 20 fuel hf _).run _ _).done (by decide +kernel)⟩⟩

/-! ## Examples -/

/-- What `Ex.valQ` comes back as. -/
def Ex.valQ1 : GoVal :=
  .struct [.map [(.str (ascii "k"), .i64 7), (.str (ascii "l"), .i64 0)], .i32 5, .ptr (.str []), .other 0, .slice [.str (ascii "x"), .str []] [], .other 0, .bool false]

/-- The same, with the entries of the map in another order. -/
def Ex.valQ2 : GoVal :=
  .struct [.map [(.str (ascii "l"), .i64 0), (.str (ascii "k"), .i64 7)], .i32 5, .ptr (.str []), .other 0, .slice [.str (ascii "x"), .str []] [.str []], .other 0, .bool false]

theorem Ex.unmarshalsQ : UnmarshalReturns Ex.env (Binary.reader true) (.val 4 (.ptr (Ex.env.zero 0))) ((), ⟨16, Ex.bytesQ ++ [9], .err .eof⟩) none (.val 4 (.ptr Ex.valQ1)) ((), ⟨16, [9], .err .eof⟩) :=
  ⟨20, fun fuel hf => ((Unmarshal_le Ex.env 20 fuel hf _).run _ _).done (sameResult_eq (by decide +kernel))⟩

theorem Ex.unmarshalsQ_compact : UnmarshalReturns Ex.env Compact.reader (.val 4 (.ptr (Ex.env.zero 0))) ({}, ⟨16, Ex.compactQ ++ [9], .err .eof⟩) none (.val 4 (.ptr Ex.valQ1)) ({}, ⟨16, [9], .err .eof⟩) :=
  ⟨20, fun fuel hf => ((Unmarshal_le Ex.env 20 fuel hf _).run _ _).done (sameResult_eq (by decide +kernel))⟩

theorem Ex.sameQ : SameValue false Ex.valQ1 Ex.valQ2 := by
  refine .struct rfl fun i x x' h1 h2 => ?_
  match i with
  | 0 => cases h1; cases h2; exact .map (es1 := [(.str (ascii "k"), .i64 7), (.str (ascii "l"), .i64 0)]) (.swap _ _ _) (fun h => by cases h) rfl
          (fun i x x' h1 h2 => by cases h1.symm.trans h2; exact .refl _) (fun i x x' h1 h2 => by cases h1.symm.trans h2; exact .refl _)
  | 1 | 2 | 3 | 5 | 6 => cases h1; cases h2; exact .refl _
  | 4 => cases h1; cases h2; exact .slice rfl fun i x x' h1 h2 => by cases h1.symm.trans h2; exact .refl _
  | i + 7 => cases h1

/-- The laws hold of the program of the examples. -/
theorem Ex.laws : ZeroLaw Ex.env 0 ∧ FloatLaw Ex.env :=
  ⟨zeroLaw_plain fun _ _ => ⟨rfl, rfl⟩, fun x => by
    show ((((x.zeroExtend 64).truncate 32).zeroExtend 64).truncate 32) = ((x.zeroExtend 64).truncate 32 : BitVec 32)
    simp⟩

/-- The hypotheses of C59. -/
example : ∃ out2 v2, SameValue true Ex.valQ2 v2 ∧ MarshalReturns Ex.env (Binary.writer true) (.val 0 Ex.valQ2) ((), [3]) none ((), 3 :: out2) ∧
    MarshalReturns Ex.env (Binary.writer true) (.val 0 v2) ((), []) none ((), out2) := by
  obtain ⟨out2, h1, v2, h2, -, h3⟩ := C59_binary_settles Ex.env true (.val 0 Ex.valQ) 0 4 Ex.valQ (.inl ⟨rfl, fun e h => by cases h⟩) rfl Ex.hasType_valQ
    (Ex.sizes_valQ.mono (by decide)) Ex.keys_valQ Ex.distinct_P Ex.laws.1 Ex.laws.2 [1] Ex.bytesQ Ex.marshalsQ 16 (by decide) [9] (.err .eof) _ _ Ex.unmarshalsQ Ex.valQ2 Ex.sameQ
  exact ⟨out2, v2, h2, h1 _ _ (.inl ⟨rfl, fun e h => by cases h⟩), h3 v2 (.val 0 v2) [] (.refl _) (.inl ⟨rfl, fun e h => by cases h⟩)⟩

example : ∃ out2 v2 c3 c4, SameValue true Ex.valQ2 v2 ∧ MarshalReturns Ex.env Compact.writer (.val 0 Ex.valQ2) ({}, [3]) none (c3, 3 :: out2) ∧
    MarshalReturns Ex.env Compact.writer (.val 0 v2) ({}, []) none (c4, out2) := by
  obtain ⟨out2, h1, v2, h2, -, h3⟩ := C59_compact_settles Ex.env (.val 0 Ex.valQ) 0 4 Ex.valQ (.inl ⟨rfl, fun e h => by cases h⟩) rfl Ex.hasType_valQ
    (Ex.sizes_valQ.mono (by decide)) Ex.keys_valQ Ex.distinct_P Ex.laws.1 Ex.laws.2 {} {} rfl [1] Ex.compactQ Ex.marshalsQ_compact 16 (by decide) [9] (.err .eof) {} rfl (.inl ⟨_, rfl⟩) _ _
    Ex.unmarshalsQ_compact Ex.valQ2 Ex.sameQ
  obtain ⟨c3, h4⟩ := h1 (.val 0 Ex.valQ2) {} [3] (.inl ⟨rfl, fun e h => by cases h⟩) rfl
  obtain ⟨c4, h5⟩ := h3 v2 (.val 0 v2) {} [] (.refl _) (.inl ⟨rfl, fun e h => by cases h⟩) rfl
  exact ⟨out2, v2, c3, c4, h2, h4, h5⟩

/-! ## Where the zero law does not hold -/

/-- `type O struct { S S "1" }; type S struct { F float64 "1,required"; B []byte "2" }` -/
def Ex.typeO : TypeId → GoType
  | 0 => { name := ascii "O", kind := .struct [Ex.fld "S" "1" 1] }
  | 1 => { name := ascii "S", kind := .struct [Ex.fld "F" "1,required" 2, Ex.fld "B" "2" 3] }
  | 2 => { name := ascii "float64", kind := .float64 }
  | 3 => { name := [], kind := .slice 5, isBytes := true }
  | 4 => { name := [], kind := .ptr 0 }
  | 5 => { name := ascii "uint8", kind := .uint8 }
  | _ => { name := [], kind := .other }

/-- Their zero values. -/
def Ex.zeroO : TypeId → GoVal
  | 0 => .struct [.struct [.f64 0, .bytes none]]
  | 1 => .struct [.f64 0, .bytes none]
  | 2 => .f64 0
  | 3 => .bytes none
  | 4 => .ptrNil
  | 5 => .i8 0
  | _ => .other 0

/-- A program with these types, compiled with a Go version in which `reflect.Value.IsZero` takes negative zero for zero. -/
def Ex.envO : Env := { Ex.env with
  type := Ex.typeO, zero := Ex.zeroO, negZero := fun _ => true
  zero_eq := fun t => match t with
    | 0 | 1 | 2 | 3 | 4 | 5 => rfl
    | _ + 6 => rfl }

/-- **C59** needs the zero law: a struct of which the fields are negative zero and an empty byte slice is written, comes back with the byte slice nil, is then taken for zero and not written; so the
second round trip turns the negative zero into a zero. -/
theorem C59_needs_zero_law :
    MarshalReturns Ex.envO (Binary.writer true) (.val 0 (.struct [.struct [.f64 0x8000000000000000, .bytes (some [])]])) ((), []) none
      ((), [12, 0, 1, 4, 0, 1, 128, 0, 0, 0, 0, 0, 0, 0, 11, 0, 2, 0, 0, 0, 0, 0, 0]) ∧
    UnmarshalReturns Ex.envO (Binary.reader true) (.val 4 (.ptr (Ex.envO.zero 0))) ((), ⟨16, [12, 0, 1, 4, 0, 1, 128, 0, 0, 0, 0, 0, 0, 0, 11, 0, 2, 0, 0, 0, 0, 0, 0], .err .eof⟩)
      none (.val 4 (.ptr (.struct [.struct [.f64 0x8000000000000000, .bytes none]]))) ((), ⟨16, [], .err .eof⟩) ∧
    MarshalReturns Ex.envO (Binary.writer true) (.val 0 (.struct [.struct [.f64 0x8000000000000000, .bytes none]])) ((), []) none ((), [0]) ∧
    UnmarshalReturns Ex.envO (Binary.reader true) (.val 4 (.ptr (Ex.envO.zero 0))) ((), ⟨16, [0], .err .eof⟩)
      none (.val 4 (.ptr (.struct [.struct [.f64 0, .bytes none]]))) ((), ⟨16, [], .err .eof⟩) :=
  ⟨⟨20, fun fuel hf => ((Marshal_le Ex.envO 20 fuel hf _).run _ _).done (by decide +kernel)⟩,
    ⟨20, fun fuel hf => ((Unmarshal_le Ex.envO 20 fuel hf _).run _ _).done (sameResult_eq (by decide +kernel))⟩,
    ⟨20, fun fuel hf => ((Marshal_le Ex.envO 20 fuel hf _).run _ _).done (by decide +kernel)⟩,
    ⟨20, fun fuel hf => ((Unmarshal_le Ex.envO 20 fuel hf _).run _ _).done (sameResult_eq (by decide +kernel))⟩⟩

end GoThrift
