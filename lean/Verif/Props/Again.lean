import Verif.Proof.Again
import Verif.Proof.KeyEq
import Verif.Props.MapOrder

/-!
# C94: receiving the same value again changes nothing
-/

namespace GoThrift

open Spec Spec.TVal

/-- **C94**: once Unmarshal has read a wire value into a variable, reading the same value into the variable again - from any Reader that holds it - returns nil and leaves the variable as it is, but
for the order of map entries and spare capacity. The variable may have held anything before the first time. (The keys of maps have to be different, and equal to themselves, and no declared field may
come twice.) -/
theorem C94_again {S S2 : Type} (env : Env) (r : Rdr S) (r2 : Rdr S2) (p t : TypeId) (hp : (env.type p).kind = .ptr t) (hacc : Acc (InPart env) t) (hg : AllGood env t)
    (hd : ∀ t', Within env t' t → DistinctIds env t') (lim : Nat) (tv : TVal) (hwf : WF lim tv) (ha : KeysApart env t tv) (he : KeysEqual env t tv) (hi : IdsOnce env t tv) (hw : WireTypeOf env t tv.ty)
    (s s' : S) (hh : Holds r tv s s') (s2 s2' : S2) (hh2 : Holds r2 tv s2 s2') (old : GoVal) (ht : ValidValue env t old) (x : AnyVal) (s1 : S)
    (h : UnmarshalReturns env r (.val p (.ptr old)) s none x s1) :
    ∃ v v', x = .val p (.ptr v) ∧ UnmarshalReturns env r2 (.val p (.ptr v)) s2 none (.val p (.ptr v')) s2' ∧ SameValue false v v' := by
  have hout := C51_outcome env r p t hp hacc hg hd lim tv hwf hw s s' hh old ht.hasType
  obtain ⟨v, rfl, hv⟩ := C51_success env r p t hp tv hw s s' s1 hh old x h
  have htv : HasType env t v := by
    rcases hout with ⟨_, w, h1, _, h3⟩ | ⟨bad, t', w, s3, h1, _⟩
    · have := (h.unique h1).2.1
      cases this
      exact h3
    · exact absurd hv (h1.not_decodes hd old v)
  rcases C51_outcome env r2 p t hp hacc hg hd lim tv hwf hw s2 s2' hh2 v htv with ⟨_, v', h1, h2, _⟩ | ⟨bad, t', v', s3, h1, _⟩
  · exact ⟨v, v', rfl, h1, decodesAgain env tv t old v v' hv h2 ht.neat hd ha he hi⟩
  · exact absurd hv (h1.not_decodes hd old v)

/-- **C94** binary: what Marshal wrote is received twice, the second time into the variable of the first time. -/
theorem C94_binary (env : Env) (strict : Bool) (x : AnyVal) (t p : TypeId) (v : GoVal) (hx : Passes env x t v) (hp : (env.type p).kind = .ptr t) (ht : HasType env t v)
    (hs : SizesAtMost env (2 ^ 31 - 1) t v) (hk : KeysSurvive env t v) (hke : KeysStayEqual env t v) (hd : ∀ t', Within env t' t → DistinctIds env t') (hg : AllGood env t) (b out : Bytes)
    (h : MarshalReturns env (Binary.writer strict) x ((), b) none ((), b ++ out)) (old : GoVal) (hold : ValidValue env t old) (size : Nat) (hsize : 16 ≤ size) (rest : Bytes) (fin : End) (w : GoVal)
    (s1 : Unit × Flat) (h1 : UnmarshalReturns env (Binary.reader strict) (.val p (.ptr old)) ((), ⟨size, out ++ rest, fin⟩) none (.val p (.ptr w)) s1)
    (size2 : Nat) (hsize2 : 16 ≤ size2) (rest2 : Bytes) (fin2 : End) :
    ∃ w', UnmarshalReturns env (Binary.reader strict) (.val p (.ptr w)) ((), ⟨size2, out ++ rest2, fin2⟩) none (.val p (.ptr w')) ((), ⟨size2, rest2, fin2⟩) ∧ SameValue false w w' := by
  obtain ⟨tv, hr, hw, n, a, hl, _⟩ := h.rep hx ht
  obtain rfl : out = encBin tv := by simpa using hw.unique (Binary.writes strict tv b)
  obtain ⟨w1, _, _⟩ := rep_wf hr _ ht hs
  obtain ⟨u, u', e, h2, h3⟩ := C94_again env _ _ p t hp ((lookup_iff_acc env t).1 ⟨n, a, hl⟩) hg hd _ tv w1 (keysApart_rep hr hk hd) (keysEqual_rep hr hk hke hd) (idsOnce_rep hr hk hd)
    (rep_wireType hr) _ _ (Binary.holds strict size hsize fin tv w1 rest) _ _ (Binary.holds strict size2 hsize2 fin2 tv w1 rest2) old hold _ _ h1
  cases e
  exact ⟨u', h2, h3⟩

/-- **C94** compact. -/
theorem C94_compact (env : Env) (x : AnyVal) (t p : TypeId) (v : GoVal) (hx : Passes env x t v) (hp : (env.type p).kind = .ptr t) (ht : HasType env t v)
    (hs : SizesAtMost env (2 ^ 63 - 1) t v) (hk : KeysSurvive env t v) (hke : KeysStayEqual env t v) (hd : ∀ t', Within env t' t → DistinctIds env t') (hg : AllGood env t)
    (c c1 : Compact.WState) (hc : c.boolField.type = Ty.stop) (b out : Bytes) (h : MarshalReturns env Compact.writer x (c, b) none (c1, b ++ out)) (old : GoVal) (hold : ValidValue env t old)
    (size : Nat) (hsize : 16 ≤ size) (rest : Bytes) (fin : End) (rs : Compact.RState) (hrs : rs.boolField = .none) (hfin : (∃ e, fin = .err e) ∨ 9 ≤ rest.length) (w : GoVal) (s1 : Compact.RState × Flat)
    (h1 : UnmarshalReturns env Compact.reader (.val p (.ptr old)) (rs, ⟨size, out ++ rest, fin⟩) none (.val p (.ptr w)) s1)
    (size2 : Nat) (hsize2 : 16 ≤ size2) (rest2 : Bytes) (fin2 : End) (rs2 : Compact.RState) (hrs2 : rs2.boolField = .none) (hfin2 : (∃ e, fin2 = .err e) ∨ 9 ≤ rest2.length) :
    ∃ w', UnmarshalReturns env Compact.reader (.val p (.ptr w)) (rs2, ⟨size2, out ++ rest2, fin2⟩) none (.val p (.ptr w')) (rs2, ⟨size2, rest2, fin2⟩) ∧ SameValue false w w' := by
  obtain ⟨tv, hr, hw, n, a, hl, _⟩ := h.rep hx ht
  obtain ⟨w1, w2, w3⟩ := rep_wf hr _ ht hs
  obtain ⟨_, _, hw'⟩ := Compact.writes tv w1 w2 c b hc
  rw [Compact.enc_noWrap tv w3] at hw'
  obtain rfl : out = encCompact tv := by simpa using congrArg Prod.snd (hw.unique hw')
  obtain ⟨u, u', e, h2, h3⟩ := C94_again env _ _ p t hp ((lookup_iff_acc env t).1 ⟨n, a, hl⟩) hg hd _ tv w1 (keysApart_rep hr hk hd) (keysEqual_rep hr hk hke hd) (idsOnce_rep hr hk hd)
    (rep_wireType hr) _ _ (Compact.holds size hsize fin tv w1 w2 rs rest hrs (.inl hfin)) _ _ (Compact.holds size2 hsize2 fin2 tv w1 w2 rs2 rest2 hrs2 (.inl hfin2)) old hold _ _ h1
  cases e
  exact ⟨u', h2, h3⟩

/-- **C94**: a key that is NaN makes the map grow every time. -/
theorem C94_nan {S : Type} (env : Env) (r : Rdr S) (p t k e : TypeId) (hp : (env.type p).kind = .ptr t) (hk : (env.type t).kind = .map k e) (hf : (env.type k).kind = .float64) (kw ew : WType)
    (x : BitVec 64) (hx : ¬ Number64 x) (tv : TVal) (s s' s1 : S) (hh : Holds r (.map kw ew [(.double x, tv)]) s s') (es : List (GoVal × GoVal)) (y : AnyVal)
    (h : UnmarshalReturns env r (.val p (.ptr (.map es))) s none y s1) : ∃ es', y = .val p (.ptr (.map es')) ∧ es'.length = es.length + 1 := by
  obtain ⟨v, rfl, hv⟩ := C51_success env r p t hp (.map kw ew [(.double x, tv)]) (.map hk) s s' s1 hh _ y h
  clear h hh
  cases hv with
  | seq _ _ _ h => split at h <;> cases h
  | @map _ k' e' _ _ _ _ out hk' _ _ hd =>
    rw [hk] at hk'
    cases hk'
    refine ⟨out, rfl, ?_⟩
    cases hd with
    | @cons _ _ _ _ _ _ a b d1 d2 d3 =>
      cases d3
      have ha : ∀ z, a.keyEq z = false := by
        generalize env.zero k = z0 at d1
        cases d1 with
        | f64 =>
          intro z
          cases z with
          | f64 =>
            rw [GoVal.keyEq, Bool.eq_false_iff]
            exact fun h => hx ((f64Eq_number _ _).1 h).1
          | _ => rfl
        | f32 _ h => rw [hf] at h; cases h
        | ptr h => rw [hf] at h; cases h
        | ptrNil h => rw [hf] at h; cases h
        | seqNil _ _ _ h => split at h <;> cases h
        | seqEmpty _ _ _ h => split at h <;> cases h
        | seq _ _ _ h => split at h <;> cases h
      show (setMapIndex a b es).length = _
      clear d2
      induction es with
      | nil => rfl
      | cons z es ih =>
        obtain ⟨z1, z2⟩ := z
        rw [setMapIndex, if_neg (by simp [ha])]
        simp [ih]

/-! ## Examples -/

theorem Ex.keysStay_valQ : KeysStayEqual Ex.env 0 Ex.valQ := by
  refine ⟨(fun es h => by cases h), ?_⟩
  simp only [EverywhereFields, Everywhere, EverywhereEntries, EverywhereElems, Ex.env, Ex.type, Ex.fieldsP, Ex.fld, Env.fields, Env.elemType, Env.keyType, and_true]
  simp only [reduceCtorEq, false_implies, implies_true, and_true, true_and, GoVal.map.injEq, forall_eq']
  intro x hx x' hr
  simp only [List.mem_cons, List.not_mem_nil, or_false] at hx
  rcases hx with rfl | rfl
  · rw [PlainKey.same (by simp [PlainKey]) hr]; decide
  · rw [PlainKey.same (by simp [PlainKey]) hr]; decide

/-- What `valQ` is written as, read a second time into the variable that held an older value the first time. -/
example : ∃ w w', UnmarshalReturns Ex.env (Binary.reader true) (.val 4 (.ptr Ex.valQ)) ((), ⟨16, Ex.bytesQ ++ [9], .err .eof⟩) none (.val 4 (.ptr w)) ((), ⟨16, [9], .err .eof⟩) ∧
    UnmarshalReturns Ex.env (Binary.reader true) (.val 4 (.ptr w)) ((), ⟨16, Ex.bytesQ ++ [], .block⟩) none (.val 4 (.ptr w')) ((), ⟨16, [], .block⟩) ∧ SameValue false w w' := by
  have h : UnmarshalReturns Ex.env (Binary.reader true) (.val 4 (.ptr Ex.valQ)) ((), ⟨16, Ex.bytesQ ++ [9], .err .eof⟩) none
      (.val 4 (.ptr (.struct [.map [(.str (ascii "k"), .i64 7), (.str (ascii "l"), .i64 0)], .i32 5, .ptr (.str []), .other 0, .slice [.str (ascii "x"), .str []] [.str (ascii "old")], .other 3, .bool false])))
      ((), ⟨16, [9], .err .eof⟩) := ⟨20, fun fuel hf => ((Unmarshal_le Ex.env 20 fuel hf _).run _ _).done (sameResult_eq (by decide +kernel))⟩
  obtain ⟨w', h1, h2⟩ := C94_binary Ex.env true (.val 0 Ex.valQ) 0 4 _ (.inl ⟨rfl, fun e h => by cases h⟩) rfl Ex.hasType_valQ (Ex.sizes_valQ.mono (by decide)) Ex.keys_valQ Ex.keysStay_valQ
    Ex.distinct_P Ex.allGood_P [1] Ex.bytesQ Ex.marshalsQ Ex.valQ Ex.valid_valQ 16 (by decide) [9] (.err .eof) _ _ h 16 (by decide) [] .block
  exact ⟨_, w', h, h1, h2⟩

example : ∃ w w', UnmarshalReturns Ex.env Compact.reader (.val 4 (.ptr Ex.valQ)) ({}, ⟨16, Ex.compactQ ++ [9], .err .eof⟩) none (.val 4 (.ptr w)) ({}, ⟨16, [9], .err .eof⟩) ∧
    UnmarshalReturns Ex.env Compact.reader (.val 4 (.ptr w)) ({}, ⟨16, Ex.compactQ ++ [], .err .eof⟩) none (.val 4 (.ptr w')) ({}, ⟨16, [], .err .eof⟩) ∧ SameValue false w w' := by
  have h : UnmarshalReturns Ex.env Compact.reader (.val 4 (.ptr Ex.valQ)) ({}, ⟨16, Ex.compactQ ++ [9], .err .eof⟩) none
      (.val 4 (.ptr (.struct [.map [(.str (ascii "k"), .i64 7), (.str (ascii "l"), .i64 0)], .i32 5, .ptr (.str []), .other 0, .slice [.str (ascii "x"), .str []] [.str (ascii "old")], .other 3, .bool false])))
      ({}, ⟨16, [9], .err .eof⟩) := ⟨20, fun fuel hf => ((Unmarshal_le Ex.env 20 fuel hf _).run _ _).done (sameResult_eq (by decide +kernel))⟩
  obtain ⟨w', h1, h2⟩ := C94_compact Ex.env (.val 0 Ex.valQ) 0 4 _ (.inl ⟨rfl, fun e h => by cases h⟩) rfl Ex.hasType_valQ (Ex.sizes_valQ.mono (by decide)) Ex.keys_valQ Ex.keysStay_valQ
    Ex.distinct_P Ex.allGood_P {} _ rfl [1] Ex.compactQ Ex.marshalsQ_compact Ex.valQ Ex.valid_valQ 16 (by decide) [9] (.err .eof) {} rfl (.inl ⟨_, rfl⟩) _ _ h 16 (by decide) [] (.err .eof) {} rfl
    (.inl ⟨_, rfl⟩)
  exact ⟨_, w', h, h1, h2⟩

/-- `map[float64]bool` -/
def Ex.typeN : TypeId → GoType
  | 0 => { name := [], kind := .map 1 2 }
  | 1 => { name := ascii "float64", kind := .float64 }
  | 2 => { name := ascii "bool", kind := .bool }
  | _ => { name := [], kind := .ptr 0 }

/-- Zero values. -/
def Ex.zeroN : TypeId → GoVal
  | 0 => .mapNil
  | 1 => .f64 0
  | 2 => .bool false
  | _ => .ptrNil

theorem Ex.zeroN_eq : ∀ t, Ex.zeroN t = (Ex.typeN t).kind.zero Ex.zeroN (Ex.typeN t).asBytes
  | 0 | 1 | 2 | _ + 3 => rfl

/-- A program with this type. -/
def Ex.envN : Env := { Ex.env with type := Ex.typeN, zero := Ex.zeroN, zero_eq := Ex.zeroN_eq }

/-- A map that has an entry for NaN gets another one. -/
example : ∃ es', UnmarshalReturns Ex.envN (Binary.reader true) (.val 3 (.ptr (.map [(.f64 0x7ff8000000000001, .bool true)])))
      ((), ⟨16, encBin (.map Ty.double Ty.bool [(.double 0x7ff8000000000001, .bool true)]) ++ [], .err .eof⟩) none (.val 3 (.ptr (.map es'))) ((), ⟨16, [], .err .eof⟩) ∧ es'.length = 2 := by
  have h : UnmarshalReturns Ex.envN (Binary.reader true) (.val 3 (.ptr (.map [(.f64 0x7ff8000000000001, .bool true)])))
      ((), ⟨16, encBin (.map Ty.double Ty.bool [(.double 0x7ff8000000000001, .bool true)]) ++ [], .err .eof⟩) none
      (.val 3 (.ptr (.map [(.f64 0x7ff8000000000001, .bool true), (.f64 0x7ff8000000000001, .bool true)]))) ((), ⟨16, [], .err .eof⟩) :=
    ⟨20, fun fuel hf => ((Unmarshal_le Ex.envN 20 fuel hf _).run _ _).done (sameResult_eq (by decide +kernel))⟩
  obtain ⟨es', e, h2⟩ := C94_nan Ex.envN (Binary.reader true) 3 0 1 2 rfl rfl rfl Ty.double Ty.bool 0x7ff8000000000001 (by simp [Number64]) (.bool true) _ _ _
    (Binary.holds true 16 (by decide) (.err .eof) (.map Ty.double Ty.bool [(.double 0x7ff8000000000001, .bool true)]) (by simp [WF, WFEntries, ty]) []) _ _ h
  cases e
  exact ⟨_, h, h2⟩

end GoThrift
