import Verif.Proof.AnyOrder
import Verif.Props.Again

/-!
# C95: the order in which fields come makes no difference
-/

namespace GoThrift

open Spec Spec.TVal

/-- **C95**: two Readers hold wire values that are the same but for the order of the fields of the structs and of the entries of the maps inside. Where Unmarshal reads the one into a variable, it
reads the other into any variable that held the same as the first (but for the order of map entries and spare capacity), and the variables again hold the same, in this sense, afterwards. (The keys of
a map have to be different, and no declared field may come twice.) -/
theorem C95_order {S S2 : Type} (env : Env) (r : Rdr S) (r2 : Rdr S2) (p t : TypeId) (hp : (env.type p).kind = .ptr t) (hacc : Acc (InPart env) t) (hg : AllGood env t)
    (hd : ∀ t', Within env t' t → DistinctIds env t') (lim : Nat) (tv tv' : TVal) (hwf : WF lim tv) (ho : AnyOrder tv tv') (ha : KeysApart env t tv) (hi : IdsOnce env t tv)
    (hw : WireTypeOf env t tv.ty) (s s' : S) (hh : Holds r tv s s') (s2 s2' : S2) (hh2 : Holds r2 tv' s2 s2') (old old' : GoVal) (ht : ValidValue env t old) (hold : SameValue false old old')
    (x : AnyVal) (s1 : S) (h : UnmarshalReturns env r (.val p (.ptr old)) s none x s1) :
    ∃ v v', x = .val p (.ptr v) ∧ UnmarshalReturns env r2 (.val p (.ptr old')) s2 none (.val p (.ptr v')) s2' ∧ SameValue false v v' := by
  obtain ⟨v, rfl, hv⟩ := C51_success env r p t hp tv hw s s' s1 hh old x h
  rcases C51_outcome env r2 p t hp hacc hg hd lim tv' (ho.wf hwf) (by rw [ho.ty]; exact hw) s2 s2' hh2 old' (hold.hasType ht.hasType) with ⟨_, v', h1, h2, _⟩ | ⟨bad, t', v', s3, h1, _⟩
  · exact ⟨v, v', rfl, h1, decodesAny env tv t old old' v tv' v' hv h2 hold ho ht.neat hd ⟨ha, hi⟩⟩
  · exact absurd hv ((ho.symm.mismatch h1).not_decodes hd old v)

/-- **C95** binary: Marshal writes a value, and another program writes the same with the fields and map entries in any order. Where Unmarshal reads the bytes of Marshal, it reads those of the other
program, exactly to their end, and obtains the same. -/
theorem C95_binary (env : Env) (strict : Bool) (x : AnyVal) (t p : TypeId) (v : GoVal) (hx : Passes env x t v) (hp : (env.type p).kind = .ptr t) (ht : HasType env t v)
    (hs : SizesAtMost env (2 ^ 31 - 1) t v) (hk : KeysSurvive env t v) (hd : ∀ t', Within env t' t → DistinctIds env t') (hg : AllGood env t) (b out : Bytes)
    (h : MarshalReturns env (Binary.writer strict) x ((), b) none ((), b ++ out)) (old old' : GoVal) (hold : ValidValue env t old) (ho : SameValue false old old') (size : Nat) (hsize : 16 ≤ size)
    (rest : Bytes) (fin : End) (w : GoVal) (s1 : Unit × Flat)
    (h1 : UnmarshalReturns env (Binary.reader strict) (.val p (.ptr old)) ((), ⟨size, out ++ rest, fin⟩) none (.val p (.ptr w)) s1) :
    ∃ tv, Rep env t v tv ∧ out = encBin tv ∧ ∀ tv', AnyOrder tv tv' → ∀ (size : Nat) (rest : Bytes) (fin : End), 16 ≤ size →
      ∃ w', UnmarshalReturns env (Binary.reader strict) (.val p (.ptr old')) ((), ⟨size, encBin tv' ++ rest, fin⟩) none (.val p (.ptr w')) ((), ⟨size, rest, fin⟩) ∧ SameValue false w w' := by
  obtain ⟨tv, hr, hw, n, a, hl, _⟩ := h.rep hx ht
  obtain rfl : out = encBin tv := by simpa using hw.unique (Binary.writes strict tv b)
  obtain ⟨w1, _, _⟩ := rep_wf hr _ ht hs
  refine ⟨tv, hr, rfl, fun tv' hany size2 rest2 fin2 hsize2 => ?_⟩
  obtain ⟨u, u', e, h2, h3⟩ := C95_order env _ _ p t hp ((lookup_iff_acc env t).1 ⟨n, a, hl⟩) hg hd _ tv tv' w1 hany (keysApart_rep hr hk hd) (idsOnce_rep hr hk hd)
    (rep_wireType hr) _ _ (Binary.holds strict size hsize fin tv w1 rest) _ _ (Binary.holds strict size2 hsize2 fin2 tv' (hany.wf w1) rest2) old old' hold ho _ _ h1
  cases e
  exact ⟨u', h2, h3⟩

/-- **C95** compact: also where the ids do not ascend. -/
theorem C95_compact (env : Env) (x : AnyVal) (t p : TypeId) (v : GoVal) (hx : Passes env x t v) (hp : (env.type p).kind = .ptr t) (ht : HasType env t v)
    (hs : SizesAtMost env (2 ^ 63 - 1) t v) (hk : KeysSurvive env t v) (hd : ∀ t', Within env t' t → DistinctIds env t') (hg : AllGood env t)
    (c c1 : Compact.WState) (hc : c.boolField.type = Ty.stop) (b out : Bytes) (h : MarshalReturns env Compact.writer x (c, b) none (c1, b ++ out)) (old old' : GoVal) (hold : ValidValue env t old)
    (ho : SameValue false old old') (size : Nat) (hsize : 16 ≤ size) (rest : Bytes) (fin : End) (rs : Compact.RState) (hrs : rs.boolField = .none) (hfin : (∃ e, fin = .err e) ∨ 9 ≤ rest.length)
    (w : GoVal) (s1 : Compact.RState × Flat) (h1 : UnmarshalReturns env Compact.reader (.val p (.ptr old)) (rs, ⟨size, out ++ rest, fin⟩) none (.val p (.ptr w)) s1) :
    ∃ tv, Rep env t v tv ∧ out = encCompact tv ∧ ∀ tv', AnyOrder tv tv' → ∀ (size : Nat) (rest : Bytes) (fin : End) (rs : Compact.RState), 16 ≤ size → rs.boolField = .none →
      ((∃ e, fin = .err e) ∨ 9 ≤ rest.length) →
      ∃ w', UnmarshalReturns env Compact.reader (.val p (.ptr old')) (rs, ⟨size, encCompact tv' ++ rest, fin⟩) none (.val p (.ptr w')) (rs, ⟨size, rest, fin⟩) ∧ SameValue false w w' := by
  obtain ⟨tv, hr, hw, n, a, hl, _⟩ := h.rep hx ht
  obtain ⟨w1, w2, w3⟩ := rep_wf hr _ ht hs
  obtain ⟨_, _, hw'⟩ := Compact.writes tv w1 w2 c b hc
  rw [Compact.enc_noWrap tv w3] at hw'
  obtain rfl : out = encCompact tv := by simpa using congrArg Prod.snd (hw.unique hw')
  refine ⟨tv, hr, rfl, fun tv' hany size2 rest2 fin2 rs2 hsize2 hrs2 hfin2 => ?_⟩
  obtain ⟨u, u', e, h2, h3⟩ := C95_order env _ _ p t hp ((lookup_iff_acc env t).1 ⟨n, a, hl⟩) hg hd _ tv tv' w1 hany (keysApart_rep hr hk hd) (idsOnce_rep hr hk hd)
    (rep_wireType hr) _ _ (Compact.holds size hsize fin tv w1 w2 rs rest hrs (.inl hfin)) _ _
    (Compact.holds size2 hsize2 fin2 tv' (hany.wf w1) (hany.typesOK w2) rs2 rest2 hrs2 (.inl hfin2)) old old' hold ho _ _ h1
  cases e
  exact ⟨u', h2, h3⟩

/-- **C95**: a field that comes twice is the exception; the last one counts. -/
theorem C95_repeated_field :
    AnyOrder (.struct [] [([], 1, .i32 5), ([], 1, .i32 6)]) (.struct [] [([], 1, .i32 6), ([], 1, .i32 5)]) ∧
    (∃ w, UnmarshalReturns Ex.env (Binary.reader true) (.val 4 (.ptr (Ex.env.zero 0))) ((), ⟨16, encBin (.struct [] [([], 1, .i32 5), ([], 1, .i32 6)]), .err .eof⟩) none
      (.val 4 (.ptr (.struct w))) ((), ⟨16, [], .err .eof⟩) ∧ w[1]? = some (.i32 6)) ∧
    ∃ w, UnmarshalReturns Ex.env (Binary.reader true) (.val 4 (.ptr (Ex.env.zero 0))) ((), ⟨16, encBin (.struct [] [([], 1, .i32 6), ([], 1, .i32 5)]), .err .eof⟩) none
      (.val 4 (.ptr (.struct w))) ((), ⟨16, [], .err .eof⟩) ∧ w[1]? = some (.i32 5) := by
  refine ⟨.struct (fs1 := [([], 1, .i32 5), ([], 1, .i32 6)]) _ _ (.swap _ _ _) rfl (fun i e e' h1 h2 => by cases h1.symm.trans h2; rfl) (fun i e e' h1 h2 => by cases h1.symm.trans h2; exact .refl _),
    ⟨[.mapNil, .i32 6, .ptrNil, .other 0, .sliceNil, .other 0, .bool false],
      ⟨20, fun fuel hf => ((Unmarshal_le Ex.env 20 fuel hf _).run _ _).done (sameResult_eq (by decide +kernel))⟩, rfl⟩,
    ⟨[.mapNil, .i32 5, .ptrNil, .other 0, .sliceNil, .other 0, .bool false],
      ⟨20, fun fuel hf => ((Unmarshal_le Ex.env 20 fuel hf _).run _ _).done (sameResult_eq (by decide +kernel))⟩, rfl⟩⟩

/-! ## Examples -/

/-- The fields in the reverse order. -/
theorem Ex.anyOrder_reverse (n : Bytes) (fs : List (Bytes × BitVec 16 × TVal)) : AnyOrder (.struct n fs) (.struct n fs.reverse) :=
  .struct n n (List.reverse_perm fs).symm rfl (fun i f f' h1 h2 => by cases h1.symm.trans h2; rfl) (fun i f f' h1 h2 => by cases h1.symm.trans h2; exact .refl _)

theorem Ex.rep_struct {env : Env} {t : TypeId} {vs : List GoVal} {tv : TVal} (h : Rep env t (.struct vs) tv) : ∃ n fs, tv = .struct n fs := by
  cases h with
  | leaf h => cases h
  | set _ _ h => rcases h with h | ⟨_, _, h⟩ <;> cases h
  | list _ _ _ h => rcases h with h | ⟨_, _, h⟩ <;> cases h
  | map _ h => rcases h with h | ⟨_, h⟩ <;> cases h
  | struct => exact ⟨_, _, rfl⟩

/-- `valQ` with its fields in the reverse order, read into a variable that holds an older value. -/
example : ∃ n fs w w', Ex.bytesQ = encBin (.struct n fs) ∧
    UnmarshalReturns Ex.env (Binary.reader true) (.val 4 (.ptr Ex.valQr)) ((), ⟨16, encBin (.struct n fs.reverse) ++ [], .block⟩) none (.val 4 (.ptr w')) ((), ⟨16, [], .block⟩) ∧
    SameValue false w w' := by
  have h : UnmarshalReturns Ex.env (Binary.reader true) (.val 4 (.ptr Ex.valQ)) ((), ⟨16, Ex.bytesQ ++ [9], .err .eof⟩) none
      (.val 4 (.ptr (.struct [.map [(.str (ascii "k"), .i64 7), (.str (ascii "l"), .i64 0)], .i32 5, .ptr (.str []), .other 0, .slice [.str (ascii "x"), .str []] [.str (ascii "old")], .other 3, .bool false])))
      ((), ⟨16, [9], .err .eof⟩) := ⟨20, fun fuel hf => ((Unmarshal_le Ex.env 20 fuel hf _).run _ _).done (sameResult_eq (by decide +kernel))⟩
  obtain ⟨tv, hr, h1, h2⟩ := C95_binary Ex.env true (.val 0 Ex.valQ) 0 4 _ (.inl ⟨rfl, fun e h => by cases h⟩) rfl Ex.hasType_valQ (Ex.sizes_valQ.mono (by decide)) Ex.keys_valQ
    Ex.distinct_P Ex.allGood_P [1] Ex.bytesQ Ex.marshalsQ Ex.valQ Ex.valQr Ex.valid_valQ Ex.sameQr 16 (by decide) [9] (.err .eof) _ _ h
  obtain ⟨n, fs, rfl⟩ := Ex.rep_struct hr
  obtain ⟨w', h3, h4⟩ := h2 _ (Ex.anyOrder_reverse n fs) 16 [] .block (by decide)
  exact ⟨n, fs, _, w', h1, h3, h4⟩

example : ∃ n fs w w', Ex.compactQ = encCompact (.struct n fs) ∧
    UnmarshalReturns Ex.env Compact.reader (.val 4 (.ptr Ex.valQr)) ({}, ⟨16, encCompact (.struct n fs.reverse) ++ [], .err .eof⟩) none (.val 4 (.ptr w')) ({}, ⟨16, [], .err .eof⟩) ∧
    SameValue false w w' := by
  have h : UnmarshalReturns Ex.env Compact.reader (.val 4 (.ptr Ex.valQ)) ({}, ⟨16, Ex.compactQ ++ [9], .err .eof⟩) none
      (.val 4 (.ptr (.struct [.map [(.str (ascii "k"), .i64 7), (.str (ascii "l"), .i64 0)], .i32 5, .ptr (.str []), .other 0, .slice [.str (ascii "x"), .str []] [.str (ascii "old")], .other 3, .bool false])))
      ({}, ⟨16, [9], .err .eof⟩) := ⟨20, fun fuel hf => ((Unmarshal_le Ex.env 20 fuel hf _).run _ _).done (sameResult_eq (by decide +kernel))⟩
  obtain ⟨tv, hr, h1, h2⟩ := C95_compact Ex.env (.val 0 Ex.valQ) 0 4 _ (.inl ⟨rfl, fun e h => by cases h⟩) rfl Ex.hasType_valQ (Ex.sizes_valQ.mono (by decide)) Ex.keys_valQ
    Ex.distinct_P Ex.allGood_P {} _ rfl [1] Ex.compactQ Ex.marshalsQ_compact Ex.valQ Ex.valQr Ex.valid_valQ Ex.sameQr 16 (by decide) [9] (.err .eof) {} rfl (.inl ⟨_, rfl⟩) _ _ h
  obtain ⟨n, fs, rfl⟩ := Ex.rep_struct hr
  obtain ⟨w', h3, h4⟩ := h2 _ (Ex.anyOrder_reverse n fs) 16 [] (.err .eof) {} (by decide) rfl (.inl ⟨_, rfl⟩)
  exact ⟨n, fs, _, w', h1, h3, h4⟩

/-- `C95_order` with one order in the binary protocol and the other in the compact one: what holds of the wire value of `valQ` holds of its parts in any order. -/
example : ∃ n fs w w', Ex.bytesQ = encBin (.struct n fs) ∧
    UnmarshalReturns Ex.env Compact.reader (.val 4 (.ptr Ex.valQ)) ({}, ⟨16, encCompact (.struct n fs.reverse) ++ [], .err .eof⟩) none (.val 4 (.ptr w')) ({}, ⟨16, [], .err .eof⟩) ∧
    SameValue false w w' := by
  have h : UnmarshalReturns Ex.env (Binary.reader true) (.val 4 (.ptr Ex.valQ)) ((), ⟨16, Ex.bytesQ ++ [9], .err .eof⟩) none
      (.val 4 (.ptr (.struct [.map [(.str (ascii "k"), .i64 7), (.str (ascii "l"), .i64 0)], .i32 5, .ptr (.str []), .other 0, .slice [.str (ascii "x"), .str []] [.str (ascii "old")], .other 3, .bool false])))
      ((), ⟨16, [9], .err .eof⟩) := ⟨20, fun fuel hf => ((Unmarshal_le Ex.env 20 fuel hf _).run _ _).done (sameResult_eq (by decide +kernel))⟩
  obtain ⟨tv, hr, hw, n, a, hl, _⟩ := Ex.marshalsQ.rep (.inl ⟨rfl, fun e h => by cases h⟩) Ex.hasType_valQ
  have h1 : Ex.bytesQ = encBin tv := by simpa using hw.unique (Binary.writes true tv [1])
  obtain ⟨n', fs, rfl⟩ := Ex.rep_struct hr
  obtain ⟨w1, w2, _⟩ := rep_wf hr (2 ^ 31 - 1) Ex.hasType_valQ (Ex.sizes_valQ.mono (by decide))
  obtain ⟨w3, _, _⟩ := rep_wf hr (2 ^ 63 - 1) Ex.hasType_valQ (Ex.sizes_valQ.mono (by decide))
  have ho := Ex.anyOrder_reverse n' fs
  rw [h1] at h
  obtain ⟨u, u', e, h2, h3⟩ := C95_order Ex.env _ _ 4 0 rfl ((lookup_iff_acc Ex.env 0).1 ⟨n, a, hl⟩) Ex.allGood_P Ex.distinct_P _ _ _ w1 ho (keysApart_rep hr Ex.keys_valQ Ex.distinct_P)
    (idsOnce_rep hr Ex.keys_valQ Ex.distinct_P) (rep_wireType hr) _ _ (Binary.holds true 16 (by decide) (.err .eof) _ w1 [9]) _ _
    (Compact.holds 16 (by decide) (.err .eof) _ (ho.wf w3) (ho.typesOK w2) {} [] rfl (.inl (.inl ⟨_, rfl⟩))) Ex.valQ Ex.valQ Ex.valid_valQ (.refl _) _ _ h
  exact ⟨n', fs, u, u', h1, h2, h3⟩

end GoThrift
