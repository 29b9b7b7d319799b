import Verif.Proof.OrderRead
import Verif.Props.Canon
import Verif.Props.Decode
import Verif.Props.Hostile
import Verif.Props.Size

/-!
# C88: the order in which Go visits the entries of a map makes no difference
-/

namespace GoThrift

open Spec Spec.TVal

/-! ## Writing -/

/-- **C88**: two values that differ only in the order in which the entries of their maps come (and in the spare capacity of their slices) are accepted by Marshal alike. -/
theorem C88_accepts (env : Env) (x x' : AnyVal) (t : TypeId) (v v' : GoVal) (hx : Passes env x t v) (hx' : Passes env x' t v') (ht : HasType env t v) (hz : FairIsZero env t)
    (hv : SameValue false v v') : (∃ ops, MarshalReturns env okWriter x [] none ops) ↔ ∃ ops, MarshalReturns env okWriter x' [] none ops := by
  have key : ∀ {x x' : AnyVal} {v v' : GoVal}, Passes env x t v → Passes env x' t v' → HasType env t v → SameValue false v v' →
      (∃ ops, MarshalReturns env okWriter x [] none ops) → ∃ ops, MarshalReturns env okWriter x' [] none ops := by
    rintro x x' v v' hx hx' ht hv ⟨ops, h⟩
    obtain ⟨tv, hr, _, n, a, hl, _⟩ := h.rep hx ht
    obtain ⟨tv', hr', _⟩ := hv.rep_reordered ht hz.zeroSame hr
    exact (C54_accepts env x' t v' hx' (hv.hasType ht) ((lookup_iff_acc env t).1 ⟨n, a, hl⟩)).2 ⟨tv', hr'⟩
  exact ⟨key hx hx' ht hv, key hx' hx (hv.hasType ht) hv.symm⟩

/-- What Marshal writes for both: wire values that differ in the order of map entries. -/
theorem marshals_reordered {S : Type} {env : Env} {w : Wtr S} {x x' : AnyVal} {t : TypeId} {v v' : GoVal} (hx : Passes env x t v) (hx' : Passes env x' t v') (ht : HasType env t v)
    (hz : FairIsZero env t) (hd : ∀ t', Within env t' t → DistinctIds env t') (hv : SameValue false v v') {s s1 : S} (h : MarshalReturns env w x s none s1) :
    ∃ tv tv', Reordered tv tv' ∧ Rep env t v tv ∧ Rep env t v' tv' ∧ Writes w (calls tv) s s1 ∧ (∃ n a, lookupArshaler env n t = .done a ∧ a.wireType = tv.ty) ∧
      ∀ {S : Type} (w : Wtr S) (s s' : S), Writes w (calls tv') s s' → MarshalReturns env w x' s none s' := by
  obtain ⟨tv, hr, hw, n, a, hl, hty⟩ := h.rep hx ht
  obtain ⟨tv', hr', ho⟩ := hv.rep_reordered ht hz.zeroSame hr
  obtain ⟨tv2, hr2, h2⟩ := C54_any_writer env x' t v' hx' (hv.hasType ht) ((lookup_iff_acc env t).1 ⟨n, a, hl⟩) tv' hr'
  obtain rfl := hr2.unique hr' hd
  exact ⟨tv, tv2, ho, hr, hr2, hw, ⟨n, a, hl, hty⟩, h2⟩

/-- **C88** binary: what Marshal writes for two such values are encodings of wire values that differ only in the order of map entries, and equally long. -/
theorem C88_binary (env : Env) (strict : Bool) (x x' : AnyVal) (t : TypeId) (v v' : GoVal) (hx : Passes env x t v) (hx' : Passes env x' t v') (ht : HasType env t v) (hz : FairIsZero env t)
    (hd : ∀ t', Within env t' t → DistinctIds env t') (hv : SameValue false v v') (b b' : Bytes) (s1 : Unit × Bytes) (h : MarshalReturns env (Binary.writer strict) x ((), b) none s1) :
    ∃ tv tv', Reordered tv tv' ∧ s1 = ((), b ++ encBin tv) ∧ MarshalReturns env (Binary.writer strict) x' ((), b') none ((), b' ++ encBin tv') ∧ (encBin tv').length = (encBin tv).length := by
  obtain ⟨tv, tv', ho, _, _, hw, _, h2⟩ := marshals_reordered hx hx' ht hz hd hv h
  exact ⟨tv, tv', ho, hw.unique (Binary.writes strict tv b), h2 _ _ _ (Binary.writes strict tv' b'), ho.length.1⟩

/-- **C88** compact. -/
theorem C88_compact (env : Env) (x x' : AnyVal) (t : TypeId) (v v' : GoVal) (hx : Passes env x t v) (hx' : Passes env x' t v') (ht : HasType env t v) (hs : SizesAtMost env (2 ^ 63 - 1) t v)
    (hz : FairIsZero env t) (hd : ∀ t', Within env t' t → DistinctIds env t') (hv : SameValue false v v') (c c' : Compact.WState) (hc : c.boolField.type = Ty.stop) (hc' : c'.boolField.type = Ty.stop)
    (b b' : Bytes) (s1 : Compact.WState × Bytes) (h : MarshalReturns env Compact.writer x (c, b) none s1) :
    ∃ tv tv' c1 c2, Reordered tv tv' ∧ s1 = (c1, b ++ encCompact tv) ∧ MarshalReturns env Compact.writer x' (c', b') none (c2, b' ++ encCompact tv') ∧
      (encCompact tv').length = (encCompact tv).length := by
  obtain ⟨tv, tv', ho, hr, hr', hw, _, h2⟩ := marshals_reordered hx hx' ht hz hd hv h
  have writes : ∀ {v : GoVal} {tv : TVal} (c : Compact.WState) (b : Bytes), Rep env t v tv → HasType env t v → SizesAtMost env (2 ^ 63 - 1) t v → c.boolField.type = Ty.stop →
      ∃ c', Writes Compact.writer (calls tv) (c, b) (c', b ++ encCompact tv) := fun {v tv} c b hr ht hs hc => by
    obtain ⟨w1, w2, w3⟩ := rep_wf hr _ ht hs
    obtain ⟨c', _, h⟩ := Compact.writes tv w1 w2 c b hc
    rw [Compact.enc_noWrap tv w3] at h
    exact ⟨c', h⟩
  obtain ⟨c1, w1⟩ := writes c b hr ht hs hc
  obtain ⟨c2, w2⟩ := writes c' b' hr' (hv.hasType ht) (hv.sizes hs) hc'
  exact ⟨tv, tv', c1, c2, ho, hw.unique w1, h2 _ _ _ w2, ho.length.2⟩

/-! ## Reading -/

/-- **C88**: Unmarshal cannot tell wire values apart that differ only in the order of map entries, whatever type it reads them as, if no map has two keys that are equal in this type: where it
accepts one, it accepts the other, and the variable holds the same but for the order of map entries (and spare capacity). The variable may hold something before - in any order, too - with which
the maps are merged. -/
theorem C88_unmarshal {S S2 : Type} (env : Env) (r : Rdr S) (r2 : Rdr S2) (p t : TypeId) (hp : (env.type p).kind = .ptr t) (hacc : Acc (InPart env) t) (hg : AllGood env t)
    (hd : ∀ t', Within env t' t → DistinctIds env t') (lim : Nat) (tv tv' : TVal) (hwf : WF lim tv) (ho : Reordered tv tv') (ha : KeysApart env t tv) (hw : WireTypeOf env t tv.ty)
    (s s' : S) (hh : Holds r tv s s') (s2 s2' : S2) (hh2 : Holds r2 tv' s2 s2') (old old' : GoVal) (ht : ValidValue env t old) (hold : SameValue false old old') (x : AnyVal) (s1 : S)
    (h : UnmarshalReturns env r (.val p (.ptr old)) s none x s1) :
    ∃ v v', x = .val p (.ptr v) ∧ UnmarshalReturns env r2 (.val p (.ptr old')) s2 none (.val p (.ptr v')) s2' ∧ SameValue false v v' := by
  obtain ⟨v, rfl, hv⟩ := C51_success env r p t hp tv hw s s' s1 hh old x h
  rcases C51_outcome env r2 p t hp hacc hg hd lim tv' (ho.wf hwf) (by rw [ho.ty]; exact hw) s2 s2' hh2 old' (hold.hasType ht.hasType) with ⟨_, v', h1, h2, _⟩ | ⟨bad, t', v', s3, h1, _⟩
  · exact ⟨v, v', rfl, h1, decodesAlike env tv t old old' v tv' v' hv h2 hold ho ht.neat hd ha⟩
  · exact absurd hv ((ho.symm.mismatch h1).not_decodes hd old v)

/-- **C88** there and back, binary: Marshal is given two values that differ only in the order of map entries. Where Unmarshal reads the bytes of the one into a variable of the same type, it reads
the bytes of the other into any variable that held the same as the first (but for the order of map entries and spare capacity), and the variables again hold the same, in this sense, afterwards. -/
theorem C88_binary_back (env : Env) (strict : Bool) (x x' : AnyVal) (t p : TypeId) (v v' : GoVal) (hx : Passes env x t v) (hx' : Passes env x' t v') (hp : (env.type p).kind = .ptr t)
    (ht : HasType env t v) (hs : SizesAtMost env (2 ^ 31 - 1) t v) (hk : KeysSurvive env t v) (hz : FairIsZero env t) (hd : ∀ t', Within env t' t → DistinctIds env t') (hg : AllGood env t)
    (hv : SameValue false v v') (b b' out : Bytes) (h : MarshalReturns env (Binary.writer strict) x ((), b) none ((), b ++ out))
    (old old' : GoVal) (hold : ValidValue env t old) (ho : SameValue false old old') (size : Nat) (hsize : 16 ≤ size) (rest : Bytes) (fin : End) (w : GoVal) (s1 : Unit × Flat)
    (h1 : UnmarshalReturns env (Binary.reader strict) (.val p (.ptr old)) ((), ⟨size, out ++ rest, fin⟩) none (.val p (.ptr w)) s1) :
    ∃ out', MarshalReturns env (Binary.writer strict) x' ((), b') none ((), b' ++ out') ∧
      ∀ (size : Nat) (rest : Bytes) (fin : End), 16 ≤ size →
        ∃ w', UnmarshalReturns env (Binary.reader strict) (.val p (.ptr old')) ((), ⟨size, out' ++ rest, fin⟩) none (.val p (.ptr w')) ((), ⟨size, rest, fin⟩) ∧ SameValue false w w' := by
  obtain ⟨tv, tv', hr, h2, _, hw, ⟨n, a, hl, _⟩, h4⟩ := marshals_reordered hx hx' ht hz hd hv h
  obtain rfl : out = encBin tv := by simpa using hw.unique (Binary.writes strict tv b)
  obtain ⟨w1, _, _⟩ := rep_wf h2 _ ht hs
  refine ⟨encBin tv', h4 _ _ _ (Binary.writes strict tv' b'), fun size2 rest2 fin2 hsize2 => ?_⟩
  obtain ⟨u, u', e, h5, h6⟩ := C88_unmarshal env _ _ p t hp ((lookup_iff_acc env t).1 ⟨n, a, hl⟩) hg hd _ tv tv' w1 hr (keysApart_rep h2 hk hd) (rep_wireType h2) _ _
    (Binary.holds strict size hsize fin tv w1 rest) _ _ (Binary.holds strict size2 hsize2 fin2 tv' (hr.wf w1) rest2) old old' hold ho _ _ h1
  cases e
  exact ⟨u', h5, h6⟩

/-- **C88** there and back, compact. -/
theorem C88_compact_back (env : Env) (x x' : AnyVal) (t p : TypeId) (v v' : GoVal) (hx : Passes env x t v) (hx' : Passes env x' t v') (hp : (env.type p).kind = .ptr t)
    (ht : HasType env t v) (hs : SizesAtMost env (2 ^ 63 - 1) t v) (hk : KeysSurvive env t v) (hz : FairIsZero env t) (hd : ∀ t', Within env t' t → DistinctIds env t') (hg : AllGood env t)
    (hv : SameValue false v v') (c c1 c' : Compact.WState) (hc : c.boolField.type = Ty.stop) (hc' : c'.boolField.type = Ty.stop) (b b' out : Bytes)
    (h : MarshalReturns env Compact.writer x (c, b) none (c1, b ++ out))
    (old old' : GoVal) (hold : ValidValue env t old) (ho : SameValue false old old') (size : Nat) (hsize : 16 ≤ size) (rest : Bytes) (fin : End) (rs : Compact.RState) (hrs : rs.boolField = .none)
    (hfin : (∃ e, fin = .err e) ∨ 9 ≤ rest.length) (w : GoVal) (s1 : Compact.RState × Flat)
    (h1 : UnmarshalReturns env Compact.reader (.val p (.ptr old)) (rs, ⟨size, out ++ rest, fin⟩) none (.val p (.ptr w)) s1) :
    ∃ c2 out', MarshalReturns env Compact.writer x' (c', b') none (c2, b' ++ out') ∧
      ∀ (size : Nat) (rest : Bytes) (fin : End) (rs : Compact.RState), 16 ≤ size → rs.boolField = .none → ((∃ e, fin = .err e) ∨ 9 ≤ rest.length) →
        ∃ w', UnmarshalReturns env Compact.reader (.val p (.ptr old')) (rs, ⟨size, out' ++ rest, fin⟩) none (.val p (.ptr w')) (rs, ⟨size, rest, fin⟩) ∧ SameValue false w w' := by
  obtain ⟨tv, tv', hr, h2, h3, hw, ⟨n, a, hl, _⟩, h4⟩ := marshals_reordered hx hx' ht hz hd hv h
  obtain ⟨w1, w2, w3⟩ := rep_wf h2 _ ht hs
  obtain ⟨w1', w2', w3'⟩ := rep_wf h3 _ (hv.hasType ht) (hv.sizes hs)
  obtain ⟨_, _, hw'⟩ := Compact.writes tv w1 w2 c b hc
  obtain ⟨c2, _, hw2⟩ := Compact.writes tv' w1' w2' c' b' hc'
  rw [Compact.enc_noWrap tv w3] at hw'
  rw [Compact.enc_noWrap tv' w3'] at hw2
  obtain rfl : out = encCompact tv := by simpa using congrArg Prod.snd (hw.unique hw')
  refine ⟨c2, encCompact tv', h4 _ _ _ hw2, fun size2 rest2 fin2 rs2 hsize2 hrs2 hfin2 => ?_⟩
  obtain ⟨u, u', e, h5, h6⟩ := C88_unmarshal env _ _ p t hp ((lookup_iff_acc env t).1 ⟨n, a, hl⟩) hg hd _ tv tv' w1 hr (keysApart_rep h2 hk hd) (rep_wireType h2) _ _
    (Compact.holds size hsize fin tv w1 w2 rs rest hrs (.inl hfin)) _ _ (Compact.holds size2 hsize2 fin2 tv' w1' w2' rs2 rest2 hrs2 (.inl hfin2)) old old' hold ho _ _ h1
  cases e
  exact ⟨u', h5, h6⟩

/-- **C88** The keys have to differ: of two entries with the same key the last one stays. (Marshal writes none such, but others may.) -/
theorem C88_duplicate_keys :
    Reordered (.map Ty.string Ty.i64 [(.str false [107], .i64 1), (.str false [107], .i64 2)]) (.map Ty.string Ty.i64 [(.str false [107], .i64 2), (.str false [107], .i64 1)]) ∧
    UnmarshalReturns Ex.env (Binary.reader true) (.val 26 (.ptr .mapNil))
      ((), ⟨16, encBin (.map Ty.string Ty.i64 [(.str false [107], .i64 1), (.str false [107], .i64 2)]), .err .eof⟩) none (.val 26 (.ptr (.map [(.str [107], .i64 2)]))) ((), ⟨16, [], .err .eof⟩) ∧
    UnmarshalReturns Ex.env (Binary.reader true) (.val 26 (.ptr .mapNil))
      ((), ⟨16, encBin (.map Ty.string Ty.i64 [(.str false [107], .i64 2), (.str false [107], .i64 1)]), .err .eof⟩) none (.val 26 (.ptr (.map [(.str [107], .i64 1)]))) ((), ⟨16, [], .err .eof⟩) ∧
    ¬ SameValue false (.map [(.str [107], .i64 2)]) (.map [(.str [107], .i64 1)]) := by
  refine ⟨.map (es1 := [(.str false [107], .i64 1), (.str false [107], .i64 2)]) _ _ (.swap _ _ _) rfl (fun i e e' h1 h2 => by cases h1.symm.trans h2; exact .refl _)
      (fun i e e' h1 h2 => by cases h1.symm.trans h2; exact .refl _),
    ⟨20, fun fuel hf => ((Unmarshal_le Ex.env 20 fuel hf _).run _ _).done (sameResult_eq (by decide +kernel))⟩,
    ⟨20, fun fuel hf => ((Unmarshal_le Ex.env 20 fuel hf _).run _ _).done (sameResult_eq (by decide +kernel))⟩, fun h => ?_⟩
  cases h with
  | map hp _ hl hk hv =>
    rename_i es1
    obtain rfl := List.perm_singleton.1 hp
    cases hv 0 _ _ rfl rfl

/-! ## Examples -/

/-- `Ex.valQ` with the entries of the map the other way round, and something else in the spare capacity of the slice. -/
def Ex.valQr : GoVal :=
  .struct [.map [(.str (ascii "l"), .i64 0), (.str (ascii "k"), .i64 7)], .i32 5, .ptrNil, .other 0, .slice [.str (ascii "x"), .str []] [], .other 3, .bool false]

theorem Ex.sameQr : SameValue false Ex.valQ Ex.valQr := by
  refine .struct rfl fun i x x' h1 h2 => ?_
  match i with
  | 0 => cases h1; cases h2; exact .map (es1 := [(.str (ascii "k"), .i64 7), (.str (ascii "l"), .i64 0)]) (.swap _ _ _) (fun h => by cases h) rfl
          (fun i x x' h1 h2 => by cases h1.symm.trans h2; exact .refl _) (fun i x x' h1 h2 => by cases h1.symm.trans h2; exact .refl _)
  | 1 | 2 | 3 | 5 | 6 => cases h1; cases h2; exact .refl _
  | 4 => cases h1; cases h2; exact .slice rfl fun i x x' h1 h2 => by cases h1.symm.trans h2; exact .refl _
  | i + 7 => cases h1

theorem Ex.fair : FairIsZero Ex.env 0 := fun _ _ _ h => by cases h

/-- The hypotheses of C88 are met by a struct with a map of two entries, visited in one order and in the other. -/
example : ∃ ops, MarshalReturns Ex.env okWriter (.val 0 Ex.valQr) [] none ops :=
  (C88_accepts Ex.env (.val 0 Ex.valQ) (.val 0 Ex.valQr) 0 _ _ (.inl ⟨rfl, fun e h => by cases h⟩) (.inl ⟨rfl, fun e h => by cases h⟩) Ex.hasType_valQ Ex.fair Ex.sameQr).1
    ⟨_, 20, fun fuel hf => ((Marshal_le Ex.env 20 fuel hf _).run _ _).done rfl⟩

example : ∃ tv tv', Reordered tv tv' ∧ 1 :: Ex.bytesQ = 1 :: encBin tv ∧ MarshalReturns Ex.env (Binary.writer true) (.val 0 Ex.valQr) ((), [2]) none ((), 2 :: encBin tv') := by
  obtain ⟨tv, tv', h1, h2, h3, _⟩ := C88_binary Ex.env true (.val 0 Ex.valQ) (.val 0 Ex.valQr) 0 _ _ (.inl ⟨rfl, fun e h => by cases h⟩) (.inl ⟨rfl, fun e h => by cases h⟩) Ex.hasType_valQ Ex.fair
    Ex.distinct_P Ex.sameQr [1] [2] _ Ex.marshalsQ
  exact ⟨tv, tv', h1, congrArg Prod.snd h2, h3⟩

example : ∃ tv tv' c2, Reordered tv tv' ∧ 1 :: Ex.compactQ = 1 :: encCompact tv ∧ MarshalReturns Ex.env Compact.writer (.val 0 Ex.valQr) ({}, [2]) none (c2, 2 :: encCompact tv') := by
  obtain ⟨tv, tv', c1, c2, h1, h2, h3, _⟩ := C88_compact Ex.env (.val 0 Ex.valQ) (.val 0 Ex.valQr) 0 _ _ (.inl ⟨rfl, fun e h => by cases h⟩) (.inl ⟨rfl, fun e h => by cases h⟩) Ex.hasType_valQ
    (Ex.sizes_valQ.mono (by decide)) Ex.fair Ex.distinct_P Ex.sameQr {} {} rfl rfl [1] [2] _ Ex.marshalsQ_compact
  exact ⟨tv, tv', c2, h1, congrArg Prod.snd h2, h3⟩

/-- Read into a variable that holds a map already. -/
example : ∃ out' w w', MarshalReturns Ex.env (Binary.writer true) (.val 0 Ex.valQr) ((), []) none ((), out') ∧
    UnmarshalReturns Ex.env (Binary.reader true) (.val 4 (.ptr Ex.valQr)) ((), ⟨16, out', .err .eof⟩) none (.val 4 (.ptr w')) ((), ⟨16, [], .err .eof⟩) ∧ SameValue false w w' := by
  have h : UnmarshalReturns Ex.env (Binary.reader true) (.val 4 (.ptr Ex.valQ)) ((), ⟨16, Ex.bytesQ ++ [9], .err .eof⟩) none
      (.val 4 (.ptr (.struct [.map [(.str (ascii "k"), .i64 7), (.str (ascii "l"), .i64 0)], .i32 5, .ptr (.str []), .other 0, .slice [.str (ascii "x"), .str []] [.str (ascii "old")], .other 3, .bool false])))
      ((), ⟨16, [9], .err .eof⟩) := ⟨20, fun fuel hf => ((Unmarshal_le Ex.env 20 fuel hf _).run _ _).done (sameResult_eq (by decide +kernel))⟩
  obtain ⟨out', h1, h2⟩ := C88_binary_back Ex.env true (.val 0 Ex.valQ) (.val 0 Ex.valQr) 0 4 _ _ (.inl ⟨rfl, fun e h => by cases h⟩) (.inl ⟨rfl, fun e h => by cases h⟩) rfl Ex.hasType_valQ
    (Ex.sizes_valQ.mono (by decide)) Ex.keys_valQ Ex.fair Ex.distinct_P Ex.allGood_P Ex.sameQr [1] [] Ex.bytesQ Ex.marshalsQ Ex.valQ Ex.valQr Ex.valid_valQ Ex.sameQr 16 (by decide) [9] (.err .eof) _ _ h
  obtain ⟨w', h3, h4⟩ := h2 16 [] (.err .eof) (by decide)
  rw [List.append_nil] at h3
  exact ⟨out', _, w', h1, h3, h4⟩

example : ∃ c2 out' w w', MarshalReturns Ex.env Compact.writer (.val 0 Ex.valQr) ({}, []) none (c2, out') ∧
    UnmarshalReturns Ex.env Compact.reader (.val 4 (.ptr Ex.valQr)) ({}, ⟨16, out', .err .eof⟩) none (.val 4 (.ptr w')) ({}, ⟨16, [], .err .eof⟩) ∧ SameValue false w w' := by
  have h : UnmarshalReturns Ex.env Compact.reader (.val 4 (.ptr Ex.valQ)) ({}, ⟨16, Ex.compactQ ++ [9], .err .eof⟩) none
      (.val 4 (.ptr (.struct [.map [(.str (ascii "k"), .i64 7), (.str (ascii "l"), .i64 0)], .i32 5, .ptr (.str []), .other 0, .slice [.str (ascii "x"), .str []] [.str (ascii "old")], .other 3, .bool false])))
      ({}, ⟨16, [9], .err .eof⟩) := ⟨20, fun fuel hf => ((Unmarshal_le Ex.env 20 fuel hf _).run _ _).done (sameResult_eq (by decide +kernel))⟩
  obtain ⟨c2, out', h1, h2⟩ := C88_compact_back Ex.env (.val 0 Ex.valQ) (.val 0 Ex.valQr) 0 4 _ _ (.inl ⟨rfl, fun e h => by cases h⟩) (.inl ⟨rfl, fun e h => by cases h⟩) rfl Ex.hasType_valQ
    (Ex.sizes_valQ.mono (by decide)) Ex.keys_valQ Ex.fair Ex.distinct_P Ex.allGood_P Ex.sameQr {} _ {} rfl rfl [1] [] Ex.compactQ Ex.marshalsQ_compact Ex.valQ Ex.valQr Ex.valid_valQ Ex.sameQr 16
    (by decide) [9] (.err .eof) {} rfl (.inl ⟨_, rfl⟩) _ _ h
  obtain ⟨w', h3, h4⟩ := h2 16 [] (.err .eof) {} (by decide) rfl (.inl ⟨_, rfl⟩)
  rw [List.append_nil] at h3
  exact ⟨c2, out', _, w', h1, h3, h4⟩

/-- A map with two different keys, read in one order with the binary protocol and in the other with the compact one. -/
example : ∃ v', UnmarshalReturns Ex.env Compact.reader (.val 26 (.ptr .mapNil))
      ({}, ⟨16, encCompact (.map Ty.string Ty.i64 [(.str false [108], .i64 2), (.str false [107], .i64 1)]) ++ [], .err .eof⟩) none (.val 26 (.ptr v')) ({}, ⟨16, [], .err .eof⟩) ∧
    SameValue false (.map [(.str [107], .i64 1), (.str [108], .i64 2)]) v' := by
  have hin : ∀ t', Within Ex.env t' 6 → Within Ex.env t' 0 := fun t' h => .step h (by simp [PartOf, Ex.env, Ex.type, Ex.fieldsP, Ex.fld])
  have hwf : ∀ lim, 2 ≤ lim → ∀ a b x y, WF lim (.map Ty.string Ty.i64 [(.str false [a], .i64 x), (.str false [b], .i64 y)]) := fun lim h a b x y => by
    simp [WF, WFEntries, ty]; omega
  have h : UnmarshalReturns Ex.env (Binary.reader true) (.val 26 (.ptr .mapNil))
      ((), ⟨16, encBin (.map Ty.string Ty.i64 [(.str false [107], .i64 1), (.str false [108], .i64 2)]) ++ [], .err .eof⟩) none
      (.val 26 (.ptr (.map [(.str [107], .i64 1), (.str [108], .i64 2)]))) ((), ⟨16, [], .err .eof⟩) :=
    ⟨20, fun fuel hf => ((Unmarshal_le Ex.env 20 fuel hf _).run _ _).done (sameResult_eq (by decide +kernel))⟩
  have hka : KeysApart Ex.env 6 (.map Ty.string Ty.i64 [(.str false [107], .i64 1), (.str false [108], .i64 2)]) := by
    intro t' k e kw ew tes hs hk i j te te' x y hij h1 h2 hx hy
    have leaf : ∀ t tv t' kw ew tes, Seen Ex.env t tv t' (.map kw ew tes) → (∃ b, tv = .str false b) ∨ (∃ n, tv = .i64 n) → False := by
      intro t tv t' kw ew tes h
      generalize hm : TVal.map kw ew tes = m at h
      induction h with
      | refl => rintro (⟨b, rfl⟩ | ⟨n, rfl⟩) <;> cases hm
      | ptr _ _ ih => exact ih hm
      | _ => rintro (⟨b, h⟩ | ⟨n, h⟩) <;> cases h
    cases hs with
    | refl =>
      cases hk
      match i, j, hij with
      | 0, 1, _ => cases h1; cases h2; cases hx <;> cases hy <;> first | rfl | (rename_i hk _; cases hk) | (rename_i hk _ _; cases hk) | (rename_i hk; cases hk)
      | 0, j + 2, _ => cases h2
      | 1, j + 2, _ => cases h2
      | i + 2, j, _ => cases h1
    | ptr h _ => cases h
    | key h hm hs => simp only [List.mem_cons, List.not_mem_nil, or_false] at hm; exact (leaf _ _ _ _ _ _ hs (by rcases hm with rfl | rfl <;> exact .inl ⟨_, rfl⟩)).elim
    | value h hm hs => simp only [List.mem_cons, List.not_mem_nil, or_false] at hm; exact (leaf _ _ _ _ _ _ hs (by rcases hm with rfl | rfl <;> exact .inr ⟨_, rfl⟩)).elim
  obtain ⟨v, v', e, h1, h2⟩ := C88_unmarshal Ex.env _ _ 26 6 rfl ((lookup_iff_acc Ex.env 6).1 ⟨5, _, rfl⟩) (fun t' fs h => Ex.allGood_P t' fs (hin t' h)) (fun t' h => Ex.distinct_P t' (hin t' h)) (2 ^ 31 - 1)
    (.map Ty.string Ty.i64 [(.str false [107], .i64 1), (.str false [108], .i64 2)]) (.map Ty.string Ty.i64 [(.str false [108], .i64 2), (.str false [107], .i64 1)])
    (hwf _ (by decide) _ _ _ _)
    (.map (es1 := [(.str false [107], .i64 1), (.str false [108], .i64 2)]) _ _ (.swap _ _ _) rfl (fun i e e' h1 h2 => by cases h1.symm.trans h2; exact .refl _)
      (fun i e e' h1 h2 => by cases h1.symm.trans h2; exact .refl _))
    hka (.map rfl) _ _ (Binary.holds true 16 (by decide) (.err .eof) _ (hwf _ (by decide) _ _ _ _) []) _ _
    (Compact.holds 16 (by decide) (.err .eof) _ (hwf _ (by decide) _ _ _ _) (by simp [TypesOK, TypesOKEntries]) {} [] rfl (.inl (.inl ⟨_, rfl⟩))) .mapNil .mapNil
    (by simp [ValidValue, Everywhere, Shape, Ex.env, Ex.type]) (.refl _) _ _ h
  cases e
  exact ⟨v', h1, h2⟩

end GoThrift
