import Verif.Proof.Top
import Verif.Spec.Example
import Verif.Spec.Same

/-!
# C01, C02, C12: what Marshal writes, and the round trip
-/

namespace GoThrift

open Spec Spec.TVal

/-- **C01** if Marshal to a binary writer succeeds, it has appended bytes from which, followed by anything and however the transport ends, Unmarshal into a zero value of the same type succeeds,
consumes exactly those bytes, and yields the value up to `RoundTrip`. -/
theorem C01_binary_round_trip (env : Env) (strict : Bool) (x : AnyVal) (t p : TypeId) (v : GoVal) (hx : Passes env x t v) (hp : (env.type p).kind = .ptr t)
    (ht : HasType env t v) (hs : SizesAtMost env (2 ^ 31 - 1) t v) (hk : KeysSurvive env t v) (hd : ∀ t', Within env t' t → DistinctIds env t')
    (b : Bytes) (s' : Unit × Bytes) (h : MarshalReturns env (Binary.writer strict) x ((), b) none s') :
    ∃ out v', s' = ((), b ++ out) ∧ RoundTrip env t v v' ∧ ∀ (size : Nat) (rest : Bytes) (fin : End), 16 ≤ size →
      UnmarshalReturns env (Binary.reader strict) (.val p (.ptr (env.zero t))) ((), ⟨size, out ++ rest, fin⟩) none (.val p (.ptr v')) ((), ⟨size, rest, fin⟩) := by
  obtain ⟨tv, hr, hw, n, a, hl, hty⟩ := h.rep hx ht
  obtain ⟨h1, h2, h3⟩ := rep_wf hr _ ht hs
  obtain ⟨v', h4, h5⟩ := hr.unmarshals hk hd hl hty
  exact ⟨encBin tv, v', hw.unique (Binary.writes strict tv b), h4, fun size rest fin hsize => h5 _ _ _ _ hp (Binary.holds strict size hsize fin tv h1 rest)⟩

/-- **C02** the same for the compact protocol. The stream after the value must end at some time or go on for at least nine bytes (see C23). -/
theorem C02_compact_round_trip (env : Env) (x : AnyVal) (t p : TypeId) (v : GoVal) (hx : Passes env x t v) (hp : (env.type p).kind = .ptr t)
    (ht : HasType env t v) (hs : SizesAtMost env (2 ^ 63 - 1) t v) (hk : KeysSurvive env t v) (hd : ∀ t', Within env t' t → DistinctIds env t')
    (c : Compact.WState) (hc : c.boolField.type = Ty.stop) (b : Bytes) (s' : Compact.WState × Bytes) (h : MarshalReturns env Compact.writer x (c, b) none s') :
    ∃ c' out v', s' = (c', b ++ out) ∧ RoundTrip env t v v' ∧ ∀ (size : Nat) (rest : Bytes) (fin : End) (rs : Compact.RState), 16 ≤ size → rs.boolField = .none →
      ((∃ e, fin = .err e) ∨ 9 ≤ rest.length) →
      UnmarshalReturns env Compact.reader (.val p (.ptr (env.zero t))) (rs, ⟨size, out ++ rest, fin⟩) none (.val p (.ptr v')) (rs, ⟨size, rest, fin⟩) := by
  obtain ⟨tv, hr, hw, n, a, hl, hty⟩ := h.rep hx ht
  obtain ⟨h1, h2, h3⟩ := rep_wf hr _ ht hs
  obtain ⟨v', h4, h5⟩ := hr.unmarshals hk hd hl hty
  obtain ⟨c', _, h6⟩ := Compact.writes tv h1 h2 c b hc
  rw [Compact.enc_noWrap tv h3] at h6
  exact ⟨c', encCompact tv, v', hw.unique h6, h4, fun size rest fin rs hsize hrs hfin => h5 _ _ _ _ hp (Compact.holds size hsize fin tv h1 h2 rs rest hrs (.inl hfin))⟩

/-- **C12** when Marshal of a struct succeeds, with any Writer, it has made exactly the calls for its written fields (those required or not reported zero), each once,
in order of ascending ids, each with its name, id and the wire value it stands for. -/
theorem C12_fields_written {S : Type} (env : Env) (w : Wtr S) (x : AnyVal) (t : TypeId) (fs : List FieldDecl) (vs : List GoVal) (hx : Passes env x t (.struct vs))
    (ht : HasType env t (.struct vs)) (hk : (env.type t).kind = .struct fs) (s s' : S) (h : MarshalReturns env w x s none s') :
    ∃ (order : List Nat) (tfs : List (Bytes × BitVec 16 × TVal)), Writes w (calls (.struct (env.type t).name tfs)) s s' ∧
      order.Nodup ∧ (∀ i : Nat, i ∈ order ↔ ∃ f v, fs[i]? = some f ∧ vs[i]? = some v ∧ Written env f v) ∧
      tfs.length = order.length ∧
      (∀ (j i : Nat) tf f v, order[j]? = some i → tfs[j]? = some tf → fs[i]? = some f → vs[i]? = some v →
        tf.1 = f.name ∧ (∃ required, Declares env f tf.2.1 required) ∧ Rep env f.typ v tf.2.2) ∧
      tfs.Pairwise (fun a b => a.2.1.toInt ≤ b.2.1.toInt) ∧
      (DistinctIds env t → tfs.Pairwise fun a b => a.2.1.toInt < b.2.1.toInt) := by
  obtain ⟨tv, hr, hw, n, a, hl, hty⟩ := h.rep hx ht
  cases hr with
  | leaf h => cases h
  | set _ _ h => rcases h with h | ⟨_, _, h⟩ <;> cases h
  | list _ _ _ h => rcases h with h | ⟨_, _, h⟩ <;> cases h
  | map _ h => rcases h with h | ⟨_, h⟩ <;> cases h
  | @struct _ fs' _ tfs order hkind hlen hfs hacc htag hnd hord hsort hlen' hname hrep =>
    obtain rfl : fs' = fs := by rw [hk] at hkind; exact (Kind.struct.inj hkind).symm
    refine ⟨order, tfs, hw, hnd, hord, hlen', fun j i tf f v h1 h2 h3 h4 => ⟨(hname j i tf f h1 h2 h3).1, (hname j i tf f h1 h2 h3).2, hrep j i tf f v h1 h2 h3 h4⟩, hsort, ?_⟩
    intro hdist
    rw [List.pairwise_iff_getElem] at hsort ⊢
    intro j j' hj hj' hlt
    have hle := hsort j j' hj hj' hlt
    have pos : ∀ (k : Nat) (hk' : k < tfs.length), ∃ i f r, order[k]? = some i ∧ fs'[i]? = some f ∧ Declares env f (tfs[k]).2.1 r := by
      intro k hk'
      have h1 := List.getElem?_eq_getElem (show k < order.length by omega)
      obtain ⟨f, v, h2, _⟩ := (hord _).1 (List.mem_of_getElem? h1)
      obtain ⟨_, r, h3⟩ := hname k _ _ f h1 (List.getElem?_eq_getElem hk') h2
      exact ⟨_, f, r, h1, h2, h3⟩
    obtain ⟨i, f, r, h1, h2, h3⟩ := pos j hj
    obtain ⟨i', f', r', h1', h2', h3'⟩ := pos j' hj'
    refine Int.lt_iff_le_and_ne.2 ⟨hle, fun heq => ?_⟩
    have hid := BitVec.eq_of_toInt_eq heq
    rw [hid] at h3
    have hii := hdist i i' f f' _ r r' (by rw [fields_struct hk]; exact h2) (by rw [fields_struct hk]; exact h2') h3 h3'
    subst hii
    obtain ⟨l1, e1⟩ := List.getElem?_eq_some_iff.1 h1
    obtain ⟨l2, e2⟩ := List.getElem?_eq_some_iff.1 h1'
    have := (List.getElem_inj hnd).1 (e1.trans e2.symm)
    omega

/-! ## Examples -/

/-- A value of type 0 with a map of two entries. -/
def Ex.valQ : GoVal :=
  .struct [.map [(.str (ascii "k"), .i64 7), (.str (ascii "l"), .i64 0)], .i32 5, .ptrNil, .other 0, .slice [.str (ascii "x"), .str []] [.str (ascii "old")], .other 3, .bool false]

theorem Ex.hasType_valQ : HasType Ex.env 0 Ex.valQ := by
  refine ⟨rfl, ?_⟩
  simp [EverywhereFields, Everywhere, EverywhereEntries, EverywhereElems, Shape, Ex.env, Ex.type, Ex.fieldsP, Ex.fld, GoType.asBytes, Env.fields, Env.elemType, Env.keyType]

theorem Ex.sizes_valQ : SizesAtMost Ex.env 2 0 Ex.valQ := by
  refine ⟨trivial, ?_⟩
  simp [EverywhereFields, Everywhere, EverywhereEntries, EverywhereElems, Ex.env, Ex.type, Ex.fieldsP, Ex.fld, Env.fields, Env.elemType, Env.keyType]
  decide

theorem Ex.keys_valQ : KeysSurvive Ex.env 0 Ex.valQ := by
  refine keysSurvive_plain ⟨trivial, ?_⟩
  simp only [EverywhereFields, Everywhere, EverywhereEntries, EverywhereElems, Ex.env, Ex.type, Ex.fieldsP, Ex.fld, Env.fields, Env.elemType, Env.keyType, and_true]
  intro i j x y hij hx hy
  match i, j, hij with
  | 0, 1, _ => cases hx; cases hy; exact ⟨by simp [PlainKey], by simp [PlainKey], by decide⟩
  | 0, j + 2, _ => cases hy
  | 1, j + 2, _ => cases hy
  | i + 2, j + 2, _ => cases hx

theorem Ex.declares_P (i : Nat) (f : FieldDecl) (id : BitVec 16) (r : Bool) (hf : Ex.fieldsP[i]? = some f) (hd : Declares Ex.env f id r) :
    (i, id) ∈ [(0, (4 : BitVec 16)), (1, 1), (2, 2), (4, 3), (6, -2)] := by
  match i with
  | 0 => cases hf; have := hd.id_of (o := ⟨4, ascii "D", false⟩) rfl; subst this; simp
  | 1 => cases hf; have := hd.id_of (o := ⟨1, ascii "A", false⟩) rfl; subst this; simp
  | 2 => cases hf; have := hd.id_of (o := ⟨2, ascii "B", true⟩) rfl; subst this; simp
  | 3 => cases hf; cases hd.1
  | 4 => cases hf; have := hd.id_of (o := ⟨3, ascii "C", false⟩) rfl; subst this; simp
  | 5 => cases hf; exact absurd rfl hd.2.1
  | 6 => cases hf; have := hd.id_of (o := ⟨-2, ascii "E", false⟩) rfl; subst this; simp
  | i + 7 => cases hf

theorem Ex.within_P : ∀ t', Within Ex.env t' 0 → t' ∈ [0, 1, 2, 3, 5, 6, 7, 8, 9] := by
  have closed : ∀ t t', PartOf Ex.env t' t → t ∈ [0, 1, 2, 3, 5, 6, 7, 8, 9] → t' ∈ [0, 1, 2, 3, 5, 6, 7, 8, 9] := by
    intro t t' h ht
    simp only [List.mem_cons, List.not_mem_nil, or_false] at ht
    rcases ht with rfl | rfl | rfl | rfl | rfl | rfl | rfl | rfl | rfl
    all_goals simp [PartOf, Ex.env, Ex.type, Ex.fieldsP, Ex.fld] at h
    all_goals (simp only [List.mem_cons, List.not_mem_nil, or_false]; grind)
  have key : ∀ u t', Within Ex.env t' u → u ∈ [0, 1, 2, 3, 5, 6, 7, 8, 9] → t' ∈ [0, 1, 2, 3, 5, 6, 7, 8, 9] := by
    intro u t' h
    induction h with
    | refl => exact id
    | step _ hp ih => exact fun hu => ih (closed _ _ hp hu)
  exact fun t' h => key _ _ h (by simp)

theorem Ex.distinct_P : ∀ t', Within Ex.env t' 0 → DistinctIds Ex.env t' := by
  intro t' h
  have hm := Ex.within_P _ h
  intro i j f g id r r' hf hg d1 d2
  simp only [List.mem_cons, List.not_mem_nil, or_false] at hm
  rcases hm with rfl | rfl | rfl | rfl | rfl | rfl | rfl | rfl | rfl
  · have h1 := Ex.declares_P i f id r hf d1
    have h2 := Ex.declares_P j g id r' hg d2
    simp only [List.mem_cons, Prod.mk.injEq, List.not_mem_nil, or_false] at h1 h2
    rcases h1 with ⟨rfl, rfl⟩ | ⟨rfl, rfl⟩ | ⟨rfl, rfl⟩ | ⟨rfl, rfl⟩ | ⟨rfl, rfl⟩ <;> simp at h2 <;> omega
  all_goals cases hf

/-- What Marshal writes for it. -/
def Ex.bytesQ : Bytes := [8, 0, 1, 0, 0, 0, 5, 11, 0, 2, 0, 0, 0, 0, 15, 0, 3, 11, 0, 0, 0, 2, 0, 0, 0, 1, 120, 0, 0, 0, 0, 13, 0, 4, 11, 10, 0,
  0, 0, 2, 0, 0, 0, 1, 107, 0, 0, 0, 0, 0, 0, 0, 7, 0, 0, 0, 1, 108, 0, 0, 0, 0, 0, 0, 0, 0, 0]

/-- The same in the compact protocol. -/
def Ex.compactQ : Bytes := [21, 10, 24, 0, 25, 40, 1, 120, 0, 27, 2, 134, 1, 107, 14, 1, 108, 0, 0]

theorem Ex.marshalsQ : MarshalReturns Ex.env (Binary.writer true) (.val 0 Ex.valQ) ((), [1]) none ((), 1 :: Ex.bytesQ) :=
  ⟨20, fun fuel hf => ((Marshal_le Ex.env 20 fuel hf _).run _ _).done (by decide +kernel)⟩

theorem Ex.marshalsQ_compact : MarshalReturns Ex.env Compact.writer (.val 0 Ex.valQ) ({}, [1]) none ({}, 1 :: Ex.compactQ) :=
  ⟨20, fun fuel hf => ((Marshal_le Ex.env 20 fuel hf _).run _ _).done (by decide +kernel)⟩

/-- The hypotheses of C01 hold of a struct with ignored, zero, required nil, list and map fields. -/
example : ∃ v', RoundTrip Ex.env 0 Ex.valQ v' ∧
    UnmarshalReturns Ex.env (Binary.reader true) (.val 4 (.ptr (Ex.env.zero 0))) ((), ⟨16, Ex.bytesQ ++ [9, 9], .block⟩) none (.val 4 (.ptr v')) ((), ⟨16, [9, 9], .block⟩) := by
  obtain ⟨out, v', h1, h2, h3⟩ := C01_binary_round_trip Ex.env true (.val 0 Ex.valQ) 0 4 Ex.valQ (.inl ⟨rfl, fun e h => by cases h⟩) rfl Ex.hasType_valQ
    (Ex.sizes_valQ.mono (by decide)) Ex.keys_valQ Ex.distinct_P [1] _ Ex.marshalsQ
  obtain rfl : Ex.bytesQ = out := by simpa using h1
  exact ⟨v', h2, h3 16 [9, 9] .block (by decide)⟩

/-- A run: a struct with a nil pointer field that is required, marshalled and unmarshalled. The pointer to an empty string is the only difference that is not in ignored fields. -/
example : MarshalReturns Ex.env (Binary.writer true) (.val 0 (.struct [.mapNil, .i32 5, .ptrNil, .other 0, .slice [.str [120]] [], .other 3, .bool false])) ((), []) none
      ((), [8, 0, 1, 0, 0, 0, 5, 11, 0, 2, 0, 0, 0, 0, 15, 0, 3, 11, 0, 0, 0, 1, 0, 0, 0, 1, 120, 0]) ∧
    UnmarshalReturns Ex.env (Binary.reader true) (.val 4 (.ptr (Ex.env.zero 0)))
      ((), ⟨16, [8, 0, 1, 0, 0, 0, 5, 11, 0, 2, 0, 0, 0, 0, 15, 0, 3, 11, 0, 0, 0, 1, 0, 0, 0, 1, 120, 0], .err .eof⟩)
      none (.val 4 (.ptr (.struct [.mapNil, .i32 5, .ptr (.str []), .other 0, .slice [.str [120]] [], .other 0, .bool false]))) ((), ⟨16, [], .err .eof⟩) :=
  ⟨⟨20, fun fuel hf => ((Marshal_le Ex.env 20 fuel hf _).run _ _).done (by decide +kernel)⟩,
    20, fun fuel hf => ((Unmarshal_le Ex.env 20 fuel hf _).run _ _).done (sameResult_eq (by decide +kernel))⟩

/-- The hypotheses of C02. -/
example : ∃ v', RoundTrip Ex.env 0 Ex.valQ v' ∧
    UnmarshalReturns Ex.env Compact.reader (.val 4 (.ptr (Ex.env.zero 0))) ({}, ⟨16, Ex.compactQ ++ [9, 9], .err .eof⟩) none (.val 4 (.ptr v')) ({}, ⟨16, [9, 9], .err .eof⟩) := by
  obtain ⟨c', out, v', h1, h2, h3⟩ := C02_compact_round_trip Ex.env (.val 0 Ex.valQ) 0 4 Ex.valQ (.inl ⟨rfl, fun e h => by cases h⟩) rfl Ex.hasType_valQ
    (Ex.sizes_valQ.mono (by decide)) Ex.keys_valQ Ex.distinct_P {} rfl [1] _ Ex.marshalsQ_compact
  obtain ⟨_, rfl⟩ : ({} : Compact.WState) = c' ∧ Ex.compactQ = out := by simpa using h1
  exact ⟨v', h2, h3 16 [9, 9] (.err .eof) {} (by decide) rfl (.inl ⟨_, rfl⟩)⟩

/-- The hypotheses of C12. -/
example : Passes Ex.env (.val 4 (.ptr Ex.valQ)) 0 Ex.valQ ∧ HasType Ex.env 0 Ex.valQ ∧ (Ex.env.type 0).kind = .struct Ex.fieldsP ∧ DistinctIds Ex.env 0 ∧
    MarshalReturns Ex.env (Binary.writer true) (.val 4 (.ptr Ex.valQ)) ((), []) none ((), Ex.bytesQ) :=
  ⟨.inr ⟨4, rfl, rfl⟩, Ex.hasType_valQ, rfl, Ex.distinct_P 0 (.refl _), 20, fun fuel hf => ((Marshal_le Ex.env 20 fuel hf _).run _ _).done (by decide +kernel)⟩

/-- Why C01 asks for distinct ids: `struct { A int32 "1"; B bool "1" }` is marshalled without error, and unmarshalling the result returns an error. -/
theorem C01_needs_distinct_ids :
    MarshalReturns Ex.env (Binary.writer true) (.val 16 (.struct [.i32 5, .bool true])) ((), []) none ((), [8, 0, 1, 0, 0, 0, 5, 2, 0, 1, 1, 0]) ∧
    UnmarshalReturns Ex.env (Binary.reader true) (.val 24 (.ptr (.struct [.i32 0, .bool false]))) ((), ⟨16, [8, 0, 1, 0, 0, 0, 5, 2, 0, 1, 1, 0], .err .eof⟩)
      (some (.semantic .unmarshal Ty.i32 (some 8))) (.val 24 (.ptr (.struct [.i32 0, .bool false]))) ((), ⟨16, [0, 0, 0, 5, 2, 0, 1, 1, 0], .err .eof⟩) :=
  ⟨⟨20, fun fuel hf => ((Marshal_le Ex.env 20 fuel hf _).run _ _).done (by decide +kernel)⟩,
    20, fun fuel hf => ((Unmarshal_le Ex.env 20 fuel hf _).run _ _).done (sameResult_eq (by decide +kernel))⟩

end GoThrift
