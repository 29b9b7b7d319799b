import Verif.Proof.Evolve
import Verif.Props.Decode
import Verif.Props.RoundTrip

/-!
# C60: types may change between writing and reading
-/

namespace GoThrift

open Spec Spec.TVal

/-- The wire value of `v`, held by any Reader. -/
theorem evolves {env : Env} {t u : TypeId} {v : GoVal} {tv : TVal} {lim : Nat} (hr : Rep env t v tv) (hwf : WF lim tv) (hk : KeysSurvive env t v) (hd : ∀ t', Within env t' t → DistinctIds env t')
    (hdu : ∀ t', Within env t' u → DistinctIds env t') (hacc : Acc (InPart env) u) (hg : AllGood env u) (hc : Compatible env t u) :
    ∃ v', Carries env t u v v' ∧ HasType env u v' ∧ ∀ (S : Type) (r : Rdr S) (p : TypeId) (s s' : S), (env.type p).kind = .ptr u → Holds r tv s s' →
      UnmarshalReturns env r (.val p (.ptr (env.zero u))) s none (.val p (.ptr v')) s' := by
  obtain ⟨n, a, hl⟩ := (lookup_iff_acc env u).2 hacc
  obtain ⟨m, v', e, h1, h2, h3⟩ := dec_total tv hwf n u a (env.zero u) hl (zero_hasType env u) hg
  cases e with
  | none =>
    have hdec := (dec_sound env m).1 n u a _ tv v' hl h1
    exact ⟨v', decodes_carries hr hdec hc hk hd hdu hacc, h2, fun S r p s s' hp hh => UnmarshalReturns_of_dec hp hl ((hc.wire (rep_wireType hr) hacc).lookup hl) hh h1⟩
  | some err =>
    obtain ⟨bad, t', hm, rfl⟩ := h3 err rfl
    exact (no_mismatch hm hr hc hd hacc hg).elim

/-- **C60** what Marshal writes for a value of type `t`, Unmarshal reads into a zero value of any compatible type `u`: it succeeds, reads exactly the bytes written, and the fields that both types
have are carried over, whatever fields were added to or removed from structs at any depth. -/
theorem C60_binary_evolves (env : Env) (strict : Bool) (x : AnyVal) (t u p : TypeId) (v : GoVal) (hx : Passes env x t v) (hp : (env.type p).kind = .ptr u) (hc : Compatible env t u)
    (ht : HasType env t v) (hs : SizesAtMost env (2 ^ 31 - 1) t v) (hk : KeysSurvive env t v) (hd : ∀ t', Within env t' t → DistinctIds env t') (hdu : ∀ t', Within env t' u → DistinctIds env t')
    (hacc : Acc (InPart env) u) (hg : AllGood env u) (b : Bytes) (s' : Unit × Bytes) (h : MarshalReturns env (Binary.writer strict) x ((), b) none s') :
    ∃ out v', s' = ((), b ++ out) ∧ Carries env t u v v' ∧ HasType env u v' ∧ ∀ (size : Nat) (rest : Bytes) (fin : End), 16 ≤ size →
      UnmarshalReturns env (Binary.reader strict) (.val p (.ptr (env.zero u))) ((), ⟨size, out ++ rest, fin⟩) none (.val p (.ptr v')) ((), ⟨size, rest, fin⟩) := by
  obtain ⟨tv, hr, hw, _⟩ := h.rep hx ht
  obtain ⟨h1, h2, h3⟩ := rep_wf hr _ ht hs
  obtain ⟨v', h4, h5, h6⟩ := evolves hr h1 hk hd hdu hacc hg hc
  exact ⟨encBin tv, v', hw.unique (Binary.writes strict tv b), h4, h5, fun size rest fin hsize => h6 _ _ _ _ _ hp (Binary.holds strict size hsize fin tv h1 rest)⟩

/-- **C60** the same for the compact protocol. The stream after the value must end at some time or go on for at least nine bytes (see C23). -/
theorem C60_compact_evolves (env : Env) (x : AnyVal) (t u p : TypeId) (v : GoVal) (hx : Passes env x t v) (hp : (env.type p).kind = .ptr u) (hc : Compatible env t u)
    (ht : HasType env t v) (hs : SizesAtMost env (2 ^ 63 - 1) t v) (hk : KeysSurvive env t v) (hd : ∀ t', Within env t' t → DistinctIds env t') (hdu : ∀ t', Within env t' u → DistinctIds env t')
    (hacc : Acc (InPart env) u) (hg : AllGood env u) (c : Compact.WState) (hcs : c.boolField.type = Ty.stop) (b : Bytes) (s' : Compact.WState × Bytes)
    (h : MarshalReturns env Compact.writer x (c, b) none s') :
    ∃ c' out v', s' = (c', b ++ out) ∧ Carries env t u v v' ∧ HasType env u v' ∧ ∀ (size : Nat) (rest : Bytes) (fin : End) (rs : Compact.RState), 16 ≤ size → rs.boolField = .none →
      ((∃ e, fin = .err e) ∨ 9 ≤ rest.length) →
      UnmarshalReturns env Compact.reader (.val p (.ptr (env.zero u))) (rs, ⟨size, out ++ rest, fin⟩) none (.val p (.ptr v')) (rs, ⟨size, rest, fin⟩) := by
  obtain ⟨tv, hr, hw, _⟩ := h.rep hx ht
  obtain ⟨h1, h2, h3⟩ := rep_wf hr _ ht hs
  obtain ⟨v', h4, h5, h6⟩ := evolves hr h1 hk hd hdu hacc hg hc
  obtain ⟨c', _, h7⟩ := Compact.writes tv h1 h2 c b hcs
  rw [Compact.enc_noWrap tv h3] at h7
  exact ⟨c', encCompact tv, v', hw.unique h7, h4, h5, fun size rest fin rs hsize hrs hfin => h6 _ _ _ _ _ hp (Compact.holds size hsize fin tv h1 h2 rs rest hrs (.inl hfin))⟩

/-! ## Examples -/

/-- `type Old struct { A int32 "1"; S string "2"; Next *Old "3"; Gone bool "9" }` -/
def Ex.fieldsOld : List FieldDecl := [Ex.fld "A" "1" 2, Ex.fld "S" "2" 3, Ex.fld "Next" "3" 4, Ex.fld "Gone" "9" 5]

/-- `type New struct { Next *New "3"; S []byte "2"; A *int32 "1"; Added int64 "10,required" }` -/
def Ex.fieldsNew : List FieldDecl := [Ex.fld "Next" "3" 6, Ex.fld "S" "2" 7, Ex.fld "A" "1" 8, Ex.fld "Added" "10,required" 9]

/-- A program with these types. -/
def Ex.typeV : TypeId → GoType
  | 0 => { name := ascii "Old", kind := .struct Ex.fieldsOld }
  | 1 => { name := ascii "New", kind := .struct Ex.fieldsNew }
  | 2 => { name := ascii "int32", kind := .int32 }
  | 3 => { name := ascii "string", kind := .string }
  | 4 => { name := [], kind := .ptr 0 }
  | 5 => { name := ascii "bool", kind := .bool }
  | 6 => { name := [], kind := .ptr 1 }
  | 7 => { name := [], kind := .slice 10, isBytes := true }
  | 8 => { name := [], kind := .ptr 2 }
  | 9 => { name := ascii "int64", kind := .int64 }
  | 10 => { name := ascii "uint8", kind := .uint8 }
  | _ => { name := [], kind := .other }

/-- Their zero values. -/
def Ex.zeroV : TypeId → GoVal
  | 0 => .struct [.i32 0, .str [], .ptrNil, .bool false]
  | 1 => .struct [.ptrNil, .bytes none, .ptrNil, .i64 0]
  | 2 => .i32 0
  | 3 => .str []
  | 4 => .ptrNil
  | 5 => .bool false
  | 6 => .ptrNil
  | 7 => .bytes none
  | 8 => .ptrNil
  | 9 => .i64 0
  | 10 => .i8 0
  | _ => .other 0

/-- See `Ex.typeV`. -/
def Ex.envV : Env := { Ex.env with
  type := Ex.typeV, zero := Ex.zeroV
  zero_eq := fun t => match t with
    | 0 | 1 | 2 | 3 | 4 | 5 | 6 | 7 | 8 | 9 | 10 => rfl
    | _ + 11 => rfl }

/-- The ids that the fields declare. -/
theorem Ex.declares_V : ∀ f id r, f ∈ Ex.fieldsOld ∨ f ∈ Ex.fieldsNew → Declares Ex.envV f id r →
    (f ∈ [Ex.fld "A" "1" 2, Ex.fld "A" "1" 8] ∧ id = 1) ∨ (f ∈ [Ex.fld "S" "2" 3, Ex.fld "S" "2" 7] ∧ id = 2) ∨ (f ∈ [Ex.fld "Next" "3" 4, Ex.fld "Next" "3" 6] ∧ id = 3) ∨
    (f = Ex.fld "Gone" "9" 5 ∧ id = 9) ∨ (f = Ex.fld "Added" "10,required" 9 ∧ id = 10) := by
  intro f id r hf hd
  simp only [Ex.fieldsOld, Ex.fieldsNew, List.mem_cons, List.not_mem_nil, or_false] at hf
  rcases hf with (rfl | rfl | rfl | rfl) | (rfl | rfl | rfl | rfl)
  · exact .inl ⟨by simp, (hd.unique (parse_declares Ex.envV _ ⟨1, ascii "A", false⟩ rfl).2).1⟩
  · exact .inr (.inl ⟨by simp, (hd.unique (parse_declares Ex.envV _ ⟨2, ascii "S", false⟩ rfl).2).1⟩)
  · exact .inr (.inr (.inl ⟨by simp, (hd.unique (parse_declares Ex.envV _ ⟨3, ascii "Next", false⟩ rfl).2).1⟩))
  · exact .inr (.inr (.inr (.inl ⟨rfl, (hd.unique (parse_declares Ex.envV _ ⟨9, ascii "Gone", false⟩ rfl).2).1⟩)))
  · exact .inr (.inr (.inl ⟨by simp, (hd.unique (parse_declares Ex.envV _ ⟨3, ascii "Next", false⟩ rfl).2).1⟩))
  · exact .inr (.inl ⟨by simp, (hd.unique (parse_declares Ex.envV _ ⟨2, ascii "S", false⟩ rfl).2).1⟩)
  · exact .inl ⟨by simp, (hd.unique (parse_declares Ex.envV _ ⟨1, ascii "A", false⟩ rfl).2).1⟩
  · exact .inr (.inr (.inr (.inr ⟨rfl, (hd.unique (parse_declares Ex.envV _ ⟨10, ascii "Added", true⟩ rfl).2).1⟩)))

theorem Ex.compatible_V : Compatible Ex.envV 0 1 := by
  refine ⟨fun a b => (a, b) ∈ [(0, 1), (2, 8), (3, 7), (4, 6), (0, 6)], fun a b h => ?_, by simp⟩
  simp only [List.mem_cons, Prod.mk.injEq, List.not_mem_nil, or_false] at h
  rcases h with ⟨rfl, rfl⟩ | ⟨rfl, rfl⟩ | ⟨rfl, rfl⟩ | ⟨rfl, rfl⟩ | ⟨rfl, rfl⟩
  · refine .struct (fs := Ex.fieldsOld) (gs := Ex.fieldsNew) rfl rfl fun f hf g hg id r r' d d' => ?_
    have h1 := Ex.declares_V f id r (.inl hf) d
    have h2 := Ex.declares_V g id r' (.inr hg) d'
    simp only [Ex.fieldsOld, Ex.fieldsNew, List.mem_cons, List.not_mem_nil, or_false] at hf hg h1 h2
    rcases hf with rfl | rfl | rfl | rfl <;> rcases hg with rfl | rfl | rfl | rfl <;> simp [Ex.fld] at h1 h2 ⊢
    all_goals (subst h1; revert h2; decide)
  · exact .scalar Ty.i32 (by decide) (.i32 (.inl rfl)) (.ptr (e := 2) rfl (.i32 (.inl rfl)))
  · exact .scalar Ty.string (by decide) (.string rfl) (.bytes (e := 10) rfl rfl)
  · exact .ptrL (e := 0) rfl (by simp)
  · exact .ptrR (e := 1) rfl (by simp)

theorem Ex.within_V : ∀ u, u < 11 → ∀ t', Within Ex.envV t' u → t' < 11 := by
  have closed : ∀ t t', PartOf Ex.envV t' t → t < 11 → t' < 11 := by
    intro t t' h ht
    match t with
    | 0 | 1 | 2 | 3 | 4 | 5 | 6 | 7 | 8 | 9 | 10 => simp [PartOf, Ex.envV, Ex.typeV, Ex.fieldsOld, Ex.fieldsNew, Ex.fld] at h <;> grind
    | t + 11 => exact absurd ht (Nat.not_lt.2 (Nat.le_add_left 11 _))
  intro u hu t' h
  induction h with
  | refl => exact hu
  | step _ hp ih => exact ih (closed _ _ hp hu)

theorem Ex.distinct_V (u : TypeId) (hu : u < 11) : ∀ t', Within Ex.envV t' u → DistinctIds Ex.envV t' := by
  intro t' h i j f g id r r' hf hg d1 d2
  have ht := Ex.within_V u hu t' h
  match t' with
  | 0 =>
    have hf : Ex.fieldsOld[i]? = some f := hf
    have hg : Ex.fieldsOld[j]? = some g := hg
    have h1 := Ex.declares_V f id r (.inl (List.mem_of_getElem? hf)) d1
    have h2 := Ex.declares_V g id r' (.inl (List.mem_of_getElem? hg)) d2
    match i, j with
    | 0, 0 | 1, 1 | 2, 2 | 3, 3 => rfl
    | 0, 1 | 0, 2 | 0, 3 | 1, 0 | 1, 2 | 1, 3 | 2, 0 | 2, 1 | 2, 3 | 3, 0 | 3, 1 | 3, 2 => cases hf; cases hg; simp [Ex.fld] at h1 h2; subst h1; revert h2; decide
    | i + 4, _ => cases hf
    | _, j + 4 => cases hg
  | 1 =>
    have hf : Ex.fieldsNew[i]? = some f := hf
    have hg : Ex.fieldsNew[j]? = some g := hg
    have h1 := Ex.declares_V f id r (.inr (List.mem_of_getElem? hf)) d1
    have h2 := Ex.declares_V g id r' (.inr (List.mem_of_getElem? hg)) d2
    match i, j with
    | 0, 0 | 1, 1 | 2, 2 | 3, 3 => rfl
    | 0, 1 | 0, 2 | 0, 3 | 1, 0 | 1, 2 | 1, 3 | 2, 0 | 2, 1 | 2, 3 | 3, 0 | 3, 1 | 3, 2 => cases hf; cases hg; simp [Ex.fld] at h1 h2; subst h1; revert h2; decide
    | i + 4, _ => cases hf
    | _, j + 4 => cases hg
  | 2 | 3 | 4 | 5 | 6 | 7 | 8 | 9 | 10 => cases hf
  | _ + 11 => exact absurd ht (Nat.not_lt.2 (Nat.le_add_left 11 _))

theorem Ex.allGood_V : AllGood Ex.envV 1 := by
  intro t' fs h hk
  have ht := Ex.within_V 1 (by decide) t' h
  match t' with
  | 0 =>
    cases hk
    refine ⟨fun f hf => ?_, fun f hf _ => ?_, fun _ => ⟨Ex.fld "A" "1" 2, by simp [Ex.fieldsOld], by simp [Ex.fld]⟩⟩
    · simp only [Ex.fieldsOld, List.mem_cons, List.not_mem_nil, or_false] at hf
      rcases hf with rfl | rfl | rfl | rfl
      · exact .inr ⟨_, _, (parse_declares Ex.envV _ ⟨1, ascii "A", false⟩ rfl).2⟩
      · exact .inr ⟨_, _, (parse_declares Ex.envV _ ⟨2, ascii "S", false⟩ rfl).2⟩
      · exact .inr ⟨_, _, (parse_declares Ex.envV _ ⟨3, ascii "Next", false⟩ rfl).2⟩
      · exact .inr ⟨_, _, (parse_declares Ex.envV _ ⟨9, ascii "Gone", false⟩ rfl).2⟩
    · simp only [Ex.fieldsOld, List.mem_cons, List.not_mem_nil, or_false] at hf
      rcases hf with rfl | rfl | rfl | rfl <;> exact (lookup_iff_acc Ex.envV _).1 ⟨5, _, rfl⟩
  | 1 =>
    cases hk
    refine ⟨fun f hf => ?_, fun f hf _ => ?_, fun _ => ⟨Ex.fld "A" "1" 8, by simp [Ex.fieldsNew], by simp [Ex.fld]⟩⟩
    · simp only [Ex.fieldsNew, List.mem_cons, List.not_mem_nil, or_false] at hf
      rcases hf with rfl | rfl | rfl | rfl
      · exact .inr ⟨_, _, (parse_declares Ex.envV _ ⟨3, ascii "Next", false⟩ rfl).2⟩
      · exact .inr ⟨_, _, (parse_declares Ex.envV _ ⟨2, ascii "S", false⟩ rfl).2⟩
      · exact .inr ⟨_, _, (parse_declares Ex.envV _ ⟨1, ascii "A", false⟩ rfl).2⟩
      · exact .inr ⟨_, _, (parse_declares Ex.envV _ ⟨10, ascii "Added", true⟩ rfl).2⟩
    · simp only [Ex.fieldsNew, List.mem_cons, List.not_mem_nil, or_false] at hf
      rcases hf with rfl | rfl | rfl | rfl <;> exact (lookup_iff_acc Ex.envV _).1 ⟨5, _, rfl⟩
  | 2 | 3 | 4 | 5 | 6 | 7 | 8 | 9 | 10 => cases hk
  | _ + 11 => exact absurd ht (Nat.not_lt.2 (Nat.le_add_left 11 _))

/-- `Old{A: 5, S: "x", Next: &Old{A: 7}, Gone: true}` -/
def Ex.valOld : GoVal := .struct [.i32 5, .str [120], .ptr (.struct [.i32 7, .str [], .ptrNil, .bool false]), .bool true]

/-- What Marshal writes for it. -/
def Ex.bytesOld : Bytes := [8, 0, 1, 0, 0, 0, 5, 11, 0, 2, 0, 0, 0, 1, 120, 12, 0, 3, 8, 0, 1, 0, 0, 0, 7, 0, 2, 0, 9, 1, 0]

/-- The same in the compact protocol. -/
def Ex.compactOld : Bytes := [21, 10, 24, 1, 120, 28, 21, 14, 0, 97, 0]

theorem Ex.hasType_old : HasType Ex.envV 0 Ex.valOld := by
  simp [HasType, Ex.valOld, Everywhere, EverywhereFields, Shape, Ex.envV, Ex.typeV, Env.fields, Env.elemType, Ex.fieldsOld, Ex.fld]

theorem Ex.sizes_old (lim : Nat) (h : 1 ≤ lim) : SizesAtMost Ex.envV lim 0 Ex.valOld := by
  simp [SizesAtMost, Ex.valOld, Everywhere, EverywhereFields, Ex.envV, Ex.typeV, Env.fields, Env.elemType, Ex.fieldsOld, Ex.fld, h]

theorem Ex.keys_old : KeysSurvive Ex.envV 0 Ex.valOld := by
  simp [KeysSurvive, Ex.valOld, Everywhere, EverywhereFields, Ex.envV, Ex.typeV, Env.fields, Env.elemType, Ex.fieldsOld, Ex.fld]

theorem Ex.marshalsOld : MarshalReturns Ex.envV (Binary.writer true) (.val 0 Ex.valOld) ((), [1]) none ((), 1 :: Ex.bytesOld) :=
  ⟨20, fun fuel hf => ((Marshal_le Ex.envV 20 fuel hf _).run _ _).done (by decide +kernel)⟩

theorem Ex.marshalsOld_compact : MarshalReturns Ex.envV Compact.writer (.val 0 Ex.valOld) ({}, [1]) none
    ({ boolField := ⟨ascii "Gone", Ty.stop, 9⟩ }, 1 :: Ex.compactOld) :=
  ⟨20, fun fuel hf => ((Marshal_le Ex.envV 20 fuel hf _).run _ _).done (by decide +kernel)⟩

/-- The hypotheses of C60. -/
example : ∃ v', Carries Ex.envV 0 1 Ex.valOld v' ∧
    UnmarshalReturns Ex.envV (Binary.reader true) (.val 6 (.ptr (Ex.envV.zero 1))) ((), ⟨16, Ex.bytesOld ++ [9, 9], .block⟩) none (.val 6 (.ptr v')) ((), ⟨16, [9, 9], .block⟩) := by
  obtain ⟨out, v', h1, h2, -, h3⟩ := C60_binary_evolves Ex.envV true (.val 0 Ex.valOld) 0 1 6 Ex.valOld (.inl ⟨rfl, fun e h => by cases h⟩) rfl Ex.compatible_V Ex.hasType_old
    (Ex.sizes_old _ (by decide)) Ex.keys_old (Ex.distinct_V 0 (by decide)) (Ex.distinct_V 1 (by decide)) ((lookup_iff_acc Ex.envV _).1 ⟨5, _, rfl⟩) Ex.allGood_V [1] _ Ex.marshalsOld
  obtain rfl : Ex.bytesOld = out := by simpa using h1
  exact ⟨v', h2, h3 16 [9, 9] .block (by decide)⟩

example : ∃ v', Carries Ex.envV 0 1 Ex.valOld v' ∧
    UnmarshalReturns Ex.envV Compact.reader (.val 6 (.ptr (Ex.envV.zero 1))) ({}, ⟨16, Ex.compactOld ++ [9, 9], .err .eof⟩) none (.val 6 (.ptr v')) ({}, ⟨16, [9, 9], .err .eof⟩) := by
  obtain ⟨c', out, v', h1, h2, -, h3⟩ := C60_compact_evolves Ex.envV (.val 0 Ex.valOld) 0 1 6 Ex.valOld (.inl ⟨rfl, fun e h => by cases h⟩) rfl Ex.compatible_V Ex.hasType_old
    (Ex.sizes_old _ (by decide)) Ex.keys_old (Ex.distinct_V 0 (by decide)) (Ex.distinct_V 1 (by decide)) ((lookup_iff_acc Ex.envV _).1 ⟨5, _, rfl⟩) Ex.allGood_V {} rfl [1] _ Ex.marshalsOld_compact
  obtain ⟨-, e1⟩ := Prod.mk.inj h1
  obtain rfl : Ex.compactOld = out := by simpa using e1
  exact ⟨v', h2, h3 16 [9, 9] (.err .eof) {} (by decide) rfl (.inl ⟨_, rfl⟩)⟩

/-- The run: the result is `New{Next: &New{A: &7}, S: "x", A: &5}`. -/
example : UnmarshalReturns Ex.envV (Binary.reader true) (.val 6 (.ptr (Ex.envV.zero 1))) ((), ⟨16, Ex.bytesOld, .err .eof⟩) none
    (.val 6 (.ptr (.struct [.ptr (.struct [.ptrNil, .bytes none, .ptr (.i32 7), .i64 0]), .bytes (some [120]), .ptr (.i32 5), .i64 0]))) ((), ⟨16, [], .err .eof⟩) :=
  ⟨20, fun fuel hf => ((Unmarshal_le Ex.envV 20 fuel hf _).run _ _).done (sameResult_eq (by decide +kernel))⟩

/-- Types with different wire types are not compatible. -/
example : ¬ Compatible Ex.envV 3 2 ∧ ¬ Compatible Ex.envV 4 3 := by
  constructor
  · intro h
    cases wireTypeOf_unique (h.wire (.string rfl) ((lookup_iff_acc Ex.envV 2).1 ⟨5, _, rfl⟩)) (.i32 (.inl rfl))
  · intro h
    cases wireTypeOf_unique (h.wire (.ptr (e := 0) rfl (.struct rfl)) ((lookup_iff_acc Ex.envV 3).1 ⟨5, _, rfl⟩)) (.string rfl)

end GoThrift
