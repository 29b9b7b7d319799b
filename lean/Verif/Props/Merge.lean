import Verif.Proof.Merge
import Verif.Props.AnyOrder

/-!
# C96: a struct read in two parts
-/

namespace GoThrift

open Spec Spec.TVal

/-- **C96**: reading a struct into a variable and then another one into the same variable comes to the same, exactly, as reading one struct that has the fields of the first followed by those of the
second - whatever the Readers, the fields, and the earlier contents of the variable. If the second struct is not read without error, the error is the same, and so is what the variable holds. -/
theorem C96_merge {S S2 S3 : Type} (env : Env) (r : Rdr S) (r2 : Rdr S2) (r3 : Rdr S3) (p t : TypeId) (hp : (env.type p).kind = .ptr t) (hw : WireTypeOf env t Ty.struct) (n n2 n3 : Bytes)
    (xs ys : List (Bytes × BitVec 16 × TVal)) (s s' s1 : S) (hh : Holds r (.struct n xs) s s') (s2 s2' s4 : S2) (hh2 : Holds r2 (.struct n2 ys) s2 s2') (s3 s3' : S3)
    (hh3 : Holds r3 (.struct n3 (xs ++ ys)) s3 s3') (old : GoVal) (x y : AnyVal) (e : Option Err) (h : UnmarshalReturns env r (.val p (.ptr old)) s none x s1)
    (h2 : UnmarshalReturns env r2 x s2 e y s4) : ∃ s5, UnmarshalReturns env r3 (.val p (.ptr old)) s3 e y s5 ∧ (e = none → s5 = s3') := by
  obtain ⟨k, a, m, v, hl, hd, rfl, _⟩ := h.dec (tv := .struct n xs) hp hw hh
  obtain ⟨k2, a2, m2, w, hl2, hd2, rfl, _⟩ := h2.dec (tv := .struct n2 ys) hp hw hh2
  obtain rfl := lookup_unique hl hl2
  have hd3 := (dec_append (n' := n3) (ys := ys) hd).2 n2 m2 _ rfl hd2
  cases e with
  | none => exact ⟨s3', UnmarshalReturns_of_dec (tv := .struct n3 (xs ++ ys)) hp hl (hw.lookup hl) hh3 hd3, fun _ => rfl⟩
  | some e =>
    obtain ⟨s5, h5⟩ := UnmarshalReturns_of_dec' (tv := .struct n3 (xs ++ ys)) hp hl (hw.lookup hl) hh3 hd3
    exact ⟨s5, h5, fun h => by cases h⟩

/-- **C96**: if the first struct is not read without error, the fields of the second do not matter. -/
theorem C96_first_error {S S3 : Type} (env : Env) (r : Rdr S) (r3 : Rdr S3) (p t : TypeId) (hp : (env.type p).kind = .ptr t) (hw : WireTypeOf env t Ty.struct) (n n3 : Bytes)
    (xs ys : List (Bytes × BitVec 16 × TVal)) (s s' s1 : S) (hh : Holds r (.struct n xs) s s') (s3 s3' : S3) (hh3 : Holds r3 (.struct n3 (xs ++ ys)) s3 s3') (old : GoVal) (x : AnyVal) (e : Err)
    (h : UnmarshalReturns env r (.val p (.ptr old)) s (some e) x s1) : ∃ s5, UnmarshalReturns env r3 (.val p (.ptr old)) s3 (some e) x s5 := by
  obtain ⟨k, a, m, v, hl, hd, rfl, _⟩ := h.dec (tv := .struct n xs) hp hw hh
  exact UnmarshalReturns_of_dec' (tv := .struct n3 (xs ++ ys)) hp hl (hw.lookup hl) hh3 ((dec_append (n' := n3) (ys := ys) hd).1 e rfl)

/-- **C96**: the other way round. What comes of the joint struct comes of the two, read one after the other, or of the first alone, if it is not read without error. -/
theorem C96_split {S S2 S3 : Type} (env : Env) (r : Rdr S) (r2 : Rdr S2) (r3 : Rdr S3) (p t : TypeId) (hp : (env.type p).kind = .ptr t) (hw : WireTypeOf env t Ty.struct) (n n2 n3 : Bytes)
    (xs ys : List (Bytes × BitVec 16 × TVal)) (s s' : S) (hh : Holds r (.struct n xs) s s') (s2 s2' : S2) (hh2 : Holds r2 (.struct n2 ys) s2 s2') (s3 s3' s5 : S3)
    (hh3 : Holds r3 (.struct n3 (xs ++ ys)) s3 s3') (old : GoVal) (y : AnyVal) (e : Option Err) (h : UnmarshalReturns env r3 (.val p (.ptr old)) s3 e y s5) :
    (e ≠ none ∧ ∃ s1, UnmarshalReturns env r (.val p (.ptr old)) s e y s1) ∨
      ∃ x s4, UnmarshalReturns env r (.val p (.ptr old)) s none x s' ∧ UnmarshalReturns env r2 x s2 e y s4 := by
  obtain ⟨k, a, m, w, hl, hd, rfl, _⟩ := h.dec (tv := .struct n3 (xs ++ ys)) hp hw hh3
  rcases dec_split hd n n2 with ⟨h1, h2⟩ | ⟨v, h1, h2⟩
  · exact .inl ⟨h1, UnmarshalReturns_of_dec' (tv := .struct n xs) hp hl (hw.lookup hl) hh h2⟩
  · obtain ⟨s4, h3⟩ := UnmarshalReturns_of_dec' (tv := .struct n2 ys) hp hl (hw.lookup hl) hh2 h2
    exact .inr ⟨.val p (.ptr v), s4, UnmarshalReturns_of_dec (tv := .struct n xs) hp hl (hw.lookup hl) hh h1, h3⟩

/-- A wire value of a type for structs is a struct. -/
theorem ty_struct {tv : TVal} (h : tv.ty = Ty.struct) : ∃ n fs, tv = .struct n fs := by
  cases tv with
  | struct n fs => exact ⟨n, fs, rfl⟩
  | _ => exact absurd h (by simp [TVal.ty]; try decide)

/-- **C96** binary: what Marshal wrote for two structs, of any two types, can be joined by leaving out the byte that ends the first. -/
theorem C96_binary (env : Env) (strict : Bool) (x1 x2 : AnyVal) (t1 t2 : TypeId) (v1 v2 : GoVal) (hx1 : Passes env x1 t1 v1) (hx2 : Passes env x2 t2 v2) (ht1 : HasType env t1 v1)
    (ht2 : HasType env t2 v2) (hw1 : WireTypeOf env t1 Ty.struct) (hw2 : WireTypeOf env t2 Ty.struct) (hs1 : SizesAtMost env (2 ^ 31 - 1) t1 v1) (hs2 : SizesAtMost env (2 ^ 31 - 1) t2 v2)
    (b1 b2 out1 out2 : Bytes) (h1 : MarshalReturns env (Binary.writer strict) x1 ((), b1) none ((), b1 ++ out1)) (h2 : MarshalReturns env (Binary.writer strict) x2 ((), b2) none ((), b2 ++ out2))
    (p t : TypeId) (hp : (env.type p).kind = .ptr t) (hw : WireTypeOf env t Ty.struct) (old : GoVal) (size size2 size3 : Nat) (hsize : 16 ≤ size) (hsize2 : 16 ≤ size2) (hsize3 : 16 ≤ size3)
    (rest rest2 rest3 : Bytes) (fin fin2 fin3 : End) (x y : AnyVal) (s1 s2 : Unit × Flat)
    (hu1 : UnmarshalReturns env (Binary.reader strict) (.val p (.ptr old)) ((), ⟨size, out1 ++ rest, fin⟩) none x s1)
    (hu2 : UnmarshalReturns env (Binary.reader strict) x ((), ⟨size2, out2 ++ rest2, fin2⟩) none y s2) :
    UnmarshalReturns env (Binary.reader strict) (.val p (.ptr old)) ((), ⟨size3, out1.dropLast ++ out2 ++ rest3, fin3⟩) none y ((), ⟨size3, rest3, fin3⟩) := by
  obtain ⟨tv1, hr1, hwr1, _⟩ := h1.rep hx1 ht1
  obtain ⟨tv2, hr2, hwr2, _⟩ := h2.rep hx2 ht2
  obtain rfl : out1 = encBin tv1 := by simpa using hwr1.unique (Binary.writes strict tv1 b1)
  obtain rfl : out2 = encBin tv2 := by simpa using hwr2.unique (Binary.writes strict tv2 b2)
  obtain ⟨w1, _, _⟩ := rep_wf hr1 _ ht1 hs1
  obtain ⟨w2, _, _⟩ := rep_wf hr2 _ ht2 hs2
  obtain ⟨n1, xs, rfl⟩ := ty_struct ((rep_wireType hr1).unique hw1)
  obtain ⟨n2, ys, rfl⟩ := ty_struct ((rep_wireType hr2).unique hw2)
  have w3 : WF (2 ^ 31 - 1) (.struct n1 (xs ++ ys)) := (wfFields_iff _).2 fun f hf => by
    rcases List.mem_append.1 hf with hf | hf
    · exact (wfFields_iff _).1 w1 f hf
    · exact (wfFields_iff _).1 w2 f hf
  obtain ⟨s5, h5, h6⟩ := C96_merge env _ _ _ p t hp hw n1 n2 n1 xs ys _ _ _ (Binary.holds strict size hsize fin _ w1 rest) _ _ _ (Binary.holds strict size2 hsize2 fin2 _ w2 rest2) _ _
    (Binary.holds strict size3 hsize3 fin3 _ w3 rest3) old x y none hu1 hu2
  rw [h6 rfl] at h5
  rw [encBin, encBin, ← encBinFields_append]
  rw [encBin] at h5
  exact h5

/-- **C96** with C95: two structs that have no declared field in common can be read in either order. -/
theorem C96_commute {S S2 : Type} (env : Env) (r : Rdr S) (r2 : Rdr S2) (p t : TypeId) (hp : (env.type p).kind = .ptr t) (hw : WireTypeOf env t Ty.struct) (hd : ∀ t', Within env t' t → DistinctIds env t')
    (n n2 : Bytes) (xs ys : List (Bytes × BitVec 16 × TVal)) (ha : KeysApart env t (.struct n (xs ++ ys))) (hi : IdsOnce env t (.struct n (xs ++ ys)))
    (s s' s1 s1' : S) (hh : Holds r (.struct n xs) s s') (s2 s2' s4 s4' : S2) (hh2 : Holds r2 (.struct n2 ys) s2 s2') (old v v' w w' : GoVal) (ht : ValidValue env t old)
    (h : UnmarshalReturns env r (.val p (.ptr old)) s none (.val p (.ptr v)) s1) (h2 : UnmarshalReturns env r2 (.val p (.ptr v)) s2 none (.val p (.ptr w)) s4)
    (h' : UnmarshalReturns env r2 (.val p (.ptr old)) s2 none (.val p (.ptr v')) s4') (h2' : UnmarshalReturns env r (.val p (.ptr v')) s none (.val p (.ptr w')) s1') : SameValue false w w' := by
  have joined : ∀ {S S2 : Type} {r : Rdr S} {r2 : Rdr S2} {n n2 : Bytes} {xs ys : List (Bytes × BitVec 16 × TVal)} {s s' s1 : S} {s2 s2' s4 : S2} {v w : GoVal}, Holds r (.struct n xs) s s' →
      Holds r2 (.struct n2 ys) s2 s2' → UnmarshalReturns env r (.val p (.ptr old)) s none (.val p (.ptr v)) s1 → UnmarshalReturns env r2 (.val p (.ptr v)) s2 none (.val p (.ptr w)) s4 →
      ∀ n3, Decodes env t old (.struct n3 (xs ++ ys)) w := by
    intro S S2 r r2 n n2 xs ys s s' s1 s2 s2' s4 v w hh hh2 h h2 n3
    obtain ⟨k, a, m, v1, hl, hd, e1, _⟩ := h.dec (tv := .struct n xs) hp hw hh
    obtain ⟨k2, a2, m2, w1, hl2, hd2, e2, _⟩ := h2.dec (tv := .struct n2 ys) hp hw hh2
    cases e1
    cases e2
    obtain rfl := lookup_unique hl hl2
    exact (dec_sound env _).1 k t a old _ w hl ((dec_append (n' := n3) (ys := ys) hd).2 n2 m2 _ rfl hd2)
  refine decodesAny env _ t old old w _ w' (joined hh hh2 h h2 n) (joined hh2 hh h' h2' n2) (.refl _) ?_ ht.neat hd ⟨ha, hi⟩
  exact .struct n n2 List.perm_append_comm rfl (fun i f f' h1 h2 => by cases h1.symm.trans h2; rfl) (fun i f f' h1 h2 => by cases h1.symm.trans h2; exact .refl _)

/-! ## Examples -/

/-- What `valQ` is written as, twice, read into a variable that holds an older value. -/
example : UnmarshalReturns Ex.env (Binary.reader true) (.val 4 (.ptr Ex.valQ)) ((), ⟨16, Ex.bytesQ.dropLast ++ Ex.bytesQ ++ [7], .block⟩) none
    (.val 4 (.ptr (.struct [.map [(.str (ascii "k"), .i64 7), (.str (ascii "l"), .i64 0)], .i32 5, .ptr (.str []), .other 0, .slice [.str (ascii "x"), .str []] [.str (ascii "old")], .other 3, .bool false])))
    ((), ⟨16, [7], .block⟩) := by
  have h : UnmarshalReturns Ex.env (Binary.reader true) (.val 4 (.ptr Ex.valQ)) ((), ⟨16, Ex.bytesQ ++ [9], .err .eof⟩) none
      (.val 4 (.ptr (.struct [.map [(.str (ascii "k"), .i64 7), (.str (ascii "l"), .i64 0)], .i32 5, .ptr (.str []), .other 0, .slice [.str (ascii "x"), .str []] [.str (ascii "old")], .other 3, .bool false])))
      ((), ⟨16, [9], .err .eof⟩) := ⟨20, fun fuel hf => ((Unmarshal_le Ex.env 20 fuel hf _).run _ _).done (sameResult_eq (by decide +kernel))⟩
  have h2 : UnmarshalReturns Ex.env (Binary.reader true)
      (.val 4 (.ptr (.struct [.map [(.str (ascii "k"), .i64 7), (.str (ascii "l"), .i64 0)], .i32 5, .ptr (.str []), .other 0, .slice [.str (ascii "x"), .str []] [.str (ascii "old")], .other 3, .bool false])))
      ((), ⟨16, Ex.bytesQ ++ [9], .err .eof⟩) none
      (.val 4 (.ptr (.struct [.map [(.str (ascii "k"), .i64 7), (.str (ascii "l"), .i64 0)], .i32 5, .ptr (.str []), .other 0, .slice [.str (ascii "x"), .str []] [.str (ascii "old")], .other 3, .bool false])))
      ((), ⟨16, [9], .err .eof⟩) := ⟨20, fun fuel hf => ((Unmarshal_le Ex.env 20 fuel hf _).run _ _).done (sameResult_eq (by decide +kernel))⟩
  exact C96_binary Ex.env true (.val 0 Ex.valQ) (.val 0 Ex.valQ) 0 0 _ _ (.inl ⟨rfl, fun e h => by cases h⟩) (.inl ⟨rfl, fun e h => by cases h⟩) Ex.hasType_valQ Ex.hasType_valQ (.struct rfl) (.struct rfl)
    (Ex.sizes_valQ.mono (by decide)) (Ex.sizes_valQ.mono (by decide)) [1] [1] _ _ Ex.marshalsQ Ex.marshalsQ 4 0 rfl (.struct rfl) Ex.valQ 16 16 16 (by decide) (by decide) (by decide) [9] [9] [7] (.err .eof)
    (.err .eof) .block _ _ _ _ h h2

/-- What the variable holds in the next examples. -/
def Ex.got (d : GoVal) (a : BitVec 32) (e : Bool) : AnyVal := .val 4 (.ptr (.struct [d, .i32 a, .ptrNil, .other 0, .sliceNil, .other 0, .bool e]))

theorem Ex.wf_two : WF (2 ^ 31 - 1) (.struct [] [([], 1, .i32 5), ([], 4, .map Ty.string Ty.i64 [(.str false [107], .i64 1)])]) := by simp [WF, WFFields, WFEntries, ty]

theorem Ex.wf_one : WF (2 ^ 31 - 1) (.struct [] [([], -2, .bool true)]) := by simp [WF, WFFields]

theorem Ex.wf_three : WF (2 ^ 31 - 1) (.struct [] ([([], 1, .i32 5), ([], 4, .map Ty.string Ty.i64 [(.str false [107], .i64 1)])] ++ [([], -2, .bool true)])) := by simp [WF, WFFields, WFEntries, ty]

/-- Two fields and then another one, or all three. -/
example : ∃ s5, UnmarshalReturns Ex.env (Binary.reader true) (.val 4 (.ptr (Ex.env.zero 0)))
    ((), ⟨16, encBin (.struct [] ([([], 1, .i32 5), ([], 4, .map Ty.string Ty.i64 [(.str false [107], .i64 1)])] ++ [([], -2, .bool true)])) ++ [], .err .eof⟩) none (Ex.got (.map [(.str [107], .i64 1)]) 5 true) s5 := by
  have h : UnmarshalReturns Ex.env (Binary.reader true) (.val 4 (.ptr (Ex.env.zero 0)))
      ((), ⟨16, encBin (.struct [] [([], 1, .i32 5), ([], 4, .map Ty.string Ty.i64 [(.str false [107], .i64 1)])]) ++ [], .err .eof⟩) none (Ex.got (.map [(.str [107], .i64 1)]) 5 false) ((), ⟨16, [], .err .eof⟩) :=
    ⟨20, fun fuel hf => ((Unmarshal_le Ex.env 20 fuel hf _).run _ _).done (sameResult_eq (by decide +kernel))⟩
  have h2 : UnmarshalReturns Ex.env (Binary.reader true) (Ex.got (.map [(.str [107], .i64 1)]) 5 false)
      ((), ⟨16, encBin (.struct [] [([], -2, .bool true)]) ++ [], .err .eof⟩) none (Ex.got (.map [(.str [107], .i64 1)]) 5 true) ((), ⟨16, [], .err .eof⟩) :=
    ⟨20, fun fuel hf => ((Unmarshal_le Ex.env 20 fuel hf _).run _ _).done (sameResult_eq (by decide +kernel))⟩
  obtain ⟨s5, h3, _⟩ := C96_merge Ex.env _ _ _ 4 0 rfl (.struct rfl) [] [] [] _ _ _ _ _ (Binary.holds true 16 (by decide) (.err .eof) _ Ex.wf_two []) _ _ _
    (Binary.holds true 16 (by decide) (.err .eof) _ Ex.wf_one []) _ _ (Binary.holds true 16 (by decide) (.err .eof) _ Ex.wf_three []) _ _ _ none h h2
  exact ⟨s5, h3⟩

/-- The field 1 is no bool; what comes after it does not matter. -/
example : ∃ s5, UnmarshalReturns Ex.env (Binary.reader true) (.val 4 (.ptr (Ex.env.zero 0)))
    ((), ⟨16, encBin (.struct [] ([([], -2, .bool true), ([], 1, .bool true)] ++ [([], 1, .i32 5)])) ++ [], .err .eof⟩) (some (.semantic .unmarshal Ty.bool (some 1))) (Ex.got .mapNil 0 true) s5 := by
  have w : ∀ xs, WFFields (2 ^ 31 - 1) xs → WF (2 ^ 31 - 1) (.struct [] xs) := fun xs h => h
  have h : UnmarshalReturns Ex.env (Binary.reader true) (.val 4 (.ptr (Ex.env.zero 0))) ((), ⟨16, encBin (.struct [] [([], -2, .bool true), ([], 1, .bool true)]) ++ [], .err .eof⟩)
      (some (.semantic .unmarshal Ty.bool (some 1))) (Ex.got .mapNil 0 true) ((), ⟨16, [1, 0], .err .eof⟩) :=
    ⟨20, fun fuel hf => ((Unmarshal_le Ex.env 20 fuel hf _).run _ _).done (sameResult_eq (by decide +kernel))⟩
  exact C96_first_error Ex.env _ _ 4 0 rfl (.struct rfl) [] [] _ _ _ _ _ (Binary.holds true 16 (by decide) (.err .eof) _ (w _ (by simp [WFFields, WF])) []) _ _
    (Binary.holds true 16 (by decide) (.err .eof) _ (w _ (by simp [WFFields, WF])) []) _ _ _ h

/-- `C96_split` where there is no error. -/
example : ∃ x s4, UnmarshalReturns Ex.env (Binary.reader true) (.val 4 (.ptr (Ex.env.zero 0)))
      ((), ⟨16, encBin (.struct [] [([], 1, .i32 5), ([], 4, .map Ty.string Ty.i64 [(.str false [107], .i64 1)])]) ++ [], .err .eof⟩) none x ((), ⟨16, [], .err .eof⟩) ∧
    UnmarshalReturns Ex.env (Binary.reader true) x ((), ⟨16, encBin (.struct [] [([], -2, .bool true)]) ++ [], .err .eof⟩) none (Ex.got (.map [(.str [107], .i64 1)]) 5 true) s4 := by
  have h : UnmarshalReturns Ex.env (Binary.reader true) (.val 4 (.ptr (Ex.env.zero 0)))
      ((), ⟨16, encBin (.struct [] ([([], 1, .i32 5), ([], 4, .map Ty.string Ty.i64 [(.str false [107], .i64 1)])] ++ [([], -2, .bool true)])) ++ [], .err .eof⟩) none (Ex.got (.map [(.str [107], .i64 1)]) 5 true)
      ((), ⟨16, [], .err .eof⟩) := ⟨20, fun fuel hf => ((Unmarshal_le Ex.env 20 fuel hf _).run _ _).done (sameResult_eq (by decide +kernel))⟩
  rcases C96_split Ex.env _ _ _ 4 0 rfl (.struct rfl) [] [] [] _ _ _ _ (Binary.holds true 16 (by decide) (.err .eof) _ Ex.wf_two []) _ _
    (Binary.holds true 16 (by decide) (.err .eof) _ Ex.wf_one []) _ _ _ (Binary.holds true 16 (by decide) (.err .eof) _ Ex.wf_three []) _ _ none h with ⟨h, _⟩ | h
  · exact absurd rfl h
  · exact h

theorem Ex.seen_leaf {env : Env} {t t' : TypeId} {tv tv' : TVal} (h : Seen env t tv t' tv') (hl : (∃ x, tv = .i32 x) ∨ ∃ b, tv = .bool b) : tv' = tv := by
  induction h with
  | refl => rfl
  | ptr _ _ ih => exact ih hl
  | _ => rcases hl with ⟨_, h⟩ | ⟨_, h⟩ <;> cases h

theorem Ex.seen_two {t' : TypeId} {tv' : TVal} (h : Seen Ex.env 0 (.struct [] ([([], 1, .i32 5)] ++ [([], -2, .bool true)])) t' tv') :
    tv' = .struct [] [([], 1, .i32 5), ([], -2, .bool true)] ∨ (∃ x, tv' = .i32 x) ∨ ∃ b, tv' = .bool b := by
  cases h with
  | refl => exact .inl rfl
  | ptr hk => cases hk
  | field _ hm _ _ h =>
    simp only [List.cons_append, List.nil_append, List.mem_cons, List.not_mem_nil, or_false] at hm
    rcases hm with rfl | rfl
    · exact .inr (.inl ⟨_, Ex.seen_leaf h (.inl ⟨_, rfl⟩)⟩)
    · exact .inr (.inr ⟨_, Ex.seen_leaf h (.inr ⟨_, rfl⟩)⟩)

/-- Two structs with one field each, in either order. -/
example : ∃ w w', UnmarshalReturns Ex.env (Binary.reader true) (.val 4 (.ptr w)) ((), ⟨16, encBin (.struct [] [([], -2, .bool true)]) ++ [], .err .eof⟩) none
    (.val 4 (.ptr w')) ((), ⟨16, [], .err .eof⟩) ∧ SameValue false w' w' := by
  have w : ∀ xs, WFFields (2 ^ 31 - 1) xs → WF (2 ^ 31 - 1) (.struct [] xs) := fun xs h => h
  have h1 : UnmarshalReturns Ex.env (Binary.reader true) (.val 4 (.ptr (Ex.env.zero 0))) ((), ⟨16, encBin (.struct [] [([], 1, .i32 5)]) ++ [], .err .eof⟩) none
      (Ex.got .mapNil 5 false) ((), ⟨16, [], .err .eof⟩) := ⟨20, fun fuel hf => ((Unmarshal_le Ex.env 20 fuel hf _).run _ _).done (sameResult_eq (by decide +kernel))⟩
  have h2 : UnmarshalReturns Ex.env (Binary.reader true) (Ex.got .mapNil 5 false) ((), ⟨16, encBin (.struct [] [([], -2, .bool true)]) ++ [], .err .eof⟩) none
      (Ex.got .mapNil 5 true) ((), ⟨16, [], .err .eof⟩) := ⟨20, fun fuel hf => ((Unmarshal_le Ex.env 20 fuel hf _).run _ _).done (sameResult_eq (by decide +kernel))⟩
  have h3 : UnmarshalReturns Ex.env (Binary.reader true) (.val 4 (.ptr (Ex.env.zero 0))) ((), ⟨16, encBin (.struct [] [([], -2, .bool true)]) ++ [], .err .eof⟩) none
      (Ex.got .mapNil 0 true) ((), ⟨16, [], .err .eof⟩) := ⟨20, fun fuel hf => ((Unmarshal_le Ex.env 20 fuel hf _).run _ _).done (sameResult_eq (by decide +kernel))⟩
  have h4 : UnmarshalReturns Ex.env (Binary.reader true) (Ex.got .mapNil 0 true) ((), ⟨16, encBin (.struct [] [([], 1, .i32 5)]) ++ [], .err .eof⟩) none
      (Ex.got .mapNil 5 true) ((), ⟨16, [], .err .eof⟩) := ⟨20, fun fuel hf => ((Unmarshal_le Ex.env 20 fuel hf _).run _ _).done (sameResult_eq (by decide +kernel))⟩
  refine ⟨_, _, h2, C96_commute Ex.env _ _ 4 0 rfl (.struct rfl) Ex.distinct_P [] [] [([], 1, .i32 5)] [([], -2, .bool true)] ?_ ?_ _ _ _ _
    (Binary.holds true 16 (by decide) (.err .eof) _ (w _ (by simp [WFFields, WF])) []) _ _ _ _ (Binary.holds true 16 (by decide) (.err .eof) _ (w _ (by simp [WFFields, WF])) []) _ _ _ _ _
    (zero_valid Ex.env 0) h1 h2 h3 h4⟩
  · intro t' k e kw ew tes hs
    rcases Ex.seen_two hs with h | ⟨_, h⟩ | ⟨_, h⟩ <;> cases h
  · intro t' fs n tfs hs _ i j tf tf' f r hij hi hj _ _
    rcases Ex.seen_two hs with h | ⟨_, h⟩ | ⟨_, h⟩
    · cases h
      rcases i with _ | _ | i <;> rcases j with _ | _ | j <;> simp at hi hj hij
      subst hi
      subst hj
      decide
    · cases h
    · cases h

end GoThrift
