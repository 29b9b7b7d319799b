import Verif.Proof.MergeMap
import Verif.Props.Merge
import Verif.Props.Again

/-!
# C98: a map read in two parts
-/

namespace GoThrift

open Spec Spec.TVal

/-- **C98**: reading a map into a variable and then another one into the same variable comes to the same, exactly, as reading one map that has the entries of the first followed by those of the second -
whatever the Readers, the entries, the keys (NaN included), and the earlier contents of the variable. If the second map is not read without error, the error is the same, and so is what the variable holds. -/
theorem C98_merge {S S2 S3 : Type} (env : Env) (r : Rdr S) (r2 : Rdr S2) (r3 : Rdr S3) (p t : TypeId) (hp : (env.type p).kind = .ptr t) (hw : WireTypeOf env t Ty.map) (k1 v1 k2 v2 k3 v3 : WType)
    (xs ys : List (TVal × TVal)) (s s' s1 : S) (hh : Holds r (.map k1 v1 xs) s s') (s2 s2' s4 : S2) (hh2 : Holds r2 (.map k2 v2 ys) s2 s2') (s3 s3' : S3)
    (hh3 : Holds r3 (.map k3 v3 (xs ++ ys)) s3 s3') (old : GoVal) (x y : AnyVal) (e : Option Err) (h : UnmarshalReturns env r (.val p (.ptr old)) s none x s1)
    (h2 : UnmarshalReturns env r2 x s2 e y s4) : ∃ s5, UnmarshalReturns env r3 (.val p (.ptr old)) s3 e y s5 ∧ (e = none → s5 = s3') := by
  obtain ⟨k, a, m, v, hl, hd, rfl, _⟩ := h.dec (tv := .map k1 v1 xs) hp hw hh
  obtain ⟨k', a2, m2, w, hl2, hd2, rfl, _⟩ := h2.dec (tv := .map k2 v2 ys) hp hw hh2
  obtain rfl := lookup_unique hl hl2
  have hd3 : dec env (max m m2) a old (.map k3 v3 (xs ++ ys)) = .done (w, e) := by
    rw [dec_map_append env _ a old k1 v1 k2 v2, dec_mono (Nat.le_max_left m m2) hd, andThen_none, dec_mono (Nat.le_max_right m m2) hd2]
  cases e with
  | none => exact ⟨s3', UnmarshalReturns_of_dec (tv := .map k3 v3 (xs ++ ys)) hp hl (hw.lookup hl) hh3 hd3, fun _ => rfl⟩
  | some e =>
    obtain ⟨s5, h5⟩ := UnmarshalReturns_of_dec' (tv := .map k3 v3 (xs ++ ys)) hp hl (hw.lookup hl) hh3 hd3
    exact ⟨s5, h5, fun h => by cases h⟩

/-- **C98**: if the first map is not read without error, the entries of the second do not matter. -/
theorem C98_first_error {S S3 : Type} (env : Env) (r : Rdr S) (r3 : Rdr S3) (p t : TypeId) (hp : (env.type p).kind = .ptr t) (hw : WireTypeOf env t Ty.map) (k1 v1 k3 v3 : WType)
    (xs ys : List (TVal × TVal)) (s s' s1 : S) (hh : Holds r (.map k1 v1 xs) s s') (s3 s3' : S3) (hh3 : Holds r3 (.map k3 v3 (xs ++ ys)) s3 s3') (old : GoVal) (x : AnyVal) (e : Err)
    (h : UnmarshalReturns env r (.val p (.ptr old)) s (some e) x s1) : ∃ s5, UnmarshalReturns env r3 (.val p (.ptr old)) s3 (some e) x s5 := by
  obtain ⟨k, a, m, v, hl, hd, rfl, _⟩ := h.dec (tv := .map k1 v1 xs) hp hw hh
  refine UnmarshalReturns_of_dec' (tv := .map k3 v3 (xs ++ ys)) (m := m) hp hl (hw.lookup hl) hh3 ?_
  rw [dec_map_append env _ a old k1 v1 k1 v1, hd]
  rfl

/-- **C98**: the other way round. What comes of the joint map comes of the two, read one after the other, or of the first alone, if it is not read without error. -/
theorem C98_split {S S2 S3 : Type} (env : Env) (r : Rdr S) (r2 : Rdr S2) (r3 : Rdr S3) (p t : TypeId) (hp : (env.type p).kind = .ptr t) (hw : WireTypeOf env t Ty.map) (k1 v1 k2 v2 k3 v3 : WType)
    (xs ys : List (TVal × TVal)) (s s' : S) (hh : Holds r (.map k1 v1 xs) s s') (s2 s2' : S2) (hh2 : Holds r2 (.map k2 v2 ys) s2 s2') (s3 s3' s5 : S3)
    (hh3 : Holds r3 (.map k3 v3 (xs ++ ys)) s3 s3') (old : GoVal) (y : AnyVal) (e : Option Err) (h : UnmarshalReturns env r3 (.val p (.ptr old)) s3 e y s5) :
    (e ≠ none ∧ ∃ s1, UnmarshalReturns env r (.val p (.ptr old)) s e y s1) ∨
      ∃ x s4, UnmarshalReturns env r (.val p (.ptr old)) s none x s' ∧ UnmarshalReturns env r2 x s2 e y s4 := by
  obtain ⟨k, a, m, w, hl, hd, rfl, _⟩ := h.dec (tv := .map k3 v3 (xs ++ ys)) hp hw hh3
  rw [dec_map_append env _ a old k1 v1 k2 v2] at hd
  rcases andThen_split hd with ⟨v, h1, h2⟩ | ⟨v, e', h1, rfl, rfl⟩
  · obtain ⟨s4, h3⟩ := UnmarshalReturns_of_dec' (tv := .map k2 v2 ys) hp hl (hw.lookup hl) hh2 h2
    exact .inr ⟨.val p (.ptr v), s4, UnmarshalReturns_of_dec (tv := .map k1 v1 xs) hp hl (hw.lookup hl) hh h1, h3⟩
  · exact .inl ⟨by simp, UnmarshalReturns_of_dec' (tv := .map k1 v1 xs) hp hl (hw.lookup hl) hh h1⟩

/-- **C98**: a field that is a map, of a struct, may come in two parts. -/
theorem C98_field {S S2 : Type} (env : Env) (r : Rdr S) (r2 : Rdr S2) (p t : TypeId) (hp : (env.type p).kind = .ptr t) (hw : WireTypeOf env t Ty.struct) (n n' n1 n2 n3 : Bytes) (id : BitVec 16)
    (k1 v1 k2 v2 k3 v3 : WType) (xs ys : List (TVal × TVal)) (pre post : List (Bytes × BitVec 16 × TVal)) (s s' : S)
    (hh : Holds r (.struct n (pre ++ (n1, id, .map k1 v1 xs) :: (n2, id, .map k2 v2 ys) :: post)) s s') (s2 s2' : S2) (hh2 : Holds r2 (.struct n' (pre ++ (n3, id, .map k3 v3 (xs ++ ys)) :: post)) s2 s2')
    (old : GoVal) (x : AnyVal) (e : Option Err) :
    (∃ s1, UnmarshalReturns env r (.val p (.ptr old)) s e x s1) ↔ ∃ s4, UnmarshalReturns env r2 (.val p (.ptr old)) s2 e x s4 := by
  constructor
  · rintro ⟨s1, h⟩
    obtain ⟨k, a, m, v, hl, hd, rfl, _⟩ := h.dec (tv := .struct n _) hp hw hh
    exact UnmarshalReturns_of_dec' (tv := .struct n' _) hp hl (hw.lookup hl) hh2 (dec_lift (fun h => decFields_mono (Nat.le_succ _) (decFields_one h)) hd)
  · rintro ⟨s4, h⟩
    obtain ⟨k, a, m, v, hl, hd, rfl, _⟩ := h.dec (tv := .struct n' _) hp hw hh2
    exact UnmarshalReturns_of_dec' (tv := .struct n _) hp hl (hw.lookup hl) hh (dec_lift (fun h => decFields_two h) hd)

/-! ## Examples -/

theorem Ex.wf_map (tes : List (TVal × TVal)) (h : WFEntries (2 ^ 31 - 1) Ty.double Ty.bool tes) (hl : tes.length ≤ 2 ^ 31 - 1) : WF (2 ^ 31 - 1) (.map Ty.double Ty.bool tes) := ⟨hl, h⟩

/-- A map with keys that are floats, one of them NaN, in two parts. -/
example : ∃ s5, UnmarshalReturns Ex.envN (Binary.reader true) (.val 3 (.ptr .mapNil))
    ((), ⟨16, encBin (.map Ty.double Ty.bool ([(.double 1, .bool true), (.double 0x7ff8000000000001, .bool true)] ++ [(.double 1, .bool false), (.double 0x7ff8000000000001, .bool false)])) ++ [], .err .eof⟩) none
    (.val 3 (.ptr (.map [(.f64 1, .bool false), (.f64 0x7ff8000000000001, .bool true), (.f64 0x7ff8000000000001, .bool false)]))) s5 := by
  have h : UnmarshalReturns Ex.envN (Binary.reader true) (.val 3 (.ptr .mapNil)) ((), ⟨16, encBin (.map Ty.double Ty.bool [(.double 1, .bool true), (.double 0x7ff8000000000001, .bool true)]) ++ [], .err .eof⟩) none
      (.val 3 (.ptr (.map [(.f64 1, .bool true), (.f64 0x7ff8000000000001, .bool true)]))) ((), ⟨16, [], .err .eof⟩) :=
    ⟨20, fun fuel hf => ((Unmarshal_le Ex.envN 20 fuel hf _).run _ _).done (sameResult_eq (by decide +kernel))⟩
  have h2 : UnmarshalReturns Ex.envN (Binary.reader true) (.val 3 (.ptr (.map [(.f64 1, .bool true), (.f64 0x7ff8000000000001, .bool true)])))
      ((), ⟨16, encBin (.map Ty.double Ty.bool [(.double 1, .bool false), (.double 0x7ff8000000000001, .bool false)]) ++ [], .err .eof⟩) none
      (.val 3 (.ptr (.map [(.f64 1, .bool false), (.f64 0x7ff8000000000001, .bool true), (.f64 0x7ff8000000000001, .bool false)]))) ((), ⟨16, [], .err .eof⟩) :=
    ⟨20, fun fuel hf => ((Unmarshal_le Ex.envN 20 fuel hf _).run _ _).done (sameResult_eq (by decide +kernel))⟩
  obtain ⟨s5, h3, _⟩ := C98_merge Ex.envN _ _ _ 3 0 rfl (.map rfl) Ty.double Ty.bool Ty.double Ty.bool Ty.double Ty.bool _ _ _ _ _
    (Binary.holds true 16 (by decide) (.err .eof) _ (Ex.wf_map _ (by simp [WF, WFEntries, ty]) (by decide)) []) _ _ _
    (Binary.holds true 16 (by decide) (.err .eof) _ (Ex.wf_map _ (by simp [WF, WFEntries, ty]) (by decide)) []) _ _
    (Binary.holds true 16 (by decide) (.err .eof) _ (Ex.wf_map _ (by simp [WF, WFEntries, ty]) (by decide)) []) _ _ _ none h h2
  exact ⟨s5, h3⟩

/-- `C98_split` where there is no error. -/
example : ∃ x s4, UnmarshalReturns Ex.envN (Binary.reader true) (.val 3 (.ptr .mapNil)) ((), ⟨16, encBin (.map Ty.double Ty.bool [(.double 1, .bool true)]) ++ [], .err .eof⟩) none x ((), ⟨16, [], .err .eof⟩) ∧
    UnmarshalReturns Ex.envN (Binary.reader true) x ((), ⟨16, encBin (.map Ty.double Ty.bool [(.double 2, .bool false)]) ++ [], .err .eof⟩) none
      (.val 3 (.ptr (.map [(.f64 1, .bool true), (.f64 2, .bool false)]))) s4 := by
  have h : UnmarshalReturns Ex.envN (Binary.reader true) (.val 3 (.ptr .mapNil)) ((), ⟨16, encBin (.map Ty.double Ty.bool ([(.double 1, .bool true)] ++ [(.double 2, .bool false)])) ++ [], .err .eof⟩) none
      (.val 3 (.ptr (.map [(.f64 1, .bool true), (.f64 2, .bool false)]))) ((), ⟨16, [], .err .eof⟩) :=
    ⟨20, fun fuel hf => ((Unmarshal_le Ex.envN 20 fuel hf _).run _ _).done (sameResult_eq (by decide +kernel))⟩
  rcases C98_split Ex.envN _ _ _ 3 0 rfl (.map rfl) Ty.double Ty.bool Ty.double Ty.bool Ty.double Ty.bool _ _ _ _
    (Binary.holds true 16 (by decide) (.err .eof) _ (Ex.wf_map _ (by simp [WF, WFEntries, ty]) (by decide)) []) _ _
    (Binary.holds true 16 (by decide) (.err .eof) _ (Ex.wf_map _ (by simp [WF, WFEntries, ty]) (by decide)) []) _ _ _
    (Binary.holds true 16 (by decide) (.err .eof) _ (Ex.wf_map _ (by simp [WF, WFEntries, ty]) (by decide)) []) _ _ none h with ⟨h, _⟩ | h
  · exact absurd rfl h
  · exact h

/-- The keys are no strings; which entries follow does not matter. -/
example : ∃ s5, UnmarshalReturns Ex.envN (Binary.reader true) (.val 3 (.ptr .mapNil))
    ((), ⟨16, encBin (.map Ty.string Ty.bool ([(.str false [], .bool true)] ++ [(.str false [1], .bool true)])) ++ [], .err .eof⟩) (some (.semantic .unmarshal Ty.string (some 1))) (.val 3 (.ptr (.map []))) s5 := by
  have h : UnmarshalReturns Ex.envN (Binary.reader true) (.val 3 (.ptr .mapNil)) ((), ⟨16, encBin (.map Ty.string Ty.bool [(.str false [], .bool true)]) ++ [], .err .eof⟩)
      (some (.semantic .unmarshal Ty.string (some 1))) (.val 3 (.ptr (.map []))) ((), ⟨16, [0, 0, 0, 0, 1], .err .eof⟩) :=
    ⟨20, fun fuel hf => ((Unmarshal_le Ex.envN 20 fuel hf _).run _ _).done (sameResult_eq (by decide +kernel))⟩
  exact C98_first_error Ex.envN _ _ 3 0 rfl (.map rfl) Ty.string Ty.bool Ty.string Ty.bool _ _ _ _ _ (Binary.holds true 16 (by decide) (.err .eof) _ (by simp [WF, WFEntries, ty]) []) _ _
    (Binary.holds true 16 (by decide) (.err .eof) (.map Ty.string Ty.bool ([(.str false [], .bool true)] ++ [(.str false [1], .bool true)])) (by simp [WF, WFEntries, ty]) []) _ _ _ h

/-- The field 4 of the struct, in two parts. -/
example : ∃ s4, UnmarshalReturns Ex.env (Binary.reader true) (.val 4 (.ptr (Ex.env.zero 0)))
    ((), ⟨16, encBin (.struct [] ([([], 1, .i32 5)] ++ ([], 4, .map Ty.string Ty.i64 ([(.str false [107], .i64 1)] ++ [(.str false [108], .i64 2)])) :: [])) ++ [], .err .eof⟩) none
    (Ex.got (.map [(.str [107], .i64 1), (.str [108], .i64 2)]) 5 false) s4 := by
  have w : ∀ xs, WFFields (2 ^ 31 - 1) xs → WF (2 ^ 31 - 1) (.struct [] xs) := fun xs h => h
  have h : UnmarshalReturns Ex.env (Binary.reader true) (.val 4 (.ptr (Ex.env.zero 0)))
      ((), ⟨16, encBin (.struct [] ([([], 1, .i32 5)] ++ ([], 4, .map Ty.string Ty.i64 [(.str false [107], .i64 1)]) :: ([], 4, .map Ty.string Ty.i64 [(.str false [108], .i64 2)]) :: [])) ++ [], .err .eof⟩) none
      (Ex.got (.map [(.str [107], .i64 1), (.str [108], .i64 2)]) 5 false) ((), ⟨16, [], .err .eof⟩) :=
    ⟨20, fun fuel hf => ((Unmarshal_le Ex.env 20 fuel hf _).run _ _).done (sameResult_eq (by decide +kernel))⟩
  exact (C98_field Ex.env _ _ 4 0 rfl (.struct rfl) [] [] [] [] [] 4 Ty.string Ty.i64 Ty.string Ty.i64 Ty.string Ty.i64 _ _ [([], 1, .i32 5)] [] _ _
    (Binary.holds true 16 (by decide) (.err .eof) _ (w _ (by simp [WFFields, WF, WFEntries, ty])) []) _ _
    (Binary.holds true 16 (by decide) (.err .eof) _ (w _ (by simp [WFFields, WF, WFEntries, ty])) []) _ _ none).1 ⟨_, h⟩

end GoThrift
