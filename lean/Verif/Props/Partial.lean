import Verif.Proof.Partial
import Verif.Proof.Le
import Verif.Props.Decode
import Verif.Spec.Example

/-!
# C69: what Unmarshal leaves behind when it stops half way
-/

namespace GoThrift

open Spec

/-- The calls in a record of a run are those the ghost state has, and perhaps one more that failed. -/
theorem evMon_run {α S : Type} {bad : Err → α → Prop} {Q : α → List Ev → Prop} (r : Rdr S) (p : RProg α) (hf : FailFast bad p) (g : List Ev) (hp : Wp evMon Q p g) (s s' : S)
    (log0 log : List ((o : ROp) × Except Err o.Ans)) (a : α) (h : p.run (traced r) (s, log0) = .done (a, (s', log))) :
    ∃ evs : List Ev, Q a (g ++ evs) ∧ (log = log0 ++ evs.map Ev.ok ∨ ∃ o err, bad err a ∧ log = log0 ++ evs.map Ev.ok ++ [⟨o, .error err⟩]) := by
  induction p generalizing s log0 g with
  | ret b => cases h; exact ⟨[], by simpa using (show Q a g from hp), .inl (by simp)⟩
  | diverge => cases h
  | panic => cases h
  | call o k ih =>
    rw [RProg.run] at h
    cases hs : r.step o s with
    | done x =>
      obtain ⟨x, s1⟩ := x
      simp only [traced, hs, Out.bind_done] at h
      cases x with
      | ok b =>
        obtain ⟨evs, h1, h2⟩ := ih (.ok b) (hf.2 b) _ (hp.2.1 b trivial) s1 _ h
        refine ⟨⟨o, b⟩ :: evs, by simpa [evMon] using h1, ?_⟩
        rcases h2 with rfl | ⟨o', err, h3, rfl⟩
        · exact .inl (by simp [Ev.ok])
        · exact .inr ⟨o', err, h3, by simp [Ev.ok]⟩
      | error e =>
        obtain ⟨b, h1, h2⟩ := hf.1 e
        have hp' := hp.2.2 e
        rw [h1] at h hp'
        cases h
        exact ⟨[], by simpa using (show Q a g from hp'), .inr ⟨o, e, h2, by simp⟩⟩
    | blocked => simp only [traced, hs] at h; cases h
    | diverged => simp only [traced, hs] at h; cases h
    | panicked => simp only [traced, hs] at h; cases h

/-- Of any run of Unmarshal. -/
theorem unmarshal_post {S : Type} {env : Env} {r : Rdr S} {p t : TypeId} (hp : (env.type p).kind = .ptr t) {old : GoVal} {s s' : S} {log : List ((o : ROp) × Except Err o.Ans)} {e : Option Err}
    {x' : AnyVal} (h : UnmarshalReturns env (traced r) (.val p (.ptr old)) (s, []) e x' (s', log)) :
    ∃ w evs v, (∀ w', WireTypeOf env t w' → w = w') ∧ x' = .val p (.ptr v) ∧ (log = evs.map Ev.ok ∨ ∃ o err, e ≠ none ∧ log = evs.map Ev.ok ++ [⟨o, .error err⟩]) ∧
      (e = none → ∃ tv : TVal, tv.ty = w ∧ Reads tv evs ∧ Decodes env t old tv v) ∧ (∀ err, e = some err → Stopped env t w old evs v err) := by
  obtain ⟨n, h0⟩ := h
  have h := h0 n (Nat.le_refl _)
  clear h0
  have hf := failFast_Unmarshal env n (.val p (.ptr old))
  have he : env.elem? p = some t := by simp [Env.elem?, hp]
  simp only [Unmarshal, he, GoVal.pointee?] at h hf
  rcases lookup_total env n t with hl | ⟨a, hl⟩
  · rw [hl] at h; cases h
  rw [hl] at h hf
  simp only [Out.elim] at h hf
  have hw : Wp evMon (fun (y : AnyVal × Option Err) g => ∃ v, y.1 = .val p (.ptr v) ∧ Post env t a.wireType old [] (v, y.2) g)
      ((unmarshal env n n a old a.wireType).andThen (fun v => AnyVal.val p (.ptr v)) fun v => .ret (.val p (.ptr v), none)) [] :=
    Wp.andThen ((post_unmarshal env n n).1 n t a old a.wireType [] hl) (fun v g hv => ⟨v, rfl, hv⟩) fun v e g hv => ⟨v, rfl, hv⟩
  obtain ⟨evs, ⟨v, h1, evs', h2, h3, h4⟩, h5⟩ := evMon_run r _ hf [] hw s s' [] log _ h
  simp only [List.nil_append] at h2 h5
  subst h2
  refine ⟨a.wireType, evs, v, fun w' hw' => hw'.lookup hl, h1, ?_, h3, h4⟩
  rcases h5 with h5 | ⟨o, err, h6, h7⟩
  · exact .inl h5
  · obtain ⟨e', h6, _⟩ := h6
    exact .inr ⟨o, err, by rw [show e = some e' from h6]; simp, h7⟩

/-- **C69** (stopped): if Unmarshal returns an error, with any Reader, the variable holds what the successful calls up to then have brought: complete parts decoded, the rest as it was. The record has these calls
and perhaps one more that failed. Unless this was inside a field that is not declared, the error is a SemanticError. -/
theorem C69_stopped {S : Type} (env : Env) (r : Rdr S) (p t : TypeId) (hp : (env.type p).kind = .ptr t) (old : GoVal) (s s' : S) (log : List ((o : ROp) × Except Err o.Ans)) (e : Err) (x' : AnyVal)
    (h : UnmarshalReturns env (traced r) (.val p (.ptr old)) (s, []) (some e) x' (s', log)) :
    ∃ w evs v, (∀ w', WireTypeOf env t w' → w = w') ∧ x' = .val p (.ptr v) ∧ (log = evs.map Ev.ok ∨ ∃ o err, log = evs.map Ev.ok ++ [⟨o, .error err⟩]) ∧
      ∃ unknown, Stops env t w old evs v unknown ∧ (unknown = false → IsSemantic .unmarshal e) := by
  obtain ⟨w, evs, v, h1, h2, h3, _, h4⟩ := unmarshal_post hp h
  refine ⟨w, evs, v, h1, h2, ?_, h4 e rfl⟩
  rcases h3 with h3 | ⟨o, err, _, h3⟩
  · exact .inl h3
  · exact .inr ⟨o, err, h3⟩

/-- **C69** (read): if it returns nil, with any Reader, the calls have read a wire value, and the variable holds what this value decodes to. -/
theorem C69_read {S : Type} (env : Env) (r : Rdr S) (p t : TypeId) (hp : (env.type p).kind = .ptr t) (old : GoVal) (s s' : S) (log : List ((o : ROp) × Except Err o.Ans)) (x' : AnyVal)
    (h : UnmarshalReturns env (traced r) (.val p (.ptr old)) (s, []) none x' (s', log)) :
    ∃ tv evs v, (∀ w, WireTypeOf env t w → tv.ty = w) ∧ x' = .val p (.ptr v) ∧ log = evs.map Ev.ok ∧ Reads tv evs ∧ Decodes env t old tv v := by
  obtain ⟨w, evs, v, h1, h2, h3, h4, _⟩ := unmarshal_post hp h
  obtain ⟨tv, rfl, h5, h6⟩ := h4 rfl
  refine ⟨tv, evs, v, h1, h2, ?_, h5, h6⟩
  rcases h3 with h3 | ⟨o, err, he, _⟩
  · exact h3
  · exact absurd rfl he

theorem Spec.ReadsFields.header {tfs : List (Bytes × BitVec 16 × TVal)} {evs : List Ev} (h : ReadsFields tfs evs) : ∀ tf ∈ tfs, ∃ hd : FieldHeader, (⟨.fieldBegin, hd⟩ : Ev) ∈ evs ∧ hd.id = tf.2.1 := by
  match h with
  | .nil => simp
  | .cons (h := hd) _ _ h =>
    intro tf htf
    rcases List.mem_cons.1 htf with rfl | htf
    · exact ⟨hd, by simp, rfl⟩
    · obtain ⟨hd', h1, h2⟩ := ReadsFields.header h tf htf
      exact ⟨hd', by simp [h1], h2⟩

theorem Spec.Decodes.structInv {env : Env} {t : TypeId} {fs : List FieldDecl} (hk : (env.type t).kind = .struct fs) {old v : GoVal} {tv : TVal} (h : Decodes env t old tv v) :
    ∃ n tfs vs vs', old = .struct vs ∧ tv = .struct n tfs ∧ v = .struct vs' ∧ DecodesFields env fs vs tfs vs' := by
  cases h with
  | @struct _ fs' n tfs vs vs' hk' _ h =>
    rw [hk] at hk'
    cases hk'
    exact ⟨n, tfs, vs, vs', rfl, rfl, rfl, h⟩
  | byte _ h | i16 _ h | i32 _ h | i64 _ h => rw [hk] at h; rcases h with h | h <;> cases h
  | _ => simp_all

/-- **C69** (untouched): whatever Unmarshal into a struct returns, with any Reader: a field keeps its value if no field header with its id was read. -/
theorem C69_untouched {S : Type} (env : Env) (r : Rdr S) (p t : TypeId) (hp : (env.type p).kind = .ptr t) (fs : List FieldDecl) (hk : (env.type t).kind = .struct fs) (vs : List GoVal) (s s' : S)
    (log : List ((o : ROp) × Except Err o.Ans)) (e : Option Err) (x' : AnyVal) (h : UnmarshalReturns env (traced r) (.val p (.ptr (.struct vs))) (s, []) e x' (s', log)) :
    ∃ vs', x' = .val p (.ptr (.struct vs')) ∧ vs'.length = vs.length ∧
      ∀ (i : Nat) (f : FieldDecl), fs[i]? = some f → (∀ hd : FieldHeader, ⟨.fieldBegin, .ok hd⟩ ∈ log → ∀ required, ¬ Declares env f hd.id required) → vs'[i]? = vs[i]? := by
  obtain ⟨w, evs, v, _, rfl, hlog, h1, h2⟩ := unmarshal_post hp h
  have hmem : ∀ {hd : FieldHeader}, (⟨.fieldBegin, hd⟩ : Ev) ∈ evs → ⟨.fieldBegin, .ok hd⟩ ∈ log := by
    intro hd hm
    have : (⟨.fieldBegin, .ok hd⟩ : (o : ROp) × Except Err o.Ans) ∈ evs.map Ev.ok := List.mem_map.2 ⟨_, hm, rfl⟩
    rcases hlog with rfl | ⟨o, err, _, rfl⟩
    · exact this
    · exact List.mem_append_left _ this
  have fields : ∀ {tfs evs' vs'}, ReadsFields tfs evs' → (∀ ev ∈ evs', ev ∈ evs ∨ ev.1 = .fieldEnd) → DecodesFields env fs vs tfs vs' → vs'.length = vs.length ∧
      ∀ (i : Nat) (f : FieldDecl), fs[i]? = some f → (∀ hd : FieldHeader, ⟨.fieldBegin, .ok hd⟩ ∈ log → ∀ required, ¬ Declares env f hd.id required) → vs'[i]? = vs[i]? := by
    intro tfs evs' vs' hr hsub hd
    obtain ⟨h3, h4⟩ := C09_nested env fs vs vs' tfs hd
    refine ⟨h3, fun i f hf hn => h4 i f hf fun tf htf required => ?_⟩
    obtain ⟨hd', h5, h6⟩ := hr.header tf htf
    rw [← h6]
    refine hn hd' (hmem ?_) required
    rcases hsub _ h5 with h | h
    · exact h
    · cases h
  by_cases he : e = none
  · obtain ⟨tv, _, h3, h4⟩ := h1 he
    obtain ⟨n, tfs, _, vs', hv, rfl, rfl, h5⟩ := h4.structInv hk
    cases hv
    refine ⟨vs', rfl, ?_⟩
    cases h3 with
    | struct _ _ h6 _ => exact fields h6 (fun ev hev => .inl (by simp [hev])) h5
  · obtain ⟨err, rfl⟩ := Option.ne_none_iff_exists'.1 he
    obtain ⟨u, h2, _⟩ := h2 err rfl
    cases h2 with
    | nothing => exact ⟨vs, rfl, rfl, fun _ _ _ _ => rfl⟩
    | last _ _ h3 h4 =>
      obtain ⟨n, tfs, _, vs', hv, rfl, rfl, h5⟩ := h4.structInv hk
      cases hv
      refine ⟨vs', rfl, ?_⟩
      generalize hl : evs ++ [_] = l at h3
      cases h3 with
      | @struct _ nm _ evs' hd h6 _ =>
        refine fields h6 (fun ev hev => ?_) h5
        have : evs = ⟨.structBegin, nm⟩ :: (evs' ++ [⟨.fieldBegin, hd⟩]) := by
          have := congrArg List.dropLast hl
          simpa [List.dropLast_cons_of_ne_nil, List.dropLast_append_of_ne_nil] using this
        rw [this]
        exact .inl (by simp [hev])
    | fields nm hk' h3 h4 => rw [hk] at hk'; cases hk'; exact ⟨_, rfl, fields h3 (fun ev hev => .inl (by simp [hev])) h4⟩
    | fieldEnd nm hk' h3 h4 =>
      rw [hk] at hk'; cases hk'
      refine ⟨_, rfl, fields h3 (fun ev hev => ?_) h4⟩
      rcases List.mem_append.1 hev with h | h
      · exact .inl (by simp [h])
      · exact .inr (by rw [List.mem_singleton.1 h])
    | @field _ _ _ vs' nm tfs evs1 evs2 hd i f required _ _ v hk' h3 h4 h5 h6 h7 h8 h9 =>
      rw [hk] at hk'; cases hk'
      obtain ⟨g1, g2⟩ := fields h3 (fun ev hev => .inl (by simp [hev])) h4
      refine ⟨_, rfl, by simp [g1], fun j f' hf' hn => ?_⟩
      rw [← g2 j f' hf' hn]
      have hne : i ≠ j := by
        rintro rfl
        rw [h6] at hf'
        cases hf'
        exact hn hd (hmem (by simp)) _ h7
      rw [List.getElem?_set_ne hne]
    | unknown nm hk' h3 h4 => rw [hk] at hk'; cases hk'; exact ⟨_, rfl, fields h3 (fun ev hev => .inl (by simp [hev])) h4⟩
    | set hk' | list hk' | key hk' | value hk' => rw [hk] at hk'; cases hk'

/-- Non-vacuous: the input ends inside the second element of a list, the third field. The first is stored, so is the complete element; what follows it is a zero value, and B, which is not there, is unchanged. -/
example : ∃ s log, UnmarshalReturns Ex.env (traced (Binary.reader true)) (.val 4 (.ptr (.struct [.mapNil, .i32 5, .ptr (.str (ascii "b")), .other 0, .sliceNil, .other 3, .bool true])))
    (((), ⟨16, [8, 0, 1, 0, 0, 0, 7, 15, 0, 3, 11, 0, 0, 0, 2, 0, 0, 0, 1, 97, 0], .err .eof⟩), []) (some (.semanticE .unmarshal Ty.string (some 3) (.wire "ReadString" .unexpectedEOF)))
    (.val 4 (.ptr (.struct [.mapNil, .i32 7, .ptr (.str (ascii "b")), .other 0, .slice [.str (ascii "a"), .str []] [], .other 3, .bool true]))) (s, log) :=
  ⟨_, _, 20, fun fuel hf => ((Unmarshal_le Ex.env 20 fuel hf _).run _ _).done rfl⟩

/-- And a list that is complete. -/
example : ∃ s log, UnmarshalReturns Ex.env (traced (Binary.reader true)) (.val 25 (.ptr .sliceNil)) (((), ⟨16, [11, 0, 0, 0, 1, 0, 0, 0, 1, 97], .err .eof⟩), []) none
    (.val 25 (.ptr (.slice [.str (ascii "a")] []))) (s, log) :=
  ⟨_, _, 20, fun fuel hf => ((Unmarshal_le Ex.env 20 fuel hf _).run _ _).done rfl⟩

end GoThrift
