import Verif.Props.Skip
import Verif.Props.RoundTrip
import Verif.Proof.Mismatch
import Verif.Proof.Alike
import Verif.Proof.Keep
import Verif.Proof.SameCalls
import Verif.Proof.DecTotal

/-!
# C04, C07–C11, C51: what Unmarshal makes of a wire value

`Holds r tv s s'` says that the Reader `r` in state `s` is in front of the wire value `tv`, and in state `s'` behind it; `Binary.holds` and `Compact.holds` show that the
readers of both protocols in front of an encoding of `tv` are such Readers.
-/

namespace GoThrift

open Spec Spec.TVal

/-! ## C04 -/

/-- **C04**: if Unmarshal succeeds in front of a value, then Skip of that value succeeds too and both leave the Reader in the same state: behind the value. -/
theorem C04_extent {S : Type} (env : Env) (r : Rdr S) (tv : TVal) (s s' s1 : S) (hh : Holds r tv s s') (p t : TypeId) (hp : (env.type p).kind = .ptr t)
    (hw : WireTypeOf env t tv.ty) (old : GoVal) (x' : AnyVal) (h : UnmarshalReturns env r (.val p (.ptr old)) s none x' s1) :
    s1 = s' ∧ SkipReturns r tv.ty s none s1 := by
  obtain ⟨_, _, _, _, _, _, _, h1⟩ := h.dec hp hw hh
  obtain rfl := h1 rfl
  exact ⟨rfl, C03_skip_any r tv s _ hh⟩

/-- **C04** binary. -/
theorem C04_binary (env : Env) (strict : Bool) (tv : TVal) (hwf : WF (2 ^ 31 - 1) tv) (size : Nat) (hsize : 16 ≤ size) (rest : Bytes) (fin : End) (p t : TypeId)
    (hp : (env.type p).kind = .ptr t) (hw : WireTypeOf env t tv.ty) (old : GoVal) (x' : AnyVal) (s1 : Unit × Flat)
    (h : UnmarshalReturns env (Binary.reader strict) (.val p (.ptr old)) ((), ⟨size, encBin tv ++ rest, fin⟩) none x' s1) :
    s1 = ((), ⟨size, rest, fin⟩) ∧ SkipReturns (Binary.reader strict) tv.ty ((), ⟨size, encBin tv ++ rest, fin⟩) none s1 :=
  C04_extent env _ tv _ _ _ (Binary.holds strict size hsize fin tv hwf rest) p t hp hw old x' h

/-- **C04** compact. -/
theorem C04_compact (env : Env) (tv : TVal) (hwf : WF (2 ^ 63 - 1) tv) (ht : TypesOK tv) (c : Compact.RState) (hc : c.boolField = .none) (size : Nat) (hsize : 16 ≤ size)
    (rest : Bytes) (e : Err) (p t : TypeId) (hp : (env.type p).kind = .ptr t) (hw : WireTypeOf env t tv.ty) (old : GoVal) (x' : AnyVal) (s1 : Compact.RState × Flat)
    (h : UnmarshalReturns env Compact.reader (.val p (.ptr old)) (c, ⟨size, encCompact tv ++ rest, .err e⟩) none x' s1) :
    s1 = (c, ⟨size, rest, .err e⟩) ∧ SkipReturns Compact.reader tv.ty (c, ⟨size, encCompact tv ++ rest, .err e⟩) none s1 :=
  C04_extent env _ tv _ _ _ (Compact.holds size hsize _ tv hwf ht c rest hc (.inl (.inl ⟨e, rfl⟩))) p t hp hw old x' h

/-! ## C07 -/

/-- **C07**: Unmarshal into the same variable of two wire values that differ only in undeclared fields - at any depth, in any number, anywhere - returns the same error and leaves the
same value; on success the Reader is behind the respective value. The Readers may be different ones. -/
theorem C07_unknown_fields {S S2 : Type} (env : Env) (r : Rdr S) (r2 : Rdr S2) (p t : TypeId) (hp : (env.type p).kind = .ptr t) (tv tv' : TVal) (ha : Alike env t tv tv')
    (hw : WireTypeOf env t tv.ty) (s s' : S) (hh : Holds r tv s s') (s2 s2' : S2) (hh2 : Holds r2 tv' s2 s2') (old : GoVal) (e : Option Err) (x' : AnyVal) (s1 : S)
    (h : UnmarshalReturns env r (.val p (.ptr old)) s e x' s1) :
    ∃ s3, UnmarshalReturns env r2 (.val p (.ptr old)) s2 e x' s3 ∧ (e = none → s3 = s2') := by
  obtain ⟨n, a, m, v, h1, h2, rfl, _⟩ := h.dec hp hw hh
  obtain ⟨m', h3⟩ := (alike_follows_both env m).1 n t a tv tv' h1 ha old _ h2
  obtain ⟨s3, h4⟩ := UnmarshalReturns_of_dec' hp h1 ((hw.lookup h1).trans ha.ty) hh2 h3
  refine ⟨s3, h4, fun he => ?_⟩
  obtain ⟨_, _, _, _, _, _, _, h5⟩ := h4.dec hp (ha.ty ▸ hw) hh2
  exact h5 he

/-! ## C51 -/

/-- **C51**: Unmarshal in front of a wire value of the type's wire type returns; it returns nil exactly if no value of the wrong wire type is inside, and then the variable holds what the wire
value decodes to and the Reader is behind the value; otherwise it returns a SemanticError with the wire type of such a value and the Go type it was meant for. -/
theorem C51_outcome {S : Type} (env : Env) (r : Rdr S) (p t : TypeId) (hp : (env.type p).kind = .ptr t) (hacc : Acc (InPart env) t) (hg : AllGood env t)
    (hd : ∀ t', Within env t' t → DistinctIds env t') (lim : Nat) (tv : TVal) (hwf : WF lim tv) (hw : WireTypeOf env t tv.ty) (s s' : S) (hh : Holds r tv s s') (old : GoVal)
    (ht : HasType env t old) :
    ((¬ ∃ bad t', Mismatch env t tv bad t') ∧ ∃ v, UnmarshalReturns env r (.val p (.ptr old)) s none (.val p (.ptr v)) s' ∧ Decodes env t old tv v ∧ HasType env t v) ∨
    ∃ bad t' v s1, Mismatch env t tv bad t' ∧ UnmarshalReturns env r (.val p (.ptr old)) s (some (.semantic .unmarshal bad (some t'))) (.val p (.ptr v)) s1 ∧ HasType env t v := by
  obtain ⟨n, a, hl⟩ := (lookup_iff_acc env t).2 hacc
  obtain ⟨m, v, e, h1, h2, h3⟩ := dec_total tv hwf n t a old hl ht hg
  cases e with
  | none =>
    have hdec := (dec_sound env m).1 n t a old tv v hl h1
    exact .inl ⟨fun ⟨bad, t', hm⟩ => hm.not_decodes hd old v hdec, v, UnmarshalReturns_of_dec hp hl (hw.lookup hl) hh h1, hdec, h2⟩
  | some err =>
    obtain ⟨bad, t', hm, rfl⟩ := h3 err rfl
    obtain ⟨s1, h4⟩ := UnmarshalReturns_of_dec' hp hl (hw.lookup hl) hh h1
    exact .inr ⟨bad, t', v, s1, hm, h4, h2⟩

/-- **C51** (meaning): whatever the types of other fields, if Unmarshal returns nil then the variable holds what the wire value decodes to. -/
theorem C51_success {S : Type} (env : Env) (r : Rdr S) (p t : TypeId) (hp : (env.type p).kind = .ptr t) (tv : TVal) (hw : WireTypeOf env t tv.ty) (s s' s1 : S) (hh : Holds r tv s s')
    (old : GoVal) (x' : AnyVal) (h : UnmarshalReturns env r (.val p (.ptr old)) s none x' s1) : ∃ v, x' = .val p (.ptr v) ∧ Decodes env t old tv v := by
  obtain ⟨n, a, m, v, h1, h2, rfl, _⟩ := h.dec hp hw hh
  exact ⟨v, rfl, (dec_sound env m).1 n t a old tv v h1 h2⟩

/-! ## C08 -/

/-- **C08** (rejection): a value of the wrong wire type anywhere inside keeps Unmarshal from returning nil - for all types without duplicate ids, even those with other faults. -/
theorem C08_rejected {S : Type} (env : Env) (r : Rdr S) (p t : TypeId) (hp : (env.type p).kind = .ptr t) (hd : ∀ t', Within env t' t → DistinctIds env t') (tv : TVal)
    (hw : WireTypeOf env t tv.ty) (s s' : S) (hh : Holds r tv s s') (bad : WType) (t' : TypeId) (hm : Mismatch env t tv bad t') (old : GoVal) (e : Option Err) (x' : AnyVal) (s1 : S)
    (h : UnmarshalReturns env r (.val p (.ptr old)) s e x' s1) : e ≠ none := by
  rintro rfl
  obtain ⟨v, _, hdec⟩ := C51_success env r p t hp tv hw s s' s1 hh old x' h
  exact hm.not_decodes hd old v hdec

/-- **C08** (the error): Unmarshal returns, with a SemanticError that has the offending wire type - of this value or of another one of the wrong type - and the Go type it was meant for. -/
theorem C08_semantic_error {S : Type} (env : Env) (r : Rdr S) (p t : TypeId) (hp : (env.type p).kind = .ptr t) (hacc : Acc (InPart env) t) (hg : AllGood env t)
    (hd : ∀ t', Within env t' t → DistinctIds env t') (lim : Nat) (tv : TVal) (hwf : WF lim tv) (hw : WireTypeOf env t tv.ty) (s s' : S) (hh : Holds r tv s s') (bad : WType) (t' : TypeId)
    (hm : Mismatch env t tv bad t') (old : GoVal) (ht : HasType env t old) :
    ∃ bad t' x' s1, Mismatch env t tv bad t' ∧ UnmarshalReturns env r (.val p (.ptr old)) s (some (.semantic .unmarshal bad (some t'))) x' s1 := by
  rcases C51_outcome env r p t hp hacc hg hd lim tv hwf hw s s' hh old ht with ⟨hn, _⟩ | ⟨bad, t', v, s1, h1, h2, _⟩
  · exact absurd ⟨bad, t', hm⟩ hn
  · exact ⟨bad, t', _, s1, h1, h2⟩

/-! ## C09 -/

/-- **C09**: whatever Unmarshal returns in front of a struct value, a field of the target none of whose ids is on the wire holds what it held before. -/
theorem C09_absent_fields {S : Type} (env : Env) (r : Rdr S) (p t : TypeId) (hp : (env.type p).kind = .ptr t) (fs : List FieldDecl) (hk : (env.type t).kind = .struct fs) (n : Bytes)
    (tfs : List (Bytes × BitVec 16 × TVal)) (s s' : S) (hh : Holds r (.struct n tfs) s s') (vs : List GoVal) (e : Option Err) (x' : AnyVal) (s1 : S)
    (h : UnmarshalReturns env r (.val p (.ptr (.struct vs))) s e x' s1) :
    ∃ vs', x' = .val p (.ptr (.struct vs')) ∧ vs'.length = vs.length ∧
      ∀ (i : Nat) (f : FieldDecl), fs[i]? = some f → (∀ tf ∈ tfs, ∀ required, ¬ Declares env f tf.2.1 required) → vs'[i]? = vs[i]? := by
  obtain ⟨k, a, m, v, h1, h2, rfl, _⟩ := h.dec (tv := .struct n tfs) hp (WireTypeOf.struct hk) hh
  cases k with
  | zero => cases h1
  | succ k =>
    have hc := lookup_cases h1
    rw [hk] at hc
    obtain rfl := hc
    cases m with
    | zero => rw [dec] at h2; cases h2
    | succ m =>
      rw [dec] at h2
      cases hms : makeStructFields env m t with
      | done x =>
        rw [hms] at h2
        cases x with
        | error err => cases h2; exact ⟨vs, rfl, rfl, fun _ _ _ _ => rfl⟩
        | ok sfs =>
          have htab := makeStructFields_table env m t sfs hms
          obtain ⟨vs', rfl, h4, h5⟩ := decFields_keep htab m tfs vs v e h2
          refine ⟨vs', rfl, h4, fun i f hf hn => h5 i fun f' hf' => ?_⟩
          rw [fields_struct hk, hf] at hf'
          cases hf'
          exact hn
      | blocked => rw [hms] at h2; cases h2
      | diverged => rw [hms] at h2; cases h2
      | panicked => rw [hms] at h2; cases h2

/-- **C09** (nested structs): what a struct inside the target holds after a successful Unmarshal in fields that are not on the wire. -/
theorem C09_nested (env : Env) (fs : List FieldDecl) (vs vs' : List GoVal) (tfs : List (Bytes × BitVec 16 × TVal)) (h : DecodesFields env fs vs tfs vs') :
    vs'.length = vs.length ∧ ∀ (i : Nat) (f : FieldDecl), fs[i]? = some f → (∀ tf ∈ tfs, ∀ required, ¬ Declares env f tf.2.1 required) → vs'[i]? = vs[i]? := by
  induction tfs generalizing vs with
  | nil => cases h; exact ⟨rfl, fun _ _ _ _ => rfl⟩
  | cons tf tfs ih =>
    cases h with
    | unknown _ h =>
      obtain ⟨h1, h2⟩ := ih _ h
      exact ⟨h1, fun i f hf hn => h2 i f hf fun tf' htf' => hn tf' (by simp [htf'])⟩
    | @known _ _ _ _ _ i f _ _ v hf hdecl hv _ h =>
      obtain ⟨h1, h2⟩ := ih _ h
      refine ⟨by simpa using h1, fun j g hg hn => ?_⟩
      have hne : i ≠ j := by
        rintro rfl
        rw [hf] at hg
        cases hg
        exact hn tf (by simp) _ hdecl
      rw [h2 j g hg fun tf' htf' => hn tf' (by simp [htf']), List.getElem?_set_ne hne]

/-- **C09** (required): a struct without any field on the wire is accepted and changes nothing, whichever fields are required. -/
theorem C09_required_not_enforced {S : Type} (env : Env) (r : Rdr S) (p t : TypeId) (hp : (env.type p).kind = .ptr t) (fs : List FieldDecl) (hk : (env.type t).kind = .struct fs)
    (hg : GoodStruct env fs) (n : Bytes) (s s' : S) (hh : Holds r (.struct n []) s s') (vs : List GoVal) :
    UnmarshalReturns env r (.val p (.ptr (.struct vs))) s none (.val p (.ptr (.struct vs))) s' := by
  have hl : lookupArshaler env 1 t = .done (.struct t) := by rw [lookupArshaler, hk]
  have hfs := fields_struct hk
  obtain ⟨m, sfs, hms⟩ := table_exists env t (hfs ▸ hg.1) (hfs ▸ hg.2.1) (hfs ▸ hg.2.2)
  have hd : dec env (m + 2) (.struct t) (.struct vs) (.struct n []) = .done (.struct vs, none) := by
    rw [dec, (makeStructFields_le env m (m + 1) (by omega) t).done hms]
    rfl
  exact UnmarshalReturns_of_dec hp hl rfl hh hd

/-! ## C10 -/

/-- **C10**: for any Reader, Unmarshal into a slice that is not a byte slice returns the same error and makes the same calls whatever the slice held before, had for capacity and whatever was
behind its length; the elements are the same afterwards too, except that a slice whose header could not be read stays as it was (with an error). -/
theorem C10_replaced {S : Type} (env : Env) (r : Rdr S) (p t el : TypeId) (hp : (env.type p).kind = .ptr t) (hk : (env.type t).kind = .slice el) (hb : (env.type t).asBytes = false)
    (old old' : GoVal) (h0 : old = .sliceNil ∨ ∃ es spare, old = .slice es spare) (h0' : old' = .sliceNil ∨ ∃ es spare, old' = .slice es spare) (s s' : S) (e : Option Err) (x : AnyVal)
    (h : UnmarshalReturns env r (.val p (.ptr old)) s e x s') :
    ∃ v v', x = .val p (.ptr v) ∧ UnmarshalReturns env r (.val p (.ptr old')) s e (.val p (.ptr v')) s' ∧
      (elemsOf v = elemsOf v' ∨ (e ≠ none ∧ v = old ∧ v' = old')) := by
  obtain ⟨n, h⟩ := h
  obtain ⟨⟨y, e'⟩, h1, v, v', h2, h3, h4, h5⟩ := (Unmarshal_seq_rel hp hk hb h0 h0' n).run r s s' _ (h n (Nat.le_refl _))
  dsimp only at h2 h3 h4 h5
  subst h2 h3 h4
  refine ⟨v, v', rfl, ⟨n, fun fuel hf => ((Unmarshal_le env n fuel hf _).run r s).done h1⟩, ?_⟩
  rcases h5 with h5 | ⟨h5, h6, h7⟩
  · exact .inl h5
  · exact .inr ⟨h7, h5, h6⟩

/-! ## C11 -/

/-- **C11**: whatever Unmarshal returns in front of a map value, the entries whose keys are not on the wire are still there; the map has at most as many new entries as the wire value; no key is
there twice; and a wire map without entries changes nothing. -/
theorem C11_merge {S : Type} (env : Env) (r : Rdr S) (p t k el : TypeId) (hp : (env.type p).kind = .ptr t) (hk : (env.type t).kind = .map k el) (kw ew : WType) (tes : List (TVal × TVal))
    (s s' : S) (hh : Holds r (.map kw ew tes) s s') (old : GoVal) (h0 : old = .mapNil ∨ ∃ es, old = .map es) (e : Option Err) (x' : AnyVal) (s1 : S)
    (h : UnmarshalReturns env r (.val p (.ptr old)) s e x' s1) :
    ∃ v, x' = .val p (.ptr v) ∧ (entriesOf v).length ≤ (entriesOf old).length + tes.length ∧
      (∀ en ∈ entriesOf old, (∀ te ∈ tes, ∀ key, Decodes env k (env.zero k) te.1 key → key.keyEq en.1 = false) → en ∈ entriesOf v) ∧
      (DistinctKeys (entriesOf old) → DistinctKeys (entriesOf v)) ∧ (tes = [] → e = none ∧ v = old) ∧
      (e = none → DecodesEntries env k el (entriesOf old) tes (entriesOf v)) := by
  obtain ⟨n, a, m, v, h1, h2, rfl, _⟩ := h.dec (tv := .map kw ew tes) hp (WireTypeOf.map hk) hh
  cases n with
  | zero => cases h1
  | succ n =>
    have hc := lookup_cases h1
    rw [hk] at hc
    obtain ⟨ka, ea, hlk, hle, rfl⟩ := hc
    have hkt : ka.typ = k := (lookup_wireType hlk).1
    have het : ea.typ = el := (lookup_wireType hle).1
    have he : old.entries? = some (entriesOf old) := by rcases h0 with rfl | ⟨es, rfl⟩ <;> rfl
    cases m with
    | zero => rw [dec] at h2; cases h2
    | succ m =>
      rw [dec, decMap, he, hkt, het] at h2
      dsimp only at h2
      refine ⟨v, rfl, ?_⟩
      by_cases hne : tes = []
      · rw [if_neg (by simpa using hne)] at h2
        cases h2
        subst hne
        exact ⟨by simp, fun en hen _ => hen, id, fun _ => ⟨rfl, rfl⟩, fun _ => .nil⟩
      · rw [if_pos hne] at h2
        have fin : ∀ es' e', decEntries (fun v tv => dec env m ka v tv) (fun v tv => dec env m ea v tv) (env.zero k) (env.zero el) tes (entriesOf old) = .done (es', e') → v = .map es' → e = e' →
            (entriesOf v).length ≤ (entriesOf old).length + tes.length ∧
            (∀ en ∈ entriesOf old, (∀ te ∈ tes, ∀ key, Decodes env k (env.zero k) te.1 key → key.keyEq en.1 = false) → en ∈ entriesOf v) ∧
            (DistinctKeys (entriesOf old) → DistinctKeys (entriesOf v)) ∧ (tes = [] → e = none ∧ v = old) ∧
            (e = none → DecodesEntries env k el (entriesOf old) tes (entriesOf v)) := by
          rintro es' e' h3 rfl rfl
          obtain ⟨i1, i2, i3⟩ := decEntries_keep h3
          refine ⟨i1, fun en hen hn => i2 en hen fun te hte key hkey => hn te hte key ((dec_sound env m).1 n k ka _ _ _ hlk hkey), i3, fun hn => absurd hn hne, ?_⟩
          rintro rfl
          exact decEntries_ok (fun old tv v h => (dec_sound env m).1 n k ka old tv v hlk h) (fun old tv v h => (dec_sound env m).1 n el ea old tv v hle h) h3
        rcases Dec.andThen_done h2 with ⟨es', h3, h4⟩ | ⟨es', err, h3, h4⟩
        · cases h4; exact fin es' none h3 rfl rfl
        · cases h4; exact fin es' (some err) h3 rfl rfl

/-- **C11** (maps inside other values): the same for what `DecodesEntries` says of a map anywhere inside a value that was unmarshalled successfully. -/
theorem C11_nested (env : Env) (k el : TypeId) (es es' : List (GoVal × GoVal)) (tes : List (TVal × TVal)) (h : DecodesEntries env k el es tes es') :
    es'.length ≤ es.length + tes.length ∧
    (∀ en ∈ es, (∀ te ∈ tes, ∀ key, Decodes env k (env.zero k) te.1 key → key.keyEq en.1 = false) → en ∈ es') ∧ (DistinctKeys es → DistinctKeys es') := by
  induction tes generalizing es with
  | nil => cases h; exact ⟨by simp, fun _ h _ => h, id⟩
  | cons te tes ih =>
    cases h with
    | @cons _ _ _ _ _ _ x v hx _ h =>
      obtain ⟨i1, i2, i3⟩ := ih _ h
      have := setMapIndex_length x v es
      refine ⟨by simp only [List.length_cons]; omega, fun en hen hn => ?_, fun hd => i3 (setMapIndex_distinct hd)⟩
      exact i2 en (setMapIndex_keeps hen (hn te (by simp) x hx)) fun te' hte' => hn te' (by simp [hte'])

/-! ## Examples -/

theorem Ex.acc_P : Acc (InPart Ex.env) 0 := (lookup_iff_acc Ex.env 0).1 ⟨5, _, rfl⟩

theorem Ex.good_P : GoodStruct Ex.env Ex.fieldsP := by
  refine ⟨fun f hf => ?_, fun f hf _ => ?_, fun _ => ⟨Ex.fld "A" "1" 1, by simp [Ex.fieldsP], by simp [Ex.fld]⟩⟩
  · simp only [Ex.fieldsP, List.mem_cons, List.not_mem_nil, or_false] at hf
    rcases hf with rfl | rfl | rfl | rfl | rfl | rfl | rfl
    · exact .inr ⟨_, _, (parse_declares Ex.env _ ⟨4, ascii "D", false⟩ rfl).2⟩
    · exact .inr ⟨_, _, (parse_declares Ex.env _ ⟨1, ascii "A", false⟩ rfl).2⟩
    · exact .inr ⟨_, _, (parse_declares Ex.env _ ⟨2, ascii "B", true⟩ rfl).2⟩
    · exact .inl (.inr ⟨rfl, rfl⟩)
    · exact .inr ⟨_, _, (parse_declares Ex.env _ ⟨3, ascii "C", false⟩ rfl).2⟩
    · exact .inl (.inl rfl)
    · exact .inr ⟨_, _, (parse_declares Ex.env _ ⟨-2, ascii "E", false⟩ rfl).2⟩
  · simp only [Ex.fieldsP, List.mem_cons, List.not_mem_nil, or_false] at hf
    rcases hf with rfl | rfl | rfl | rfl | rfl | rfl | rfl <;> exact (lookup_iff_acc Ex.env _).1 ⟨5, _, rfl⟩

theorem Ex.allGood_P : AllGood Ex.env 0 := by
  intro t' fs h hk
  have hm := Ex.within_P t' h
  simp only [List.mem_cons, List.not_mem_nil, or_false] at hm
  rcases hm with rfl | rfl | rfl | rfl | rfl | rfl | rfl | rfl | rfl
  · cases hk; exact Ex.good_P
  all_goals cases hk

/-- A struct with field 1 of type string, where `P` has an int32, and a field 9, which `P` does not have. -/
def Ex.wrong : TVal := .struct [] [([], 9, .bool true), ([], 1, .str false [120])]

/-- A struct with an unknown field in front of field 1. -/
def Ex.extra : TVal := .struct [] [([], 9, .list Ty.bool [.bool true]), ([], 1, .i32 7)]

theorem Ex.declares_A : Declares Ex.env (Ex.fld "A" "1" 1) 1 false := (parse_declares Ex.env _ ⟨1, ascii "A", false⟩ rfl).2

theorem Ex.undeclared_9 : ∀ f ∈ Ex.fieldsP, ∀ required, ¬ Declares Ex.env f 9 required := by
  intro f hf r hd
  obtain ⟨i, hi⟩ := List.mem_iff_getElem?.1 hf
  have := Ex.declares_P i f 9 r hi hd
  simp at this

theorem Ex.holds_extra (rest : Bytes) : Holds (Binary.reader true) Ex.extra ((), ⟨16, encBin Ex.extra ++ rest, .block⟩) ((), ⟨16, rest, .block⟩) :=
  Binary.holds true 16 (by decide) .block Ex.extra (by simp [Ex.extra, WF, WFFields, WFElems, ty]) rest

theorem Ex.holds_wrong (rest : Bytes) : Holds (Binary.reader true) Ex.wrong ((), ⟨16, encBin Ex.wrong ++ rest, .block⟩) ((), ⟨16, rest, .block⟩) :=
  Binary.holds true 16 (by decide) .block Ex.wrong (by simp [Ex.wrong, WF, WFFields, ty]) rest

/-- The hypotheses of C04: a struct with an unknown field is unmarshalled. -/
theorem Ex.unmarshals_extra : UnmarshalReturns Ex.env (Binary.reader true) (.val 4 (.ptr Ex.valP)) ((), ⟨16, encBin Ex.extra ++ [9], .block⟩) none
    (.val 4 (.ptr (.struct [.map [(.str (ascii "k"), .i64 7)], .i32 7, .ptr (.str (ascii "hi")), .other 0, .slice [.str (ascii "x"), .str []] [], .other 3, .bool true])))
    ((), ⟨16, [9], .block⟩) :=
  ⟨20, fun fuel hf => ((Unmarshal_le Ex.env 20 fuel hf _).run _ _).done (sameResult_eq (by decide +kernel))⟩

example : WF (2 ^ 31 - 1) Ex.extra ∧ (Ex.env.type 4).kind = .ptr 0 ∧ WireTypeOf Ex.env 0 Ex.extra.ty :=
  ⟨by simp [Ex.extra, WF, WFFields, WFElems, ty], rfl, .struct rfl⟩

/-- C07: the value with and without the unknown field are alike, so Unmarshal of the latter is the same. -/
example : ∃ s3, UnmarshalReturns Ex.env Compact.reader (.val 4 (.ptr Ex.valP)) ({}, ⟨16, encCompact (.struct [] [([], 1, .i32 7)]) ++ [1], .err .eof⟩) none
    (.val 4 (.ptr (.struct [.map [(.str (ascii "k"), .i64 7)], .i32 7, .ptr (.str (ascii "hi")), .other 0, .slice [.str (ascii "x"), .str []] [], .other 3, .bool true]))) s3 ∧
    (none = (none : Option Err) → s3 = ({}, ⟨16, [1], .err .eof⟩)) :=
  C07_unknown_fields Ex.env (Binary.reader true) Compact.reader 4 0 rfl Ex.extra (.struct [] [([], 1, .i32 7)])
    (.struct [] [] rfl (.left [] 9 _ Ex.undeclared_9 (.both [] [] 1 (fun _ _ _ _ => .refl _) .nil))) (.struct rfl) _ _ (Ex.holds_extra [9]) _ _
    (Compact.holds 16 (by decide) (.err .eof) (.struct [] [([], 1, .i32 7)]) (by simp [WF, WFFields, ty]) (by simp [TypesOK, TypesOKFields]) {} [1] rfl (.inl (.inl ⟨_, rfl⟩)))
    Ex.valP none _ _ Ex.unmarshals_extra

/-- The hypotheses of C08 and C51 hold of the wrong value, and this is what happens. -/
theorem Ex.mismatch : Mismatch Ex.env 0 Ex.wrong Ty.string 1 :=
  .field (f := Ex.fld "A" "1" 1) (tf := ([], 1, .str false [120])) rfl (by simp) (by simp [Ex.fieldsP]) Ex.declares_A (.here (fun e h => by cases h) fun h => absurd ((WireTypeOf.i32 (.inl rfl)).unique h) (by decide))

example : ∃ bad t' x' s1, Mismatch Ex.env 0 Ex.wrong bad t' ∧ UnmarshalReturns Ex.env (Binary.reader true) (.val 4 (.ptr Ex.valQ)) ((), ⟨16, encBin Ex.wrong ++ [], .block⟩)
    (some (.semantic .unmarshal bad (some t'))) x' s1 :=
  C08_semantic_error Ex.env _ 4 0 rfl Ex.acc_P Ex.allGood_P Ex.distinct_P (2 ^ 31 - 1) Ex.wrong (by simp [Ex.wrong, WF, WFFields, ty]) (.struct rfl) _ _ (Ex.holds_wrong []) _ _ Ex.mismatch
    Ex.valQ Ex.hasType_valQ

/-- A run of it: the reader is left in front of the string. -/
theorem Ex.unmarshals_wrong : UnmarshalReturns Ex.env (Binary.reader true) (.val 4 (.ptr Ex.valQ)) ((), ⟨16, encBin Ex.wrong, .block⟩) (some (.semantic .unmarshal Ty.string (some 1)))
    (.val 4 (.ptr Ex.valQ)) ((), ⟨16, [0, 0, 0, 1, 120, 0], .block⟩) :=
  ⟨20, fun fuel hf => ((Unmarshal_le Ex.env 20 fuel hf _).run _ _).done (sameResult_eq (by decide +kernel))⟩

/-- The hypotheses of C09: only field 1 is on the wire. -/
example : ∃ vs', Ex.valP = .struct vs' ∧ vs'.length = 7 ∧ ∀ (i : Nat) f, Ex.fieldsP[i]? = some f → i ≠ 1 →
    ∀ tf ∈ [(([] : Bytes), (9 : BitVec 16), TVal.list Ty.bool [.bool true]), ([], 1, .i32 7)], ∀ required, ¬ Declares Ex.env f tf.2.1 required := by
  refine ⟨_, rfl, rfl, fun i f hf hi tf htf r hd => ?_⟩
  have := Ex.declares_P i f _ r hf hd
  simp only [List.mem_cons, List.not_mem_nil, or_false] at htf
  rcases htf with rfl | rfl <;> simp at this <;> omega

/-- The hypotheses of C09 about required fields: `P` has a required field, and the wire struct has none. -/
example : UnmarshalReturns Ex.env (Binary.reader true) (.val 4 (.ptr Ex.valP)) ((), ⟨16, [0, 5], .err .eof⟩) none (.val 4 (.ptr Ex.valP)) ((), ⟨16, [5], .err .eof⟩) :=
  C09_required_not_enforced Ex.env _ 4 0 rfl Ex.fieldsP rfl Ex.good_P [] _ _ (Binary.holds true 16 (by decide) (.err .eof) (.struct [] []) (by simp [WF, WFFields]) [5]) _

/-- The hypotheses of C10: a list of one string into a slice with two elements and spare capacity. -/
example : UnmarshalReturns Ex.env (Binary.reader true) (.val 25 (.ptr (.slice [.str [97], .str [98]] [.str [99]]))) ((), ⟨16, [11, 0, 0, 0, 1, 0, 0, 0, 1, 120], .block⟩) none
      (.val 25 (.ptr (.slice [.str [120]] [.str [98], .str [99]]))) ((), ⟨16, [], .block⟩) ∧
    UnmarshalReturns Ex.env (Binary.reader true) (.val 25 (.ptr .sliceNil)) ((), ⟨16, [11, 0, 0, 0, 1, 0, 0, 0, 1, 120], .block⟩) none
      (.val 25 (.ptr (.slice [.str [120]] []))) ((), ⟨16, [], .block⟩) :=
  ⟨⟨20, fun fuel hf => ((Unmarshal_le Ex.env 20 fuel hf _).run _ _).done (sameResult_eq (by decide +kernel))⟩,
    20, fun fuel hf => ((Unmarshal_le Ex.env 20 fuel hf _).run _ _).done (sameResult_eq (by decide +kernel))⟩

/-- The hypotheses of C11: one key is replaced, one kept, one new. -/
example : UnmarshalReturns Ex.env Compact.reader (.val 26 (.ptr (.map [(.str [97], .i64 1), (.str [98], .i64 2)]))) ({}, ⟨16, [2, 0x86, 1, 98, 6, 1, 99, 8], .err .eof⟩) none
      (.val 26 (.ptr (.map [(.str [97], .i64 1), (.str [98], .i64 3), (.str [99], .i64 4)]))) ({}, ⟨16, [], .err .eof⟩) ∧
    DistinctKeys [(.str [97], .i64 1), (.str [98], .i64 2)] :=
  ⟨⟨20, fun fuel hf => ((Unmarshal_le Ex.env 20 fuel hf _).run _ _).done (sameResult_eq (by decide +kernel))⟩, 
    List.pairwise_cons.2 ⟨fun a h => by obtain rfl := List.mem_singleton.1 h; decide +kernel, List.pairwise_singleton _ _⟩⟩

def Ex.wireMap : TVal := .map Ty.string Ty.i64 [(.str false [98], .i64 3), (.str false [99], .i64 4)]

example : encCompact Ex.wireMap = [2, 0x86, 1, 98, 6, 1, 99, 8] ∧ Holds Compact.reader Ex.wireMap ({}, ⟨16, encCompact Ex.wireMap ++ [], .err .eof⟩) ({}, ⟨16, [], .err .eof⟩) :=
  ⟨by decide +kernel, Compact.holds 16 (by decide) (.err .eof) Ex.wireMap (by simp [Ex.wireMap, WF, WFEntries, ty]) (by simp [Ex.wireMap, TypesOK, TypesOKEntries, ValidTy]) {} [] rfl
    (.inl (.inl ⟨_, rfl⟩))⟩

end GoThrift
