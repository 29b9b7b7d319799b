import Verif.Spec.GoValue
import Verif.Proof.Lookup
import Verif.Props.Tag

/-!
# Arshalers and field tables against the declarations of types
-/

namespace GoThrift

open Spec

/-! ## Tags -/

theorem parse_ignored (u : Unicode) (sf : FieldDecl) (o : FieldOptions) (h : parseFieldOptions u sf = .done (o, true, none)) : Ignored sf := by
  rw [parseFieldOptions] at h
  dsimp only at h
  split at h
  · rename_i ht
    cases htag : sf.tag with
    | none => rw [htag] at ht; exact absurd ht (by decide)
    | some s => rw [htag] at ht; exact .inl (by rw [htag]; exact congrArg some ht)
  · split at h
    · rename_i he
      cases htag : sf.tag with
      | none => exact .inr ⟨he, htag⟩
      | some s => rw [htag] at h; cases h
    · split at h
      · cases h
      · obtain ⟨req', err', h1, _⟩ := optionLoop_done u (cutComma (sf.tag.getD [])).2.length (cutComma (sf.tag.getD [])).2 false none [] (Nat.le_refl _)
        rw [h1, Out.bind_done] at h
        cases h

theorem parse_declares (env : Env) (sf : FieldDecl) (o : FieldOptions) (h : parseFieldOptions env.unicode sf = .done (o, false, none)) :
    o.name = sf.name ∧ Declares env sf o.id o.required := by
  have he : sf.exported = true := by
    cases he : sf.exported with
    | true => rfl
    | false =>
      rw [parseFieldOptions] at h
      dsimp only at h
      rw [if_pos he] at h
      split at h <;> cases h
  have ht : sf.tag.getD [] ≠ [0x2d] := by
    intro ht
    rw [parseFieldOptions] at h
    dsimp only at h
    rw [if_pos (show sf.tag.getD [] = ascii "-" from ht)] at h
    cases h
  obtain ⟨h1, h2⟩ := (C17_accepted env.unicode sf he ht o.id o.name o.required).1 h
  exact ⟨h1, he, ht, h2⟩

theorem declares_parse {env : Env} {sf : FieldDecl} {id : BitVec 16} {r : Bool} (h : Declares env sf id r) :
    parseFieldOptions env.unicode sf = .done (⟨id, sf.name, r⟩, false, none) :=
  (C17_accepted env.unicode sf h.1 h.2.1 id sf.name r).2 ⟨rfl, h.2.2⟩

theorem Spec.Declares.unique {env : Env} {sf : FieldDecl} {id id' : BitVec 16} {r r' : Bool} (h : Declares env sf id r) (h' : Declares env sf id' r') :
    id = id' ∧ r = r' := by
  have := (declares_parse h).symm.trans (declares_parse h')
  simpa using this

theorem Spec.Ignored.not_declares {env : Env} {sf : FieldDecl} {id : BitVec 16} {r : Bool} (h : Ignored sf) : ¬ Declares env sf id r := by
  rintro ⟨h1, h2, _⟩
  rcases h with h | ⟨h, _⟩
  · rw [h] at h2; exact h2 rfl
  · rw [h] at h1; cases h1

theorem Spec.Declares.tag {env : Env} {sf : FieldDecl} {id : BitVec 16} {r : Bool} (h : Declares env sf id r) : sf.tag ≠ none := by
  intro ht
  have hp := declares_parse h
  rw [parseFieldOptions] at hp
  simp only [ht, h.1] at hp
  rw [show parseInt (cutComma ((none : Option Bytes).getD [])).1 = none from by decide] at hp
  split at hp <;> simp at hp

/-! ## The field table -/

/-- What a field table says about the struct type it was made for. -/
structure Table (env : Env) (fuel : Nat) (t : TypeId) (fs : List SField) : Prop where
  mem : ∀ f ∈ fs, ∃ d, (env.fields t)[f.index]? = some d ∧ Declares env d f.id f.required ∧ f.name = d.name ∧ f.typ = d.typ ∧ lookupArshaler env fuel d.typ = .done f.a
  all : ∀ (i : Nat) (d : FieldDecl), (env.fields t)[i]? = some d → Ignored d ∨ ∃ f ∈ fs, f.index = i
  tagged : env.fields t ≠ [] → ∃ f ∈ env.fields t, f.tag ≠ none
  nodup : (fs.map (·.index)).Nodup
  sorted : fs.Pairwise fun a b => a.id.toInt ≤ b.id.toInt

theorem fieldLoop_ok (env : Env) (fuel : Nat) (t : TypeId) (ds : List FieldDecl) (i : Nat) (fs : List SField) (h : fieldLoop env fuel t i ds = .done (.ok fs)) :
    (∀ f ∈ fs, i ≤ f.index ∧ ∃ d, ds[f.index - i]? = some d ∧ Declares env d f.id f.required ∧ f.name = d.name ∧ f.typ = d.typ ∧ lookupArshaler env fuel d.typ = .done f.a) ∧
    (∀ (j : Nat) (d : FieldDecl), ds[j]? = some d → Ignored d ∨ ∃ f ∈ fs, f.index = i + j) ∧ (fs.map (·.index)).Nodup := by
  induction ds generalizing i fs with
  | nil => cases h; simp
  | cons sf ds ih =>
    rw [fieldLoop] at h
    obtain ⟨⟨o, ignored, err⟩, hp⟩ := C17_terminates env.unicode sf
    rw [hp, Out.bind_done] at h
    dsimp only at h
    cases err with
    | some e => cases h
    | none =>
      dsimp only at h
      have shift : ∀ fs' : List SField, ((∀ f ∈ fs', i + 1 ≤ f.index ∧ ∃ d, ds[f.index - (i + 1)]? = some d ∧ Declares env d f.id f.required ∧ f.name = d.name ∧ f.typ = d.typ ∧
          lookupArshaler env fuel d.typ = .done f.a)) → ∀ f ∈ fs', i ≤ f.index ∧ ∃ d, (sf :: ds)[f.index - i]? = some d ∧ Declares env d f.id f.required ∧ f.name = d.name ∧
            f.typ = d.typ ∧ lookupArshaler env fuel d.typ = .done f.a := by
        intro fs' hfs f hf
        obtain ⟨h1, h2⟩ := hfs f hf
        refine ⟨by omega, ?_⟩
        rw [show f.index - i = (f.index - (i + 1)) + 1 by omega, List.getElem?_cons_succ]
        exact h2
      cases ignored with
      | true =>
        rw [if_pos rfl] at h
        obtain ⟨h1, h2, h3⟩ := ih (i + 1) fs h
        refine ⟨shift fs h1, fun j d hj => ?_, h3⟩
        cases j with
        | zero =>
          rw [List.getElem?_cons_zero] at hj
          cases hj
          exact .inl (parse_ignored _ _ _ hp)
        | succ j =>
          rw [List.getElem?_cons_succ] at hj
          rcases h2 j d hj with h | ⟨f, hf, hi⟩
          · exact .inl h
          · exact .inr ⟨f, hf, by omega⟩
      | false =>
        rw [if_neg (by simp)] at h
        rcases lookup_total env fuel sf.typ with hl | ⟨a, hl⟩
        · rw [hl] at h; cases h
        · rw [hl, Out.bind_done] at h
          cases hrest : fieldLoop env fuel t (i + 1) ds with
          | done x =>
            rw [hrest, Out.bind_done] at h
            cases x with
            | error e => cases h
            | ok fs' =>
              obtain ⟨h1, h2, h3⟩ := ih (i + 1) fs' hrest
              cases h
              obtain ⟨hn, hd⟩ := parse_declares env sf o hp
              refine ⟨fun f hf => ?_, fun j d hj => ?_, ?_⟩
              · rcases List.mem_cons.1 hf with rfl | hf
                · exact ⟨Nat.le_refl _, sf, by simp, hd, hn, rfl, hl⟩
                · exact shift fs' h1 f hf
              · cases j with
                | zero => exact .inr ⟨_, List.mem_cons_self .., rfl⟩
                | succ j =>
                  rw [List.getElem?_cons_succ] at hj
                  rcases h2 j d hj with h | ⟨f, hf, hi⟩
                  · exact .inl h
                  · exact .inr ⟨f, List.mem_cons_of_mem _ hf, by omega⟩
              · rw [List.map_cons, List.nodup_cons]
                refine ⟨fun hm => ?_, h3⟩
                obtain ⟨f, hf, hi⟩ := List.mem_map.1 hm
                have := (h1 f hf).1
                dsimp only at hi
                omega
          | blocked => rw [hrest] at h; cases h
          | diverged => rw [hrest] at h; cases h
          | panicked => rw [hrest] at h; cases h

theorem makeStructFields_table (env : Env) (fuel : Nat) (t : TypeId) (fs : List SField) (h : makeStructFields env fuel t = .done (.ok fs)) : Table env fuel t fs := by
  rw [makeStructFields] at h
  cases hl : fieldLoop env fuel t 0 (env.fields t) with
  | done x =>
    rw [hl, Out.bind_done] at h
    cases x with
    | error e => cases h
    | ok all =>
      dsimp only at h
      split at h
      · cases h
      · rename_i hno
        cases h
        obtain ⟨h1, h2, h3⟩ := fieldLoop_ok env fuel t _ 0 all hl
        have hp := env.sort_perm (fun f : SField => f.id.toInt) all
        refine ⟨fun f hf => ?_, fun i d hi => ?_, fun hne => ?_, ?_, env.sort_sorted _ _⟩
        · exact (h1 f (hp.mem_iff.1 hf)).2
        · rcases h2 i d hi with h | ⟨f, hf, hi⟩
          · exact .inl h
          · exact .inr ⟨f, hp.mem_iff.2 hf, by omega⟩
        · refine Classical.byContradiction fun hcon => hno ⟨hne, fun f hf => Classical.byContradiction fun hft => hcon ⟨f, hf, hft⟩, ?_⟩
          refine List.eq_nil_iff_forall_not_mem.2 fun f hf => ?_
          obtain ⟨_, d, hd1, hd2, _⟩ := h1 f hf
          exact hcon ⟨d, List.mem_of_getElem? hd1, hd2.tag⟩
        · exact ((hp.map _).nodup_iff).2 h3
  | blocked => rw [hl] at h; cases h
  | diverged => rw [hl] at h; cases h
  | panicked => rw [hl] at h; cases h

/-- With distinct ids, the field found for the id of a field is that field. -/
theorem Table.byID {env : Env} {fuel : Nat} {t : TypeId} {fs : List SField} (h : Table env fuel t fs) (hd : DistinctIds env t) {f : SField} (hf : f ∈ fs) :
    byID fs f.id = some f := by
  rw [GoThrift.byID]
  cases hb : fs.reverse.find? fun g => g.id == f.id with
  | none =>
    have := List.find?_eq_none.1 hb f (List.mem_reverse.2 hf)
    simp at this
  | some g =>
    have hg := List.mem_reverse.1 (List.mem_of_find?_eq_some hb)
    have hid : g.id = f.id := by simpa using List.find?_some hb
    obtain ⟨d1, a1, a2, _⟩ := h.mem f hf
    obtain ⟨d2, b1, b2, _⟩ := h.mem g hg
    rw [hid] at b2
    have hi := hd f.index g.index d1 d2 f.id _ _ a1 b1 a2 b2
    -- same index in a list without duplicate indices
    obtain ⟨i, hi1, hi2⟩ := List.getElem_of_mem hf
    obtain ⟨j, hj1, hj2⟩ := List.getElem_of_mem hg
    have hn := h.nodup
    rw [List.nodup_iff_pairwise_ne, List.pairwise_map] at hn
    have : i = j := by
      rw [List.pairwise_iff_getElem] at hn
      rcases Nat.lt_trichotomy i j with hlt | he | hlt
      · exact absurd (by rw [hi2, hj2]; exact hi) (hn i j hi1 hj1 hlt)
      · exact he
      · exact absurd (by rw [hi2, hj2]; exact hi.symm) (hn j i hj1 hi1 hlt)
    subst this
    rw [← hi2, ← hj2]

/-! ## Arshalers -/

/-- What lookup returns, by kind. -/
theorem lookup_cases {env : Env} {n : Nat} {t : TypeId} {a : Arsh} (h : lookupArshaler env (n + 1) t = .done a) : match (env.type t).kind with
    | .bool => a = .leaf t .bool
    | .float32 => a = .leaf t .f32
    | .float64 => a = .leaf t .f64
    | .int8 | .uint8 => a = .leaf t .i8
    | .int16 | .uint16 => a = .leaf t .i16
    | .int32 | .uint32 => a = .leaf t .i32
    | .int64 | .uint64 => a = .leaf t .i64
    | .string => a = .leaf t .string
    | .struct _ => a = .struct t
    | .map k e => ∃ ka ea, lookupArshaler env n k = .done ka ∧ lookupArshaler env n e = .done ea ∧ a = .map t ka ea
    | .slice e => ((env.type t).asBytes = true ∧ a = .leaf t .bytes) ∨ ((env.type t).asBytes = false ∧ ∃ ea, lookupArshaler env n e = .done ea ∧ a = .seq t (env.type t).isSet ea)
    | .uuid => a = .leaf t .uuid
    | .ptr e => ∃ ea, lookupArshaler env n e = .done ea ∧ a = .ptr t ea
    | .other => a = .invalid t := by
  have one : ∀ (e : TypeId) (f : Arsh → Arsh), ((lookupArshaler env n e).bind fun ea => .done (f ea)) = .done a → ∃ ea, lookupArshaler env n e = .done ea ∧ a = f ea := by
    intro e f h
    rcases lookup_total env n e with h' | ⟨ea, h'⟩
    · rw [h'] at h; cases h
    · rw [h'] at h; cases h; exact ⟨ea, h', rfl⟩
  rw [lookupArshaler] at h
  cases hk : (env.type t).kind with
  | map k e =>
    rw [hk] at h
    dsimp only at h ⊢
    rcases lookup_total env n k with h' | ⟨ka, h'⟩
    · rw [h'] at h; cases h
    · rw [h', Out.bind_done] at h
      obtain ⟨ea, h1, h2⟩ := one _ _ h
      exact ⟨ka, ea, h', h1, h2⟩
  | slice e =>
    rw [hk] at h
    dsimp only at h ⊢
    rw [GoType.asBytes]
    cases h1 : (env.type t).isSet <;> cases h2 : (env.type t).isList <;> cases h3 : (env.type t).isBytes <;>
      simp only [h1, h2, h3, Bool.false_eq_true, if_false, if_true, reduceCtorEq] at h <;>
      first
        | exact .inr ⟨rfl, one _ _ h⟩
        | (cases h; exact .inl ⟨rfl, rfl⟩)
  | ptr e =>
    rw [hk] at h
    exact one _ _ h
  | _ =>
    rw [hk] at h
    cases h
    rfl

theorem Spec.WireTypeOf.ne_stop {env : Env} {t : TypeId} {w : WType} (h : WireTypeOf env t w) : w ≠ Ty.stop := by
  induction h with
  | ptr _ _ ih => exact ih
  | _ => decide

theorem Spec.WireTypeOf.valid {env : Env} {t : TypeId} {w : WType} (h : WireTypeOf env t w) : TVal.ValidTy w := by
  induction h with
  | ptr _ _ ih => exact ih
  | _ => decide

theorem Spec.WireTypeOf.supported {env : Env} {t : TypeId} {w : WType} (h : WireTypeOf env t w) : ¬ Unsupported env t := by
  induction h with
  | ptr hk _ ih =>
    intro hu
    cases hu with
    | other hk' => rw [hk] at hk'; cases hk'
    | ptr hk' hu => rw [hk] at hk'; cases hk'; exact ih hu
  | double hk => intro hu; cases hu <;> simp_all
  | byte hk => intro hu; cases hu <;> simp_all
  | i16 hk => intro hu; cases hu <;> simp_all
  | i32 hk => intro hu; cases hu <;> simp_all
  | i64 hk => intro hu; cases hu <;> simp_all
  | _ => intro hu; cases hu <;> simp_all

/-- The arshaler's wire type is the one the Go type maps to; Stop for unsupported types. -/
theorem lookup_wireType {env : Env} {n : Nat} {t : TypeId} {a : Arsh} (h : lookupArshaler env n t = .done a) :
    a.typ = t ∧ ((a.wireType = Ty.stop ∧ Unsupported env t) ∨ WireTypeOf env t a.wireType) := by
  induction n generalizing t a with
  | zero => cases h
  | succ n ih =>
    have hc := lookup_cases h
    cases hk : (env.type t).kind with
    | map k e =>
      rw [hk] at hc
      obtain ⟨ka, ea, _, _, rfl⟩ := hc
      exact ⟨rfl, .inr (.map hk)⟩
    | slice e =>
      rw [hk] at hc
      rcases hc with ⟨hb, rfl⟩ | ⟨hb, ea, _, rfl⟩
      · exact ⟨rfl, .inr (.bytes hk hb)⟩
      · refine ⟨rfl, .inr ?_⟩
        rw [Arsh.wireType]
        cases hs : (env.type t).isSet with
        | true => exact .set hk hs
        | false => exact .list hk hs hb
    | ptr e =>
      rw [hk] at hc
      obtain ⟨ea, h1, rfl⟩ := hc
      obtain ⟨_, h2⟩ := ih h1
      refine ⟨rfl, ?_⟩
      rcases h2 with ⟨h2, h3⟩ | h2
      · exact .inl ⟨h2, .ptr hk h3⟩
      · exact .inr (.ptr hk h2)
    | other => rw [hk] at hc; subst hc; exact ⟨rfl, .inl ⟨rfl, .other hk⟩⟩
    | bool => rw [hk] at hc; subst hc; exact ⟨rfl, .inr (.bool hk)⟩
    | float32 => rw [hk] at hc; subst hc; exact ⟨rfl, .inr (.double (.inl hk))⟩
    | float64 => rw [hk] at hc; subst hc; exact ⟨rfl, .inr (.double (.inr hk))⟩
    | int8 => rw [hk] at hc; subst hc; exact ⟨rfl, .inr (.byte (.inl hk))⟩
    | uint8 => rw [hk] at hc; subst hc; exact ⟨rfl, .inr (.byte (.inr hk))⟩
    | int16 => rw [hk] at hc; subst hc; exact ⟨rfl, .inr (.i16 (.inl hk))⟩
    | uint16 => rw [hk] at hc; subst hc; exact ⟨rfl, .inr (.i16 (.inr hk))⟩
    | int32 => rw [hk] at hc; subst hc; exact ⟨rfl, .inr (.i32 (.inl hk))⟩
    | uint32 => rw [hk] at hc; subst hc; exact ⟨rfl, .inr (.i32 (.inr hk))⟩
    | int64 => rw [hk] at hc; subst hc; exact ⟨rfl, .inr (.i64 (.inl hk))⟩
    | uint64 => rw [hk] at hc; subst hc; exact ⟨rfl, .inr (.i64 (.inr hk))⟩
    | string => rw [hk] at hc; subst hc; exact ⟨rfl, .inr (.string hk)⟩
    | uuid => rw [hk] at hc; subst hc; exact ⟨rfl, .inr (.uuid hk)⟩
    | struct fs => rw [hk] at hc; subst hc; exact ⟨rfl, .inr (.struct hk)⟩

theorem Spec.Unsupported.wireType {env : Env} {t : TypeId} (hu : Unsupported env t) {n : Nat} {a : Arsh} (h : lookupArshaler env n t = .done a) : a.wireType = Ty.stop := by
  rcases (lookup_wireType h).2 with ⟨h, _⟩ | h
  · exact h
  · exact absurd hu h.supported

theorem Spec.WireTypeOf.unique {env : Env} {t : TypeId} {w w' : WType} (h : WireTypeOf env t w) (h' : WireTypeOf env t w') : w = w' := by
  induction h with
  | ptr hk _ ih => cases h' <;> simp_all
  | double hk => rcases hk with hk | hk <;> cases h' <;> simp_all
  | byte hk => rcases hk with hk | hk <;> cases h' <;> simp_all
  | i16 hk => rcases hk with hk | hk <;> cases h' <;> simp_all
  | i32 hk => rcases hk with hk | hk <;> cases h' <;> simp_all
  | i64 hk => rcases hk with hk | hk <;> cases h' <;> simp_all
  | bytes hk hb => cases h' <;> simp_all [GoType.asBytes]
  | set hk hb => cases h' <;> simp_all [GoType.asBytes]
  | list hk hb => cases h' <;> simp_all [GoType.asBytes]
  | _ hk => cases h' <;> simp_all

theorem Spec.WireTypeOf.lookup {env : Env} {t : TypeId} {w : WType} (hw : WireTypeOf env t w) {n : Nat} {a : Arsh} (h : lookupArshaler env n t = .done a) : a.wireType = w := by
  rcases (lookup_wireType h).2 with ⟨_, h⟩ | h
  · exact absurd h hw.supported
  · exact h.unique hw

end GoThrift
