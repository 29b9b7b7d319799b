import Verif.Proof.Decode

/-!
# Decoding a wire value always ends, with a value of the right type; errors are mismatches of wire types
-/

namespace GoThrift

open Spec Spec.TVal

theorem Dec.andThen_none {α β : Type} (x : α) (fail : α → β) (k : α → Dec β) : Dec.andThen (.done (x, none)) fail k = k x := rfl

theorem Dec.andThen_some {α β : Type} (x : α) (e : Err) (fail : α → β) (k : α → Dec β) : Dec.andThen (.done (x, some e)) fail k = .done (fail x, some e) := rfl

/-- A family of decoders that grows with its bound. -/
def Mono (u : Nat → GoVal → TVal → Dec GoVal) : Prop := ∀ n m v tv, n ≤ m → OLe (u n v tv) (u m v tv)

theorem Mono.done {u : Nat → GoVal → TVal → Dec GoVal} (h : Mono u) {n m : Nat} (hnm : n ≤ m) {v : GoVal} {tv : TVal} {x : GoVal × Option Err} (hd : u n v tv = .done x) :
    u m v tv = .done x := (h n m v tv hnm).done hd

theorem mono_dec (env : Env) (a : Arsh) : Mono fun n v tv => dec env n a v tv := fun _ _ v tv h => dec_le env h a v tv

/-- Decoding `tv` into `old` ends with a value of type `t`, and an error only as described by `E`. -/
def Settles (env : Env) (t : TypeId) (u : Nat → GoVal → TVal → Dec GoVal) (old : GoVal) (tv : TVal) (E : Err → Prop) : Prop :=
  ∃ n v e, u n old tv = .done (v, e) ∧ HasType env t v ∧ ∀ err, e = some err → E err

theorem decLoop_total {env : Env} {t : TypeId} {u : Nat → GoVal → TVal → Dec GoVal} (hm : Mono u) {grow : Nat → Nat} {E : Err → Prop} (tvs : List TVal)
    (hu : ∀ tv ∈ tvs, Settles env t u (env.zero t) tv E) (done rest : List GoVal) (mz : Bool) (hz : mz = true ∨ ∀ v ∈ rest, v = env.zero t) (hd : ∀ v ∈ done, HasType env t v) :
    ∃ n es sp e, decLoop (u n) (env.zero t) grow tvs done rest mz = .done ((es, sp), e) ∧ (∀ v ∈ es, HasType env t v) ∧ ∀ err, e = some err → E err := by
  induction tvs generalizing done rest mz with
  | nil => exact ⟨0, done, rest, none, by rw [decLoop], hd, fun _ h => by cases h⟩
  | cons tv tvs ih =>
    obtain ⟨r0, rest', hr⟩ : ∃ r0 rest', (if rest.isEmpty = true then List.replicate (max 1 (grow done.length - done.length)) (env.zero t) else rest) = r0 :: rest' := by
      cases rest with
      | nil =>
        refine ⟨env.zero t, List.replicate (max 1 (grow done.length - done.length) - 1) (env.zero t), ?_⟩
        simp only [List.isEmpty_nil, if_true]
        rw [← List.replicate_succ, show max 1 (grow done.length - done.length) - 1 + 1 = max 1 (grow done.length - done.length) by omega]
      | cons v rest => exact ⟨v, rest, rfl⟩
    have key : (if (mz && !rest.isEmpty) = true then env.zero t else r0) = env.zero t ∧ ((mz && !rest.isEmpty) = true ∨ ∀ v ∈ rest', v = env.zero t) := by
      cases rest with
      | nil =>
        simp only [List.isEmpty_nil, if_true] at hr
        have hall : ∀ x ∈ r0 :: rest', x = env.zero t := by rw [← hr]; intro x hx; exact List.eq_of_mem_replicate hx
        simp only [List.isEmpty_nil, Bool.not_true, Bool.and_false, Bool.false_eq_true, if_false, false_or]
        exact ⟨hall r0 (by simp), fun x hx => hall x (by simp [hx])⟩
      | cons v0 rest0 =>
        simp only [List.isEmpty_cons, Bool.false_eq_true, if_false, List.cons.injEq] at hr
        obtain ⟨rfl, rfl⟩ := hr
        cases mz with
        | true => simp
        | false =>
          rcases hz with hz | hz
          · cases hz
          · simp only [Bool.false_and, Bool.false_eq_true, if_false, false_or]
            exact ⟨hz v0 (by simp), fun x hx => hz x (by simp [hx])⟩
    obtain ⟨n1, v, e, h1, h2, h3⟩ := hu tv (by simp)
    obtain ⟨k1, k2⟩ := key
    cases e with
    | some err =>
      refine ⟨n1, done ++ [v], rest', some err, ?_, ?_, h3⟩
      · rw [decLoop]
        simp only [hr]
        rw [k1, h1]
        rfl
      · intro x hx
        rcases List.mem_append.1 hx with hx | hx
        · exact hd x hx
        · rw [List.mem_singleton.1 hx]; exact h2
    | none =>
      obtain ⟨n2, es, sp, e, h4, h5, h6⟩ := ih (fun tv htv => hu tv (by simp [htv])) (done ++ [v]) rest' _ k2 (by
        intro x hx
        rcases List.mem_append.1 hx with hx | hx
        · exact hd x hx
        · rw [List.mem_singleton.1 hx]; exact h2)
      refine ⟨max n1 n2, es, sp, e, ?_, h5, h6⟩
      rw [decLoop]
      simp only [hr]
      rw [k1, hm.done (Nat.le_max_left n1 n2) h1]
      exact (decLoop_le (fun v tv => hm n2 (max n1 n2) v tv (Nat.le_max_right _ _)) _ _ _ _ _ _).done h4

theorem mapIndex_mem {k v : GoVal} {es : List (GoVal × GoVal)} (h : mapIndex k es = some v) : ∃ k', (k', v) ∈ es ∧ k.keyEq k' = true := by
  induction es with
  | nil => cases h
  | cons e es ih =>
    obtain ⟨k', v'⟩ := e
    rw [mapIndex] at h
    split at h
    · rename_i hk; cases h; exact ⟨k', by simp, hk⟩
    · obtain ⟨k2, h2, h3⟩ := ih h; exact ⟨k2, by simp [h2], h3⟩

theorem setMapIndex_mem {k v : GoVal} {es : List (GoVal × GoVal)} {e : GoVal × GoVal} (h : e ∈ setMapIndex k v es) : e = (k, v) ∨ e ∈ es := by
  induction es with
  | nil => simp [setMapIndex] at h; exact .inl h
  | cons e' es ih =>
    obtain ⟨k', v'⟩ := e'
    rw [setMapIndex] at h
    split at h
    · rcases List.mem_cons.1 h with h | h
      · exact .inl h
      · exact .inr (by simp [h])
    · rcases List.mem_cons.1 h with h | h
      · exact .inr (by simp [h])
      · rcases ih h with h | h
        · exact .inl h
        · exact .inr (by simp [h])

theorem decEntries_total {env : Env} {k e : TypeId} {uk uv : Nat → GoVal → TVal → Dec GoVal} (hmk : Mono uk) (hmv : Mono uv) {E : Err → Prop} (tes : List (TVal × TVal))
    (hk : ∀ te ∈ tes, Settles env k uk (env.zero k) te.1 E) (hv : ∀ te ∈ tes, ∀ old, HasType env e old → Settles env e uv old te.2 E) (es : List (GoVal × GoVal))
    (ht : ∀ x ∈ es, HasType env k x.1 ∧ HasType env e x.2) :
    ∃ n es' er, decEntries (uk n) (uv n) (env.zero k) (env.zero e) tes es = .done (es', er) ∧ (∀ x ∈ es', HasType env k x.1 ∧ HasType env e x.2) ∧ ∀ err, er = some err → E err := by
  induction tes generalizing es with
  | nil => exact ⟨0, es, none, by rw [decEntries], ht, fun _ h => by cases h⟩
  | cons te tes ih =>
    obtain ⟨n1, x, e1, h1, h2, h3⟩ := hk te (by simp)
    cases e1 with
    | some err => exact ⟨n1, es, some err, by rw [decEntries, h1]; rfl, ht, h3⟩
    | none =>
      have hold : HasType env e ((mapIndex x es).getD (env.zero e)) := by
        cases hx : mapIndex x es with
        | none => exact zero_hasType env e
        | some v => obtain ⟨k', h4, _⟩ := mapIndex_mem hx; exact (ht _ h4).2
      obtain ⟨n2, v, e2, h4, h5, h6⟩ := hv te (by simp) _ hold
      have ht' : ∀ y ∈ setMapIndex x v es, HasType env k y.1 ∧ HasType env e y.2 := by
        intro y hy
        rcases setMapIndex_mem hy with rfl | hy
        · exact ⟨h2, h5⟩
        · exact ht y hy
      cases e2 with
      | some err =>
        refine ⟨max n1 n2, setMapIndex x v es, some err, ?_, ht', h6⟩
        rw [decEntries, hmk.done (Nat.le_max_left n1 n2) h1]
        rw [Dec.andThen_none, hmv.done (Nat.le_max_right n1 n2) h4]
        rfl
      | none =>
        obtain ⟨n3, es', er, h7, h8, h9⟩ := ih (fun te hte => hk te (by simp [hte])) (fun te hte => hv te (by simp [hte])) _ ht'
        refine ⟨max (max n1 n2) n3, es', er, ?_, h8, h9⟩
        rw [decEntries, hmk.done (show n1 ≤ max (max n1 n2) n3 by omega) h1]
        rw [Dec.andThen_none, hmv.done (show n2 ≤ max (max n1 n2) n3 by omega) h4]
        exact (decEntries_le (fun v tv => hmk n3 _ v tv (by omega)) (fun v tv => hmv n3 _ v tv (by omega)) _ _ _ _).done h7

/-- What errors decoding into a variable of type `t` can end with. -/
def MismatchErr (env : Env) (t : TypeId) (tv : TVal) (err : Err) : Prop := ∃ bad t', Mismatch env t tv bad t' ∧ err = .semantic .unmarshal bad (some t')

theorem decFields_total {env : Env} {t : TypeId} {n0 : Nat} {sfs : List SField} (htab : Table env n0 t sfs) {E : Err → Prop} (tfs : List (Bytes × BitVec 16 × TVal))
    (h : ∀ tf ∈ tfs, ∀ (f : FieldDecl) (required : Bool) (old : GoVal) (a : Arsh) (n : Nat), f ∈ env.fields t → Declares env f tf.2.1 required → HasType env f.typ old →
      lookupArshaler env n f.typ = .done a → Settles env f.typ (fun n v tv => dec env n a v tv) old tf.2.2 E) (vs : List GoVal)
    (hlen : vs.length = (env.fields t).length) (ht : ∀ (i : Nat) f v, (env.fields t)[i]? = some f → vs[i]? = some v → HasType env f.typ v) :
    ∃ n vs' e, decFields env n t sfs vs tfs = .done (.struct vs', e) ∧ vs'.length = (env.fields t).length ∧
      (∀ (i : Nat) f v, (env.fields t)[i]? = some f → vs'[i]? = some v → HasType env f.typ v) ∧ ∀ err, e = some err → E err := by
  induction tfs generalizing vs with
  | nil => exact ⟨1, vs, none, by rw [decFields], hlen, ht, fun _ h => by cases h⟩
  | cons tf tfs ih =>
    cases hb : byID sfs tf.2.1 with
    | none =>
      obtain ⟨n, vs', e, h1, h2⟩ := ih (fun tf htf => h tf (by simp [htf])) vs hlen ht
      exact ⟨n + 1, vs', e, by rw [decFields, hb]; exact h1, h2⟩
    | some sf =>
      obtain ⟨hsf, hid⟩ := byID_some hb
      obtain ⟨d, d1, d2, d3, d4, d5⟩ := htab.mem sf hsf
      have hi : sf.index < vs.length := hlen ▸ (List.getElem?_eq_some_iff.1 d1).1
      have hv := List.getElem?_eq_getElem hi
      rw [hid] at d2
      obtain ⟨n1, v', e, h1, h2, h3⟩ := h tf (by simp) d _ _ sf.a n0 (List.mem_of_getElem? d1) d2 (ht _ d _ d1 hv) d5
      dsimp only at h1
      have hlen' : (vs.set sf.index v').length = (env.fields t).length := by rw [List.length_set, hlen]
      have ht' : ∀ (i : Nat) f v, (env.fields t)[i]? = some f → (vs.set sf.index v')[i]? = some v → HasType env f.typ v := by
        intro i f v hf hv
        rw [List.getElem?_set] at hv
        split at hv
        · rename_i he
          subst he
          rw [d1] at hf
          cases hf
          cases hv
          exact h2
        · exact ht i f v hf hv
      cases e with
      | some err => exact ⟨n1 + 1, vs.set sf.index v', some err, by rw [decFields, hb]; dsimp only; rw [hv]; dsimp only; rw [h1]; rfl, hlen', ht', h3⟩
      | none =>
        obtain ⟨n2, vs', e, h4, h5, h6, h7⟩ := ih (fun tf htf => h tf (by simp [htf])) _ hlen' ht'
        refine ⟨max n1 n2 + 1, vs', e, ?_, h5, h6, h7⟩
        rw [decFields, hb]
        dsimp only
        rw [hv]
        dsimp only
        rw [(dec_le env (Nat.le_max_left n1 n2) _ _ _).done h1]
        exact ((dec_le_both env n2 _ (Nat.le_max_right n1 n2)).2 _ _ _ _).done h4

/-- Types that are not pointers, and have a wire type. -/
theorem not_ptr {env : Env} {t : TypeId} {k : Kind} (h : (env.type t).kind = k) (hk : ∀ e, k ≠ .ptr e) : ∀ e, (env.type t).kind ≠ .ptr e := fun e he => hk e (h.symm.trans he)

theorem Leaf.of_ty {l : Leaf} {tv : TVal} (h : tv.ty = l.wireType) : match l with
    | .bool => ∃ b, tv = .bool b
    | .f32 | .f64 => ∃ b, tv = .double b
    | .i8 => ∃ b, tv = .byte b
    | .i16 => ∃ b, tv = .i16 b
    | .i32 => ∃ b, tv = .i32 b
    | .i64 => ∃ b, tv = .i64 b
    | .string | .bytes => ∃ raw b, tv = .str raw b
    | .uuid => ∃ b, tv = .uuid b := by
  cases l <;> cases tv <;> first | exact ⟨_, rfl⟩ | exact ⟨_, _, rfl⟩ | exact absurd h (by simp only [ty, Leaf.wireType]; decide)

/-- Leaves. -/
theorem leaf_total {env : Env} {n : Nat} {t : TypeId} {l : Leaf} (hl : lookupArshaler env n t = .done (.leaf t l)) {lim : Nat} {tv : TVal} (hw : WF lim tv) {old : GoVal}
    (ht : HasType env t old) : ∃ v e, decLeaf env t l old tv = .done (v, e) ∧ HasType env t v ∧ ∀ err, e = some err → MismatchErr env t tv err := by
  cases n with
  | zero => cases hl
  | succ n =>
    have hc := lookup_cases hl
    have hwt : WireTypeOf env t l.wireType := by
      rcases (lookup_wireType hl).2 with ⟨h, _⟩ | h
      · cases l <;> exact absurd h (by simp only [Arsh.wireType, Leaf.wireType]; decide)
      · exact h
    have hnp : ∀ e, (env.type t).kind ≠ .ptr e := by
      intro e he
      rw [he] at hc
      obtain ⟨_, _, h⟩ := hc
      cases h
    by_cases hty : tv.ty = l.wireType
    · have hlf := Leaf.of_ty hty
      have hsh := Everywhere.here ht
      have hh : ∀ {v : GoVal}, (∀ vs, v ≠ .struct vs) → (∀ es, v ≠ .map es) → (∀ es sp, v ≠ .slice es sp) → (∀ p, v ≠ .ptr p) → Shape env t v → HasType env t v := by
        intro v h1 h2 h3 h4 h5
        cases v <;> first | exact h5 | exact absurd rfl (h1 _) | exact absurd rfl (h2 _) | exact absurd rfl (h3 _ _) | exact absurd rfl (h4 _)
      unfold decLeaf
      rw [if_neg (by simpa using hty)]
      cases hk : (env.type t).kind <;> rw [hk] at hc
      all_goals first
        | (obtain ⟨_, _, _, _, h⟩ := hc; cases h; done)
        | (obtain ⟨_, _, h⟩ := hc; cases h; done)
        | (cases hc; done)
        | skip
      case slice e =>
        rcases hc with ⟨hb, h⟩ | ⟨_, _, _, h⟩
        · cases h
          obtain ⟨raw, b, rfl⟩ := hlf
          cases old <;> simp [Shape, hk, hb] at hsh
          exact ⟨_, none, rfl, hh (by simp) (by simp) (by simp) (by simp) (by simp [Shape, hk, hb]), fun _ h => by cases h⟩
        · cases h
      case uuid =>
        cases hc
        obtain ⟨b, rfl⟩ := hlf
        exact ⟨_, none, rfl, hh (by simp) (by simp) (by simp) (by simp) (by simpa [Shape, hk, WF] using hw), fun _ h => by cases h⟩
      case string =>
        cases hc
        obtain ⟨raw, b, rfl⟩ := hlf
        exact ⟨_, none, rfl, hh (by simp) (by simp) (by simp) (by simp) (by simp [Shape, hk]), fun _ h => by cases h⟩
      all_goals
        cases hc
        obtain ⟨b, rfl⟩ := hlf
        exact ⟨_, none, rfl, hh (by simp) (by simp) (by simp) (by simp) (by simp [Shape, hk]), fun _ h => by cases h⟩
    · refine ⟨old, some (.semantic .unmarshal tv.ty (some t)), by unfold decLeaf; rw [if_pos hty], ht, ?_⟩
      intro err he
      cases he
      exact ⟨_, _, .here hnp fun h => hty (h.unique hwt), rfl⟩

/-- A part of a wire value. -/
def Child (c : TVal) : TVal → Prop
  | .struct _ fs => ∃ f ∈ fs, c = f.2.2
  | .map _ _ es => ∃ e ∈ es, c = e.1 ∨ c = e.2
  | .set _ es | .list _ es => c ∈ es
  | _ => False

theorem child_ind {P : TVal → Prop} (h : ∀ tv, (∀ c, Child c tv → P c) → P tv) (tv : TVal) : P tv := by
  induction tv using ind with
  | hstruct n fs ih => exact h _ fun c ⟨f, hf, he⟩ => he ▸ ih f hf
  | hmap kt vt es ih =>
    refine h _ fun c hc => ?_
    obtain ⟨e, he, rfl | rfl⟩ := hc
    · exact (ih e he).1
    · exact (ih e he).2
  | hset et es ih => exact h _ fun c hc => ih c hc
  | hlist et es ih => exact h _ fun c hc => ih c hc
  | _ => exact h _ fun c hc => hc.elim

theorem Child.wf {c tv : TVal} (h : Child c tv) {lim : Nat} (hw : WF lim tv) : WF lim c := by
  cases tv with
  | struct n fs => obtain ⟨f, hf, rfl⟩ := h; exact (wfFields_iff fs).1 hw f hf
  | map kt vt es =>
    obtain ⟨e, he, rfl | rfl⟩ := h
    · exact ((wfEntries_iff es).1 hw.2 e he).2.2.1
    · exact ((wfEntries_iff es).1 hw.2 e he).2.2.2
  | set et es => exact ((wfElems_iff es).1 hw.2 c h).2
  | list et es => exact ((wfElems_iff es).1 hw.2 c h).2
  | _ => exact h.elim

theorem Spec.AllGood.part {env : Env} {t e : TypeId} (h : AllGood env t) (hp : PartOf env e t) : AllGood env e := fun t' fs hw hk => h t' fs (.step hw hp) hk

theorem here_err {env : Env} {t : TypeId} {tv : TVal} {k : Kind} (hk : (env.type t).kind = k) (hnp : ∀ e, k ≠ .ptr e) {w : WType} (hw : WireTypeOf env t w) (h : tv.ty ≠ w) :
    ∀ err, some (Err.semantic .unmarshal tv.ty (some t)) = some err → MismatchErr env t tv err := by
  intro err he
  cases he
  exact ⟨_, _, .here (not_ptr hk hnp) fun h' => h (h'.unique hw), rfl⟩

theorem Settles.imp {env : Env} {t : TypeId} {u : Nat → GoVal → TVal → Dec GoVal} {old : GoVal} {tv : TVal} {E E' : Err → Prop} (h : Settles env t u old tv E) (he : ∀ err, E err → E' err) :
    Settles env t u old tv E' := by
  obtain ⟨n, v, e, h1, h2, h3⟩ := h
  exact ⟨n, v, e, h1, h2, fun err h => he err (h3 err h)⟩

/-- Decoding ends, for all types whose struct types can be unmarshalled into. -/
theorem dec_total {env : Env} {lim : Nat} (tv : TVal) : WF lim tv → ∀ n t a old, lookupArshaler env n t = .done a → HasType env t old → AllGood env t →
    Settles env t (fun n v tv => dec env n a v tv) old tv (MismatchErr env t tv) := by
  induction tv using child_ind with
  | h tv ih =>
  intro hw n
  induction n with
  | zero => intro t a old hl; cases hl
  | succ n ihn =>
  intro t a old hl ht hg
  have hc := lookup_cases hl
  have hsh := Everywhere.here ht
  have leaf : ∀ l, a = .leaf t l → Settles env t (fun n v tv => dec env n a v tv) old tv (MismatchErr env t tv) := by
    rintro l rfl
    obtain ⟨v, e, h1, h2⟩ := leaf_total hl hw ht
    exact ⟨1, v, e, by (try dsimp only); rw [dec]; exact h1, h2⟩
  cases hk : (env.type t).kind with
  | other =>
    rw [hk] at hc
    subst hc
    refine ⟨1, old, _, by (try dsimp only); rw [dec], ht, fun err he => ?_⟩
    cases he
    refine ⟨_, _, .here (not_ptr hk (by simp)) fun h => ?_, rfl⟩
    exact h.supported (.other hk)
  | ptr e =>
    rw [hk] at hc
    obtain ⟨ea, hle, rfl⟩ := hc
    have hp : PartOf env e t := by simp [PartOf, hk]
    have htyp : ea.typ = e := (lookup_wireType hle).1
    obtain ⟨v0, h0, h0t⟩ : ∃ v0, old.deref? (env.zero ea.typ) = some v0 ∧ HasType env e v0 := by
      cases old <;> simp [Shape, hk] at hsh
      · exact ⟨_, rfl, htyp ▸ zero_hasType env _⟩
      · rename_i v
        exact ⟨v, rfl, by have := ht.2; rwa [elemType_ptr hk] at this⟩
    obtain ⟨m, v, er, h1, h2, h3⟩ := ihn e ea v0 hle h0t (hg.part hp)
    dsimp only at h1
    refine ⟨m + 1, .ptr v, er, ?_, ⟨by simp [Shape, hk], by rw [elemType_ptr hk]; exact h2⟩, fun err he => ?_⟩
    · (try dsimp only); rw [dec, h0]
      dsimp only
      rw [h1]
      cases er <;> rfl
    · obtain ⟨bad, t', h4, h5⟩ := h3 err he
      exact ⟨bad, t', .ptr hk h4, h5⟩
  | struct fs =>
    rw [hk] at hc
    subst hc
    have hgs := hg t fs (.refl t) hk
    have hfs := fields_struct hk
    obtain ⟨n1, sfs, hmk⟩ := table_exists env t (hfs ▸ hgs.1) (hfs ▸ hgs.2.1) (hfs ▸ hgs.2.2)
    have htab := makeStructFields_table _ _ _ _ hmk
    cases tv
    case struct nm tfs =>
      cases old <;> simp [Shape, hk] at hsh
      rename_i vs
      obtain ⟨m, vs', e, h1, h2, h3, h4⟩ := decFields_total htab (E := MismatchErr env t (.struct nm tfs)) tfs (fun tf htf f required old a n hf hdec hold hla => by
        refine (ih tf.2.2 ⟨tf, htf, rfl⟩ (Child.wf (tv := .struct nm tfs) ⟨tf, htf, rfl⟩ hw) n f.typ a old hla hold (hg.part ?_)).imp ?_
        · rw [hfs] at hf; simpa [PartOf, hk] using ⟨f, hf, rfl⟩
        · rintro err ⟨bad, t', h4, h5⟩
          exact ⟨bad, t', .field hk htf (hfs ▸ hf) hdec h4, h5⟩) vs (by rw [hfs, hsh]) (by
        intro i f v hf hv
        exact (everywhereFields_iff _ _).1 ht.2 i f v hf hv)
      refine ⟨max n1 m + 1, .struct vs', e, ?_, ⟨by simp [Shape, hk, h2, hfs], (everywhereFields_iff _ _).2 h3⟩, h4⟩
      (try dsimp only); rw [dec, (makeStructFields_le env _ _ (Nat.le_max_left n1 m) t).done hmk]
      exact ((dec_le_both env m _ (Nat.le_max_right n1 m)).2 _ _ _ _).done h1
    all_goals
      refine ⟨n1 + 1, old, _, ?_, ht, here_err hk (by simp) (.struct hk) (by simp only [ty]; decide)⟩
      (try dsimp only); rw [dec, hmk]
      rfl
  | map k e =>
    rw [hk] at hc
    obtain ⟨ka, ea, hlk, hle, rfl⟩ := hc
    have hpk : PartOf env k t := by simp [PartOf, hk]
    have hpe : PartOf env e t := by simp [PartOf, hk]
    have hkt : ka.typ = k := (lookup_wireType hlk).1
    have het : ea.typ = e := (lookup_wireType hle).1
    cases tv
    case map kw ew tes =>
      obtain ⟨es0, h0, h0t⟩ : ∃ es0, old.entries? = some es0 ∧ ∀ x ∈ es0, HasType env k x.1 ∧ HasType env e x.2 := by
        cases old <;> simp [Shape, hk] at hsh
        · exact ⟨[], rfl, by simp⟩
        · rename_i es
          refine ⟨es, rfl, ?_⟩
          have := (everywhereEntries_iff _).1 ht.2
          rwa [keyType_map hk, elemType_map hk] at this
      by_cases hne : tes = []
      · subst hne
        exact ⟨1, old, none, by (try dsimp only); simp [dec, decMap, h0], ht, fun _ h => by cases h⟩
      · obtain ⟨m, es', er, h1, h2, h3⟩ := decEntries_total (E := MismatchErr env t (.map kw ew tes)) (mono_dec env ka) (mono_dec env ea) tes
          (fun te hte => (ih te.1 ⟨te, hte, .inl rfl⟩ (Child.wf (tv := .map kw ew tes) ⟨te, hte, .inl rfl⟩ hw) n k ka _ hlk (zero_hasType env k) (hg.part hpk)).imp (by
            rintro err ⟨bad, t', h4, h5⟩
            exact ⟨bad, t', .key hk hte h4, h5⟩))
          (fun te hte old hold => (ih te.2 ⟨te, hte, .inr rfl⟩ (Child.wf (tv := .map kw ew tes) ⟨te, hte, .inr rfl⟩ hw) n e ea _ hle hold (hg.part hpe)).imp (by
            rintro err ⟨bad, t', h4, h5⟩
            exact ⟨bad, t', .value hk hte h4, h5⟩)) es0 h0t
        refine ⟨m + 1, .map es', er, ?_, ⟨by simp [Shape, hk], ?_⟩, h3⟩
        · (try dsimp only); rw [dec, decMap, h0, hkt, het]
          dsimp only
          rw [if_pos hne, h1]
          cases er <;> rfl
        · rw [everywhereEntries_iff, keyType_map hk, elemType_map hk]
          exact h2
    all_goals
      refine ⟨1, old, _, ?_, ht, here_err hk (by simp) (.map hk) (by simp only [ty]; decide)⟩
      (try dsimp only); rw [dec, decMap]
      simp
  | slice e =>
    rw [hk] at hc
    rcases hc with ⟨hb, rfl⟩ | ⟨hb, ea, hle, rfl⟩
    · exact leaf _ rfl
    · have hpe : PartOf env e t := by simp [PartOf, hk, hb]
      have het : ea.typ = e := (lookup_wireType hle).1
      have body : ∀ (tvs : List TVal), (∀ c ∈ tvs, Child c tv) → (∀ c ∈ tvs, ∀ bad t', Mismatch env e c bad t' → Mismatch env t tv bad t') →
          (∀ m, dec env (m + 1) (.seq t (env.type t).isSet ea) old tv = if old.elems?.isNone = true then .panicked
            else if tvs ≠ [] then (decLoop (fun v tv => dec env m ea v tv) (env.zero e) (env.grow t) tvs [] old.slots true).andThen (fun p => .slice p.1 p.2)
              fun p => .done (.slice p.1 p.2, none) else .done (old.cleared, none)) →
          Settles env t (fun n v tv => dec env n (.seq t (env.type t).isSet ea) v tv) old tv (MismatchErr env t tv) := by
        intro tvs hch hmm hdec
        obtain ⟨h0, h1⟩ : old.elems?.isNone = false ∧ HasType env t old.cleared := by
          cases old <;> simp [Shape, hk, hb] at hsh
          · exact ⟨rfl, ht⟩
          · exact ⟨rfl, ⟨by simp [Shape, hk, hb], trivial⟩⟩
        by_cases hne : tvs = []
        · subst hne
          exact ⟨1, _, none, by dsimp only; rw [hdec]; simp [h0], h1, fun _ h => by cases h⟩
        · obtain ⟨m, es, sp, er, h2, h3, h4⟩ := decLoop_total (E := MismatchErr env t tv) (mono_dec env ea) (grow := env.grow t) tvs
            (fun c hc => (ih c (hch c hc) ((hch c hc).wf hw) n e ea _ hle (zero_hasType env e) (hg.part hpe)).imp (by
              rintro err ⟨bad, t', h4, h5⟩
              exact ⟨bad, t', hmm c hc _ _ h4, h5⟩)) [] old.slots true (.inl rfl) (by simp)
          refine ⟨m + 1, .slice es sp, er, ?_, ⟨by simp [Shape, hk, hb], ?_⟩, h4⟩
          · dsimp only
            rw [hdec, h0, if_neg (by simp), if_pos hne, h2]
            cases er <;> rfl
          · rw [everywhereElems_iff, elemType_slice hk]
            exact h3
      cases hs : (env.type t).isSet with
      | true =>
        rw [hs] at body
        cases tv
        case set w tvs => exact body tvs (fun c hc => hc) (fun c hc bad t' h => .set hk hs hc h) fun m => by (try dsimp only); rw [dec, het]; rfl
        all_goals
          refine ⟨1, old, _, ?_, ht, here_err hk (by simp) (.set hk hs) (by simp only [ty]; decide)⟩
          (try dsimp only); rw [dec]
          rfl
      | false =>
        rw [hs] at body
        cases tv
        case list w tvs => exact body tvs (fun c hc => hc) (fun c hc bad t' h => .list hk hs hb hc h) fun m => by (try dsimp only); rw [dec, het]; rfl
        all_goals
          refine ⟨1, old, _, ?_, ht, here_err hk (by simp) (.list hk hs hb) (by simp only [ty]; decide)⟩
          (try dsimp only); rw [dec]
          rfl
  | _ => rw [hk] at hc; exact leaf _ hc

end GoThrift
