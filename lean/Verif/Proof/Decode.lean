import Verif.Proof.Top
import Verif.Spec.Decode

/-!
# Decoding does what `Decodes` says, and succeeds exactly if the wire value fits
-/

namespace GoThrift

open Spec Spec.TVal

theorem Dec.andThen_ok {α β : Type} {p : Dec α} {fail : α → β} {k : α → Dec β} {y : β} (h : p.andThen fail k = .done (y, none)) :
    ∃ x, p = .done (x, none) ∧ k x = .done (y, none) := by
  cases p with
  | done r =>
    obtain ⟨x, e⟩ := r
    cases e with
    | none => exact ⟨x, rfl, h⟩
    | some e => simp [Dec.andThen] at h
  | blocked => cases h
  | diverged => cases h
  | panicked => cases h

theorem byID_some {fs : List SField} {id : BitVec 16} {f : SField} (h : byID fs id = some f) : f ∈ fs ∧ f.id = id := by
  rw [byID] at h
  exact ⟨List.mem_reverse.1 (List.mem_of_find?_eq_some h), by simpa using List.find?_some h⟩

theorem Table.byID_none {env : Env} {fuel : Nat} {t : TypeId} {fs : List SField} (h : Table env fuel t fs) {id : BitVec 16} (hb : GoThrift.byID fs id = none) :
    ∀ f ∈ env.fields t, ∀ required, ¬ Declares env f id required := by
  intro d hd r hdec
  obtain ⟨i, hi⟩ := List.mem_iff_getElem?.1 hd
  rcases h.all i d hi with h1 | ⟨f, hf, rfl⟩
  · exact h1.not_declares hdec
  · obtain ⟨d', h2, h3, _⟩ := h.mem f hf
    rw [hi] at h2
    cases h2
    obtain ⟨rfl, _⟩ := h3.unique hdec
    have := List.find?_eq_none.1 hb f (List.mem_reverse.2 hf)
    simp at this

theorem Table.good {env : Env} {fuel : Nat} {t : TypeId} {fs : List SField} (h : Table env fuel t fs) : GoodStruct env (env.fields t) := by
  refine ⟨fun f hf => ?_, fun f hf hni => ?_, h.tagged⟩
  all_goals
    obtain ⟨i, hi⟩ := List.mem_iff_getElem?.1 hf
  · rcases h.all i f hi with h1 | ⟨sf, hsf, rfl⟩
    · exact .inl h1
    · obtain ⟨d, h2, h3, _⟩ := h.mem sf hsf
      rw [hi] at h2
      cases h2
      exact .inr ⟨_, _, h3⟩
  · rcases h.all i f hi with h1 | ⟨sf, hsf, rfl⟩
    · exact absurd h1 hni
    · obtain ⟨d, h2, h3, _, _, h4⟩ := h.mem sf hsf
      rw [hi] at h2
      cases h2
      exact (lookup_iff_acc env f.typ).1 ⟨_, _, h4⟩

/-! ## The element loop -/

theorem decLoop_ok {u : GoVal → TVal → Dec GoVal} {zero : GoVal} {grow : Nat → Nat} {tvs : List TVal} {done rest es sp : List GoVal} {mz : Bool}
    (h : decLoop u zero grow tvs done rest mz = .done ((es, sp), none)) (hz : mz = true ∨ ∀ v ∈ rest, v = zero) :
    ∃ es', es = done ++ es' ∧ es'.length = tvs.length ∧ ∀ (i : Nat) x v, tvs[i]? = some x → es'[i]? = some v → u zero x = .done (v, none) := by
  induction tvs generalizing done rest mz with
  | nil => cases h; exact ⟨[], by simp, rfl, by simp⟩
  | cons tv tvs ih =>
    rw [decLoop] at h
    have key : ∀ v rest', (if rest.isEmpty = true then List.replicate (max 1 (grow done.length - done.length)) zero else rest) = v :: rest' →
        (if (mz && !rest.isEmpty) = true then zero else v) = zero ∧ ((mz && !rest.isEmpty) = true ∨ ∀ v ∈ rest', v = zero) := by
      intro v rest' hr
      cases rest with
      | nil =>
        simp only [List.isEmpty_nil, if_true] at hr
        have hall : ∀ x ∈ v :: rest', x = zero := by rw [← hr]; intro x hx; exact List.eq_of_mem_replicate hx
        simp only [List.isEmpty_nil, Bool.not_true, Bool.and_false, Bool.false_eq_true, if_false, false_or]
        exact ⟨hall v (by simp), fun x hx => hall x (by simp [hx])⟩
      | cons v0 rest0 =>
        simp only [List.isEmpty_cons, Bool.false_eq_true, if_false, List.cons.injEq] at hr
        obtain ⟨rfl, rfl⟩ := hr
        cases mz with
        | true => simp
        | false =>
          rcases hz with hz | hz
          · cases hz
          · simp only [Bool.false_and, Bool.false_eq_true, if_false, false_or]
            exact ⟨hz v0 (by simp), fun x hx => hz x (by simp [hx])⟩
    generalize hr : (if rest.isEmpty = true then List.replicate (max 1 (grow done.length - done.length)) zero else rest) = r at h key
    cases r with
    | nil => cases h
    | cons v rest' =>
      obtain ⟨k1, k2⟩ := key v rest' rfl
      dsimp only at h
      rw [k1] at h
      obtain ⟨v', h1, h2⟩ := Dec.andThen_ok h
      obtain ⟨es', rfl, h3, h4⟩ := ih h2 k2
      refine ⟨v' :: es', by simp, by simp [h3], fun i x v hx hv => ?_⟩
      cases i with
      | zero => cases hx; cases hv; exact h1
      | succ i => exact h4 i x v hx hv

theorem decEntries_ok {env : Env} {k e : TypeId} {uk uv : GoVal → TVal → Dec GoVal} (hk : ∀ old tv v, uk old tv = .done (v, none) → Decodes env k old tv v)
    (hv : ∀ old tv v, uv old tv = .done (v, none) → Decodes env e old tv v) {tes : List (TVal × TVal)} {es es' : List (GoVal × GoVal)}
    (h : decEntries uk uv (env.zero k) (env.zero e) tes es = .done (es', none)) : DecodesEntries env k e es tes es' := by
  induction tes generalizing es with
  | nil => cases h; exact .nil
  | cons te tes ih =>
    rw [decEntries] at h
    obtain ⟨x, h1, h⟩ := Dec.andThen_ok h
    obtain ⟨v, h2, h⟩ := Dec.andThen_ok h
    exact .cons (hk _ _ _ h1) (hv _ _ _ h2) (ih h)

theorem decLeaf_sound {env : Env} {t : TypeId} {l : Leaf} {old v : GoVal} {tv : TVal} (h : decLeaf env t l old tv = .done (v, none)) :
    match l with
    | .bool => ∃ b, tv = .bool b ∧ v = .bool b
    | .f32 => ∃ b, tv = .double b ∧ v = .f32 (env.narrow b)
    | .f64 => ∃ b, tv = .double b ∧ v = .f64 b
    | .i8 => ∃ b, tv = .byte b ∧ v = .i8 b
    | .i16 => ∃ b, tv = .i16 b ∧ v = .i16 b
    | .i32 => ∃ b, tv = .i32 b ∧ v = .i32 b
    | .i64 => ∃ b, tv = .i64 b ∧ v = .i64 b
    | .string => ∃ raw b, tv = .str raw b ∧ v = .str b
    | .bytes => ∃ o raw b, old = .bytes o ∧ tv = .str raw b ∧ v = .bytes (if o = none ∧ b = [] then none else some b)
    | .uuid => ∃ b, tv = .uuid b ∧ v = .uuid b := by
  unfold decLeaf at h
  split at h
  · cases h
  · cases l <;> cases tv <;> dsimp only at h <;> first | (cases h; done) | (cases h; exact ⟨_, rfl, rfl⟩) | (cases h; exact ⟨_, _, rfl, rfl⟩) | skip
    rename_i raw b
    cases old <;> first | (cases h; done) | skip
    rename_i o
    cases h
    exact ⟨_, _, _, rfl, rfl, by simp⟩

theorem dec_sound (env : Env) (fuel : Nat) :
    (∀ n t a old tv v, lookupArshaler env n t = .done a → dec env fuel a old tv = .done (v, none) → Decodes env t old tv v) ∧
    (∀ n t fs vs tfs v, Table env n t fs → decFields env fuel t fs vs tfs = .done (v, none) → ∃ vs', v = .struct vs' ∧ DecodesFields env (env.fields t) vs tfs vs') := by
  induction fuel with
  | zero => exact ⟨fun n t a old tv v _ h => (by cases h), fun n t fs vs tfs v _ h => (by cases h)⟩
  | succ fuel ih =>
    refine ⟨fun n t a old tv v hl h => ?_, fun n t fs vs tfs v htab h => ?_⟩
    · cases n with
      | zero => cases hl
      | succ n =>
        have hc := lookup_cases hl
        cases hk : (env.type t).kind with
        | map k e =>
          rw [hk] at hc
          obtain ⟨ka, ea, h1, h2, rfl⟩ := hc
          rw [dec, (lookup_wireType h1).1, (lookup_wireType h2).1] at h
          cases tv with
          | map kw ew tes =>
            rw [decMap] at h
            cases he : old.entries? with
            | none => rw [he] at h; cases h
            | some es =>
              have hold : (old = .mapNil ∨ ∃ es0, old = .map es0) ∧ entriesOf old = es := by
                cases old <;> simp [GoVal.entries?] at he <;> simp [entriesOf, he]
              rw [he] at h
              dsimp only at h
              split at h
              · rename_i hne
                obtain ⟨es', h3, h4⟩ := Dec.andThen_ok h
                cases h4
                refine .map kw ew hk hne hold.1 ?_
                rw [hold.2]
                exact decEntries_ok (fun old tv v => ih.1 n k ka old tv v h1) (fun old tv v => ih.1 n e ea old tv v h2) h3
              · rename_i hne
                obtain rfl : tes = [] := Classical.not_not.1 hne
                cases h
                exact .mapEmpty kw ew hk hold.1
          | _ => cases h
        | slice e =>
          rw [hk] at hc
          rcases hc with ⟨hb, rfl⟩ | ⟨hb, ea, h1, rfl⟩
          · rw [dec] at h
            obtain ⟨o, raw, b, rfl, rfl, rfl⟩ := decLeaf_sound h
            exact .bytes raw b hk hb
          · rw [dec, (lookup_wireType h1).1] at h
            have body : ∀ w tvs, tv = (if (env.type t).isSet then .set w tvs else .list w tvs) →
                ((if old.elems?.isNone = true then .panicked
                else if tvs ≠ [] then (decLoop (fun v tv => dec env fuel ea v tv) (env.zero e) (env.grow t) tvs [] old.slots true).andThen (fun p => GoVal.slice p.1 p.2)
                  fun p => .done (.slice p.1 p.2, none)
                else .done (old.cleared, none)) : Dec GoVal) = .done (v, none) → Decodes env t old tv v := by
              intro w tvs htv h
              split at h
              · cases h
              · rename_i he
                split at h
                · rename_i hne
                  obtain ⟨⟨es, sp⟩, h3, h4⟩ := Dec.andThen_ok h
                  cases h4
                  obtain ⟨es', h5, h6, h7⟩ := decLoop_ok h3 (.inl rfl)
                  obtain rfl : es = es' := by simpa using h5
                  refine .seq w hk hb htv hne ?_ h6 fun i x v hx hv => ih.1 n e ea _ _ _ h1 (h7 i x v hx hv)
                  cases old <;> simp [GoVal.elems?] at he <;> simp
                · rename_i hne
                  obtain rfl : tvs = [] := Classical.not_not.1 hne
                  cases old <;> simp [GoVal.elems?] at he <;> cases h
                  · exact .seqNil w hk hb htv
                  · exact .seqEmpty w hk hb htv
            unfold decSeq at h
            cases hs : (env.type t).isSet <;> rw [hs] at h body <;> cases tv <;> dsimp only at h <;> first | exact body _ _ rfl h | cases h
        | ptr e =>
          rw [hk] at hc
          obtain ⟨ea, h1, rfl⟩ := hc
          rw [dec, (lookup_wireType h1).1] at h
          cases hd : old.deref? (env.zero e) with
          | none => rw [hd] at h; cases h
          | some v0 =>
            rw [hd] at h
            obtain ⟨v', h3, h4⟩ := Dec.andThen_ok h
            cases h4
            have := ih.1 n e ea _ _ _ h1 h3
            cases old <;> simp [GoVal.deref?] at hd
            · subst hd; exact .ptrNil hk this
            · subst hd; exact .ptr hk this
        | struct fs =>
          rw [hk] at hc
          subst hc
          rw [dec] at h
          cases hm : makeStructFields env fuel t with
          | done r =>
            rw [hm] at h
            cases r with
            | error e => cases h
            | ok sfs =>
              have htab := makeStructFields_table env fuel t sfs hm
              cases tv with
              | struct nm tfs =>
                simp only [Out.elim] at h
                cases hf : old.fields? with
                | none => rw [hf] at h; cases h
                | some vals =>
                  rw [hf] at h
                  obtain ⟨vs', rfl, h3⟩ := ih.2 fuel t sfs vals tfs v htab h
                  have hg := htab.good
                  rw [fields_struct hk] at hg h3
                  cases old <;> simp [GoVal.fields?] at hf
                  subst hf
                  exact .struct nm hk hg h3
              | _ => cases h
          | blocked => rw [hm] at h; cases h
          | diverged => rw [hm] at h; cases h
          | panicked => rw [hm] at h; cases h
        | other => rw [hk] at hc; subst hc; rw [dec] at h; cases h
        | bool => rw [hk] at hc; subst hc; rw [dec] at h; obtain ⟨b, rfl, rfl⟩ := decLeaf_sound h; exact .bool b hk
        | float32 => rw [hk] at hc; subst hc; rw [dec] at h; obtain ⟨b, rfl, rfl⟩ := decLeaf_sound h; exact .f32 b hk
        | float64 => rw [hk] at hc; subst hc; rw [dec] at h; obtain ⟨b, rfl, rfl⟩ := decLeaf_sound h; exact .f64 b hk
        | int8 => rw [hk] at hc; subst hc; rw [dec] at h; obtain ⟨b, rfl, rfl⟩ := decLeaf_sound h; exact .byte b (.inl hk)
        | uint8 => rw [hk] at hc; subst hc; rw [dec] at h; obtain ⟨b, rfl, rfl⟩ := decLeaf_sound h; exact .byte b (.inr hk)
        | int16 => rw [hk] at hc; subst hc; rw [dec] at h; obtain ⟨b, rfl, rfl⟩ := decLeaf_sound h; exact .i16 b (.inl hk)
        | uint16 => rw [hk] at hc; subst hc; rw [dec] at h; obtain ⟨b, rfl, rfl⟩ := decLeaf_sound h; exact .i16 b (.inr hk)
        | int32 => rw [hk] at hc; subst hc; rw [dec] at h; obtain ⟨b, rfl, rfl⟩ := decLeaf_sound h; exact .i32 b (.inl hk)
        | uint32 => rw [hk] at hc; subst hc; rw [dec] at h; obtain ⟨b, rfl, rfl⟩ := decLeaf_sound h; exact .i32 b (.inr hk)
        | int64 => rw [hk] at hc; subst hc; rw [dec] at h; obtain ⟨b, rfl, rfl⟩ := decLeaf_sound h; exact .i64 b (.inl hk)
        | uint64 => rw [hk] at hc; subst hc; rw [dec] at h; obtain ⟨b, rfl, rfl⟩ := decLeaf_sound h; exact .i64 b (.inr hk)
        | string => rw [hk] at hc; subst hc; rw [dec] at h; obtain ⟨raw, b, rfl, rfl⟩ := decLeaf_sound h; exact .string raw b hk
        | uuid => rw [hk] at hc; subst hc; rw [dec] at h; obtain ⟨b, rfl, rfl⟩ := decLeaf_sound h; exact .uuid b hk
    · cases tfs with
      | nil => rw [decFields] at h; cases h; exact ⟨vs, rfl, .nil⟩
      | cons tf tfs =>
        rw [decFields] at h
        cases hb : byID fs tf.2.1 with
        | none =>
          rw [hb] at h
          obtain ⟨vs', rfl, h1⟩ := ih.2 n t fs vs tfs v htab h
          exact ⟨vs', rfl, .unknown (htab.byID_none hb) h1⟩
        | some sf =>
          rw [hb] at h
          dsimp only at h
          obtain ⟨hsf, hid⟩ := byID_some hb
          obtain ⟨d, h2, h3, _, h5, h6⟩ := htab.mem sf hsf
          cases hv : vs[sf.index]? with
          | none => rw [hv] at h; cases h
          | some old =>
            rw [hv] at h
            obtain ⟨v', h7, h8⟩ := Dec.andThen_ok h
            obtain ⟨vs', rfl, h9⟩ := ih.2 n t fs _ tfs v htab h8
            rw [hid] at h3
            exact ⟨vs', rfl, .known h2 h3 hv (ih.1 n d.typ sf.a _ _ _ h6 h7) h9⟩

end GoThrift
