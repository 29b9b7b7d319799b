import Verif.Proof.OrderRead
import Verif.Spec.Again

/-!
# Decoding a wire value a second time: lemmas
-/

namespace GoThrift

open Spec Spec.TVal

theorem Spec.KeysEqual.part {env : Env} {t u : TypeId} {tv tw : TVal} (h : KeysEqual env t tv) (hs : ∀ {t' tv'}, Seen env u tw t' tv' → Seen env t tv t' tv') : KeysEqual env u tw :=
  fun t' k e kw ew tes h1 h2 => h t' k e kw ew tes (hs h1) h2

theorem Spec.IdsOnce.part {env : Env} {t u : TypeId} {tv tw : TVal} (h : IdsOnce env t tv) (hs : ∀ {t' tv'}, Seen env u tw t' tv' → Seen env t tv t' tv') : IdsOnce env u tw :=
  fun t' fs n tfs h1 h2 => h t' fs n tfs (hs h1) h2

/-! ## Maps -/

theorem set_mem_same (k v : GoVal) (es : List (GoVal × GoVal)) : (k, v) ∈ setMapIndex k v es := by
  induction es with
  | nil => simp [setMapIndex]
  | cons e es ih =>
    obtain ⟨k', w⟩ := e
    rw [setMapIndex]
    split <;> simp [ih]

theorem set_mem_other {x k : GoVal} (h : x.keyEq k = false) (w v : GoVal) {es : List (GoVal × GoVal)} (hm : (k, v) ∈ es) : (k, v) ∈ setMapIndex x w es := by
  induction es with
  | nil => cases hm
  | cons e es ih =>
    obtain ⟨k', u⟩ := e
    rw [setMapIndex]
    rcases List.mem_cons.1 hm with hm | hm
    · cases hm
      rw [if_neg (by simp [h])]
      simp
    · split <;> simp [ih hm, hm]

theorem set_self {k v : GoVal} (hk : k.keyEq k = true) {es : List (GoVal × GoVal)} (hd : DistinctKeys es) (hm : (k, v) ∈ es) : setMapIndex k v es = es ∧ mapIndex k es = some v := by
  induction es with
  | nil => cases hm
  | cons e es ih =>
    obtain ⟨k', u⟩ := e
    obtain ⟨h1, h2⟩ := List.pairwise_cons.1 hd
    rw [setMapIndex, mapIndex]
    rcases List.mem_cons.1 hm with hm | hm
    · cases hm
      rw [if_pos hk, if_pos hk]
      exact ⟨rfl, rfl⟩
    · have : k.keyEq k' = false := (keyEq_comm k k').trans (h1 _ hm)
      rw [if_neg (by simp [this]), if_neg (by simp [this]), (ih h2 hm).1]
      exact ⟨rfl, (ih h2 hm).2⟩

theorem setAll_distinct (kvs : List (GoVal × GoVal)) {es : List (GoVal × GoVal)} (hd : DistinctKeys es) : DistinctKeys (setAll kvs es) := by
  induction kvs generalizing es with
  | nil => exact hd
  | cons kv kvs ih => exact ih (setMapIndex_distinct hd)

theorem setAll_keeps {kvs : List (GoVal × GoVal)} {kv : GoVal × GoVal} (h : ∀ x ∈ kvs, x.1.keyEq kv.1 = false) {es : List (GoVal × GoVal)} (hm : kv ∈ es) : kv ∈ setAll kvs es := by
  induction kvs generalizing es with
  | nil => exact hm
  | cons x kvs ih => exact ih (fun y hy => h y (by simp [hy])) (set_mem_other (h x (by simp)) _ _ hm)

theorem setAll_mem {kvs : List (GoVal × GoVal)} (hd : DistinctKeys kvs) (es : List (GoVal × GoVal)) : ∀ kv ∈ kvs, kv ∈ setAll kvs es := by
  induction kvs generalizing es with
  | nil => simp
  | cons x kvs ih =>
    obtain ⟨h1, h2⟩ := List.pairwise_cons.1 hd
    intro kv hkv
    rcases List.mem_cons.1 hkv with rfl | hkv
    · exact setAll_keeps (fun y hy => (keyEq_comm _ _).trans (h1 y hy)) (set_mem_same _ _ _)
    · exact ih h2 _ kv hkv

/-- Entries that are there already change nothing. -/
theorem setAll_self {kvs es : List (GoVal × GoVal)} (hk : ∀ kv ∈ kvs, kv.1.keyEq kv.1 = true) (hd : DistinctKeys es) (hm : ∀ kv ∈ kvs, kv ∈ es) : setAll kvs es = es := by
  induction kvs with
  | nil => rfl
  | cons x kvs ih =>
    have := (set_self (hk x (by simp)) hd (hm x (by simp))).1
    show setAll kvs (setMapIndex x.1 x.2 es) = es
    rw [this]
    exact ih (fun kv h => hk kv (by simp [h])) fun kv h => hm kv (by simp [h])

theorem mapIndex_same {k k' : GoVal} (h : SameValue false k k') (es : List (GoVal × GoVal)) : mapIndex k' es = mapIndex k es := by
  induction es with
  | nil => rfl
  | cons e es ih =>
    obtain ⟨x, u⟩ := e
    rw [mapIndex, mapIndex, ih, h.keyEq (.refl x)]

/-! ## Decoding twice -/

/-- Once the wire value has been decoded into a variable, decoding it into the variable again changes nothing. -/
def DecodesAgain (env : Env) (tv : TVal) : Prop :=
  ∀ t old v v', Decodes env t old tv v → Decodes env t v tv v' → Neat env t old → (∀ t', Within env t' t → DistinctIds env t') → KeysApart env t tv → KeysEqual env t tv → IdsOnce env t tv →
    SameValue false v v'

theorem entries_again {env : Env} {k e : TypeId} {old out out' : List (GoVal × GoVal)} {es : List (TVal × TVal)} (h : DecodesEntries env k e old es out) (h' : DecodesEntries env k e out es out')
    (hn : DistinctKeys old ∧ ∀ x ∈ old, Neat env k x.1 ∧ Neat env e x.2) (ih : ∀ te ∈ es, DecodesAgain env te.2) (hdk : ∀ t', Within env t' k → DistinctIds env t')
    (hde : ∀ t', Within env t' e → DistinctIds env t') (hak : ∀ te ∈ es, KeysApart env k te.1) (hae : ∀ te ∈ es, KeysApart env e te.2) (hee : ∀ te ∈ es, KeysEqual env e te.2)
    (hie : ∀ te ∈ es, IdsOnce env e te.2) (hs : ∀ te ∈ es, ∀ x, Decodes env k (env.zero k) te.1 x → x.keyEq x = true)
    (ha : ∀ (i j : Nat) (te te' : TVal × TVal) x y, i < j → es[i]? = some te → es[j]? = some te' → Decodes env k (env.zero k) te.1 x → Decodes env k (env.zero k) te'.1 y → x.keyEq y = false) :
    SameMap out out' := by
  obtain ⟨kvs, h1, rfl, h2⟩ := decodesEntries_all h ha
  obtain ⟨kvs', h3, rfl, h4⟩ := decodesEntries_all h' ha
  have hdist : DistinctKeys kvs := by
    rw [DistinctKeys, List.pairwise_iff_getElem]
    intro i j hi hj hij
    have hi' : i < es.length := by omega
    have hj' : j < es.length := by omega
    exact ha i j _ _ _ _ hij (List.getElem?_eq_getElem hi') (List.getElem?_eq_getElem hj') (h2 i _ _ (List.getElem?_eq_getElem hi') (List.getElem?_eq_getElem hi)).1
      (h2 j _ _ (List.getElem?_eq_getElem hj') (List.getElem?_eq_getElem hj)).1
  have hself : ∀ kv ∈ kvs, kv.1.keyEq kv.1 = true := fun kv hkv => by
    obtain ⟨i, hi⟩ := List.getElem?_of_mem hkv
    obtain ⟨te, hte⟩ := pair_at h1 hi
    exact hs te (List.mem_of_getElem? hte) _ (h2 i te kv hte hi).1
  have hall := setAll_distinct kvs hn.1
  have hmem := setAll_mem hdist old
  have := (SameMap.refl (setAll kvs old)).setAll hall (kvs := kvs) (kvs' := kvs') (h3.trans h1.symm) fun i kv kv' hi hj => by
    obtain ⟨te, hte⟩ := pair_at h1 hi
    have hm := List.mem_of_getElem? hte
    have hkv := List.mem_of_getElem? hi
    obtain ⟨d1, d2⟩ := h2 i te kv hte hi
    obtain ⟨d3, d4⟩ := h4 i te kv' hte hj
    have hk : SameValue false kv.1 kv'.1 := decodesAlike env te.1 k _ _ _ _ _ d1 d3 (.refl _) (.refl _) (neat_zero env k) hdk (hak te hm)
    rw [mapIndex_same hk, (set_self (hself kv hkv) hall (hmem kv hkv)).2] at d4
    exact ⟨hk, ih te hm e _ _ _ d2 d4 (neat_slot (fun x hx => (hn.2 x hx).2) _) hde (hae te hm) (hee te hm) (hie te hm)⟩
  rwa [setAll_self hself hall hmem] at this

/-- What the fields hold after the decoding, if no id comes twice. -/
theorem decodesFields_at {env : Env} {fs : List FieldDecl} {vs out : List GoVal} {tfs : List (Bytes × BitVec 16 × TVal)} (h : DecodesFields env fs vs tfs out)
    (hu : ∀ (i j : Nat) (f g : FieldDecl) (id : BitVec 16) (r r' : Bool), fs[i]? = some f → fs[j]? = some g → Declares env f id r → Declares env g id r' → i = j)
    (ho : ∀ (i j : Nat) (tf tf' : Bytes × BitVec 16 × TVal) f r, i < j → tfs[i]? = some tf → tfs[j]? = some tf' → f ∈ fs → Declares env f tf.2.1 r → tf.2.1 ≠ tf'.2.1) :
    out.length = vs.length ∧ ∀ i : Nat, (∃ f, fs[i]? = some f ∧ ∃ (j : Nat) (tf : Bytes × BitVec 16 × TVal) (r : Bool) (old v : GoVal), tfs[j]? = some tf ∧ Declares env f tf.2.1 r ∧ vs[i]? = some old ∧ out[i]? = some v ∧ Decodes env f.typ old tf.2.2 v) ∨
      (out[i]? = vs[i]? ∧ ∀ f, fs[i]? = some f → ∀ tf ∈ tfs, ∀ r, ¬ Declares env f tf.2.1 r) := by
  induction tfs generalizing vs with
  | nil =>
    cases h
    exact ⟨rfl, fun i => .inr ⟨rfl, fun f _ tf h => by cases h⟩⟩
  | cons tf tfs ih =>
    have ho' : ∀ (i j : Nat) (tf tf' : Bytes × BitVec 16 × TVal) f r, i < j → tfs[i]? = some tf → tfs[j]? = some tf' → f ∈ fs → Declares env f tf.2.1 r → tf.2.1 ≠ tf'.2.1 :=
      fun i j tf tf' f r hij h1 h2 => ho (i + 1) (j + 1) tf tf' f r (by omega) h1 h2
    cases h with
    | unknown h1 h =>
      obtain ⟨hl, h2⟩ := ih h ho'
      refine ⟨hl, fun i => ?_⟩
      rcases h2 i with ⟨f, h3, j, tf', r, old, v, h4, h5⟩ | ⟨h3, h4⟩
      · exact .inl ⟨f, h3, j + 1, tf', r, old, v, h4, h5⟩
      · refine .inr ⟨h3, fun f hf tf' htf r => ?_⟩
        rcases List.mem_cons.1 htf with rfl | htf
        · exact h1 f (List.mem_of_getElem? hf) r
        · exact h4 f hf tf' htf r
    | @known _ _ _ _ _ i0 f r old v h1 h2 h3 h4 h =>
      obtain ⟨hl, h5⟩ := ih h ho'
      refine ⟨by simpa using hl, fun i => ?_⟩
      rcases h5 i with ⟨f', h6, j, tf', r', old', v', h7, h8, h9, h10, h11⟩ | ⟨h6, h7⟩
      · by_cases hi : i0 = i
        · subst hi
          rw [h1] at h6
          cases h6
          exact absurd (h2.unique h8).1 (ho 0 (j + 1) tf tf' f r (by omega) rfl h7 (List.mem_of_getElem? h1) h2)
        · rw [List.getElem?_set_ne hi] at h9
          exact .inl ⟨f', h6, j + 1, tf', r', old', v', h7, h8, h9, h10, h11⟩
      · by_cases hi : i0 = i
        · subst hi
          rw [List.getElem?_set_self (lt_at h3)] at h6
          exact .inl ⟨f, h1, 0, tf, r, old, v, rfl, h2, h3, h6, h4⟩
        · rw [List.getElem?_set_ne hi] at h6
          refine .inr ⟨h6, fun f' hf' tf' htf r' hdc => ?_⟩
          rcases List.mem_cons.1 htf with rfl | htf
          · exact hi (hu i0 i f f' _ r r' h1 hf' h2 hdc)
          · exact h7 f' hf' tf' htf r' hdc

theorem fields_again {env : Env} {fs : List FieldDecl} {vs out out' : List GoVal} {tfs : List (Bytes × BitVec 16 × TVal)} (h : DecodesFields env fs vs tfs out) (h' : DecodesFields env fs out tfs out')
    (hn : ∀ (i : Nat) f v, fs[i]? = some f → vs[i]? = some v → Neat env f.typ v) (ih : ∀ tf ∈ tfs, DecodesAgain env tf.2.2)
    (hd : ∀ f ∈ fs, ∀ t', Within env t' f.typ → DistinctIds env t')
    (hu : ∀ (i j : Nat) (f g : FieldDecl) (id : BitVec 16) (r r' : Bool), fs[i]? = some f → fs[j]? = some g → Declares env f id r → Declares env g id r' → i = j)
    (ho : ∀ (i j : Nat) (tf tf' : Bytes × BitVec 16 × TVal) f r, i < j → tfs[i]? = some tf → tfs[j]? = some tf' → f ∈ fs → Declares env f tf.2.1 r → tf.2.1 ≠ tf'.2.1)
    (ha : ∀ tf ∈ tfs, ∀ f ∈ fs, ∀ r, Declares env f tf.2.1 r → KeysApart env f.typ tf.2.2 ∧ KeysEqual env f.typ tf.2.2 ∧ IdsOnce env f.typ tf.2.2) :
    out'.length = out.length ∧ ∀ (i : Nat) x x', out[i]? = some x → out'[i]? = some x' → SameValue false x x' := by
  obtain ⟨_, h1⟩ := decodesFields_at h hu ho
  obtain ⟨hl, h2⟩ := decodesFields_at h' hu ho
  refine ⟨hl, fun i x x' hx hx' => ?_⟩
  rcases h2 i with ⟨f, h3, j, tf, r, old, v, h4, h5, h6, h7, h8⟩ | ⟨h3, _⟩
  · rw [hx] at h6; cases h6
    rw [hx'] at h7; cases h7
    rcases h1 i with ⟨f', g3, j', tf', r', old', v', g4, g5, g6, g7, g8⟩ | ⟨_, g⟩
    · rw [h3] at g3; cases g3
      rw [hx] at g7; cases g7
      obtain ⟨e, _⟩ := h5.unique g5
      have hm := List.mem_of_getElem? h3
      have htf := List.mem_of_getElem? h4
      obtain rfl : j = j' := by
        rcases Nat.lt_trichotomy j j' with hj | hj | hj
        · exact absurd e (ho j j' tf tf' f r hj h4 g4 hm h5)
        · exact hj
        · exact absurd e.symm (ho j' j tf' tf f r' hj g4 h4 hm g5)
      rw [h4] at g4; cases g4
      obtain ⟨a1, a2, a3⟩ := ha tf htf f hm r h5
      exact ih tf htf f.typ _ _ _ g8 h8 (hn i f _ h3 g6) (hd f hm) a1 a2 a3
    · exact absurd h5 (g f h3 tf (List.mem_of_getElem? h4) r)
  · rw [hx, hx'] at h3
    cases h3
    exact .refl _

theorem decodesAgain_of {env : Env} {tv : TVal} (h : ∀ t old v v', (∀ e, (env.type t).kind ≠ .ptr e) → Decodes env t old tv v → Decodes env t v tv v' → Neat env t old →
    (∀ t', Within env t' t → DistinctIds env t') → KeysApart env t tv → KeysEqual env t tv → IdsOnce env t tv → SameValue false v v') : DecodesAgain env tv := by
  intro t old v v' h1 h2 hn hd ha he hi
  obtain ⟨n, hp⟩ := h1.wireType.ptrs
  induction n generalizing t old v v' with
  | zero => exact h t old v v' hp h1 h2 hn hd ha he hi
  | succ n ih =>
    obtain ⟨e, hk, hp⟩ := hp
    have hd' : ∀ t', Within env t' e → DistinctIds env t' := fun t' ht' => hd t' (.step ht' (partOf_ptr hk))
    have inv : ∀ {old v : GoVal} {tv : TVal}, Decodes env t old tv v → (∃ o x, old = .ptr o ∧ v = .ptr x ∧ Decodes env e o tv x) ∨ (∃ x, old = .ptrNil ∧ v = .ptr x ∧ Decodes env e (env.zero e) tv x) := by
      intro old v tv h
      cases h with
      | ptr h1 h2 => rw [hk] at h1; cases h1; exact .inl ⟨_, _, rfl, rfl, h2⟩
      | ptrNil h1 h2 => rw [hk] at h1; cases h1; exact .inr ⟨_, rfl, rfl, h2⟩
      | _ => simp_all
    have go : ∀ {o x : GoVal}, v = .ptr x → Neat env e o → Decodes env e o tv x → SameValue false v v' := by
      rintro o x rfl ho d
      rcases inv h2 with ⟨o', x', h3, rfl, d'⟩ | ⟨x', h3, _⟩
      · cases h3
        exact .ptr (ih e o x x' d d' ho hd' (ha.part fun h => .ptr hk h) (he.part fun h => .ptr hk h) (hi.part fun h => .ptr hk h) hp)
      · cases h3
    rcases inv h1 with ⟨o, x, rfl, e1, d⟩ | ⟨x, rfl, e1, d⟩
    · refine go e1 ?_ d
      have := hn.2
      rwa [elemType_ptr hk] at this
    · exact go e1 (neat_zero env e) d

/-- Slices: the elements are decoded into zero values. -/
theorem seq_again {env : Env} {t e : TypeId} {w : WType} {old v v' : GoVal} {tv : TVal} {tvs : List TVal} (hk : (env.type t).kind = .slice e) (hb : (env.type t).asBytes = false)
    (htv : tv = (if (env.type t).isSet then .set w tvs else .list w tvs)) (h : Decodes env t old tv v) (h' : Decodes env t v tv v')
    (ih : ∀ (i : Nat) a x x', tvs[i]? = some a → Decodes env e (env.zero e) a x → Decodes env e (env.zero e) a x' → SameValue false x x') : SameValue false v v' := by
  have inj : ∀ {b : Bool} {w1 w2 : WType} {l1 l2 : List TVal}, (if b then TVal.set w1 l1 else .list w1 l1) = (if b then .set w2 l2 else .list w2 l2) → l1 = l2 := by
    intro b w1 w2 l1 l2 h
    cases b <;> simp at h <;> exact h.2
  have inv : ∀ {old v : GoVal}, Decodes env t old tv v →
      (tvs = [] ∧ old = .sliceNil ∧ v = .sliceNil) ∨ (tvs = [] ∧ ∃ es sp, old = .slice es sp ∧ v = .slice [] (es ++ sp)) ∨
      ∃ es sp, tvs ≠ [] ∧ v = .slice es sp ∧ es.length = tvs.length ∧ ∀ (i : Nat) x v, tvs[i]? = some x → es[i]? = some v → Decodes env e (env.zero e) x v := by
    intro old v h
    cases h with
    | seqNil w2 _ _ h3 => exact .inl ⟨inj (htv.symm.trans h3), rfl, rfl⟩
    | seqEmpty w2 _ _ h3 => exact .inr (.inl ⟨inj (htv.symm.trans h3), _, _, rfl, rfl⟩)
    | @seq _ e2 w2 _ tvs2 _ es sp h1 _ h3 h4 _ h6 h7 =>
      obtain rfl := inj (htv.symm.trans h3)
      rw [hk] at h1
      cases h1
      exact .inr (.inr ⟨es, sp, h4, rfl, h6, h7⟩)
    | ptr h1 => rw [hk] at h1; cases h1
    | ptrNil h1 => rw [hk] at h1; cases h1
    | mapEmpty _ _ h1 => rw [hk] at h1; cases h1
    | map _ _ h1 => rw [hk] at h1; cases h1
    | struct _ h1 => rw [hk] at h1; cases h1
    | bytes _ _ _ h2 => rw [hb] at h2; cases h2
    | _ => simp_all
  rcases inv h with ⟨h0, _, rfl⟩ | ⟨h0, es, sp, _, rfl⟩ | ⟨es, sp, hne, rfl, h1, h2⟩
  · rcases inv h' with ⟨_, _, rfl⟩ | ⟨_, es, sp, h3, _⟩ | ⟨es, sp, hne, _⟩
    · exact .refl _
    · cases h3
    · exact absurd h0 hne
  · rcases inv h' with ⟨_, h3, _⟩ | ⟨_, es', sp', _, rfl⟩ | ⟨es, sp, hne, _⟩
    · cases h3
    · exact .slice rfl fun i x x' h1 => by cases h1
    · exact absurd h0 hne
  · rcases inv h' with ⟨h0, _⟩ | ⟨h0, _⟩ | ⟨es', sp', hne', rfl, h3, h4⟩
    · exact absurd h0 hne
    · exact absurd h0 hne
    · refine .slice (by omega) fun i x x' hx hx' => ?_
      obtain ⟨a, ha⟩ := pair_at h1 hx
      exact ih i a x x' ha (h2 i a x ha hx) (h4 i a x' ha hx')

theorem decodesAgain (env : Env) (tv : TVal) : DecodesAgain env tv := by
  have leaf : ∀ {tv : TVal}, (∀ t old v v', (∀ e, (env.type t).kind ≠ .ptr e) → Decodes env t old tv v → Decodes env t v tv v' → v = v') → DecodesAgain env tv :=
    fun h => decodesAgain_of fun t old v v' hp d d' _ _ _ _ _ => by
      obtain rfl := h t old v v' hp d d'
      exact .refl _
  induction tv using TVal.ind with
  | hstruct n tfs ih =>
    refine decodesAgain_of fun t old v v' hp d d' hn hd ha he hi => ?_
    cases d with
    | ptr hk => exact absurd hk (hp _)
    | ptrNil hk => exact absurd hk (hp _)
    | seqNil _ _ _ h => split at h <;> cases h
    | seqEmpty _ _ _ h => split at h <;> cases h
    | seq _ _ _ h => split at h <;> cases h
    | @struct _ gs _ _ vs out hk _ hf =>
      cases d' with
      | seq _ _ _ h => split at h <;> cases h
      | @struct _ gs' _ _ _ out' hk' _ hf' =>
        rw [hk] at hk'
        cases hk'
        have hn' := (everywhereFields_iff _ _).1 hn.2
        rw [fields_struct hk] at hn'
        have hin : ∀ f ∈ gs, PartOf env f.typ t := fun f hf => by
          obtain ⟨i, hi⟩ := List.getElem?_of_mem hf
          exact partOf_field (i := i) (by rw [fields_struct hk]; exact hi)
        have hdt := hd t (.refl t)
        unfold DistinctIds at hdt
        rw [fields_struct hk] at hdt
        obtain ⟨h1, h2⟩ := fields_again hf hf' hn' ih (fun f hf t' ht' => hd t' (.step ht' (hin f hf))) hdt (hi t gs n tfs (.refl _ _) hk)
          fun tf htf f hf r hdc => ⟨ha.part fun h => .field hk htf hf hdc h, he.part fun h => .field hk htf hf hdc h, hi.part fun h => .field hk htf hf hdc h⟩
        exact .struct h1 h2
  | hmap kt vt es ih =>
    refine decodesAgain_of fun t old v v' hp d d' hn hd ha he hi => ?_
    cases d with
    | ptr hk => exact absurd hk (hp _)
    | ptrNil hk => exact absurd hk (hp _)
    | seqNil _ _ _ h => split at h <;> cases h
    | seqEmpty _ _ _ h => split at h <;> cases h
    | seq _ _ _ h => split at h <;> cases h
    | mapEmpty _ _ hk h0 =>
      cases d' with
      | ptr hk => exact absurd hk (hp _)
      | ptrNil hk => exact absurd hk (hp _)
      | seqNil _ _ _ h => split at h <;> cases h
      | seqEmpty _ _ _ h => split at h <;> cases h
      | seq _ _ _ h => split at h <;> cases h
      | mapEmpty => exact .refl _
      | map _ _ _ hne => exact absurd rfl hne
    | @map _ k e _ _ _ _ out hk hne h0 hd1 =>
      cases d' with
      | seq _ _ _ h => split at h <;> cases h
      | mapEmpty => exact absurd rfl hne
      | @map _ k' e' _ _ _ _ out' hk' _ h0' hd2 =>
        rw [hk] at hk'
        cases hk'
        have pk : PartOf env k t := partOf_key hk
        have pe : PartOf env e t := partOf_value hk
        exact (entries_again hd1 hd2 (neat_entries hk h0 hn) (fun te h => (ih te h).2) (fun t' ht' => hd t' (.step ht' pk)) (fun t' ht' => hd t' (.step ht' pe))
          (fun te hte => ha.part fun h => .key hk hte h) (fun te hte => ha.part fun h => .value hk hte h) (fun te hte => he.part fun h => .value hk hte h)
          (fun te hte => hi.part fun h => .value hk hte h) (he t k e kt vt es (.refl _ _) hk) (ha t k e kt vt es (.refl _ _) hk)).value
  | hset et es ih =>
    refine decodesAgain_of fun t old v v' hp d d' hn hd ha he hi => ?_
    obtain ⟨e, hk, hs⟩ : ∃ e, (env.type t).kind = .slice e ∧ (env.type t).isSet = true := by
      have := d.wireType
      generalize hw : TVal.ty (.set et es) = w at this
      cases this <;> first | exact absurd hw (by simp [TVal.ty]; decide) | (rename_i h1 h2; exact ⟨_, h1, h2⟩) | (rename_i h1 _; exact absurd h1 (hp _))
    have hb : (env.type t).asBytes = false := by
      cases d with
      | ptr hk => exact absurd hk (hp _)
      | ptrNil hk => exact absurd hk (hp _)
      | seqNil _ _ h => exact h
      | seqEmpty _ _ h => exact h
      | seq _ _ h => exact h
    have pe : PartOf env e t := partOf_slice ⟨hk, hb⟩
    exact seq_again hk hb (w := et) (by rw [hs]; rfl) d d' fun i a x x' h1 d1 d2 =>
      decodesAlike env a e _ _ _ _ _ d1 d2 (.refl _) (.refl _) (neat_zero env e) (fun t' ht' => hd t' (.step ht' pe)) (ha.part fun h => .set hk (List.mem_of_getElem? h1) h)
  | hlist et es ih =>
    refine decodesAgain_of fun t old v v' hp d d' hn hd ha he hi => ?_
    obtain ⟨e, hk, hs, hb⟩ : ∃ e, (env.type t).kind = .slice e ∧ (env.type t).isSet = false ∧ (env.type t).asBytes = false := by
      have := d.wireType
      generalize hw : TVal.ty (.list et es) = w at this
      cases this <;> first | exact absurd hw (by simp [TVal.ty]; decide) | (rename_i h1 h2 h3; exact ⟨_, h1, h2, h3⟩) | (rename_i h1 _; exact absurd h1 (hp _))
    have pe : PartOf env e t := partOf_slice ⟨hk, hb⟩
    exact seq_again hk hb (w := et) (by rw [hs]; rfl) d d' fun i a x x' h1 d1 d2 =>
      decodesAlike env a e _ _ _ _ _ d1 d2 (.refl _) (.refl _) (neat_zero env e) (fun t' ht' => hd t' (.step ht' pe)) (ha.part fun h => .list hk (List.mem_of_getElem? h1) h)
  | hstr r b =>
    refine leaf fun t old v v' hp d d' => ?_
    cases d with
    | ptr hk => exact absurd hk (hp _)
    | ptrNil hk => exact absurd hk (hp _)
    | seqNil _ _ _ h => split at h <;> cases h
    | seqEmpty _ _ _ h => split at h <;> cases h
    | seq _ _ _ h => split at h <;> cases h
    | string _ _ hk =>
      cases d' with
      | string => rfl
      | seq _ _ _ h => split at h <;> cases h
    | @bytes _ _ o _ _ hk =>
      generalize hv : GoVal.bytes (if o = none ∧ b = [] then none else some b) = v at d'
      cases d' with
      | string _ _ hk' => rw [hk] at hk'; cases hk'
      | bytes _ _ hk' =>
        cases hv
        by_cases h : o = none ∧ b = []
        · simp [h]
        · simp [h]
      | ptr hk => exact absurd hk (hp _)
      | ptrNil hk => exact absurd hk (hp _)
      | seqNil _ _ _ h => split at h <;> cases h
      | seqEmpty _ _ _ h => split at h <;> cases h
      | seq _ _ _ h => split at h <;> cases h
  | hdouble x =>
    refine leaf fun t old v v' hp d d' => ?_
    cases d with
    | ptr hk => exact absurd hk (hp _)
    | ptrNil hk => exact absurd hk (hp _)
    | seqNil _ _ _ h => split at h <;> cases h
    | seqEmpty _ _ _ h => split at h <;> cases h
    | seq _ _ _ h => split at h <;> cases h
    | f32 _ hk =>
      cases d' with
      | f32 => rfl
      | f64 _ hk' => rw [hk] at hk'; cases hk'
      | seq _ _ _ h => split at h <;> cases h
    | f64 _ hk =>
      cases d' with
      | f64 => rfl
      | f32 _ hk' => rw [hk] at hk'; cases hk'
      | seq _ _ _ h => split at h <;> cases h
  | _ =>
    refine leaf fun t old v v' hp d d' => ?_
    cases d <;> first
      | (rename_i hk _; exact absurd hk (hp _))
      | (rename_i h; split at h <;> cases h)
      | (rename_i h _ _ _ _; split at h <;> cases h)
      | (cases d' <;> first
        | rfl
        | (rename_i hk _; exact absurd hk (hp _))
        | (rename_i h; split at h <;> cases h)
        | (rename_i h _ _ _ _; split at h <;> cases h))

/-! ## What Marshal writes can be received twice -/

theorem everywhere_elem {env : Env} {P : TypeId → GoVal → Prop} {t e : TypeId} {v x : GoVal} {i : Nat} (h : Everywhere env P t v) (hk : (env.type t).kind = .slice e) (hx : (elemsOf v)[i]? = some x) :
    Everywhere env P e x := by
  cases v with
  | slice es sp =>
    have := (everywhereElems_iff _).1 h.2 x (List.mem_of_getElem? hx)
    rwa [elemType_slice hk] at this
  | _ => simp [elemsOf] at hx

theorem zero_not_map (env : Env) (t : TypeId) (es : List (GoVal × GoVal)) : env.zero t ≠ .map es := by
  intro h
  have hk := env.zero_eq t
  rw [h] at hk
  cases hkind : (env.type t).kind <;> rw [hkind, Kind.zero] at hk <;> first | cases hk | (split at hk <;> cases hk)

mutual
theorem Everywhere.and {env : Env} {P Q : TypeId → GoVal → Prop} : ∀ (t : TypeId) (v : GoVal), Everywhere env P t v → Everywhere env Q t v → Everywhere env (fun t v => P t v ∧ Q t v) t v
  | t, .struct vs, h, h' => ⟨⟨h.1, h'.1⟩, Everywhere.and_fields _ vs h.2 h'.2⟩
  | t, .map es, h, h' => ⟨⟨h.1, h'.1⟩, Everywhere.and_entries _ _ es h.2 h'.2⟩
  | t, .slice es sp, h, h' => ⟨⟨h.1, h'.1⟩, Everywhere.and_elems _ es h.2 h'.2⟩
  | t, .ptr v, h, h' => ⟨⟨h.1, h'.1⟩, Everywhere.and _ v h.2 h'.2⟩
  | _, .bool _, h, h' | _, .f32 _, h, h' | _, .f64 _, h, h' | _, .i8 _, h, h' | _, .i16 _, h, h' | _, .i32 _, h, h' | _, .i64 _, h, h' | _, .str _, h, h' | _, .bytes _, h, h'
  | _, .uuid _, h, h' | _, .sliceNil, h, h' | _, .mapNil, h, h' | _, .ptrNil, h, h' | _, .other _, h, h' => ⟨h, h'⟩
theorem Everywhere.and_fields {env : Env} {P Q : TypeId → GoVal → Prop} : ∀ (fs : List FieldDecl) (vs : List GoVal), EverywhereFields env P fs vs → EverywhereFields env Q fs vs →
    EverywhereFields env (fun t v => P t v ∧ Q t v) fs vs
  | f :: fs, v :: vs, h, h' => ⟨Everywhere.and f.typ v h.1 h'.1, Everywhere.and_fields fs vs h.2 h'.2⟩
  | [], _, _, _ => by simp [EverywhereFields]
  | _ :: _, [], _, _ => by simp [EverywhereFields]
theorem Everywhere.and_entries {env : Env} {P Q : TypeId → GoVal → Prop} : ∀ (k e : TypeId) (es : List (GoVal × GoVal)), EverywhereEntries env P k e es → EverywhereEntries env Q k e es →
    EverywhereEntries env (fun t v => P t v ∧ Q t v) k e es
  | _, _, [], _, _ => trivial
  | k, e, (x, y) :: es, h, h' => ⟨Everywhere.and k x h.1 h'.1, Everywhere.and e y h.2.1 h'.2.1, Everywhere.and_entries k e es h.2.2 h'.2.2⟩
theorem Everywhere.and_elems {env : Env} {P Q : TypeId → GoVal → Prop} : ∀ (e : TypeId) (es : List GoVal), EverywhereElems env P e es → EverywhereElems env Q e es →
    EverywhereElems env (fun t v => P t v ∧ Q t v) e es
  | _, [], _, _ => trivial
  | e, x :: es, h, h' => ⟨Everywhere.and e x h.1 h'.1, Everywhere.and_elems e es h.2 h'.2⟩
end

/-- The parts of what a value is written as are what parts of it are written as. -/
theorem seen_rep_all {env : Env} {P : TypeId → GoVal → Prop} (hz : ∀ t, Everywhere env P t (env.zero t)) {t t' : TypeId} {v : GoVal} {tv tv' : TVal} (h : Seen env t tv t' tv') (hr : Rep env t v tv) (hs : Everywhere env P t v)
    (hd : ∀ t', Within env t' t → DistinctIds env t') : ∃ v', Rep env t' v' tv' ∧ Everywhere env P t' v' ∧ ∀ t'', Within env t'' t' → DistinctIds env t'' := by
  induction h generalizing v with
  | refl => exact ⟨v, hr, hs, hd⟩
  | @ptr t e t' tv tv' hk _ ih =>
    have hd' : ∀ t', Within env t' e → DistinctIds env t' := fun t' ht' => hd t' (.step ht' (partOf_ptr hk))
    cases hr with
    | leaf h => cases h <;> simp_all
    | ptr hk' hr =>
      rw [hk] at hk'
      cases hk'
      have := hs.2
      rw [elemType_ptr hk] at this
      exact ih hr this hd'
    | ptrNil hk' hr =>
      rw [hk] at hk'
      cases hk'
      exact ih hr (hz e) hd'
    | set hk' => rw [hk] at hk'; cases hk'
    | list hk' => rw [hk] at hk'; cases hk'
    | map hk' => rw [hk] at hk'; cases hk'
    | struct _ hk' => rw [hk] at hk'; cases hk'
  | @set t e t' w tv tv' tvs hk hm _ ih =>
    cases hr with
    | leaf h => cases h
    | ptr hk' => rw [hk] at hk'; cases hk'
    | ptrNil hk' => rw [hk] at hk'; cases hk'
    | set hk' hset _ _ hl hr =>
      rw [hk] at hk'
      cases hk'
      obtain ⟨i, hi⟩ := List.getElem?_of_mem hm
      obtain ⟨x, hx⟩ := pair_at hl hi
      exact ih (hr i x tv hx hi) (everywhere_elem hs hk hx) fun t' ht' => hd t' (.step ht' (partOf_slice ⟨hk, set_not_bytes hset⟩))
  | @list t e t' w tv tv' tvs hk hm _ ih =>
    cases hr with
    | leaf h => cases h
    | ptr hk' => rw [hk] at hk'; cases hk'
    | ptrNil hk' => rw [hk] at hk'; cases hk'
    | list hk' _ hb _ _ hl hr =>
      rw [hk] at hk'
      cases hk'
      obtain ⟨i, hi⟩ := List.getElem?_of_mem hm
      obtain ⟨x, hx⟩ := pair_at hl hi
      exact ih (hr i x tv hx hi) (everywhere_elem hs hk hx) fun t' ht' => hd t' (.step ht' (partOf_slice ⟨hk, hb⟩))
  | @key t k e t' kw ew te tv' tes hk hm _ ih =>
    obtain ⟨x, h1, _, h2, _⟩ := entry hk hm hr hs
    exact ih h1 h2 fun t' ht' => hd t' (.step ht' (partOf_key hk))
  | @value t k e t' kw ew te tv' tes hk hm _ ih =>
    obtain ⟨x, _, h1, _, h2⟩ := entry hk hm hr hs
    exact ih h1 h2 fun t' ht' => hd t' (.step ht' (partOf_value hk))
  | @field t t' fs n tf tv' tfs f required hk hm hf hdc _ ih =>
    cases hr with
    | leaf h => cases h
    | ptr hk' => rw [hk] at hk'; cases hk'
    | ptrNil hk' => rw [hk] at hk'; cases hk'
    | @struct _ gs vs _ order hk' hl _ _ _ _ hord _ hlen hname hrep =>
      rw [hk] at hk'
      cases hk'
      obtain ⟨j, hj⟩ := List.getElem?_of_mem hm
      obtain ⟨i, hi⟩ := pair_at hlen hj
      obtain ⟨g, w, hg, hw, _⟩ := (hord i).1 (List.mem_of_getElem? hi)
      obtain ⟨_, r, hdg⟩ := hname j i tf g hi hj hg
      obtain ⟨i', hi'⟩ := List.getElem?_of_mem hf
      have hs2 := (everywhereFields_iff _ _).1 hs.2
      rw [fields_struct hk] at hs2
      have hdt := hd t (.refl t)
      unfold DistinctIds at hdt
      rw [fields_struct hk] at hdt
      obtain rfl := hdt i i' g f _ r required hg hi' hdg hdc
      rw [hg] at hi'
      cases hi'
      exact ih (hrep j i tf f w hi hj hg hw) (hs2 i f w hg hw) fun t' ht' => hd t' (.step ht' (by rw [PartOf, hk]; exact ⟨f, hf, rfl⟩))
where
  entry {env : Env} {P : TypeId → GoVal → Prop} {t k e : TypeId} {v : GoVal} {kw ew : WType} {te : TVal × TVal} {tes : List (TVal × TVal)} (hk : (env.type t).kind = .map k e) (hm : te ∈ tes)
      (hr : Rep env t v (.map kw ew tes)) (hs : Everywhere env P t v) :
      ∃ x : GoVal × GoVal, Rep env k x.1 te.1 ∧ Rep env e x.2 te.2 ∧ Everywhere env P k x.1 ∧ Everywhere env P e x.2 := by
    cases hr with
    | leaf h => cases h
    | ptr hk' => rw [hk] at hk'; cases hk'
    | ptrNil hk' => rw [hk] at hk'; cases hk'
    | map hk' hv _ _ hl hr1 hr2 =>
      rw [hk] at hk'
      cases hk'
      obtain ⟨i, hi⟩ := List.getElem?_of_mem hm
      obtain ⟨x, hx⟩ := pair_at hl hi
      refine ⟨x, hr1 i x te hx hi, hr2 i x te hx hi, ?_⟩
      rcases hv with rfl | ⟨es, rfl⟩
      · cases hx
      · have := (everywhereEntries_iff _).1 hs.2 x (List.mem_of_getElem? hx)
        rwa [keyType_map hk, elemType_map hk] at this

theorem keysEqual_rep {env : Env} {t : TypeId} {v : GoVal} {tv : TVal} (hr : Rep env t v tv) (hs : KeysSurvive env t v) (he : KeysStayEqual env t v)
    (hd : ∀ t', Within env t' t → DistinctIds env t') : KeysEqual env t tv := by
  intro t' k e kw ew tes hseen hk te hte x hx
  obtain ⟨v', hr', hs', hd'⟩ := seen_rep_all (P := fun t v => (match v with
    | .map es => ∀ (i j : Nat) (x y : GoVal × GoVal) (x' y' : GoVal), i < j → es[i]? = some x → es[j]? = some y →
      RoundTrip env (env.keyType t) x.1 x' → RoundTrip env (env.keyType t) y.1 y' → y'.keyEq x' = false
    | _ => True) ∧ ∀ es, v = .map es → ∀ x ∈ es, ∀ x', RoundTrip env (env.keyType t) x.1 x' → x'.keyEq x' = true)
    (fun t => Everywhere.and t _ (keysSurvive_zero env t) (everywhere_zero (fun t es h => absurd h (zero_not_map env t es)) t)) hseen hr (Everywhere.and t v hs he) hd
  · cases hr' with
    | leaf h => cases h
    | ptr hk' => rw [hk] at hk'; cases hk'
    | ptrNil hk' => rw [hk] at hk'; cases hk'
    | map hk' hv _ _ hl hr1 hr2 =>
      rw [hk] at hk'
      cases hk'
      obtain ⟨i, hi⟩ := List.getElem?_of_mem hte
      obtain ⟨a, ha⟩ := pair_at hl hi
      rcases hv with rfl | ⟨es, rfl⟩
      · cases ha
      · have h1 := (everywhereEntries_iff _).1 hs'.2
        rw [keyType_map hk, elemType_map hk] at h1
        have h2 := hs'.1.2 es rfl a (List.mem_of_getElem? ha) x
        simp only [keyType_map hk] at h2
        exact h2 (decodes_roundTrip (hr1 i a te ha hi) hx (Everywhere.imp (fun _ _ h => h.1) _ _ (h1 a (List.mem_of_getElem? ha)).1) fun t' ht' => hd' t' (.step ht' (partOf_key hk)))

theorem idsOnce_rep {env : Env} {t : TypeId} {v : GoVal} {tv : TVal} (hr : Rep env t v tv) (hs : KeysSurvive env t v) (hd : ∀ t', Within env t' t → DistinctIds env t') : IdsOnce env t tv := by
  have top : ∀ t, Everywhere env (fun _ _ => True) t (env.zero t) := everywhere_zero fun _ => trivial
  intro t' fs n tfs hseen hk i j tf tf' f r hij hi hj hf hdc he
  obtain ⟨v', hr', _, hd'⟩ := seen_rep_all (P := fun _ _ => True) top hseen hr (Everywhere.imp (fun _ _ _ => trivial) t v hs) hd
  cases hr' with
  | leaf h => cases h
  | ptr hk' => rw [hk] at hk'; cases hk'
  | ptrNil hk' => rw [hk] at hk'; cases hk'
  | @struct _ gs vs _ order hk' hl _ _ _ hnd hord _ hlen hname hrep =>
    rw [hk] at hk'
    cases hk'
    obtain ⟨a, ha⟩ := pair_at hlen hi
    obtain ⟨b, hb⟩ := pair_at hlen hj
    obtain ⟨g, w, hg, hw, _⟩ := (hord a).1 (List.mem_of_getElem? ha)
    obtain ⟨g', w', hg', hw', _⟩ := (hord b).1 (List.mem_of_getElem? hb)
    obtain ⟨_, r1, hdg⟩ := hname i a tf g ha hi hg
    obtain ⟨_, r2, hdg'⟩ := hname j b tf' g' hb hj hg'
    have hdt := hd' t' (.refl t')
    unfold DistinctIds at hdt
    rw [fields_struct hk] at hdt
    rw [← he] at hdg'
    obtain rfl := hdt a b g g' _ r1 r2 hg hg' hdg hdg'
    obtain ⟨l1, e1⟩ := List.getElem?_eq_some_iff.1 ha
    obtain ⟨l2, e2⟩ := List.getElem?_eq_some_iff.1 hb
    exact List.pairwise_iff_getElem.1 hnd i j l1 l2 hij (e1.trans e2.symm)

end GoThrift
