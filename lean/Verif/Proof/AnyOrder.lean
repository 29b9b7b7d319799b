import Verif.Proof.Again
import Verif.Spec.AnyOrder

/-!
# What wire values that differ in the order of fields and map entries decode to: lemmas
-/

namespace GoThrift

open Spec Spec.TVal

theorem Spec.TVal.AnyOrder.ty {tv tv' : TVal} (h : AnyOrder tv tv') : tv'.ty = tv.ty := by
  cases h <;> rfl

theorem Spec.TVal.AnyOrder.symm {tv tv' : TVal} (h : AnyOrder tv tv') : AnyOrder tv' tv := by
  induction h with
  | refl => exact .refl _
  | struct n n' p hl _ _ ih1 =>
    rename_i hid _
    obtain ⟨m, p1, h1, h2⟩ := perm_along p _ hl.symm
    refine .struct n' n p1.symm h1 (fun i e e' he he' => ?_) (fun i e e' he he' => ?_)
    · obtain ⟨j, h3, h4⟩ := h2 i e e' he he'
      exact (hid j e' e h4 h3).symm
    · obtain ⟨j, h3, h4⟩ := h2 i e e' he he'
      exact ih1 j e' e h4 h3
  | map kt vt p hl _ _ ih1 ih2 =>
    obtain ⟨m, p1, h1, h2⟩ := perm_along p _ hl.symm
    refine .map kt vt p1.symm h1 (fun i e e' he he' => ?_) (fun i e e' he he' => ?_)
    · obtain ⟨j, h3, h4⟩ := h2 i e e' he he'
      exact ih1 j e' e h4 h3
    · obtain ⟨j, h3, h4⟩ := h2 i e e' he he'
      exact ih2 j e' e h4 h3
  | set et hl _ ih => exact .set et hl.symm fun i e e' he he' => ih i e' e he' he
  | list et hl _ ih => exact .list et hl.symm fun i e e' he he' => ih i e' e he' he

theorem Spec.TVal.AnyOrder.map_inv {kt vt : WType} {es : List (TVal × TVal)} {tv' : TVal} (h : AnyOrder (.map kt vt es) tv') :
    ∃ es1 es' : List (TVal × TVal), tv' = .map kt vt es' ∧ es1.Perm es' ∧ es1.length = es.length ∧
      ∀ (i : Nat) e e', es[i]? = some e → es1[i]? = some e' → AnyOrder e.1 e'.1 ∧ AnyOrder e.2 e'.2 := by
  cases h with
  | refl => exact ⟨es, es, rfl, .refl _, rfl, fun i e e' h1 h2 => by rw [h1] at h2; cases h2; exact ⟨.refl _, .refl _⟩⟩
  | map _ _ p hl h1 h2 => exact ⟨_, _, rfl, p, hl, fun i e e' he he' => ⟨h1 i e e' he he', h2 i e e' he he'⟩⟩

theorem Spec.TVal.AnyOrder.set_inv {et : WType} {es : List TVal} {tv' : TVal} (h : AnyOrder (.set et es) tv') :
    ∃ es' : List TVal, tv' = .set et es' ∧ es'.length = es.length ∧ ∀ (i : Nat) e e', es[i]? = some e → es'[i]? = some e' → AnyOrder e e' := by
  cases h with
  | refl => exact ⟨es, rfl, rfl, fun i e e' h1 h2 => by rw [h1] at h2; cases h2; exact .refl _⟩
  | set _ hl h1 => exact ⟨_, rfl, hl, h1⟩

theorem Spec.TVal.AnyOrder.list_inv {et : WType} {es : List TVal} {tv' : TVal} (h : AnyOrder (.list et es) tv') :
    ∃ es' : List TVal, tv' = .list et es' ∧ es'.length = es.length ∧ ∀ (i : Nat) e e', es[i]? = some e → es'[i]? = some e' → AnyOrder e e' := by
  cases h with
  | refl => exact ⟨es, rfl, rfl, fun i e e' h1 h2 => by rw [h1] at h2; cases h2; exact .refl _⟩
  | list _ hl h1 => exact ⟨_, rfl, hl, h1⟩

theorem Spec.TVal.AnyOrder.struct_inv {n : Bytes} {fs : List (Bytes × BitVec 16 × TVal)} {tv' : TVal} (h : AnyOrder (.struct n fs) tv') :
    ∃ (n' : Bytes) (fs1 fs' : List (Bytes × BitVec 16 × TVal)), tv' = .struct n' fs' ∧ fs1.Perm fs' ∧ fs1.length = fs.length ∧
      ∀ (i : Nat) f f', fs[i]? = some f → fs1[i]? = some f' → f'.2.1 = f.2.1 ∧ AnyOrder f.2.2 f'.2.2 := by
  cases h with
  | refl => exact ⟨n, fs, fs, rfl, .refl _, rfl, fun i e e' h1 h2 => by rw [h1] at h2; cases h2; exact ⟨rfl, .refl _⟩⟩
  | struct _ _ p hl h1 h2 => exact ⟨_, _, _, rfl, p, hl, fun i f f' hf hf' => ⟨h1 i f f' hf hf', h2 i f f' hf hf'⟩⟩

/-- Where there is a field there is one with the same id that differs in order only. -/
theorem field_mem {fs fs1 fs' : List (Bytes × BitVec 16 × TVal)} (p : fs1.Perm fs') (hl : fs1.length = fs.length)
    (hr : ∀ (i : Nat) f f', fs[i]? = some f → fs1[i]? = some f' → f'.2.1 = f.2.1 ∧ AnyOrder f.2.2 f'.2.2) {f : Bytes × BitVec 16 × TVal} (hm : f ∈ fs) :
    ∃ f' ∈ fs', f'.2.1 = f.2.1 ∧ AnyOrder f.2.2 f'.2.2 := by
  obtain ⟨i, hi⟩ := List.getElem?_of_mem hm
  obtain ⟨f', h⟩ := at_lt (l := fs1) (i := i) (by have := lt_at hi; omega)
  exact ⟨f', p.mem_iff.1 (List.mem_of_getElem? h), hr i f f' hi h⟩

theorem field_mem' {fs fs1 fs' : List (Bytes × BitVec 16 × TVal)} (p : fs1.Perm fs') (hl : fs1.length = fs.length)
    (hr : ∀ (i : Nat) f f', fs[i]? = some f → fs1[i]? = some f' → f'.2.1 = f.2.1 ∧ AnyOrder f.2.2 f'.2.2) {f' : Bytes × BitVec 16 × TVal} (hm : f' ∈ fs') :
    ∃ f ∈ fs, f'.2.1 = f.2.1 ∧ AnyOrder f.2.2 f'.2.2 := by
  obtain ⟨i, hi⟩ := List.getElem?_of_mem (p.mem_iff.2 hm)
  obtain ⟨f, h⟩ := pair_at hl hi
  exact ⟨f, List.mem_of_getElem? h, hr i f f' h hi⟩

/-! ## What the decoding needs -/

/-- The keys of each map and the fields of each struct inside are different. -/
def Tidy (env : Env) (t : TypeId) (tv : TVal) : Prop := KeysApart env t tv ∧ IdsOnce env t tv

theorem Tidy.part {env : Env} {t u : TypeId} {tv tw : TVal} (h : Tidy env t tv) (hs : ∀ {t' tv'}, Seen env u tw t' tv' → Seen env t tv t' tv') : Tidy env u tw :=
  ⟨h.1.part hs, h.2.part hs⟩

/-- Wire values that differ in order decode, into variables that are the same, to values that are the same. -/
def DecodesAny (env : Env) (tv : TVal) : Prop :=
  ∀ t old old' v tv' v', Decodes env t old tv v → Decodes env t old' tv' v' → SameValue false old old' → AnyOrder tv tv' → Neat env t old → (∀ t', Within env t' t → DistinctIds env t') →
    Tidy env t tv → SameValue false v v'

theorem entries_any {env : Env} {k e : TypeId} {old old' : List (GoVal × GoVal)} {out out' : List (GoVal × GoVal)} {es es1 es' : List (TVal × TVal)}
    (h : DecodesEntries env k e old es out) (h' : DecodesEntries env k e old' es' out') (ho : SameMap old old') (hn : DistinctKeys old ∧ ∀ x ∈ old, Neat env k x.1 ∧ Neat env e x.2)
    (p : es1.Perm es') (hl : es1.length = es.length) (hr : ∀ (i : Nat) e e', es[i]? = some e → es1[i]? = some e' → AnyOrder e.1 e'.1 ∧ AnyOrder e.2 e'.2)
    (ih : ∀ te ∈ es, DecodesAny env te.1 ∧ DecodesAny env te.2) (hdk : ∀ t', Within env t' k → DistinctIds env t') (hde : ∀ t', Within env t' e → DistinctIds env t')
    (hak : ∀ te ∈ es, Tidy env k te.1) (hae : ∀ te ∈ es, Tidy env e te.2)
    (ha : ∀ (i j : Nat) (te te' : TVal × TVal) x y, i < j → es[i]? = some te → es[j]? = some te' → Decodes env k (env.zero k) te.1 x → Decodes env k (env.zero k) te'.1 y → x.keyEq y = false) :
    SameMap out out' := by
  obtain ⟨kvs, h1, rfl, h2⟩ := decodesEntries_all h ha
  have hdist : DistinctKeys kvs := by
    rw [DistinctKeys, List.pairwise_iff_getElem]
    intro i j hi hj hij
    have hi' : i < es.length := by omega
    have hj' : j < es.length := by omega
    exact ha i j _ _ _ _ hij (List.getElem?_eq_getElem hi') (List.getElem?_eq_getElem hj') (h2 i _ _ (List.getElem?_eq_getElem hi') (List.getElem?_eq_getElem hi)).1
      (h2 j _ _ (List.getElem?_eq_getElem hj') (List.getElem?_eq_getElem hj)).1
  obtain ⟨kvs2, p2, h3, h4⟩ := perm_along p kvs (h1.trans hl.symm)
  have hdist2 := hdist.perm p2
  have part : ∀ (i : Nat) (te' : TVal × TVal) kv, es'[i]? = some te' → kvs2[i]? = some kv → ∃ te ∈ es, AnyOrder te.1 te'.1 ∧ AnyOrder te.2 te'.2 ∧
      Decodes env k (env.zero k) te.1 kv.1 ∧ Decodes env e ((mapIndex kv.1 old).getD (env.zero e)) te.2 kv.2 := fun i te' kv hi hj => by
    obtain ⟨j, h5, h6⟩ := h4 i te' kv hi hj
    obtain ⟨te, hte⟩ := at_lt (l := es) (i := j) (by have := lt_at h5; omega)
    exact ⟨te, List.mem_of_getElem? hte, (hr j te te' hte h5).1, (hr j te te' hte h5).2, h2 j te kv hte h6⟩
  have keySame : ∀ (i : Nat) (te' : TVal × TVal) kv x', es'[i]? = some te' → kvs2[i]? = some kv → Decodes env k (env.zero k) te'.1 x' → SameValue false kv.1 x' := fun i te' kv x' hi hj hx => by
    obtain ⟨te, hm, hr1, hr2, d1, d2⟩ := part i te' kv hi hj
    exact (ih te hm).1 k _ _ _ _ _ d1 hx (.refl _) hr1 (neat_zero env k) hdk (hak te hm)
  obtain ⟨kvs', h5, rfl, h6⟩ := decodesEntries_all h' fun i j te te' x y hij hi hj hx hy => by
    obtain ⟨a, ha'⟩ := at_lt (l := kvs2) (i := i) (by have := lt_at hi; omega)
    obtain ⟨b, hb⟩ := at_lt (l := kvs2) (i := j) (by have := lt_at hj; omega)
    rw [← (keySame i te a x hi ha' hx).keyEq (keySame j te' b y hj hb hy)]
    rw [DistinctKeys, List.pairwise_iff_getElem] at hdist2
    have := hdist2 i j (lt_at ha') (lt_at hb) hij
    rwa [(List.getElem?_eq_some_iff.1 ha').2, (List.getElem?_eq_some_iff.1 hb).2] at this
  refine SameMap.perm_left (setAll_reorder p2 hdist hn.1) (ho.setAll hn.1 (h5.trans h3.symm) fun i kv kv' hi hj => ?_)
  obtain ⟨te', hte'⟩ := at_lt (l := es') (i := i) (by have := lt_at hj; omega)
  obtain ⟨d3, d4⟩ := h6 i te' kv' hte' hj
  obtain ⟨te, hm, hr1, hr2, d1, d2⟩ := part i te' kv hte' hi
  have hk := keySame i te' kv kv'.1 hte' hi d3
  exact ⟨hk, (ih te hm).2 e _ _ _ _ _ d2 d4 ((ho.mapIndex hn.1 hk).getD _) hr2 (neat_slot (fun x hx => (hn.2 x hx).2) _) hde (hae te hm)⟩

theorem fields_any {env : Env} {fs : List FieldDecl} {vs ws out out' : List GoVal} {tfs tfs1 tfs' : List (Bytes × BitVec 16 × TVal)}
    (h : DecodesFields env fs vs tfs out) (h' : DecodesFields env fs ws tfs' out') (hl : ws.length = vs.length) (hs : ∀ (i : Nat) x x', vs[i]? = some x → ws[i]? = some x' → SameValue false x x')
    (hn : ∀ (i : Nat) f v, fs[i]? = some f → vs[i]? = some v → Neat env f.typ v) (p : tfs1.Perm tfs') (hlt : tfs1.length = tfs.length)
    (hr : ∀ (i : Nat) f f', tfs[i]? = some f → tfs1[i]? = some f' → f'.2.1 = f.2.1 ∧ AnyOrder f.2.2 f'.2.2) (ih : ∀ tf ∈ tfs, DecodesAny env tf.2.2)
    (hd : ∀ f ∈ fs, ∀ t', Within env t' f.typ → DistinctIds env t')
    (hu : ∀ (i j : Nat) (f g : FieldDecl) (id : BitVec 16) (r r' : Bool), fs[i]? = some f → fs[j]? = some g → Declares env f id r → Declares env g id r' → i = j)
    (ho : ∀ (i j : Nat) (tf tf' : Bytes × BitVec 16 × TVal) f r, i < j → tfs[i]? = some tf → tfs[j]? = some tf' → f ∈ fs → Declares env f tf.2.1 r → tf.2.1 ≠ tf'.2.1)
    (ha : ∀ tf ∈ tfs, ∀ f ∈ fs, ∀ r, Declares env f tf.2.1 r → Tidy env f.typ tf.2.2) :
    out'.length = out.length ∧ ∀ (i : Nat) x x', out[i]? = some x → out'[i]? = some x' → SameValue false x x' := by
  have ho1 : tfs1.Pairwise fun a b => ∀ f ∈ fs, ∀ r, Declares env f a.2.1 r → a.2.1 ≠ b.2.1 := by
    rw [List.pairwise_iff_getElem]
    intro i j hi hj hij f hf r hdc
    have e1 := (hr i _ _ (List.getElem?_eq_getElem (by omega)) (List.getElem?_eq_getElem hi)).1
    have e2 := (hr j _ _ (List.getElem?_eq_getElem (by omega)) (List.getElem?_eq_getElem hj)).1
    rw [e1] at hdc ⊢
    rw [e2]
    exact ho i j _ _ f r hij (List.getElem?_eq_getElem (by omega)) (List.getElem?_eq_getElem (by omega)) hf hdc
  have ho2 : tfs'.Pairwise fun a b => ∀ f ∈ fs, ∀ r, Declares env f a.2.1 r → a.2.1 ≠ b.2.1 :=
    ho1.perm p fun {a b} hab f hf r hdc e => hab f hf r (by rw [← e]; exact hdc) e.symm
  have ho' : ∀ (i j : Nat) (tf tf' : Bytes × BitVec 16 × TVal) f r, i < j → tfs'[i]? = some tf → tfs'[j]? = some tf' → f ∈ fs → Declares env f tf.2.1 r → tf.2.1 ≠ tf'.2.1 := by
    intro i j tf tf' f r hij hi hj hf hdc
    rw [List.pairwise_iff_getElem] at ho2
    obtain ⟨hi', rfl⟩ := List.getElem?_eq_some_iff.1 hi
    obtain ⟨hj', rfl⟩ := List.getElem?_eq_some_iff.1 hj
    exact ho2 i j hi' hj' hij f hf r hdc
  obtain ⟨l1, h1⟩ := decodesFields_at h hu ho
  obtain ⟨l2, h2⟩ := decodesFields_at h' hu ho'
  refine ⟨by omega, fun i x x' hx hx' => ?_⟩
  rcases h1 i with ⟨f, g3, j, tf, r, old, v, g4, g5, g6, g7, g8⟩ | ⟨g3, g⟩
  · have hm := List.mem_of_getElem? g3
    have htf := List.mem_of_getElem? g4
    obtain ⟨tc, hc, e1, hany⟩ := field_mem p hlt hr htf
    have hdc : Declares env f tc.2.1 r := by rw [e1]; exact g5
    rcases h2 i with ⟨f', k3, j', tf', r', old', v', k4, k5, k6, k7, k8⟩ | ⟨_, k⟩
    · rw [g3] at k3; cases k3
      rw [hx] at g7; cases g7
      rw [hx'] at k7; cases k7
      obtain ⟨e, _⟩ := hdc.unique k5
      obtain ⟨jc, hjc⟩ := List.getElem?_of_mem hc
      obtain rfl : jc = j' := by
        rcases Nat.lt_trichotomy jc j' with hj | hj | hj
        · exact absurd e (ho' jc j' tc tf' f r hj hjc k4 hm hdc)
        · exact hj
        · exact absurd e.symm (ho' j' jc tf' tc f r' hj k4 hjc hm k5)
      rw [hjc] at k4; cases k4
      exact ih tf htf f.typ old old' _ _ _ g8 k8 (hs i old old' g6 k6) hany (hn i f old g3 g6) (hd f hm) (ha tf htf f hm r g5)
    · exact absurd hdc (k f g3 tc hc r)
  · rcases h2 i with ⟨f', k3, j', tf', r', old', v', k4, k5, k6, k7, k8⟩ | ⟨k3, _⟩
    · obtain ⟨tf, htf, e1, _⟩ := field_mem' p hlt hr (List.mem_of_getElem? k4)
      rw [e1] at k5
      exact absurd k5 (g f' k3 tf htf r')
    · rw [hx] at g3
      rw [hx'] at k3
      exact hs i x x' g3.symm k3.symm

theorem decodesAny_of {env : Env} {tv : TVal} (h : ∀ t old old' v tv' v', (∀ e, (env.type t).kind ≠ .ptr e) → Decodes env t old tv v → Decodes env t old' tv' v' → SameValue false old old' →
    AnyOrder tv tv' → Neat env t old → (∀ t', Within env t' t → DistinctIds env t') → Tidy env t tv → SameValue false v v') : DecodesAny env tv := by
  intro t old old' v tv' v' h1 h2 ho hr hn hd ha
  obtain ⟨n, hp⟩ := h1.wireType.ptrs
  induction n generalizing t old old' v v' with
  | zero => exact h t old old' v tv' v' hp h1 h2 ho hr hn hd ha
  | succ n ih =>
    obtain ⟨e, hk, hp⟩ := hp
    have hd' : ∀ t', Within env t' e → DistinctIds env t' := fun t' ht' => hd t' (.step ht' (partOf_ptr hk))
    have ha' : Tidy env e tv := ha.part fun h => .ptr hk h
    have inv : ∀ {old v : GoVal} {tv : TVal}, Decodes env t old tv v → (∃ o x, old = .ptr o ∧ v = .ptr x ∧ Decodes env e o tv x) ∨ (∃ x, old = .ptrNil ∧ v = .ptr x ∧ Decodes env e (env.zero e) tv x) := by
      intro old v tv h
      cases h with
      | ptr h1 h2 => rw [hk] at h1; cases h1; exact .inl ⟨_, _, rfl, rfl, h2⟩
      | ptrNil h1 h2 => rw [hk] at h1; cases h1; exact .inr ⟨_, rfl, rfl, h2⟩
      | _ => simp_all
    rcases inv h1 with ⟨o, x, rfl, rfl, d⟩ | ⟨x, rfl, rfl, d⟩
    · rcases inv h2 with ⟨o', x', rfl, rfl, d'⟩ | ⟨x', rfl, rfl, d'⟩
      · have ho' : SameValue false o o' := by
          cases ho with
          | refl => exact .refl _
          | ptr h => exact h
        refine .ptr (ih e o o' x x' d d' ho' ?_ hd' ha' hp)
        have := hn.2
        rwa [elemType_ptr hk] at this
      · cases ho
    · rcases inv h2 with ⟨o', x', rfl, rfl, d'⟩ | ⟨x', rfl, rfl, d'⟩
      · cases ho
      · exact .ptr (ih e _ _ x x' d d' (.refl _) (neat_zero env e) hd' ha' hp)

theorem decodesAny (env : Env) (tv : TVal) : DecodesAny env tv := by
  have leaf : ∀ {tv : TVal}, (∀ tv', AnyOrder tv tv' → tv' = tv) → (∀ t old old' v v', (∀ e, (env.type t).kind ≠ .ptr e) → Decodes env t old tv v → Decodes env t old' tv v' →
      SameValue false old old' → v = v') → DecodesAny env tv := fun h1 h2 => decodesAny_of fun t old old' v tv' v' hp d d' ho hr _ _ _ => by
    obtain rfl := h1 tv' hr
    obtain rfl := h2 t old old' v v' hp d d' ho
    exact .refl _
  induction tv using TVal.ind with
  | hstruct n fs ih =>
    refine decodesAny_of fun t old old' v tv' v' hp d d' ho hr hn hd ha => ?_
    obtain ⟨n', fs1, fs', rfl, p, hl, hr⟩ := hr.struct_inv
    cases d with
    | ptr hk => exact absurd hk (hp _)
    | ptrNil hk => exact absurd hk (hp _)
    | seqNil _ _ _ h => split at h <;> cases h
    | seqEmpty _ _ _ h => split at h <;> cases h
    | seq _ _ _ h => split at h <;> cases h
    | @struct _ gs _ _ vs out hk _ hf =>
      cases d' with
      | ptr hk => exact absurd hk (hp _)
      | ptrNil hk => exact absurd hk (hp _)
      | seqNil _ _ _ h => split at h <;> cases h
      | seqEmpty _ _ _ h => split at h <;> cases h
      | seq _ _ _ h => split at h <;> cases h
      | @struct _ gs' _ _ ws out' hk' _ hf' =>
        rw [hk] at hk'
        cases hk'
        have hs : ws.length = vs.length ∧ ∀ (i : Nat) x x', vs[i]? = some x → ws[i]? = some x' → SameValue false x x' := by
          cases ho with
          | refl => exact ⟨rfl, fun i x x' h1 h2 => by rw [h1] at h2; cases h2; exact .refl _⟩
          | struct h1 h2 => exact ⟨h1, h2⟩
        have hn' := (everywhereFields_iff _ _).1 hn.2
        rw [fields_struct hk] at hn'
        have hin : ∀ f ∈ gs, PartOf env f.typ t := fun f hf => by
          obtain ⟨i, hi⟩ := List.getElem?_of_mem hf
          exact partOf_field (i := i) (by rw [fields_struct hk]; exact hi)
        have hdt := hd t (.refl t)
        unfold DistinctIds at hdt
        rw [fields_struct hk] at hdt
        obtain ⟨h1, h2⟩ := fields_any hf hf' hs.1 hs.2 hn' p hl hr ih (fun f hf t' ht' => hd t' (.step ht' (hin f hf))) hdt (ha.2 t gs n fs (.refl _ _) hk)
          fun tf htf f hf r hdc => ha.part fun h => .field hk htf hf hdc h
        exact .struct h1 h2
  | hmap kt vt es ih =>
    refine decodesAny_of fun t old old' v tv' v' hp d d' ho hr hn hd ha => ?_
    obtain ⟨es1, es', rfl, p, hl, hr⟩ := hr.map_inv
    have hlen : es'.length = es.length := p.length_eq.symm.trans hl
    cases d with
    | ptr hk => exact absurd hk (hp _)
    | ptrNil hk => exact absurd hk (hp _)
    | seqNil _ _ _ h => split at h <;> cases h
    | seqEmpty _ _ _ h => split at h <;> cases h
    | seq _ _ _ h => split at h <;> cases h
    | mapEmpty _ _ hk h0 =>
      cases d' with
      | ptr hk => exact absurd hk (hp _)
      | ptrNil hk => exact absurd hk (hp _)
      | seqNil _ _ _ h => split at h <;> cases h
      | seqEmpty _ _ _ h => split at h <;> cases h
      | seq _ _ _ h => split at h <;> cases h
      | mapEmpty => exact ho
      | map _ _ _ hne => exact absurd (List.length_eq_zero_iff.1 hlen) hne
    | @map _ k e _ _ _ _ out hk hne h0 hd1 =>
      cases d' with
      | ptr hk => exact absurd hk (hp _)
      | ptrNil hk => exact absurd hk (hp _)
      | seqNil _ _ _ h => split at h <;> cases h
      | seqEmpty _ _ _ h => split at h <;> cases h
      | seq _ _ _ h => split at h <;> cases h
      | mapEmpty => exact absurd (List.length_eq_zero_iff.1 hlen.symm) hne
      | @map _ k' e' _ _ _ _ out' hk' _ h0' hd2 =>
        rw [hk] at hk'
        cases hk'
        have pk : PartOf env k t := partOf_key hk
        have pe : PartOf env e t := partOf_value hk
        exact (entries_any hd1 hd2 (same_entriesOf h0 h0' ho) (neat_entries hk h0 hn) p hl hr ih (fun t' ht' => hd t' (.step ht' pk)) (fun t' ht' => hd t' (.step ht' pe))
          (fun te hte => ha.part fun h => .key hk hte h) (fun te hte => ha.part fun h => .value hk hte h) (ha.1 t k e kt vt es (.refl _ _) hk)).value
  | hset et es ih =>
    refine decodesAny_of fun t old old' v tv' v' hp d d' ho hr hn hd ha => ?_
    obtain ⟨es', rfl, hl, hr⟩ := hr.set_inv
    obtain ⟨e, hk, hs⟩ : ∃ e, (env.type t).kind = .slice e ∧ (env.type t).isSet = true := by
      have := d.wireType
      generalize hw : TVal.ty (.set et es) = w at this
      cases this <;> first | exact absurd hw (by simp [TVal.ty]; decide) | (rename_i h1 h2; exact ⟨_, h1, h2⟩) | (rename_i h1 _; exact absurd h1 (hp _))
    have hb : (env.type t).asBytes = false := by
      cases d with
      | ptr hk => exact absurd hk (hp _)
      | ptrNil hk => exact absurd hk (hp _)
      | seqNil _ _ h => exact h
      | seqEmpty _ _ h => exact h
      | seq _ _ h => exact h
    have pe : PartOf env e t := partOf_slice ⟨hk, hb⟩
    exact seq_alike hk hb (w := et) (w' := et) (by rw [hs]; rfl) (by rw [hs]; rfl) d d' ho hl fun i a a' x x' h1 h2 d1 d2 =>
      ih a (List.mem_of_getElem? h1) e _ _ _ _ _ d1 d2 (.refl _) (hr i a a' h1 h2) (neat_zero env e) (fun t' ht' => hd t' (.step ht' pe)) (ha.part fun h => .set hk (List.mem_of_getElem? h1) h)
  | hlist et es ih =>
    refine decodesAny_of fun t old old' v tv' v' hp d d' ho hr hn hd ha => ?_
    obtain ⟨es', rfl, hl, hr⟩ := hr.list_inv
    obtain ⟨e, hk, hs, hb⟩ : ∃ e, (env.type t).kind = .slice e ∧ (env.type t).isSet = false ∧ (env.type t).asBytes = false := by
      have := d.wireType
      generalize hw : TVal.ty (.list et es) = w at this
      cases this <;> first | exact absurd hw (by simp [TVal.ty]; decide) | (rename_i h1 h2 h3; exact ⟨_, h1, h2, h3⟩) | (rename_i h1 _; exact absurd h1 (hp _))
    have pe : PartOf env e t := partOf_slice ⟨hk, hb⟩
    exact seq_alike hk hb (w := et) (w' := et) (by rw [hs]; rfl) (by rw [hs]; rfl) d d' ho hl fun i a a' x x' h1 h2 d1 d2 =>
      ih a (List.mem_of_getElem? h1) e _ _ _ _ _ d1 d2 (.refl _) (hr i a a' h1 h2) (neat_zero env e) (fun t' ht' => hd t' (.step ht' pe)) (ha.part fun h => .list hk (List.mem_of_getElem? h1) h)
  | hstr r b =>
    refine leaf (fun tv' h => by cases h; rfl) fun t old old' v v' hp d d' ho => ?_
    cases d with
    | ptr hk => exact absurd hk (hp _)
    | ptrNil hk => exact absurd hk (hp _)
    | seqNil _ _ _ h => split at h <;> cases h
    | seqEmpty _ _ _ h => split at h <;> cases h
    | seq _ _ _ h => split at h <;> cases h
    | string _ _ hk =>
      cases d' with
      | string => rfl
      | bytes _ _ hk' => rw [hk] at hk'; cases hk'
      | ptr hk => exact absurd hk (hp _)
      | ptrNil hk => exact absurd hk (hp _)
      | seqNil _ _ _ h => split at h <;> cases h
      | seqEmpty _ _ _ h => split at h <;> cases h
      | seq _ _ _ h => split at h <;> cases h
    | bytes _ _ hk =>
      cases d' with
      | string _ _ hk' => rw [hk] at hk'; cases hk'
      | bytes _ _ hk' => cases ho; rfl
      | ptr hk => exact absurd hk (hp _)
      | ptrNil hk => exact absurd hk (hp _)
      | seqNil _ _ _ h => split at h <;> cases h
      | seqEmpty _ _ _ h => split at h <;> cases h
      | seq _ _ _ h => split at h <;> cases h
  | hdouble x =>
    refine leaf (fun tv' h => by cases h; rfl) fun t old old' v v' hp d d' ho => ?_
    cases d with
    | ptr hk => exact absurd hk (hp _)
    | ptrNil hk => exact absurd hk (hp _)
    | seqNil _ _ _ h => split at h <;> cases h
    | seqEmpty _ _ _ h => split at h <;> cases h
    | seq _ _ _ h => split at h <;> cases h
    | f32 _ hk =>
      cases d' with
      | f32 => rfl
      | f64 _ hk' => rw [hk] at hk'; cases hk'
      | ptr hk => exact absurd hk (hp _)
      | ptrNil hk => exact absurd hk (hp _)
      | seqNil _ _ _ h => split at h <;> cases h
      | seqEmpty _ _ _ h => split at h <;> cases h
      | seq _ _ _ h => split at h <;> cases h
    | f64 _ hk =>
      cases d' with
      | f64 => rfl
      | f32 _ hk' => rw [hk] at hk'; cases hk'
      | ptr hk => exact absurd hk (hp _)
      | ptrNil hk => exact absurd hk (hp _)
      | seqNil _ _ _ h => split at h <;> cases h
      | seqEmpty _ _ _ h => split at h <;> cases h
      | seq _ _ _ h => split at h <;> cases h
  | _ =>
    refine leaf (fun tv' h => by cases h; rfl) fun t old old' v v' hp d d' ho => ?_
    cases d <;> first
      | (rename_i hk _; exact absurd hk (hp _))
      | (rename_i h; split at h <;> cases h)
      | (rename_i h _ _ _ _; split at h <;> cases h)
      | (cases d' <;> first
        | rfl
        | (rename_i hk _; exact absurd hk (hp _))
        | (rename_i h; split at h <;> cases h)
        | (rename_i h _ _ _ _; split at h <;> cases h))


/-! ## Mismatches and limits -/

/-- Where there is an entry there is one that differs in order only. -/
theorem entry_mem {es es1 es' : List (TVal × TVal)} (p : es1.Perm es') (hl : es1.length = es.length)
    (hr : ∀ (i : Nat) e e', es[i]? = some e → es1[i]? = some e' → AnyOrder e.1 e'.1 ∧ AnyOrder e.2 e'.2) {te : TVal × TVal} (hm : te ∈ es) :
    ∃ te' ∈ es', AnyOrder te.1 te'.1 ∧ AnyOrder te.2 te'.2 := by
  obtain ⟨i, hi⟩ := List.getElem?_of_mem hm
  obtain ⟨te', h⟩ := at_lt (l := es1) (i := i) (by have := lt_at hi; omega)
  exact ⟨te', p.mem_iff.1 (List.mem_of_getElem? h), hr i te te' hi h⟩

theorem Spec.TVal.AnyOrder.mismatch {env : Env} {t t' : TypeId} {tv tv' : TVal} {bad : WType} (h : Mismatch env t tv bad t') (hr : AnyOrder tv tv') : Mismatch env t tv' bad t' := by
  induction h generalizing tv' with
  | here h1 h2 => rw [← hr.ty] at h2 ⊢; exact .here h1 h2
  | ptr hk _ ih => exact .ptr hk (ih hr)
  | set hk hs hm _ ih =>
    obtain ⟨es', rfl, hl, hr⟩ := hr.set_inv
    obtain ⟨i, hi⟩ := List.getElem?_of_mem hm
    obtain ⟨e', he'⟩ := at_lt (l := es') (i := i) (by have := lt_at hi; omega)
    exact .set hk hs (List.mem_of_getElem? he') (ih (hr i _ _ hi he'))
  | list hk hs hb hm _ ih =>
    obtain ⟨es', rfl, hl, hr⟩ := hr.list_inv
    obtain ⟨i, hi⟩ := List.getElem?_of_mem hm
    obtain ⟨e', he'⟩ := at_lt (l := es') (i := i) (by have := lt_at hi; omega)
    exact .list hk hs hb (List.mem_of_getElem? he') (ih (hr i _ _ hi he'))
  | key hk hm _ ih =>
    obtain ⟨es1, es', rfl, p, hl, hr⟩ := hr.map_inv
    obtain ⟨te', hm', h1, _⟩ := entry_mem p hl hr hm
    exact .key hk hm' (ih h1)
  | value hk hm _ ih =>
    obtain ⟨es1, es', rfl, p, hl, hr⟩ := hr.map_inv
    obtain ⟨te', hm', _, h1⟩ := entry_mem p hl hr hm
    exact .value hk hm' (ih h1)
  | field hk hm hf hd _ ih =>
    obtain ⟨n', fs1, fs', rfl, p, hl, hr⟩ := hr.struct_inv
    obtain ⟨f', hf', e1, h1⟩ := field_mem p hl hr hm
    exact .field hk hf' hf (by rw [e1]; exact hd) (ih h1)

theorem Spec.TVal.AnyOrder.wf {lim : Nat} {tv tv' : TVal} (h : AnyOrder tv tv') (hw : WF lim tv) : WF lim tv' := by
  induction h with
  | refl => exact hw
  | @struct n n' fs fs1 fs' p hl _ _ ih =>
    refine (wfFields_iff _).2 fun f' hf' => ?_
    obtain ⟨i, hi⟩ := List.getElem?_of_mem (p.mem_iff.2 hf')
    obtain ⟨f, hf⟩ := pair_at hl hi
    exact ih i f f' hf hi ((wfFields_iff _).1 hw f (List.mem_of_getElem? hf))
  | @map kt vt es es1 es' p hl h1 h2 ih1 ih2 =>
    refine ⟨by have := p.length_eq; have := hw.1; omega, (wfEntries_iff _).2 fun e' he' => ?_⟩
    obtain ⟨i, hi⟩ := List.getElem?_of_mem (p.mem_iff.2 he')
    obtain ⟨e, he⟩ := pair_at hl hi
    obtain ⟨a, b, c, d⟩ := (wfEntries_iff _).1 hw.2 e (List.mem_of_getElem? he)
    exact ⟨(h1 i e e' he hi).ty.trans a, (h2 i e e' he hi).ty.trans b, ih1 i e e' he hi c, ih2 i e e' he hi d⟩
  | @set et es es' hl h1 ih =>
    refine ⟨by have := hw.1; omega, (wfElems_iff _).2 fun e' he' => ?_⟩
    obtain ⟨i, hi⟩ := List.getElem?_of_mem he'
    obtain ⟨e, he⟩ := pair_at hl hi
    obtain ⟨a, b⟩ := (wfElems_iff _).1 hw.2 e (List.mem_of_getElem? he)
    exact ⟨(h1 i e e' he hi).ty.trans a, ih i e e' he hi b⟩
  | @list et es es' hl h1 ih =>
    refine ⟨by have := hw.1; omega, (wfElems_iff _).2 fun e' he' => ?_⟩
    obtain ⟨i, hi⟩ := List.getElem?_of_mem he'
    obtain ⟨e, he⟩ := pair_at hl hi
    obtain ⟨a, b⟩ := (wfElems_iff _).1 hw.2 e (List.mem_of_getElem? he)
    exact ⟨(h1 i e e' he hi).ty.trans a, ih i e e' he hi b⟩

/-! ## The keys of a value that stay different -/

theorem Spec.TVal.AnyOrder.typesOK {tv tv' : TVal} (h : AnyOrder tv tv') (hw : TypesOK tv) : TypesOK tv' := by
  induction h with
  | refl => exact hw
  | @struct n n' fs fs1 fs' p hl _ _ ih =>
    refine (typesOKFields_iff _).2 fun f' hf' => ?_
    obtain ⟨i, hi⟩ := List.getElem?_of_mem (p.mem_iff.2 hf')
    obtain ⟨f, hf⟩ := pair_at hl hi
    exact ih i f f' hf hi ((typesOKFields_iff _).1 hw f (List.mem_of_getElem? hf))
  | @map kt vt es es1 es' p hl h1 h2 ih1 ih2 =>
    refine (typesOKEntries_iff _).2 fun e' he' => ?_
    obtain ⟨i, hi⟩ := List.getElem?_of_mem (p.mem_iff.2 he')
    obtain ⟨e, he⟩ := pair_at hl hi
    obtain ⟨a, b⟩ := (typesOKEntries_iff _).1 hw e (List.mem_of_getElem? he)
    exact ⟨ih1 i e e' he hi a, ih2 i e e' he hi b⟩
  | @set et es es' hl h1 ih =>
    refine ⟨hw.1, (typesOKElems_iff _).2 fun e' he' => ?_⟩
    obtain ⟨i, hi⟩ := List.getElem?_of_mem he'
    obtain ⟨e, he⟩ := pair_at hl hi
    exact ih i e e' he hi ((typesOKElems_iff _).1 hw.2 e (List.mem_of_getElem? he))
  | @list et es es' hl h1 ih =>
    refine ⟨hw.1, (typesOKElems_iff _).2 fun e' he' => ?_⟩
    obtain ⟨i, hi⟩ := List.getElem?_of_mem he'
    obtain ⟨e, he⟩ := pair_at hl hi
    exact ih i e e' he hi ((typesOKElems_iff _).1 hw.2 e (List.mem_of_getElem? he))

end GoThrift
