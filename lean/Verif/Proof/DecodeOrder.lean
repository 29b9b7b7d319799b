import Verif.Proof.MapSame
import Verif.Proof.Mismatch
import Verif.Proof.Evolve

/-!
# What wire values that differ in the order of map entries decode to: lemmas
-/

namespace GoThrift

open Spec Spec.TVal

/-! ## Pointers -/

/-- Types behind `n` pointers. -/
def PtrsTo (env : Env) : Nat → TypeId → Prop
  | 0, t => ∀ e, (env.type t).kind ≠ .ptr e
  | n + 1, t => ∃ e, (env.type t).kind = .ptr e ∧ PtrsTo env n e

theorem Spec.WireTypeOf.ptrs {env : Env} {t : TypeId} {w : WType} (h : WireTypeOf env t w) : ∃ n, PtrsTo env n t := by
  induction h with
  | ptr hk _ ih =>
    obtain ⟨n, h⟩ := ih
    exact ⟨n + 1, _, hk, h⟩
  | _ => refine ⟨0, fun e he => ?_⟩; simp_all

/-! ## No map inside has a key twice -/

/-- No map inside `v` has a key twice. -/
def Neat (env : Env) (t : TypeId) (v : GoVal) : Prop := Everywhere env (fun _ v => ∀ es, v = .map es → DistinctKeys es) t v

theorem Spec.ValidValue.neat {env : Env} {t : TypeId} {v : GoVal} (h : ValidValue env t v) : Neat env t v := Everywhere.imp (fun _ _ h => h.2) t v h

theorem neat_zero (env : Env) (t : TypeId) : Neat env t (env.zero t) := (zero_valid env t).neat

theorem Neat.elem {env : Env} {t e : TypeId} {es sp : List GoVal} (hk : (env.type t).kind = .slice e) (h : Neat env t (.slice es sp)) {x : GoVal} (hx : x ∈ es) : Neat env e x := by
  have := (everywhereElems_iff es).1 h.2 x hx
  rwa [elemType_slice hk] at this

theorem neat_map {env : Env} {t k e : TypeId} {es : List (GoVal × GoVal)} (hk : (env.type t).kind = .map k e) :
    Neat env t (.map es) ↔ DistinctKeys es ∧ ∀ x ∈ es, Neat env k x.1 ∧ Neat env e x.2 := by
  unfold Neat
  rw [Everywhere, everywhereEntries_iff, elemType_map hk, keyType_map hk]
  constructor
  · exact fun h => ⟨h.1 es rfl, h.2⟩
  · exact fun h => ⟨fun es' he => by cases he; exact h.1, h.2⟩

theorem neat_entries {env : Env} {t k e : TypeId} {old : GoVal} (hk : (env.type t).kind = .map k e) (ho : old = .mapNil ∨ ∃ es0, old = .map es0) (h : Neat env t old) :
    DistinctKeys (entriesOf old) ∧ ∀ x ∈ entriesOf old, Neat env k x.1 ∧ Neat env e x.2 := by
  rcases ho with rfl | ⟨es, rfl⟩
  · exact ⟨.nil, by simp [entriesOf]⟩
  · exact (neat_map hk).1 h

theorem neat_slot {env : Env} {e : TypeId} {es : List (GoVal × GoVal)} (h : ∀ x ∈ es, Neat env e x.2) (k : GoVal) : Neat env e ((mapIndex k es).getD (env.zero e)) := by
  cases hm : mapIndex k es with
  | none => exact neat_zero env e
  | some v =>
    obtain ⟨k', h1, _⟩ := mapIndex_mem hm
    exact h _ h1

theorem Spec.Decodes.neat {env : Env} {tv : TVal} {t : TypeId} {old v : GoVal} (h : Decodes env t old tv v) : Neat env t old → Neat env t v := by
  have key : ∀ (h : Decodes env t old tv v), Neat env t old → Neat env t v := by
    apply Decodes.rec (motive_1 := fun t old tv v _ => Neat env t old → Neat env t v)
      (motive_2 := fun k e es tes es' _ => (DistinctKeys es ∧ ∀ x ∈ es, Neat env k x.1 ∧ Neat env e x.2) → DistinctKeys es' ∧ ∀ x ∈ es', Neat env k x.1 ∧ Neat env e x.2)
      (motive_3 := fun fs vs tfs vs' _ => (∀ (i : Nat) f v, fs[i]? = some f → vs[i]? = some v → Neat env f.typ v) → ∀ (i : Nat) f v, fs[i]? = some f → vs'[i]? = some v → Neat env f.typ v)
    case ptr =>
      intro t e old v tv hk _ ih h
      refine ⟨fun es he => (by cases he), ?_⟩
      have := h.2
      rw [elemType_ptr hk] at this ⊢
      exact ih this
    case ptrNil =>
      intro t e v tv hk _ ih _
      refine ⟨fun es he => (by cases he), ?_⟩
      rw [elemType_ptr hk]
      exact ih (neat_zero env e)
    case seqNil => intro t e w tv _ _ _ h; exact h
    case seqEmpty => intro t e w tv es sp _ _ _ _; exact ⟨fun es he => (by cases he), trivial⟩
    case seq =>
      intro t e w tv tvs old es sp hk _ _ _ _ hl _ ih _
      refine ⟨fun es he => (by cases he), (everywhereElems_iff _).2 fun x hx => ?_⟩
      rw [elemType_slice hk]
      obtain ⟨i, hi⟩ := List.getElem?_of_mem hx
      obtain ⟨a, ha⟩ := pair_at hl hi
      exact ih i a x ha hi (neat_zero env e)
    case mapEmpty => intro _ _ _ _ _ _ _ _ h; exact h
    case map =>
      intro t k e kw ew tes old es hk _ ho _ ih h
      exact (neat_map hk).2 (ih (neat_entries hk ho h))
    case struct =>
      intro t fs n tfs vs vs' hk _ _ ih h
      refine ⟨fun es he => (by cases he), (everywhereFields_iff _ _).2 ?_⟩
      have h2 := (everywhereFields_iff _ _).1 h.2
      rw [fields_struct hk] at h2 ⊢
      exact ih h2
    case nil => intro _ _ _ h; exact h
    case cons =>
      intro k e es es' te tes x v _ _ _ ih1 ih2 ih3 h
      have hx := ih1 (neat_zero env k)
      have hv := ih2 (neat_slot (fun x hx => (h.2 x hx).2) x)
      refine ih3 ⟨setMapIndex_distinct h.1, fun y hy => ?_⟩
      rcases setMapIndex_mem hy with rfl | hy
      · exact ⟨hx, hv⟩
      · exact h.2 y hy
    case nil => intro _ _ h; exact h
    case unknown => intro _ _ _ _ _ _ _ ih h; exact ih h
    case known =>
      intro fs vs vs' tf tfs i f required old v hf _ ho _ _ ih1 ih2 h
      refine ih2 fun j g w hg hw => ?_
      rw [List.getElem?_set] at hw
      split at hw
      · rename_i hij
        subst hij
        split at hw
        · cases hw
          rw [hf] at hg
          cases hg
          exact ih1 (h i f old hf ho)
        · cases hw
      · exact h j g w hg hw
    all_goals intros; exact fun es he => (by cases he)
  exact key h

/-! ## Inversion -/

theorem Spec.TVal.Reordered.map_inv {kt vt : WType} {es : List (TVal × TVal)} {tv' : TVal} (h : Reordered (.map kt vt es) tv') :
    ∃ es1 es' : List (TVal × TVal), tv' = .map kt vt es' ∧ es1.Perm es' ∧ es1.length = es.length ∧
      ∀ (i : Nat) e e', es[i]? = some e → es1[i]? = some e' → Reordered e.1 e'.1 ∧ Reordered e.2 e'.2 := by
  cases h with
  | refl => exact ⟨es, es, rfl, .refl _, rfl, fun i e e' h1 h2 => by rw [h1] at h2; cases h2; exact ⟨.refl _, .refl _⟩⟩
  | map _ _ p hl h1 h2 => exact ⟨_, _, rfl, p, hl, fun i e e' he he' => ⟨h1 i e e' he he', h2 i e e' he he'⟩⟩

theorem Spec.TVal.Reordered.set_inv {et : WType} {es : List TVal} {tv' : TVal} (h : Reordered (.set et es) tv') :
    ∃ es' : List TVal, tv' = .set et es' ∧ es'.length = es.length ∧ ∀ (i : Nat) e e', es[i]? = some e → es'[i]? = some e' → Reordered e e' := by
  cases h with
  | refl => exact ⟨es, rfl, rfl, fun i e e' h1 h2 => by rw [h1] at h2; cases h2; exact .refl _⟩
  | set _ hl h1 => exact ⟨_, rfl, hl, h1⟩

theorem Spec.TVal.Reordered.list_inv {et : WType} {es : List TVal} {tv' : TVal} (h : Reordered (.list et es) tv') :
    ∃ es' : List TVal, tv' = .list et es' ∧ es'.length = es.length ∧ ∀ (i : Nat) e e', es[i]? = some e → es'[i]? = some e' → Reordered e e' := by
  cases h with
  | refl => exact ⟨es, rfl, rfl, fun i e e' h1 h2 => by rw [h1] at h2; cases h2; exact .refl _⟩
  | list _ hl h1 => exact ⟨_, rfl, hl, h1⟩

theorem Spec.TVal.Reordered.struct_inv {n : Bytes} {fs : List (Bytes × BitVec 16 × TVal)} {tv' : TVal} (h : Reordered (.struct n fs) tv') :
    ∃ fs' : List (Bytes × BitVec 16 × TVal), tv' = .struct n fs' ∧ fs'.length = fs.length ∧
      ∀ (i : Nat) f f', fs[i]? = some f → fs'[i]? = some f' → f'.2.1 = f.2.1 ∧ Reordered f.2.2 f'.2.2 := by
  cases h with
  | refl => exact ⟨fs, rfl, rfl, fun i e e' h1 h2 => by rw [h1] at h2; cases h2; exact ⟨rfl, .refl _⟩⟩
  | struct _ hl h1 h2 => exact ⟨_, rfl, hl, fun i f f' hf hf' => ⟨(h1 i f f' hf hf').2, h2 i f f' hf hf'⟩⟩

/-! ## Map entries -/

/-- Decoding entries whose keys are different: each entry is decoded by itself, then all are stored. -/
theorem decodesEntries_all {env : Env} {k e : TypeId} {es out : List (GoVal × GoVal)} {tes : List (TVal × TVal)} (h : DecodesEntries env k e es tes out)
    (ha : ∀ (i j : Nat) (te te' : TVal × TVal) x y, i < j → tes[i]? = some te → tes[j]? = some te' → Decodes env k (env.zero k) te.1 x → Decodes env k (env.zero k) te'.1 y → x.keyEq y = false) :
    ∃ kvs : List (GoVal × GoVal), kvs.length = tes.length ∧ out = setAll kvs es ∧
      ∀ (i : Nat) te kv, tes[i]? = some te → kvs[i]? = some kv → Decodes env k (env.zero k) te.1 kv.1 ∧ Decodes env e ((mapIndex kv.1 es).getD (env.zero e)) te.2 kv.2 := by
  induction tes generalizing es with
  | nil =>
    cases h
    exact ⟨[], rfl, rfl, fun i te kv h => by cases h⟩
  | cons te tes ih =>
    cases h with
    | @cons _ _ _ _ _ _ x v h1 h2 h3 =>
      obtain ⟨kvs, h4, h5, h6⟩ := ih h3 fun i j te te' x y hij hi hj => ha (i + 1) (j + 1) te te' x y (by omega) hi hj
      refine ⟨(x, v) :: kvs, by simp [h4], h5, fun i te' kv hi hj => ?_⟩
      cases i with
      | zero => cases hi; cases hj; exact ⟨h1, h2⟩
      | succ i =>
        obtain ⟨h7, h8⟩ := h6 i te' kv hi hj
        rw [mapIndex_set_other (ha 0 (i + 1) te te' x kv.1 (by omega) rfl hi h1 h7)] at h8
        exact ⟨h7, h8⟩

theorem same_entriesOf {old old' : GoVal} (ho : old = .mapNil ∨ ∃ es, old = .map es) (ho' : old' = .mapNil ∨ ∃ es, old' = .map es) (h : SameValue false old old') :
    SameMap (entriesOf old) (entriesOf old') := by
  rcases ho with rfl | ⟨es, rfl⟩
  · cases h
    exact .refl _
  · rcases ho' with rfl | ⟨es', rfl⟩
    · cases h
    · exact .of h

/-- Wire values that differ in the order of map entries decode, into variables that are the same, to values that are the same. -/
def DecodesAlike (env : Env) (tv : TVal) : Prop :=
  ∀ t old old' v tv' v', Decodes env t old tv v → Decodes env t old' tv' v' → SameValue false old old' → Reordered tv tv' → Neat env t old → (∀ t', Within env t' t → DistinctIds env t') →
    KeysApart env t tv → SameValue false v v'

theorem entries_alike {env : Env} {k e : TypeId} {old old' : List (GoVal × GoVal)} {out out' : List (GoVal × GoVal)} {es es1 es' : List (TVal × TVal)}
    (h : DecodesEntries env k e old es out) (h' : DecodesEntries env k e old' es' out') (ho : SameMap old old') (hn : DistinctKeys old ∧ ∀ x ∈ old, Neat env k x.1 ∧ Neat env e x.2)
    (p : es1.Perm es') (hl : es1.length = es.length) (hr : ∀ (i : Nat) e e', es[i]? = some e → es1[i]? = some e' → Reordered e.1 e'.1 ∧ Reordered e.2 e'.2)
    (ih : ∀ te ∈ es, DecodesAlike env te.1 ∧ DecodesAlike env te.2) (hdk : ∀ t', Within env t' k → DistinctIds env t') (hde : ∀ t', Within env t' e → DistinctIds env t')
    (hak : ∀ te ∈ es, KeysApart env k te.1) (hae : ∀ te ∈ es, KeysApart env e te.2)
    (ha : ∀ (i j : Nat) (te te' : TVal × TVal) x y, i < j → es[i]? = some te → es[j]? = some te' → Decodes env k (env.zero k) te.1 x → Decodes env k (env.zero k) te'.1 y → x.keyEq y = false) :
    SameMap out out' := by
  obtain ⟨kvs, h1, rfl, h2⟩ := decodesEntries_all h ha
  have hdist : DistinctKeys kvs := by
    rw [DistinctKeys, List.pairwise_iff_getElem]
    intro i j hi hj hij
    have hi' : i < es.length := by omega
    have hj' : j < es.length := by omega
    exact ha i j _ _ _ _ hij (List.getElem?_eq_getElem hi') (List.getElem?_eq_getElem hj') (h2 i _ _ (List.getElem?_eq_getElem hi') (List.getElem?_eq_getElem hi)).1
      (h2 j _ _ (List.getElem?_eq_getElem hj') (List.getElem?_eq_getElem hj)).1
  obtain ⟨kvs2, p2, h3, h4⟩ := perm_along p kvs (h1.trans hl.symm)
  have hdist2 := hdist.perm p2
  have part : ∀ (i : Nat) (te' : TVal × TVal) kv, es'[i]? = some te' → kvs2[i]? = some kv → ∃ te ∈ es, Reordered te.1 te'.1 ∧ Reordered te.2 te'.2 ∧
      Decodes env k (env.zero k) te.1 kv.1 ∧ Decodes env e ((mapIndex kv.1 old).getD (env.zero e)) te.2 kv.2 := fun i te' kv hi hj => by
    obtain ⟨j, h5, h6⟩ := h4 i te' kv hi hj
    obtain ⟨te, hte⟩ := at_lt (l := es) (i := j) (by have := lt_at h5; omega)
    exact ⟨te, List.mem_of_getElem? hte, (hr j te te' hte h5).1, (hr j te te' hte h5).2, h2 j te kv hte h6⟩
  have keySame : ∀ (i : Nat) (te' : TVal × TVal) kv x', es'[i]? = some te' → kvs2[i]? = some kv → Decodes env k (env.zero k) te'.1 x' → SameValue false kv.1 x' := fun i te' kv x' hi hj hx => by
    obtain ⟨te, hm, hr1, hr2, d1, d2⟩ := part i te' kv hi hj
    exact (ih te hm).1 k _ _ _ _ _ d1 hx (.refl _) hr1 (neat_zero env k) hdk (hak te hm)
  obtain ⟨kvs', h5, rfl, h6⟩ := decodesEntries_all h' fun i j te te' x y hij hi hj hx hy => by
    obtain ⟨a, ha'⟩ := at_lt (l := kvs2) (i := i) (by have := lt_at hi; omega)
    obtain ⟨b, hb⟩ := at_lt (l := kvs2) (i := j) (by have := lt_at hj; omega)
    rw [← (keySame i te a x hi ha' hx).keyEq (keySame j te' b y hj hb hy)]
    rw [DistinctKeys, List.pairwise_iff_getElem] at hdist2
    have := hdist2 i j (lt_at ha') (lt_at hb) hij
    rwa [(List.getElem?_eq_some_iff.1 ha').2, (List.getElem?_eq_some_iff.1 hb).2] at this
  refine SameMap.perm_left (setAll_reorder p2 hdist hn.1) (ho.setAll hn.1 (h5.trans h3.symm) fun i kv kv' hi hj => ?_)
  obtain ⟨te', hte'⟩ := at_lt (l := es') (i := i) (by have := lt_at hj; omega)
  obtain ⟨d3, d4⟩ := h6 i te' kv' hte' hj
  obtain ⟨te, hm, hr1, hr2, d1, d2⟩ := part i te' kv hte' hi
  have hk := keySame i te' kv kv'.1 hte' hi d3
  exact ⟨hk, (ih te hm).2 e _ _ _ _ _ d2 d4 ((ho.mapIndex hn.1 hk).getD _) hr2 (neat_slot (fun x hx => (hn.2 x hx).2) _) hde (hae te hm)⟩

theorem fields_alike {env : Env} {fs : List FieldDecl} {vs ws out out' : List GoVal} {tfs tfs' : List (Bytes × BitVec 16 × TVal)}
    (h : DecodesFields env fs vs tfs out) (h' : DecodesFields env fs ws tfs' out') (hl : ws.length = vs.length) (hs : ∀ (i : Nat) x x', vs[i]? = some x → ws[i]? = some x' → SameValue false x x')
    (hn : ∀ (i : Nat) f v, fs[i]? = some f → vs[i]? = some v → Neat env f.typ v) (hlt : tfs'.length = tfs.length)
    (hr : ∀ (i : Nat) f f', tfs[i]? = some f → tfs'[i]? = some f' → f'.2.1 = f.2.1 ∧ Reordered f.2.2 f'.2.2) (ih : ∀ tf ∈ tfs, DecodesAlike env tf.2.2)
    (hd : ∀ f ∈ fs, ∀ t', Within env t' f.typ → DistinctIds env t')
    (hu : ∀ (i j : Nat) (f g : FieldDecl) (id : BitVec 16) (r r' : Bool), fs[i]? = some f → fs[j]? = some g → Declares env f id r → Declares env g id r' → i = j)
    (ha : ∀ tf ∈ tfs, ∀ f ∈ fs, ∀ r, Declares env f tf.2.1 r → KeysApart env f.typ tf.2.2) :
    out'.length = out.length ∧ ∀ (i : Nat) x x', out[i]? = some x → out'[i]? = some x' → SameValue false x x' := by
  induction tfs generalizing tfs' vs ws with
  | nil =>
    cases tfs' with
    | nil => cases h; cases h'; exact ⟨hl, hs⟩
    | cons => simp at hlt
  | cons tf tfs iht =>
    cases tfs' with
    | nil => simp at hlt
    | cons tf' tfs' =>
      have hlt' : tfs'.length = tfs.length := by simpa using hlt
      have hr' := fun (i : Nat) f f' (h1 : tfs[i]? = some f) (h2 : tfs'[i]? = some f') => hr (i + 1) f f' h1 h2
      have ih' := fun tf (h : tf ∈ tfs) => ih tf (by simp [h])
      have ha' := fun tf (h : tf ∈ tfs) => ha tf (by simp [h])
      obtain ⟨e1, r1⟩ := hr 0 tf tf' rfl rfl
      cases h with
      | unknown h1 h =>
        cases h' with
        | unknown _ h' => exact iht h h' hl hs hn hlt' hr' ih' ha'
        | known h2 h3 => rw [e1] at h3; exact absurd h3 (h1 _ (List.mem_of_getElem? h2) _)
      | @known _ _ _ _ _ i f r old v h1 h2 h3 h4 h =>
        cases h' with
        | unknown h5 _ => rw [e1] at h5; exact absurd h2 (h5 _ (List.mem_of_getElem? h1) _)
        | @known _ _ _ _ _ i' f' r' old' v' h5 h6 h7 h8 h' =>
          rw [e1] at h6
          obtain rfl := hu i i' f f' _ r r' h1 h5 h2 h6
          rw [h1] at h5
          cases h5
          have hm := List.mem_of_getElem? h1
          have hv := ih tf (by simp) f.typ old old' v _ v' h4 h8 (hs i old old' h3 h7) r1 (hn i f old h1 h3) (hd f hm) (ha tf (by simp) f hm r h2)
          refine iht h h' (by simp [hl]) (fun j x x' hx hx' => ?_) (fun j g w hg hw => ?_) hlt' hr' ih' ha'
          · rw [List.getElem?_set] at hx hx'
            split at hx
            · rename_i hij
              rw [if_pos hij] at hx'
              split at hx
              · split at hx'
                · cases hx; cases hx'; exact hv
                · cases hx'
              · cases hx
            · rename_i hij
              rw [if_neg hij] at hx'
              exact hs j x x' hx hx'
          · rw [List.getElem?_set] at hw
            split at hw
            · rename_i hij
              subst hij
              split at hw
              · cases hw
                rw [h1] at hg
                cases hg
                exact h4.neat (hn i f old h1 h3)
              · cases hw
            · exact hn j g w hg hw

theorem Spec.KeysApart.part {env : Env} {t u : TypeId} {tv tw : TVal} (h : KeysApart env t tv) (hs : ∀ {t' tv'}, Seen env u tw t' tv' → Seen env t tv t' tv') : KeysApart env u tw :=
  fun t' k e kw ew tes h1 h2 => h t' k e kw ew tes (hs h1) h2

/-- The elements of slices. -/
theorem seq_alike {env : Env} {t e : TypeId} {w w' : WType} {old old' v v' : GoVal} {tv tv' : TVal} {tvs tvs' : List TVal} (hk : (env.type t).kind = .slice e) (hb : (env.type t).asBytes = false)
    (htv : tv = (if (env.type t).isSet then .set w tvs else .list w tvs)) (htv' : tv' = (if (env.type t).isSet then .set w' tvs' else .list w' tvs'))
    (h : Decodes env t old tv v) (h' : Decodes env t old' tv' v') (ho : SameValue false old old') (hl : tvs'.length = tvs.length)
    (ih : ∀ (i : Nat) a a' x x', tvs[i]? = some a → tvs'[i]? = some a' → Decodes env e (env.zero e) a x → Decodes env e (env.zero e) a' x' → SameValue false x x') : SameValue false v v' := by
  have inj : ∀ {b : Bool} {w1 w2 : WType} {l1 l2 : List TVal}, (if b then TVal.set w1 l1 else .list w1 l1) = (if b then .set w2 l2 else .list w2 l2) → l1 = l2 := by
    intro b w1 w2 l1 l2 h
    cases b <;> simp at h <;> exact h.2
  have inv : ∀ {w : WType} {tvs : List TVal} {old v : GoVal} {tv : TVal}, tv = (if (env.type t).isSet then .set w tvs else .list w tvs) → Decodes env t old tv v →
      (tvs = [] ∧ old = .sliceNil ∧ v = .sliceNil) ∨ (tvs = [] ∧ ∃ es sp, old = .slice es sp ∧ v = .slice [] (es ++ sp)) ∨
      ∃ es sp, tvs ≠ [] ∧ v = .slice es sp ∧ es.length = tvs.length ∧ ∀ (i : Nat) x v, tvs[i]? = some x → es[i]? = some v → Decodes env e (env.zero e) x v := by
    intro w tvs old v tv htv h
    cases h with
    | seqNil w2 _ _ h3 => exact .inl ⟨inj (htv.symm.trans h3), rfl, rfl⟩
    | seqEmpty w2 _ _ h3 => exact .inr (.inl ⟨inj (htv.symm.trans h3), _, _, rfl, rfl⟩)
    | @seq _ e2 w2 _ tvs2 _ es sp h1 _ h3 h4 _ h6 h7 =>
      obtain rfl := inj (htv.symm.trans h3)
      rw [hk] at h1
      cases h1
      exact .inr (.inr ⟨es, sp, h4, rfl, h6, h7⟩)
    | ptr h1 => rw [hk] at h1; cases h1
    | ptrNil h1 => rw [hk] at h1; cases h1
    | mapEmpty _ _ h1 => rw [hk] at h1; cases h1
    | map _ _ h1 => rw [hk] at h1; cases h1
    | struct _ h1 => rw [hk] at h1; cases h1
    | bytes _ _ _ h2 => rw [hb] at h2; cases h2
    | _ => simp_all
  rcases inv htv h with ⟨rfl, rfl, rfl⟩ | ⟨rfl, es, sp, rfl, rfl⟩ | ⟨es, sp, hne, rfl, h1, h2⟩
  · rcases inv htv' h' with ⟨_, rfl, rfl⟩ | ⟨_, es, sp, rfl, rfl⟩ | ⟨es, sp, hne, _⟩
    · exact .refl _
    · cases ho
    · exact absurd (List.length_eq_zero_iff.1 hl) hne
  · rcases inv htv' h' with ⟨_, rfl, rfl⟩ | ⟨_, es', sp', rfl, rfl⟩ | ⟨es, sp, hne, _⟩
    · cases ho
    · exact .slice rfl fun i x x' h1 => by cases h1
    · exact absurd (List.length_eq_zero_iff.1 hl) hne
  · rcases inv htv' h' with ⟨rfl, _⟩ | ⟨rfl, _⟩ | ⟨es', sp', hne', rfl, h3, h4⟩
    · exact absurd (List.length_eq_zero_iff.1 hl.symm) hne
    · exact absurd (List.length_eq_zero_iff.1 hl.symm) hne
    · refine .slice (by omega) fun i x x' hx hx' => ?_
      obtain ⟨a, ha⟩ := pair_at h1 hx
      obtain ⟨a', ha'⟩ := pair_at h3 hx'
      exact ih i a a' x x' ha ha' (h2 i a x ha hx) (h4 i a' x' ha' hx')

theorem decodesAlike_of {env : Env} {tv : TVal} (h : ∀ t old old' v tv' v', (∀ e, (env.type t).kind ≠ .ptr e) → Decodes env t old tv v → Decodes env t old' tv' v' → SameValue false old old' →
    Reordered tv tv' → Neat env t old → (∀ t', Within env t' t → DistinctIds env t') → KeysApart env t tv → SameValue false v v') : DecodesAlike env tv := by
  intro t old old' v tv' v' h1 h2 ho hr hn hd ha
  obtain ⟨n, hp⟩ := h1.wireType.ptrs
  induction n generalizing t old old' v v' with
  | zero => exact h t old old' v tv' v' hp h1 h2 ho hr hn hd ha
  | succ n ih =>
    obtain ⟨e, hk, hp⟩ := hp
    have hd' : ∀ t', Within env t' e → DistinctIds env t' := fun t' ht' => hd t' (.step ht' (partOf_ptr hk))
    have ha' : KeysApart env e tv := ha.part fun h => .ptr hk h
    have inv : ∀ {old v : GoVal} {tv : TVal}, Decodes env t old tv v → (∃ o x, old = .ptr o ∧ v = .ptr x ∧ Decodes env e o tv x) ∨ (∃ x, old = .ptrNil ∧ v = .ptr x ∧ Decodes env e (env.zero e) tv x) := by
      intro old v tv h
      cases h with
      | ptr h1 h2 => rw [hk] at h1; cases h1; exact .inl ⟨_, _, rfl, rfl, h2⟩
      | ptrNil h1 h2 => rw [hk] at h1; cases h1; exact .inr ⟨_, rfl, rfl, h2⟩
      | _ => simp_all
    rcases inv h1 with ⟨o, x, rfl, rfl, d⟩ | ⟨x, rfl, rfl, d⟩
    · rcases inv h2 with ⟨o', x', rfl, rfl, d'⟩ | ⟨x', rfl, rfl, d'⟩
      · have ho' : SameValue false o o' := by
          cases ho with
          | refl => exact .refl _
          | ptr h => exact h
        refine .ptr (ih e o o' x x' d d' ho' ?_ hd' ha' hp)
        have := hn.2
        rwa [elemType_ptr hk] at this
      · cases ho
    · rcases inv h2 with ⟨o', x', rfl, rfl, d'⟩ | ⟨x', rfl, rfl, d'⟩
      · cases ho
      · exact .ptr (ih e _ _ x x' d d' (.refl _) (neat_zero env e) hd' ha' hp)

theorem decodesAlike (env : Env) (tv : TVal) : DecodesAlike env tv := by
  have leaf : ∀ {tv : TVal}, (∀ tv', Reordered tv tv' → tv' = tv) → (∀ t old old' v v', (∀ e, (env.type t).kind ≠ .ptr e) → Decodes env t old tv v → Decodes env t old' tv v' →
      SameValue false old old' → v = v') → DecodesAlike env tv := fun h1 h2 => decodesAlike_of fun t old old' v tv' v' hp d d' ho hr _ _ _ => by
    obtain rfl := h1 tv' hr
    obtain rfl := h2 t old old' v v' hp d d' ho
    exact .refl _
  induction tv using TVal.ind with
  | hstruct n fs ih =>
    refine decodesAlike_of fun t old old' v tv' v' hp d d' ho hr hn hd ha => ?_
    obtain ⟨fs', rfl, hl, hr⟩ := hr.struct_inv
    cases d with
    | ptr hk => exact absurd hk (hp _)
    | ptrNil hk => exact absurd hk (hp _)
    | seqNil _ _ _ h => split at h <;> cases h
    | seqEmpty _ _ _ h => split at h <;> cases h
    | seq _ _ _ h => split at h <;> cases h
    | @struct _ gs _ _ vs out hk _ hf =>
      cases d' with
      | ptr hk => exact absurd hk (hp _)
      | ptrNil hk => exact absurd hk (hp _)
      | seqNil _ _ _ h => split at h <;> cases h
      | seqEmpty _ _ _ h => split at h <;> cases h
      | seq _ _ _ h => split at h <;> cases h
      | @struct _ gs' _ _ ws out' hk' _ hf' =>
        rw [hk] at hk'
        cases hk'
        have hs : ws.length = vs.length ∧ ∀ (i : Nat) x x', vs[i]? = some x → ws[i]? = some x' → SameValue false x x' := by
          cases ho with
          | refl => exact ⟨rfl, fun i x x' h1 h2 => by rw [h1] at h2; cases h2; exact .refl _⟩
          | struct h1 h2 => exact ⟨h1, h2⟩
        have hn' := (everywhereFields_iff _ _).1 hn.2
        rw [fields_struct hk] at hn'
        have hin : ∀ f ∈ gs, PartOf env f.typ t := fun f hf => by
          obtain ⟨i, hi⟩ := List.getElem?_of_mem hf
          exact partOf_field (i := i) (by rw [fields_struct hk]; exact hi)
        have hdt := hd t (.refl t)
        unfold DistinctIds at hdt
        rw [fields_struct hk] at hdt
        obtain ⟨h1, h2⟩ := fields_alike hf hf' hs.1 hs.2 hn' hl hr ih (fun f hf t' ht' => hd t' (.step ht' (hin f hf))) hdt
          fun tf htf f hf r hdc => ha.part fun h => .field hk htf hf hdc h
        exact .struct h1 h2
  | hmap kt vt es ih =>
    refine decodesAlike_of fun t old old' v tv' v' hp d d' ho hr hn hd ha => ?_
    obtain ⟨es1, es', rfl, p, hl, hr⟩ := hr.map_inv
    have hlen : es'.length = es.length := p.length_eq.symm.trans hl
    cases d with
    | ptr hk => exact absurd hk (hp _)
    | ptrNil hk => exact absurd hk (hp _)
    | seqNil _ _ _ h => split at h <;> cases h
    | seqEmpty _ _ _ h => split at h <;> cases h
    | seq _ _ _ h => split at h <;> cases h
    | mapEmpty _ _ hk h0 =>
      cases d' with
      | ptr hk => exact absurd hk (hp _)
      | ptrNil hk => exact absurd hk (hp _)
      | seqNil _ _ _ h => split at h <;> cases h
      | seqEmpty _ _ _ h => split at h <;> cases h
      | seq _ _ _ h => split at h <;> cases h
      | mapEmpty => exact ho
      | map _ _ _ hne => exact absurd (List.length_eq_zero_iff.1 hlen) hne
    | @map _ k e _ _ _ _ out hk hne h0 hd1 =>
      cases d' with
      | ptr hk => exact absurd hk (hp _)
      | ptrNil hk => exact absurd hk (hp _)
      | seqNil _ _ _ h => split at h <;> cases h
      | seqEmpty _ _ _ h => split at h <;> cases h
      | seq _ _ _ h => split at h <;> cases h
      | mapEmpty => exact absurd (List.length_eq_zero_iff.1 hlen.symm) hne
      | @map _ k' e' _ _ _ _ out' hk' _ h0' hd2 =>
        rw [hk] at hk'
        cases hk'
        have pk : PartOf env k t := partOf_key hk
        have pe : PartOf env e t := partOf_value hk
        exact (entries_alike hd1 hd2 (same_entriesOf h0 h0' ho) (neat_entries hk h0 hn) p hl hr ih (fun t' ht' => hd t' (.step ht' pk)) (fun t' ht' => hd t' (.step ht' pe))
          (fun te hte => ha.part fun h => .key hk hte h) (fun te hte => ha.part fun h => .value hk hte h) (ha t k e kt vt es (.refl _ _) hk)).value
  | hset et es ih =>
    refine decodesAlike_of fun t old old' v tv' v' hp d d' ho hr hn hd ha => ?_
    obtain ⟨es', rfl, hl, hr⟩ := hr.set_inv
    obtain ⟨e, hk, hs⟩ : ∃ e, (env.type t).kind = .slice e ∧ (env.type t).isSet = true := by
      have := d.wireType
      generalize hw : TVal.ty (.set et es) = w at this
      cases this <;> first | exact absurd hw (by simp [TVal.ty]; decide) | (rename_i h1 h2; exact ⟨_, h1, h2⟩) | (rename_i h1 _; exact absurd h1 (hp _))
    have hb : (env.type t).asBytes = false := by
      cases d with
      | ptr hk => exact absurd hk (hp _)
      | ptrNil hk => exact absurd hk (hp _)
      | seqNil _ _ h => exact h
      | seqEmpty _ _ h => exact h
      | seq _ _ h => exact h
    have pe : PartOf env e t := partOf_slice ⟨hk, hb⟩
    exact seq_alike hk hb (w := et) (w' := et) (by rw [hs]; rfl) (by rw [hs]; rfl) d d' ho hl fun i a a' x x' h1 h2 d1 d2 =>
      ih a (List.mem_of_getElem? h1) e _ _ _ _ _ d1 d2 (.refl _) (hr i a a' h1 h2) (neat_zero env e) (fun t' ht' => hd t' (.step ht' pe)) (ha.part fun h => .set hk (List.mem_of_getElem? h1) h)
  | hlist et es ih =>
    refine decodesAlike_of fun t old old' v tv' v' hp d d' ho hr hn hd ha => ?_
    obtain ⟨es', rfl, hl, hr⟩ := hr.list_inv
    obtain ⟨e, hk, hs, hb⟩ : ∃ e, (env.type t).kind = .slice e ∧ (env.type t).isSet = false ∧ (env.type t).asBytes = false := by
      have := d.wireType
      generalize hw : TVal.ty (.list et es) = w at this
      cases this <;> first | exact absurd hw (by simp [TVal.ty]; decide) | (rename_i h1 h2 h3; exact ⟨_, h1, h2, h3⟩) | (rename_i h1 _; exact absurd h1 (hp _))
    have pe : PartOf env e t := partOf_slice ⟨hk, hb⟩
    exact seq_alike hk hb (w := et) (w' := et) (by rw [hs]; rfl) (by rw [hs]; rfl) d d' ho hl fun i a a' x x' h1 h2 d1 d2 =>
      ih a (List.mem_of_getElem? h1) e _ _ _ _ _ d1 d2 (.refl _) (hr i a a' h1 h2) (neat_zero env e) (fun t' ht' => hd t' (.step ht' pe)) (ha.part fun h => .list hk (List.mem_of_getElem? h1) h)
  | hstr r b =>
    refine leaf (fun tv' h => by cases h; rfl) fun t old old' v v' hp d d' ho => ?_
    cases d with
    | ptr hk => exact absurd hk (hp _)
    | ptrNil hk => exact absurd hk (hp _)
    | seqNil _ _ _ h => split at h <;> cases h
    | seqEmpty _ _ _ h => split at h <;> cases h
    | seq _ _ _ h => split at h <;> cases h
    | string _ _ hk =>
      cases d' with
      | string => rfl
      | bytes _ _ hk' => rw [hk] at hk'; cases hk'
      | ptr hk => exact absurd hk (hp _)
      | ptrNil hk => exact absurd hk (hp _)
      | seqNil _ _ _ h => split at h <;> cases h
      | seqEmpty _ _ _ h => split at h <;> cases h
      | seq _ _ _ h => split at h <;> cases h
    | bytes _ _ hk =>
      cases d' with
      | string _ _ hk' => rw [hk] at hk'; cases hk'
      | bytes _ _ hk' => cases ho; rfl
      | ptr hk => exact absurd hk (hp _)
      | ptrNil hk => exact absurd hk (hp _)
      | seqNil _ _ _ h => split at h <;> cases h
      | seqEmpty _ _ _ h => split at h <;> cases h
      | seq _ _ _ h => split at h <;> cases h
  | hdouble x =>
    refine leaf (fun tv' h => by cases h; rfl) fun t old old' v v' hp d d' ho => ?_
    cases d with
    | ptr hk => exact absurd hk (hp _)
    | ptrNil hk => exact absurd hk (hp _)
    | seqNil _ _ _ h => split at h <;> cases h
    | seqEmpty _ _ _ h => split at h <;> cases h
    | seq _ _ _ h => split at h <;> cases h
    | f32 _ hk =>
      cases d' with
      | f32 => rfl
      | f64 _ hk' => rw [hk] at hk'; cases hk'
      | ptr hk => exact absurd hk (hp _)
      | ptrNil hk => exact absurd hk (hp _)
      | seqNil _ _ _ h => split at h <;> cases h
      | seqEmpty _ _ _ h => split at h <;> cases h
      | seq _ _ _ h => split at h <;> cases h
    | f64 _ hk =>
      cases d' with
      | f64 => rfl
      | f32 _ hk' => rw [hk] at hk'; cases hk'
      | ptr hk => exact absurd hk (hp _)
      | ptrNil hk => exact absurd hk (hp _)
      | seqNil _ _ _ h => split at h <;> cases h
      | seqEmpty _ _ _ h => split at h <;> cases h
      | seq _ _ _ h => split at h <;> cases h
  | _ =>
    refine leaf (fun tv' h => by cases h; rfl) fun t old old' v v' hp d d' ho => ?_
    cases d <;> first
      | (rename_i hk _; exact absurd hk (hp _))
      | (rename_i h; split at h <;> cases h)
      | (rename_i h _ _ _ _; split at h <;> cases h)
      | (cases d' <;> first
        | rfl
        | (rename_i hk _; exact absurd hk (hp _))
        | (rename_i h; split at h <;> cases h)
        | (rename_i h _ _ _ _; split at h <;> cases h))

end GoThrift
