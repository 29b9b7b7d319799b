import Verif.Proof.Rep
import Verif.Proof.DecLe

/-!
# Unmarshal restores what Marshal wrote
-/

namespace GoThrift

open Spec Spec.TVal

/-! ## Field tables exist -/

theorem Spec.Ignored.parse {env : Env} {sf : FieldDecl} (h : Ignored sf) : ∃ o, parseFieldOptions env.unicode sf = .done (o, true, none) := by
  rcases h with h | ⟨h1, h2⟩
  · refine ⟨⟨0, [], false⟩, ?_⟩
    rw [parseFieldOptions]
    simp only [h, Option.getD_some]
    rfl
  · refine ⟨⟨0, [], false⟩, ?_⟩
    rw [parseFieldOptions]
    simp only [h1, h2]
    rfl

theorem fieldLoop_exists (env : Env) (n : Nat) (t : TypeId) (ds : List FieldDecl) (h : ∀ d ∈ ds, Ignored d ∨ ((∃ id r, Declares env d id r) ∧ ∃ a, lookupArshaler env n d.typ = .done a)) (i : Nat) :
    ∃ fs, fieldLoop env n t i ds = .done (.ok fs) := by
  induction ds generalizing i with
  | nil => exact ⟨[], rfl⟩
  | cons d ds ih =>
    obtain ⟨fs, hfs⟩ := ih (fun d hd => h d (by simp [hd])) (i + 1)
    rcases h d (by simp) with hi | ⟨⟨id, r, hd⟩, a, hl⟩
    · obtain ⟨o, ho⟩ := hi.parse (env := env)
      refine ⟨fs, ?_⟩
      rw [fieldLoop, ho, Out.bind_done]
      exact hfs
    · refine ⟨⟨i, d.typ, a, id, d.name, r⟩ :: fs, ?_⟩
      rw [fieldLoop, declares_parse hd, Out.bind_done]
      simp only [Bool.false_eq_true, if_false, hl, Out.bind_done, hfs]

theorem common_lookup {env : Env} (ts : List TypeId) (h : ∀ t ∈ ts, Acc (InPart env) t) : ∃ n, ∀ t ∈ ts, ∃ a, lookupArshaler env n t = .done a := by
  induction ts with
  | nil => exact ⟨0, by simp⟩
  | cons t ts ih =>
    obtain ⟨n1, h1⟩ := ih fun t ht => h t (by simp [ht])
    obtain ⟨n2, a, h2⟩ := (lookup_iff_acc env t).2 (h t (by simp))
    refine ⟨max n1 n2, fun t' ht' => ?_⟩
    rcases List.mem_cons.1 ht' with rfl | ht'
    · exact ⟨a, lookup_mono (Nat.le_max_right _ _) h2⟩
    · obtain ⟨a', h3⟩ := h1 t' ht'
      exact ⟨a', lookup_mono (Nat.le_max_left _ _) h3⟩

/-- A struct type whose fields are all fit for it has a field table. -/
theorem table_exists (env : Env) (t : TypeId) (h : ∀ f ∈ env.fields t, Ignored f ∨ ∃ id r, Declares env f id r) (hl : ∀ f ∈ env.fields t, ¬ Ignored f → Acc (InPart env) f.typ)
    (htag : env.fields t ≠ [] → ∃ f ∈ env.fields t, f.tag ≠ none) : ∃ n fs, makeStructFields env n t = .done (.ok fs) := by
  classical
  obtain ⟨n, hn⟩ := common_lookup (((env.fields t).filter fun f => ¬ Ignored f).map (·.typ)) (fun t' ht' => by
    obtain ⟨f, hf, rfl⟩ := List.mem_map.1 ht'
    obtain ⟨hf, hi⟩ := List.mem_filter.1 hf
    exact hl f hf (by simpa using hi))
  obtain ⟨fs, hfs⟩ := fieldLoop_exists env n t (env.fields t) (fun d hd => by
    by_cases hi : Ignored d
    · exact .inl hi
    · rcases h d hd with h | h
      · exact absurd h hi
      · exact .inr ⟨h, hn d.typ (List.mem_map.2 ⟨d, List.mem_filter.2 ⟨hd, by simpa using hi⟩, rfl⟩)⟩) 0
  refine ⟨n, env.sort (fun f => f.id.toInt) fs, ?_⟩
  rw [makeStructFields, hfs, Out.bind_done]
  dsimp only
  rw [if_neg]
  rintro ⟨h1, h2, h3⟩
  obtain ⟨f, hf, hft⟩ := htag h1
  exact hft (h2 f hf)

/-! ## Decoding loops that succeed -/

theorem decLoop_zero {u : GoVal → TVal → Dec GoVal} {zero : GoVal} {grow : Nat → Nat} (tvs : List TVal) (xs : List GoVal) (done rest : List GoVal) (mz : Bool)
    (h : Pointwise (fun tv x => u zero tv = .done (x, none)) tvs xs) (hr : mz = true ∨ ∀ r ∈ rest, r = zero) :
    ∃ sp, decLoop u zero grow tvs done rest mz = .done ((done ++ xs, sp), none) := by
  induction tvs generalizing xs done rest mz with
  | nil =>
    have := List.length_eq_zero_iff.1 h.1
    subst this
    exact ⟨rest, by rw [decLoop]; simp⟩
  | cons tv tvs ih =>
    cases xs with
    | nil => have := h.1; simp at this
    | cons x xs =>
      have hx := h.2 0 tv x rfl rfl
      have hxs : Pointwise (fun tv x => u zero tv = .done (x, none)) tvs xs :=
        ⟨by have := h.1; simpa using this, fun i a b ha hb => h.2 (i + 1) a b (by simpa using ha) (by simpa using hb)⟩
      rw [decLoop]
      cases rest with
      | nil =>
        obtain ⟨m, hm⟩ : ∃ m, max 1 (grow done.length - done.length) = m + 1 := ⟨max 1 (grow done.length - done.length) - 1, by omega⟩
        simp only [List.isEmpty_nil, if_true, hm, List.replicate_succ, Bool.not_true, Bool.and_false, Bool.false_eq_true, if_false]
        rw [Dec.andThen, hx, Out.bind_done]
        obtain ⟨sp, hsp⟩ := ih xs (done ++ [x]) (List.replicate m zero) false hxs (.inr fun r hr => List.eq_of_mem_replicate hr)
        exact ⟨sp, by simpa using hsp⟩
      | cons v rest =>
        simp only [List.isEmpty_cons, Bool.false_eq_true, if_false, Bool.not_false, Bool.and_true]
        have hv : (if mz = true then zero else v) = zero := by
          cases mz with
          | true => rfl
          | false => rcases hr with hr | hr
                     · cases hr
                     · simpa using hr v (by simp)
        rw [hv, Dec.andThen, hx, Out.bind_done]
        obtain ⟨sp, hsp⟩ := ih xs (done ++ [x]) rest mz hxs (hr.imp id fun hr r h => hr r (by simp [h]))
        exact ⟨sp, by simpa using hsp⟩

theorem mapIndex_none {k : GoVal} {es : List (GoVal × GoVal)} (h : ∀ e ∈ es, k.keyEq e.1 = false) : mapIndex k es = none := by
  induction es with
  | nil => rfl
  | cons e es ih =>
    obtain ⟨k', v⟩ := e
    rw [mapIndex, if_neg (by simpa using h (k', v) (by simp))]
    exact ih fun e he => h e (by simp [he])

theorem setMapIndex_new {k v : GoVal} {es : List (GoVal × GoVal)} (h : ∀ e ∈ es, k.keyEq e.1 = false) : setMapIndex k v es = es ++ [(k, v)] := by
  induction es with
  | nil => rfl
  | cons e es ih =>
    obtain ⟨k', v⟩ := e
    rw [setMapIndex, if_neg (by simpa using h (k', v) (by simp)), ih fun e he => h e (by simp [he])]
    rfl

theorem decEntries_new {uk uv : GoVal → TVal → Dec GoVal} {zk zv : GoVal} (tes : List (TVal × TVal)) (xs : List (GoVal × GoVal)) (es : List (GoVal × GoVal))
    (h : Pointwise (fun te x => uk zk te.1 = .done (x.1, none) ∧ uv zv te.2 = .done (x.2, none)) tes xs)
    (hd : (es ++ xs).Pairwise fun x y => y.1.keyEq x.1 = false) : decEntries uk uv zk zv tes es = .done (es ++ xs, none) := by
  induction tes generalizing xs es with
  | nil =>
    have := List.length_eq_zero_iff.1 h.1
    subst this
    rw [decEntries]
    simp
  | cons te tes ih =>
    cases xs with
    | nil => have := h.1; simp at this
    | cons x xs =>
      obtain ⟨k, v⟩ := x
      obtain ⟨hk, hv⟩ := h.2 0 te (k, v) rfl rfl
      have hxs : Pointwise (fun te x => uk zk te.1 = .done (x.1, none) ∧ uv zv te.2 = .done (x.2, none)) tes xs :=
        ⟨by have := h.1; simpa using this, fun i a b ha hb => h.2 (i + 1) a b (by simpa using ha) (by simpa using hb)⟩
      have hnew : ∀ e ∈ es, k.keyEq e.1 = false := by
        intro e he
        exact (List.pairwise_append.1 hd).2.2 e he (k, v) (by simp)
      rw [decEntries, Dec.andThen, hk, Out.bind_done]
      dsimp only
      rw [mapIndex_none hnew, Option.getD_none, Dec.andThen, hv, Out.bind_done]
      dsimp only
      rw [setMapIndex_new hnew, ih xs _ hxs (by simpa using hd)]
      simp

theorem decFields_new {env : Env} {t : TypeId} {fuel : Nat} {sfs : List SField} (htab : Table env fuel t sfs) (hd : DistinctIds env t) (tfs : List (Bytes × BitVec 16 × TVal))
    (order : List Nat) (news : List GoVal) (vals : List GoVal) (m : Nat) (hl1 : tfs.length = order.length) (hl2 : news.length = order.length) (hn : order.Nodup)
    (h : ∀ (j i : Nat) tf w, order[j]? = some i → tfs[j]? = some tf → news[j]? = some w → ∃ f, (env.fields t)[i]? = some f ∧ (∃ req, Declares env f tf.2.1 req) ∧
      ∃ v, vals[i]? = some v ∧ ∀ a n, lookupArshaler env n f.typ = .done a → dec env m a v tf.2.2 = .done (w, none)) :
    ∃ vals' m', decFields env m' t sfs vals tfs = .done (.struct vals', none) ∧ vals'.length = vals.length ∧
      (∀ (j i : Nat), order[j]? = some i → vals'[i]? = news[j]?) ∧ (∀ i : Nat, i ∉ order → vals'[i]? = vals[i]?) := by
  induction tfs generalizing order news vals with
  | nil =>
    have := List.length_eq_zero_iff.1 hl1.symm
    subst this
    exact ⟨vals, 1, by rw [decFields], rfl, by simp, by simp⟩
  | cons tf tfs ih =>
    cases order with
    | nil => simp at hl1
    | cons i order =>
      cases news with
      | nil => simp at hl2
      | cons w news =>
        obtain ⟨f, hf, ⟨req, hdecl⟩, v, hv, hdec⟩ := h 0 i tf w rfl rfl rfl
        obtain ⟨hin, hn'⟩ := List.nodup_cons.1 hn
        obtain ⟨vals', m', h1, h2, h3, h4⟩ := ih order news (vals.set i w) (by simpa using hl1) (by simpa using hl2) hn' (fun j i' tf' w' hj htf hw => by
          obtain ⟨f', hf', hd', v', hv', hdec'⟩ := h (j + 1) i' tf' w' (by simpa using hj) (by simpa using htf) (by simpa using hw)
          refine ⟨f', hf', hd', v', ?_, hdec'⟩
          have : i' ∈ order := List.mem_of_getElem? hj
          have hne : i ≠ i' := fun h => hin (h ▸ this)
          rw [List.getElem?_set_ne hne]
          exact hv')
        rcases htab.all i f hf with hi | ⟨sf, hsf, rfl⟩
        · exact absurd hdecl hi.not_declares
        · obtain ⟨d, hd1, hd2, hd3, hd4, hd5⟩ := htab.mem sf hsf
          rw [hf] at hd1
          cases hd1
          have hid : sf.id = tf.2.1 := (hd2.unique hdecl).1
          have hby := htab.byID hd hsf
          rw [hid] at hby
          refine ⟨vals', max m m' + 1, ?_, ?_, ?_, ?_⟩
          · rw [decFields, hby]
            dsimp only
            rw [hv]
            dsimp only
            rw [(dec_le env (Nat.le_max_left m m') _ _ _).done (hdec sf.a fuel hd5), Dec.andThen, Out.bind_done]
            exact ((dec_le_both env m' (max m m') (Nat.le_max_right m m')).2 _ _ _ _).done h1
          · rw [h2, List.length_set]
          · intro j i' hj
            cases j with
            | zero =>
              simp only [List.getElem?_cons_zero, Option.some.injEq] at hj
              subst hj
              rw [h4 _ hin, List.getElem?_set_self (List.getElem?_eq_some_iff.1 hv).1]
              rfl
            | succ j =>
              rw [List.getElem?_cons_succ] at hj ⊢
              exact h3 j i' hj
          · intro i' hi'
            rw [List.mem_cons, not_or] at hi'
            rw [h4 i' hi'.2, List.getElem?_set_ne (fun h => hi'.1 h.symm)]

theorem collect {α β γ : Type} {P : α → β → γ → Nat → Prop} (mono : ∀ a b c n m, n ≤ m → P a b c n → P a b c m) (as : List α) (bs : List β) (hlen : bs.length = as.length)
    (h : ∀ (i : Nat) a b, as[i]? = some a → bs[i]? = some b → ∃ c n, P a b c n) :
    ∃ (cs : List γ) (n : Nat), cs.length = as.length ∧ ∀ (i : Nat) a b c, as[i]? = some a → bs[i]? = some b → cs[i]? = some c → P a b c n := by
  induction as generalizing bs with
  | nil => exact ⟨[], 0, rfl, by simp⟩
  | cons a as ih =>
    cases bs with
    | nil => simp at hlen
    | cons b bs =>
      obtain ⟨cs, n, h1, h2⟩ := ih bs (by simpa using hlen) fun i a b ha hb => h (i + 1) a b (by simpa using ha) (by simpa using hb)
      obtain ⟨c, n', hc⟩ := h 0 a b rfl rfl
      refine ⟨c :: cs, max n n', by simp [h1], fun i a' b' c' ha hb hc' => ?_⟩
      cases i with
      | zero =>
        simp only [List.getElem?_cons_zero, Option.some.injEq] at ha hb hc'
        subst ha hb hc'
        exact mono _ _ _ _ _ (Nat.le_max_right _ _) hc
      | succ i =>
        simp only [List.getElem?_cons_succ] at ha hb hc'
        exact mono _ _ _ _ _ (Nat.le_max_left _ _) (h2 i a' b' c' ha hb hc')

theorem keysSurvive_zero (env : Env) (t : TypeId) : KeysSurvive env t (env.zero t) := by
  refine everywhere_zero (fun t => ?_) t
  rw [env.zero_eq]
  cases (env.type t).kind <;> simp only [Kind.zero]
  cases (env.type t).asBytes <;> trivial

theorem lookup_succ {env : Env} {n : Nat} {t : TypeId} {a : Arsh} (h : lookupArshaler env n t = .done a) : ∃ n', lookupArshaler env (n' + 1) t = .done a := by
  cases n with
  | zero => cases h
  | succ n => exact ⟨n, h⟩

/-- The arshaler of `t` decodes `tv` into a zero value to what `v` comes back as. -/
def Restores (env : Env) (t : TypeId) (v : GoVal) (tv : TVal) : Prop :=
  ∀ n a, lookupArshaler env n t = .done a → ∃ v', RoundTrip env t v v' ∧ ∃ m, dec env m a (env.zero t) tv = .done (v', none)

theorem dec_mono {env : Env} {n m : Nat} (h : n ≤ m) {a : Arsh} {old v : GoVal} {tv : TVal} {e : Option Err} (hd : dec env n a old tv = .done (v, e)) : dec env m a old tv = .done (v, e) :=
  (dec_le env h a old tv).done hd

theorem seq_restores {env : Env} {t e : TypeId} {v : GoVal} {tvs : List TVal} {tv : TVal} (hkind : (env.type t).kind = .slice e) (hb : (env.type t).asBytes = false)
    (hv : v = .sliceNil ∨ ∃ es sp, v = .slice es sp) (hlen : tvs.length = (elemsOf v).length)
    (ih : ∀ (i : Nat) x tv, (elemsOf v)[i]? = some x → tvs[i]? = some tv → Restores env e x tv)
    (htv : ∃ w, ((env.type t).isSet = true ∧ tv = .set w tvs) ∨ ((env.type t).isSet = false ∧ tv = .list w tvs)) : Restores env t v tv := by
  intro n a hl
  obtain ⟨n, hl⟩ := lookup_succ hl
  have hc := lookup_cases hl
  have hz := env.zero_eq t
  rw [hkind] at hc hz
  rw [hb] at hz
  rcases hc with ⟨hb', _⟩ | ⟨_, ea, hle, rfl⟩
  · rw [hb] at hb'; cases hb'
  have hbody : ∀ m, dec env (m + 1) (.seq t (env.type t).isSet ea) (env.zero t) tv =
      if tvs ≠ [] then (decLoop (fun v tv => dec env m ea v tv) (env.zero e) (env.grow t) tvs [] [] true).andThen (fun p => .slice p.1 p.2) fun p => .done (.slice p.1 p.2, none)
      else .done (.sliceNil, none) := by
    intro m
    rw [hz, dec, (lookup_wireType hle).1]
    obtain ⟨w, ⟨hs, rfl⟩ | ⟨hs, rfl⟩⟩ := htv <;> rw [hs] <;> rfl
  by_cases he : tvs = []
  · subst he
    refine ⟨.sliceNil, .emptySlice ?_, 1, by rw [hbody]; rfl⟩
    rcases hv with hv | ⟨es, sp, rfl⟩
    · exact .inl hv
    · have : es = [] := List.length_eq_zero_iff.1 hlen.symm
      exact .inr ⟨sp, by rw [this]⟩
  · obtain ⟨xs, m, h1, h2⟩ := collect (P := fun x tv x' m => RoundTrip env e x x' ∧ dec env m ea (env.zero e) tv = .done (x', none))
      (fun _ _ _ n m hnm h => ⟨h.1, dec_mono hnm h.2⟩) (elemsOf v) tvs hlen (fun i x tv hx htv => by
        obtain ⟨x', hr, m, hm⟩ := ih i x tv hx htv n ea hle
        exact ⟨x', m, hr, hm⟩)
    obtain ⟨sp', hsp⟩ := decLoop_zero (u := fun v tv => dec env m ea v tv) (zero := env.zero e) (grow := env.grow t) tvs xs [] [] true
      ⟨h1.trans hlen.symm, fun i tv x htv hx => by
        have hi : i < (elemsOf v).length := hlen ▸ (List.getElem?_eq_some_iff.1 htv).1
        exact (h2 i _ tv x (List.getElem?_eq_getElem hi) htv hx).2⟩ (.inl rfl)
    refine ⟨.slice xs sp', ?_, m + 1, ?_⟩
    · rcases hv with rfl | ⟨es, sp, rfl⟩
      · exact absurd (List.length_eq_zero_iff.1 hlen) he
      · refine .slice (fun h => he ?_) h1 fun i x x' hx hx' => ?_
        · subst h; exact List.length_eq_zero_iff.1 hlen
        · have hi : i < tvs.length := hlen ▸ (List.getElem?_eq_some_iff.1 hx).1
          rw [elemType_slice hkind]
          exact (h2 i x _ x' hx (List.getElem?_eq_getElem hi) hx').1
    · rw [hbody, if_pos he, hsp]
      simp [Dec.andThen]

theorem map_restores {env : Env} {t k e : TypeId} {kw ew : WType} {v : GoVal} {tes : List (TVal × TVal)} (hkind : (env.type t).kind = .map k e) (hv : v = .mapNil ∨ ∃ es, v = .map es)
    (hlen : tes.length = (entriesOf v).length) (hk : KeysSurvive env t v)
    (ih1 : ∀ (i : Nat) x te, (entriesOf v)[i]? = some x → tes[i]? = some te → Restores env k x.1 te.1)
    (ih2 : ∀ (i : Nat) x te, (entriesOf v)[i]? = some x → tes[i]? = some te → Restores env e x.2 te.2) : Restores env t v (.map kw ew tes) := by
  intro n a hl
  obtain ⟨n, hl⟩ := lookup_succ hl
  have hc := lookup_cases hl
  have hz := env.zero_eq t
  rw [hkind] at hc hz
  obtain ⟨ka, ea, hlk, hle, rfl⟩ := hc
  by_cases he : tes = []
  · subst he
    refine ⟨.mapNil, .emptyMap ?_, 1, by rw [hz, dec]; rfl⟩
    rcases hv with hv | ⟨es, rfl⟩
    · exact .inl hv
    · have : es = [] := List.length_eq_zero_iff.1 hlen.symm
      exact .inr (by rw [this])
  · obtain ⟨xs, m, h1, h2⟩ := collect (P := fun (x : GoVal × GoVal) (te : TVal × TVal) (x' : GoVal × GoVal) m => (RoundTrip env k x.1 x'.1 ∧ dec env m ka (env.zero k) te.1 = .done (x'.1, none)) ∧
        (RoundTrip env e x.2 x'.2 ∧ dec env m ea (env.zero e) te.2 = .done (x'.2, none)))
      (fun _ _ _ n m hnm h => ⟨⟨h.1.1, dec_mono hnm h.1.2⟩, ⟨h.2.1, dec_mono hnm h.2.2⟩⟩) (entriesOf v) tes hlen (fun i x te hx hte => by
        obtain ⟨x1, hr1, m1, hm1⟩ := ih1 i x te hx hte n ka hlk
        obtain ⟨x2, hr2, m2, hm2⟩ := ih2 i x te hx hte n ea hle
        exact ⟨(x1, x2), max m1 m2, ⟨hr1, dec_mono (Nat.le_max_left _ _) hm1⟩, ⟨hr2, dec_mono (Nat.le_max_right _ _) hm2⟩⟩)
    rcases hv with rfl | ⟨es, rfl⟩
    · exact absurd (List.length_eq_zero_iff.1 hlen) he
    · have hlen : tes.length = es.length := hlen
      have h1 : xs.length = es.length := h1
      have hk' := hk.1
      dsimp only at hk'
      rw [keyType_map hkind] at hk'
      have hdist : ([] ++ xs).Pairwise fun (x y : GoVal × GoVal) => y.1.keyEq x.1 = false := by
        rw [List.nil_append, List.pairwise_iff_getElem]
        intro i j hi hj hij
        have hi' : i < es.length := by rw [← h1]; exact hi
        have hj' : j < es.length := by rw [← h1]; exact hj
        have hi2 : i < tes.length := by omega
        have hj2 : j < tes.length := by omega
        exact hk' i j es[i] es[j] _ _ hij (List.getElem?_eq_getElem hi') (List.getElem?_eq_getElem hj')
          (h2 i _ _ _ (List.getElem?_eq_getElem hi') (List.getElem?_eq_getElem hi2) (List.getElem?_eq_getElem hi)).1.1
          (h2 j _ _ _ (List.getElem?_eq_getElem hj') (List.getElem?_eq_getElem hj2) (List.getElem?_eq_getElem hj)).1.1
      have hdec := decEntries_new (uk := fun v tv => dec env m ka v tv) (uv := fun v tv => dec env m ea v tv) (zk := env.zero k) (zv := env.zero e) tes xs []
        ⟨h1.trans hlen.symm, fun i te x hte hx => by
          have hi : i < es.length := hlen ▸ (List.getElem?_eq_some_iff.1 hte).1
          have := h2 i _ te x (List.getElem?_eq_getElem hi) hte hx
          exact ⟨this.1.2, this.2.2⟩⟩ hdist
      refine ⟨.map xs, .map (fun h => he ?_) h1 (fun i x x' hx hx' => ?_) (fun i x x' hx hx' => ?_), m + 1, ?_⟩
      · subst h; exact List.length_eq_zero_iff.1 hlen
      · have hi : i < tes.length := hlen ▸ (List.getElem?_eq_some_iff.1 hx).1
        rw [keyType_map hkind]
        exact (h2 i x _ x' hx (List.getElem?_eq_getElem hi) hx').1.1
      · have hi : i < tes.length := hlen ▸ (List.getElem?_eq_some_iff.1 hx).1
        rw [elemType_map hkind]
        exact (h2 i x _ x' hx (List.getElem?_eq_getElem hi) hx').2.1
      · rw [hz, dec, (lookup_wireType hlk).1, (lookup_wireType hle).1]
        simp only [Kind.zero, decMap, GoVal.entries?]
        rw [if_pos he, hdec]
        simp [Dec.andThen]

theorem struct_restores {env : Env} {t : TypeId} {fs : List FieldDecl} {vs : List GoVal} {tfs : List (Bytes × BitVec 16 × TVal)} (order : List Nat) (hkind : (env.type t).kind = .struct fs)
    (hlen : vs.length = fs.length) (hfs : ∀ f ∈ fs, Ignored f ∨ ∃ id required w, Declares env f id required ∧ WireTypeOf env f.typ w)
    (hacc : ∀ f ∈ fs, ¬ Ignored f → Acc (InPart env) f.typ) (htag : fs ≠ [] → ∃ f ∈ fs, f.tag ≠ none) (hnd : order.Nodup)
    (hord : ∀ i : Nat, i ∈ order ↔ ∃ f v, fs[i]? = some f ∧ vs[i]? = some v ∧ Written env f v) (hlen' : tfs.length = order.length)
    (hname : ∀ (j i : Nat) tf f, order[j]? = some i → tfs[j]? = some tf → fs[i]? = some f → tf.1 = f.name ∧ ∃ required, Declares env f tf.2.1 required)
    (hd : DistinctIds env t)
    (ih : ∀ (j i : Nat) tf f v, order[j]? = some i → tfs[j]? = some tf → fs[i]? = some f → vs[i]? = some v → Restores env f.typ v tf.2.2) :
    Restores env t (.struct vs) (.struct (env.type t).name tfs) := by
  intro n a hl
  obtain ⟨n, hl⟩ := lookup_succ hl
  have hc := lookup_cases hl
  have hz := env.zero_eq t
  rw [hkind] at hc hz
  subst hc
  have hf := fields_struct hkind
  obtain ⟨nt, sfs, hmk⟩ := table_exists env t (by rw [hf]; exact fun f h => (hfs f h).imp id fun ⟨id, r, w, h, _⟩ => ⟨id, r, h⟩) (by rw [hf]; exact hacc) (by rw [hf]; exact htag)
  have htab := makeStructFields_table env nt t sfs hmk
  obtain ⟨news, m, h1, h2⟩ := collect (P := fun (i : Nat) (tf : Bytes × BitVec 16 × TVal) (w : GoVal) m => ∀ f v, fs[i]? = some f → vs[i]? = some v → RoundTrip env f.typ v w ∧
      ∀ a n, lookupArshaler env n f.typ = .done a → dec env m a (env.zero f.typ) tf.2.2 = .done (w, none))
    (fun _ _ _ n m hnm h f v hf hv => ⟨(h f v hf hv).1, fun a n hl => dec_mono hnm ((h f v hf hv).2 a n hl)⟩) order tfs hlen' (fun j i tf hi htf => by
      obtain ⟨f, v, hf', hv, id, req, hdecl, _⟩ := (hord i).1 (List.mem_of_getElem? hi)
      obtain ⟨n', a', hl'⟩ := (lookup_iff_acc env f.typ).2 (hacc f (List.mem_of_getElem? hf') fun hi => hi.not_declares hdecl)
      obtain ⟨w, hr, m, hm⟩ := ih j i tf f v hi htf hf' hv n' a' hl'
      refine ⟨w, m, fun f2 v2 hf2 hv2 => ?_⟩
      rw [hf'] at hf2; cases hf2
      rw [hv] at hv2; cases hv2
      exact ⟨hr, fun a2 n2 hl2 => by rw [lookup_unique hl2 hl']; exact hm⟩)
  obtain ⟨vals', m', h3, h4, h5, h6⟩ := decFields_new htab hd tfs order news (fs.map fun f => env.zero f.typ) m hlen' h1 hnd (fun j i tf w hi htf hw => by
    obtain ⟨f, v, hf', hv, id, req, hdecl, _⟩ := (hord i).1 (List.mem_of_getElem? hi)
    obtain ⟨_, hdecl'⟩ := hname j i tf f hi htf hf'
    refine ⟨f, by rw [hf]; exact hf', hdecl', env.zero f.typ, by rw [List.getElem?_map, hf']; rfl, ?_⟩
    exact (h2 j i tf w hi htf hw f v hf' hv).2)
  rw [List.length_map] at h4
  refine ⟨.struct vals', .struct (h4.trans hlen.symm) (fun i f v v' hf' hv hv' hw => ?_) (fun i f v v' hf' hv hv' hw => ?_), max nt m' + 1, ?_⟩
  · rw [hf] at hf'
    have hi : i ∈ order := (hord i).2 ⟨f, v, hf', hv, hw⟩
    obtain ⟨j, hj⟩ := List.mem_iff_getElem?.1 hi
    have hjl : j < tfs.length := hlen' ▸ (List.getElem?_eq_some_iff.1 hj).1
    rw [h5 j i hj] at hv'
    exact (h2 j i _ v' hj (List.getElem?_eq_getElem hjl) hv' f v hf' hv).1
  · rw [hf] at hf'
    have hi : i ∉ order := fun hi => by
      obtain ⟨f2, v2, hf2, hv2, hw2⟩ := (hord i).1 hi
      rw [hf'] at hf2; cases hf2
      rw [hv] at hv2; cases hv2
      exact hw hw2
    rw [h6 i hi, List.getElem?_map, hf'] at hv'
    cases hv'
    rfl
  · rw [hz, dec, (makeStructFields_le env nt (max nt m') (Nat.le_max_left _ _) t).done hmk]
    exact ((dec_le_both env m' (max nt m') (Nat.le_max_right _ _)).2 _ _ _ _).done h3

/-- Decoding the wire value of a Go value into a zero value succeeds and gives the Go value back, up to `RoundTrip`. -/
theorem rep_restores {env : Env} {t : TypeId} {v : GoVal} {tv : TVal} (h : Rep env t v tv) (hk : KeysSurvive env t v) (hd : ∀ t', Within env t' t → DistinctIds env t') :
    Restores env t v tv := by
  have part : ∀ {t e : TypeId}, (∀ t', Within env t' t → DistinctIds env t') → PartOf env e t → ∀ t', Within env t' e → DistinctIds env t' :=
    fun hd hp t' hw => hd t' (.step hw hp)
  induction h with
  | @leaf t v tv h =>
    intro n a hl
    obtain ⟨n, hl⟩ := lookup_succ hl
    have hc := lookup_cases hl
    have hz := env.zero_eq t
    cases h with
    | bool b hkind => rw [hkind] at hc hz; subst hc; exact ⟨.bool b, .same (.inl ⟨b, rfl⟩), 1, by rw [hz, dec]; rfl⟩
    | f32 b hkind => rw [hkind] at hc hz; subst hc; exact ⟨_, .f32 b, 1, by rw [hz, dec]; rfl⟩
    | f64 b hkind => rw [hkind] at hc hz; subst hc; exact ⟨.f64 b, .same (.inr (.inl ⟨b, rfl⟩)), 1, by rw [hz, dec]; rfl⟩
    | i8 b hkind => rcases hkind with hkind | hkind <;> rw [hkind] at hc hz <;> subst hc <;> exact ⟨.i8 b, .same (by simp), 1, by rw [hz, dec]; rfl⟩
    | i16 b hkind => rcases hkind with hkind | hkind <;> rw [hkind] at hc hz <;> subst hc <;> exact ⟨.i16 b, .same (by simp), 1, by rw [hz, dec]; rfl⟩
    | i32 b hkind => rcases hkind with hkind | hkind <;> rw [hkind] at hc hz <;> subst hc <;> exact ⟨.i32 b, .same (by simp), 1, by rw [hz, dec]; rfl⟩
    | i64 b hkind => rcases hkind with hkind | hkind <;> rw [hkind] at hc hz <;> subst hc <;> exact ⟨.i64 b, .same (by simp), 1, by rw [hz, dec]; rfl⟩
    | str b hkind => rw [hkind] at hc hz; subst hc; exact ⟨.str b, .same (by simp), 1, by rw [hz, dec]; rfl⟩
    | uuid b hkind => rw [hkind] at hc hz; subst hc; exact ⟨.uuid b, .same (by simp), 1, by rw [hz, dec]; rfl⟩
    | bytes b hkind hb =>
      rw [hkind] at hc hz
      rcases hc with ⟨_, rfl⟩ | ⟨hb', _⟩
      · rw [hb] at hz
        cases b with
        | none => exact ⟨.bytes none, .same (by simp), 1, by rw [hz, dec]; rfl⟩
        | some b =>
          cases b with
          | nil => exact ⟨.bytes none, .emptyBytes, 1, by rw [hz, dec]; rfl⟩
          | cons x b => exact ⟨.bytes (some (x :: b)), .same (by simp), 1, by rw [hz, dec]; rfl⟩
      · rw [hb] at hb'; cases hb'
  | @ptr t e v tv hkind h ih =>
    intro n a hl
    obtain ⟨n, hl⟩ := lookup_succ hl
    have hc := lookup_cases hl
    have hz := env.zero_eq t
    rw [hkind] at hc hz
    obtain ⟨ea, hle, rfl⟩ := hc
    have hk' := hk.2
    rw [elemType_ptr hkind] at hk'
    obtain ⟨v', h1, m, h2⟩ := ih hk' (part hd (by simp [PartOf, hkind])) n ea hle
    refine ⟨.ptr v', .ptr (by rw [elemType_ptr hkind]; exact h1), m + 1, ?_⟩
    rw [hz, dec, (lookup_wireType hle).1]
    simp only [Kind.zero, GoVal.deref?]
    rw [h2]
    rfl
  | @ptrNil t e tv hkind h ih =>
    intro n a hl
    obtain ⟨n, hl⟩ := lookup_succ hl
    have hc := lookup_cases hl
    have hz := env.zero_eq t
    rw [hkind] at hc hz
    obtain ⟨ea, hle, rfl⟩ := hc
    obtain ⟨v', h1, m, h2⟩ := ih (keysSurvive_zero env e) (part hd (by simp [PartOf, hkind])) n ea hle
    refine ⟨.ptr v', .ptrNil (by rw [elemType_ptr hkind]; exact h1), m + 1, ?_⟩
    rw [hz, dec, (lookup_wireType hle).1]
    simp only [Kind.zero, GoVal.deref?]
    rw [h2]
    rfl
  | @set t e w v tvs hkind hs hv hw hlen h ih =>
    have hb : (env.type t).asBytes = false := by simp [GoType.asBytes, hs]
    refine seq_restores hkind hb hv hlen (fun i x tv hx htv => ih i x tv hx htv ?_ (part hd (by simp [PartOf, hkind, hb]))) ⟨w, .inl ⟨hs, rfl⟩⟩
    rcases hv with rfl | ⟨es, sp, rfl⟩
    · simp [elemsOf] at hx
    · have := (everywhereElems_iff _).1 hk.2 x (List.mem_of_getElem? hx)
      rwa [elemType_slice hkind] at this
  | @list t e w v tvs hkind hs hb hv hw hlen h ih =>
    refine seq_restores hkind hb hv hlen (fun i x tv hx htv => ih i x tv hx htv ?_ (part hd (by simp [PartOf, hkind, hb]))) ⟨w, .inr ⟨hs, rfl⟩⟩
    rcases hv with rfl | ⟨es, sp, rfl⟩
    · simp [elemsOf] at hx
    · have := (everywhereElems_iff _).1 hk.2 x (List.mem_of_getElem? hx)
      rwa [elemType_slice hkind] at this
  | @map t k e kw ew v tes hkind hv hkw hew hlen h1 h2 ih1 ih2 =>
    have hent : ∀ x ∈ entriesOf v, KeysSurvive env k x.1 ∧ KeysSurvive env e x.2 := by
      rcases hv with rfl | ⟨es, rfl⟩
      · simp [entriesOf]
      · have := (everywhereEntries_iff _).1 hk.2
        rw [elemType_map hkind, keyType_map hkind] at this
        exact this
    exact map_restores hkind hv hlen hk
      (fun i x te hx hte => ih1 i x te hx hte (hent x (List.mem_of_getElem? hx)).1 (part hd (by simp [PartOf, hkind])))
      (fun i x te hx hte => ih2 i x te hx hte (hent x (List.mem_of_getElem? hx)).2 (part hd (by simp [PartOf, hkind])))
  | @struct t fs vs tfs order hkind hlen hfs hacc htag hnd hord hsort hlen' hname h ih =>
    refine struct_restores order hkind hlen hfs hacc htag hnd hord hlen' hname (hd t (.refl t)) fun j i tf f v hj htf hf hv =>
      ih j i tf f v hj htf hf hv ?_ (part hd ?_)
    · have := (everywhereFields_iff _ _).1 hk.2
      rw [fields_struct hkind] at this
      exact this i f v hf hv
    · simp only [PartOf, hkind]
      exact ⟨f, List.mem_of_getElem? hf, rfl⟩

end GoThrift
