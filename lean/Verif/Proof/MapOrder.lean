import Verif.Spec.MapOrder
import Verif.Proof.CanonRep

/-!
# The order of map entries: lemmas
-/

namespace GoThrift

open Spec Spec.TVal

theorem Spec.SameValue.unordered {o : Bool} {v v' : GoVal} (h : SameValue o v v') : SameValue false v v' := by
  induction h with
  | refl => exact .refl _
  | ptr _ ih => exact .ptr ih
  | slice hlen _ ih => exact .slice hlen ih
  | map hp _ hlen _ _ ih1 ih2 => exact .map hp (fun h => by cases h) hlen ih1 ih2
  | struct hlen _ ih => exact .struct hlen ih

theorem Spec.FairIsZero.zeroSame {env : Env} {t : TypeId} (h : FairIsZero env t) : ZeroSame env t := fun t' ht' o v v' ht hs => by
  unfold reportsZero
  cases hm : env.isZero t' with
  | none => exact hs.isZero _
  | some m =>
    have e := h t' m ht' hm v v' ht hs.unordered
    cases hs with
    | refl => rfl
    | ptr hs => dsimp only; split <;> simp_all
    | slice => dsimp only; split <;> simp_all
    | map => dsimp only; split <;> simp_all
    | struct => dsimp only; split <;> simp_all

/-- What is paired with a list can be permuted along with it. -/
theorem perm_along {α β : Type} {l l' : List α} (h : l.Perm l') (m : List β) (hlen : m.length = l.length) :
    ∃ m' : List β, m.Perm m' ∧ m'.length = l'.length ∧ ∀ (i : Nat) a b, l'[i]? = some a → m'[i]? = some b → ∃ j : Nat, l[j]? = some a ∧ m[j]? = some b := by
  induction h generalizing m with
  | nil =>
    refine ⟨m, .refl _, hlen, fun i a b h1 h2 => by cases h1⟩
  | cons x _ ih =>
    cases m with
    | nil => cases hlen
    | cons y m =>
      obtain ⟨m', h1, h2, h3⟩ := ih m (by simpa using hlen)
      refine ⟨y :: m', h1.cons y, by simp [h2], fun i a b h4 h5 => ?_⟩
      cases i with
      | zero => exact ⟨0, h4, h5⟩
      | succ i =>
        obtain ⟨j, h6, h7⟩ := h3 i a b h4 h5
        exact ⟨j + 1, h6, h7⟩
  | swap x y l =>
    match m, hlen with
    | c :: d :: m, hlen =>
      refine ⟨d :: c :: m, .swap d c m, by simpa using hlen, fun i a b h4 h5 => ?_⟩
      match i with
      | 0 => exact ⟨1, h4, h5⟩
      | 1 => exact ⟨0, h4, h5⟩
      | i + 2 => exact ⟨i + 2, h4, h5⟩
  | trans _ _ ih1 ih2 =>
    obtain ⟨m1, p1, l1, h1⟩ := ih1 m hlen
    obtain ⟨m2, p2, l2, h2⟩ := ih2 m1 l1
    refine ⟨m2, p1.trans p2, l2, fun i a b h4 h5 => ?_⟩
    obtain ⟨j, h6, h7⟩ := h2 i a b h4 h5
    exact h1 j a b h6 h7

/-- Lists can be chosen position by position. -/
theorem exists_at {β : Type} {P : Nat → β → Prop} (n : Nat) (h : ∀ i, i < n → ∃ b, P i b) : ∃ l : List β, l.length = n ∧ ∀ (i : Nat) b, l[i]? = some b → P i b := by
  induction n with
  | zero => exact ⟨[], rfl, fun i b h => by cases h⟩
  | succ n ih =>
    obtain ⟨l, h1, h2⟩ := ih fun i hi => h i (by omega)
    obtain ⟨b, hb⟩ := h n (by omega)
    refine ⟨l ++ [b], by simp [h1], fun i c hc => ?_⟩
    rcases Nat.lt_or_ge i l.length with hi | hi
    · exact h2 i c (by rwa [List.getElem?_append_left hi] at hc)
    · rw [List.getElem?_append_right hi] at hc
      obtain ⟨h3, h4⟩ := List.getElem?_eq_some_iff.1 hc
      have : i = n := by simp at h3; omega
      subst this
      simp at h4
      exact h4 ▸ hb

theorem at_lt {α : Type} {l : List α} {i : Nat} (h : i < l.length) : ∃ a, l[i]? = some a := ⟨l[i], List.getElem?_eq_getElem h⟩

theorem lt_at {α : Type} {l : List α} {i : Nat} {a : α} (h : l[i]? = some a) : i < l.length := (List.getElem?_eq_some_iff.1 h).1

/-- Values that are the same but for spare capacity and the order of map entries stand for wire values that are the same but for the order of map entries. -/
theorem Spec.SameValue.rep_reordered {o : Bool} {env : Env} {t : TypeId} {v v' : GoVal} (h : SameValue o v v') (ht : HasType env t v) (hz : ZeroSame env t) {tv : TVal} (hr : Rep env t v tv) :
    ∃ tv', Rep env t v' tv' ∧ Reordered tv tv' := by
  induction h generalizing t tv with
  | refl => exact ⟨tv, hr, .refl _⟩
  | ptr _ ih =>
    obtain ⟨hk, hr⟩ := rep_ptr_inv hr
    obtain ⟨tv', h1, h2⟩ := ih ht.2 (hz.part (partOf_ptr hk)) hr
    exact ⟨tv', .ptr hk h1, h2⟩
  | @slice es es' sp sp' hlen _ ih =>
    have hk' := HasType.kindSlice ht (.inr ⟨_, _, rfl⟩)
    have elems : ∀ tvs : List TVal, tvs.length = es.length → (∀ (i : Nat) x tv, es[i]? = some x → tvs[i]? = some tv → Rep env (env.elemType t) x tv) →
        ∃ tvs' : List TVal, tvs'.length = es'.length ∧ (∀ (i : Nat) x tv, es'[i]? = some x → tvs'[i]? = some tv → Rep env (env.elemType t) x tv) ∧ tvs'.length = tvs.length ∧
          ∀ (i : Nat) a b, tvs[i]? = some a → tvs'[i]? = some b → Reordered a b := fun tvs hl hr => by
      obtain ⟨tvs', h1, h2⟩ := exists_at (P := fun i tv' => ∀ x' tv, es'[i]? = some x' → tvs[i]? = some tv → Rep env (env.elemType t) x' tv' ∧ Reordered tv tv') es.length fun i hi => by
        obtain ⟨x, hx⟩ := at_lt hi
        obtain ⟨x', hx'⟩ := at_lt (hlen ▸ hi)
        obtain ⟨tv, htv⟩ := at_lt (hl ▸ hi)
        obtain ⟨tv', h1, h2⟩ := ih i x x' hx hx' (HasType.elem ht (List.mem_of_getElem? hx)) (hz.part (partOf_slice hk')) (hr i x tv hx htv)
        refine ⟨tv', fun y' tw hy htw => ?_⟩
        rw [hx'] at hy
        rw [htv] at htw
        cases hy
        cases htw
        exact ⟨h1, h2⟩
      refine ⟨tvs', h1.trans hlen.symm, fun i x tv' hx htv' => ?_, h1.trans hl.symm, fun i a b ha hb => ?_⟩
      · obtain ⟨a, ha⟩ := at_lt (l := tvs) (i := i) (by have := lt_at htv'; omega)
        exact (h2 i tv' htv' x a hx ha).1
      · obtain ⟨x', hx'⟩ := at_lt (l := es') (i := i) (by have := lt_at hb; omega)
        exact (h2 i b hb x' a hx' ha).2
    cases hr with
    | leaf h => cases h
    | set hk hs _ hw hlen' hr =>
      have he := elemType_slice hk
      rw [he] at elems
      obtain ⟨tvs', h1, h2, h3, h4⟩ := elems _ hlen' hr
      exact ⟨_, .set hk hs (.inr ⟨_, _, rfl⟩) hw h1 h2, .set _ h3 h4⟩
    | list hk hs hb _ hw hlen' hr =>
      have he := elemType_slice hk
      rw [he] at elems
      obtain ⟨tvs', h1, h2, h3, h4⟩ := elems _ hlen' hr
      exact ⟨_, .list hk hs hb (.inr ⟨_, _, rfl⟩) hw h1 h2, .list _ h3 h4⟩
    | map _ h => simp at h
  | @map es es1 es' hp _ hlen _ _ ih1 ih2 =>
    have hk' := HasType.kindMap ht (.inr ⟨_, rfl⟩)
    cases hr with
    | leaf h => cases h
    | set _ _ h => simp at h
    | list _ _ _ h => simp at h
    | @map _ k e kw ew _ tes hk _ hw hw' hlen' hr1 hr2 =>
      have he := elemType_map hk
      have hke := keyType_map hk
      simp only [entriesOf] at hlen' hr1 hr2
      obtain ⟨tes1, h1, h2⟩ := exists_at (P := fun i (te' : TVal × TVal) => ∀ (x' : GoVal × GoVal) (te : TVal × TVal), es1[i]? = some x' → tes[i]? = some te →
          Rep env k x'.1 te'.1 ∧ Rep env e x'.2 te'.2 ∧ Reordered te.1 te'.1 ∧ Reordered te.2 te'.2) es.length fun i hi => by
        obtain ⟨x, hx⟩ := at_lt hi
        obtain ⟨x', hx'⟩ := at_lt (hlen ▸ hi)
        obtain ⟨te, hte⟩ := at_lt (hlen' ▸ hi)
        obtain ⟨a, h1, h2⟩ := ih1 i x x' hx hx' (hke ▸ HasType.key ht (List.mem_of_getElem? hx)) (hz.part (hke ▸ partOf_key hk')) (hr1 i x te hx hte)
        obtain ⟨b, h3, h4⟩ := ih2 i x x' hx hx' (he ▸ HasType.value ht (List.mem_of_getElem? hx)) (hz.part (he ▸ partOf_value hk')) (hr2 i x te hx hte)
        refine ⟨(a, b), fun y' tw hy htw => ?_⟩
        rw [hx'] at hy
        rw [hte] at htw
        cases hy
        cases htw
        exact ⟨h1, h3, h2, h4⟩
      obtain ⟨tes', p, h3, h4⟩ := perm_along hp tes1 (h1.trans hlen.symm)
      have both : ∀ (i : Nat) (x : GoVal × GoVal) (te : TVal × TVal), es'[i]? = some x → tes'[i]? = some te → Rep env k x.1 te.1 ∧ Rep env e x.2 te.2 := fun i x te hx hte => by
        obtain ⟨j, h5, h6⟩ := h4 i x te hx hte
        obtain ⟨a, ha⟩ := at_lt (l := tes) (i := j) (by have := lt_at h6; omega)
        have := h2 j te h6 x a h5 ha
        exact ⟨this.1, this.2.1⟩
      have sides : ∀ (i : Nat) (a b : TVal × TVal), tes[i]? = some a → tes1[i]? = some b → Reordered a.1 b.1 ∧ Reordered a.2 b.2 := fun i a b ha hb => by
        obtain ⟨x', hx'⟩ := at_lt (l := es1) (i := i) (by have := lt_at hb; omega)
        exact (h2 i b hb x' a hx' ha).2.2
      exact ⟨_, .map hk (.inr ⟨_, rfl⟩) hw hw' h3 (fun i x te hx hte => (both i x te hx hte).1) (fun i x te hx hte => (both i x te hx hte).2),
        .map _ _ p (h1.trans hlen'.symm) (fun i a b ha hb => (sides i a b ha hb).1) (fun i a b ha hb => (sides i a b ha hb).2)⟩
  | @struct vs vs' hlen hs ih =>
    cases hr with
    | leaf h => cases h
    | set _ _ h => simp at h
    | list _ _ _ h => simp at h
    | map _ h => simp at h
    | @struct _ fs _ tfs order hkind hl hfs hacc htag hnd hord hsort hlen' hname hrep =>
      have hf' : ∀ {i : Nat} {f : FieldDecl}, fs[i]? = some f → (env.fields t)[i]? = some f := fun h => by rw [fields_struct hkind]; exact h
      obtain ⟨tfs', h1, h2⟩ := exists_at (P := fun j (tf' : Bytes × BitVec 16 × TVal) => ∀ tf, tfs[j]? = some tf → tf'.1 = tf.1 ∧ tf'.2.1 = tf.2.1 ∧ Reordered tf.2.2 tf'.2.2 ∧
          ∀ (i : Nat) f v', order[j]? = some i → fs[i]? = some f → vs'[i]? = some v' → Rep env f.typ v' tf'.2.2) tfs.length fun j hj => by
        obtain ⟨tf, htf⟩ := at_lt hj
        obtain ⟨i, hi⟩ := at_lt (hlen' ▸ hj)
        obtain ⟨f, v, hf, hv, hw⟩ := (hord i).1 (List.mem_of_getElem? hi)
        obtain ⟨v', hv'⟩ := pair_at hlen.symm hv
        obtain ⟨tv', h1, h2⟩ := ih i v v' hv hv' (HasType.field ht (hf' hf) hv) (hz.part (partOf_field (hf' hf))) (hrep j i tf f v hi htf hf hv)
        refine ⟨(tf.1, tf.2.1, tv'), fun tg htg => ?_⟩
        rw [htf] at htg
        cases htg
        refine ⟨rfl, rfl, h2, fun i' f' w hi' hf'' hw => ?_⟩
        rw [hi] at hi'
        cases hi'
        rw [hf] at hf''
        cases hf''
        rw [hv'] at hw
        cases hw
        exact h1
      have tfAt : ∀ {j : Nat} {tf'}, tfs'[j]? = some tf' → ∃ tf, tfs[j]? = some tf := fun h => at_lt (by have := lt_at h; omega)
      refine ⟨.struct (env.type t).name tfs', .struct order hkind (hlen.trans hl) hfs hacc htag hnd (fun i => ?_) ?_ (h1.trans hlen') (fun j i tf' f h3 h4 h5 => ?_)
        (fun j i tf' f v' h3 h4 h5 h6 => ?_), .struct _ h1 (fun j tf tf' h3 h4 => ?_) (fun j tf tf' h3 h4 => ?_)⟩
      · rw [hord]
        constructor
        · rintro ⟨f, v, hf, hv, hw⟩
          obtain ⟨v', hv'⟩ := pair_at hlen.symm hv
          exact ⟨f, v', hf, hv', ((hs i v v' hv hv').written (HasType.field ht (hf' hf) hv) (hz.part (partOf_field (hf' hf)))).1 hw⟩
        · rintro ⟨f, v', hf, hv', hw⟩
          obtain ⟨v, hv⟩ := pair_at hlen hv'
          exact ⟨f, v, hf, hv, ((hs i v v' hv hv').written (HasType.field ht (hf' hf) hv) (hz.part (partOf_field (hf' hf)))).2 hw⟩
      · rw [List.pairwise_iff_getElem] at hsort ⊢
        intro i j hi hj hij
        have e : ∀ (k : Nat) (hk : k < tfs'.length) (hk' : k < tfs.length), tfs'[k].2.1 = tfs[k].2.1 := fun k hk hk' =>
          (h2 k _ (List.getElem?_eq_getElem hk) _ (List.getElem?_eq_getElem hk')).2.1
        rw [e i hi (by omega), e j hj (by omega)]
        exact hsort i j (by omega) (by omega) hij
      · obtain ⟨tf, htf⟩ := tfAt h4
        obtain ⟨e1, e2, _⟩ := h2 j tf' h4 tf htf
        rw [e1, e2]
        exact hname j i tf f h3 htf h5
      · obtain ⟨tf, htf⟩ := tfAt h4
        exact (h2 j tf' h4 tf htf).2.2.2 i f v' h3 h5 h6
      · have := h2 j tf' h4 tf h3
        exact ⟨this.1, this.2.1⟩
      · exact (h2 j tf' h4 tf h3).2.2.1

/-! ## Lengths -/

theorem Spec.TVal.Reordered.ty {tv tv' : TVal} (h : Reordered tv tv') : tv'.ty = tv.ty := by cases h <;> rfl

theorem encBinEntries_perm {es es' : List (TVal × TVal)} (h : es.Perm es') : (encBinEntries es).length = (encBinEntries es').length := by
  induction h with
  | nil => rfl
  | cons x _ ih => obtain ⟨k, v⟩ := x; simp only [encBinEntries, List.length_append, ih]
  | swap x y l => obtain ⟨k, v⟩ := x; obtain ⟨k', v'⟩ := y; simp only [encBinEntries, List.length_append]; omega
  | trans _ _ ih1 ih2 => exact ih1.trans ih2

theorem encCompactEntries_perm {es es' : List (TVal × TVal)} (h : es.Perm es') : (encCompactEntries es).length = (encCompactEntries es').length := by
  induction h with
  | nil => rfl
  | cons x _ ih => obtain ⟨k, v⟩ := x; simp only [encCompactEntries, List.length_append, ih]
  | swap x y l => obtain ⟨k, v⟩ := x; obtain ⟨k', v'⟩ := y; simp only [encCompactEntries, List.length_append]; omega
  | trans _ _ ih1 ih2 => exact ih1.trans ih2

/-- The two encodings are as long as before. -/
theorem Spec.TVal.Reordered.length {tv tv' : TVal} (h : Reordered tv tv') : (encBin tv').length = (encBin tv).length ∧ (encCompact tv').length = (encCompact tv).length := by
  induction h with
  | refl => exact ⟨rfl, rfl⟩
  | @struct n fs fs' hlen hid hr ih =>
    simp only [encBin, encCompact]
    suffices ∀ (fs fs' : List (Bytes × BitVec 16 × TVal)) (last : BitVec 16), fs'.length = fs.length →
        (∀ (i : Nat) f f', fs[i]? = some f → fs'[i]? = some f' → f'.1 = f.1 ∧ f'.2.1 = f.2.1) →
        (∀ (i : Nat) f f', fs[i]? = some f → fs'[i]? = some f' → Reordered f.2.2 f'.2.2) →
        (∀ (i : Nat) f f', fs[i]? = some f → fs'[i]? = some f' → (encBin f'.2.2).length = (encBin f.2.2).length ∧ (encCompact f'.2.2).length = (encCompact f.2.2).length) →
        (encBinFields fs').length = (encBinFields fs).length ∧ (encCompactFields last fs').length = (encCompactFields last fs).length from this fs fs' 0 hlen hid hr ih
    intro fs fs' last hlen hid hr ih
    induction fs generalizing fs' last with
    | nil => cases fs' with
      | nil => exact ⟨rfl, rfl⟩
      | cons => simp at hlen
    | cons f fs ihf => cases fs' with
      | nil => simp at hlen
      | cons f' fs' =>
        obtain ⟨n, id, v⟩ := f
        obtain ⟨n', id', v'⟩ := f'
        obtain ⟨-, e2⟩ := hid 0 _ _ rfl rfl
        have h1 := hr 0 _ _ rfl rfl
        obtain ⟨h2, h3⟩ := ih 0 _ _ rfl rfl
        simp only at e2 h1 h2 h3
        subst e2
        obtain ⟨h4, h5⟩ := ihf fs' id' (by simpa using hlen) (fun i f f' h1 h2 => hid (i + 1) f f' h1 h2) (fun i f f' h1 h2 => hr (i + 1) f f' h1 h2) (fun i f f' h1 h2 => ih (i + 1) f f' h1 h2)
        have hc : compactFieldCode v' = compactFieldCode v := by cases h1 <;> rfl
        simp only [encBinFields, encCompactFields, List.length_append, h1.ty, hc]
        refine ⟨by simp only [h2, h4], ?_⟩
        rw [h5]
        split
        · rfl
        · rw [h3]
  | @map kt vt es es1 es' hp hlen hr1 hr2 ih1 ih2 =>
    have hl : es'.length = es.length := hp.length_eq.symm.trans hlen
    have e1 : (encBinEntries es1).length = (encBinEntries es).length ∧ (encCompactEntries es1).length = (encCompactEntries es).length := by
      clear hp hl hr1 hr2
      induction es generalizing es1 with
      | nil => cases es1 with
        | nil => exact ⟨rfl, rfl⟩
        | cons => simp at hlen
      | cons e es ihe => cases es1 with
        | nil => simp at hlen
        | cons e' es1 =>
          obtain ⟨k, v⟩ := e
          obtain ⟨k', v'⟩ := e'
          obtain ⟨h1, h2⟩ := ih1 0 _ _ rfl rfl
          obtain ⟨h3, h4⟩ := ih2 0 _ _ rfl rfl
          obtain ⟨h5, h6⟩ := ihe (by simpa using hlen) (fun i e e' h1 h2 => ih1 (i + 1) e e' h1 h2) (fun i e e' h1 h2 => ih2 (i + 1) e e' h1 h2)
          simp only [encBinEntries, encCompactEntries, List.length_append] at *
          omega
    simp only [encBin, encCompact, List.length_append, hl, ← encBinEntries_perm hp, ← encCompactEntries_perm hp, e1, and_self]
  | @set et es es' hlen _ ih =>
    have e1 := elems hlen ih
    simp only [encBin, encCompact, List.length_append, hlen, e1, and_self]
  | @list et es es' hlen _ ih =>
    have e1 := elems hlen ih
    simp only [encBin, encCompact, List.length_append, hlen, e1, and_self]
where
  elems {es es' : List TVal} (hlen : es'.length = es.length)
      (ih : ∀ (i : Nat) e e', es[i]? = some e → es'[i]? = some e' → (encBin e').length = (encBin e).length ∧ (encCompact e').length = (encCompact e).length) :
      (encBinElems es').length = (encBinElems es).length ∧ (encCompactElems es').length = (encCompactElems es).length := by
    induction es generalizing es' with
    | nil => cases es' with
      | nil => exact ⟨rfl, rfl⟩
      | cons => simp at hlen
    | cons e es ihe => cases es' with
      | nil => simp at hlen
      | cons e' es' =>
        obtain ⟨h1, h2⟩ := ih 0 _ _ rfl rfl
        obtain ⟨h5, h6⟩ := ihe (by simpa using hlen) (fun i e e' h1 h2 => ih (i + 1) e e' h1 h2)
        simp only [encBinElems, encCompactElems, List.length_append] at *
        omega

end GoThrift
