import Verif.Proof.DecodeOrder

/-!
# Reading wire values that differ in the order of map entries: lemmas
-/

namespace GoThrift

open Spec Spec.TVal

theorem Spec.TVal.Reordered.symm {tv tv' : TVal} (h : Reordered tv tv') : Reordered tv' tv := by
  induction h with
  | refl => exact .refl _
  | struct n hl hid _ ih =>
    exact .struct n hl.symm (fun i f f' hf hf' => ⟨(hid i f' f hf' hf).1.symm, (hid i f' f hf' hf).2.symm⟩) (fun i f f' hf hf' => ih i f' f hf' hf)
  | map kt vt p hl _ _ ih1 ih2 =>
    obtain ⟨m, p1, h1, h2⟩ := perm_along p _ hl.symm
    refine .map kt vt p1.symm h1 (fun i e e' he he' => ?_) (fun i e e' he he' => ?_)
    · obtain ⟨j, h3, h4⟩ := h2 i e e' he he'
      exact ih1 j e' e h4 h3
    · obtain ⟨j, h3, h4⟩ := h2 i e e' he he'
      exact ih2 j e' e h4 h3
  | set et hl _ ih => exact .set et hl.symm fun i e e' he he' => ih i e' e he' he
  | list et hl _ ih => exact .list et hl.symm fun i e e' he he' => ih i e' e he' he

theorem Spec.SameValue.symm {v v' : GoVal} (h : SameValue false v v') : SameValue false v' v := by
  induction h with
  | refl => exact .refl _
  | ptr _ ih => exact .ptr ih
  | slice hl _ ih => exact .slice hl.symm fun i e e' he he' => ih i e' e he' he
  | struct hl _ ih => exact .struct hl.symm fun i e e' he he' => ih i e' e he' he
  | map p _ hl _ _ ih1 ih2 =>
    obtain ⟨m, p1, h1, h2⟩ := perm_along p _ hl.symm
    refine .map p1.symm (fun h => by cases h) h1 (fun i e e' he he' => ?_) (fun i e e' he he' => ?_)
    · obtain ⟨j, h3, h4⟩ := h2 i e e' he he'
      exact ih1 j e' e h4 h3
    · obtain ⟨j, h3, h4⟩ := h2 i e e' he he'
      exact ih2 j e' e h4 h3

/-- Where there is an entry there is one that differs in order only. -/
theorem map_mem {es es1 es' : List (TVal × TVal)} (p : es1.Perm es') (hl : es1.length = es.length)
    (hr : ∀ (i : Nat) e e', es[i]? = some e → es1[i]? = some e' → Reordered e.1 e'.1 ∧ Reordered e.2 e'.2) {te : TVal × TVal} (hm : te ∈ es) :
    ∃ te' ∈ es', Reordered te.1 te'.1 ∧ Reordered te.2 te'.2 := by
  obtain ⟨i, hi⟩ := List.getElem?_of_mem hm
  obtain ⟨te', h⟩ := at_lt (l := es1) (i := i) (by have := lt_at hi; omega)
  exact ⟨te', p.mem_iff.1 (List.mem_of_getElem? h), hr i te te' hi h⟩

theorem Spec.TVal.Reordered.mismatch {env : Env} {t t' : TypeId} {tv tv' : TVal} {bad : WType} (h : Mismatch env t tv bad t') (hr : Reordered tv tv') : Mismatch env t tv' bad t' := by
  induction h generalizing tv' with
  | here h1 h2 => rw [← hr.ty] at h2 ⊢; exact .here h1 h2
  | ptr hk _ ih => exact .ptr hk (ih hr)
  | set hk hs hm _ ih =>
    obtain ⟨es', rfl, hl, hr⟩ := hr.set_inv
    obtain ⟨i, hi⟩ := List.getElem?_of_mem hm
    obtain ⟨e', he'⟩ := at_lt (l := es') (i := i) (by have := lt_at hi; omega)
    exact .set hk hs (List.mem_of_getElem? he') (ih (hr i _ _ hi he'))
  | list hk hs hb hm _ ih =>
    obtain ⟨es', rfl, hl, hr⟩ := hr.list_inv
    obtain ⟨i, hi⟩ := List.getElem?_of_mem hm
    obtain ⟨e', he'⟩ := at_lt (l := es') (i := i) (by have := lt_at hi; omega)
    exact .list hk hs hb (List.mem_of_getElem? he') (ih (hr i _ _ hi he'))
  | key hk hm _ ih =>
    obtain ⟨es1, es', rfl, p, hl, hr⟩ := hr.map_inv
    obtain ⟨te', hm', h1, _⟩ := map_mem p hl hr hm
    exact .key hk hm' (ih h1)
  | value hk hm _ ih =>
    obtain ⟨es1, es', rfl, p, hl, hr⟩ := hr.map_inv
    obtain ⟨te', hm', _, h1⟩ := map_mem p hl hr hm
    exact .value hk hm' (ih h1)
  | field hk hm hf hd _ ih =>
    obtain ⟨fs', rfl, hl, hr⟩ := hr.struct_inv
    obtain ⟨i, hi⟩ := List.getElem?_of_mem hm
    obtain ⟨f', hf'⟩ := at_lt (l := fs') (i := i) (by have := lt_at hi; omega)
    obtain ⟨e1, h1⟩ := hr i _ _ hi hf'
    exact .field hk (List.mem_of_getElem? hf') hf (by rw [e1]; exact hd) (ih h1)

theorem Spec.TVal.Reordered.wf {lim : Nat} {tv tv' : TVal} (h : Reordered tv tv') (hw : WF lim tv) : WF lim tv' := by
  induction h with
  | refl => exact hw
  | @struct n fs fs' hl _ _ ih =>
    refine (wfFields_iff _).2 fun f' hf' => ?_
    obtain ⟨i, hi⟩ := List.getElem?_of_mem hf'
    obtain ⟨f, hf⟩ := pair_at hl hi
    exact ih i f f' hf hi ((wfFields_iff _).1 hw f (List.mem_of_getElem? hf))
  | @map kt vt es es1 es' p hl h1 h2 ih1 ih2 =>
    refine ⟨by have := p.length_eq; have := hw.1; omega, (wfEntries_iff _).2 fun e' he' => ?_⟩
    obtain ⟨i, hi⟩ := List.getElem?_of_mem (p.mem_iff.2 he')
    obtain ⟨e, he⟩ := pair_at hl hi
    obtain ⟨a, b, c, d⟩ := (wfEntries_iff _).1 hw.2 e (List.mem_of_getElem? he)
    exact ⟨(h1 i e e' he hi).ty.trans a, (h2 i e e' he hi).ty.trans b, ih1 i e e' he hi c, ih2 i e e' he hi d⟩
  | @set et es es' hl h1 ih =>
    refine ⟨by have := hw.1; omega, (wfElems_iff _).2 fun e' he' => ?_⟩
    obtain ⟨i, hi⟩ := List.getElem?_of_mem he'
    obtain ⟨e, he⟩ := pair_at hl hi
    obtain ⟨a, b⟩ := (wfElems_iff _).1 hw.2 e (List.mem_of_getElem? he)
    exact ⟨(h1 i e e' he hi).ty.trans a, ih i e e' he hi b⟩
  | @list et es es' hl h1 ih =>
    refine ⟨by have := hw.1; omega, (wfElems_iff _).2 fun e' he' => ?_⟩
    obtain ⟨i, hi⟩ := List.getElem?_of_mem he'
    obtain ⟨e, he⟩ := pair_at hl hi
    obtain ⟨a, b⟩ := (wfElems_iff _).1 hw.2 e (List.mem_of_getElem? he)
    exact ⟨(h1 i e e' he hi).ty.trans a, ih i e e' he hi b⟩

/-! ## The keys of a value that stay different -/

theorem seen_rep {env : Env} {t t' : TypeId} {v : GoVal} {tv tv' : TVal} (h : Seen env t tv t' tv') (hr : Rep env t v tv) (hs : KeysSurvive env t v)
    (hd : ∀ t', Within env t' t → DistinctIds env t') : ∃ v', Rep env t' v' tv' ∧ KeysSurvive env t' v' ∧ ∀ t'', Within env t'' t' → DistinctIds env t'' := by
  induction h generalizing v with
  | refl => exact ⟨v, hr, hs, hd⟩
  | @ptr t e t' tv tv' hk _ ih =>
    have hd' : ∀ t', Within env t' e → DistinctIds env t' := fun t' ht' => hd t' (.step ht' (partOf_ptr hk))
    cases hr with
    | leaf h => cases h <;> simp_all
    | ptr hk' hr =>
      rw [hk] at hk'
      cases hk'
      have := hs.2
      rw [elemType_ptr hk] at this
      exact ih hr this hd'
    | ptrNil hk' hr =>
      rw [hk] at hk'
      cases hk'
      exact ih hr (keysSurvive_zero env e) hd'
    | set hk' => rw [hk] at hk'; cases hk'
    | list hk' => rw [hk] at hk'; cases hk'
    | map hk' => rw [hk] at hk'; cases hk'
    | struct _ hk' => rw [hk] at hk'; cases hk'
  | @set t e t' w tv tv' tvs hk hm _ ih =>
    cases hr with
    | leaf h => cases h
    | ptr hk' => rw [hk] at hk'; cases hk'
    | ptrNil hk' => rw [hk] at hk'; cases hk'
    | set hk' hset _ _ hl hr =>
      rw [hk] at hk'
      cases hk'
      obtain ⟨i, hi⟩ := List.getElem?_of_mem hm
      obtain ⟨x, hx⟩ := pair_at hl hi
      exact ih (hr i x tv hx hi) (keysSurvive_elem hs hk hx) fun t' ht' => hd t' (.step ht' (partOf_slice ⟨hk, set_not_bytes hset⟩))
  | @list t e t' w tv tv' tvs hk hm _ ih =>
    cases hr with
    | leaf h => cases h
    | ptr hk' => rw [hk] at hk'; cases hk'
    | ptrNil hk' => rw [hk] at hk'; cases hk'
    | list hk' _ hb _ _ hl hr =>
      rw [hk] at hk'
      cases hk'
      obtain ⟨i, hi⟩ := List.getElem?_of_mem hm
      obtain ⟨x, hx⟩ := pair_at hl hi
      exact ih (hr i x tv hx hi) (keysSurvive_elem hs hk hx) fun t' ht' => hd t' (.step ht' (partOf_slice ⟨hk, hb⟩))
  | @key t k e t' kw ew te tv' tes hk hm _ ih =>
    obtain ⟨x, h1, _, h2, _⟩ := entry hk hm hr hs
    exact ih h1 h2 fun t' ht' => hd t' (.step ht' (partOf_key hk))
  | @value t k e t' kw ew te tv' tes hk hm _ ih =>
    obtain ⟨x, _, h1, _, h2⟩ := entry hk hm hr hs
    exact ih h1 h2 fun t' ht' => hd t' (.step ht' (partOf_value hk))
  | @field t t' fs n tf tv' tfs f required hk hm hf hdc _ ih =>
    cases hr with
    | leaf h => cases h
    | ptr hk' => rw [hk] at hk'; cases hk'
    | ptrNil hk' => rw [hk] at hk'; cases hk'
    | @struct _ gs vs _ order hk' hl _ _ _ _ hord _ hlen hname hrep =>
      rw [hk] at hk'
      cases hk'
      obtain ⟨j, hj⟩ := List.getElem?_of_mem hm
      obtain ⟨i, hi⟩ := pair_at hlen hj
      obtain ⟨g, w, hg, hw, _⟩ := (hord i).1 (List.mem_of_getElem? hi)
      obtain ⟨_, r, hdg⟩ := hname j i tf g hi hj hg
      obtain ⟨i', hi'⟩ := List.getElem?_of_mem hf
      have hs2 := (everywhereFields_iff _ _).1 hs.2
      rw [fields_struct hk] at hs2
      have hdt := hd t (.refl t)
      unfold DistinctIds at hdt
      rw [fields_struct hk] at hdt
      obtain rfl := hdt i i' g f _ r required hg hi' hdg hdc
      rw [hg] at hi'
      cases hi'
      exact ih (hrep j i tf f w hi hj hg hw) (hs2 i f w hg hw) fun t' ht' => hd t' (.step ht' (by rw [PartOf, hk]; exact ⟨f, hf, rfl⟩))
where
  entry {env : Env} {t k e : TypeId} {v : GoVal} {kw ew : WType} {te : TVal × TVal} {tes : List (TVal × TVal)} (hk : (env.type t).kind = .map k e) (hm : te ∈ tes)
      (hr : Rep env t v (.map kw ew tes)) (hs : KeysSurvive env t v) :
      ∃ x : GoVal × GoVal, Rep env k x.1 te.1 ∧ Rep env e x.2 te.2 ∧ KeysSurvive env k x.1 ∧ KeysSurvive env e x.2 := by
    cases hr with
    | leaf h => cases h
    | ptr hk' => rw [hk] at hk'; cases hk'
    | ptrNil hk' => rw [hk] at hk'; cases hk'
    | map hk' hv _ _ hl hr1 hr2 =>
      rw [hk] at hk'
      cases hk'
      obtain ⟨i, hi⟩ := List.getElem?_of_mem hm
      obtain ⟨x, hx⟩ := pair_at hl hi
      refine ⟨x, hr1 i x te hx hi, hr2 i x te hx hi, ?_⟩
      rcases hv with rfl | ⟨es, rfl⟩
      · cases hx
      · have := (everywhereEntries_iff _).1 hs.2 x (List.mem_of_getElem? hx)
        rwa [keyType_map hk, elemType_map hk] at this

/-- Keys that stay different in the round trip are decoded to different keys. -/
theorem keysApart_rep {env : Env} {t : TypeId} {v : GoVal} {tv : TVal} (hr : Rep env t v tv) (hs : KeysSurvive env t v) (hd : ∀ t', Within env t' t → DistinctIds env t') :
    KeysApart env t tv := by
  intro t' k e kw ew tes hseen hk i j te te' x y hij hi hj hx hy
  obtain ⟨v', hr', hs', hd'⟩ := seen_rep hseen hr hs hd
  cases hr' with
  | leaf h => cases h
  | ptr hk' => rw [hk] at hk'; cases hk'
  | ptrNil hk' => rw [hk] at hk'; cases hk'
  | map hk' hv _ _ hl hr1 hr2 =>
    rw [hk] at hk'
    cases hk'
    obtain ⟨a, ha⟩ := pair_at hl hi
    obtain ⟨b, hb⟩ := pair_at hl hj
    rcases hv with rfl | ⟨es, rfl⟩
    · cases ha
    · have h1 := (everywhereEntries_iff _).1 hs'.2
      rw [keyType_map hk, elemType_map hk] at h1
      have h2 := hs'.1
      simp only [keyType_map hk] at h2
      have hdk : ∀ t', Within env t' k → DistinctIds env t' := fun t' ht' => hd' t' (.step ht' (partOf_key hk))
      rw [keyEq_comm]
      exact h2 i j a b x y hij ha hb (decodes_roundTrip (hr1 i a te ha hi) hx (h1 a (List.mem_of_getElem? ha)).1 hdk)
        (decodes_roundTrip (hr1 j b te' hb hj) hy (h1 b (List.mem_of_getElem? hb)).1 hdk)

end GoThrift
