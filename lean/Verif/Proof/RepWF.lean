import Verif.Proof.RoundTrip
import Verif.Proof.Message

/-!
# The wire values of Go values are well-formed
-/

namespace GoThrift

open Spec Spec.TVal

theorem wfElems_iff {lim : Nat} {w : WType} (es : List TVal) : WFElems lim w es ↔ ∀ e ∈ es, e.ty = w ∧ WF lim e := by
  induction es with
  | nil => simp [WFElems]
  | cons e es ih => simp [WFElems, ih, and_assoc]

theorem wfEntries_iff {lim : Nat} {kw vw : WType} (es : List (TVal × TVal)) :
    WFEntries lim kw vw es ↔ ∀ e ∈ es, e.1.ty = kw ∧ e.2.ty = vw ∧ WF lim e.1 ∧ WF lim e.2 := by
  induction es with
  | nil => simp [WFEntries]
  | cons e es ih => obtain ⟨k, v⟩ := e; simp [WFEntries, ih, and_assoc]

theorem wfFields_iff {lim : Nat} (fs : List (Bytes × BitVec 16 × TVal)) : WFFields lim fs ↔ ∀ f ∈ fs, WF lim f.2.2 := by
  induction fs with
  | nil => simp [WFFields]
  | cons f fs ih => obtain ⟨n, id, v⟩ := f; simp [WFFields, ih]

theorem typesOKElems_iff (es : List TVal) : TypesOKElems es ↔ ∀ e ∈ es, TypesOK e := by
  induction es with
  | nil => simp [TypesOKElems]
  | cons e es ih => simp [TypesOKElems, ih]

theorem typesOKEntries_iff (es : List (TVal × TVal)) : TypesOKEntries es ↔ ∀ e ∈ es, TypesOK e.1 ∧ TypesOK e.2 := by
  induction es with
  | nil => simp [TypesOKEntries]
  | cons e es ih => obtain ⟨k, v⟩ := e; simp [TypesOKEntries, ih, and_assoc]

theorem typesOKFields_iff (fs : List (Bytes × BitVec 16 × TVal)) : TypesOKFields fs ↔ ∀ f ∈ fs, TypesOK f.2.2 := by
  induction fs with
  | nil => simp [TypesOKFields]
  | cons f fs ih => obtain ⟨n, id, v⟩ := f; simp [TypesOKFields, ih]

theorem noWrapElems_iff (es : List TVal) : NoWrapElems es ↔ ∀ e ∈ es, NoWrap e := by
  induction es with
  | nil => simp [NoWrapElems]
  | cons e es ih => simp [NoWrapElems, ih]

theorem noWrapEntries_iff (es : List (TVal × TVal)) : NoWrapEntries es ↔ ∀ e ∈ es, NoWrap e.1 ∧ NoWrap e.2 := by
  induction es with
  | nil => simp [NoWrapEntries]
  | cons e es ih => obtain ⟨k, v⟩ := e; simp [NoWrapEntries, ih, and_assoc]

/-- Ascending ids do not wrap. -/
theorem noWrapFields_of_sorted (fs : List (Bytes × BitVec 16 × TVal)) (last : BitVec 16) (h1 : ∀ f ∈ fs, -65521 < f.2.1.toInt - last.toInt)
    (h2 : fs.Pairwise fun a b => a.2.1.toInt ≤ b.2.1.toInt) (h3 : ∀ f ∈ fs, NoWrap f.2.2) : NoWrapFields last fs := by
  induction fs generalizing last with
  | nil => simp [NoWrapFields]
  | cons f fs ih =>
    obtain ⟨n, id, v⟩ := f
    rw [NoWrapFields]
    rw [List.pairwise_cons] at h2
    refine ⟨h1 (n, id, v) (by simp), h3 (n, id, v) (by simp), ih id (fun g hg => ?_) h2.2 fun g hg => h3 g (by simp [hg])⟩
    have := h2.1 g hg
    dsimp only at this
    omega

theorem rep_wireType {env : Env} {t : TypeId} {v : GoVal} {tv : TVal} (h : Rep env t v tv) : WireTypeOf env t tv.ty := by
  induction h with
  | leaf h =>
    cases h with
    | bool _ h => exact .bool h
    | f32 _ h => exact .double (.inl h)
    | f64 _ h => exact .double (.inr h)
    | i8 _ h => exact .byte h
    | i16 _ h => exact .i16 h
    | i32 _ h => exact .i32 h
    | i64 _ h => exact .i64 h
    | str _ h => exact .string h
    | uuid _ h => exact .uuid h
    | bytes _ h hb => exact .bytes h hb
  | ptr hk _ ih => exact .ptr hk ih
  | ptrNil hk _ ih => exact .ptr hk ih
  | set hk hs => exact .set hk hs
  | list hk hs hb => exact .list hk hs hb
  | map hk => exact .map hk
  | struct _ hk => exact .struct hk

theorem sizes_zero (env : Env) (lim : Nat) (t : TypeId) : SizesAtMost env lim t (env.zero t) := by
  refine everywhere_zero (fun t => ?_) t
  rw [env.zero_eq]
  cases (env.type t).kind <;> simp only [Kind.zero]
  · simp
  · cases (env.type t).asBytes <;> trivial

/-- The wire value has the types declared in container headers, sizes as the Go value, and ascending field ids. -/
theorem rep_wf {env : Env} {t : TypeId} {v : GoVal} {tv : TVal} (h : Rep env t v tv) (lim : Nat) (ht : HasType env t v) (hs : SizesAtMost env lim t v) :
    WF lim tv ∧ TypesOK tv ∧ NoWrap tv := by
  induction h with
  | leaf h =>
    have ht := Everywhere.here ht
    have hs := Everywhere.here hs
    cases h with
    | uuid b hk => simp only [Shape, hk] at ht; exact ⟨ht, trivial, trivial⟩
    | str b hk => exact ⟨hs, trivial, trivial⟩
    | bytes b hk hb =>
      cases b with
      | none => exact ⟨Nat.zero_le _, trivial, trivial⟩
      | some b => exact ⟨hs, trivial, trivial⟩
    | _ => exact ⟨trivial, trivial, trivial⟩
  | ptr hk _ ih =>
    have h1 := ht.2
    have h2 := hs.2
    rw [elemType_ptr hk] at h1 h2
    exact ih h1 h2
  | @ptrNil t e tv hk _ ih => exact ih (zero_hasType env e) (sizes_zero env lim e)
  | @set t e w v tvs hk hset hv hw hlen h ih =>
    rw [WF, TypesOK, NoWrap, wfElems_iff, typesOKElems_iff, noWrapElems_iff]
    have key : ∀ tv ∈ tvs, tv.ty = w ∧ WF lim tv ∧ TypesOK tv ∧ NoWrap tv := by
      intro tv htv
      obtain ⟨i, hi⟩ := List.mem_iff_getElem?.1 htv
      have hi' : i < (elemsOf v).length := hlen ▸ (List.getElem?_eq_some_iff.1 hi).1
      have hx := List.getElem?_eq_getElem hi'
      refine ⟨(rep_wireType (h i _ tv hx hi)).unique hw, ?_⟩
      rcases hv with rfl | ⟨es, sp, rfl⟩
      · simp [elemsOf] at hi'
      · have h1 := (everywhereElems_iff _).1 ht.2 _ (List.mem_of_getElem? hx)
        have h2 := (everywhereElems_iff _).1 hs.2 _ (List.mem_of_getElem? hx)
        rw [elemType_slice hk] at h1 h2
        exact ih i _ tv hx hi h1 h2
    refine ⟨⟨?_, fun tv htv => ⟨(key tv htv).1, (key tv htv).2.1⟩⟩, ⟨hw.valid, fun tv htv => (key tv htv).2.2.1⟩, fun tv htv => (key tv htv).2.2.2⟩
    rw [hlen]
    rcases hv with rfl | ⟨es, sp, rfl⟩
    · exact Nat.zero_le _
    · exact hs.1
  | @list t e w v tvs hk hset hb hv hw hlen h ih =>
    rw [WF, TypesOK, NoWrap, wfElems_iff, typesOKElems_iff, noWrapElems_iff]
    have key : ∀ tv ∈ tvs, tv.ty = w ∧ WF lim tv ∧ TypesOK tv ∧ NoWrap tv := by
      intro tv htv
      obtain ⟨i, hi⟩ := List.mem_iff_getElem?.1 htv
      have hi' : i < (elemsOf v).length := hlen ▸ (List.getElem?_eq_some_iff.1 hi).1
      have hx := List.getElem?_eq_getElem hi'
      refine ⟨(rep_wireType (h i _ tv hx hi)).unique hw, ?_⟩
      rcases hv with rfl | ⟨es, sp, rfl⟩
      · simp [elemsOf] at hi'
      · have h1 := (everywhereElems_iff _).1 ht.2 _ (List.mem_of_getElem? hx)
        have h2 := (everywhereElems_iff _).1 hs.2 _ (List.mem_of_getElem? hx)
        rw [elemType_slice hk] at h1 h2
        exact ih i _ tv hx hi h1 h2
    refine ⟨⟨?_, fun tv htv => ⟨(key tv htv).1, (key tv htv).2.1⟩⟩, ⟨hw.valid, fun tv htv => (key tv htv).2.2.1⟩, fun tv htv => (key tv htv).2.2.2⟩
    rw [hlen]
    rcases hv with rfl | ⟨es, sp, rfl⟩
    · exact Nat.zero_le _
    · exact hs.1
  | @map t k e kw ew v tes hk hv hkw hew hlen h1 h2 ih1 ih2 =>
    rw [WF, TypesOK, NoWrap, wfEntries_iff, typesOKEntries_iff, noWrapEntries_iff]
    have key : ∀ te ∈ tes, (te.1.ty = kw ∧ WF lim te.1 ∧ TypesOK te.1 ∧ NoWrap te.1) ∧ (te.2.ty = ew ∧ WF lim te.2 ∧ TypesOK te.2 ∧ NoWrap te.2) := by
      intro te hte
      obtain ⟨i, hi⟩ := List.mem_iff_getElem?.1 hte
      have hi' : i < (entriesOf v).length := hlen ▸ (List.getElem?_eq_some_iff.1 hi).1
      have hx := List.getElem?_eq_getElem hi'
      rcases hv with rfl | ⟨es, rfl⟩
      · simp [entriesOf] at hi'
      · have a1 := (everywhereEntries_iff _).1 ht.2 _ (List.mem_of_getElem? hx)
        have a2 := (everywhereEntries_iff _).1 hs.2 _ (List.mem_of_getElem? hx)
        rw [elemType_map hk, keyType_map hk] at a1 a2
        exact ⟨⟨(rep_wireType (h1 i _ te hx hi)).unique hkw, ih1 i _ te hx hi a1.1 a2.1⟩, ⟨(rep_wireType (h2 i _ te hx hi)).unique hew, ih2 i _ te hx hi a1.2 a2.2⟩⟩
    refine ⟨⟨?_, fun te hte => ⟨(key te hte).1.1, (key te hte).2.1, (key te hte).1.2.1, (key te hte).2.2.1⟩⟩,
      fun te hte => ⟨(key te hte).1.2.2.1, (key te hte).2.2.2.1⟩, fun te hte => ⟨(key te hte).1.2.2.2, (key te hte).2.2.2.2⟩⟩
    rw [hlen]
    rcases hv with rfl | ⟨es, rfl⟩
    · exact Nat.zero_le _
    · exact hs.1
  | @struct t fs vs tfs order hkind hlen hfs hacc htag hnd hord hsort hlen' hname h ih =>
    rw [WF, TypesOK, NoWrap, wfFields_iff, typesOKFields_iff]
    have key : ∀ tf ∈ tfs, WF lim tf.2.2 ∧ TypesOK tf.2.2 ∧ NoWrap tf.2.2 := by
      intro tf htf
      obtain ⟨j, hj⟩ := List.mem_iff_getElem?.1 htf
      have hj' : j < order.length := hlen' ▸ (List.getElem?_eq_some_iff.1 hj).1
      have hi := List.getElem?_eq_getElem hj'
      obtain ⟨f, v, hf, hv, _⟩ := (hord _).1 (List.mem_of_getElem? hi)
      have a1 := (everywhereFields_iff _ _).1 ht.2
      have a2 := (everywhereFields_iff _ _).1 hs.2
      rw [fields_struct hkind] at a1 a2
      exact ih j _ tf f v hi hj hf hv (a1 _ f v hf hv) (a2 _ f v hf hv)
    refine ⟨fun tf htf => (key tf htf).1, fun tf htf => (key tf htf).2.1, noWrapFields_of_sorted tfs 0 (fun f _ => ?_) hsort fun tf htf => (key tf htf).2.2⟩
    have := BitVec.le_toInt f.2.1
    simp at this ⊢
    omega

end GoThrift
