import Verif.Proof.Canon

/-!
# Which values stand for a wire value, and for how many: lemmas
-/

namespace GoThrift

open Spec Spec.TVal

/-- A list of things that exist for each position. -/
theorem exists_list {α β : Type} (P : α → β → Prop) (l : List α) (h : ∀ x ∈ l, ∃ y, P x y) : ∃ l' : List β, l'.length = l.length ∧ ∀ (i : Nat) x y, l[i]? = some x → l'[i]? = some y → P x y := by
  induction l with
  | nil => exact ⟨[], rfl, by simp⟩
  | cons a l ih =>
    obtain ⟨b, hb⟩ := h a (by simp)
    obtain ⟨l', h1, h2⟩ := ih fun x hx => h x (by simp [hx])
    refine ⟨b :: l', by simp [h1], fun i x y hx hy => ?_⟩
    cases i with
    | zero => cases hx; cases hy; exact hb
    | succ i => exact h2 i x y hx hy

/-- The fields of a struct take part or are ignored, and their types are supported. -/
def Fieldsets (env : Env) (fs : List FieldDecl) : Prop :=
  (∀ f ∈ fs, Ignored f ∨ ∃ id required w, Declares env f id required ∧ WireTypeOf env f.typ w) ∧
  (∀ f ∈ fs, ¬ Ignored f → Acc (InPart env) f.typ) ∧ (fs ≠ [] → ∃ f ∈ fs, f.tag ≠ none)

/-- A struct stands for a wire value if its written fields do. -/
theorem rep_struct {env : Env} {t : TypeId} {fs : List FieldDecl} {vs : List GoVal} (hk : (env.type t).kind = .struct fs) (hlen : vs.length = fs.length) (hfs : Fieldsets env fs)
    (h : ∀ (i : Nat) f v, fs[i]? = some f → vs[i]? = some v → Written env f v → ∃ tv, Rep env f.typ v tv) : ∃ tv, Rep env t (.struct vs) tv := by
  classical
  let idx : List Nat := (List.range fs.length).filter fun i => decide (∃ f v, fs[i]? = some f ∧ vs[i]? = some v ∧ Written env f v)
  have hmem : ∀ i : Nat, i ∈ idx ↔ ∃ f v, fs[i]? = some f ∧ vs[i]? = some v ∧ Written env f v := fun i => by
    simp only [idx, List.mem_filter, List.mem_range, decide_eq_true_eq]
    refine ⟨fun h => h.2, fun h => ⟨?_, h⟩⟩
    obtain ⟨f, v, hf, _⟩ := h
    exact (List.getElem?_eq_some_iff.1 hf).1
  have hnd : idx.Nodup := List.nodup_range.filter _
  obtain ⟨tfs, h1, h2⟩ := exists_list (fun (i : Nat) (p : Nat × Bytes × BitVec 16 × TVal) => p.1 = i ∧ ∀ f v, fs[i]? = some f → vs[i]? = some v →
      p.2.1 = f.name ∧ (∃ required, Declares env f p.2.2.1 required) ∧ Rep env f.typ v p.2.2.2) idx fun i hi => by
    obtain ⟨f, v, hf, hv, hw⟩ := (hmem i).1 hi
    obtain ⟨tv, htv⟩ := h i f v hf hv hw
    obtain ⟨id, r, hd, _⟩ := hw
    refine ⟨(i, f.name, id, tv), rfl, fun f' v' hf' hv' => ?_⟩
    cases hf.symm.trans hf'
    cases hv.symm.trans hv'
    exact ⟨rfl, ⟨r, hd⟩, htv⟩
  have hfst : tfs.map (fun p => p.1) = idx := by
    refine (eq_of_at (by simp [h1]) fun i x x' hx hx' => ?_).symm
    rw [List.getElem?_map] at hx'
    obtain ⟨p, hp, rfl⟩ := Option.map_eq_some_iff.1 hx'
    exact (h2 i x p hx hp).1.symm
  let key : Nat × Bytes × BitVec 16 × TVal → Int := fun p => p.2.2.1.toInt
  have hperm := env.sort_perm key tfs
  have hprop : ∀ p ∈ env.sort key tfs, ∀ f v, fs[p.1]? = some f → vs[p.1]? = some v → p.2.1 = f.name ∧ (∃ required, Declares env f p.2.2.1 required) ∧ Rep env f.typ v p.2.2.2 := fun p hp => by
    obtain ⟨i, hi⟩ := List.getElem?_of_mem (hperm.mem_iff.1 hp)
    obtain ⟨x, hx⟩ := pair_at h1 hi
    obtain ⟨rfl, h3⟩ := h2 i x p hx hi
    exact h3
  have hpair : ∀ (j i : Nat) tf, ((env.sort key tfs).map (·.1))[j]? = some i → ((env.sort key tfs).map (·.2))[j]? = some tf → ∃ p ∈ env.sort key tfs, p.1 = i ∧ p.2 = tf := fun j i tf h3 h4 => by
    rw [List.getElem?_map] at h3 h4
    obtain ⟨p, hp, rfl⟩ := Option.map_eq_some_iff.1 h3
    rw [hp] at h4
    cases h4
    exact ⟨p, List.mem_of_getElem? hp, rfl, rfl⟩
  have hordp : ((env.sort key tfs).map (·.1)).Perm idx := hfst ▸ hperm.map _
  refine ⟨.struct (env.type t).name ((env.sort key tfs).map (·.2)), .struct ((env.sort key tfs).map (·.1)) hk hlen hfs.1 hfs.2.1 hfs.2.2 (hordp.nodup_iff.2 hnd)
    (fun i => by rw [hordp.mem_iff, hmem]) ?_ (by simp) (fun j i tf f h3 h4 hf => ?_) (fun j i tf f v h3 h4 hf hv => ?_)⟩
  · rw [List.pairwise_map]; exact env.sort_sorted key tfs
  · obtain ⟨p, hp, rfl, rfl⟩ := hpair j i tf h3 h4
    have h5 := (hmem p.1).1 (hordp.mem_iff.1 (List.mem_of_getElem? h3))
    obtain ⟨f', v, hf', hv, _⟩ := h5
    have := hprop p hp f v hf hv
    exact ⟨this.1, this.2.1⟩
  · obtain ⟨p, hp, rfl, rfl⟩ := hpair j i tf h3 h4
    exact (hprop p hp f v hf hv).2.2

/-- What a struct that stands for a wire value is like. -/
theorem rep_struct_inv {env : Env} {t : TypeId} {vs : List GoVal} {tv : TVal} (h : Rep env t (.struct vs) tv) : (env.type t).kind = .struct (env.fields t) ∧ vs.length = (env.fields t).length ∧
    Fieldsets env (env.fields t) ∧ ∀ (i : Nat) f v, (env.fields t)[i]? = some f → vs[i]? = some v → Written env f v → ∃ tv, Rep env f.typ v tv := by
  cases h with
  | leaf h => cases h
  | set _ _ h => rcases h with h | ⟨_, _, h⟩ <;> cases h
  | list _ _ _ h => rcases h with h | ⟨_, _, h⟩ <;> cases h
  | map _ h => rcases h with h | ⟨_, h⟩ <;> cases h
  | @struct _ fs _ tfs order hkind hlen hfs hacc htag hnd hord hsort hlen' hname hrep =>
    rw [fields_struct hkind]
    refine ⟨hkind, hlen, ⟨hfs, hacc, htag⟩, fun i f v hf hv hw => ?_⟩
    obtain ⟨j, hj⟩ := List.getElem?_of_mem ((hord i).2 ⟨f, v, hf, hv, hw⟩)
    obtain ⟨tf, htf⟩ := pair_at hlen'.symm hj
    exact ⟨_, hrep j i tf f v hj htf hf hv⟩

/-- A slice stands for a wire value if its elements do. -/
theorem rep_slice {env : Env} {t e : TypeId} {w : WType} {v : GoVal} (hk : (env.type t).kind = .slice e) (hb : (env.type t).asBytes = false)
    (hv : v = .sliceNil ∨ ∃ es sp, v = .slice es sp) (hw : WireTypeOf env e w) (h : ∀ x ∈ elemsOf v, ∃ tv, Rep env e x tv) : ∃ tv, Rep env t v tv := by
  obtain ⟨tvs, h1, h2⟩ := exists_list (fun x tv => Rep env e x tv) (elemsOf v) h
  cases hs : (env.type t).isSet with
  | true => exact ⟨_, .set hk hs hv hw h1 h2⟩
  | false => exact ⟨_, .list hk hs hb hv hw h1 h2⟩

theorem rep_slice_inv {env : Env} {t : TypeId} {v : GoVal} {tv : TVal} (h : Rep env t v tv) (hv : v = .sliceNil ∨ ∃ es sp, v = .slice es sp) :
    (env.type t).kind = .slice (env.elemType t) ∧ (∃ w, WireTypeOf env (env.elemType t) w) ∧ ∀ x ∈ elemsOf v, ∃ tv, Rep env (env.elemType t) x tv := by
  cases h with
  | leaf h => rcases hv with rfl | ⟨_, _, rfl⟩ <;> cases h
  | ptr => simp at hv
  | ptrNil => simp at hv
  | set hk hs _ hw hlen hr =>
    have he := elemType_slice hk
    rw [he]
    refine ⟨hk, ⟨_, hw⟩, fun x hx => ?_⟩
    obtain ⟨i, hi⟩ := List.getElem?_of_mem hx
    obtain ⟨y, hy⟩ := pair_at hlen.symm hi
    exact ⟨y, hr i x y hi hy⟩
  | list hk hs _ _ hw hlen hr =>
    have he := elemType_slice hk
    rw [he]
    refine ⟨hk, ⟨_, hw⟩, fun x hx => ?_⟩
    obtain ⟨i, hi⟩ := List.getElem?_of_mem hx
    obtain ⟨y, hy⟩ := pair_at hlen.symm hi
    exact ⟨y, hr i x y hi hy⟩
  | map _ h => rcases hv with rfl | ⟨_, _, rfl⟩ <;> simp at h
  | struct => simp at hv

theorem rep_map {env : Env} {t k e : TypeId} {kw ew : WType} {v : GoVal} (hk : (env.type t).kind = .map k e) (hv : v = .mapNil ∨ ∃ es, v = .map es) (h1 : WireTypeOf env k kw) (h2 : WireTypeOf env e ew)
    (h : ∀ x ∈ entriesOf v, (∃ tv, Rep env k x.1 tv) ∧ ∃ tv, Rep env e x.2 tv) : ∃ tv, Rep env t v tv := by
  obtain ⟨tes, h3, h4⟩ := exists_list (fun (x : GoVal × GoVal) (te : TVal × TVal) => Rep env k x.1 te.1 ∧ Rep env e x.2 te.2) (entriesOf v) fun x hx => by
    obtain ⟨⟨a, ha⟩, b, hb⟩ := h x hx
    exact ⟨(a, b), ha, hb⟩
  exact ⟨_, .map hk hv h1 h2 h3 (fun i x te hx hte => (h4 i x te hx hte).1) (fun i x te hx hte => (h4 i x te hx hte).2)⟩

theorem rep_map_inv {env : Env} {t : TypeId} {v : GoVal} {tv : TVal} (h : Rep env t v tv) (hv : v = .mapNil ∨ ∃ es, v = .map es) :
    (env.type t).kind = .map (env.keyType t) (env.elemType t) ∧ (∃ w, WireTypeOf env (env.keyType t) w) ∧ (∃ w, WireTypeOf env (env.elemType t) w) ∧
    ∀ x ∈ entriesOf v, (∃ tv, Rep env (env.keyType t) x.1 tv) ∧ ∃ tv, Rep env (env.elemType t) x.2 tv := by
  cases h with
  | leaf h => rcases hv with rfl | ⟨_, rfl⟩ <;> cases h
  | ptr => simp at hv
  | ptrNil => simp at hv
  | set _ _ h => rcases hv with rfl | ⟨_, rfl⟩ <;> simp at h
  | list _ _ _ h => rcases hv with rfl | ⟨_, rfl⟩ <;> simp at h
  | map hk _ h1 h2 hlen hr1 hr2 =>
    have he := elemType_map hk
    have hke := keyType_map hk
    rw [he, hke]
    refine ⟨hk, ⟨_, h1⟩, ⟨_, h2⟩, fun x hx => ?_⟩
    obtain ⟨i, hi⟩ := List.getElem?_of_mem hx
    obtain ⟨y, hy⟩ := pair_at hlen.symm hi
    exact ⟨⟨_, hr1 i x y hi hy⟩, _, hr2 i x y hi hy⟩
  | struct => simp at hv

theorem rep_ptr_inv {env : Env} {t : TypeId} {v : GoVal} {tv : TVal} (h : Rep env t (.ptr v) tv) : (env.type t).kind = .ptr (env.elemType t) ∧ Rep env (env.elemType t) v tv := by
  cases h with
  | leaf h => cases h
  | ptr hk h => have he := elemType_ptr hk
                rw [he]; exact ⟨hk, h⟩
  | set _ _ h => simp at h
  | list _ _ _ h => simp at h
  | map _ h => simp at h

theorem rep_ptrNil_inv {env : Env} {t : TypeId} {tv : TVal} (h : Rep env t .ptrNil tv) : (env.type t).kind = .ptr (env.elemType t) ∧ Rep env (env.elemType t) (env.zero (env.elemType t)) tv := by
  cases h with
  | leaf h => cases h
  | ptrNil hk h => have he := elemType_ptr hk
                   rw [he]; exact ⟨hk, h⟩
  | set _ _ h => simp at h
  | list _ _ _ h => simp at h
  | map _ h => simp at h

/-- What comes back can be marshalled again. -/
theorem RoundTrip.repAgain {env : Env} {t : TypeId} {v v' : GoVal} (h : RoundTrip env t v v') (ht : HasType env t v) (hz : ZeroLaw env t) {tv : TVal} (hr : Rep env t v tv) :
    ∃ tv', Rep env t v' tv' := by
  induction h generalizing tv with
  | same _ => exact ⟨tv, hr⟩
  | f32 x =>
    cases hr with
    | leaf h => cases h with
      | f32 _ hk => exact ⟨_, .leaf (.f32 _ hk)⟩
    | set _ _ h => simp at h
    | list _ _ _ h => simp at h
    | map _ h => simp at h
  | emptyBytes =>
    cases hr with
    | leaf h => cases h with
      | bytes _ hk hb => exact ⟨_, .leaf (.bytes none hk hb)⟩
    | set _ _ h => simp at h
    | list _ _ _ h => simp at h
    | map _ h => simp at h
  | ptr _ ih =>
    obtain ⟨hk, hr⟩ := rep_ptr_inv hr
    obtain ⟨tv', h⟩ := ih ht.2 (hz.part (partOf_ptr hk)) hr
    exact ⟨tv', .ptr hk h⟩
  | ptrNil _ ih =>
    obtain ⟨hk, hr⟩ := rep_ptrNil_inv hr
    obtain ⟨tv', h⟩ := ih (zero_hasType env _) (hz.part (partOf_ptr hk)) hr
    exact ⟨tv', .ptr hk h⟩
  | emptySlice hv =>
    have hv' := hv.imp id fun ⟨sp, h⟩ => (⟨[], sp, h⟩ : ∃ es sp, _ = GoVal.slice es sp)
    have hk' := HasType.kindSlice ht hv'
    obtain ⟨hk, ⟨w, hw⟩, _⟩ := rep_slice_inv hr hv'
    exact rep_slice hk hk'.2 (.inl rfl) hw (by simp [elemsOf])
  | slice hne hlen _ ih =>
    have hk' := HasType.kindSlice ht (.inr ⟨_, _, rfl⟩)
    obtain ⟨hk, ⟨w, hw⟩, hall⟩ := rep_slice_inv hr (.inr ⟨_, _, rfl⟩)
    refine rep_slice hk hk'.2 (.inr ⟨_, _, rfl⟩) hw fun x' hx' => ?_
    obtain ⟨i, hi⟩ := List.getElem?_of_mem hx'
    obtain ⟨x, hx⟩ := pair_at hlen hi
    obtain ⟨tv, htv⟩ := hall x (List.mem_of_getElem? hx)
    exact ih i x x' hx hi (HasType.elem ht (List.mem_of_getElem? hx)) (hz.part (partOf_slice hk')) htv
  | emptyMap hv =>
    obtain ⟨hk, ⟨w, hw⟩, ⟨w', hw'⟩, _⟩ := rep_map_inv hr (hv.imp id fun h => ⟨[], h⟩)
    exact rep_map hk (.inl rfl) hw hw' (by simp [entriesOf])
  | map hne hlen _ _ ih1 ih2 =>
    obtain ⟨hk, ⟨w, hw⟩, ⟨w', hw'⟩, hall⟩ := rep_map_inv hr (.inr ⟨_, rfl⟩)
    refine rep_map hk (.inr ⟨_, rfl⟩) hw hw' fun x' hx' => ?_
    obtain ⟨i, hi⟩ := List.getElem?_of_mem hx'
    obtain ⟨x, hx⟩ := pair_at hlen hi
    obtain ⟨⟨tv, htv⟩, tv', htv'⟩ := hall x (List.mem_of_getElem? hx)
    exact ⟨ih1 i x x' hx hi (HasType.key ht (List.mem_of_getElem? hx)) (hz.part (partOf_key hk)) htv,
      ih2 i x x' hx hi (HasType.value ht (List.mem_of_getElem? hx)) (hz.part (partOf_value hk)) htv'⟩
  | struct hlen _ hzero ih =>
    obtain ⟨hk, hl, hfs, hall⟩ := rep_struct_inv hr
    refine rep_struct hk (hlen.trans hl) hfs fun i f v' hf hv' hw' => ?_
    obtain ⟨v, hv⟩ := pair_at hlen hv'
    by_cases hw : Written env f v
    · obtain ⟨tv, htv⟩ := hall i f v hf hv hw
      exact ih i f v v' hf hv hv' hw (HasType.field ht hf hv) (hz.part (partOf_field hf)) htv
    · rw [hzero i f v v' hf hv hv' hw] at hw'
      exact absurd hw' (not_written_zero (hz.part (partOf_field hf)) hw)

/-- What differs in spare capacity and the order of map entries only can be marshalled too. -/
theorem Spec.SameValue.rep {o : Bool} {env : Env} {t : TypeId} {v v' : GoVal} (h : SameValue o v v') (ht : HasType env t v) (hz : ZeroSame env t) {tv : TVal} (hr : Rep env t v tv) :
    ∃ tv', Rep env t v' tv' := by
  induction h generalizing t tv with
  | refl => exact ⟨tv, hr⟩
  | ptr _ ih =>
    obtain ⟨hk, hr⟩ := rep_ptr_inv hr
    obtain ⟨tv', h⟩ := ih ht.2 (hz.part (partOf_ptr hk)) hr
    exact ⟨tv', .ptr hk h⟩
  | slice hlen _ ih =>
    have hk' := HasType.kindSlice ht (.inr ⟨_, _, rfl⟩)
    obtain ⟨hk, ⟨w, hw⟩, hall⟩ := rep_slice_inv hr (.inr ⟨_, _, rfl⟩)
    refine rep_slice hk hk'.2 (.inr ⟨_, _, rfl⟩) hw fun x' hx' => ?_
    obtain ⟨i, hi⟩ := List.getElem?_of_mem hx'
    obtain ⟨x, hx⟩ := pair_at hlen hi
    obtain ⟨tv, htv⟩ := hall x (List.mem_of_getElem? hx)
    exact ih i x x' hx hi (HasType.elem ht (List.mem_of_getElem? hx)) (hz.part (partOf_slice hk')) htv
  | map hp _ hlen _ _ ih1 ih2 =>
    obtain ⟨hk, ⟨w, hw⟩, ⟨w', hw'⟩, hall⟩ := rep_map_inv hr (.inr ⟨_, rfl⟩)
    refine rep_map hk (.inr ⟨_, rfl⟩) hw hw' fun x' hx' => ?_
    obtain ⟨i, hi⟩ := List.getElem?_of_mem (hp.mem_iff.2 hx')
    obtain ⟨x, hx⟩ := pair_at hlen hi
    obtain ⟨⟨tv, htv⟩, tv', htv'⟩ := hall x (List.mem_of_getElem? hx)
    exact ⟨ih1 i x x' hx hi (HasType.key ht (List.mem_of_getElem? hx)) (hz.part (partOf_key hk)) htv,
      ih2 i x x' hx hi (HasType.value ht (List.mem_of_getElem? hx)) (hz.part (partOf_value hk)) htv'⟩
  | struct hlen hs ih =>
    obtain ⟨hk, hl, hfs, hall⟩ := rep_struct_inv hr
    refine rep_struct hk (hlen.trans hl) hfs fun i f v' hf hv' hw' => ?_
    obtain ⟨v, hv⟩ := pair_at hlen hv'
    have ht' := HasType.field ht hf hv
    have hz' := hz.part (partOf_field hf)
    obtain ⟨tv, htv⟩ := hall i f v hf hv (((hs i v v' hv hv').written ht' hz').2 hw')
    exact ih i v v' hv hv' ht' hz' htv

/-- What differs in spare capacity only stands for the same wire value. -/
theorem Spec.SameValue.rep_eq {o : Bool} (ho : o = true) {env : Env} {t : TypeId} {v v' : GoVal} (h : SameValue o v v') (ht : HasType env t v) (hz : ZeroSame env t) {tv : TVal} (hr : Rep env t v tv) :
    Rep env t v' tv := by
  induction h generalizing t tv with
  | refl => exact hr
  | ptr _ ih =>
    obtain ⟨hk, hr⟩ := rep_ptr_inv hr
    exact .ptr hk (ih ht.2 (hz.part (partOf_ptr hk)) hr)
  | slice hlen _ ih =>
    have hk' := HasType.kindSlice ht (.inr ⟨_, _, rfl⟩)
    have elem : ∀ (i : Nat) x x' tv, _ → _ → Rep env (env.elemType t) x tv → Rep env (env.elemType t) x' tv := fun i x x' tv hx hx' hr =>
      ih i x x' hx hx' (HasType.elem ht (List.mem_of_getElem? hx)) (hz.part (partOf_slice hk')) hr
    cases hr with
    | leaf h => cases h
    | set hk hs _ hw hlen' hr =>
      have he := elemType_slice hk
      rw [he] at elem
      refine .set hk hs (.inr ⟨_, _, rfl⟩) hw (hlen'.trans hlen.symm) fun i x' tv hx' htv => ?_
      obtain ⟨x, hx⟩ := pair_at hlen hx'
      exact elem i x x' tv hx hx' (hr i x tv hx htv)
    | list hk hs hb _ hw hlen' hr =>
      have he := elemType_slice hk
      rw [he] at elem
      refine .list hk hs hb (.inr ⟨_, _, rfl⟩) hw (hlen'.trans hlen.symm) fun i x' tv hx' htv => ?_
      obtain ⟨x, hx⟩ := pair_at hlen hx'
      exact elem i x x' tv hx hx' (hr i x tv hx htv)
    | map _ h => simp at h
  | map hp ho' hlen _ _ ih1 ih2 =>
    obtain rfl := ho' ho
    have hk' := HasType.kindMap ht (.inr ⟨_, rfl⟩)
    have key : ∀ (i : Nat) (x x' : GoVal × GoVal) tv, _ → _ → Rep env (env.keyType t) x.1 tv → Rep env (env.keyType t) x'.1 tv := fun i x x' tv hx hx' hr =>
      ih1 i x x' hx hx' (HasType.key ht (List.mem_of_getElem? hx)) (hz.part (partOf_key hk')) hr
    have elem : ∀ (i : Nat) (x x' : GoVal × GoVal) tv, _ → _ → Rep env (env.elemType t) x.2 tv → Rep env (env.elemType t) x'.2 tv := fun i x x' tv hx hx' hr =>
      ih2 i x x' hx hx' (HasType.value ht (List.mem_of_getElem? hx)) (hz.part (partOf_value hk')) hr
    cases hr with
    | leaf h => cases h
    | set _ _ h => simp at h
    | list _ _ _ h => simp at h
    | map hk _ hw hw' hlen' hr1 hr2 =>
      have he := elemType_map hk
      have hke := keyType_map hk
      rw [he] at elem
      rw [hke] at key
      refine .map hk (.inr ⟨_, rfl⟩) hw hw' (hlen'.trans hlen.symm) (fun i x' te hx' hte => ?_) (fun i x' te hx' hte => ?_)
      · obtain ⟨x, hx⟩ := pair_at hlen hx'
        exact key i x x' _ hx hx' (hr1 i x te hx hte)
      · obtain ⟨x, hx⟩ := pair_at hlen hx'
        exact elem i x x' _ hx hx' (hr2 i x te hx hte)
  | @struct vs vs' hlen hs ih =>
    cases hr with
    | leaf h => cases h
    | set _ _ h => simp at h
    | list _ _ _ h => simp at h
    | map _ h => simp at h
    | @struct _ fs _ tfs order hkind hl hfs hacc htag hnd hord hsort hlen' hname hrep =>
      have hf' : ∀ {i : Nat} {f : FieldDecl}, fs[i]? = some f → (env.fields t)[i]? = some f := fun h => by rw [fields_struct hkind]; exact h
      refine .struct order hkind (hlen.trans hl) hfs hacc htag hnd (fun i => ?_) hsort hlen' hname fun j i tf f v' h1 h2 h3 h4 => ?_
      · rw [hord]
        constructor
        · rintro ⟨f, v, hf, hv, hw⟩
          obtain ⟨v', hv'⟩ := pair_at hlen.symm hv
          exact ⟨f, v', hf, hv', ((hs i v v' hv hv').written (HasType.field ht (hf' hf) hv) (hz.part (partOf_field (hf' hf)))).1 hw⟩
        · rintro ⟨f, v', hf, hv', hw⟩
          obtain ⟨v, hv⟩ := pair_at hlen hv'
          exact ⟨f, v, hf, hv, ((hs i v v' hv hv').written (HasType.field ht (hf' hf) hv) (hz.part (partOf_field (hf' hf)))).2 hw⟩
      · obtain ⟨v, hv⟩ := pair_at hlen h4
        exact ih i v v' hv h4 (HasType.field ht (hf' h3) hv) (hz.part (partOf_field (hf' h3))) (hrep j i tf f v h1 h2 h3 hv)

/-- Struct fields written, in strictly ascending order of ids. -/
theorem sorted_strict {env : Env} {t : TypeId} {fs : List FieldDecl} {vs : List GoVal} {tfs : List (Bytes × BitVec 16 × TVal)} {order : List Nat} (hk : (env.type t).kind = .struct fs)
    (hdist : DistinctIds env t) (hnd : order.Nodup) (hord : ∀ i : Nat, i ∈ order ↔ ∃ f v, fs[i]? = some f ∧ vs[i]? = some v ∧ Written env f v)
    (hsort : tfs.Pairwise (fun a b => a.2.1.toInt ≤ b.2.1.toInt)) (hlen : tfs.length = order.length)
    (hname : ∀ (j i : Nat) tf f, order[j]? = some i → tfs[j]? = some tf → fs[i]? = some f → tf.1 = f.name ∧ ∃ required, Declares env f tf.2.1 required) :
    tfs.Pairwise fun a b => a.2.1.toInt < b.2.1.toInt := by
  rw [List.pairwise_iff_getElem] at hsort ⊢
  intro j j' hj hj' hlt
  have hle := hsort j j' hj hj' hlt
  have pos : ∀ (k : Nat) (hk' : k < tfs.length), ∃ i f r, order[k]? = some i ∧ fs[i]? = some f ∧ Declares env f (tfs[k]).2.1 r := by
    intro k hk'
    have h1 := List.getElem?_eq_getElem (show k < order.length by omega)
    obtain ⟨f, v, h2, _⟩ := (hord _).1 (List.mem_of_getElem? h1)
    obtain ⟨_, r, h3⟩ := hname k _ _ f h1 (List.getElem?_eq_getElem hk') h2
    exact ⟨_, f, r, h1, h2, h3⟩
  obtain ⟨i, f, r, h1, h2, h3⟩ := pos j hj
  obtain ⟨i', f', r', h1', h2', h3'⟩ := pos j' hj'
  refine Int.lt_iff_le_and_ne.2 ⟨hle, fun heq => ?_⟩
  have hid := BitVec.eq_of_toInt_eq heq
  rw [hid] at h3
  have hii := hdist i i' f f' _ r r' (by rw [fields_struct hk]; exact h2) (by rw [fields_struct hk]; exact h2') h3 h3'
  subst hii
  obtain ⟨l1, e1⟩ := List.getElem?_eq_some_iff.1 h1
  obtain ⟨l2, e2⟩ := List.getElem?_eq_some_iff.1 h1'
  have := (List.getElem_inj hnd).1 (e1.trans e2.symm)
  omega

/-- Lists with the same elements in strictly ascending order are the same. -/
theorem eq_of_sorted {α : Type} {key : α → Int} {l l' : List α} (h : l.Pairwise fun a b => key a < key b) (h' : l'.Pairwise fun a b => key a < key b) (hm : ∀ a, a ∈ l ↔ a ∈ l') : l = l' := by
  have nd : ∀ {l : List α}, (l.Pairwise fun a b => key a < key b) → l.Nodup := fun h => h.imp fun hlt heq => by rw [heq] at hlt; omega
  have hp : l.Perm l' := (List.perm_ext_iff_of_nodup (nd h) (nd h')).2 hm
  exact hp.eq_of_pairwise (fun a b _ _ h1 h2 => by omega) h h'

theorem wireTypeOf_unique {env : Env} {t : TypeId} {w w' : WType} (h : WireTypeOf env t w) (h' : WireTypeOf env t w') : w = w' := by
  induction h generalizing w' with
  | ptr hk _ ih =>
    cases h' with
    | ptr hk' h' => rw [hk] at hk'; cases hk'; exact ih h'
    | _ => simp_all
  | _ => cases h' <;> first | rfl | simp_all [GoType.asBytes] | (rename_i h1 h2; rcases h1 with h1 | h1 <;> rcases h2 with h2 | h2 <;> rw [h1] at h2 <;> cases h2)

/-- The wire value is determined, if no struct has two fields of one id. -/
theorem Spec.Rep.unique {env : Env} {t : TypeId} {v : GoVal} {tv tv' : TVal} (h : Rep env t v tv) (h' : Rep env t v tv') (hd : ∀ t', Within env t' t → DistinctIds env t') : tv = tv' := by
  induction h generalizing tv' with
  | leaf h =>
    cases h' with
    | leaf h' => cases h <;> cases h' <;> rfl
    | ptr => cases h
    | ptrNil => cases h
    | set _ _ hv => rcases hv with rfl | ⟨_, _, rfl⟩ <;> cases h
    | list _ _ _ hv => rcases hv with rfl | ⟨_, _, rfl⟩ <;> cases h
    | map _ hv => rcases hv with rfl | ⟨_, rfl⟩ <;> cases h
    | struct => cases h
  | ptr hk _ ih =>
    obtain ⟨hk', hr⟩ := rep_ptr_inv h'
    rw [elemType_ptr hk] at hr
    exact ih hr fun t' ht' => hd t' (.step ht' (partOf_ptr hk))
  | ptrNil hk _ ih =>
    obtain ⟨hk', hr⟩ := rep_ptrNil_inv h'
    rw [elemType_ptr hk] at hr
    exact ih hr fun t' ht' => hd t' (.step ht' (partOf_ptr hk))
  | set hk hs hv hw hlen _ ih =>
    cases h' with
    | leaf h => rcases hv with rfl | ⟨_, _, rfl⟩ <;> cases h
    | ptr => simp at hv
    | ptrNil => simp at hv
    | set hk' _ _ hw' hlen' hr =>
      rw [hk] at hk'
      cases hk'
      rw [wireTypeOf_unique hw hw']
      refine congrArg (TVal.set _) (eq_of_at (hlen'.trans hlen.symm) fun i x x' h1 h2 => ?_)
      obtain ⟨y, hy⟩ := pair_at hlen h1
      exact ih i y x hy h1 (hr i y x' hy h2) fun t' ht' => hd t' (.step ht' (partOf_slice ⟨hk, by simp [GoType.asBytes, hs]⟩))
    | list _ hs' => rw [hs] at hs'; cases hs'
    | map hk' => rw [hk] at hk'; cases hk'
    | struct => simp at hv
  | list hk hs hb hv hw hlen _ ih =>
    cases h' with
    | leaf h => rcases hv with rfl | ⟨_, _, rfl⟩ <;> cases h
    | ptr => simp at hv
    | ptrNil => simp at hv
    | list hk' _ _ _ hw' hlen' hr =>
      rw [hk] at hk'
      cases hk'
      rw [wireTypeOf_unique hw hw']
      refine congrArg (TVal.list _) (eq_of_at (hlen'.trans hlen.symm) fun i x x' h1 h2 => ?_)
      obtain ⟨y, hy⟩ := pair_at hlen h1
      exact ih i y x hy h1 (hr i y x' hy h2) fun t' ht' => hd t' (.step ht' (partOf_slice ⟨hk, hb⟩))
    | set _ hs' => rw [hs] at hs'; cases hs'
    | map hk' => rw [hk] at hk'; cases hk'
    | struct => simp at hv
  | map hk hv hw1 hw2 hlen _ _ ih1 ih2 =>
    cases h' with
    | leaf h => rcases hv with rfl | ⟨_, rfl⟩ <;> cases h
    | ptr => simp at hv
    | ptrNil => simp at hv
    | set hk' => rw [hk] at hk'; cases hk'
    | list hk' => rw [hk] at hk'; cases hk'
    | map hk' _ hw1' hw2' hlen' hr1 hr2 =>
      rw [hk] at hk'
      cases hk'
      rw [wireTypeOf_unique hw1 hw1', wireTypeOf_unique hw2 hw2']
      refine congrArg (TVal.map _ _) (eq_of_at (hlen'.trans hlen.symm) fun i x x' h1 h2 => ?_)
      obtain ⟨y, hy⟩ := pair_at hlen h1
      exact Prod.ext (ih1 i y x hy h1 (hr1 i y x' hy h2) fun t' ht' => hd t' (.step ht' (partOf_key hk))) (ih2 i y x hy h1 (hr2 i y x' hy h2) fun t' ht' => hd t' (.step ht' (partOf_value hk)))
    | struct => simp at hv
  | @struct t fs vs tfs order hk hlen hfs hacc htag hnd hord hsort hlen' hname hrep ih =>
    cases h' with
    | leaf h => cases h
    | set _ _ h => simp at h
    | list _ _ _ h => simp at h
    | map _ h => simp at h
    | @struct _ fs' _ tfs' order' hk' _ _ _ _ hnd' hord' hsort' hlen'' hname' hrep' =>
      rw [hk] at hk'
      cases hk'
      have hdt := hd t (.refl _)
      have s1 := sorted_strict hk hdt hnd hord hsort hlen' hname
      have s2 := sorted_strict hk hdt hnd' hord' hsort' hlen'' hname'
      have both : ∀ (j j' i : Nat) tf tf', order[j]? = some i → order'[j']? = some i → tfs[j]? = some tf → tfs'[j']? = some tf' → tf = tf' := fun j j' i tf tf' h1 h1' h2 h2' => by
        obtain ⟨f, v, hf, hv, _⟩ := (hord i).1 (List.mem_of_getElem? h1)
        obtain ⟨n1, r1, d1⟩ := hname j i tf f h1 h2 hf
        obtain ⟨n2, r2, d2⟩ := hname' j' i tf' f h1' h2' hf
        have hid := (d1.unique d2).1
        have hv' := ih j i tf f v h1 h2 hf hv (hrep' j' i tf' f v h1' h2' hf hv) fun t' ht' => hd t' (.step ht' (partOf_field (by rw [fields_struct hk]; exact hf)))
        exact Prod.ext (n1.trans n2.symm) (Prod.ext hid hv')
      refine congrArg (TVal.struct _) (eq_of_sorted (key := fun a : Bytes × BitVec 16 × TVal => a.2.1.toInt) s1 s2 fun tf => ⟨fun htf => ?_, fun htf => ?_⟩)
      · obtain ⟨j, h2⟩ := List.getElem?_of_mem htf
        obtain ⟨i, h1⟩ := pair_at hlen' h2
        obtain ⟨j', h1'⟩ := List.getElem?_of_mem ((hord' i).2 ((hord i).1 (List.mem_of_getElem? h1)))
        obtain ⟨tf', h2'⟩ := pair_at hlen''.symm h1'
        rw [both j j' i tf tf' h1 h1' h2 h2']
        exact List.mem_of_getElem? h2'
      · obtain ⟨j', h2'⟩ := List.getElem?_of_mem htf
        obtain ⟨i, h1'⟩ := pair_at hlen'' h2'
        obtain ⟨j, h1⟩ := List.getElem?_of_mem ((hord i).2 ((hord' i).1 (List.mem_of_getElem? h1')))
        obtain ⟨tf', h2⟩ := pair_at hlen'.symm h1
        rw [← both j j' i tf' tf h1 h1' h2 h2']
        exact List.mem_of_getElem? h2

end GoThrift
