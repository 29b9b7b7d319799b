import Verif.Spec.Zero
import Verif.Proof.Top
import Verif.Proof.Marshal
import Verif.Spec.Canon

/-!
# What a round trip gives does not change any more: lemmas
-/

namespace GoThrift

open Spec Spec.TVal

/-! ## Values and kinds -/

theorem HasType.kindStruct {env : Env} {t : TypeId} {vs : List GoVal} (h : HasType env t (.struct vs)) : (env.type t).kind = .struct (env.fields t) := by
  have := Everywhere.here h
  unfold Shape at this
  unfold Env.fields
  split at this <;> simp_all

theorem HasType.kindPtr {env : Env} {t : TypeId} {v : GoVal} (h : HasType env t v) (hv : v = .ptrNil ∨ ∃ u, v = .ptr u) : (env.type t).kind = .ptr (env.elemType t) := by
  have := Everywhere.here h
  unfold Shape at this
  unfold Env.elemType
  rcases hv with rfl | ⟨u, rfl⟩ <;> split at this <;> simp_all

theorem HasType.kindSlice {env : Env} {t : TypeId} {v : GoVal} (h : HasType env t v) (hv : v = .sliceNil ∨ ∃ es sp, v = .slice es sp) :
    (env.type t).kind = .slice (env.elemType t) ∧ (env.type t).asBytes = false := by
  have := Everywhere.here h
  unfold Shape at this
  unfold Env.elemType
  rcases hv with rfl | ⟨es, sp, rfl⟩ <;> split at this <;> simp_all

theorem HasType.kindMap {env : Env} {t : TypeId} {v : GoVal} (h : HasType env t v) (hv : v = .mapNil ∨ ∃ es, v = .map es) :
    (env.type t).kind = .map (env.keyType t) (env.elemType t) := by
  have := Everywhere.here h
  unfold Shape at this
  unfold Env.elemType Env.keyType
  rcases hv with rfl | ⟨es, rfl⟩ <;> split at this <;> simp_all

theorem HasType.length {env : Env} {t : TypeId} {vs : List GoVal} (h : HasType env t (.struct vs)) : vs.length = (env.fields t).length := by
  have hk := HasType.kindStruct h
  have := Everywhere.here h
  simpa only [Shape, hk] using this

theorem HasType.field {env : Env} {t : TypeId} {vs : List GoVal} (h : HasType env t (.struct vs)) {i : Nat} {f : FieldDecl} {v : GoVal} (hf : (env.fields t)[i]? = some f) (hv : vs[i]? = some v) :
    HasType env f.typ v := (everywhereFields_iff _ _).1 h.2 i f v hf hv

theorem HasType.elem {env : Env} {t : TypeId} {es sp : List GoVal} (h : HasType env t (.slice es sp)) {x : GoVal} (hx : x ∈ es) : HasType env (env.elemType t) x :=
  (everywhereElems_iff _).1 h.2 x hx

theorem HasType.key {env : Env} {t : TypeId} {es : List (GoVal × GoVal)} (h : HasType env t (.map es)) {x : GoVal × GoVal} (hx : x ∈ es) : HasType env (env.keyType t) x.1 :=
  ((everywhereEntries_iff _).1 h.2 x hx).1

theorem HasType.value {env : Env} {t : TypeId} {es : List (GoVal × GoVal)} (h : HasType env t (.map es)) {x : GoVal × GoVal} (hx : x ∈ es) : HasType env (env.elemType t) x.2 :=
  ((everywhereEntries_iff _).1 h.2 x hx).2

theorem partOf_field {env : Env} {t : TypeId} {i : Nat} {f : FieldDecl} (h : (env.fields t)[i]? = some f) : PartOf env f.typ t := by
  unfold Env.fields at h
  split at h
  · next fs hk => rw [PartOf, hk]; exact ⟨f, List.mem_of_getElem? h, rfl⟩
  · cases h

theorem partOf_ptr {env : Env} {t e : TypeId} (h : (env.type t).kind = .ptr e) : PartOf env e t := by rw [PartOf, h]
theorem partOf_slice {env : Env} {t e : TypeId} (h : (env.type t).kind = .slice e ∧ (env.type t).asBytes = false) : PartOf env e t := by rw [PartOf, h.1]; exact ⟨h.2, rfl⟩
theorem partOf_key {env : Env} {t k e : TypeId} (h : (env.type t).kind = .map k e) : PartOf env k t := by rw [PartOf, h]; exact .inl rfl
theorem partOf_value {env : Env} {t k e : TypeId} (h : (env.type t).kind = .map k e) : PartOf env e t := by rw [PartOf, h]; exact .inr rfl

theorem Spec.ZeroLaw.part {env : Env} {t u : TypeId} (h : ZeroLaw env u) (hp : PartOf env t u) : ZeroLaw env t := fun t' ht' v hv => h t' (.step ht' hp) v hv

/-- Positions of two lists of the same length. -/
theorem pair_at {α β : Type} {l : List α} {l' : List β} (h : l'.length = l.length) {i : Nat} {b : β} (hb : l'[i]? = some b) : ∃ a, l[i]? = some a := by
  obtain ⟨hi, _⟩ := List.getElem?_eq_some_iff.1 hb
  exact ⟨l[i], List.getElem?_eq_getElem (by omega)⟩

/-! ## Written fields -/

theorem written_iff {env : Env} {f : FieldDecl} {v : GoVal} {id : BitVec 16} {r : Bool} (h : Declares env f id r) : Written env f v ↔ (r = true ∨ reportsZero env f.typ v = false) := by
  constructor
  · rintro ⟨id', r', h1, h2⟩
    obtain ⟨-, rfl⟩ := h.unique h1
    exact h2
  · exact fun h2 => ⟨id, r, h, h2⟩

/-- A field that was not written is not written once it is zero. -/
theorem not_written_zero {env : Env} {f : FieldDecl} {v : GoVal} (hz : ZeroLaw env f.typ) (h : ¬ Written env f v) : ¬ Written env f (env.zero f.typ) := by
  rintro ⟨id, r, h1, h2⟩
  rw [written_iff h1] at h
  rw [((hz f.typ (.refl _) _ (zero_hasType env _)).2 rfl)] at h2
  rcases h2 with h2 | h2
  · exact h (.inl h2)
  · cases h2

/-- A field that takes part and is not written is zero. -/
theorem zero_of_not_written {env : Env} {f : FieldDecl} {v v' : GoVal} (hz : ZeroLaw env f.typ) (hv : HasType env f.typ v') (hw : Written env f v) (h : ¬ Written env f v') : v' = env.zero f.typ := by
  obtain ⟨id, r, h1, h2⟩ := hw
  rw [written_iff h1] at h
  refine (hz f.typ (.refl _) _ hv).1 ?_
  cases hr : reportsZero env f.typ v' with
  | true => rfl
  | false => exact absurd (.inr hr) h

/-! ## When the zero law holds -/

/-- `reflect.Value.IsZero` says exactly of the zero value that it is zero, if it does not take negative zero for it. -/
theorem isZero_iff {env : Env} : ∀ (v : GoVal) (t : TypeId), HasType env t v → (v.isZero false = true ↔ v = env.zero t) := by
  have main : ∀ (n : Nat) (v : GoVal), sizeOf v < n → ∀ (t : TypeId), HasType env t v → (v.isZero false = true ↔ v = env.zero t) := by
    intro n
    induction n with
    | zero => intro v h; omega
    | succ n ih =>
      intro v hn t ht
      have hsh := Everywhere.here ht
      rw [env.zero_eq t]
      unfold Shape at hsh
      cases v with
      | struct vs =>
        have hk := HasType.kindStruct ht
        rw [hk]
        have hall : ∀ (fs : List FieldDecl) (vs : List GoVal), vs.length = fs.length → (∀ (i : Nat) f v, fs[i]? = some f → vs[i]? = some v → (v.isZero false = true ↔ v = env.zero f.typ)) →
            (GoVal.allZero false vs = true ↔ vs = fs.map fun f => env.zero f.typ) := by
          intro fs
          induction fs with
          | nil => intro vs hl _; cases vs with
            | nil => simp [GoVal.allZero]
            | cons => simp at hl
          | cons f fs ihf => intro vs hl h; cases vs with
            | nil => simp at hl
            | cons v vs =>
              rw [GoVal.allZero, Bool.and_eq_true, h 0 f v rfl rfl, ihf vs (by simpa using hl) fun i f v h1 h2 => h (i + 1) f v h1 h2]
              simp
        have := hall (env.fields t) vs (HasType.length ht) fun i f v hf hv => ih v (by
          have := List.sizeOf_lt_of_mem (List.mem_of_getElem? hv)
          simp at hn
          omega) f.typ (HasType.field ht hf hv)
        simp only [GoVal.isZero, Kind.zero, this, GoVal.struct.injEq]
      | uuid b =>
        cases hk : (env.type t).kind <;> simp only [hk] at hsh
        simp only [GoVal.isZero, Kind.zero, GoVal.uuid.injEq, List.all_eq_true, beq_iff_eq]
        rw [List.eq_replicate_iff]
        exact ⟨fun h => ⟨hsh, h⟩, fun h => h.2⟩
      | bytes b => cases hk : (env.type t).kind <;> simp only [hk] at hsh; simp [GoVal.isZero, Kind.zero, hsh]
      | sliceNil => cases hk : (env.type t).kind <;> simp only [hk] at hsh; simp [GoVal.isZero, Kind.zero, hsh]
      | slice => cases hk : (env.type t).kind <;> simp only [hk] at hsh; simp [GoVal.isZero, Kind.zero, hsh]
      | _ => cases hk : (env.type t).kind <;> simp only [hk] at hsh <;> simp [GoVal.isZero, Kind.zero, f32IsZero, f64IsZero]
  exact fun v t ht => main (sizeOf v + 1) v (by omega) t ht

/-- `reflect.Value.IsZero` says exactly of the zero value, with any signs of its zeros, that it is zero, if it takes negative zero for it. -/
theorem isZero_neg_iff {env : Env} : ∀ (v : GoVal) (t : TypeId), HasType env t v → (v.isZero true = true ↔ plus v = env.zero t) := by
  have main : ∀ (n : Nat) (v : GoVal), sizeOf v < n → ∀ (t : TypeId), HasType env t v → (v.isZero true = true ↔ plus v = env.zero t) := by
    intro n
    induction n with
    | zero => intro v h; omega
    | succ n ih =>
      intro v hn t ht
      have hsh := Everywhere.here ht
      rw [env.zero_eq t]
      unfold Shape at hsh
      cases v with
      | struct vs =>
        have hk := HasType.kindStruct ht
        rw [hk]
        have hall : ∀ (fs : List FieldDecl) (vs : List GoVal), vs.length = fs.length → (∀ (i : Nat) f v, fs[i]? = some f → vs[i]? = some v → (v.isZero true = true ↔ plus v = env.zero f.typ)) →
            (GoVal.allZero true vs = true ↔ plusAll vs = fs.map fun f => env.zero f.typ) := by
          intro fs
          induction fs with
          | nil => intro vs hl _; cases vs with
            | nil => simp [GoVal.allZero, plusAll]
            | cons => simp at hl
          | cons f fs ihf => intro vs hl h; cases vs with
            | nil => simp at hl
            | cons v vs =>
              rw [GoVal.allZero, Bool.and_eq_true, h 0 f v rfl rfl, ihf vs (by simpa using hl) fun i f v h1 h2 => h (i + 1) f v h1 h2, plusAll]
              simp
        have := hall (env.fields t) vs (HasType.length ht) fun i f v hf hv => ih v (by
          have := List.sizeOf_lt_of_mem (List.mem_of_getElem? hv)
          simp at hn
          omega) f.typ (HasType.field ht hf hv)
        simp only [GoVal.isZero, Kind.zero, this, plus, GoVal.struct.injEq]
      | uuid b =>
        cases hk : (env.type t).kind <;> simp only [hk] at hsh
        simp only [GoVal.isZero, Kind.zero, plus, GoVal.uuid.injEq, List.all_eq_true, beq_iff_eq]
        rw [List.eq_replicate_iff]
        exact ⟨fun h => ⟨hsh, h⟩, fun h => h.2⟩
      | bytes b => cases hk : (env.type t).kind <;> simp only [hk] at hsh; simp [GoVal.isZero, Kind.zero, plus, hsh]
      | sliceNil => cases hk : (env.type t).kind <;> simp only [hk] at hsh; simp [GoVal.isZero, Kind.zero, plus, hsh]
      | slice => cases hk : (env.type t).kind <;> simp only [hk] at hsh; simp [GoVal.isZero, Kind.zero, plus, hsh]
      | _ => cases hk : (env.type t).kind <;> simp only [hk] at hsh <;> simp [GoVal.isZero, Kind.zero, plus, f32IsZero, f64IsZero] <;> exact Decidable.or_iff_not_imp_right
  exact fun v t ht => main (sizeOf v + 1) v (by omega) t ht

/-- So the zero law holds of types without IsZero methods if negative zeros are not taken for zero. -/
theorem zeroLaw_plain {env : Env} {t : TypeId} (h : ∀ t', Within env t' t → env.isZero t' = none ∧ env.negZero t' = false) : ZeroLaw env t := fun t' ht' v hv => by
  obtain ⟨h1, h2⟩ := h t' ht'
  rw [reportsZero, h1]
  simp only [h2]
  exact isZero_iff v t' hv

/-! ## The value that comes back is one of the type, of the same sizes, with the keys different -/

theorem RoundTrip.hasType {env : Env} {t : TypeId} {v v' : GoVal} (h : RoundTrip env t v v') (ht : HasType env t v) : HasType env t v' := by
  induction h with
  | same _ => exact ht
  | f32 x =>
    have := Everywhere.here ht
    unfold Shape at this
    show Shape env _ _
    unfold Shape
    split at this <;> simp_all
  | emptyBytes =>
    have := Everywhere.here ht
    unfold Shape at this
    show Shape env _ _
    unfold Shape
    split at this <;> simp_all
  | ptr _ ih =>
    have hk := HasType.kindPtr ht (.inr ⟨_, rfl⟩)
    exact ⟨by simp only [Shape, hk], ih ht.2⟩
  | ptrNil _ ih =>
    have hk := HasType.kindPtr ht (.inl rfl)
    exact ⟨by simp only [Shape, hk], ih (zero_hasType env _)⟩
  | emptySlice hv =>
    have hk := HasType.kindSlice ht (hv.imp id fun ⟨sp, h⟩ => ⟨[], sp, h⟩)
    show Shape env _ _
    simp only [Shape, hk.1, hk.2]
  | slice hne hlen _ ih =>
    have hk := HasType.kindSlice ht (.inr ⟨_, _, rfl⟩)
    refine ⟨by simp only [Shape, hk.1, hk.2], (everywhereElems_iff _).2 fun x' hx' => ?_⟩
    obtain ⟨i, hi⟩ := List.getElem?_of_mem hx'
    obtain ⟨x, hx⟩ := pair_at hlen hi
    exact ih i x x' hx hi (HasType.elem ht (List.mem_of_getElem? hx))
  | emptyMap hv =>
    have hk := HasType.kindMap ht (hv.imp id fun h => ⟨[], h⟩)
    show Shape env _ _
    simp only [Shape, hk]
  | map hne hlen _ _ ih1 ih2 =>
    have hk := HasType.kindMap ht (.inr ⟨_, rfl⟩)
    refine ⟨by simp only [Shape, hk], (everywhereEntries_iff _).2 fun x' hx' => ?_⟩
    obtain ⟨i, hi⟩ := List.getElem?_of_mem hx'
    obtain ⟨x, hx⟩ := pair_at hlen hi
    exact ⟨ih1 i x x' hx hi (HasType.key ht (List.mem_of_getElem? hx)), ih2 i x x' hx hi (HasType.value ht (List.mem_of_getElem? hx))⟩
  | struct hlen _ hz ih =>
    have hk := HasType.kindStruct ht
    refine ⟨by simp only [Shape, hk]; rw [hlen, HasType.length ht], (everywhereFields_iff _ _).2 fun i f v' hf hv' => ?_⟩
    obtain ⟨v, hv⟩ := pair_at hlen hv'
    by_cases hw : Written env f v
    · exact ih i f v v' hf hv hv' hw (HasType.field ht hf hv)
    · rw [hz i f v v' hf hv hv' hw]; exact zero_hasType env _

theorem RoundTrip.sizes {env : Env} {lim : Nat} {t : TypeId} {v v' : GoVal} (h : RoundTrip env t v v') (ht : SizesAtMost env lim t v) : SizesAtMost env lim t v' := by
  induction h with
  | same _ => exact ht
  | f32 x => exact ht
  | emptyBytes => trivial
  | ptr _ ih => exact ⟨trivial, ih ht.2⟩
  | ptrNil _ ih => exact ⟨trivial, ih (sizes_zero env lim _)⟩
  | emptySlice hv => trivial
  | slice hne hlen _ ih =>
    refine ⟨by have := ht.1; dsimp only at this ⊢; omega, (everywhereElems_iff _).2 fun x' hx' => ?_⟩
    obtain ⟨i, hi⟩ := List.getElem?_of_mem hx'
    obtain ⟨x, hx⟩ := pair_at hlen hi
    exact ih i x x' hx hi ((everywhereElems_iff _).1 ht.2 x (List.mem_of_getElem? hx))
  | emptyMap hv => trivial
  | map hne hlen _ _ ih1 ih2 =>
    refine ⟨by have := ht.1; dsimp only at this ⊢; omega, (everywhereEntries_iff _).2 fun x' hx' => ?_⟩
    obtain ⟨i, hi⟩ := List.getElem?_of_mem hx'
    obtain ⟨x, hx⟩ := pair_at hlen hi
    have := (everywhereEntries_iff _).1 ht.2 x (List.mem_of_getElem? hx)
    exact ⟨ih1 i x x' hx hi this.1, ih2 i x x' hx hi this.2⟩
  | struct hlen _ hz ih =>
    refine ⟨trivial, (everywhereFields_iff _ _).2 fun i f v' hf hv' => ?_⟩
    obtain ⟨v, hv⟩ := pair_at hlen hv'
    by_cases hw : Written env f v
    · exact ih i f v v' hf hv hv' hw ((everywhereFields_iff _ _).1 ht.2 i f v hf hv)
    · rw [hz i f v v' hf hv hv' hw]; exact sizes_zero env lim _

/-! ## A second round trip -/

/-- What came back comes back as itself. -/
theorem RoundTrip.again {env : Env} (hfl : FloatLaw env) {t : TypeId} {v v' : GoVal} (h : RoundTrip env t v v') (ht : HasType env t v) (hz : ZeroLaw env t) : RoundTrip env t v' v' := by
  induction h with
  | same h => exact .same h
  | f32 x => have := RoundTrip.f32 (env := env) (t := ‹_›) (env.narrow (env.widen x)); rw [hfl x] at this; exact this
  | emptyBytes => exact .same (by simp)
  | ptr _ ih => exact .ptr (ih ht.2 (hz.part (partOf_ptr (HasType.kindPtr ht (.inr ⟨_, rfl⟩)))))
  | ptrNil _ ih => exact .ptr (ih (zero_hasType env _) (hz.part (partOf_ptr (HasType.kindPtr ht (.inl rfl)))))
  | emptySlice hv => exact .emptySlice (.inl rfl)
  | slice hne hlen _ ih =>
    refine .slice (fun hc => hne (List.length_eq_zero_iff.1 (by rw [← hlen, hc]; rfl))) rfl fun i x' x'' h1 h2 => ?_
    cases h1.symm.trans h2
    obtain ⟨x, hx⟩ := pair_at hlen h1
    exact ih i x x' hx h1 (HasType.elem ht (List.mem_of_getElem? hx)) (hz.part (partOf_slice (HasType.kindSlice ht (.inr ⟨_, _, rfl⟩))))
  | emptyMap hv => exact .emptyMap (.inl rfl)
  | map hne hlen _ _ ih1 ih2 =>
    have hk := HasType.kindMap ht (.inr ⟨_, rfl⟩)
    refine .map (fun hc => hne (List.length_eq_zero_iff.1 (by rw [← hlen, hc]; rfl))) rfl (fun i x' x'' h1 h2 => ?_) (fun i x' x'' h1 h2 => ?_)
    · cases h1.symm.trans h2
      obtain ⟨x, hx⟩ := pair_at hlen h1
      exact ih1 i x x' hx h1 (HasType.key ht (List.mem_of_getElem? hx)) (hz.part (partOf_key hk))
    · cases h1.symm.trans h2
      obtain ⟨x, hx⟩ := pair_at hlen h1
      exact ih2 i x x' hx h1 (HasType.value ht (List.mem_of_getElem? hx)) (hz.part (partOf_value hk))
  | @struct t vs vs' hlen hrt hzero ih =>
    refine .struct rfl (fun i f v' v'' hf h1 h2 hw' => ?_) (fun i f v' v'' hf h1 h2 hw' => ?_)
    · cases h1.symm.trans h2
      obtain ⟨v, hv⟩ := pair_at hlen h1
      have hz' := hz.part (partOf_field hf)
      by_cases hw : Written env f v
      · exact ih i f v v' hf hv h1 hw (HasType.field ht hf hv) hz'
      · have := hzero i f v v' hf hv h1 hw
        subst this
        exact absurd hw' (not_written_zero hz' hw)
    · cases h1.symm.trans h2
      obtain ⟨v, hv⟩ := pair_at hlen h1
      have hz' := hz.part (partOf_field hf)
      by_cases hw : Written env f v
      · exact zero_of_not_written hz' (RoundTrip.hasType (hrt i f v v' hf hv h1 hw) (HasType.field ht hf hv)) hw hw'
      · exact hzero i f v v' hf hv h1 hw

/-- The round trip is determined but for spare capacity. -/
theorem RoundTrip.sameValue {env : Env} {t : TypeId} {v a b : GoVal} (h : RoundTrip env t v a) (h' : RoundTrip env t v b) (ht : HasType env t v) : SameValue true a b := by
  induction h generalizing b with
  | same hv =>
    cases h' with
    | same _ => exact .refl _
    | emptySlice h => rcases h with rfl | ⟨sp, rfl⟩ <;> simp at hv
    | emptyMap h => rcases h with rfl | rfl <;> simp at hv
    | _ => simp at hv
  | f32 x =>
    cases h' with
    | same hv => simp at hv
    | f32 _ => exact .refl _
    | emptySlice hv => simp at hv
    | emptyMap hv => simp at hv
  | emptyBytes =>
    cases h' with
    | same hv => simp at hv
    | emptyBytes => exact .refl _
    | emptySlice hv => simp at hv
    | emptyMap hv => simp at hv
  | ptr _ ih =>
    cases h' with
    | same hv => simp at hv
    | ptr h' => exact .ptr (ih h' ht.2)
    | emptySlice hv => simp at hv
    | emptyMap hv => simp at hv
  | ptrNil _ ih =>
    cases h' with
    | same hv => simp at hv
    | ptrNil h' => exact .ptr (ih h' (zero_hasType env _))
    | emptySlice hv => simp at hv
    | emptyMap hv => simp at hv
  | emptySlice hv =>
    rcases hv with rfl | ⟨sp, rfl⟩
    · cases h' with
      | same hv => simp at hv
      | emptySlice _ => exact .refl _
      | emptyMap hv => simp at hv
    · cases h' with
      | same hv => simp at hv
      | emptySlice _ => exact .refl _
      | emptyMap hv => simp at hv
      | slice hne => exact absurd rfl hne
  | slice hne hlen _ ih =>
    cases h' with
    | same hv => simp at hv
    | emptySlice hv => simp at hv; exact absurd hv hne
    | emptyMap hv => simp at hv
    | slice _ hlen' hall =>
      refine .slice (by omega) fun i x x' h1 h2 => ?_
      obtain ⟨y, hy⟩ := pair_at hlen h1
      exact ih i y x hy h1 (hall i y x' hy h2) (HasType.elem ht (List.mem_of_getElem? hy))
  | emptyMap hv =>
    rcases hv with rfl | rfl
    · cases h' with
      | same hv => simp at hv
      | emptyMap _ => exact .refl _
      | emptySlice hv => simp at hv
    · cases h' with
      | same hv => simp at hv
      | emptyMap _ => exact .refl _
      | emptySlice hv => simp at hv
      | map hne => exact absurd rfl hne
  | map hne hlen _ _ ih1 ih2 =>
    cases h' with
    | same hv => simp at hv
    | emptyMap hv => simp at hv; exact absurd hv hne
    | emptySlice hv => simp at hv
    | map _ hlen' hall1 hall2 =>
      refine .map (.refl _) (fun _ => rfl) (by omega) (fun i x x' h1 h2 => ?_) (fun i x x' h1 h2 => ?_)
      · obtain ⟨y, hy⟩ := pair_at hlen h1
        exact ih1 i y x hy h1 (hall1 i y x' hy h2) (HasType.key ht (List.mem_of_getElem? hy))
      · obtain ⟨y, hy⟩ := pair_at hlen h1
        exact ih2 i y x hy h1 (hall2 i y x' hy h2) (HasType.value ht (List.mem_of_getElem? hy))
  | struct hlen _ hz ih =>
    cases h' with
    | same hv => simp at hv
    | emptyMap hv => simp at hv
    | emptySlice hv => simp at hv
    | struct hlen' hall hz' =>
      refine .struct (by omega) fun i x x' h1 h2 => ?_
      obtain ⟨y, hy⟩ := pair_at hlen h1
      obtain ⟨f, hf⟩ := pair_at (HasType.length ht) hy
      by_cases hw : Written env f y
      · exact ih i f y x hf hy h1 hw (hall i f y x' hf hy h2 hw) (HasType.field ht hf hy)
      · rw [hz i f y x hf hy h1 hw, hz' i f y x' hf hy h2 hw]; exact .refl _

/-! ## Values that differ in spare capacity only -/

theorem keysEq_at {as bs : List GoVal} : GoVal.keysEq as bs = true ↔ bs.length = as.length ∧ ∀ (i : Nat) x y, as[i]? = some x → bs[i]? = some y → x.keyEq y = true := by
  induction as generalizing bs with
  | nil => cases bs <;> simp [GoVal.keysEq]
  | cons a as ih =>
    cases bs with
    | nil => simp [GoVal.keysEq]
    | cons b bs =>
      rw [GoVal.keysEq, Bool.and_eq_true, ih]
      constructor
      · rintro ⟨h1, h2, h3⟩
        refine ⟨by simp [h2], fun i x y hx hy => ?_⟩
        cases i with
        | zero => cases hx; cases hy; exact h1
        | succ i => exact h3 i x y hx hy
      · rintro ⟨h1, h2⟩
        exact ⟨h2 0 a b rfl rfl, by simpa using h1, fun i x y hx hy => h2 (i + 1) x y hx hy⟩

theorem Spec.SameValue.keyEq_left {o : Bool} {a a' : GoVal} (h : SameValue o a a') (b : GoVal) : a.keyEq b = a'.keyEq b := by
  induction h generalizing b with
  | refl => rfl
  | ptr _ _ => cases b <;> rfl
  | slice _ _ _ => cases b <;> rfl
  | map _ _ _ _ _ _ _ => cases b <;> rfl
  | struct hlen _ ih =>
    cases b with
    | struct bs =>
      show GoVal.keysEq _ _ = GoVal.keysEq _ _
      rw [Bool.eq_iff_iff, keysEq_at, keysEq_at]
      constructor
      · rintro ⟨h1, h2⟩
        refine ⟨by omega, fun i x y hx hy => ?_⟩
        obtain ⟨z, hz⟩ := pair_at hlen hx
        rw [← ih i z x hz hx]; exact h2 i z y hz hy
      · rintro ⟨h1, h2⟩
        refine ⟨by omega, fun i x y hx hy => ?_⟩
        obtain ⟨z, hz⟩ := pair_at hlen.symm hx
        rw [ih i x z hx hz]; exact h2 i z y hz hy
    | _ => rfl

theorem Spec.SameValue.keyEq_right {o : Bool} {b b' : GoVal} (h : SameValue o b b') (a : GoVal) : a.keyEq b = a.keyEq b' := by
  induction h generalizing a with
  | refl => rfl
  | ptr _ _ => cases a <;> rfl
  | slice _ _ _ => cases a <;> rfl
  | map _ _ _ _ _ _ _ => cases a <;> rfl
  | struct hlen _ ih =>
    cases a with
    | struct as =>
      show GoVal.keysEq _ _ = GoVal.keysEq _ _
      rw [Bool.eq_iff_iff, keysEq_at, keysEq_at]
      constructor
      · rintro ⟨h1, h2⟩
        refine ⟨by omega, fun i x y hx hy => ?_⟩
        obtain ⟨z, hz⟩ := pair_at hlen hy
        rw [← ih i z y hz hy]; exact h2 i x z hx hz
      · rintro ⟨h1, h2⟩
        refine ⟨by omega, fun i x y hx hy => ?_⟩
        obtain ⟨z, hz⟩ := pair_at hlen.symm hy
        rw [ih i y z hy hz]; exact h2 i x z hx hz
    | _ => rfl

/-- The keys of what came back survive too. -/
theorem RoundTrip.keys {env : Env} (hfl : FloatLaw env) {t : TypeId} {v v' : GoVal} (h : RoundTrip env t v v') (ht : HasType env t v) (hz : ZeroLaw env t) (hk : KeysSurvive env t v) :
    KeysSurvive env t v' := by
  induction h with
  | same _ => exact hk
  | f32 x => trivial
  | emptyBytes => trivial
  | ptr _ ih => exact ⟨trivial, ih ht.2 (hz.part (partOf_ptr (HasType.kindPtr ht (.inr ⟨_, rfl⟩)))) hk.2⟩
  | ptrNil _ ih => exact ⟨trivial, ih (zero_hasType env _) (hz.part (partOf_ptr (HasType.kindPtr ht (.inl rfl)))) (keysSurvive_zero env _)⟩
  | emptySlice hv => trivial
  | slice hne hlen _ ih =>
    refine ⟨trivial, (everywhereElems_iff _).2 fun x' hx' => ?_⟩
    obtain ⟨i, hi⟩ := List.getElem?_of_mem hx'
    obtain ⟨x, hx⟩ := pair_at hlen hi
    exact ih i x x' hx hi (HasType.elem ht (List.mem_of_getElem? hx)) (hz.part (partOf_slice (HasType.kindSlice ht (.inr ⟨_, _, rfl⟩)))) ((everywhereElems_iff _).1 hk.2 x (List.mem_of_getElem? hx))
  | emptyMap hv => trivial
  | map hne hlen hrt _ ih1 ih2 =>
    have hkd := HasType.kindMap ht (.inr ⟨_, rfl⟩)
    refine ⟨?_, (everywhereEntries_iff _).2 fun x' hx' => ?_⟩
    · intro i j x' y' x'' y'' hij hx' hy' h1 h2
      obtain ⟨x, hx⟩ := pair_at hlen hx'
      obtain ⟨y, hy⟩ := pair_at hlen hy'
      have r1 := hrt i x x' hx hx'
      have r2 := hrt j y y' hy hy'
      have t1 := HasType.key ht (List.mem_of_getElem? hx)
      have t2 := HasType.key ht (List.mem_of_getElem? hy)
      have hzk := hz.part (partOf_key hkd)
      have s1 := RoundTrip.sameValue h1 (RoundTrip.again hfl r1 t1 hzk) (RoundTrip.hasType r1 t1)
      have s2 := RoundTrip.sameValue h2 (RoundTrip.again hfl r2 t2 hzk) (RoundTrip.hasType r2 t2)
      rw [s2.keyEq_left, s1.keyEq_right]
      exact hk.1 i j x y x'.1 y'.1 hij hx hy r1 r2
    · obtain ⟨i, hi⟩ := List.getElem?_of_mem hx'
      obtain ⟨x, hx⟩ := pair_at hlen hi
      have := (everywhereEntries_iff _).1 hk.2 x (List.mem_of_getElem? hx)
      exact ⟨ih1 i x x' hx hi (HasType.key ht (List.mem_of_getElem? hx)) (hz.part (partOf_key hkd)) this.1,
        ih2 i x x' hx hi (HasType.value ht (List.mem_of_getElem? hx)) (hz.part (partOf_value hkd)) this.2⟩
  | struct hlen _ hzero ih =>
    refine ⟨trivial, (everywhereFields_iff _ _).2 fun i f v' hf hv' => ?_⟩
    obtain ⟨v, hv⟩ := pair_at hlen hv'
    by_cases hw : Written env f v
    · exact ih i f v v' hf hv hv' hw (HasType.field ht hf hv) (hz.part (partOf_field hf)) ((everywhereFields_iff _ _).1 hk.2 i f v hf hv)
    · rw [hzero i f v v' hf hv hv' hw]; exact keysSurvive_zero env _

/-! ## The order of map entries, spare capacity -/

/-- A position in a permuted list. -/
theorem perm_at {α : Type} {l l' : List α} (h : l.Perm l') {i : Nat} {x : α} (hx : l'[i]? = some x) : ∃ j : Nat, l[j]? = some x :=
  List.getElem?_of_mem (h.mem_iff.2 (List.mem_of_getElem? hx))

theorem Spec.SameValue.hasType {o : Bool} {env : Env} {t : TypeId} {v v' : GoVal} (h : SameValue o v v') (ht : HasType env t v) : HasType env t v' := by
  induction h generalizing t with
  | refl => exact ht
  | ptr _ ih =>
    have hk := HasType.kindPtr ht (.inr ⟨_, rfl⟩)
    exact ⟨by simp only [Shape, hk], ih ht.2⟩
  | slice hlen _ ih =>
    have hk := HasType.kindSlice ht (.inr ⟨_, _, rfl⟩)
    refine ⟨by simp only [Shape, hk.1, hk.2], (everywhereElems_iff _).2 fun x' hx' => ?_⟩
    obtain ⟨i, hi⟩ := List.getElem?_of_mem hx'
    obtain ⟨x, hx⟩ := pair_at hlen hi
    exact ih i x x' hx hi (HasType.elem ht (List.mem_of_getElem? hx))
  | map hp _ hlen _ _ ih1 ih2 =>
    have hk := HasType.kindMap ht (.inr ⟨_, rfl⟩)
    refine ⟨by simp only [Shape, hk], (everywhereEntries_iff _).2 fun x' hx' => ?_⟩
    obtain ⟨i, hi⟩ := List.getElem?_of_mem (hp.mem_iff.2 hx')
    obtain ⟨x, hx⟩ := pair_at hlen hi
    exact ⟨ih1 i x x' hx hi (HasType.key ht (List.mem_of_getElem? hx)), ih2 i x x' hx hi (HasType.value ht (List.mem_of_getElem? hx))⟩
  | struct hlen _ ih =>
    have hk := HasType.kindStruct ht
    refine ⟨by simp only [Shape, hk]; rw [hlen, HasType.length ht], (everywhereFields_iff _ _).2 fun i f v' hf hv' => ?_⟩
    obtain ⟨v, hv⟩ := pair_at hlen hv'
    exact ih i v v' hv hv' (HasType.field ht hf hv)

theorem Spec.SameValue.sizes {o : Bool} {env : Env} {lim : Nat} {t : TypeId} {v v' : GoVal} (h : SameValue o v v') (ht : SizesAtMost env lim t v) : SizesAtMost env lim t v' := by
  induction h generalizing t with
  | refl => exact ht
  | ptr _ ih => exact ⟨ht.1, ih ht.2⟩
  | slice hlen _ ih =>
    refine ⟨by have := ht.1; dsimp only at this ⊢; omega, (everywhereElems_iff _).2 fun x' hx' => ?_⟩
    obtain ⟨i, hi⟩ := List.getElem?_of_mem hx'
    obtain ⟨x, hx⟩ := pair_at hlen hi
    exact ih i x x' hx hi ((everywhereElems_iff _).1 ht.2 x (List.mem_of_getElem? hx))
  | map hp _ hlen _ _ ih1 ih2 =>
    refine ⟨by have := ht.1; have := hp.length_eq; dsimp only at *; omega, (everywhereEntries_iff _).2 fun x' hx' => ?_⟩
    obtain ⟨i, hi⟩ := List.getElem?_of_mem (hp.mem_iff.2 hx')
    obtain ⟨x, hx⟩ := pair_at hlen hi
    have := (everywhereEntries_iff _).1 ht.2 x (List.mem_of_getElem? hx)
    exact ⟨ih1 i x x' hx hi this.1, ih2 i x x' hx hi this.2⟩
  | struct hlen _ ih =>
    refine ⟨trivial, (everywhereFields_iff _ _).2 fun i f v' hf hv' => ?_⟩
    obtain ⟨v, hv⟩ := pair_at hlen hv'
    exact ih i v v' hv hv' ((everywhereFields_iff _ _).1 ht.2 i f v hf hv)

theorem eq_of_at {α : Type} {l l' : List α} (hlen : l'.length = l.length) (h : ∀ (i : Nat) x x', l[i]? = some x → l'[i]? = some x' → x = x') : l = l' :=
  List.ext_getElem hlen.symm fun i h1 h2 => h i _ _ (List.getElem?_eq_getElem h1) (List.getElem?_eq_getElem h2)

/-- A zero value is a struct of zero values, or else has no parts. -/
theorem zero_cases (env : Env) (t : TypeId) : (∃ fs : List FieldDecl, env.zero t = .struct (fs.map fun f => env.zero f.typ)) ∨
    ((∀ u, env.zero t ≠ .ptr u) ∧ (∀ es sp, env.zero t ≠ .slice es sp) ∧ (∀ es, env.zero t ≠ .map es) ∧ ∀ vs, env.zero t ≠ .struct vs) := by
  rw [env.zero_eq]
  cases (env.type t).kind with
  | struct fs => exact .inl ⟨fs, rfl⟩
  | slice e => rw [Kind.zero]; split <;> exact .inr ⟨by simp, by simp, by simp, by simp⟩
  | _ => exact .inr ⟨by simp [Kind.zero], by simp [Kind.zero], by simp [Kind.zero], by simp [Kind.zero]⟩

theorem Spec.SameValue.zero_left {o : Bool} {env : Env} {t : TypeId} {v v' : GoVal} (h : SameValue o v v') (hv : v = env.zero t) : v' = env.zero t := by
  induction h generalizing t with
  | refl => exact hv
  | ptr =>
    rcases zero_cases env t with ⟨fs, h⟩ | h
    · rw [h] at hv; cases hv
    · exact absurd hv.symm (h.1 _)
  | slice =>
    rcases zero_cases env t with ⟨fs, h⟩ | h
    · rw [h] at hv; cases hv
    · exact absurd hv.symm (h.2.1 _ _)
  | map =>
    rcases zero_cases env t with ⟨fs, h⟩ | h
    · rw [h] at hv; cases hv
    · exact absurd hv.symm (h.2.2.1 _)
  | @struct vs vs' hlen _ ih =>
    rcases zero_cases env t with ⟨fs, h⟩ | h
    · rw [h] at hv ⊢
      cases hv
      refine congrArg GoVal.struct (eq_of_at hlen fun i x x' h1 h2 => ?_).symm
      have h1' := h1
      rw [List.getElem?_map] at h1'
      obtain ⟨f, hf, rfl⟩ := Option.map_eq_some_iff.1 h1'
      exact (ih i _ x' h1 h2 rfl).symm
    · exact absurd hv.symm (h.2.2.2 _)

theorem Spec.SameValue.zero_right {o : Bool} {env : Env} {t : TypeId} {v v' : GoVal} (h : SameValue o v v') (hv : v' = env.zero t) : v = env.zero t := by
  induction h generalizing t with
  | refl => exact hv
  | ptr =>
    rcases zero_cases env t with ⟨fs, h⟩ | h
    · rw [h] at hv; cases hv
    · exact absurd hv.symm (h.1 _)
  | slice =>
    rcases zero_cases env t with ⟨fs, h⟩ | h
    · rw [h] at hv; cases hv
    · exact absurd hv.symm (h.2.1 _ _)
  | map =>
    rcases zero_cases env t with ⟨fs, h⟩ | h
    · rw [h] at hv; cases hv
    · exact absurd hv.symm (h.2.2.1 _)
  | @struct vs vs' hlen _ ih =>
    rcases zero_cases env t with ⟨fs, h⟩ | h
    · rw [h] at hv ⊢
      cases hv
      refine congrArg GoVal.struct (eq_of_at hlen fun i x x' h1 h2 => ?_)
      have h2' := h2
      rw [List.getElem?_map] at h2'
      obtain ⟨f, hf, rfl⟩ := Option.map_eq_some_iff.1 h2'
      exact ih i x _ h1 h2 rfl
    · exact absurd hv.symm (h.2.2.2 _)

/-- Values that are the same but for spare capacity and the order of map entries are reported to be zero alike. -/
def ZeroSame (env : Env) (t : TypeId) : Prop := ∀ t', Within env t' t → ∀ o v v', HasType env t' v → SameValue o v v' → reportsZero env t' v = reportsZero env t' v'

theorem ZeroSame.part {env : Env} {t u : TypeId} (h : ZeroSame env u) (hp : PartOf env t u) : ZeroSame env t := fun t' ht' => h t' (.step ht' hp)

theorem Spec.ZeroLaw.zeroSame {env : Env} {t : TypeId} (hz : ZeroLaw env t) : ZeroSame env t := fun t' ht' o v v' ht h => by
  have h1 := hz _ ht' _ ht
  have h2 := hz _ ht' _ (h.hasType ht)
  rw [Bool.eq_iff_iff, h1, h2]
  exact ⟨fun e => h.zero_left e, fun e => h.zero_right e⟩

theorem Spec.SameValue.isZero {o : Bool} {v v' : GoVal} (h : SameValue o v v') (neg : Bool) : v.isZero neg = v'.isZero neg := by
  induction h with
  | struct hlen hs ih =>
    rename_i vs vs'
    simp only [GoVal.isZero]
    clear hs
    induction vs generalizing vs' with
    | nil => cases vs' with
      | nil => rfl
      | cons => simp at hlen
    | cons v vs ihv => cases vs' with
      | nil => simp at hlen
      | cons v' vs' =>
        rw [GoVal.allZero, GoVal.allZero, ih 0 v v' rfl rfl, ihv (by simpa using hlen) fun i x x' h1 h2 => ih (i + 1) x x' h1 h2]
  | _ => rfl

/-- So it is with types without IsZero methods. -/
theorem zeroSame_plain {env : Env} {t : TypeId} (h : ∀ t', Within env t' t → env.isZero t' = none) : ZeroSame env t := fun t' ht' o v v' _ hs => by
  simp only [reportsZero, h t' ht']
  exact hs.isZero _

theorem Spec.SameValue.written {o : Bool} {env : Env} {f : FieldDecl} {v v' : GoVal} (h : SameValue o v v') (ht : HasType env f.typ v) (hz : ZeroSame env f.typ) : Written env f v ↔ Written env f v' := by
  have h3 : reportsZero env f.typ v = reportsZero env f.typ v' := hz _ (.refl _) o v v' ht h
  constructor
  · rintro ⟨id, r, hd, hw⟩; exact ⟨id, r, hd, by rwa [← h3]⟩
  · rintro ⟨id, r, hd, hw⟩; exact ⟨id, r, hd, by rwa [h3]⟩

/-- What comes back as itself does so in any order of map entries. -/
theorem Spec.SameValue.settled {o : Bool} {env : Env} {t : TypeId} {v v' : GoVal} (h : SameValue o v v') (ht : HasType env t v) (hz : ZeroSame env t) (hr : RoundTrip env t v v) :
    RoundTrip env t v' v' := by
  induction h generalizing t with
  | refl => exact hr
  | ptr _ ih =>
    cases hr with
    | same hv => simp at hv
    | ptr hr => exact .ptr (ih ht.2 (hz.part (partOf_ptr (HasType.kindPtr ht (.inr ⟨_, rfl⟩)))) hr)
  | slice hlen _ ih =>
    cases hr with
    | same hv => simp at hv
    | slice hne _ hr =>
      refine .slice (fun hc => hne (List.length_eq_zero_iff.1 (by rw [← hlen, hc]; rfl))) rfl fun i x' x'' h1 h2 => ?_
      cases h1.symm.trans h2
      obtain ⟨x, hx⟩ := pair_at hlen h1
      exact ih i x x' hx h1 (HasType.elem ht (List.mem_of_getElem? hx)) (hz.part (partOf_slice (HasType.kindSlice ht (.inr ⟨_, _, rfl⟩)))) (hr i x x hx hx)
  | map hp _ hlen _ _ ih1 ih2 =>
    cases hr with
    | same hv => simp at hv
    | map hne _ hr1 hr2 =>
      have hk := HasType.kindMap ht (.inr ⟨_, rfl⟩)
      refine .map (fun hc => hne (List.length_eq_zero_iff.1 (by rw [← hlen, hp.length_eq, hc]; rfl))) rfl (fun i x' x'' h1 h2 => ?_) (fun i x' x'' h1 h2 => ?_)
      · cases h1.symm.trans h2
        obtain ⟨j, hj⟩ := perm_at hp h1
        obtain ⟨x, hx⟩ := pair_at hlen hj
        exact ih1 j x x' hx hj (HasType.key ht (List.mem_of_getElem? hx)) (hz.part (partOf_key hk)) (hr1 j x x hx hx)
      · cases h1.symm.trans h2
        obtain ⟨j, hj⟩ := perm_at hp h1
        obtain ⟨x, hx⟩ := pair_at hlen hj
        exact ih2 j x x' hx hj (HasType.value ht (List.mem_of_getElem? hx)) (hz.part (partOf_value hk)) (hr2 j x x hx hx)
  | struct hlen hs ih =>
    cases hr with
    | same hv => simp at hv
    | struct _ hr hr0 =>
      refine .struct rfl (fun i f x' x'' hf h1 h2 hw => ?_) (fun i f x' x'' hf h1 h2 hw => ?_)
      · cases h1.symm.trans h2
        obtain ⟨x, hx⟩ := pair_at hlen h1
        have ht' := HasType.field ht hf hx
        have hz' := hz.part (partOf_field hf)
        exact ih i x x' hx h1 ht' hz' (hr i f x x hf hx hx (((hs i x x' hx h1).written ht' hz').2 hw))
      · cases h1.symm.trans h2
        obtain ⟨x, hx⟩ := pair_at hlen h1
        have ht' := HasType.field ht hf hx
        have hz' := hz.part (partOf_field hf)
        exact (hs i x x' hx h1).zero_left (hr0 i f x x hf hx hx fun hc => hw (((hs i x x' hx h1).written ht' hz').1 hc))

/-- The keys of what comes back as itself survive in any order. -/
theorem Spec.SameValue.keys {o : Bool} {env : Env} {t : TypeId} {v v' : GoVal} (h : SameValue o v v') (ht : HasType env t v) (hz : ZeroSame env t) (hr : RoundTrip env t v v) (hks : KeysSurvive env t v) :
    KeysSurvive env t v' := by
  induction h generalizing t with
  | refl => exact hks
  | ptr _ ih =>
    cases hr with
    | same hv => simp at hv
    | ptr hr => exact ⟨trivial, ih ht.2 (hz.part (partOf_ptr (HasType.kindPtr ht (.inr ⟨_, rfl⟩)))) hr hks.2⟩
  | slice hlen _ ih =>
    cases hr with
    | same hv => simp at hv
    | slice hne _ hr =>
      refine ⟨trivial, (everywhereElems_iff _).2 fun x' hx' => ?_⟩
      obtain ⟨i, h1⟩ := List.getElem?_of_mem hx'
      obtain ⟨x, hx⟩ := pair_at hlen h1
      exact ih i x x' hx h1 (HasType.elem ht (List.mem_of_getElem? hx)) (hz.part (partOf_slice (HasType.kindSlice ht (.inr ⟨_, _, rfl⟩)))) (hr i x x hx hx)
        ((everywhereElems_iff _).1 hks.2 x (List.mem_of_getElem? hx))
  | @map es es1 es' hp _ hlen hs1 _ ih1 ih2 =>
    cases hr with
    | same hv => simp at hv
    | map hne _ hr1 hr2 =>
      have hk := HasType.kindMap ht (.inr ⟨_, rfl⟩)
      have hzk := hz.part (partOf_key hk)
      refine ⟨?_, (everywhereEntries_iff _).2 fun x' hx' => ?_⟩
      · -- all pairs of keys of the entries differ, whatever the order
        have key : ∀ x' ∈ es1, ∃ (i : Nat) (x : GoVal × GoVal), es[i]? = some x ∧ es1[i]? = some x' := fun x' hx' => by
          obtain ⟨i, hi⟩ := List.getElem?_of_mem hx'
          obtain ⟨x, hx⟩ := pair_at hlen hi
          exact ⟨i, x, hx, hi⟩
        have hpw : es1.Pairwise fun a b => b.1.keyEq a.1 = false := by
          rw [List.pairwise_iff_getElem]
          intro i j hi hj hij
          have h1 := List.getElem?_eq_getElem hi
          have h2 := List.getElem?_eq_getElem hj
          obtain ⟨x, hx⟩ := pair_at hlen h1
          obtain ⟨y, hy⟩ := pair_at hlen h2
          have := hks.1 i j x y x.1 y.1 hij hx hy (hr1 i x x hx hx) (hr1 j y y hy hy)
          rwa [(hs1 j y _ hy h2).keyEq_left, (hs1 i x _ hx h1).keyEq_right] at this
        have hpw' : es'.Pairwise fun a b => b.1.keyEq a.1 = false := hp.pairwise hpw fun {a b} h => by
          cases h' : a.1.keyEq b.1 with
          | false => rfl
          | true => rw [keyEq_symm _ _ h'] at h; cases h
        rw [List.pairwise_iff_getElem] at hpw'
        intro i j x' y' x'' y'' hij hx' hy' r1 r2
        obtain ⟨li, ei⟩ := List.getElem?_eq_some_iff.1 hx'
        obtain ⟨lj, ej⟩ := List.getElem?_eq_some_iff.1 hy'
        have hd := hpw' i j li lj hij
        rw [ei, ej] at hd
        have settled : ∀ z ∈ es', RoundTrip env (env.keyType t) z.1 z.1 ∧ HasType env (env.keyType t) z.1 := fun z hz' => by
          obtain ⟨k, x, hx, hk'⟩ := key z (hp.mem_iff.2 hz')
          have htk := HasType.key ht (List.mem_of_getElem? hx)
          exact ⟨(hs1 k x z hx hk').settled htk hzk (hr1 k x x hx hx), (hs1 k x z hx hk').hasType htk⟩
        obtain ⟨s1, t1⟩ := settled x' (List.mem_of_getElem? hx')
        obtain ⟨s2, t2⟩ := settled y' (List.mem_of_getElem? hy')
        rw [(RoundTrip.sameValue r2 s2 t2).keyEq_left, (RoundTrip.sameValue r1 s1 t1).keyEq_right]
        exact hd
      · obtain ⟨i, hi⟩ := List.getElem?_of_mem (hp.mem_iff.2 hx')
        obtain ⟨x, hx⟩ := pair_at hlen hi
        have := (everywhereEntries_iff _).1 hks.2 x (List.mem_of_getElem? hx)
        exact ⟨ih1 i x x' hx hi (HasType.key ht (List.mem_of_getElem? hx)) hzk (hr1 i x x hx hx) this.1,
          ih2 i x x' hx hi (HasType.value ht (List.mem_of_getElem? hx)) (hz.part (partOf_value hk)) (hr2 i x x hx hx) this.2⟩
  | struct hlen hs ih =>
    cases hr with
    | same hv => simp at hv
    | struct _ hr hr0 =>
      refine ⟨trivial, (everywhereFields_iff _ _).2 fun i f x' hf h1 => ?_⟩
      obtain ⟨x, hx⟩ := pair_at hlen h1
      have ht' := HasType.field ht hf hx
      have hz' := hz.part (partOf_field hf)
      by_cases hw : Written env f x
      · exact ih i x x' hx h1 ht' hz' (hr i f x x hf hx hx hw) ((everywhereFields_iff _ _).1 hks.2 i f x hf hx)
      · rw [(hs i x x' hx h1).zero_left (hr0 i f x x hf hx hx hw)]; exact keysSurvive_zero env _

end GoThrift
