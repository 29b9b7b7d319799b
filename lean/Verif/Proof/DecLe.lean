import Verif.Proof.Dec
import Verif.Proof.Le
import Verif.Spec.Arshal

/-!
# More fuel does not change what is decoded
-/

namespace GoThrift

open Spec Spec.TVal

theorem Dec.andThen_le {α β : Type} {p p' : Dec α} (h : OLe p p') (fail : α → β) {k k' : α → Dec β} (hk : ∀ a, OLe (k a) (k' a)) :
    OLe (p.andThen fail k) (p'.andThen fail k') := by
  refine h.bind fun r => ?_
  obtain ⟨a, e⟩ := r
  cases e with
  | none => exact hk a
  | some e => exact .refl _

theorem decLoop_le {u u' : GoVal → TVal → Dec GoVal} (hu : ∀ v tv, OLe (u v tv) (u' v tv)) (zero : GoVal) (grow : Nat → Nat) (tvs : List TVal) (done rest : List GoVal)
    (mz : Bool) : OLe (decLoop u zero grow tvs done rest mz) (decLoop u' zero grow tvs done rest mz) := by
  induction tvs generalizing done rest mz with
  | nil => exact .refl _
  | cons tv tvs ih =>
    rw [decLoop, decLoop]
    split
    · exact .refl _
    · exact Dec.andThen_le (hu _ _) _ fun _ => ih _ _ _

theorem decEntries_le {uk uk' uv uv' : GoVal → TVal → Dec GoVal} (hk : ∀ v tv, OLe (uk v tv) (uk' v tv)) (hv : ∀ v tv, OLe (uv v tv) (uv' v tv)) (zk zv : GoVal)
    (tes : List (TVal × TVal)) (es : List (GoVal × GoVal)) : OLe (decEntries uk uv zk zv tes es) (decEntries uk' uv' zk zv tes es) := by
  induction tes generalizing es with
  | nil => exact .refl _
  | cons te tes ih => exact Dec.andThen_le (hk _ _) _ fun k => Dec.andThen_le (hv _ _) _ fun v => ih _

theorem OLe.elimD {α β : Type} {x y : Out α} (h : OLe x y) {k k' : α → Dec β} (hk : ∀ a, OLe (k a) (k' a)) :
    OLe (x.elim .panicked .diverged k) (y.elim .panicked .diverged k') := by
  rcases h with rfl | rfl
  · exact .inl rfl
  · cases x with
    | done a => exact hk a
    | _ => exact .refl _

theorem dec_le_both (env : Env) (n m : Nat) (h : n ≤ m) :
    (∀ a old tv, OLe (dec env n a old tv) (dec env m a old tv)) ∧ (∀ t fs vals tfs, OLe (decFields env n t fs vals tfs) (decFields env m t fs vals tfs)) := by
  induction n generalizing m with
  | zero => exact ⟨fun _ _ _ => by rw [dec]; exact .inl rfl, fun _ _ _ _ => by rw [decFields]; exact .inl rfl⟩
  | succ n ih =>
    obtain ⟨m, rfl⟩ : ∃ m', m = m' + 1 := ⟨m - 1, by omega⟩
    obtain ⟨ih1, ih2⟩ := ih m (by omega)
    constructor
    · intro a old tv
      cases a with
      | leaf t l => rw [dec, dec]; exact .refl _
      | struct t =>
        rw [dec, dec]
        refine (makeStructFields_le env n m (by omega) t).elimD fun r => ?_
        cases r with
        | error e => exact .refl _
        | ok fs =>
          dsimp only
          cases tv with
          | struct nm tfs =>
            dsimp only
            cases old.fields? with
            | none => exact .refl _
            | some vals => exact ih2 _ _ _ _
          | _ => exact .refl _
      | map t ka ea =>
        rw [dec, dec]
        cases tv with
        | map w1 w2 tes =>
          rw [decMap, decMap]
          cases old.entries? with
          | none => exact .refl _
          | some es =>
            dsimp only
            split
            · exact Dec.andThen_le (decEntries_le (fun v tv => ih1 _ _ _) (fun v tv => ih1 _ _ _) _ _ _ _) _ fun _ => .refl _
            · exact .refl _
        | _ => exact .refl _
      | seq t isSet ea =>
        rw [dec, dec]
        have body : ∀ es : List TVal, OLe
            (if old.elems?.isNone then (.panicked : Dec GoVal)
              else if es ≠ [] then (decLoop (fun v tv => dec env n ea v tv) (env.zero ea.typ) (env.grow t) es [] old.slots true).andThen (fun p => .slice p.1 p.2)
                fun p => .done (.slice p.1 p.2, none)
              else .done (old.cleared, none))
            (if old.elems?.isNone then (.panicked : Dec GoVal)
              else if es ≠ [] then (decLoop (fun v tv => dec env m ea v tv) (env.zero ea.typ) (env.grow t) es [] old.slots true).andThen (fun p => .slice p.1 p.2)
                fun p => .done (.slice p.1 p.2, none)
              else .done (old.cleared, none)) := by
          intro es
          split
          · exact .refl _
          · split
            · exact Dec.andThen_le (decLoop_le (fun v tv => ih1 _ _ _) _ _ _ _ _ _) _ fun _ => .refl _
            · exact .refl _
        cases isSet <;> cases tv <;> first | exact body _ | exact .refl _
      | ptr t ea =>
        rw [dec, dec]
        cases old.deref? (env.zero ea.typ) with
        | none => exact .refl _
        | some v => exact Dec.andThen_le (ih1 _ _ _) _ fun _ => .refl _
      | invalid t => rw [dec, dec]; exact .refl _
    · intro t fs vals tfs
      cases tfs with
      | nil => rw [decFields, decFields]; exact .refl _
      | cons f tfs =>
        rw [decFields, decFields]
        cases byID fs f.2.1 with
        | none => exact ih2 _ _ _ _
        | some sf =>
          dsimp only
          cases vals[sf.index]? with
          | none => exact .refl _
          | some v => exact Dec.andThen_le (ih1 _ _ _) _ fun _ => ih2 _ _ _ _

theorem dec_le (env : Env) {n m : Nat} (h : n ≤ m) (a : Arsh) (old : GoVal) (tv : TVal) : OLe (dec env n a old tv) (dec env m a old tv) := (dec_le_both env n m h).1 a old tv

theorem lookup_mono {env : Env} {n m : Nat} (h : n ≤ m) {t : TypeId} {a : Arsh} (hl : lookupArshaler env n t = .done a) : lookupArshaler env m t = .done a :=
  (lookupArshaler_le env n m h t).done hl

/-- Two lookups of a type yield the same arshaler. -/
theorem lookup_unique {env : Env} {n m : Nat} {t : TypeId} {a a' : Arsh} (h : lookupArshaler env n t = .done a) (h' : lookupArshaler env m t = .done a') : a = a' := by
  have h1 := lookup_mono (Nat.le_max_left n m) h
  have h2 := lookup_mono (Nat.le_max_right n m) h'
  rw [h1] at h2
  cases h2
  rfl

/-- Unmarshal into a pointer, at a wire value of the right type. -/
theorem Unmarshal_at {S : Type} {r : Rdr S} {env : Env} {p t : TypeId} (hp : (env.type p).kind = .ptr t) {n : Nat} {a : Arsh} (hl : lookupArshaler env n t = .done a)
    {tv : TVal} (hty : a.wireType = tv.ty) {s s' : S} (h : Holds r tv s s') (old : GoVal) (fuel : Nat) (h1 : n ≤ fuel) (h2 : fuelOf tv ≤ fuel) :
    Matches ((Unmarshal env fuel (.val p (.ptr old))).run r s)
      ((dec env fuel a old tv).andThen (fun v => .val p (.ptr v)) fun v => .done (.val p (.ptr v), none)) s' := by
  have he : env.elem? p = some t := by simp [Env.elem?, hp]
  simp only [Unmarshal, he, GoVal.pointee?, lookup_mono h1 hl, Out.elim, hty]
  exact (unmarshal_holds env fuel fuel a old tv s s' h2 h).andThen _ fun v => .ret _ _

/-- If decoding gives a value, so does Unmarshal. -/
theorem UnmarshalReturns_of_dec {S : Type} {r : Rdr S} {env : Env} {p t : TypeId} (hp : (env.type p).kind = .ptr t) {n : Nat} {a : Arsh} (hl : lookupArshaler env n t = .done a)
    {tv : TVal} (hty : a.wireType = tv.ty) {s s' : S} (h : Holds r tv s s') {old v' : GoVal} {m : Nat} (hd : dec env m a old tv = .done (v', none)) :
    UnmarshalReturns env r (.val p (.ptr old)) s none (.val p (.ptr v')) s' := by
  refine ⟨n + fuelOf tv + m, fun fuel hf => ?_⟩
  have := Unmarshal_at hp hl hty h old fuel (by omega) (by omega)
  rw [(dec_le env (show m ≤ fuel by omega) a old tv).done hd] at this
  exact this

end GoThrift
