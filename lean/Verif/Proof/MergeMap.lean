import Verif.Proof.Merge

/-!
# Entries of maps read in two parts: lemmas
-/

namespace GoThrift

open Spec Spec.TVal

theorem andThen_id_assoc {α β : Type} (p : Dec α) (fail : α → β) (k : α → Dec β) (l : β → Dec β) :
    (p.andThen fail k).andThen id l = p.andThen fail fun a => (k a).andThen id l := by
  cases p with
  | done x => obtain ⟨a, o⟩ := x; cases o <;> rfl
  | _ => rfl

theorem andThen_none {α β : Type} (a : α) (fail : α → β) (k : α → Dec β) : Dec.andThen (.done (a, none)) fail k = k a := rfl

theorem andThen_done {α β : Type} (p : Dec α) (f : α → β) (l : β → Dec β) : (p.andThen f fun a => .done (f a, none)).andThen id l = p.andThen f fun a => l (f a) := by
  rw [andThen_id_assoc]; rfl

theorem decEntries_append (uk uv : GoVal → TVal → Dec GoVal) (zk zv : GoVal) (xs ys : List (TVal × TVal)) (es : List (GoVal × GoVal)) :
    decEntries uk uv zk zv (xs ++ ys) es = (decEntries uk uv zk zv xs es).andThen id fun es => decEntries uk uv zk zv ys es := by
  induction xs generalizing es with
  | nil => rfl
  | cons e xs ih =>
    rw [List.cons_append, decEntries, decEntries, andThen_id_assoc]
    congr 1
    funext k
    rw [andThen_id_assoc]
    congr 1
    funext v
    exact ih _

theorem decMap_append (env : Env) (t kt et : TypeId) (uk uv : GoVal → TVal → Dec GoVal) (old : GoVal) (k1 v1 k2 v2 k3 v3 : WType) (xs ys : List (TVal × TVal)) :
    decMap env t kt et uk uv old (.map k3 v3 (xs ++ ys)) = (decMap env t kt et uk uv old (.map k1 v1 xs)).andThen id fun w => decMap env t kt et uk uv w (.map k2 v2 ys) := by
  unfold decMap
  dsimp only
  cases ho : old.entries? with
  | none => rfl
  | some es =>
    dsimp only
    by_cases hx : xs = []
    · subst hx
      simp only [List.nil_append, ne_eq, not_true_eq_false, if_false]
      rw [andThen_none, ho]
    · rw [if_pos (by simp [hx]), if_pos hx, andThen_done, decEntries_append]
      by_cases hy : ys = []
      · subst hy
        cases decEntries uk uv (env.zero kt) (env.zero et) xs es with
        | done x => obtain ⟨a, o⟩ := x; cases o <;> rfl
        | _ => rfl
      · cases decEntries uk uv (env.zero kt) (env.zero et) xs es with
        | done x =>
          obtain ⟨a, o⟩ := x
          cases o with
          | none => simp only [andThen_none, GoVal.entries?]; rw [if_pos hy]
          | some e => rfl
        | _ => rfl

/-- Reading a map with the entries `xs ++ ys` is reading one with `xs` and then one with `ys`. -/
theorem dec_map_append (env : Env) (m : Nat) (a : Arsh) (old : GoVal) (k1 v1 k2 v2 k3 v3 : WType) (xs ys : List (TVal × TVal)) :
    dec env m a old (.map k3 v3 (xs ++ ys)) = (dec env m a old (.map k1 v1 xs)).andThen id fun w => dec env m a w (.map k2 v2 ys) := by
  induction m generalizing a old with
  | zero => rw [dec, dec]; rfl
  | succ m ih =>
    cases a with
    | leaf t l =>
      have h : ∀ k v zs old, dec env (m + 1) (.leaf t l) old (.map k v zs) = .done (old, some (.semantic .unmarshal Ty.map (some t))) := by
        intro k v zs old
        rw [dec]
        unfold decLeaf
        rw [if_pos]
        · rfl
        · cases l <;> simp [TVal.ty, Leaf.wireType] <;> decide
      rw [h, h]; rfl
    | struct t =>
      rw [dec, dec]
      cases makeStructFields env m t with
      | done x => cases x <;> rfl
      | _ => rfl
    | map t ka ea => simp only [dec]; exact decMap_append _ _ _ _ _ _ _ _ _ _ _ _ _ _ _
    | seq t isSet ea => rw [dec, dec]; cases isSet <;> rfl
    | ptr t ea =>
      rw [dec, dec]
      cases old.deref? (env.zero ea.typ) with
      | none => rfl
      | some v =>
        dsimp only
        rw [andThen_done, ih ea v]
        cases dec env m ea v (.map k1 v1 xs) with
        | done x =>
          obtain ⟨b, o⟩ := x
          cases o with
          | none => rw [andThen_none, andThen_none, dec]; rfl
          | some e => rfl
        | _ => rfl
    | invalid t => rw [dec, dec]; rfl

theorem set_get {vals : List GoVal} {i : Nat} {v w : GoVal} (h : vals[i]? = some v) : (vals.set i w)[i]? = some w := by
  obtain ⟨hi, _⟩ := List.getElem?_eq_some_iff.1 h
  simp [hi]

/-- A field that is a map may come in two parts. -/
theorem decFields_two {env : Env} {m : Nat} {t : TypeId} {fs : List SField} {pre post : List (Bytes × BitVec 16 × TVal)} {n1 n2 n3 : Bytes} {id : BitVec 16} {k1 v1 k2 v2 k3 v3 : WType}
    {xs ys : List (TVal × TVal)} {vals : List GoVal} {r : GoVal × Option Err} (h : decFields env m t fs vals (pre ++ (n3, id, .map k3 v3 (xs ++ ys)) :: post) = .done r) :
    decFields env (m + 1) t fs vals (pre ++ (n1, id, .map k1 v1 xs) :: (n2, id, .map k2 v2 ys) :: post) = .done r := by
  induction m generalizing pre vals with
  | zero => rw [decFields] at h; cases h
  | succ m ih =>
    obtain ⟨w, e⟩ := r
    cases pre with
    | nil =>
      rw [List.nil_append, decFields] at h
      rw [List.nil_append, decFields]
      dsimp only at h ⊢
      cases hb : byID fs id with
      | none =>
        rw [hb] at h
        dsimp only at h ⊢
        rw [decFields]
        simp only [hb]
        exact h
      | some sf =>
        rw [hb] at h
        dsimp only at h ⊢
        cases hv : vals[sf.index]? with
        | none => rw [hv] at h; cases h
        | some v =>
          rw [hv] at h
          dsimp only at h ⊢
          rw [dec_map_append env m sf.a v k1 v1 k2 v2 k3 v3] at h
          cases h1 : dec env m sf.a v (.map k1 v1 xs) with
          | done x =>
            obtain ⟨a, o⟩ := x
            rw [h1] at h
            rw [dec_mono (show m ≤ m + 1 by omega) h1]
            cases o with
            | none =>
              rw [andThen_none] at h ⊢
              rw [decFields]
              simp only [hb, set_get hv, List.set_set]
              exact h
            | some e' => exact h
          | _ => rw [h1] at h; cases h
    | cons f pre =>
      rw [List.cons_append, decFields] at h
      rw [List.cons_append, decFields]
      cases hb : byID fs f.2.1 with
      | none => rw [hb] at h; exact ih h
      | some sf =>
        rw [hb] at h
        dsimp only at h ⊢
        cases hv : vals[sf.index]? with
        | none => rw [hv] at h; cases h
        | some v =>
          rw [hv] at h
          dsimp only at h ⊢
          rcases andThen_split h with ⟨a, h1, h2⟩ | ⟨a, e', h1, rfl, rfl⟩
          · rw [dec_mono (show m ≤ m + 1 by omega) h1, andThen_none]
            exact ih h2
          · rw [dec_mono (show m ≤ m + 1 by omega) h1]
            rfl

/-- And the other way round. -/
theorem decFields_one {env : Env} {m : Nat} {t : TypeId} {fs : List SField} {pre post : List (Bytes × BitVec 16 × TVal)} {n1 n2 n3 : Bytes} {id : BitVec 16} {k1 v1 k2 v2 k3 v3 : WType}
    {xs ys : List (TVal × TVal)} {vals : List GoVal} {r : GoVal × Option Err} (h : decFields env m t fs vals (pre ++ (n1, id, .map k1 v1 xs) :: (n2, id, .map k2 v2 ys) :: post) = .done r) :
    decFields env m t fs vals (pre ++ (n3, id, .map k3 v3 (xs ++ ys)) :: post) = .done r := by
  induction m generalizing pre vals with
  | zero => rw [decFields] at h; cases h
  | succ m ih =>
    obtain ⟨w, e⟩ := r
    cases pre with
    | nil =>
      rw [List.nil_append, decFields] at h
      rw [List.nil_append, decFields]
      dsimp only at h ⊢
      cases m with
      | zero =>
        simp only [decFields, dec] at h
        split at h
        · cases h
        · split at h <;> cases h
      | succ m =>
        cases hb : byID fs id with
        | none =>
          rw [hb] at h
          dsimp only at h ⊢
          rw [decFields] at h
          simp only [hb] at h
          exact decFields_mono (by omega) h
        | some sf =>
          rw [hb] at h
          dsimp only at h ⊢
          cases hv : vals[sf.index]? with
          | none => rw [hv] at h; cases h
          | some v =>
            rw [hv] at h
            dsimp only at h ⊢
            rw [dec_map_append env (m + 1) sf.a v k1 v1 k2 v2 k3 v3]
            rcases andThen_split h with ⟨a, h1, h2⟩ | ⟨a, e', h1, rfl, rfl⟩
            · rw [h1, andThen_none]
              rw [decFields] at h2
              simp only [hb, set_get hv, List.set_set] at h2
              rcases andThen_split h2 with ⟨b, h3, h4⟩ | ⟨b, e', h3, rfl, rfl⟩
              · rw [dec_mono (show m ≤ m + 1 by omega) h3, andThen_none]
                exact decFields_mono (by omega) h4
              · rw [dec_mono (show m ≤ m + 1 by omega) h3]
                rfl
            · rw [h1]
              rfl
    | cons f pre =>
      rw [List.cons_append, decFields] at h
      rw [List.cons_append, decFields]
      cases hb : byID fs f.2.1 with
      | none => rw [hb] at h; exact ih h
      | some sf =>
        rw [hb] at h
        dsimp only at h ⊢
        cases hv : vals[sf.index]? with
        | none => rw [hv] at h; cases h
        | some v =>
          rw [hv] at h
          dsimp only at h ⊢
          rcases andThen_split h with ⟨a, h1, h2⟩ | ⟨a, e', h1, rfl, rfl⟩
          · rw [h1, andThen_none]
            exact ih h2
          · rw [h1]
            rfl

/-- What is the same for the fields is the same for the struct, or the pointer to the struct, and so on. -/
theorem dec_lift {env : Env} {xs ys : List (Bytes × BitVec 16 × TVal)}
    (hf : ∀ {m t fs vals} {r : GoVal × Option Err}, decFields env m t fs vals xs = .done r → decFields env (m + 1) t fs vals ys = .done r) {m : Nat} {a : Arsh} {old : GoVal} {n n' : Bytes}
    {r : GoVal × Option Err} (h : dec env m a old (.struct n xs) = .done r) : dec env (m + 1) a old (.struct n' ys) = .done r := by
  induction m generalizing a old r with
  | zero => rw [dec] at h; cases h
  | succ m ih =>
    rcases dec_shape env a with ⟨err, hs⟩ | ⟨t, rfl⟩ | ⟨t, ea, rfl⟩
    · rw [hs] at h ⊢
      exact h
    · rw [dec] at h
      obtain ⟨x, hx, h⟩ := elim_split h
      rw [dec, fields_mono (show m ≤ m + 1 by omega) hx]
      cases x with
      | error err => exact h
      | ok fs =>
        dsimp only at h
        simp only [Out.elim]
        cases ho : old.fields? with
        | none => rw [ho] at h; cases h
        | some vals => rw [ho] at h; exact hf h
    · rw [dec] at h
      rw [dec]
      cases ho : old.deref? (env.zero ea.typ) with
      | none => rw [ho] at h; cases h
      | some v =>
        rw [ho] at h
        dsimp only at h ⊢
        obtain ⟨w, e⟩ := r
        rcases andThen_split h with ⟨b, h1, h2⟩ | ⟨b, e', h1, rfl, rfl⟩
        · rw [ih h1]; exact h2
        · rw [ih h1]; rfl

end GoThrift
