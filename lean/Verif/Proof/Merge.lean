import Verif.Proof.Mismatch
import Verif.Proof.RepWF

/-!
# Fields read in two parts: lemmas
-/

namespace GoThrift

open Spec Spec.TVal

theorem andThen_split {α β : Type} {p : Dec α} {fail : α → β} {k : α → Dec β} {w : β} {e : Option Err} (h : p.andThen fail k = .done (w, e)) :
    (∃ a, p = .done (a, none) ∧ k a = .done (w, e)) ∨ ∃ a e', p = .done (a, some e') ∧ w = fail a ∧ e = some e' := by
  cases p with
  | done x =>
    obtain ⟨a, o⟩ := x
    cases o with
    | none => exact .inl ⟨a, rfl, h⟩
    | some e' =>
      cases h
      exact .inr ⟨a, e', rfl, rfl, rfl⟩
  | _ => cases h

theorem elim_split {α β : Type} {x : Out α} {k : α → Dec β} {r : β × Option Err} (h : x.elim .panicked .diverged k = .done r) : ∃ a, x = .done a ∧ k a = .done r := by
  cases x with
  | done a => exact ⟨a, rfl, h⟩
  | _ => cases h

theorem decFields_mono {env : Env} {n m : Nat} (h : n ≤ m) {t : TypeId} {fs : List SField} {vals : List GoVal} {tfs : List (Bytes × BitVec 16 × TVal)} {r : GoVal × Option Err}
    (hd : decFields env n t fs vals tfs = .done r) : decFields env m t fs vals tfs = .done r := ((dec_le_both env n m h).2 t fs vals tfs).done hd

/-- The fields of a struct are all there is in the result. -/
theorem decFields_struct {env : Env} {m : Nat} {t : TypeId} {fs : List SField} {xs : List (Bytes × BitVec 16 × TVal)} {vals : List GoVal} {w : GoVal} {e : Option Err}
    (h : decFields env m t fs vals xs = .done (w, e)) : ∃ vs, w = .struct vs := by
  induction m generalizing vals xs with
  | zero => rw [decFields] at h; cases h
  | succ m ih =>
    cases xs with
    | nil => rw [decFields] at h; cases h; exact ⟨_, rfl⟩
    | cons f xs =>
      rw [decFields] at h
      cases hb : byID fs f.2.1 with
      | none => rw [hb] at h; exact ih h
      | some sf =>
        rw [hb] at h
        dsimp only at h
        cases hv : vals[sf.index]? with
        | none => rw [hv] at h; cases h
        | some v =>
          rw [hv] at h
          rcases andThen_split h with ⟨a, _, h⟩ | ⟨a, e', _, rfl, _⟩
          · exact ih h
          · exact ⟨_, rfl⟩

/-- Reading `xs` and then `ys`. -/
theorem decFields_append {env : Env} {m : Nat} {t : TypeId} {fs : List SField} {xs ys : List (Bytes × BitVec 16 × TVal)} {vals : List GoVal} {w : GoVal} {e : Option Err}
    (h : decFields env m t fs vals xs = .done (w, e)) :
    (∀ e', e = some e' → decFields env m t fs vals (xs ++ ys) = .done (w, e)) ∧
    ∀ vs m2 r, e = none → w = .struct vs → decFields env m2 t fs vs ys = .done r → decFields env (m + m2) t fs vals (xs ++ ys) = .done r := by
  induction m generalizing vals xs with
  | zero => rw [decFields] at h; cases h
  | succ m ih =>
    cases xs with
    | nil =>
      rw [decFields] at h
      cases h
      exact ⟨fun e' h => (by cases h), fun vs m2 r _ hw h => (by cases hw; exact decFields_mono (by omega) h)⟩
    | cons f xs =>
      rw [decFields] at h
      rw [List.cons_append, decFields]
      have key : ∀ vs m2 r, decFields env (m + 1 + m2) t fs vs (f :: (xs ++ ys)) = .done r ↔ decFields env ((m + m2) + 1) t fs vs (f :: (xs ++ ys)) = .done r := fun vs m2 r => by
        rw [show m + 1 + m2 = (m + m2) + 1 by omega]
      simp only [key]
      simp only [decFields]
      cases hb : byID fs f.2.1 with
      | none => rw [hb] at h; exact ih h
      | some sf =>
        rw [hb] at h
        dsimp only at h ⊢
        cases hv : vals[sf.index]? with
        | none => rw [hv] at h; cases h
        | some v =>
          rw [hv] at h
          dsimp only at h ⊢
          rcases andThen_split h with ⟨a, h1, h2⟩ | ⟨a, e', h1, h2, h3⟩
          · rw [h1]
            refine ⟨(ih h2).1, fun vs m2 r he hw hr => ?_⟩
            rw [dec_mono (show m ≤ m + m2 by omega) h1]
            exact (ih h2).2 vs m2 r he hw hr
          · rw [h1, h2, h3]
            exact ⟨fun _ _ => rfl, fun vs m2 r he => by cases he⟩

/-- Reading `xs ++ ys` is reading `xs` first. -/
theorem decFields_split {env : Env} {m : Nat} {t : TypeId} {fs : List SField} {xs ys : List (Bytes × BitVec 16 × TVal)} {vals : List GoVal} {w : GoVal} {e : Option Err}
    (h : decFields env m t fs vals (xs ++ ys) = .done (w, e)) :
    (e ≠ none ∧ decFields env m t fs vals xs = .done (w, e)) ∨ ∃ vs, decFields env m t fs vals xs = .done (.struct vs, none) ∧ decFields env m t fs vs ys = .done (w, e) := by
  induction m generalizing vals xs with
  | zero => rw [decFields] at h; cases h
  | succ m ih =>
    cases xs with
    | nil => exact .inr ⟨vals, by rw [decFields], h⟩
    | cons f xs =>
      rw [List.cons_append, decFields] at h
      rw [decFields]
      cases hb : byID fs f.2.1 with
      | none =>
        rw [hb] at h
        rcases ih h with h | ⟨vs, h1, h2⟩
        · exact .inl h
        · exact .inr ⟨vs, h1, decFields_mono (by omega) h2⟩
      | some sf =>
        rw [hb] at h
        dsimp only at h ⊢
        cases hv : vals[sf.index]? with
        | none => rw [hv] at h; cases h
        | some v =>
          rw [hv] at h
          dsimp only at h ⊢
          rcases andThen_split h with ⟨a, h1, h2⟩ | ⟨a, e', h1, rfl, rfl⟩
          · rw [h1]
            rcases ih h2 with h | ⟨vs, h1, h2⟩
            · exact .inl h
            · exact .inr ⟨vs, h1, decFields_mono (by omega) h2⟩
          · rw [h1]
            exact .inl ⟨by simp, rfl⟩

theorem fields_mono {env : Env} {n m : Nat} (h : n ≤ m) {t : TypeId} {r : Except Err (List SField)} (hr : makeStructFields env n t = .done r) : makeStructFields env m t = .done r :=
  (makeStructFields_le env n m h t).done hr

/-- Arshalers at a struct. -/
theorem dec_shape (env : Env) (a : Arsh) : (∃ err, ∀ k old n zs, dec env (k + 1) a old (.struct n zs) = .done (old, some err)) ∨ (∃ t, a = .struct t) ∨ ∃ t ea, a = .ptr t ea := by
  cases a with
  | leaf t l =>
    refine .inl ⟨.semantic .unmarshal Ty.struct (some t), fun k old n zs => ?_⟩
    rw [dec]
    unfold decLeaf
    rw [if_pos]
    · rfl
    · cases l <;> simp [TVal.ty, Leaf.wireType] <;> decide
  | map t ka ea => exact .inl ⟨.semantic .unmarshal Ty.struct (some t), fun k old n zs => by rw [dec]; rfl⟩
  | seq t isSet ea => exact .inl ⟨.semantic .unmarshal Ty.struct (some t), fun k old n zs => by rw [dec]; cases isSet <;> rfl⟩
  | invalid t => exact .inl ⟨.semantic .unmarshal Ty.struct (some t), fun k old n zs => by rw [dec]; rfl⟩
  | struct t => exact .inr (.inl ⟨t, rfl⟩)
  | ptr t ea => exact .inr (.inr ⟨t, ea, rfl⟩)

/-- Reading a struct with the fields `xs` and then one with the fields `ys`. -/
theorem dec_append {env : Env} {m : Nat} {a : Arsh} {n n' : Bytes} {xs ys : List (Bytes × BitVec 16 × TVal)} {old w : GoVal} {e : Option Err} (h : dec env m a old (.struct n xs) = .done (w, e)) :
    (∀ e', e = some e' → dec env m a old (.struct n' (xs ++ ys)) = .done (w, e)) ∧
    ∀ n2 m2 r, e = none → dec env m2 a w (.struct n2 ys) = .done r → dec env (m + m2) a old (.struct n' (xs ++ ys)) = .done r := by
  induction m generalizing a old w with
  | zero => rw [dec] at h; cases h
  | succ m ih =>
    rcases dec_shape env a with ⟨err, hs⟩ | ⟨t, rfl⟩ | ⟨t, ea, rfl⟩
    · rw [hs] at h
      cases h
      exact ⟨fun _ _ => hs _ _ _ _, fun _ _ _ h => (by cases h)⟩
    · rw [dec] at h
      obtain ⟨x, hx, h⟩ := elim_split h
      cases x with
      | error err =>
        cases h
        exact ⟨fun _ _ => (by rw [dec, hx]; rfl), fun _ _ _ h => (by cases h)⟩
      | ok fs =>
        dsimp only at h
        cases ho : old.fields? with
        | none => rw [ho] at h; cases h
        | some vals =>
          rw [ho] at h
          dsimp only at h
          obtain ⟨h1, h2⟩ := decFields_append (ys := ys) h
          refine ⟨fun e' he => ?_, fun n2 m2 r he hr => ?_⟩
          · rw [dec, hx]
            simp only [Out.elim, ho]
            exact h1 e' he
          · obtain ⟨vs, rfl⟩ := decFields_struct h
            cases m2 with
            | zero => rw [dec] at hr; cases hr
            | succ k =>
              rw [dec] at hr
              obtain ⟨y, hy, hr⟩ := elim_split hr
              have e1 := fields_mono (show m ≤ m + (k + 1) by omega) hx
              have e2 := fields_mono (show k ≤ m + (k + 1) by omega) hy
              rw [e1] at e2
              cases e2
              rw [show m + 1 + (k + 1) = (m + (k + 1)) + 1 by omega, dec, e1]
              simp only [Out.elim, ho]
              exact decFields_mono (by omega) (h2 vs k r he rfl hr)
    · rw [dec] at h
      cases ho : old.deref? (env.zero ea.typ) with
      | none => rw [ho] at h; cases h
      | some v =>
        rw [ho] at h
        dsimp only at h
        rcases andThen_split h with ⟨x, h1, h2⟩ | ⟨x, e', h1, rfl, rfl⟩
        · cases h2
          refine ⟨fun e' h => (by cases h), fun n2 m2 r _ hr => ?_⟩
          rw [show m + 1 + m2 = (m + m2) + 1 by omega, dec, ho]
          dsimp only
          cases m2 with
          | zero => rw [dec] at hr; cases hr
          | succ k =>
            rw [dec] at hr
            simp only [GoVal.deref?] at hr
            obtain ⟨w, e⟩ := r
            rcases andThen_split hr with ⟨y, h3, h4⟩ | ⟨y, e', h3, rfl, rfl⟩
            · rw [dec_mono (show m + k ≤ m + (k + 1) by omega) ((ih h1).2 n2 k _ rfl h3)]
              exact h4
            · rw [dec_mono (show m + k ≤ m + (k + 1) by omega) ((ih h1).2 n2 k _ rfl h3)]
              rfl
        · refine ⟨fun _ _ => ?_, fun _ _ _ h => (by cases h)⟩
          rw [dec, ho]
          dsimp only
          rw [(ih h1).1 _ rfl]
          rfl

/-- Reading a struct with the fields `xs ++ ys` is reading one with `xs` first. -/
theorem dec_split {env : Env} {m : Nat} {a : Arsh} {n : Bytes} {xs ys : List (Bytes × BitVec 16 × TVal)} {old w : GoVal} {e : Option Err} (h : dec env m a old (.struct n (xs ++ ys)) = .done (w, e))
    (n1 n2 : Bytes) :
    (e ≠ none ∧ dec env m a old (.struct n1 xs) = .done (w, e)) ∨ ∃ v, dec env m a old (.struct n1 xs) = .done (v, none) ∧ dec env m a v (.struct n2 ys) = .done (w, e) := by
  induction m generalizing a old w e with
  | zero => rw [dec] at h; cases h
  | succ m ih =>
    rcases dec_shape env a with ⟨err, hs⟩ | ⟨t, rfl⟩ | ⟨t, ea, rfl⟩
    · rw [hs] at h
      cases h
      exact .inl ⟨by simp, hs _ _ _ _⟩
    · rw [dec] at h
      obtain ⟨x, hx, h⟩ := elim_split h
      rw [dec, hx]
      cases x with
      | error err =>
        cases h
        exact .inl ⟨by simp, rfl⟩
      | ok fs =>
        dsimp only at h
        cases ho : old.fields? with
        | none => rw [ho] at h; cases h
        | some vals =>
          rw [ho] at h
          dsimp only at h
          simp only [Out.elim]
          rcases decFields_split h with h | ⟨vs, h1, h2⟩
          · exact .inl h
          · refine .inr ⟨.struct vs, h1, ?_⟩
            rw [dec, hx]
            exact h2
    · rw [dec] at h
      rw [dec]
      cases ho : old.deref? (env.zero ea.typ) with
      | none => rw [ho] at h; cases h
      | some v =>
        rw [ho] at h
        dsimp only at h ⊢
        rcases andThen_split h with ⟨x, h1, h2⟩ | ⟨x, e', h1, rfl, rfl⟩
        · rcases ih h1 with ⟨h, _⟩ | ⟨v', h3, h4⟩
          · exact absurd rfl h
          · refine .inr ⟨.ptr v', by rw [h3]; rfl, ?_⟩
            rw [dec]
            simp only [GoVal.deref?]
            rw [h4]
            exact h2
        · rcases ih h1 with ⟨_, h⟩ | ⟨v', h3, h4⟩
          · exact .inl ⟨by simp, by rw [h]; rfl⟩
          · refine .inr ⟨.ptr v', by rw [h3]; rfl, ?_⟩
            rw [dec]
            simp only [GoVal.deref?]
            rw [h4]
            rfl

theorem encBinFields_append (xs ys : List (Bytes × BitVec 16 × TVal)) : encBinFields (xs ++ ys) = (encBinFields xs).dropLast ++ encBinFields ys := by
  induction xs with
  | nil => simp [encBinFields]
  | cons f xs ih =>
    obtain ⟨n, id, v⟩ := f
    have hne : encBinFields xs ≠ [] := by
      cases xs with
      | nil => simp [encBinFields]
      | cons f xs => obtain ⟨n, id, v⟩ := f; simp [encBinFields]
    rw [List.cons_append, encBinFields, encBinFields, ih, List.dropLast_append_of_ne_nil hne]
    simp

end GoThrift
