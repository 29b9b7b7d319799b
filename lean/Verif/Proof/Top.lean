import Verif.Proof.RepWF

/-!
# From Marshal to wire values
-/

namespace GoThrift

open Spec Spec.TVal

/-- The arshaler that Marshal uses. -/
theorem Marshal_eq {env : Env} {x : AnyVal} {t : TypeId} {v : GoVal} (h : Passes env x t v) (fuel : Nat) :
    Marshal env fuel x = (lookupArshaler env fuel t).elim .panic .diverge fun a => marshal env fuel a v := by
  rcases h with ⟨rfl, hk⟩ | ⟨p, hk, rfl⟩
  · have : env.elem? t = none := by
      simp only [Env.elem?]
    simp [Marshal, this]
  · simp [Marshal, Env.elem?, hk, GoVal.pointee?]

/-- When Marshal succeeds, the value stands for a wire value whose calls were made. -/
theorem MarshalReturns.rep {S : Type} {env : Env} {w : Wtr S} {x : AnyVal} {t : TypeId} {v : GoVal} {s s' : S} (hx : Passes env x t v) (ht : HasType env t v)
    (h : MarshalReturns env w x s none s') : ∃ tv, Rep env t v tv ∧ Writes w (calls tv) s s' ∧ ∃ n a, lookupArshaler env n t = .done a ∧ a.wireType = tv.ty := by
  obtain ⟨n, h⟩ := h
  have h := h n (Nat.le_refl _)
  obtain ⟨ops, h1, h2⟩ := wrapped_ok (wrapped_Marshal env n x) h []
  rw [Marshal_eq hx] at h1
  cases hl : lookupArshaler env n t with
  | done a =>
    rw [hl] at h1
    obtain ⟨tv, h3, h4, h5⟩ := marshal_rep env n n t a v hl ht [] _ h1
    obtain rfl : ops = calls tv := by simpa using h5
    exact ⟨tv, h3, h2, n, a, hl, h4.symm⟩
  | blocked => rw [hl] at h1; cases h1
  | diverged => rw [hl] at h1; cases h1
  | panicked => rw [hl] at h1; cases h1

theorem Writes.unique {S : Type} {w : Wtr S} {l : List WOp} {s s1 s2 : S} (h1 : Writes w l s s1) (h2 : Writes w l s s2) : s1 = s2 := by
  rw [Writes] at h1 h2
  rw [h1] at h2
  cases h2
  rfl

/-- Decoding the wire value of a value restores the value. -/
theorem Spec.Rep.unmarshals {S : Type} {env : Env} {t : TypeId} {v : GoVal} {tv : TVal} (h : Rep env t v tv) (hk : KeysSurvive env t v)
    (hd : ∀ t', Within env t' t → DistinctIds env t') {n : Nat} {a : Arsh} (hl : lookupArshaler env n t = .done a) (hw : a.wireType = tv.ty) :
    ∃ v', RoundTrip env t v v' ∧ ∀ (r : Rdr S) p s s', (env.type p).kind = .ptr t → Holds r tv s s' →
      UnmarshalReturns env r (.val p (.ptr (env.zero t))) s none (.val p (.ptr v')) s' := by
  obtain ⟨v', h1, m, h2⟩ := rep_restores h hk hd n a hl
  exact ⟨v', h1, fun r p s s' hp hh => UnmarshalReturns_of_dec hp hl hw hh h2⟩

/-- The id of a field is the one in its parsed tag. -/
theorem Spec.Declares.id_of {env : Env} {f : FieldDecl} {id : BitVec 16} {r : Bool} (h : Declares env f id r) {o : FieldOptions} {b : Bool} {e : Option Err}
    (hp : parseFieldOptions env.unicode f = .done (o, b, e)) : id = o.id := by
  rw [declares_parse h] at hp
  cases hp
  rfl

mutual
theorem Everywhere.imp {env : Env} {P Q : TypeId → GoVal → Prop} (h : ∀ t v, P t v → Q t v) : ∀ (t : TypeId) (v : GoVal), Everywhere env P t v → Everywhere env Q t v
  | t, .struct vs, hv => ⟨h _ _ hv.1, EverywhereFields.imp h (env.fields t) vs hv.2⟩
  | t, .map es, hv => ⟨h _ _ hv.1, EverywhereEntries.imp h (env.keyType t) (env.elemType t) es hv.2⟩
  | t, .slice es sp, hv => ⟨h _ _ hv.1, EverywhereElems.imp h (env.elemType t) es hv.2⟩
  | t, .ptr v, hv => ⟨h _ _ hv.1, Everywhere.imp h (env.elemType t) v hv.2⟩
  | t, .bool _, hv | t, .f32 _, hv | t, .f64 _, hv | t, .i8 _, hv | t, .i16 _, hv | t, .i32 _, hv | t, .i64 _, hv | t, .str _, hv | t, .bytes _, hv | t, .uuid _, hv
  | t, .mapNil, hv | t, .sliceNil, hv | t, .ptrNil, hv | t, .other _, hv => h _ _ hv
theorem EverywhereFields.imp {env : Env} {P Q : TypeId → GoVal → Prop} (h : ∀ t v, P t v → Q t v) : ∀ (fs : List FieldDecl) (vs : List GoVal),
    EverywhereFields env P fs vs → EverywhereFields env Q fs vs
  | f :: fs, v :: vs, hv => ⟨Everywhere.imp h f.typ v hv.1, EverywhereFields.imp h fs vs hv.2⟩
  | [], _, _ => by simp [EverywhereFields]
  | _ :: _, [], _ => by simp [EverywhereFields]
theorem EverywhereEntries.imp {env : Env} {P Q : TypeId → GoVal → Prop} (h : ∀ t v, P t v → Q t v) (kt et : TypeId) : ∀ es : List (GoVal × GoVal),
    EverywhereEntries env P kt et es → EverywhereEntries env Q kt et es
  | [], _ => trivial
  | (k, v) :: es, hv => ⟨Everywhere.imp h kt k hv.1, Everywhere.imp h et v hv.2.1, EverywhereEntries.imp h kt et es hv.2.2⟩
theorem EverywhereElems.imp {env : Env} {P Q : TypeId → GoVal → Prop} (h : ∀ t v, P t v → Q t v) (et : TypeId) : ∀ vs : List GoVal,
    EverywhereElems env P et vs → EverywhereElems env Q et vs
  | [], _ => trivial
  | v :: vs, hv => ⟨Everywhere.imp h et v hv.1, EverywhereElems.imp h et vs hv.2⟩
end

theorem Spec.SizesAtMost.mono {env : Env} {a b : Nat} (hab : a ≤ b) {t : TypeId} {v : GoVal} (h : SizesAtMost env a t v) : SizesAtMost env b t v := by
  refine Everywhere.imp (fun t v hv => ?_) t v h
  cases v with
  | bytes x => cases x with
    | none => trivial
    | some x => exact Nat.le_trans hv hab
  | str _ => exact Nat.le_trans hv hab
  | slice _ _ => exact Nat.le_trans hv hab
  | map _ => exact Nat.le_trans hv hab
  | _ => trivial

/-- Keys that come back as they are. -/
def PlainKey (k : GoVal) : Prop :=
  (∃ b, k = .bool b) ∨ (∃ b, k = .f64 b) ∨ (∃ b, k = .i8 b) ∨ (∃ b, k = .i16 b) ∨ (∃ b, k = .i32 b) ∨ (∃ b, k = .i64 b) ∨ (∃ b, k = .str b) ∨ (∃ b, k = .uuid b)

theorem PlainKey.same {env : Env} {t : TypeId} {k k' : GoVal} (h : PlainKey k) (hr : RoundTrip env t k k') : k' = k := by
  rcases h with ⟨b, rfl⟩ | ⟨b, rfl⟩ | ⟨b, rfl⟩ | ⟨b, rfl⟩ | ⟨b, rfl⟩ | ⟨b, rfl⟩ | ⟨b, rfl⟩ | ⟨b, rfl⟩ <;> cases hr <;> first | rfl | (rename_i h; simp at h)

/-- Different keys of integer, string, bool, float64 and UUID types survive. -/
theorem keysSurvive_plain {env : Env} {t : TypeId} {v : GoVal} (h : Everywhere env (fun _ v => match v with
    | .map es => ∀ (i j : Nat) (x y : GoVal × GoVal), i < j → es[i]? = some x → es[j]? = some y → PlainKey x.1 ∧ PlainKey y.1 ∧ y.1.keyEq x.1 = false
    | _ => True) t v) : KeysSurvive env t v := by
  refine Everywhere.imp (fun t v hv => ?_) t v h
  cases v with
  | map es =>
    intro i j x y x' y' hij hx hy h1 h2
    obtain ⟨p1, p2, p3⟩ := hv i j x y hij hx hy
    rw [p1.same h1, p2.same h2]
    exact p3
  | _ => trivial

end GoThrift
