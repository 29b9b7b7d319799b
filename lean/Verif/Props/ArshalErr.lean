import Verif.Proof.FailFast
import Verif.Proof.Le
import Verif.Spec.Example

/-!
# Properties C13, C14, C15: errors of Marshal and Unmarshal
-/

namespace GoThrift

open Spec

/-- **C13**: for any Writer, at most the last call Marshal makes fails. If it does, Marshal returns a SemanticError of action marshal that wraps the name of that call's method and,
inside, that very error, and the calls up to it are a prefix of those made with a Writer that never fails. If no call fails, Marshal makes the same calls as with a Writer that never
fails and returns the same. -/
theorem C13_marshal_fail_fast {S : Type} (env : Env) (w : Wtr S) (x : AnyVal) (s s' : S) (log : List (WOp × Option Err)) (e : Option Err)
    (h : MarshalReturns env (loggedW w) x (s, []) e (s', log)) :
    (∃ os, log = os.map (·, none) ∧ MarshalReturns env okWriter x [] e os) ∨
    (∃ os o err tt t, log = os.map (·, none) ++ [(o, some err)] ∧
      e = some (.semanticE .marshal tt (some t) (.wire (methodName o) err)) ∧
      ∀ e2 ops, MarshalReturns env okWriter x [] e2 ops → (os ++ [o]) <+: ops) := by
  obtain ⟨n, h⟩ := h
  rcases wrapped_run w _ (wrapped_Marshal env n x) s s' [] log e (h n (Nat.le_refl _)) [] with ⟨os, h1, h2⟩ | ⟨os, o, err, h1, ⟨tt, t, h2⟩, h3⟩
  · refine .inl ⟨os, by simpa using h1, n, fun fuel hf => ?_⟩
    have := ((Marshal_le env n fuel hf x).run okWriter []).done h2
    simpa using this
  · refine .inr ⟨os, o, err, tt, t, by simpa using h1, h2, ?_⟩
    rintro e2 ops ⟨n2, h2'⟩
    have hm := h (max n n2) (Nat.le_max_left _ _)
    have h2' := h2' (max n n2) (Nat.le_max_right _ _)
    rcases wrapped_run w _ (wrapped_Marshal env (max n n2) x) s s' [] log e hm [] with ⟨os', h1', _⟩ | ⟨os', o', err', h1', _, h3'⟩
    · have := congrArg List.getLast? (h1.symm.trans h1')
      rw [List.getLast?_append] at this
      simp only [List.nil_append, List.getLast?_singleton, Option.some_or, List.getLast?_map] at this
      cases hl : os'.getLast? with
      | none => rw [hl] at this; cases this
      | some a => rw [hl] at this; cases this
    · have := h1.symm.trans h1'
      simp only [List.nil_append] at this
      have h4 := List.append_inj' this rfl
      have h5 := h4.2
      simp only [List.cons.injEq, Prod.mk.injEq, Option.some.injEq, and_true] at h5
      have h6 : os = os' := by
        have := congrArg (List.map Prod.fst) h4.1
        simpa [Function.comp_def] using this
      have := h3' e2 ops h2'
      rw [h6, h5.1]
      simpa using this

/-- **C14**: for any Reader, at most the last call Unmarshal makes fails; if it does, Unmarshal returns an error from which unwrapping leads to that very error. -/
theorem C14_unmarshal_fail_fast {S : Type} (env : Env) (r : Rdr S) (x x' : AnyVal) (s s' : S) (log : List (ROp × Option Err)) (e : Option Err)
    (h : UnmarshalReturns env (loggedR r) x (s, []) e x' (s', log)) :
    (∃ os : List ROp, log = os.map (·, none)) ∨
    (∃ (os : List ROp) (o : ROp) (err : Err) (e' : Err), log = os.map (·, none) ++ [(o, some err)] ∧ e = some e' ∧ Reaches e' err) := by
  obtain ⟨n, h⟩ := h
  rcases failFast_run r _ (failFast_Unmarshal env n x) s s' [] log _ (h n (Nat.le_refl _)) with ⟨os, h1⟩ | ⟨os, o, err, h1, e', h2, h3⟩
  · exact .inl ⟨os, by simpa using h1⟩
  · exact .inr ⟨os, o, err, e', by simpa using h1, h2, h3⟩

/-- **C14** (success): success is reported only if no call failed. -/
theorem C14_success {S : Type} (env : Env) (r : Rdr S) (x x' : AnyVal) (s s' : S) (log : List (ROp × Option Err))
    (h : UnmarshalReturns env (loggedR r) x (s, []) none x' (s', log)) : ∀ c ∈ log, c.2 = none := by
  rcases C14_unmarshal_fail_fast env r x x' s s' log none h with ⟨os, rfl⟩ | ⟨os, o, err, e', _, h, _⟩
  · intro c hc
    obtain ⟨o, _, rfl⟩ := List.mem_map.1 hc
    rfl
  · cases h

/-- **C15** (Marshal): `Marshal(nil)` and Marshal of a nil pointer return a SemanticError and leave the writer alone. -/
theorem C15_marshal_bad {S : Type} (env : Env) (w : Wtr S) (s : S) :
    (∃ e, MarshalReturns env w .nil s (some e) s ∧ IsSemantic .marshal e) ∧
    (∀ t el, (env.type t).kind = .ptr el → ∃ e, MarshalReturns env w (.val t .ptrNil) s (some e) s ∧ IsSemantic .marshal e) := by
  refine ⟨⟨_, ⟨0, fun _ _ => rfl⟩, rfl⟩, fun t el ht => ⟨badArgument .marshal (some el), ⟨0, fun _ _ => ?_⟩, rfl⟩⟩
  simp only [Marshal, Env.elem?, ht, GoVal.pointee?]
  rfl

/-- **C15** (Unmarshal): Unmarshal into nil, a non-pointer or a nil pointer returns a SemanticError, leaves the reader alone and the argument unchanged. -/
theorem C15_unmarshal_bad {S : Type} (env : Env) (r : Rdr S) (s : S) (x : AnyVal)
    (hx : ∀ t el v, x = .val t v → (env.type t).kind = .ptr el → v = .ptrNil) :
    ∃ e, UnmarshalReturns env r x s (some e) x s ∧ IsSemantic .unmarshal e := by
  cases x with
  | nil => exact ⟨_, ⟨0, fun _ _ => rfl⟩, rfl⟩
  | val t v =>
    cases he : env.elem? t with
    | none =>
      refine ⟨badArgument .unmarshal (some t), ⟨0, fun _ _ => ?_⟩, rfl⟩
      simp only [Unmarshal, he]
      rfl
    | some el =>
      have ht : (env.type t).kind = .ptr el := by
        revert he
        rw [Env.elem?]
        split
        · rename_i e' h; intro he; cases he; exact h
        · intro he; cases he
      cases hx t el v rfl ht
      refine ⟨badArgument .unmarshal (some el), ⟨0, fun _ _ => ?_⟩, rfl⟩
      simp only [Unmarshal, he, GoVal.pointee?]
      rfl

/-- **C15** (value or pointer): `Marshal(v)` and `Marshal(&v)` have the same effect on every Writer (`p` is the type of pointers to `t`, which is not itself a pointer type). -/
theorem C15_value_or_pointer {S : Type} (env : Env) (w : Wtr S) (p t : TypeId) (hp : (env.type p).kind = .ptr t)
    (ht : ∀ el, (env.type t).kind ≠ .ptr el) (v : GoVal) (fuel : Nat) (s : S) :
    (Marshal env fuel (.val p (.ptr v))).run w s = (Marshal env fuel (.val t v)).run w s := by
  have h1 : env.elem? p = some t := by rw [Env.elem?, hp]
  have h2 : env.elem? t = none := by
    rw [Env.elem?]
    split
    · rename_i e h; exact absurd h (ht e)
    · rfl
  simp only [Marshal, h1, h2, GoVal.pointee?]

/-- A Writer whose calls fail when its counter is 0. -/
def countdown : Wtr Nat where
  step _ s := match s with
    | 0 => .done (some (.io 1), 0)
    | n + 1 => .done (none, n)

/-- C13 has a non-trivial case: the fifth call fails. -/
example : ∃ tt t log, MarshalReturns Ex.env (loggedW countdown) (.val 0 Ex.valP) (4, [])
    (some (.semanticE .marshal tt (some t) (.wire "WriteFieldBegin" (.io 1)))) (0, log) ∧ log.length = 5 :=
  ⟨_, _, _, ⟨20, fun fuel hf => ((Marshal_le Ex.env 20 fuel hf _).run _ _).done rfl⟩, rfl⟩

/-- … and a Writer that never fails takes 23 calls. -/
example : ∃ ops, MarshalReturns Ex.env okWriter (.val 0 Ex.valP) [] none ops ∧ ops.length = 23 := by
  refine ⟨_, ⟨20, fun fuel hf => ((Marshal_le Ex.env 20 fuel hf _).run _ _).done rfl⟩, ?_⟩
  rfl

/-- C14 has a non-trivial case: a Reader that fails from the second call on. -/
def failSecond : Rdr Nat where
  step o s := match o, s with
    | .structBegin, 0 => .done (.ok [], 1)
    | _, n => .done (.error (.io 2), n + 1)

example : ∃ x log, UnmarshalReturns Ex.env (loggedR failSecond) (.val 4 (.ptr Ex.valP)) (0, [])
    (some (.semanticE .unmarshal Ty.struct (some 0) (.wire "ReadFieldBegin" (.io 2)))) x (2, log) ∧ log.length = 2 :=
  ⟨_, _, ⟨20, fun fuel hf => ((Unmarshal_le Ex.env 20 fuel hf _).run _ _).done rfl⟩, rfl⟩

/-- C15's hypotheses: type 4 is the type of pointers to type 0. -/
example : (Ex.env.type 4).kind = .ptr 0 ∧ ∀ el, (Ex.env.type 0).kind ≠ .ptr el := ⟨rfl, fun _ h => by cases h⟩

end GoThrift
