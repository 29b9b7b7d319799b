import Verif.Proof.Blame
import Verif.Proof.Found
import Verif.Proof.Le
import Verif.Model.Binary
import Verif.Spec.Example

/-!
# C68: errors of Marshal and Unmarshal name what is at fault
-/

namespace GoThrift

open Spec

theorem pointee_none {v : GoVal} (h : v.pointee? = none) (v' : GoVal) : v ≠ .ptr v' := by
  rintro rfl; cases h

theorem elem_some {env : Env} {t e : TypeId} (h : env.elem? t = some e) : (env.type t).kind = .ptr e := by
  revert h
  rw [Env.elem?]
  split
  · rename_i h; intro he; cases he; exact h
  · intro he; cases he

theorem elem_none {env : Env} {t : TypeId} (h : env.elem? t = none) (e : TypeId) : (env.type t).kind ≠ .ptr e := by
  intro he
  simp only [Env.elem?, he] at h
  cases h

/-- **C68** (Unmarshal): an error of Unmarshal, with any Reader, says rightly what is at fault. -/
theorem C68_unmarshal {S : Type} (env : Env) (r : Rdr S) (x x' : AnyVal) (s s' : S) (log : List (ROp × Option Err)) (e : Err)
    (h : UnmarshalReturns env (loggedR r) x (s, []) (some e) x' (s', log)) :
    (∃ g, (NilArgument env x g ∨ NoPointer env x g) ∧ e = .semanticE .unmarshal Ty.stop g argumentCause) ∨
    (∃ p t v, x = .val p (.ptr v) ∧ (env.type p).kind = .ptr t ∧
      ((UnmarshalBlames env t e ∧ ∀ c ∈ log, c.2 = none) ∨ ∃ o err, log.getLast? = some (o, some err) ∧ ReadBlames env t o err e)) := by
  obtain ⟨n, h0⟩ := h
  have h := h0 n (Nat.le_refl _)
  clear h0
  cases x with
  | nil => cases h; exact .inl ⟨none, .inl .nil, rfl⟩
  | val p v =>
    simp only [Unmarshal] at h
    cases hp : env.elem? p with
    | none =>
      rw [hp] at h
      cases h
      exact .inl ⟨some p, .inr ⟨p, v, rfl, elem_none hp, rfl⟩, rfl⟩
    | some t =>
      rw [hp] at h
      dsimp only at h
      cases hv : v.pointee? with
      | none =>
        rw [hv] at h
        cases h
        exact .inl ⟨some t, .inl (.ptr (elem_some hp) (pointee_none hv)), rfl⟩
      | some v0 =>
        rw [hv] at h
        dsimp only at h
        have hv' : v = .ptr v0 := by
          cases v with
          | ptr v => cases hv; rfl
          | _ => cases hv
        subst hv'
        refine .inr ⟨p, t, v0, rfl, elem_some hp, ?_⟩
        have hb : UBlames env t ((lookupArshaler env n t).elim .panic .diverge fun a =>
            (unmarshal env n n a v0 a.wireType).andThen (fun v => AnyVal.val p (.ptr v)) fun v => .ret (.val p (.ptr v), none)) :=
          blames_elim fun a ha => ublames_andThen ((ublames_unmarshal env t n n).1 _ _ _ _ _ ha (.refl t)) fun _ => .ok rfl
        rcases blames_run r _ hb _ _ _ _ _ h with ⟨os, h1, h2⟩ | ⟨os, o, err, e', h1, h2, h3⟩
        · refine .inl ⟨h2 e rfl, ?_⟩
          rw [h1]
          intro c hc
          rw [List.nil_append] at hc
          obtain ⟨o, _, rfl⟩ := List.mem_map.1 hc
          rfl
        · cases h2
          exact .inr ⟨o, err, by rw [h1]; simp, h3⟩

/-- **C68** (Marshal): an error of Marshal, with any Writer, says rightly what is at fault. -/
theorem C68_marshal {S : Type} (env : Env) (w : Wtr S) (x : AnyVal) (s s' : S) (log : List (WOp × Option Err)) (e : Err)
    (h : MarshalReturns env (loggedW w) x (s, []) (some e) (s', log)) :
    (∃ g, NilArgument env x g ∧ e = .semanticE .marshal Ty.stop g argumentCause) ∨
    (∃ t v, Passes env x t v ∧
      ((MarshalBlames env t e ∧ ∀ c ∈ log, c.2 = none) ∨ ∃ o err, log.getLast? = some (o, some err) ∧ WriteBlames env t o err e)) := by
  obtain ⟨n, h0⟩ := h
  have h := h0 n (Nat.le_refl _)
  clear h0
  have go : ∀ t v, ((lookupArshaler env n t).elim .panic .diverge fun a => marshal env n a v).run (loggedW w) (s, []) = .done (some e, (s', log)) →
      (MarshalBlames env t e ∧ ∀ c ∈ log, c.2 = none) ∨ ∃ o err, log.getLast? = some (o, some err) ∧ WriteBlames env t o err e := by
    intro t v h
    have hb : WBlames env t ((lookupArshaler env n t).elim .panic .diverge fun a => marshal env n a v) :=
      wblames_elim fun a ha => wblames_marshal env t n _ _ _ _ ha (.refl t)
    rcases wblames_run w _ hb _ _ _ _ _ h with ⟨os, h1, h2⟩ | ⟨os, o, err, e', h1, h2, h3⟩
    · refine .inl ⟨h2 e rfl, ?_⟩
      rw [h1]
      intro c hc
      rw [List.nil_append] at hc
      obtain ⟨o, _, rfl⟩ := List.mem_map.1 hc
      rfl
    · cases h2
      exact .inr ⟨o, err, by rw [h1]; simp, h3⟩
  cases x with
  | nil => cases h; exact .inl ⟨none, .nil, rfl⟩
  | val p v =>
    simp only [Marshal] at h
    cases hp : env.elem? p with
    | none =>
      rw [hp] at h
      exact .inr ⟨p, v, .inl ⟨rfl, elem_none hp⟩, go _ _ h⟩
    | some t =>
      rw [hp] at h
      dsimp only at h
      cases hv : v.pointee? with
      | none =>
        rw [hv] at h
        cases h
        exact .inl ⟨some t, .ptr (elem_some hp) (pointee_none hv), rfl⟩
      | some v0 =>
        rw [hv] at h
        dsimp only at h
        have hv' : v = .ptr v0 := by
          cases v with
          | ptr v => cases hv; rfl
          | _ => cases hv
        subst hv'
        exact .inr ⟨t, v0, .inr ⟨p, elem_some hp, rfl⟩, go _ _ h⟩

/-- C68 is about cases that occur: a string where an int32 should be; … -/
example : ∃ x s log, UnmarshalReturns Ex.env (loggedR (Binary.reader true)) (.val 4 (.ptr Ex.valP)) (((), ⟨16, [11, 0, 1], .err .eof⟩), [])
    (some (.semantic .unmarshal Ty.string (some 1))) x (s, log) :=
  ⟨_, _, _, 20, fun fuel hf => ((Unmarshal_le Ex.env 20 fuel hf _).run _ _).done rfl⟩

/-- … an unknown field of a type that does not exist; … -/
example : ∃ x s log, UnmarshalReturns Ex.env (loggedR (Binary.reader true)) (.val 4 (.ptr Ex.valP)) (((), ⟨16, [99, 0, 77], .err .eof⟩), [])
    (some (.invalidType 99)) x (s, log) :=
  ⟨_, _, _, 20, fun fuel hf => ((Unmarshal_le Ex.env 20 fuel hf _).run _ _).done rfl⟩

/-- … the input ends in an element of a list; … -/
example : ∃ x s log, UnmarshalReturns Ex.env (loggedR (Binary.reader true)) (.val 4 (.ptr Ex.valP)) (((), ⟨16, [15, 0, 3, 11, 0, 0, 0, 1, 0], .err .eof⟩), [])
    (some (.semanticE .unmarshal Ty.string (some 3) (.wire "ReadString" .unexpectedEOF))) x (s, log) :=
  ⟨_, _, _, 20, fun fuel hf => ((Unmarshal_le Ex.env 20 fuel hf _).run _ _).done rfl⟩

/-- … a field of type chan int, a slice of such, and a struct without tags. -/
example : (∃ ops, MarshalReturns Ex.env (loggedW okWriter) (.val 13 (Ex.zero 13)) ([], []) (some (.semantic .marshal Ty.stop (some 9))) ops) ∧
    (∃ ops, MarshalReturns Ex.env (loggedW okWriter) (.val 18 .sliceNil) ([], []) (some (.semantic .marshal Ty.list (some 18))) ops) ∧
    (∃ ops c, MarshalReturns Ex.env (loggedW okWriter) (.val 17 (Ex.zero 17)) ([], []) (some (.semanticE .marshal Ty.stop (some 17) c)) ops) :=
  ⟨⟨_, 20, fun fuel hf => ((Marshal_le Ex.env 20 fuel hf _).run _ _).done rfl⟩, ⟨_, 20, fun fuel hf => ((Marshal_le Ex.env 20 fuel hf _).run _ _).done rfl⟩,
    ⟨_, _, 20, fun fuel hf => ((Marshal_le Ex.env 20 fuel hf _).run _ _).done rfl⟩⟩

/-- **C68** (found): if no call failed, the wire type that an error of Unmarshal names is that of the value that comes next, according to the headers read so far; or nothing was read, since the type of the
variable itself is not supported. -/
theorem C68_found {S : Type} (env : Env) (r : Rdr S) (p t : TypeId) (hp : (env.type p).kind = .ptr t) (old : GoVal) (s s' : S) (log : List ((o : ROp) × Except Err o.Ans)) (e : Err) (x' : AnyVal) (found : WType)
    (h : UnmarshalReturns env (traced r) (.val p (.ptr old)) (s, []) (some e) x' (s', log)) (hok : ∀ o err, ⟨o, .error err⟩ ∉ log) (hn : Names e found) :
    ∃ evs : List Ev, log = evs.map Ev.ok ∧ (Awaits evs found ∨ (evs = [] ∧ found = Ty.stop ∧ Unsupported env t)) := by
  obtain ⟨n, h0⟩ := h
  have h := h0 n (Nat.le_refl _)
  clear h0
  have he : env.elem? p = some t := by simp [Env.elem?, hp]
  simp only [Unmarshal, he, GoVal.pointee?] at h
  rcases lookup_total env n t with hl | ⟨a, hl⟩
  · rw [hl] at h; cases h
  rw [hl] at h
  simp only [Out.elim] at h
  have hw : Wok (AddsR (ReadsTy a.wireType) (Here a.wireType (a.wireType = a.wireType → a.wireType = Ty.stop)) [])
      ((unmarshal env n n a old a.wireType).andThen (fun v => AnyVal.val p (.ptr v)) fun v => .ret (.val p (.ptr v), none)) [] :=
    found_andThen ((found_unmarshal env n n).1 a old a.wireType []) (fun v evs g h => ⟨[], by simp, fun _ => by simpa using h, fun _ _ he => (by cases he)⟩) fun _ _ h => h
  obtain ⟨evs, ⟨evs', h1, _, h2⟩, h3⟩ := Wok.run r _ [] hw s s' [] log _ h hok
  obtain rfl : evs = evs' := by simpa using h1
  refine ⟨evs, by simpa using h3, ?_⟩
  rcases h2 e found rfl hn with ⟨h4, h5, h6⟩ | h4
  · have h6 := h6 rfl
    refine .inr ⟨h4, by rw [h5, h6], ?_⟩
    rcases (lookup_wireType hl).2 with h | h
    · exact h.2
    · exact absurd h6 h.ne_stop
  · exact .inl h4

/-- Non-vacuous: a list of i32 for a list of strings; an unknown field of a type that does not exist. -/
example : (∃ x s log, UnmarshalReturns Ex.env (traced (Binary.reader true)) (.val 4 (.ptr Ex.valP)) (((), ⟨16, [15, 0, 3, 8, 0, 0, 0, 1, 0], .err .eof⟩), []) (some (.semantic .unmarshal Ty.i32 (some 3)))
      x (s, log)) ∧
    (∃ x s log, UnmarshalReturns Ex.env (traced (Binary.reader true)) (.val 4 (.ptr Ex.valP)) (((), ⟨16, [99, 0, 77], .err .eof⟩), []) (some (.invalidType 99)) x (s, log)) :=
  ⟨⟨_, _, _, 20, fun fuel hf => ((Unmarshal_le Ex.env 20 fuel hf _).run _ _).done rfl⟩, ⟨_, _, _, 20, fun fuel hf => ((Unmarshal_le Ex.env 20 fuel hf _).run _ _).done rfl⟩⟩

end GoThrift
