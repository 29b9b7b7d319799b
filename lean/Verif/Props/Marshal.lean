import Verif.Proof.Marshal
import Verif.Props.Decode
import Verif.Props.Hostile

/-!
# Properties C16, C38, C54: which values Marshal accepts, and that it ends
-/

namespace GoThrift

open Spec Spec.TVal

/-- All methods of the Writer return. -/
def Returns {S : Type} (w : Wtr S) : Prop := ∀ o s, ∃ e s', w.step o s = .done (e, s')

theorem MarshalReturns.unique {S : Type} {env : Env} {w : Wtr S} {x : AnyVal} {s : S} {e e' : Option Err} {s1 s1' : S} (h : MarshalReturns env w x s e s1) (h' : MarshalReturns env w x s e' s1') :
    e = e' ∧ s1 = s1' := by
  obtain ⟨n, h⟩ := h
  obtain ⟨n', h'⟩ := h'
  have h := h (max n n') (by omega)
  have h' := h' (max n n') (by omega)
  rw [h] at h'
  cases h'
  exact ⟨rfl, rfl⟩

/-! ## C38 -/

/-- **C38**: Marshal returns on every value that involves only finitely many values, whatever errors the Writer returns. (Types for which the arshaler lookup recurses for ever, C36, are
excluded.) -/
theorem C38_terminates {S : Type} (env : Env) (w : Wtr S) (hw : Returns w) (x : AnyVal) (t : TypeId) (v : GoVal) (hx : Passes env x t v) (ht : HasType env t v) (hacc : AllAcc env t)
    (hi : Acc (Involves env) (t, v)) (s : S) : ∃ e s', MarshalReturns env w x s e s' := by
  obtain ⟨m, a, hl⟩ := (lookup_iff_acc env t).2 (hacc t (.refl _))
  obtain ⟨n, hn⟩ := marshal_ends (p := (t, v)) hi hacc ht
  have hg : WGood false (Marshal env (max n m) x) := by
    rw [Marshal_eq hx, (lookupArshaler_le env m (max n m) (by omega) t).done hl]
    exact (hn.mono (Nat.le_max_left _ _)) m a hl
  obtain ⟨e, s', h⟩ := hg.run w hw s
  exact ⟨e, s', max n m, fun fuel hf => ((Marshal_le env _ fuel hf x).run w s).done h⟩

/-- **C38**: every value involves only finitely many values unless the zero value of some type inside needs, in order to be marshalled, the zero values of infinitely many types (or of the same
types again and again). -/
theorem C38_finite (env : Env) (t : TypeId) (hz : ∀ t', Within env t' t → Acc (ZeroNeeds env) t') (v : GoVal) (ht : HasType env t v) : Acc (Involves env) (t, v) :=
  involves_acc t hz v ht

/-- **C38**: which zero values need which: that of a pointer type needs that of its target type; that of a struct type those of the fields that are required, or report that they are not zero. -/
theorem C38_zero_needs (env : Env) (t' t : TypeId) : ZeroNeeds env t' t ↔
    (env.type t).kind = .ptr t' ∨ ∃ fs f, (env.type t).kind = .struct fs ∧ f ∈ fs ∧ f.typ = t' ∧ Written env f (env.zero t') := by
  have hz := env.zero_eq t
  constructor
  · intro h
    unfold ZeroNeeds at h
    generalize env.zero t = z at h hz
    generalize hz' : env.zero t' = z' at h
    cases h with
    | ptr hk => exact .inl hk
    | ptrNil hk => exact .inl hk
    | elem hk => rw [hk, Kind.zero] at hz; split at hz <;> cases hz
    | key hk => rw [hk] at hz; cases hz
    | value hk => rw [hk] at hz; cases hz
    | field hk hf hv hw => exact .inr ⟨_, _, hk, List.mem_of_getElem? hf, rfl, hz' ▸ hw⟩
  · rintro (hk | ⟨fs, f, hk, hf, rfl, hw⟩)
    · unfold ZeroNeeds
      rw [hz, hk]
      exact .ptrNil hk
    · unfold ZeroNeeds
      rw [hz, hk]
      obtain ⟨i, hi⟩ := List.mem_iff_getElem?.1 hf
      exact .field hk hi (by rw [List.getElem?_map, hi]; rfl) hw

/-- **C38**: a value that involves infinitely many others cannot be marshalled successfully, by any Writer. -/
theorem C38_infinite {S : Type} (env : Env) (w : Wtr S) (x : AnyVal) (t : TypeId) (v : GoVal) (hx : Passes env x t v) (ht : HasType env t v) (hi : ¬ Acc (Involves env) (t, v)) (s s' : S) :
    ¬ MarshalReturns env w x s none s' := by
  intro h
  obtain ⟨tv, hr, _⟩ := h.rep hx ht
  exact hi hr.acc

/-- **C38**, the other half: `type R struct { X *R "1,required" }`; Marshal of `R{}` does not return, with a Writer that never fails. -/
theorem C38_diverges (fuel : Nat) : (Marshal Ex.env fuel (.val 11 (.struct [.ptrNil]))).run okWriter [] = .diverged := by
  have main : ∀ fuel ops, (marshal Ex.env fuel (.struct 11) (.struct [.ptrNil])).run okWriter ops = .diverged := by
    intro fuel
    induction fuel using Nat.strongRecOn with
    | ind fuel ih =>
      intro ops
      match fuel with
      | 0 => rfl
      | 1 => rfl
      | 2 => rfl
      | 3 => rfl
      | n + 4 =>
        have hm : makeStructFields Ex.env (n + 3) 11 = .done (.ok [⟨0, 12, .ptr 12 (.struct 11), 1, ascii "X", true⟩]) := by
          exact (makeStructFields_le Ex.env 3 (n + 3) (by omega) 11).done (by decide +kernel)
        have h1 := ih (n + 2) (by omega)
        rw [marshal, hm]
        have hp : ∀ ops, (marshal Ex.env (n + 3) (.ptr 12 (.struct 11)) .ptrNil).run okWriter ops = .diverged := fun ops => by
          rw [marshal]
          exact h1 ops
        simp only [Out.elim, GoVal.fields?]
        rw [ok_wcall, marshalFields]
        rw [if_neg (by decide)]
        simp only [List.getElem?_cons_zero]
        rw [if_neg (by simp), ok_wcall, wrun_andThen, hp]
        rfl
  match fuel with
  | 0 => rfl
  | n + 1 => exact main (n + 1) []

/-- … so it does not return. -/
theorem C38_does_not_return (e : Option Err) (ops : List WOp) : ¬ MarshalReturns Ex.env okWriter (.val 11 (.struct [.ptrNil])) [] e ops := by
  rintro ⟨n, h⟩
  have := h n (Nat.le_refl _)
  rw [C38_diverges] at this
  cases this

/-! ## C54 -/

/-- **C54**: Marshal accepts exactly the values that stand for a wire value. -/
theorem C54_accepts (env : Env) (x : AnyVal) (t : TypeId) (v : GoVal) (hx : Passes env x t v) (ht : HasType env t v) (hacc : Acc (InPart env) t) :
    (∃ ops, MarshalReturns env okWriter x [] none ops) ↔ ∃ tv, Rep env t v tv := by
  constructor
  · rintro ⟨ops, h⟩
    obtain ⟨tv, h, _⟩ := h.rep hx ht
    exact ⟨tv, h⟩
  · rintro ⟨tv, hr⟩
    obtain ⟨m, a, hl⟩ := (lookup_iff_acc env t).2 hacc
    obtain ⟨n, hn⟩ := rep_ends (p := (t, v)) hr.acc ht ⟨tv, hr⟩
    have hg : WGood true (Marshal env (max n m) x) := by
      rw [Marshal_eq hx, (lookupArshaler_le env m (max n m) (by omega) t).done hl]
      exact (hn.mono (Nat.le_max_left _ _)) m a hl
    obtain ⟨ops, h⟩ := hg.run_ok []
    exact ⟨ops, max n m, fun fuel hf => ((Marshal_le env _ fuel hf x).run okWriter []).done h⟩

/-- **C54**: it then makes the calls for a wire value that the Go value stands for, on any Writer that takes them. -/
theorem C54_any_writer (env : Env) (x : AnyVal) (t : TypeId) (v : GoVal) (hx : Passes env x t v) (ht : HasType env t v) (hacc : Acc (InPart env) t) (tv0 : TVal) (hr : Rep env t v tv0) :
    ∃ tv, Rep env t v tv ∧ ∀ {S : Type} (w : Wtr S) (s s' : S), Writes w (calls tv) s s' → MarshalReturns env w x s none s' := by
  obtain ⟨ops, h⟩ := (C54_accepts env x t v hx ht hacc).2 ⟨tv0, hr⟩
  obtain ⟨tv, h1, h2, _⟩ := h.rep hx ht
  refine ⟨tv, h1, fun w s s' hw => ?_⟩
  obtain ⟨n, h⟩ := h
  have hops : ops = calls tv := by
    have := writes_ok (calls tv) []
    exact (Writes.unique h2 this).trans (by simp)
  subst hops
  refine ⟨n, fun fuel hf => replay_calls (ops0 := []) (by simpa using h fuel hf) hw⟩

/-! ## C16 -/

/-- **C16**: Marshal never returns nil for a value with a part of an unsupported type - a field that is zero, the elements of an empty slice, a nil pointer to such a type included. -/
theorem C16_never_accepted {S : Type} (env : Env) (w : Wtr S) (x : AnyVal) (t : TypeId) (v : GoVal) (hx : Passes env x t v) (ht : HasType env t v) (h : Refuses env t v) (s s' : S) :
    ¬ MarshalReturns env w x s none s' := by
  intro hm
  obtain ⟨tv, hr, _⟩ := hm.rep hx ht
  exact h.not_rep tv hr

/-- **C16**: … it returns an error. -/
theorem C16_error {S : Type} (env : Env) (w : Wtr S) (hw : Returns w) (x : AnyVal) (t : TypeId) (v : GoVal) (hx : Passes env x t v) (ht : HasType env t v) (hacc : AllAcc env t)
    (hz : ∀ t', Within env t' t → Acc (ZeroNeeds env) t') (h : Refuses env t v) (s : S) : ∃ e s', MarshalReturns env w x s (some e) s' := by
  obtain ⟨e, s', hm⟩ := C38_terminates env w hw x t v hx ht hacc (C38_finite env t hz v ht) s
  cases e with
  | some e => exact ⟨e, s', hm⟩
  | none => exact absurd hm (C16_never_accepted env w x t v hx ht h s s')

/-- **C16**, where it ends: `type Hid struct { F []chan int "1" }`; Marshal of `Hid{}` succeeds, as a zero field of a supported kind is left out without a look at its element type. -/
theorem C16_zero_slice_left_out : MarshalReturns Ex.env (Binary.writer true) (.val 27 (.struct [.sliceNil])) ((), []) none ((), [0]) ∧ Refuses Ex.env 18 .sliceNil :=
  ⟨⟨20, fun fuel hf => ((Marshal_le Ex.env 20 fuel hf _).run _ _).done (by decide +kernel)⟩, .elem (e := 9) rfl rfl (.other rfl)⟩

/-- **C16**, Unmarshal into a variable of unsupported type: an error, and nothing is read. -/
theorem C16_unmarshal {S : Type} (env : Env) (r : Rdr S) (p t : TypeId) (hp : (env.type p).kind = .ptr t) (hu : Unsupported env t) (old : GoVal) (ht : HasType env t old) (s : S) :
    ∃ t' x', UnmarshalReturns env r (.val p (.ptr old)) s (some (.semantic .unmarshal 0 (some t'))) x' s ∧ (env.type t').kind = .other := by
  have main : ∀ old, HasType env t old → ∃ n a t', lookupArshaler env n t = .done a ∧ a.wireType = Ty.stop ∧ (env.type t').kind = .other ∧
      ∃ v, ∀ sk fuel, n ≤ fuel → unmarshal env sk fuel a old Ty.stop = .ret (v, some (.semantic .unmarshal 0 (some t'))) := by
    clear ht old hp
    induction hu with
    | @other t hk =>
      intro old _
      refine ⟨1, .invalid t, t, by rw [lookupArshaler, hk], rfl, hk, old, fun sk fuel hf => ?_⟩
      obtain ⟨k, rfl⟩ : ∃ k, fuel = k + 1 := ⟨fuel - 1, by omega⟩
      rw [unmarshal]
      rfl
    | @ptr t e hk hu ih =>
      intro old ht
      have hsh := Everywhere.here ht
      obtain ⟨v0, hv0, hty⟩ : ∃ v0, old.deref? (env.zero e) = some v0 ∧ HasType env e v0 := by
        unfold Shape at hsh
        rw [hk] at hsh
        cases old <;> first | exact hsh.elim | skip
        · exact ⟨_, rfl, zero_hasType env e⟩
        · have := ht.2
          rw [elemType_ptr hk] at this
          exact ⟨_, rfl, this⟩
      obtain ⟨n, a, t', h1, h2, h3, v, h4⟩ := ih v0 hty
      refine ⟨n + 1, .ptr t a, t', ?_, h2, h3, .ptr v, fun sk fuel hf => ?_⟩
      · rw [lookupArshaler, hk]; dsimp only; rw [h1]; rfl
      · obtain ⟨k, rfl⟩ : ∃ k, fuel = k + 1 := ⟨fuel - 1, by omega⟩
        rw [unmarshal, (lookup_wireType h1).1, hv0]
        dsimp only
        rw [h4 sk k (by omega)]
        rfl
  obtain ⟨n, a, t', h1, h2, h3, v, h4⟩ := main old ht
  refine ⟨t', .val p (.ptr v), ⟨n, fun fuel hf => ?_⟩, h3⟩
  simp only [Unmarshal, Env.elem?, hp, GoVal.pointee?]
  rw [(lookupArshaler_le env n fuel hf t).done h1]
  simp only [Out.elim]
  rw [h2, h4 fuel fuel hf]
  rfl

/-- **C16**, Unmarshal of a struct that has, on the wire, a field that is declared with an unsupported type: never nil. (`C08_rejected` has the same for parts at any depth.) -/
theorem C16_unmarshal_field {S : Type} (env : Env) (r : Rdr S) (p t : TypeId) (hp : (env.type p).kind = .ptr t) (hd : ∀ t', Within env t' t → DistinctIds env t') (fs : List FieldDecl)
    (hk : (env.type t).kind = .struct fs) (f : FieldDecl) (hf : f ∈ fs) (hu : Unsupported env f.typ) (n : Bytes) (tfs : List (Bytes × BitVec 16 × TVal)) (tf : Bytes × BitVec 16 × TVal)
    (htf : tf ∈ tfs) (required : Bool) (hdecl : Declares env f tf.2.1 required) (s s' s1 : S) (hh : Holds r (.struct n tfs) s s') (old : GoVal) (e : Option Err) (x' : AnyVal)
    (h : UnmarshalReturns env r (.val p (.ptr old)) s e x' s1) : e ≠ none := by
  have mis : ∀ t tv, Unsupported env t → ∃ t', Mismatch env t tv tv.ty t' := by
    intro t tv hu
    induction hu with
    | other hk => exact ⟨_, .here (fun e h => by rw [hk] at h; cases h) fun h => h.supported (.other hk)⟩
    | ptr hk _ ih => obtain ⟨t', h⟩ := ih; exact ⟨t', .ptr hk h⟩
  obtain ⟨t', hm⟩ := mis f.typ tf.2.2 hu
  exact C08_rejected env r p t hp hd (.struct n tfs) (WireTypeOf.struct hk) s s' hh _ t' (.field hk htf hf hdecl hm) old e x' s1 h

/-! ## The hypotheses are met -/

/-- C38: the protocol writers always return. -/
example (strict : Bool) : Returns (Binary.writer strict) ∧ Returns Compact.writer := ⟨fun _ _ => ⟨_, _, rfl⟩, fun _ _ => ⟨_, _, rfl⟩⟩

/-- C38: the zero values of the types in P need only one another finitely often. -/
theorem Ex.zeroNeeds_P : ∀ t', Within Ex.env t' 0 → Acc (ZeroNeeds Ex.env) t' := by
  have small : ∀ t', t' ∈ [1, 3, 5, 6, 7, 8, 9] → Acc (ZeroNeeds Ex.env) t' := by
    intro t' h
    refine ⟨_, fun t'' h'' => ?_⟩
    simp only [List.mem_cons, List.not_mem_nil, or_false] at h
    rw [C38_zero_needs] at h''
    rcases h with rfl | rfl | rfl | rfl | rfl | rfl | rfl <;> (rcases h'' with h | ⟨_, _, h, _⟩ <;> cases h)
  have two : Acc (ZeroNeeds Ex.env) 2 := by
    refine ⟨_, fun t'' h'' => ?_⟩
    rw [C38_zero_needs] at h''
    rcases h'' with h | ⟨_, _, h, _⟩ <;> cases h
    exact small 3 (by simp)
  intro t' ht'
  have := Ex.within_P t' ht'
  simp only [List.mem_cons, List.not_mem_nil, or_false] at this
  rcases this with rfl | rfl | rfl | rfl | rfl | rfl | rfl | rfl | rfl
  · refine ⟨_, fun t'' h'' => ?_⟩
    rw [C38_zero_needs] at h''
    rcases h'' with h | ⟨fs, f, h, hf, rfl, _⟩ <;> cases h
    simp only [Ex.fieldsP, List.mem_cons, List.not_mem_nil, or_false] at hf
    rcases hf with rfl | rfl | rfl | rfl | rfl | rfl | rfl <;> first | exact two | exact small _ (by simp [Ex.fld])
  · exact small _ (by simp)
  · exact two
  all_goals exact small _ (by simp)

/-- C38, C54: the value Q of type P. -/
example : ∃ e s', MarshalReturns Ex.env Compact.writer (.val 0 Ex.valQ) ({}, []) e s' :=
  C38_terminates Ex.env _ (fun _ _ => ⟨_, _, rfl⟩) _ 0 _ (.inl ⟨rfl, fun _ h => by cases h⟩) Ex.hasType_valQ Ex.allAcc_P (C38_finite _ _ Ex.zeroNeeds_P _ Ex.hasType_valQ) _

/-- C54: it stands for a wire value. -/
example : ∃ tv, Rep Ex.env 0 Ex.valQ tv := by
  obtain ⟨tv, h, _⟩ := Ex.marshalsQ.rep (t := 0) (v := Ex.valQ) (.inl ⟨rfl, fun _ h => by cases h⟩) Ex.hasType_valQ
  exact ⟨tv, h⟩

/-- C38: the zero value of type 11 needs itself. -/
example : ¬ Acc (Involves Ex.env) (11, .struct [.ptrNil]) := by
  intro h
  have h1 : Involves Ex.env (12, .ptrNil) (11, .struct [.ptrNil]) :=
    .field (fs := [Ex.fld "X" "1,required" 12]) (i := 0) rfl rfl rfl ⟨1, true, (parse_declares Ex.env _ ⟨1, ascii "X", true⟩ (by decide +kernel)).2, .inl rfl⟩
  have h2 : Involves Ex.env (11, .struct [.ptrNil]) (12, .ptrNil) := .ptrNil (e := 11) rfl
  have : ∀ p, Acc (Involves Ex.env) p → p ≠ (11, .struct [.ptrNil]) ∧ p ≠ (12, .ptrNil) := by
    intro p hp
    induction hp with
    | intro p _ ih => exact ⟨fun h => (ih _ (h ▸ h1)).2 rfl, fun h => (ih _ (h ▸ h2)).1 rfl⟩
  exact (this _ h).1 rfl

/-- C16: a struct whose only unsupported field is zero. -/
example : Refuses Ex.env 13 (.struct [.i32 1, .other 0]) ∧ HasType Ex.env 13 (.struct [.i32 1, .other 0]) := by
  refine ⟨.field (fs := [Ex.fld "A" "1" 1, Ex.fld "C" "2" 9]) (f := Ex.fld "C" "2" 9) rfl (by simp) (fun h => ?_) (.other rfl), ?_⟩
  · rcases h with h | ⟨h, _⟩ <;> revert h <;> decide +kernel
  · refine ⟨rfl, ⟨trivial, trivial, trivial⟩⟩

/-- C16: Unmarshal into a channel, and into a nil pointer to one. -/
example : Unsupported Ex.env 9 ∧ HasType Ex.env 9 (.other 0) := ⟨.other rfl, trivial⟩

end GoThrift
