import Verif.Proof.StackM
import Verif.Props.StackU
import Verif.Props.Canon

/-!
# C82: Marshal and Unmarshal take the same number of frames
-/

namespace GoThrift

open Spec Spec.TVal

/-- `Marshal(w, x)` in state `s` with room for `d` frames of arshalers on the stack returns `e`; the writer is then in state `s'`. -/
def Spec.MarshalReturnsIn {S : Type} (env : Env) (w : Wtr S) (d : Nat) (x : AnyVal) (s : S) (e : Option Err) (s' : S) : Prop :=
  ∃ n, ∀ fuel, n ≤ fuel → (MarshalS env fuel d x).run w s = .done (e, s')

/-- `Marshal(w, x)` in state `s` with room for `d` frames of arshalers overflows the stack. -/
def Spec.MarshalOverflows {S : Type} (env : Env) (w : Wtr S) (d : Nat) (x : AnyVal) (s : S) : Prop :=
  ∃ n, ∀ fuel, n ≤ fuel → (MarshalS env fuel d x).run w s = .panicked

theorem MarshalS_eq {env : Env} {x : AnyVal} {t : TypeId} {v : GoVal} (hx : Passes env x t v) (fuel d : Nat) :
    MarshalS env fuel d x = (lookupArshaler env fuel t).elim .panic .diverge fun a => marshalS env fuel d a v := by
  rcases hx with ⟨rfl, h⟩ | ⟨p, h, rfl⟩
  · have : env.elem? t = none := by
      unfold Env.elem?
      split
      · next e he => exact absurd he (h e)
      · rfl
    simp [MarshalS, this]
  · have : env.elem? p = some t := by simp [Env.elem?, h]
    simp [MarshalS, this, GoVal.pointee?]

/-- **C82** (the limit only cuts): at any Writer, whatever it does, and for any argument, Marshal on a limited stack either overflows it or does what it does on an unlimited one. -/
theorem C82_cuts {S : Type} (env : Env) (w : Wtr S) (d : Nat) (x : AnyVal) (s : S) (fuel : Nat) :
    (MarshalS env fuel d x).run w s = .panicked ∨ (MarshalS env fuel d x).run w s = (Marshal env fuel x).run w s := by
  cases x with
  | nil => exact .inr rfl
  | val t v =>
    rw [MarshalS, Marshal]
    cases env.elem? t with
    | none =>
      dsimp only
      cases lookupArshaler env fuel t with
      | done a => exact marshalS_cuts env fuel d a v s
      | _ => exact .inr rfl
    | some e =>
      dsimp only
      cases v.pointee? with
      | none => exact .inr rfl
      | some v0 =>
        dsimp only
        cases lookupArshaler env fuel e with
        | done a => exact marshalS_cuts env fuel d a v0 s
        | _ => exact .inr rfl

/-- **C82** (Marshal): when Marshal succeeds, at any Writer, then with room for what is written it does the same, and without it overflows the stack. -/
theorem C82_marshal {S : Type} (env : Env) (w : Wtr S) (x : AnyVal) (t : TypeId) (v : GoVal) (hx : Passes env x t v) (ht : HasType env t v) (s s' : S) (h : MarshalReturns env w x s none s') (d : Nat) :
    (RoomV env t v d → MarshalReturnsIn env w d x s none s') ∧ (¬ RoomV env t v d → MarshalOverflows env w d x s) := by
  obtain ⟨tv, hr, _, n, a, hl, _⟩ := h.rep hx ht
  obtain ⟨k, h⟩ := h
  have main : ∀ fuel, n + k ≤ fuel → (RoomV env t v d → (MarshalS env fuel d x).run w s = .done (none, s')) ∧ (¬ RoomV env t v d → (MarshalS env fuel d x).run w s = .panicked) := by
    intro fuel hf
    have hrun := h fuel (by omega)
    have hl' := lookup_mono (show n ≤ fuel by omega) hl
    simp only [Marshal_eq hx, MarshalS_eq hx, hl', Out.elim] at hrun ⊢
    obtain ⟨h1, h2⟩ := marshalS_room (w := w) env fuel d fuel t a v hl' ht s s' hrun
    exact ⟨fun h => by rw [h1 h]; exact hrun, h2⟩
  exact ⟨fun hR => ⟨_, fun fuel hf => (main fuel hf).1 hR⟩, fun hR => ⟨_, fun fuel hf => (main fuel hf).2 hR⟩⟩

/-- **C82** (Unmarshal): at any Reader in front of a value, when Unmarshal succeeds, then with room for it in the Go type it does the same, and without it overflows the stack. -/
theorem C82_unmarshal {S : Type} (env : Env) (r : Rdr S) (p t : TypeId) (hp : (env.type p).kind = .ptr t) (hd : ∀ t', Within env t' t → DistinctIds env t') (tv : TVal) (hw : WireTypeOf env t tv.ty)
    (s s' : S) (hh : Holds r tv s s') (old : GoVal) (x' : AnyVal) (s1 : S) (h : UnmarshalReturns env r (.val p (.ptr old)) s none x' s1) (d : Nat) :
    (Room env t tv d → UnmarshalReturnsIn env r d (.val p (.ptr old)) s none x' s') ∧ (¬ Room env t tv d → UnmarshalOverflows env r d (.val p (.ptr old)) s) := by
  obtain ⟨n, a, hl⟩ := h.lookup hp
  obtain ⟨k, h⟩ := h
  have he : env.elem? p = some t := by simp [Env.elem?, hp]
  have hty := hw.lookup hl
  have main : ∀ fuel, n + fuelOf tv + k ≤ fuel → (¬ Room env t tv d → (UnmarshalS env fuel d (.val p (.ptr old))).run r s = .panicked) ∧
      (Room env t tv d → (UnmarshalS env fuel d (.val p (.ptr old))).run r s = .done ((x', none), s')) := by
    intro fuel hf
    have hrun := h fuel (by omega)
    have hl' := lookup_mono (show n ≤ fuel by omega) hl
    have htwo := ((unmarshalS_room (r := r) env fuel fuel).1 d fuel t a old tv s s' (by omega) hl' hd hh).andThen (fail := fun v => AnyVal.val p (.ptr v)) fun v => Two.ok (AnyVal.val p (.ptr v)) s'
    simp only [Unmarshal, UnmarshalS, he, GoVal.pointee?, hl', Out.elim, hty] at hrun ⊢
    obtain ⟨_, h2, h3⟩ := htwo.two _ _ hrun
    exact ⟨fun hR => h2 (.inl hR), fun hR => h3 ⟨hR, trivial⟩⟩
  exact ⟨fun hR => ⟨_, fun fuel hf => (main fuel hf).2 hR⟩, fun hR => ⟨_, fun fuel hf => (main fuel hf).1 hR⟩⟩

/-- What is written takes some number of frames: with fewer there is no room, with more there is. -/
theorem exists_frames {env : Env} {t : TypeId} {v : GoVal} {x : AnyVal} {S : Type} {w : Wtr S} {s s' : S} (hx : Passes env x t v) (ht : HasType env t v) (h : MarshalReturns env w x s none s') :
    ∃ n, ∀ d, RoomV env t v d ↔ n ≤ d := by
  have hex : ∃ d, RoomV env t v d := by
    refine Classical.byContradiction fun hno => ?_
    obtain ⟨tv, hr, _, n, a, hl, _⟩ := h.rep hx ht
    obtain ⟨k, h⟩ := h
    have hrun := h (n + k) (by omega)
    have hl' := lookup_mono (show n ≤ n + k by omega) hl
    rw [Marshal_eq hx, hl', Out.elim] at hrun
    have := (marshalS_room (w := w) env (n + k) (n + k) _ t a v hl' ht s s' hrun).2 fun hR => hno ⟨_, hR⟩
    rw [marshalS_enough env (n + k) (n + k) (Nat.le_refl _), hrun] at this
    cases this
  obtain ⟨d0, h0⟩ := hex
  have key : ∀ k d, RoomV env t v d → d ≤ k → ∃ n, ∀ d, RoomV env t v d ↔ n ≤ d := by
    intro k
    induction k with
    | zero => intro d hR hd; exact ⟨0, fun d' => ⟨fun _ => Nat.zero_le _, fun _ => hR.mono (by omega)⟩⟩
    | succ k ih =>
      intro d hR hd
      by_cases h : ∃ d', d' < d ∧ RoomV env t v d'
      · obtain ⟨d', h1, h2⟩ := h
        exact ih d' h2 (by omega)
      · exact ⟨d, fun d' => ⟨fun h' => Nat.le_of_not_lt fun hlt => h ⟨d', hlt, h'⟩, fun h' => hR.mono h'⟩⟩
  exact key d0 d0 h0 (Nat.le_refl _)

/-- The number of frames, for Marshal to a Writer and Unmarshal from any Reader that holds what it wrote. -/
theorem same_frames {S R : Type} {env : Env} {w : Wtr S} {r : Rdr R} {x : AnyVal} {t p : TypeId} {v : GoVal} {tv : TVal} {s s' : S} (hx : Passes env x t v) (ht : HasType env t v)
    (h : MarshalReturns env w x s none s') (hr : Rep env t v tv) (hp : (env.type p).kind = .ptr t) (hd : ∀ t', Within env t' t → DistinctIds env t') (hty : WireTypeOf env t tv.ty) :
    ∃ n, depth tv ≤ n ∧ ∀ d,
      (n ≤ d → MarshalReturnsIn env w d x s none s') ∧ (d < n → MarshalOverflows env w d x s) ∧
      ∀ rs rs' old x' s1, Holds r tv rs rs' → UnmarshalReturns env r (.val p (.ptr old)) rs none x' s1 →
        (n ≤ d → UnmarshalReturnsIn env r d (.val p (.ptr old)) rs none x' rs') ∧ (d < n → UnmarshalOverflows env r d (.val p (.ptr old)) rs) := by
  obtain ⟨n, hn⟩ := exists_frames hx ht h
  refine ⟨n, ((hr.room hd n).1 ((hn n).2 (Nat.le_refl _))).depth_le, fun d => ?_⟩
  have hm := C82_marshal env w x t v hx ht s s' h d
  refine ⟨fun h => hm.1 ((hn d).2 h), fun h => hm.2 fun h' => absurd ((hn d).1 h') (by omega), fun rs rs' old x' s1 hh hu => ?_⟩
  have hu := C82_unmarshal env r p t hp hd tv hty rs rs' hh old x' s1 hu d
  exact ⟨fun h => hu.1 ((hr.room hd d).1 ((hn d).2 h)), fun h => hu.2 fun h' => absurd ((hn d).1 ((hr.room hd d).2 h')) (by omega)⟩

/-- **C82** (binary): when Marshal succeeds, there is a number of frames such that Marshal with as many or more does the same and with fewer overflows the stack; and Unmarshal of what it has written into
any variable of the same type, if it succeeds, does so with as many frames or more and overflows with fewer. -/
theorem C82_binary (env : Env) (strict : Bool) (x : AnyVal) (t p : TypeId) (v : GoVal) (hx : Passes env x t v) (hp : (env.type p).kind = .ptr t) (ht : HasType env t v)
    (hs : SizesAtMost env (2 ^ 31 - 1) t v) (hd : ∀ t', Within env t' t → DistinctIds env t') (b out : Bytes) (h : MarshalReturns env (Binary.writer strict) x ((), b) none ((), b ++ out)) :
    ∃ n, ∀ d,
      (n ≤ d → MarshalReturnsIn env (Binary.writer strict) d x ((), b) none ((), b ++ out)) ∧ (d < n → MarshalOverflows env (Binary.writer strict) d x ((), b)) ∧
      ∀ (size : Nat) (rest : Bytes) (fin : End) (old : GoVal) (x' : AnyVal) (s1 : Unit × Flat), 16 ≤ size →
        UnmarshalReturns env (Binary.reader strict) (.val p (.ptr old)) ((), ⟨size, out ++ rest, fin⟩) none x' s1 →
        (n ≤ d → UnmarshalReturnsIn env (Binary.reader strict) d (.val p (.ptr old)) ((), ⟨size, out ++ rest, fin⟩) none x' ((), ⟨size, rest, fin⟩)) ∧
        (d < n → UnmarshalOverflows env (Binary.reader strict) d (.val p (.ptr old)) ((), ⟨size, out ++ rest, fin⟩)) := by
  obtain ⟨tv, hr, hw, _⟩ := h.rep hx ht
  obtain ⟨h1, h2, h3⟩ := rep_wf hr _ ht hs
  obtain ⟨n, _, hn⟩ := same_frames (r := Binary.reader strict) hx ht h hr hp hd (rep_wireType hr)
  have ho : out = encBin tv := by
    have := hw.unique (Binary.writes strict tv b)
    simpa using this
  subst ho
  exact ⟨n, fun d => ⟨(hn d).1, (hn d).2.1, fun size rest fin old x' s1 hsize hu => (hn d).2.2 _ _ old x' s1 (Binary.holds strict size hsize fin tv h1 rest) hu⟩⟩

/-- **C82** (compact): the same. The stream after the value must end at some time or go on for at least nine bytes (see C23). -/
theorem C82_compact (env : Env) (x : AnyVal) (t p : TypeId) (v : GoVal) (hx : Passes env x t v) (hp : (env.type p).kind = .ptr t) (ht : HasType env t v)
    (hs : SizesAtMost env (2 ^ 63 - 1) t v) (hd : ∀ t', Within env t' t → DistinctIds env t') (c c' : Compact.WState) (hc : c.boolField.type = Ty.stop) (b out : Bytes)
    (h : MarshalReturns env Compact.writer x (c, b) none (c', b ++ out)) :
    ∃ n, ∀ d,
      (n ≤ d → MarshalReturnsIn env Compact.writer d x (c, b) none (c', b ++ out)) ∧ (d < n → MarshalOverflows env Compact.writer d x (c, b)) ∧
      ∀ (size : Nat) (rest : Bytes) (fin : End) (rs : Compact.RState) (old : GoVal) (x' : AnyVal) (s1 : Compact.RState × Flat), 16 ≤ size → rs.boolField = .none →
        ((∃ e, fin = .err e) ∨ 9 ≤ rest.length) → UnmarshalReturns env Compact.reader (.val p (.ptr old)) (rs, ⟨size, out ++ rest, fin⟩) none x' s1 →
        (n ≤ d → UnmarshalReturnsIn env Compact.reader d (.val p (.ptr old)) (rs, ⟨size, out ++ rest, fin⟩) none x' (rs, ⟨size, rest, fin⟩)) ∧
        (d < n → UnmarshalOverflows env Compact.reader d (.val p (.ptr old)) (rs, ⟨size, out ++ rest, fin⟩)) := by
  obtain ⟨tv, hr, hw, _⟩ := h.rep hx ht
  obtain ⟨h1, h2, h3⟩ := rep_wf hr _ ht hs
  obtain ⟨n, _, hn⟩ := same_frames (r := Compact.reader) hx ht h hr hp hd (rep_wireType hr)
  obtain ⟨c1, _, h6⟩ := Compact.writes tv h1 h2 c b hc
  rw [Compact.enc_noWrap tv h3] at h6
  have ho : out = encCompact tv := by
    have := hw.unique h6
    simp at this
    exact this.2
  subst ho
  exact ⟨n, fun d => ⟨(hn d).1, (hn d).2.1, fun size rest fin rs old x' s1 hsize hrs hfin hu =>
    (hn d).2.2 _ _ old x' s1 (Compact.holds size hsize fin tv h1 h2 rs rest hrs (.inl hfin)) hu⟩⟩

/-! ## The hypotheses are met -/

/-- Some number of frames, for a struct with a pointer, a list and a map in it. -/
example : ∃ n, ∀ d, (n ≤ d → MarshalReturnsIn Ex.env (Binary.writer true) d (.val 0 Ex.valQ) ((), [1]) none ((), [1] ++ Ex.bytesQ)) ∧
    (d < n → MarshalOverflows Ex.env (Binary.writer true) d (.val 0 Ex.valQ) ((), [1])) ∧
    (d < n → UnmarshalOverflows Ex.env (Binary.reader true) d (.val 4 (.ptr (Ex.env.zero 0))) ((), ⟨16, Ex.bytesQ ++ [9], .err .eof⟩)) := by
  obtain ⟨n, hn⟩ := C82_binary Ex.env true (.val 0 Ex.valQ) 0 4 Ex.valQ (.inl ⟨rfl, fun e h => by cases h⟩) rfl Ex.hasType_valQ (Ex.sizes_valQ.mono (by decide)) Ex.distinct_P [1] Ex.bytesQ Ex.marshalsQ
  exact ⟨n, fun d => ⟨(hn d).1, (hn d).2.1, ((hn d).2.2 16 [9] (.err .eof) _ _ _ (by decide) Ex.unmarshalsQ).2⟩⟩

example : ∃ n, ∀ d, (n ≤ d → MarshalReturnsIn Ex.env Compact.writer d (.val 0 Ex.valQ) ({}, [1]) none ({}, [1] ++ Ex.compactQ)) ∧
    (d < n → UnmarshalOverflows Ex.env Compact.reader d (.val 4 (.ptr (Ex.env.zero 0))) ({}, ⟨16, Ex.compactQ ++ [9], .err .eof⟩)) := by
  obtain ⟨n, hn⟩ := C82_compact Ex.env (.val 0 Ex.valQ) 0 4 Ex.valQ (.inl ⟨rfl, fun e h => by cases h⟩) rfl Ex.hasType_valQ (Ex.sizes_valQ.mono (by decide)) Ex.distinct_P {} {} rfl [1] Ex.compactQ
    Ex.marshalsQ_compact
  exact ⟨n, fun d => ⟨(hn d).1, ((hn d).2.2 16 [9] (.err .eof) {} _ _ _ (by decide) rfl (.inl ⟨_, rfl⟩) Ex.unmarshalsQ_compact).2⟩⟩

/-- A linked list of two: `L{Next: &L{V: x}}`. Its wire value is 3 deep, and it takes 4 frames. -/
example : MarshalReturnsIn Ex.env (Binary.writer true) 4 (.val 21 (.struct [.ptr (.struct [.ptrNil, .f32 1]), .f32 0])) ((), []) none
      ((), encBin (.struct [] [([], 1, .struct [] [([], 2, .double 1)])])) ∧
    MarshalOverflows Ex.env (Binary.writer true) 3 (.val 21 (.struct [.ptr (.struct [.ptrNil, .f32 1]), .f32 0])) ((), []) ∧
    depth (.struct [] [([], 1, .struct [] [([], 2, .double 1)])]) = 3 := by
  have d1 : Declares Ex.env (Ex.fld "Next" "1" 23) 1 false := (parse_declares Ex.env _ ⟨1, ascii "Next", false⟩ rfl).2
  have d2 : Declares Ex.env (Ex.fld "V" "2" 14) 2 false := (parse_declares Ex.env _ ⟨2, ascii "V", false⟩ rfl).2
  have ht : HasType Ex.env 21 (.struct [.ptr (.struct [.ptrNil, .f32 1]), .f32 0]) := by
    refine ⟨rfl, ?_⟩
    simp [EverywhereFields, Everywhere, Shape, Ex.env, Ex.type, Ex.fld, Env.fields, Env.elemType]
  have hm : MarshalReturns Ex.env (Binary.writer true) (.val 21 (.struct [.ptr (.struct [.ptrNil, .f32 1]), .f32 0])) ((), []) none
      ((), encBin (.struct [] [([], 1, .struct [] [([], 2, .double 1)])])) :=
    ⟨20, fun fuel hf => ((Marshal_le Ex.env 20 fuel hf _).run _ _).done (by decide +kernel)⟩
  have hl : ∀ d, RoomV Ex.env 21 (.struct [.ptrNil, .f32 1]) (d + 2) := fun d => .struct rfl fun i f v h1 h2 h3 => by
    match i with
    | 0 =>
      cases h1
      cases h2
      obtain ⟨id, req, hd, hw⟩ := h3
      have := (d1.unique hd).2
      subst this
      rcases hw with hw | hw <;> cases hw
    | 1 => cases h1; cases h2; exact .scalar (.f32 1 rfl)
  have hl0 : ∀ d, RoomV Ex.env 21 (.struct [.ptrNil, .f32 1]) d → 2 ≤ d := by
    intro d h
    cases h with
    | scalar h => cases h
    | slice h => cases h
    | map h => cases h
    | struct hk h =>
      cases hk
      have := h 1 _ _ rfl rfl ⟨2, false, d2, .inr rfl⟩
      cases this <;> omega
  refine ⟨(C82_marshal Ex.env _ _ 21 _ (.inl ⟨rfl, fun e h => by cases h⟩) ht _ _ hm 4).1 (.struct rfl fun i f v h1 h2 h3 => ?_),
    (C82_marshal Ex.env _ _ 21 _ (.inl ⟨rfl, fun e h => by cases h⟩) ht _ _ hm 3).2 fun h => ?_, by decide⟩
  · match i with
    | 0 => cases h1; cases h2; exact .ptr rfl (hl 0)
    | 1 => cases h1; cases h2; exact .scalar (.f32 0 rfl)
  · cases h with
    | scalar h => cases h
    | slice h => cases h
    | map h => cases h
    | struct hk h =>
      cases hk
      have := h 0 _ _ rfl rfl ⟨1, false, d1, .inr rfl⟩
      cases this with
      | scalar h => cases h
      | slice h => cases h
      | map h => cases h
      | ptr hk h =>
        cases hk
        have := hl0 _ h
        omega

end GoThrift
