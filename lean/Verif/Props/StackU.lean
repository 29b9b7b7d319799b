import Verif.Proof.StackU
import Verif.Props.Decode

/-!
# C81: how deep Unmarshal recurses
-/

namespace GoThrift

open Spec Spec.TVal

/-- `Unmarshal(r, x)` in state `s` with room for `d` frames of arshalers and of `Skip` on the stack returns `e`; the argument is then `x'` and the reader in state `s'`. -/
def Spec.UnmarshalReturnsIn {S : Type} (env : Env) (r : Rdr S) (d : Nat) (x : AnyVal) (s : S) (e : Option Err) (x' : AnyVal) (s' : S) : Prop :=
  ∃ n, ∀ fuel, n ≤ fuel → (UnmarshalS env fuel d x).run r s = .done ((x', e), s')

/-- `Unmarshal(r, x)` in state `s` with room for `d` frames of arshalers and of `Skip` overflows the stack. -/
def Spec.UnmarshalOverflows {S : Type} (env : Env) (r : Rdr S) (d : Nat) (x : AnyVal) (s : S) : Prop :=
  ∃ n, ∀ fuel, n ≤ fuel → (UnmarshalS env fuel d x).run r s = .panicked

/-- **C81** (the limit only cuts): at any Reader, whatever it does, and for any argument, Unmarshal on a limited stack either overflows it or does what it does on an unlimited one. -/
theorem C81_cuts {S : Type} (env : Env) (r : Rdr S) (d : Nat) (x : AnyVal) (s : S) (fuel : Nat) :
    (UnmarshalS env fuel d x).run r s = .panicked ∨ (UnmarshalS env fuel d x).run r s = (Unmarshal env fuel x).run r s := by
  refine RProg.Cuts.run (p := UnmarshalS env fuel d x) (q := Unmarshal env fuel x) ?_ r s
  cases x with
  | nil => exact .refl _
  | val t v =>
    rw [UnmarshalS, Unmarshal]
    cases env.elem? t with
    | none => exact .refl _
    | some e =>
      dsimp only
      cases v.pointee? with
      | none => exact .refl _
      | some v0 =>
        dsimp only
        cases lookupArshaler env fuel e with
        | done a =>
          dsimp only [Out.elim]
          exact .uandThen ((unmarshalS_cuts env fuel fuel).1 _ _ _ _) _ fun _ => .refl _
        | _ => exact .refl _

/-- **C81** (values): at any Reader in front of a value of the type's wire type, if Unmarshal succeeds, then with fewer frames than the value is deep it overflows the stack, and with as many
frames for each level as there are pointers in a row in the Go type, and one, it does the same. -/
theorem C81_value {S : Type} (env : Env) (r : Rdr S) (p t : TypeId) (hp : (env.type p).kind = .ptr t) (tv : TVal) (hw : WireTypeOf env t tv.ty) (s s' : S) (hh : Holds r tv s s') (old : GoVal)
    (x' : AnyVal) (s1 : S) (h : UnmarshalReturns env r (.val p (.ptr old)) s none x' s1) (d : Nat) :
    (d < depth tv → UnmarshalOverflows env r d (.val p (.ptr old)) s) ∧
    (∀ m, PointersAtMost env m t → (m + 1) * depth tv ≤ d → UnmarshalReturnsIn env r d (.val p (.ptr old)) s none x' s') := by
  obtain ⟨n, a, hl⟩ := h.lookup hp
  obtain ⟨k, h⟩ := h
  have he : env.elem? p = some t := by simp [Env.elem?, hp]
  have hty := hw.lookup hl
  have main : ∀ m fuel, n + fuelOf tv + k ≤ fuel → (d < depth tv → (UnmarshalS env fuel d (.val p (.ptr old))).run r s = .panicked) ∧
      (PointersAtMost env m t → (m + 1) * depth tv ≤ d → (UnmarshalS env fuel d (.val p (.ptr old))).run r s = .done ((x', none), s')) := by
    intro m fuel hf
    have hrun := h fuel (by omega)
    have hl' := lookup_mono (show n ≤ fuel by omega) hl
    have htwo := ((unmarshalS_two (r := r) env m fuel fuel).1 d fuel t a old tv s s' (by omega) hl' hh).andThen (fail := fun v => AnyVal.val p (.ptr v)) fun v => Two.ok (AnyVal.val p (.ptr v)) s'
    simp only [Unmarshal, UnmarshalS, he, GoVal.pointee?, hl', Out.elim, hty] at hrun ⊢
    obtain ⟨_, h2, h3⟩ := htwo.two _ _ hrun
    refine ⟨fun hd => h2 (.inl hd), fun hp hd => h3 ⟨⟨hp, ?_⟩, trivial⟩⟩
    have h4 := hp.ptrs hl'
    obtain ⟨x, hx⟩ := Nat.exists_eq_add_of_le' (depth_pos tv)
    rw [hx, Nat.mul_add, Nat.mul_one] at hd
    rw [hx, Nat.add_sub_cancel]
    omega
  exact ⟨fun hd => ⟨_, fun fuel hf => (main 0 fuel hf).1 hd⟩, fun m hm hd => ⟨_, fun fuel hf => (main m fuel hf).2 hm hd⟩⟩

/-- **C81** (exact without pointers): if there are no pointers in the type, Unmarshal takes exactly as many frames as the value is deep. -/
theorem C81_exact {S : Type} (env : Env) (r : Rdr S) (p t : TypeId) (hp : (env.type p).kind = .ptr t) (h0 : ∀ t', Within env t' t → ∀ e, (env.type t').kind ≠ .ptr e) (tv : TVal)
    (hw : WireTypeOf env t tv.ty) (s s' : S) (hh : Holds r tv s s') (old : GoVal) (x' : AnyVal) (s1 : S) (h : UnmarshalReturns env r (.val p (.ptr old)) s none x' s1) (d : Nat) :
    UnmarshalReturnsIn env r d (.val p (.ptr old)) s none x' s' ↔ depth tv ≤ d := by
  have hv := C81_value env r p t hp tv hw s s' hh old x' s1 h d
  refine ⟨fun ⟨n, hn⟩ => Nat.le_of_not_lt fun hd => ?_, fun hd => hv.2 0 (fun t' n hw' hn => ?_) (by omega)⟩
  · obtain ⟨m, hm⟩ := hv.1 hd
    have := (hn (max n m) (Nat.le_max_left _ _)).symm.trans (hm (max n m) (Nat.le_max_right _ _))
    cases this
  · cases hn with
    | zero => exact Nat.le_refl _
    | succ hk => exact absurd hk (h0 t' hw' _)

/-- The agreement at bytes, for a reader that uses up its bytes on the way down. -/
theorem UnmarshalS_agree {S : Type} {r : Rdr S} {Good : S → Prop} {Φ : S → Nat} (hm : Lowers r Good Φ) (env : Env) (x : AnyVal) (m : Nat)
    (hp : ∀ p v t, x = .val p v → (env.type p).kind = .ptr t → PointersAtMost env m t) (s : S) (hs : Good s) (d : Nat) (hd : (m + 1) * (Φ s + 1) ≤ d) (fuel : Nat) :
    (UnmarshalS env fuel d x).run r s = (Unmarshal env fuel x).run r s := by
  cases x with
  | nil => rfl
  | val t v =>
    rw [UnmarshalS, Unmarshal]
    cases he : env.elem? t with
    | none => rfl
    | some e =>
      dsimp only
      have hk : (env.type t).kind = .ptr e := by
        unfold Env.elem? at he
        split at he
        · next h => cases he; exact h
        · cases he
      cases v.pointee? with
      | none => rfl
      | some v0 =>
        dsimp only
        cases hl : lookupArshaler env fuel e with
        | done a =>
          dsimp only [Out.elim]
          have hpt := hp t v e rfl hk
          have := hpt.ptrs hl
          rw [Nat.mul_add, Nat.mul_one] at hd
          rw [UProg.andThen, UProg.andThen, RProg.run_bind, RProg.run_bind, ((unmarshalS_agree hm env m fuel fuel).1 d s fuel e a v0 a.wireType hl hpt hs (by omega)).1]
        | _ => rfl

/-- **C81** (binary, any bytes): for any argument, with as many frames for each byte, and one byte more, as there are pointers in a row in the Go type, and one, Unmarshal never overflows
the stack: it does what it does without a limit. -/
theorem C81_binary (strict : Bool) (env : Env) (x : AnyVal) (m : Nat) (hp : ∀ p v t, x = .val p v → (env.type p).kind = .ptr t → PointersAtMost env m t) (size : Nat) (hsize : 16 ≤ size)
    (bytes : Bytes) (e : Err) (d : Nat) (hd : (m + 1) * (bytes.length + 1) ≤ d) (fuel : Nat) :
    (UnmarshalS env fuel d x).run (Binary.reader strict) ((), ⟨size, bytes, .err e⟩) = (Unmarshal env fuel x).run (Binary.reader strict) ((), ⟨size, bytes, .err e⟩) :=
  UnmarshalS_agree (Binary.lowers strict) env x m hp ((), ⟨size, bytes, .err e⟩) ⟨hsize, e, rfl⟩ d hd fuel

/-- **C81** (compact, any bytes): the same, in any state of the reader. -/
theorem C81_compact (env : Env) (x : AnyVal) (m : Nat) (hp : ∀ p v t, x = .val p v → (env.type p).kind = .ptr t → PointersAtMost env m t) (c : Compact.RState) (size : Nat) (hsize : 16 ≤ size)
    (bytes : Bytes) (e : Err) (d : Nat) (hd : (m + 1) * (bytes.length + 1) ≤ d) (fuel : Nat) :
    (UnmarshalS env fuel d x).run Compact.reader (c, ⟨size, bytes, .err e⟩) = (Unmarshal env fuel x).run Compact.reader (c, ⟨size, bytes, .err e⟩) :=
  UnmarshalS_agree Compact.lowers env x m hp (c, ⟨size, bytes, .err e⟩) ⟨hsize, e, rfl⟩ d hd fuel

theorem Spec.AlikeFields.refl (env : Env) (fs : List FieldDecl) (tfs : List (Bytes × BitVec 16 × TVal)) : AlikeFields env fs tfs tfs := by
  induction tfs with
  | nil => exact .nil
  | cons f tfs ih => exact .both f.1 f.1 f.2.1 (fun _ _ _ _ => .refl _) ih

/-- **C81** (no limit, binary): whatever the stack, `5 d + 8` bytes in front of a struct that Unmarshal accepts make it overflow the stack: an undeclared field. On an unlimited stack they change nothing. -/
theorem C81_binary_unlimited (strict : Bool) (env : Env) (p t : TypeId) (hp : (env.type p).kind = .ptr t) (fs : List FieldDecl) (hk : (env.type t).kind = .struct fs) (id : BitVec 16)
    (hid : ∀ f ∈ fs, ∀ required, ¬ Declares env f id required) (nm : Bytes) (tfs : List (Bytes × BitVec 16 × TVal)) (hwf : WF (2 ^ 31 - 1) (.struct nm tfs)) (size : Nat) (hsize : 16 ≤ size)
    (rest : Bytes) (fin : End) (old : GoVal) (x' : AnyVal) (s1 : Unit × Flat)
    (h : UnmarshalReturns env (Binary.reader strict) (.val p (.ptr old)) ((), ⟨size, encBin (.struct nm tfs) ++ rest, fin⟩) none x' s1) (d : Nat) :
    ∃ bytes : Bytes, bytes.length = 5 * d + 8 ∧
      UnmarshalReturns env (Binary.reader strict) (.val p (.ptr old)) ((), ⟨size, bytes ++ encBin (.struct nm tfs) ++ rest, fin⟩) none x' ((), ⟨size, rest, fin⟩) ∧
      UnmarshalOverflows env (Binary.reader strict) d (.val p (.ptr old)) ((), ⟨size, bytes ++ encBin (.struct nm tfs) ++ rest, fin⟩) := by
  have hn := (nest_wf (2 ^ 31 - 1) (by decide) d).1
  have hw2 : WF (2 ^ 31 - 1) (.struct nm (([], id, nest d) :: tfs)) := by
    simp only [WF, WFFields] at hwf ⊢
    exact ⟨hn, hwf⟩
  have h2 := Binary.holds strict size hsize fin _ hw2 rest
  have hb : encBin (.struct nm (([], id, nest d) :: tfs)) ++ rest = ([(nest d).ty] ++ be 2 id.toNat ++ encBin (nest d)) ++ encBin (.struct nm tfs) ++ rest := by
    simp only [encBin, encBinFields, List.append_assoc]
  obtain ⟨s3, h3, h4⟩ := C07_unknown_fields env _ _ p t hp (.struct nm tfs) (.struct nm (([], id, nest d) :: tfs)) (.struct nm nm hk (.right [] id _ hid (.refl env fs tfs))) (.struct hk) _ _
    (Binary.holds strict size hsize fin _ hwf rest) _ _ h2 old none x' s1 h
  cases h4 rfl
  have h5 := (C81_value env _ p t hp (.struct nm (([], id, nest d) :: tfs)) (.struct hk) _ _ h2 old x' _ h3 d).1 (by simp only [depth, depthFields, nest_depth]; omega)
  rw [hb] at h3 h5
  refine ⟨_, ?_, h3, h5⟩
  simp only [List.length_append, nest_binary, List.length_cons, List.length_nil]
  rw [show (be 2 id.toNat).length = 2 from rfl]
  omega

theorem compactFieldHeader_length (code : Byte) (last id : BitVec 16) : 1 ≤ (compactFieldHeader code last id).length ∧ (compactFieldHeader code last id).length ≤ 4 := by
  unfold compactFieldHeader
  split
  · simp
  · have : (leb (Spec.zigzag id.toInt)).length ≤ 3 := leb_length_le 2 _ (by
      have := id.toInt_lt
      have := id.le_toInt
      unfold Spec.zigzag
      split <;> omega)
    simp only [List.length_append, List.length_cons, List.length_nil]
    omega

/-- **C81** (no limit, compact): whatever the stack, a struct that Unmarshal accepts with an undeclared field in front overflows the stack; it takes at most `d + 8` bytes more. On an unlimited stack
it is accepted with the same result. -/
theorem C81_compact_unlimited (env : Env) (p t : TypeId) (hp : (env.type p).kind = .ptr t) (fs : List FieldDecl) (hk : (env.type t).kind = .struct fs) (id : BitVec 16)
    (hid : ∀ f ∈ fs, ∀ required, ¬ Declares env f id required) (nm : Bytes) (tfs : List (Bytes × BitVec 16 × TVal)) (hwf : WF (2 ^ 63 - 1) (.struct nm tfs)) (ht : TypesOK (.struct nm tfs))
    (c : Compact.RState) (hc : c.boolField = .none) (size : Nat) (hsize : 16 ≤ size) (rest : Bytes) (e : Err) (old : GoVal) (x' : AnyVal) (s1 : Compact.RState × Flat)
    (h : UnmarshalReturns env Compact.reader (.val p (.ptr old)) (c, ⟨size, encCompact (.struct nm tfs) ++ rest, .err e⟩) none x' s1) (d : Nat) :
    ∃ bytes : Bytes, bytes.length ≤ (encCompact (.struct nm tfs)).length + d + 8 ∧
      UnmarshalReturns env Compact.reader (.val p (.ptr old)) (c, ⟨size, bytes ++ rest, .err e⟩) none x' (c, ⟨size, rest, .err e⟩) ∧
      UnmarshalOverflows env Compact.reader d (.val p (.ptr old)) (c, ⟨size, bytes ++ rest, .err e⟩) := by
  obtain ⟨hn, hnt⟩ := nest_wf (2 ^ 63 - 1) (by decide) d
  have hw2 : WF (2 ^ 63 - 1) (.struct nm (([], id, nest d) :: tfs)) := by
    simp only [WF, WFFields] at hwf ⊢
    exact ⟨hn, hwf⟩
  have ht2 : TypesOK (.struct nm (([], id, nest d) :: tfs)) := by
    simp only [TypesOK, TypesOKFields] at ht ⊢
    exact ⟨hnt, ht⟩
  have h2 := Compact.holds size hsize (.err e) _ hw2 ht2 c rest hc (.inl (.inl ⟨e, rfl⟩))
  obtain ⟨s3, h3, h4⟩ := C07_unknown_fields env _ _ p t hp (.struct nm tfs) (.struct nm (([], id, nest d) :: tfs)) (.struct nm nm hk (.right [] id _ hid (.refl env fs tfs))) (.struct hk) _ _
    (Compact.holds size hsize (.err e) _ hwf ht c rest hc (.inl (.inl ⟨e, rfl⟩))) _ _ h2 old none x' s1 h
  cases h4 rfl
  have h5 := (C81_value env _ p t hp (.struct nm (([], id, nest d) :: tfs)) (.struct hk) _ _ h2 old x' _ h3 d).1 (by simp only [depth, depthFields, nest_depth]; omega)
  refine ⟨_, ?_, h3, h5⟩
  have hty : (nest d).ty ≠ Ty.bool := by rw [nest_ty]; decide
  simp only [encCompact, encCompactFields, List.length_append, if_neg hty, nest_compact]
  have h1 := compactFieldHeader_length (compactFieldCode (nest d)) 0 id
  cases tfs with
  | nil => simp only [encCompactFields, List.length_cons, List.length_nil]; omega
  | cons f tfs =>
    obtain ⟨fn, i, v⟩ := f
    have h2 := compactFieldHeader_length (compactFieldCode v) 0 i
    have h3 := compactFieldHeader_length (compactFieldCode v) id i
    simp only [encCompactFields, List.length_append]
    omega

/-! ## The hypotheses are met -/

/-- A struct with an undeclared field is unmarshalled: it is 3 deep, and that is how many frames there must be at least. -/
example : depth Ex.extra = 3 ∧ UnmarshalOverflows Ex.env (Binary.reader true) 2 (.val 4 (.ptr Ex.valP)) ((), ⟨16, encBin Ex.extra ++ [9], .block⟩) :=
  ⟨by decide, (C81_value Ex.env _ 4 0 rfl Ex.extra (.struct rfl) _ _ (Ex.holds_extra [9]) _ _ _ Ex.unmarshals_extra 2).1 (by decide)⟩

/-- With 1000 frames, 5008 bytes more overflow. -/
example : ∃ bytes : Bytes, bytes.length = 5 * 1000 + 8 ∧
    UnmarshalOverflows Ex.env (Binary.reader true) 1000 (.val 4 (.ptr Ex.valP)) ((), ⟨16, bytes ++ encBin Ex.extra ++ [9], .block⟩) := by
  obtain ⟨bytes, h1, _, h2⟩ := C81_binary_unlimited true Ex.env 4 0 rfl _ rfl 9 Ex.undeclared_9 [] _ (by simp [WF, WFFields, WFElems, ty]) 16 (by decide) [9] .block _ _ _ Ex.unmarshals_extra 1000
  exact ⟨bytes, h1, h2⟩

/-- Nowhere in these types are two pointers in a row; one of them is `struct { Next *L; … }`. -/
theorem Ex.pointersAtMost (t : TypeId) : PointersAtMost Ex.env 1 t := by
  have key : ∀ t e e', (Ex.env.type t).kind = .ptr e → (Ex.env.type e).kind ≠ .ptr e' := by
    intro t e e' h
    have h : (Ex.type t).kind = .ptr e := h
    show (Ex.type e).kind ≠ .ptr e'
    unfold Ex.type at h
    split at h <;> cases h <;> (intro h; cases h)
  intro t' n _ hn
  cases hn with
  | zero => omega
  | succ h hn =>
    cases hn with
    | zero => exact Nat.le_refl _
    | succ h2 => exact absurd h2 (key _ _ _ h)

/-- A linked list in hostile bytes. -/
example : (∀ p v t, AnyVal.val 23 (.ptr (Ex.env.zero 21)) = .val p v → (Ex.env.type p).kind = .ptr t → PointersAtMost Ex.env 1 t) ∧ (1 + 1) * (([12, 0, 1, 12, 0, 1, 12] : Bytes).length + 1) ≤ 16 :=
  ⟨fun _ _ t _ _ => Ex.pointersAtMost t, by decide⟩

/-- Strings in a slice: no pointers. -/
example : (∀ t', Within Ex.env t' 5 → ∀ e, (Ex.env.type t').kind ≠ .ptr e) ∧
    Holds (Binary.reader true) (.list Ty.string [.str false [120]]) ((), ⟨16, encBin (.list Ty.string [.str false [120]]) ++ [9], .block⟩) ((), ⟨16, [9], .block⟩) ∧
    UnmarshalReturns Ex.env (Binary.reader true) (.val 25 (.ptr .sliceNil)) ((), ⟨16, encBin (.list Ty.string [.str false [120]]) ++ [9], .block⟩) none
      (.val 25 (.ptr (.slice [.str [120]] []))) ((), ⟨16, [9], .block⟩) ∧ depth (.list Ty.string [.str false [120]]) = 2 := by
  refine ⟨?_, Binary.holds true 16 (by decide) _ _ (by simp [WF, WFElems, ty]) _, ⟨20, fun fuel hf => ((Unmarshal_le Ex.env 20 fuel hf _).run _ _).done (sameResult_eq (by decide +kernel))⟩, by decide⟩
  have h3 : ∀ t', Within Ex.env t' 3 → t' = 3 := by
    intro t' h
    cases h with
    | refl => rfl
    | step hw hp => exact absurd hp (by simp [PartOf, Ex.env, Ex.type])
  intro t' h e hk
  cases h with
  | refl => cases hk
  | @step t1 _ hw hp =>
    have hp : t1 = 3 := by simpa [PartOf, Ex.env, Ex.type, GoType.asBytes] using hp
    subst hp
    cases h3 t' hw
    cases hk

end GoThrift
