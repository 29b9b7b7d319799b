import Verif.Proof.Hostile
import Verif.Proof.FailFast
import Verif.Proof.Idle
import Verif.Props.Decode
import Verif.Props.Robust

/-!
# C05 (Unmarshal), C49 (Unmarshal), C53: truncated and hostile input
-/

namespace GoThrift

open Spec Spec.TVal

/-! ## C49 -/

/-- **C49**, any Reader: whatever a Reader answers, Unmarshal into a valid value panics only if the Reader does; all Go types, also those with faulty tags or unsupported parts. -/
theorem C49_unmarshal_no_panic {S : Type} (r : Rdr S) (hu : UUIDs16 r) (hr : ∀ o s, r.step o s ≠ .panicked) (env : Env) (p t : TypeId) (hp : (env.type p).kind = .ptr t) (old : GoVal)
    (ht : ValidValue env t old) (fuel : Nat) (s : S) : (Unmarshal env fuel (.val p (.ptr old))).run r s ≠ .panicked := by
  have he : env.elem? p = some t := by simp [Env.elem?, hp]
  have : Safe' (fun _ => True) (Unmarshal env fuel (.val p (.ptr old))) := by
    simp only [Unmarshal, he, GoVal.pointee?]
    refine Wp.elim ?_ fun a ha => ?_
    · rcases lookup_total env fuel t with h | ⟨a, h⟩ <;> rw [h] <;> exact .inl (by simp)
    · exact safe_andThen ((safe_unmarshal env fuel fuel).1 fuel t a old _ ha ht) (fun _ _ => trivial) fun _ _ _ => trivial
  exact this.no_panic hu hr s

/-- What Unmarshal leaves in its target is a valid value of the type again, whatever the Reader answers, also when it returns an error. -/
theorem C49_unmarshal_valid {S : Type} (r : Rdr S) (hu : UUIDs16 r) (env : Env) (p t : TypeId) (hp : (env.type p).kind = .ptr t) (old : GoVal) (ht : ValidValue env t old) (s s' : S)
    (e : Option Err) (x' : AnyVal) (h : UnmarshalReturns env r (.val p (.ptr old)) s e x' s') : ∃ v, x' = .val p (.ptr v) ∧ ValidValue env t v := by
  obtain ⟨n, h⟩ := h
  have he : env.elem? p = some t := by simp [Env.elem?, hp]
  have : Safe' (fun x => ∃ v, x.1 = AnyVal.val p (.ptr v) ∧ ValidValue env t v) (Unmarshal env n (.val p (.ptr old))) := by
    simp only [Unmarshal, he, GoVal.pointee?]
    refine Wp.elim ?_ fun a ha => ?_
    · rcases lookup_total env n t with h | ⟨a, h⟩ <;> rw [h] <;> exact .inl (by simp)
    · exact safe_andThen ((safe_unmarshal env n n).1 n t a old _ ha ht) (fun v hv => ⟨v, rfl, hv⟩) fun v _ hv => ⟨v, rfl, hv⟩
  exact this.run hu (h n (Nat.le_refl _))

/-- **C49**, Unmarshal of both protocols: on any bytes that end, in any state of the reader, Unmarshal into any valid value returns, and leaves a valid value. -/
theorem C49_unmarshal (env : Env) (p t : TypeId) (hp : (env.type p).kind = .ptr t) (hacc : AllAcc env t) (old : GoVal) (ht : ValidValue env t old) (strict : Bool) (c : Compact.RState)
    (size : Nat) (hsize : 16 ≤ size) (bytes : Bytes) (err : Err) :
    (∃ e v s', UnmarshalReturns env (Binary.reader strict) (.val p (.ptr old)) ((), ⟨size, bytes, .err err⟩) e (.val p (.ptr v)) s' ∧ ValidValue env t v) ∧
    ∃ e v s', UnmarshalReturns env Compact.reader (.val p (.ptr old)) (c, ⟨size, bytes, .err err⟩) e (.val p (.ptr v)) s' ∧ ValidValue env t v := by
  constructor
  · obtain ⟨v, e, s', k, K, h1, _, _, h⟩ := Unmarshal_does (Binary.metered strict) (Binary.uuids16 strict) env p t hp hacc old ht ((), ⟨size, bytes, .err err⟩) ⟨hsize, err, rfl⟩
    exact ⟨e, v, s', ⟨K, fun fuel hf => by rw [run_counted _ _ _ 0, h fuel hf]; rfl⟩, h1⟩
  · obtain ⟨v, e, s', k, K, h1, _, _, h⟩ := Unmarshal_does Compact.metered Compact.uuids16 env p t hp hacc old ht (c, ⟨size, bytes, .err err⟩) ⟨hsize, err, rfl⟩
    exact ⟨e, v, s', ⟨K, fun fuel hf => by rw [run_counted _ _ _ 0, h fuel hf]; rfl⟩, h1⟩

/-- **C49**, open connections: on a connection that delivers any bytes and then stays open, Unmarshal waits for more, or returns - and then it does what it does if the connection ends there. -/
theorem C49_unmarshal_idle (env : Env) (p t : TypeId) (hp : (env.type p).kind = .ptr t) (hacc : AllAcc env t) (old : GoVal) (ht : ValidValue env t old) (strict : Bool) (c : Compact.RState)
    (size : Nat) (hsize : 16 ≤ size) (bytes : Bytes) (err : Err) : ∃ n x s' y s'', ∀ fuel, n ≤ fuel →
    ((Unmarshal env fuel (.val p (.ptr old))).run (Binary.reader strict) ((), ⟨size, bytes, .err err⟩) = .done (x, ((), s')) ∧
      ((Unmarshal env fuel (.val p (.ptr old))).run (Binary.reader strict) ((), ⟨size, bytes, .block⟩) = .blocked ∨
        (Unmarshal env fuel (.val p (.ptr old))).run (Binary.reader strict) ((), ⟨size, bytes, .block⟩) = .done (x, ((), { s' with fin := .block })))) ∧
    ((Unmarshal env fuel (.val p (.ptr old))).run Compact.reader (c, ⟨size, bytes, .err err⟩) = .done (y, s'') ∧
      ((Unmarshal env fuel (.val p (.ptr old))).run Compact.reader (c, ⟨size, bytes, .block⟩) = .blocked ∨
        (Unmarshal env fuel (.val p (.ptr old))).run Compact.reader (c, ⟨size, bytes, .block⟩) = .done (y, (s''.1, { s''.2 with fin := .block })))) := by
  obtain ⟨⟨e1, v1, s1, ⟨n1, h1⟩, _⟩, ⟨e2, v2, s2, ⟨n2, h2⟩, _⟩⟩ := C49_unmarshal env p t hp hacc old ht strict c size hsize bytes err
  refine ⟨max n1 n2, _, s1.2, _, s2, fun fuel hf => ⟨⟨h1 fuel (by omega), ?_⟩, h2 fuel (by omega), ?_⟩⟩
  · refine (RProg.run_idle (Binary.impl strict) (Binary.tameReader strict) (Unmarshal env fuel (.val p (.ptr old))) () size hsize bytes err).imp id fun h => h.trans ?_
    show ((Unmarshal env fuel (.val p (.ptr old))).run (Binary.reader strict) ((), ⟨size, bytes, .err err⟩)).bind _ = _
    rw [h1 fuel (by omega)]
    rfl
  · refine (RProg.run_idle Compact.impl Compact.tameReader (Unmarshal env fuel (.val p (.ptr old))) c size hsize bytes err).imp id fun h => h.trans ?_
    show ((Unmarshal env fuel (.val p (.ptr old))).run Compact.reader (c, ⟨size, bytes, .err err⟩)).bind _ = _
    rw [h2 fuel (by omega)]
    rfl

/-! ## C53 -/

/-- **C53** binary: at most `6 n + 2` Reader calls for `n` bytes of input, whatever the bytes declare. -/
theorem C53_binary (env : Env) (p t : TypeId) (hp : (env.type p).kind = .ptr t) (hacc : AllAcc env t) (old : GoVal) (ht : ValidValue env t old) (strict : Bool) (size : Nat) (hsize : 16 ≤ size)
    (bytes : Bytes) (err : Err) :
    ∃ (x : AnyVal × Option Err) (s' : Unit × Flat) (k n : Nat), k ≤ 6 * bytes.length + 2 ∧ ∀ fuel, n ≤ fuel →
      (Unmarshal env fuel (.val p (.ptr old))).run (counted (Binary.reader strict)) (((), ⟨size, bytes, .err err⟩), 0) = .done (x, (s', k)) := by
  obtain ⟨v, e, s', k, K, _, _, hk, h⟩ := Unmarshal_does (Binary.metered strict) (Binary.uuids16 strict) env p t hp hacc old ht ((), ⟨size, bytes, .err err⟩) ⟨hsize, err, rfl⟩
  refine ⟨_, s', k, K, ?_, fun fuel hf => by rw [h fuel hf, Nat.zero_add]⟩
  simp only at hk
  omega

/-- **C53** compact: at most `6 n + 5` calls, in any state of the reader. -/
theorem C53_compact (env : Env) (p t : TypeId) (hp : (env.type p).kind = .ptr t) (hacc : AllAcc env t) (old : GoVal) (ht : ValidValue env t old) (c : Compact.RState) (size : Nat)
    (hsize : 16 ≤ size) (bytes : Bytes) (err : Err) :
    ∃ (x : AnyVal × Option Err) (s' : Compact.RState × Flat) (k n : Nat), k ≤ 6 * bytes.length + 5 ∧ ∀ fuel, n ≤ fuel →
      (Unmarshal env fuel (.val p (.ptr old))).run (counted Compact.reader) ((c, ⟨size, bytes, .err err⟩), 0) = .done (x, (s', k)) := by
  obtain ⟨v, e, s', k, K, _, _, hk, h⟩ := Unmarshal_does Compact.metered Compact.uuids16 env p t hp hacc old ht (c, ⟨size, bytes, .err err⟩) ⟨hsize, err, rfl⟩
  refine ⟨_, s', k, K, ?_, fun fuel hf => by rw [h fuel hf, Nat.zero_add]⟩
  have : Compact.pending c ≤ 1 := by unfold Compact.pending; split <;> omega
  simp only at hk
  omega

/-! ## C05 -/

/-- **C05** binary, Unmarshal: a value cut anywhere before its end gives an error, whatever the target. -/
theorem C05_unmarshal_binary (env : Env) (p t : TypeId) (hp : (env.type p).kind = .ptr t) (hacc : AllAcc env t) (old : GoVal) (ht : ValidValue env t old) (strict : Bool) (tv : TVal)
    (hwf : WF (2 ^ 31 - 1) tv) (hw : WireTypeOf env t tv.ty) (size : Nat) (hsize : 16 ≤ size) (pre cut : Bytes) (hcut : encBin tv = pre ++ cut) (hne : cut ≠ []) (e : Err) :
    ∃ err x' s', UnmarshalReturns env (Binary.reader strict) (.val p (.ptr old)) ((), ⟨size, pre, .err e⟩) (some err) x' s' := by
  obtain ⟨x, v, s', ⟨n, h⟩, _⟩ := (C49_unmarshal env p t hp hacc old ht strict {} size hsize pre e).1
  cases x with
  | some err => exact ⟨err, _, s', n, h⟩
  | none =>
    exfalso
    obtain ⟨used, rest, c', h1, _, h3⟩ := replay (Binary.tameReader strict) _ (failFast_Unmarshal env n _) size hsize () pre e (.val p (.ptr v), none) s' (h n (Nat.le_refl _))
      (fun e h => by obtain ⟨e', h, _⟩ := h; cases h)
    have h4 := h3 (rest ++ cut) e
    rw [← List.append_assoc, ← h1, ← hcut] at h4
    have h5 := (C04_binary env strict tv hwf size hsize [] (.err e) p t hp hw old _ _
      (by rw [List.append_nil]; exact ⟨n, fun fuel hf => ((Unmarshal_le env n fuel hf _).run _ _).done h4⟩)).1
    injection h5 with _ h5
    injection h5 with _ h5
    exact hne (List.append_eq_nil_iff.1 h5).2

/-- **C05** compact, Unmarshal. -/
theorem C05_unmarshal_compact (env : Env) (p t : TypeId) (hp : (env.type p).kind = .ptr t) (hacc : AllAcc env t) (old : GoVal) (ht : ValidValue env t old) (tv : TVal)
    (hwf : WF (2 ^ 63 - 1) tv) (hty : TypesOK tv) (hw : WireTypeOf env t tv.ty) (c : Compact.RState) (hc : c.boolField = .none) (size : Nat) (hsize : 16 ≤ size) (pre cut : Bytes)
    (hcut : encCompact tv = pre ++ cut) (hne : cut ≠ []) (e : Err) :
    ∃ err x' s', UnmarshalReturns env Compact.reader (.val p (.ptr old)) (c, ⟨size, pre, .err e⟩) (some err) x' s' := by
  obtain ⟨x, v, s', ⟨n, h⟩, _⟩ := (C49_unmarshal env p t hp hacc old ht true c size hsize pre e).2
  cases x with
  | some err => exact ⟨err, _, s', n, h⟩
  | none =>
    exfalso
    obtain ⟨used, rest, c', h1, _, h3⟩ := replay Compact.tameReader _ (failFast_Unmarshal env n _) size hsize c pre e (.val p (.ptr v), none) s' (h n (Nat.le_refl _))
      (fun e h => by obtain ⟨e', h, _⟩ := h; cases h)
    have h4 := h3 (rest ++ cut) e
    rw [← List.append_assoc, ← h1, ← hcut] at h4
    have h5 := (C04_compact env tv hwf hty c hc size hsize [] e p t hp hw old _ _
      (by rw [List.append_nil]; exact ⟨n, fun fuel hf => ((Unmarshal_le env n fuel hf _).run _ _).done h4⟩)).1
    injection h5 with _ h5
    injection h5 with _ h5
    exact hne (List.append_eq_nil_iff.1 h5).2

/-! ## Examples -/

theorem Ex.allAcc_P : AllAcc Ex.env 0 := by
  intro t' h
  have hm := Ex.within_P t' h
  simp only [List.mem_cons, List.not_mem_nil, or_false] at hm
  rcases hm with rfl | rfl | rfl | rfl | rfl | rfl | rfl | rfl | rfl <;> exact (lookup_iff_acc Ex.env _).1 ⟨5, _, rfl⟩

theorem Ex.valid_valQ : ValidValue Ex.env 0 Ex.valQ := by
  simp [ValidValue, Ex.valQ, Everywhere, EverywhereFields, EverywhereEntries, EverywhereElems, Ex.env, Env.fields, Ex.type, Ex.fieldsP, Ex.fld, Shape, Env.elemType, Env.keyType, GoType.asBytes]
  exact .cons (fun y hy => by rw [List.mem_singleton.1 hy]; decide +kernel) (.cons (fun _ h => (by cases h)) .nil)

/-- The hypotheses of C49 and C53 are met by a struct type with a map, a slice and a pointer inside, and a variable that holds a map with an entry. -/
example : ∃ x s' k n, k ≤ 6 * 6 + 2 ∧ ∀ fuel, n ≤ fuel →
    (Unmarshal Ex.env fuel (.val 4 (.ptr Ex.valQ))).run (counted (Binary.reader true)) (((), ⟨16, [15, 0, 3, 11, 0x7f, 0xff], .err .eof⟩), 0) = .done (x, (s', k)) :=
  C53_binary Ex.env 4 0 rfl Ex.allAcc_P Ex.valQ Ex.valid_valQ true 16 (by decide) [15, 0, 3, 11, 0x7f, 0xff] .eof

/-- The bytes of `wrong` cut after eight bytes meet the hypotheses of C05. -/
example : ∃ err x' s', UnmarshalReturns Ex.env (Binary.reader true) (.val 4 (.ptr Ex.valQ)) ((), ⟨16, (encBin Ex.extra).take 8, .err .eof⟩) (some err) x' s' :=
  C05_unmarshal_binary Ex.env 4 0 rfl Ex.allAcc_P Ex.valQ Ex.valid_valQ true Ex.extra (by simp [Ex.extra, WF, WFFields, WFElems, ty]) (.struct rfl) 16 (by decide) _ ((encBin Ex.extra).drop 8)
    (List.take_append_drop _ _).symm (by decide +kernel) _

end GoThrift
