import Verif.Spec.TestPass
import Verif.Proof.Le

/-!
# What a test that has passed has done
-/

namespace GoThrift.ThriftTest

open Spec TM

variable {C R α β : Type}

/-- What has failed stays so, and what ends the subtest has failed. -/
structure Strict (m : TM C R α) : Prop where
  out : ∀ s r s', m s = .done (r, s') → (s.failed = true → s'.failed = true) ∧ (r = none → s'.failed = true)

theorem Strict.bind {m : TM C R α} {f : α → TM C R β} (hm : Strict m) (hf : ∀ a, Strict (f a)) : Strict (m >>= f) := by
  refine ⟨fun s r s' h => ?_⟩
  change (m s).bind _ = _ at h
  cases hr : m s with
  | done x =>
    obtain ⟨a, s1⟩ := x
    rw [hr, Out.bind_done] at h
    obtain ⟨h1, h2⟩ := hm.out s a s1 hr
    cases a with
    | none => cases h; exact ⟨h1, fun _ => h2 rfl⟩
    | some a =>
      obtain ⟨h3, h4⟩ := (hf a).out s1 r s' h
      exact ⟨fun h => h3 (h1 h), h4⟩
  | _ => rw [hr] at h; cases h

theorem Strict.ret (a : α) : Strict (pure a : TM C R α) := ⟨fun s r s' h => by cases h; exact ⟨id, by simp⟩⟩
theorem Strict.errorf : Strict (errorf : TM C R Unit) := ⟨fun s r s' h => by cases h; exact ⟨fun _ => rfl, by simp⟩⟩
theorem Strict.fatal : Strict (fatal : TM C R α) := ⟨fun s r s' h => by cases h; exact ⟨fun _ => rfl, fun _ => rfl⟩⟩
theorem Strict.get : Strict (get : TM C R (State C R)) := ⟨fun s r s' h => by cases h; exact ⟨id, by simp⟩⟩
theorem Strict.set {f : State C R → State C R} (hf : ∀ s, (f s).failed = s.failed) : Strict (set f) := ⟨fun s r s' h => by cases h; exact ⟨fun h => by rw [hf]; exact h, by simp⟩⟩

theorem Strict.check : ∀ e : Option Err, Strict (check e : TM C R Unit)
  | none => .ret ()
  | some _ => .fatal

theorem Strict.whenever {c : Prop} [Decidable c] {m : TM C R Unit} (hm : Strict m) : Strict (whenever c m) := by
  unfold TM.whenever
  split
  · exact hm
  · exact .ret ()

theorem Strict.writer (f : PW C Bytes → Out (Option Err × PW C Bytes)) : Strict (writer f : TM C R (Option Err)) := by
  refine ⟨fun s r s' h => ?_⟩
  unfold TM.writer at h
  cases hr : f { s.w with b := { s.w.b with wr := s.b } } with
  | done x => rw [hr] at h; cases h; exact ⟨id, by simp⟩
  | _ => rw [hr] at h; cases h

theorem Strict.reader (P : Protocol C R) (p : RProg α) : Strict (reader P p) := by
  refine ⟨fun s r s' h => ?_⟩
  unfold TM.reader at h
  cases hr : p.run P.rdr (s.r.1, { s.r.2 with src := bufferR s.b }) with
  | done x => rw [hr] at h; cases h; exact ⟨id, by simp⟩
  | _ => rw [hr] at h; cases h

theorem Strict.times {m : TM C R Unit} (hm : Strict m) : ∀ n, Strict (times m n)
  | 0 => .ret ()
  | n + 1 => .bind hm fun _ => Strict.times hm n

theorem Strict.marshal (P : Protocol C R) (env : Env) (ord : Nat → GoVal → GoVal) (fuel : Nat) (x : AnyVal) : Strict (marshal P env ord fuel x) :=
  .bind .get fun _ => .bind (.writer _) fun _ => .bind (.check _) fun _ => .bind (.writer _) fun _ => .bind (.check _) fun _ => .bind (.set fun _ => rfl) fun _ => .bind (.writer _) fun _ =>
    .bind (.check _) fun _ => .bind (.writer _) fun _ => .check _

theorem Strict.header : ∀ h : Except Err MessageHeader, Strict (header h : TM C R Unit)
  | .error _ => .fatal
  | .ok _ => .bind .get fun _ => .whenever .errorf

/-- `m` passes, from `s` to `s'`, with the result `a`. -/
def Ok (m : TM C R α) (s : State C R) (a : α) (s' : State C R) : Prop := m s = .done (some a, s') ∧ s'.failed = false

theorem bind_ok {m : TM C R α} {f : α → TM C R β} {s s' : State C R} {b : β} (h : Ok (m >>= f) s b s') (hf : ∀ a, Strict (f a)) : ∃ a s1, Ok m s a s1 ∧ Ok (f a) s1 b s' := by
  obtain ⟨h, hs⟩ := h
  change (m s).bind _ = _ at h
  cases hr : m s with
  | done x =>
    obtain ⟨a, s1⟩ := x
    rw [hr, Out.bind_done] at h
    cases a with
    | none => cases h
    | some a =>
      refine ⟨a, s1, ⟨hr, ?_⟩, h, hs⟩
      cases h1 : s1.failed with
      | false => rfl
      | true => have := ((hf a).out s1 _ s' h).1 h1; rw [hs] at this; cases this
  | _ => rw [hr] at h; cases h

theorem get_ok {s s' a : State C R} (h : Ok (get : TM C R (State C R)) s a s') : a = s ∧ s' = s := by obtain ⟨h, _⟩ := h; cases h; exact ⟨rfl, rfl⟩
theorem set_ok {f : State C R → State C R} {s s' : State C R} {a : Unit} (h : Ok (set f) s a s') : s' = f s := by obtain ⟨h, _⟩ := h; cases h; rfl
theorem pure_ok {s s' : State C R} {a b : α} (h : Ok (pure a : TM C R α) s b s') : b = a ∧ s' = s := by obtain ⟨h, _⟩ := h; cases h; exact ⟨rfl, rfl⟩
theorem errorf_ok {s s' : State C R} {a : Unit} (h : Ok (errorf : TM C R Unit) s a s') : False := by obtain ⟨h, h'⟩ := h; cases h; cases h'

theorem check_ok {e : Option Err} {s s' : State C R} {a : Unit} (h : Ok (check e : TM C R Unit) s a s') : e = none ∧ s' = s := by
  obtain ⟨h, _⟩ := h
  cases e with
  | none => cases h; exact ⟨rfl, rfl⟩
  | some e => cases h

theorem whenever_ok {c : Prop} [Decidable c] {m : TM C R Unit} {s s' : State C R} {a : Unit} (h : Ok (whenever c m) s a s') : (c ∧ Ok m s a s') ∨ (¬ c ∧ s' = s) := by
  unfold TM.whenever at h
  split at h
  · rename_i hc; exact .inl ⟨hc, h⟩
  · rename_i hc; exact .inr ⟨hc, (pure_ok h).2⟩

theorem writer_ok {f : PW C Bytes → Out (Option Err × PW C Bytes)} {s s' : State C R} {e : Option Err} (h : Ok (writer f : TM C R (Option Err)) s e s') :
    ∃ w', f (onto s.w s.b) = .done (e, w') ∧ s' = { s with w := w', b := w'.b.wr } := by
  obtain ⟨h, _⟩ := h
  unfold TM.writer at h
  cases hr : f { s.w with b := { s.w.b with wr := s.b } } with
  | done x => rw [hr] at h; cases h; exact ⟨x.2, hr, rfl⟩
  | _ => rw [hr] at h; cases h

theorem reader_ok {P : Protocol C R} {p : RProg α} {s s' : State C R} {a : α} (h : Ok (reader P p) s a s') : ∃ r', p.run P.rdr (from_ s.r s.b) = .done (a, r') ∧ s' = { s with r := r', b := left r' } := by
  obtain ⟨h, _⟩ := h
  unfold TM.reader at h
  cases hr : p.run P.rdr (s.r.1, { s.r.2 with src := bufferR s.b }) with
  | done x => rw [hr] at h; cases h; exact ⟨x.2, hr, rfl⟩
  | _ => rw [hr] at h; cases h

theorem call_ok {P : Protocol C R} {o : ROp} {s s' : State C R} {a : Except Err o.Ans} (h : Ok (reader P (.call o .ret)) s a s') :
    ∃ r', P.rdr.step o (from_ s.r s.b) = .done (a, r') ∧ s' = { s with r := r', b := left r' } := by
  obtain ⟨r', hr, hs⟩ := reader_ok h
  refine ⟨r', ?_, hs⟩
  rw [RProg.run] at hr
  cases hc : P.rdr.step o (from_ s.r s.b) with
  | done x => rw [hc] at hr; cases hr; rfl
  | _ => rw [hc] at hr; cases hr

theorem errOf_none {γ : Type} {a : Except Err γ} (h : errOf a = none) : ∃ x, a = .ok x := by
  cases a with
  | ok x => exact ⟨x, rfl⟩
  | error e => cases h

theorem marshal_ok {P : Protocol C R} {env : Env} {ord : Nat → GoVal → GoVal} {fuel : Nat} {x : AnyVal} {s s' : State C R} {a : Unit} (h : Ok (marshal P env ord fuel x) s a s') :
    ∃ w', WritesMessage P env s.msg (ordered ord s.marshals x) (onto s.w s.b) w' ∧ s' = { s with w := w', b := w'.b.wr, marshals := s.marshals + 1 } := by
  unfold marshal at h
  replace h := bind_ok h (fun _ => .bind (.writer _) fun _ => .bind (.check _) fun _ => .bind (.writer _) fun _ => .bind (.check _) fun _ => .bind (.set fun _ => rfl) fun _ =>
    .bind (.writer _) fun _ => .bind (.check _) fun _ => .bind (.writer _) fun _ => .check _)
  obtain ⟨_, _, h0, h⟩ := h
  obtain ⟨rfl, rfl⟩ := get_ok h0
  replace h := bind_ok h (fun _ => .bind (.check _) fun _ => .bind (.writer _) fun _ => .bind (.check _) fun _ => .bind (.set fun _ => rfl) fun _ =>
    .bind (.writer _) fun _ => .bind (.check _) fun _ => .bind (.writer _) fun _ => .check _)
  obtain ⟨_, _, h0, h⟩ := h
  obtain ⟨w1, h1, rfl⟩ := writer_ok h0
  replace h := bind_ok h (fun _ => .bind (.writer _) fun _ => .bind (.check _) fun _ => .bind (.set fun _ => rfl) fun _ =>
    .bind (.writer _) fun _ => .bind (.check _) fun _ => .bind (.writer _) fun _ => .check _)
  obtain ⟨_, _, h0, h⟩ := h
  obtain ⟨rfl, rfl⟩ := check_ok h0
  replace h := bind_ok h (fun _ => .bind (.check _) fun _ => .bind (.set fun _ => rfl) fun _ =>
    .bind (.writer _) fun _ => .bind (.check _) fun _ => .bind (.writer _) fun _ => .check _)
  obtain ⟨_, _, h0, h⟩ := h
  obtain ⟨w2, h2, rfl⟩ := writer_ok h0
  replace h := bind_ok h (fun _ => .bind (.set fun _ => rfl) fun _ => .bind (.writer _) fun _ => .bind (.check _) fun _ => .bind (.writer _) fun _ => .check _)
  obtain ⟨_, _, h0, h⟩ := h
  obtain ⟨rfl, rfl⟩ := check_ok h0
  replace h := bind_ok h (fun _ => .bind (.writer _) fun _ => .bind (.check _) fun _ => .bind (.writer _) fun _ => .check _)
  obtain ⟨_, _, h0, h⟩ := h
  obtain rfl := set_ok h0
  replace h := bind_ok h (fun _ => .bind (.check _) fun _ => .bind (.writer _) fun _ => .check _)
  obtain ⟨_, _, h0, h⟩ := h
  obtain ⟨w3, h3, rfl⟩ := writer_ok h0
  replace h := bind_ok h (fun _ => .bind (.writer _) fun _ => .check _)
  obtain ⟨_, _, h0, h⟩ := h
  obtain ⟨rfl, rfl⟩ := check_ok h0
  replace h := bind_ok h (fun _ => .check _)
  obtain ⟨_, _, h0, h⟩ := h
  obtain ⟨w4, h4, rfl⟩ := writer_ok h0
  obtain ⟨rfl, rfl⟩ := check_ok h
  refine ⟨w4, ⟨w1, w2, w3, h1, ⟨fuel, fun fuel' hf => ((Marshal_le env fuel fuel' hf _).run _ _).done h2⟩, h3, ?_⟩, rfl⟩
  exact Out.done.inj h4

theorem times_three {m : TM C R Unit} (hm : Strict m) {s s' : State C R} {a : Unit} (h : Ok (times m 3) s a s') : ∃ s1 s2, Ok m s () s1 ∧ Ok m s1 () s2 ∧ Ok m s2 () s' := by
  replace h := bind_ok h (fun _ => .times hm 2)
  obtain ⟨_, s1, h1, h⟩ := h
  replace h := bind_ok h (fun _ => .times hm 1)
  obtain ⟨_, s2, h2, h⟩ := h
  replace h := bind_ok h (fun _ => .times hm 0)
  obtain ⟨_, s3, h3, h⟩ := h
  obtain ⟨_, rfl⟩ := pure_ok h
  exact ⟨s1, s2, h1, h2, h3⟩

/-- What was read is written again. -/
def again (P : Protocol C R) (env : Env) (ord : Nat → GoVal → GoVal) (fuel : Nat) (x : AnyVal) (want : Bytes) : TM C R Unit := do
  set fun s => { s with b := [] }
  marshal P env ord fuel x
  whenever ((← get).b ≠ want) errorf

/-- A message is appended and skipped. -/
def skips (P : Protocol C R) (fuel : Nat) (want : Bytes) : TM C R Unit := do
  set fun s => { s with b := s.b ++ want }
  check (errOf (← reader P (.call .messageBegin .ret)))
  check (← reader P (skip fuel Ty.struct))
  check (errOf (← reader P (.call .messageEnd .ret)))

theorem Strict.again (P : Protocol C R) (env : Env) (ord : Nat → GoVal → GoVal) (fuel : Nat) (x : AnyVal) (want : Bytes) : Strict (again P env ord fuel x want) :=
  .bind (.set fun _ => rfl) fun _ => .bind (.marshal ..) fun _ => .bind .get fun _ => .whenever .errorf

theorem Strict.skips (P : Protocol C R) (fuel : Nat) (want : Bytes) : Strict (skips P fuel want) :=
  .bind (.set fun _ => rfl) fun _ => .bind (.reader ..) fun _ => .bind (.check _) fun _ => .bind (.reader ..) fun _ => .bind (.check _) fun _ => .bind (.reader ..) fun _ => .check _

theorem again_ok {P : Protocol C R} {env : Env} {ord : Nat → GoVal → GoVal} {fuel : Nat} {x : AnyVal} {want : Bytes} {s s' : State C R} {a : Unit} (h : Ok (again P env ord fuel x want) s a s') :
    ∃ w', WritesMessage P env s.msg (ordered ord s.marshals x) (onto s.w []) w' ∧ w'.b.wr = want ∧ s' = { s with w := w', b := want, marshals := s.marshals + 1 } := by
  unfold again at h
  replace h := bind_ok h (fun _ => .bind (.marshal ..) fun _ => .bind .get fun _ => .whenever .errorf)
  obtain ⟨_, _, h0, h⟩ := h
  obtain rfl := set_ok h0
  replace h := bind_ok h (fun _ => .bind .get fun _ => .whenever .errorf)
  obtain ⟨_, _, h0, h⟩ := h
  obtain ⟨w', h1, rfl⟩ := marshal_ok h0
  replace h := bind_ok h (fun _ => .whenever .errorf)
  obtain ⟨_, _, h0, h⟩ := h
  obtain ⟨rfl, rfl⟩ := get_ok h0
  rcases whenever_ok h with ⟨_, h⟩ | ⟨hw, rfl⟩
  · exact (errorf_ok h).elim
  · have hw : w'.b.wr = want := Classical.not_not.1 hw
    exact ⟨w', h1, hw, by rw [← hw]⟩

theorem skips_ok {P : Protocol C R} {fuel : Nat} {want : Bytes} {s s' : State C R} {a : Unit} (h : Ok (skips P fuel want) s a s') :
    ∃ r', SkipsMessage P (from_ s.r (s.b ++ want)) r' ∧ s' = { s with r := r', b := left r' } := by
  unfold skips at h
  replace h := bind_ok h (fun _ => .bind (.reader ..) fun _ => .bind (.check _) fun _ => .bind (.reader ..) fun _ => .bind (.check _) fun _ => .bind (.reader ..) fun _ => .check _)
  obtain ⟨_, _, h0, h⟩ := h
  obtain rfl := set_ok h0
  replace h := bind_ok h (fun _ => .bind (.check _) fun _ => .bind (.reader ..) fun _ => .bind (.check _) fun _ => .bind (.reader ..) fun _ => .check _)
  obtain ⟨_, _, h0, h⟩ := h
  obtain ⟨r1, h1, rfl⟩ := call_ok h0
  replace h := bind_ok h (fun _ => .bind (.reader ..) fun _ => .bind (.check _) fun _ => .bind (.reader ..) fun _ => .check _)
  obtain ⟨_, _, h0, h⟩ := h
  obtain ⟨he, rfl⟩ := check_ok h0
  obtain ⟨x1, rfl⟩ := errOf_none he
  replace h := bind_ok h (fun _ => .bind (.check _) fun _ => .bind (.reader ..) fun _ => .check _)
  obtain ⟨_, _, h0, h⟩ := h
  obtain ⟨r2, h2, rfl⟩ := reader_ok h0
  replace h := bind_ok h (fun _ => .bind (.reader ..) fun _ => .check _)
  obtain ⟨_, _, h0, h⟩ := h
  obtain ⟨rfl, rfl⟩ := check_ok h0
  replace h := bind_ok h (fun _ => .check _)
  obtain ⟨_, _, h0, h⟩ := h
  obtain ⟨r3, h3, rfl⟩ := call_ok h0
  obtain ⟨he, rfl⟩ := check_ok h
  obtain ⟨x3, rfl⟩ := errOf_none he
  exact ⟨r3, ⟨x1, r1, r2, x3, h1, ⟨fuel, fun fuel' hf => (((skip_le fuel fuel' hf).1 _).run _ _).done h2⟩, h3⟩, rfl⟩

theorem header_ok {h : Except Err MessageHeader} {s s' : State C R} {a : Unit} (hr : Ok (header h : TM C R Unit) s a s') : s' = s ∧ ∃ m, h = .ok m ∧ Agree m s.msg := by
  cases h with
  | error e => obtain ⟨h, _⟩ := hr; cases h
  | ok m =>
    obtain ⟨_, _, h0, h⟩ := bind_ok hr (fun _ => .whenever .errorf)
    obtain ⟨rfl, rfl⟩ := get_ok h0
    rcases whenever_ok h with ⟨_, h⟩ | ⟨hw, rfl⟩
    · exact (errorf_ok h).elim
    · refine ⟨rfl, m, rfl, ?_⟩
      simp [isMessageHeaderEqual, isMessageNameEqual] at hw
      refine ⟨hw.1, hw.2.1, ?_⟩
      exact (Classical.em _).imp_right fun h1 => (Classical.em _).imp_right fun h2 => hw.2.2 h1 h2

theorem type_range (t : Byte) : 1 ≤ (t % 4 + 1).toNat ∧ (t % 4 + 1).toNat ≤ 4 := by
  have h : (t % 4 + 1).toNat = t.toNat % 4 + 1 := by
    rw [BitVec.toNat_add, BitVec.toNat_umod]
    have : t.toNat % 4 < 4 := Nat.mod_lt _ (by omega)
    show (t.toNat % 4 + 1) % 256 = _
    omega
  omega

/-- A subtest that is not skipped. -/
def body (P : Protocol C R) (env : Env) (ord : Nat → GoVal → GoVal) (fuel : Nat) (tt : Case) : TM C R Unit := do
  set fun s => { s with msg := { name := tt.name, type := s.msg.type % 4 + 1, id := s.msg.id + 1 } }
  set fun s => { s with w := P.resetW s.w s.b }
  marshal P env ord fuel (.val tt.t tt.val)
  let want := (← get).b
  set fun s => { s with r := P.resetR s.r (bufferR s.b) }
  header (← reader P (.call .messageBegin .ret))
  let x ← reader P (Unmarshal env fuel (.val tt.p (.ptr (env.zero tt.t))))
  check x.2
  check (errOf (← reader P (.call .messageEnd .ret)))
  whenever ((← get).b.length ≠ 0) fatal
  whenever (tt.hasMap = false) (times (again P env ord fuel x.1 want) 3)
  set fun s => { s with r := P.resetR s.r (bufferR s.b) }
  times (skips P fuel want) 3
  set fun s => { s with b := [] }

theorem strict_tail {P : Protocol C R} {env : Env} {ord : Nat → GoVal → GoVal} {fuel : Nat} {tt : Case} {want : Bytes} {x : AnyVal} : Strict (do
    whenever ((← get).b.length ≠ 0) fatal
    whenever (tt.hasMap = false) (times (ThriftTest.again P env ord fuel x want) 3)
    set fun s => { s with r := P.resetR s.r (bufferR s.b) }
    times (ThriftTest.skips P fuel want) 3
    set fun s => { s with b := [] } : TM C R Unit) :=
  .bind .get fun _ => .bind (.whenever .fatal) fun _ => .bind (.whenever (.times (.again ..) 3)) fun _ => .bind (.set fun _ => rfl) fun _ => .bind (.times (.skips ..) 3) fun _ => .set fun _ => rfl

theorem strict_reading {P : Protocol C R} {env : Env} {ord : Nat → GoVal → GoVal} {fuel : Nat} {tt : Case} {want : Bytes} : Strict (do
    header (← reader P (.call .messageBegin .ret))
    let x ← reader P (Unmarshal env fuel (.val tt.p (.ptr (env.zero tt.t))))
    check x.2
    check (errOf (← reader P (.call .messageEnd .ret)))
    whenever ((← get).b.length ≠ 0) fatal
    whenever (tt.hasMap = false) (times (ThriftTest.again P env ord fuel x.1 want) 3)
    set fun s => { s with r := P.resetR s.r (bufferR s.b) }
    times (ThriftTest.skips P fuel want) 3
    set fun s => { s with b := [] } : TM C R Unit) :=
  .bind (.reader ..) fun _ => .bind (.header _) fun _ => .bind (.reader ..) fun _ => .bind (.check _) fun _ => .bind (.reader ..) fun _ => .bind (.check _) fun _ => strict_tail

theorem Strict.body (P : Protocol C R) (env : Env) (ord : Nat → GoVal → GoVal) (fuel : Nat) (tt : Case) : Strict (body P env ord fuel tt) :=
  .bind (.set fun _ => rfl) fun _ => .bind (.set fun _ => rfl) fun _ => .bind (.marshal ..) fun _ => .bind .get fun _ => .bind (.set fun _ => rfl) fun _ => strict_reading

theorem body_ok {P : Protocol C R} {env : Env} {ord : Nat → GoVal → GoVal} {fuel : Nat} {tt : Case} {s s' : State C R} {a : Unit} (hb : s.b = []) (h : Ok (body P env ord fuel tt) s a s') :
    Passed P env ord tt ∧ s'.b = [] := by
  unfold body at h
  replace h := bind_ok h (fun _ => .bind (.set fun _ => rfl) fun _ => .bind (.marshal ..) fun _ => .bind .get fun _ => .bind (.set fun _ => rfl) fun _ => strict_reading)
  obtain ⟨_, _, h0, h⟩ := h
  obtain rfl := set_ok h0
  replace h := bind_ok h (fun _ => .bind (.marshal ..) fun _ => .bind .get fun _ => .bind (.set fun _ => rfl) fun _ => strict_reading)
  obtain ⟨_, _, h0, h⟩ := h
  obtain rfl := set_ok h0
  replace h := bind_ok h (fun _ => .bind .get fun _ => .bind (.set fun _ => rfl) fun _ => strict_reading)
  obtain ⟨_, _, h0, h⟩ := h
  obtain ⟨w1, hw1, rfl⟩ := marshal_ok h0
  replace h := bind_ok h (fun _ => .bind (.set fun _ => rfl) fun _ => strict_reading)
  obtain ⟨_, _, h0, h⟩ := h
  obtain ⟨rfl, rfl⟩ := get_ok h0
  replace h := bind_ok h (fun _ => strict_reading)
  obtain ⟨_, _, h0, h⟩ := h
  obtain rfl := set_ok h0
  replace h := bind_ok h (fun _ => .bind (.header _) fun _ => .bind (.reader ..) fun _ => .bind (.check _) fun _ => .bind (.reader ..) fun _ => .bind (.check _) fun _ => strict_tail)
  obtain ⟨_, _, h0, h⟩ := h
  obtain ⟨r1, h1, rfl⟩ := call_ok h0
  replace h := bind_ok h (fun _ => .bind (.reader ..) fun _ => .bind (.check _) fun _ => .bind (.reader ..) fun _ => .bind (.check _) fun _ => strict_tail)
  obtain ⟨_, _, h0, h⟩ := h
  obtain ⟨rfl, m, rfl, hm⟩ := header_ok h0
  replace h := bind_ok h (fun _ => .bind (.check _) fun _ => .bind (.reader ..) fun _ => .bind (.check _) fun _ => strict_tail)
  obtain ⟨x, _, h0, h⟩ := h
  obtain ⟨r2, h2, rfl⟩ := reader_ok h0
  obtain ⟨x, ex⟩ := x
  replace h := bind_ok h (fun _ => .bind (.reader ..) fun _ => .bind (.check _) fun _ => strict_tail)
  obtain ⟨_, _, h0, h⟩ := h
  obtain ⟨hex, rfl⟩ := check_ok h0
  obtain rfl : ex = none := hex
  replace h := bind_ok h (fun _ => .bind (.check _) fun _ => strict_tail)
  obtain ⟨_, _, h0, h⟩ := h
  obtain ⟨r3, h3, rfl⟩ := call_ok h0
  replace h := bind_ok h (fun _ => strict_tail)
  obtain ⟨_, _, h0, h⟩ := h
  obtain ⟨he, rfl⟩ := check_ok h0
  obtain ⟨x3, rfl⟩ := errOf_none he
  replace h := bind_ok h (fun _ => .bind (.whenever .fatal) fun _ => .bind (.whenever (.times (.again ..) 3)) fun _ => .bind (.set fun _ => rfl) fun _ => .bind (.times (.skips ..) 3) fun _ => .set fun _ => rfl)
  obtain ⟨_, _, h0, h⟩ := h
  obtain ⟨rfl, rfl⟩ := get_ok h0
  replace h := bind_ok h (fun _ => .bind (.whenever (.times (.again ..) 3)) fun _ => .bind (.set fun _ => rfl) fun _ => .bind (.times (.skips ..) 3) fun _ => .set fun _ => rfl)
  obtain ⟨_, _, h0, h⟩ := h
  rcases whenever_ok h0 with ⟨_, h0⟩ | ⟨hn, rfl⟩
  · obtain ⟨h0, _⟩ := h0; cases h0
  have hleft : left r3 = [] := List.eq_nil_of_length_eq_zero (Classical.not_not.1 hn)
  replace h := bind_ok h (fun _ => .bind (.set fun _ => rfl) fun _ => .bind (.times (.skips ..) 3) fun _ => .set fun _ => rfl)
  obtain ⟨_, s4, h0, h⟩ := h
  replace h := bind_ok h (fun _ => .bind (.times (.skips ..) 3) fun _ => .set fun _ => rfl)
  obtain ⟨_, s5, h5, h⟩ := h
  obtain rfl := set_ok h5
  replace h := bind_ok h (fun _ => .set fun _ => rfl)
  obtain ⟨_, s6, h6, h⟩ := h
  obtain rfl := set_ok h
  obtain ⟨s7, s8, k1, k2, k3⟩ := times_three (.skips ..) h6
  obtain ⟨q1, kk1, rfl⟩ := skips_ok k1
  obtain ⟨q2, kk2, rfl⟩ := skips_ok k2
  obtain ⟨q3, kk3, rfl⟩ := skips_ok k3
  refine ⟨?_, rfl⟩
  rw [hb] at hw1
  obtain ⟨t1, t2⟩ := type_range s.msg.type
  have hread : ReadsMessage P env m (.val tt.p (.ptr (env.zero tt.t))) x (from_ (P.resetR s.r (bufferR w1.b.wr)) w1.b.wr) r3 :=
    ⟨r1, r2, x3, h1, ⟨fuel, fun fuel' hf => ((Unmarshal_le env fuel fuel' hf _).run _ _).done h2⟩, h3⟩
  refine ⟨s.marshals, _, m, w1.b.wr, x, s.w, w1, s.r, r3, rfl, t1, t2, hw1, rfl, hread, hm, hleft, ?_⟩
  rcases whenever_ok h0 with ⟨hmap, h0⟩ | ⟨hmap, rfl⟩
  · obtain ⟨s9, s10, j1, j2, j3⟩ := times_three (.again ..) h0
    obtain ⟨w2, jj1, e1, rfl⟩ := again_ok j1
    obtain ⟨w3, jj2, e2, rfl⟩ := again_ok j2
    obtain ⟨w4, jj3, e3, rfl⟩ := again_ok j3
    exact ⟨fun _ => ⟨w2, w3, w4, jj1, e1, jj2, e2, jj3, e3⟩, w1.b.wr, q1, q2, q3, by simp [hmap], kk1, kk2, kk3⟩
  · have hmap : tt.hasMap = true := by simpa using hmap
    refine ⟨fun h => (by rw [hmap] at h; cases h), [], q1, q2, q3, by simp [hmap], ?_, kk2, kk3⟩
    have := kk1
    simp only [hleft] at this
    exact this

theorem subtest_run (P : Protocol C R) (env : Env) (ord : Nat → GoVal → GoVal) (fuel : Nat) (uuid : Bool) (tt : Case) (s : State C R) : subtest P env ord fuel uuid tt s =
    if tt.hasUUID = true ∧ uuid = false then .done (none, s) else body P env ord fuel tt s := by
  unfold subtest
  change (whenever _ _ s).bind _ = _
  unfold TM.whenever
  split <;> rfl

theorem subtests_failed {P : Protocol C R} {env : Env} {ord : Nat → GoVal → GoVal} {fuel : Nat} {uuid : Bool} : ∀ {l : List Case} {s s' : State C R}, subtests P env ord fuel uuid l s = .done s' →
    s.failed = true → s'.failed = true
  | [], s, s', h, hf => by cases h; exact hf
  | tt :: l, s, s', h, hf => by
    rw [subtests, subtest_run] at h
    split at h
    · exact subtests_failed h hf
    · cases hr : body P env ord fuel tt s with
      | done x =>
        rw [hr] at h
        exact subtests_failed h (((Strict.body P env ord fuel tt).out s x.1 x.2 hr).1 hf)
      | _ => rw [hr] at h; cases h

theorem subtests_ok {P : Protocol C R} {env : Env} {ord : Nat → GoVal → GoVal} {fuel : Nat} {uuid : Bool} : ∀ {l : List Case} {s s' : State C R}, subtests P env ord fuel uuid l s = .done s' →
    s'.failed = false → s.b = [] → ∀ tt ∈ l, (tt.hasUUID = true → uuid = true) → Passed P env ord tt
  | [], s, s', _, _, _, _, hm, _ => by cases hm
  | t :: l, s, s', h, hf, hb, tt, hm, hu => by
    rw [subtests, subtest_run] at h
    split at h
    · rename_i hsk
      rcases List.mem_cons.1 hm with rfl | hm
      · have := hu hsk.1; rw [hsk.2] at this; cases this
      · exact subtests_ok h hf hb tt hm hu
    · cases hr : body P env ord fuel t s with
      | done x =>
        obtain ⟨r, s1⟩ := x
        rw [hr] at h
        have hs1 : s1.failed = false := by
          cases h1 : s1.failed with
          | false => rfl
          | true => have := subtests_failed h h1; rw [hf] at this; cases this
        have hr' : ∃ a, r = some a := by
          cases r with
          | some a => exact ⟨a, rfl⟩
          | none => have := ((Strict.body P env ord fuel t).out s none s1 hr).2 rfl; rw [hs1] at this; cases this
        obtain ⟨a, rfl⟩ := hr'
        obtain ⟨hp, hb'⟩ := body_ok hb ⟨hr, hs1⟩
        rcases List.mem_cons.1 hm with rfl | hm
        · exact hp
        · exact subtests_ok h hf hb' tt hm hu
      | _ => rw [hr] at h; cases h

theorem testProtocol_ok {P : Protocol C R} {env : Env} {ord : Nat → GoVal → GoVal} {fuel : Nat} {uuid : Bool} {table : List Case} (h : testProtocol P env ord fuel uuid table = .done true) :
    ∀ tt ∈ table, (tt.hasUUID = true → uuid = true) → Passed P env ord tt := by
  unfold testProtocol at h
  cases hs : subtests P env ord fuel uuid table ⟨⟨[], 0, 0⟩, [], P.newW [], P.newR (bufferR []), 0, false⟩ with
  | done s' =>
    rw [hs, Out.bind_done] at h
    have : s'.failed = false := by have := Out.done.inj h; simpa using this
    exact subtests_ok hs this rfl
  | _ => rw [hs] at h; cases h

end GoThrift.ThriftTest
