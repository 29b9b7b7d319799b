import Verif.Proof.Tame
import Verif.Proof.Holds
import Verif.Spec.Counted

/-!
# Skip on arbitrary bytes

`Metered`: a reader whose successful calls use up a resource `Φ` (bytes left). Skip of anything on such a reader returns, with a number of
calls proportional to the resource.
-/

namespace GoThrift

open Spec

variable {S C : Type}

/-- Calls return, and a successful call that reads data lowers `Φ`. -/
def Metered (r : Rdr S) (Good : S → Prop) (Φ : S → Nat) : Prop :=
  ∀ (o : ROp) (s : S), Good s → ∃ x s', r.step o s = .done (x, s') ∧ Good s' ∧ ∀ a, x = .ok a → Φ s' + o.least ≤ Φ s

/-- From state `s`, `mk fuel` returns for every `fuel ≥ K`, with the same result, and makes `k` calls; `b` calls are already spent. -/
def Bounded (r : Rdr S) (Good : S → Prop) (Φ : S → Nat) (b K : Nat) (mk : Nat → RProg (Option Err)) (s : S) : Prop :=
  ∃ x s' k, (∀ fuel, K ≤ fuel → ∀ n, (mk fuel).run (counted r) (s, n) = .done (x, (s', n + k))) ∧ Good s' ∧
    (x = none → Φ s' < Φ s ∧ k + b + 3 * Φ s' ≤ 3 * Φ s) ∧ k + b ≤ 3 * Φ s + 2

variable {r : Rdr S} {Good : S → Prop} {Φ : S → Nat}

theorem counted_step {o : ROp} {s s' : S} {x : Except Err o.Ans} (h : r.step o s = .done (x, s')) (n : Nat) :
    (counted r).step o (s, n) = .done (x, (s', n + 1)) := by
  simp [counted, h]

theorem run_last_counted {o : ROp} {s s' : S} {x : Except Err o.Ans} (h : r.step o s = .done (x, s')) (n : Nat) :
    (RProg.last o).run (counted r) (s, n) = .done (errOf x, (s', n + 1)) := by
  rw [RProg.last, RProg.run, counted_step h]
  cases x <;> rfl

theorem run_try'_counted {o : ROp} {s s' : S} {x : Except Err o.Ans} (h : r.step o s = .done (x, s')) (n : Nat)
    (k : o.Ans → RProg (Option Err)) :
    (RProg.try' o k).run (counted r) (s, n) = match x with
      | .ok a => (k a).run (counted r) (s', n + 1)
      | .error e => .done (some e, (s', n + 1)) := by
  rw [RProg.try', RProg.run, counted_step h]
  cases x <;> rfl

/-- A leaf. -/
theorem bounded_last (hm : Metered r Good Φ) (o : ROp) (ho : o.least = 1) (K : Nat) (s : S) (hs : Good s) :
    Bounded r Good Φ 0 K (fun _ => RProg.last o) s := by
  obtain ⟨x, s', h1, h2, h3⟩ := hm o s hs
  refine ⟨_, s', 1, fun fuel _ n => run_last_counted h1 n, h2, fun h => ?_, by omega⟩
  cases x with
  | error e => cases h
  | ok a => have := h3 a rfl; omega

/-- A loop of value skips followed by the closing call; two calls (header and end) are paid by the header. -/
theorem bounded_loop (hm : Metered r Good Φ) (o : ROp) (K M : Nat) (body : Nat → RProg (Option Err))
    (hb : ∀ s, Good s → Φ s ≤ M → Bounded r Good Φ 0 K body s) (i : Nat) (s : S) (hs : Good s) (hM : Φ s ≤ M) :
    ∃ x s' k, (∀ fuel, K ≤ fuel → ∀ n, (RProg.loop i (body fuel) (RProg.last o)).run (counted r) (s, n) = .done (x, (s', n + k))) ∧
      Good s' ∧ (x = none → Φ s' ≤ Φ s ∧ k + 3 * Φ s' ≤ 3 * Φ s + 1) ∧ k ≤ 3 * Φ s + 2 := by
  induction i generalizing s with
  | zero =>
    obtain ⟨x, s', h1, h2, h3⟩ := hm o s hs
    refine ⟨_, s', 1, fun fuel _ n => run_last_counted h1 n, h2, fun h => ?_, by omega⟩
    cases x with
    | error e => cases h
    | ok a => have := h3 a rfl; omega
  | succ i ih =>
    obtain ⟨x, s1, k1, h1, g1, h2, h3⟩ := hb s hs hM
    cases x with
    | some e =>
      refine ⟨some e, s1, k1, fun fuel hf n => ?_, g1, fun h => (by cases h), by omega⟩
      rw [RProg.loop, RProg.andThen, RProg.run_bind, h1 fuel hf]; rfl
    | none =>
      obtain ⟨h4, h5⟩ := h2 rfl
      obtain ⟨x2, s2, k2, i1, g2, i2, i3⟩ := ih s1 g1 (by omega)
      refine ⟨x2, s2, k1 + k2, fun fuel hf n => ?_, g2, fun h => ?_, by omega⟩
      · rw [RProg.loop, RProg.andThen, RProg.run_bind, h1 fuel hf]
        have := i1 fuel hf (n + k1)
        rw [Nat.add_assoc] at this
        exact this
      · have := i2 h; omega

/-- A container: header call, loop, closing call. -/
theorem bounded_container (hm : Metered r Good Φ) (o oe : ROp) (ho : o.least = 1) (K : Nat) (s : S) (hs : Good s)
    (count : o.Ans → Nat) (body : o.Ans → Nat → RProg (Option Err))
    (hb : ∀ h s, Good s → Φ s + 1 ≤ Φ s0 → Bounded r Good Φ 0 K (body h) s) (h0 : s0 = s) :
    Bounded r Good Φ 0 K (fun fuel => RProg.try' o fun h => RProg.loop (count h) (body h fuel) (RProg.last oe)) s := by
  subst h0
  obtain ⟨x, s', h1, h2, h3⟩ := hm o s0 hs
  cases x with
  | error e =>
    refine ⟨some e, s', 1, fun fuel _ n => run_try'_counted h1 n _, h2, fun h => (by cases h), by omega⟩
  | ok a =>
    have h4 := h3 a rfl
    obtain ⟨x2, s2, k2, i1, g2, i2, i3⟩ := bounded_loop hm oe K (Φ s') (body a) (fun s hs hle => hb a s hs (by omega)) (count a) s' h2
      (Nat.le_refl _)
    refine ⟨x2, s2, 1 + k2, fun fuel hf n => ?_, g2, fun h => ?_, by omega⟩
    · have := i1 fuel hf (n + 1)
      rw [Nat.add_assoc] at this
      rw [run_try'_counted h1 n]
      exact this
    · have := i2 h; omega

theorem bounded_andThen (K : Nat) (p q : Nat → RProg (Option Err)) (s : S) (hp : Bounded r Good Φ 0 K p s)
    (hq : ∀ s', Good s' → Φ s' ≤ Φ s → Bounded r Good Φ 0 K q s') :
    Bounded r Good Φ 0 K (fun fuel => (p fuel).andThen (q fuel)) s := by
  obtain ⟨x, s1, k1, h1, g1, h2, h3⟩ := hp
  cases x with
  | some e =>
    refine ⟨some e, s1, k1, fun fuel hf n => ?_, g1, fun h => (by cases h), by omega⟩
    simp only [RProg.andThen]
    rw [RProg.run_bind, h1 fuel hf]; rfl
  | none =>
    obtain ⟨h4, h5⟩ := h2 rfl
    obtain ⟨x2, s2, k2, i1, g2, i2, i3⟩ := hq s1 g1 (by omega)
    refine ⟨x2, s2, k1 + k2, fun fuel hf n => ?_, g2, fun h => ?_, by omega⟩
    · simp only [RProg.andThen]
      rw [RProg.run_bind, h1 fuel hf]
      have := i1 fuel hf (n + k1)
      rw [Nat.add_assoc] at this
      exact this
    · have := i2 h; omega

theorem Bounded.mono {b K K' : Nat} {mk : Nat → RProg (Option Err)} {s : S} (h : Bounded r Good Φ b K mk s) (hK : K ≤ K') :
    Bounded r Good Φ b K' mk s := by
  obtain ⟨x, s', k, h1, h2⟩ := h
  exact ⟨x, s', k, fun fuel hf => h1 fuel (Nat.le_trans hK hf), h2⟩

theorem Bounded.succ {b K : Nat} {mk mk' : Nat → RProg (Option Err)} {s : S} (h : Bounded r Good Φ b K mk s)
    (he : ∀ fuel, mk' (fuel + 1) = mk fuel) : Bounded r Good Φ b (K + 1) mk' s := by
  obtain ⟨x, s', k, h1, h2⟩ := h
  refine ⟨x, s', k, fun fuel hf n => ?_, h2⟩
  obtain ⟨f, rfl⟩ := Nat.exists_eq_add_of_le' hf
  show (mk' (f + K + 1)).run (counted r) (s, n) = _
  rw [he (f + K)]
  exact h1 _ (by omega) n

/-- The field loop. -/
theorem bounded_fields (hm : Metered r Good Φ) (N : Nat)
    (ih : ∀ s, Good s → Φ s < N → ∀ t, Bounded r Good Φ 0 (2 * Φ s + 2) (fun f => skip f t) s) :
    ∀ m s, Good s → Φ s = m → m ≤ N → Bounded r Good Φ 1 (2 * Φ s + 1) skipFields s := by
  intro m
  induction m using Nat.strongRecOn with
  | ind m ihm =>
  intro s hs hm1 hN
  subst hm1
  refine Bounded.succ (mk := fun fuel => RProg.try' .fieldBegin fun h => if h.type = Ty.stop then RProg.last .structEnd
      else (skip fuel h.type).andThen (RProg.try' .fieldEnd fun _ => skipFields fuel)) ?_ (fun fuel => by rw [skipFields])
  obtain ⟨x, s', h1, h2, h3⟩ := hm .fieldBegin s hs
  cases x with
  | error e => exact ⟨some e, s', 1, fun fuel _ n => run_try'_counted h1 n _, h2, fun h => (by cases h), by omega⟩
  | ok h =>
    have h4 : Φ s' + 1 ≤ Φ s := h3 h rfl
    by_cases hst : h.type = Ty.stop
    · obtain ⟨y, s2, j1, j2, j3⟩ := hm .structEnd s' h2
      have hrun : ∀ fuel n, (RProg.try' .fieldBegin fun h => if h.type = Ty.stop then RProg.last .structEnd
          else (skip fuel h.type).andThen (RProg.try' .fieldEnd fun _ => skipFields fuel)).run (counted r) (s, n) =
          .done (errOf y, (s2, n + 2)) := by
        intro fuel n
        rw [run_try'_counted h1 n]
        dsimp only
        rw [if_pos hst, run_last_counted j1]
      cases y with
      | error e => exact ⟨some e, s2, 2, fun fuel _ n => hrun fuel n, j2, fun h => (by cases h), by omega⟩
      | ok a =>
        have : Φ s2 + 0 ≤ Φ s' := j3 a rfl
        exact ⟨none, s2, 2, fun fuel _ n => hrun fuel n, j2, fun _ => by omega, by omega⟩
    · obtain ⟨y, s2, k2, j1, g2, j2, j3⟩ := ih s' h2 (by omega) h.type
      cases y with
      | some e =>
        refine ⟨some e, s2, 1 + k2, fun fuel hf n => ?_, g2, fun h => (by cases h), by omega⟩
        rw [run_try'_counted h1 n]
        dsimp only
        rw [if_neg hst, RProg.andThen, RProg.run_bind, j1 fuel (by omega)]
        simp only [Out.bind_done, RProg.run, Nat.add_assoc]
      | none =>
        obtain ⟨j4, j5⟩ := j2 rfl
        obtain ⟨z, s3, l1, l2, l3⟩ := hm .fieldEnd s2 g2
        cases z with
        | error e =>
          refine ⟨some e, s3, 1 + k2 + 1, fun fuel hf n => ?_, l2, fun h => (by cases h), by omega⟩
          rw [run_try'_counted h1 n]
          dsimp only
          rw [if_neg hst, RProg.andThen, RProg.run_bind, j1 fuel (by omega)]
          simp only [Out.bind_done]
          rw [run_try'_counted l1]
          simp only [Nat.add_assoc]
        | ok u =>
          have l4 : Φ s3 + 0 ≤ Φ s2 := l3 u rfl
          obtain ⟨w, s4, k4, m1, g4, m2, m3⟩ := ihm (Φ s3) (by omega) s3 l2 rfl (by omega)
          refine ⟨w, s4, 1 + k2 + 1 + k4, fun fuel hf n => ?_, g4, fun h => ?_, by omega⟩
          · rw [run_try'_counted h1 n]
            dsimp only
            rw [if_neg hst, RProg.andThen, RProg.run_bind, j1 fuel (by omega)]
            simp only [Out.bind_done]
            rw [run_try'_counted l1]
            dsimp only
            rw [m1 fuel (by omega)]
            simp only [Nat.add_assoc]
          · have := m2 h; omega

/-- Skip on a metered reader. -/
theorem bounded_skip (hm : Metered r Good Φ) : ∀ m s, Good s → Φ s = m → ∀ t,
    Bounded r Good Φ 0 (2 * Φ s + 2) (fun f => skip f t) s := by
  intro m
  induction m using Nat.strongRecOn with
  | ind m ih =>
  intro s hs hm1 t
  subst hm1
  have ih' : ∀ s', Good s' → Φ s' < Φ s → ∀ t, Bounded r Good Φ 0 (2 * Φ s' + 2) (fun f => skip f t) s' :=
    fun s' hs' hlt t => ih (Φ s') hlt s' hs' rfl t
  have hle : ∀ s', Good s' → Φ s' + 1 ≤ Φ s → ∀ t, Bounded r Good Φ 0 (2 * Φ s + 1) (fun f => skip f t) s' :=
    fun s' hs' hlt t => (ih' s' hs' (by omega) t).mono (by omega)
  have leaf : ∀ o : ROp, o.least = 1 → (∀ fuel, skip (fuel + 1) t = RProg.last o) →
      Bounded r Good Φ 0 (2 * Φ s + 2) (fun f => skip f t) s := fun o ho he =>
    (bounded_last hm o ho (2 * Φ s + 1) s hs).succ he
  by_cases h1 : t = Ty.bool
  · subst h1; exact leaf .bool rfl fun fuel => by rw [skip]; simp
  by_cases h2 : t = Ty.byte
  · subst h2; exact leaf .byte rfl fun fuel => by rw [skip]; simp [h1]
  by_cases h3 : t = Ty.double
  · subst h3; exact leaf .double rfl fun fuel => by rw [skip]; simp [h1, h2]
  by_cases h4 : t = Ty.i16
  · subst h4; exact leaf .i16 rfl fun fuel => by rw [skip]; simp [h1, h2, h3]
  by_cases h5 : t = Ty.i32
  · subst h5; exact leaf .i32 rfl fun fuel => by rw [skip]; simp [h1, h2, h3, h4]
  by_cases h6 : t = Ty.i64
  · subst h6; exact leaf .i64 rfl fun fuel => by rw [skip]; simp [h1, h2, h3, h4, h5]
  by_cases h7 : t = Ty.string
  · subst h7; exact leaf .skipString rfl fun fuel => by rw [skip]; simp [h1, h2, h3, h4, h5, h6]
  by_cases h8 : t = Ty.struct
  · subst h8
    refine Bounded.succ (K := 2 * Φ s + 1) (mk := fun fuel => RProg.try' .structBegin fun _ => skipFields fuel) ?_
      (fun fuel => by rw [skip]; simp [h1, h2, h3, h4, h5, h6, h7])
    obtain ⟨x, s', i1, i2, i3⟩ := hm .structBegin s hs
    cases x with
    | error e => exact ⟨some e, s', 1, fun fuel _ n => run_try'_counted i1 n _, i2, fun h => (by cases h), by omega⟩
    | ok a =>
      have i4 : Φ s' + 0 ≤ Φ s := i3 a rfl
      obtain ⟨x2, s2, k2, j1, g2, j2, j3⟩ := bounded_fields hm (Φ s) ih' (Φ s') s' i2 rfl i4
      refine ⟨x2, s2, 1 + k2, fun fuel hf n => ?_, g2, fun h => ?_, by omega⟩
      · rw [run_try'_counted i1 n]
        dsimp only
        rw [j1 fuel (by omega), Nat.add_assoc]
      · have := j2 h; omega
  by_cases h9 : t = Ty.map
  · subst h9
    exact (bounded_container hm .mapBegin .mapEnd rfl (2 * Φ s + 1) s hs (fun h => loopCount h.size)
      (fun h fuel => (skip fuel h.key).andThen (skip fuel h.value))
      (fun h s' hs' hlt => bounded_andThen _ _ _ _ (hle s' hs' hlt _) fun s2 hs2 hlt2 => hle s2 hs2 (by omega) _) rfl).succ
        (fun fuel => by rw [skip]; simp [h1, h2, h3, h4, h5, h6, h7, h8])
  by_cases h10 : t = Ty.set
  · subst h10
    exact (bounded_container hm .setBegin .setEnd rfl (2 * Φ s + 1) s hs (fun h => loopCount h.size) (fun h fuel => skip fuel h.element)
      (fun h s' hs' hlt => hle s' hs' hlt _) rfl).succ (fun fuel => by rw [skip]; simp [h1, h2, h3, h4, h5, h6, h7, h8, h9])
  by_cases h11 : t = Ty.list
  · subst h11
    exact (bounded_container hm .listBegin .listEnd rfl (2 * Φ s + 1) s hs (fun h => loopCount h.size) (fun h fuel => skip fuel h.element)
      (fun h s' hs' hlt => hle s' hs' hlt _) rfl).succ (fun fuel => by rw [skip]; simp [h1, h2, h3, h4, h5, h6, h7, h8, h9, h10])
  by_cases h12 : t = Ty.uuid
  · subst h12; exact leaf .skipUUID rfl fun fuel => by rw [skip]; simp [h1, h2, h3, h4, h5, h6, h7, h8, h9, h10, h11]
  refine Bounded.succ (K := 2 * Φ s + 1) (mk := fun fuel => .ret (some (.invalidType t))) ?_
    (fun fuel => by rw [skip]; simp [h1, h2, h3, h4, h5, h6, h7, h8, h9, h10, h11, h12])
  exact ⟨some (.invalidType t), s, 0, fun _ _ _ => rfl, hs, fun h => (by cases h), by omega⟩

/-! ## From the methods to the readers -/

/-- The reader whose methods are `impl`. -/
def mkReader (impl : (o : ROp) → RM C o.Ans) : Rdr (C × Flat) where
  step o s := ((impl o).run s.1 s.2).bind fun r => .done (r.1.1, (r.1.2, r.2))

/-- `Tame` for all methods. -/
def TameReader (r : Rdr (C × Flat)) (J : ROp → C → C → Nat → Prop) : Prop :=
  ∀ (o : ROp) (size : Nat), 16 ≤ size → ∀ (c : C) (bytes : Bytes) (e : Err),
    ∃ (x : Except Err o.Ans) (c' : C) (used rest : Bytes), bytes = used ++ rest ∧
      r.step o (c, ⟨size, bytes, .err e⟩) = .done (x, (c', ⟨size, rest, .err e⟩)) ∧
      ∀ a, x = .ok a → J o c c' used.length ∧
        ∀ q e', r.step o (c, ⟨size, used ++ q, .err e'⟩) = .done (.ok a, (c', ⟨size, q, .err e'⟩))

theorem tameReader {J : ROp → C → C → Nat → Prop} (impl : (o : ROp) → RM C o.Ans) (h : ∀ o, Tame (J o) (impl o)) :
    TameReader (mkReader impl) J := by
  intro o size hs c bytes e
  obtain ⟨x, c', used, rest, h1, h2, h3⟩ := h o size hs c bytes e
  refine ⟨x, c', used, rest, h1, ?_, fun a ha => ⟨(h3 a ha).1, fun q e' => ?_⟩⟩
  · show ((impl o).run c ⟨size, bytes, .err e⟩).bind _ = _
    rw [h2]; rfl
  · show ((impl o).run c ⟨size, used ++ q, .err e'⟩).bind _ = _
    rw [(h3 a ha).2]; rfl

theorem Binary.tameReader (strict : Bool) : TameReader (reader strict) fun o => Jk o.least :=
  GoThrift.tameReader (impl strict) (tame strict)

theorem Compact.tameReader : TameReader reader JC := GoThrift.tameReader impl tame

/-- A stream that ends, seen through a buffer of at least 16 bytes. -/
def Ends (s : C × Flat) : Prop := 16 ≤ s.2.size ∧ ∃ e, s.2.fin = .err e

theorem metered_of_tame {r : Rdr (C × Flat)} {J : ROp → C → C → Nat → Prop} (pend : C → Nat) (ht : TameReader r J)
    (hJ : ∀ o c c' n, J o c c' n → pend c' + o.least ≤ 2 * n + pend c) :
    Metered r Ends fun s => 2 * s.2.bytes.length + pend s.1 := by
  rintro o ⟨c, ⟨size, bytes, fin⟩⟩ ⟨hs, e, rfl⟩
  obtain ⟨x, c', used, rest, h1, h2, h3⟩ := ht o size hs c bytes e
  refine ⟨x, _, h2, ⟨hs, e, rfl⟩, fun a ha => ?_⟩
  have := hJ _ _ _ _ (h3 a ha).1
  simp only [h1, List.length_append]
  omega

theorem Binary.metered (strict : Bool) : Metered (reader strict) Ends fun s => 2 * s.2.bytes.length + 0 :=
  metered_of_tame (fun _ => 0) (tameReader strict) fun o c c' n h => by have := h.2; omega

theorem Compact.metered : Metered reader Ends fun s => 2 * s.2.bytes.length + pending s.1 :=
  metered_of_tame pending tameReader fun _ _ _ _ h => h.1

/-! ## Failing fast -/

/-- After a failed call the program returns at once; the result is related to the error by `bad`. -/
def FailFast {α : Type} (bad : Err → α → Prop) : RProg α → Prop
  | .ret _ | .diverge | .panic => True
  | .call _ k => (∀ e, ∃ a, k (.error e) = .ret a ∧ bad e a) ∧ ∀ a, FailFast bad (k (.ok a))

/-- A fail-fast program that returned a good result read a prefix of the stream, and returns the same on every stream starting with that
prefix. -/
theorem replay {α : Type} {bad : Err → α → Prop} {r : Rdr (C × Flat)} {J : ROp → C → C → Nat → Prop} (ht : TameReader r J)
    (p : RProg α) (hp : FailFast bad p) (size : Nat) (hs : 16 ≤ size) (c : C) (bytes : Bytes) (e : Err) (a : α)
    (s' : C × Flat) (hrun : p.run r (c, ⟨size, bytes, .err e⟩) = .done (a, s')) (ha : ∀ e, ¬ bad e a) :
    ∃ used rest c', bytes = used ++ rest ∧ s' = (c', ⟨size, rest, .err e⟩) ∧
      ∀ q e', p.run r (c, ⟨size, used ++ q, .err e'⟩) = .done (a, (c', ⟨size, q, .err e'⟩)) := by
  induction p generalizing c bytes with
  | ret b => cases hrun; exact ⟨[], bytes, c, rfl, rfl, fun q e' => rfl⟩
  | diverge => cases hrun
  | panic => cases hrun
  | call o k ih =>
    obtain ⟨x, c1, used, rest, h1, h2, h3⟩ := ht o size hs c bytes e
    rw [RProg.run, h2, Out.bind_done] at hrun
    cases x with
    | error err =>
      obtain ⟨b, hb, hbad⟩ := hp.1 err
      rw [hb] at hrun
      cases hrun
      exact absurd hbad (ha err)
    | ok v =>
      obtain ⟨used2, rest2, c2, g1, g2, g3⟩ := ih (.ok v) (hp.2 v) c1 rest hrun
      refine ⟨used ++ used2, rest2, c2, by rw [h1, g1, List.append_assoc], g2, fun q e' => ?_⟩
      rw [RProg.run, List.append_assoc, (h3 v rfl).2, Out.bind_done]
      exact g3 q e'

theorem FailFast.bind {α β : Type} {bad : Err → α → Prop} {bad' : Err → β → Prop} {p : RProg α} {f : α → RProg β}
    (hp : FailFast bad p) (hf : ∀ a, FailFast bad' (f a)) (hb : ∀ e a, bad e a → ∃ b, f a = .ret b ∧ bad' e b) :
    FailFast bad' (p.bind f) := by
  induction p with
  | ret a => exact hf a
  | diverge => trivial
  | panic => trivial
  | call o k ih =>
    refine ⟨fun e => ?_, fun a => ih (.ok a) (hp.2 a)⟩
    obtain ⟨a, h1, h2⟩ := hp.1 e
    obtain ⟨b, h3, h4⟩ := hb e a h2
    exact ⟨b, by show (k (.error e)).bind f = _; rw [h1]; exact h3, h4⟩

/-- Returning exactly the error of the failed call. -/
def Same (e : Err) (x : Option Err) : Prop := x = some e

theorem FailFast.last (o : ROp) : FailFast Same (RProg.last o) := ⟨fun e => ⟨some e, rfl, rfl⟩, fun _ => trivial⟩

theorem FailFast.try' (o : ROp) (k : o.Ans → RProg (Option Err)) (hk : ∀ a, FailFast Same (k a)) : FailFast Same (RProg.try' o k) :=
  ⟨fun e => ⟨some e, rfl, rfl⟩, hk⟩

theorem FailFast.andThen {p q : RProg (Option Err)} (hp : FailFast Same p) (hq : FailFast Same q) : FailFast Same (p.andThen q) := by
  refine FailFast.bind hp (fun a => ?_) (fun e a h => ?_)
  · cases a with
    | none => exact hq
    | some e => trivial
  · cases h; exact ⟨some e, rfl, rfl⟩

theorem FailFast.loop {p q : RProg (Option Err)} (hp : FailFast Same p) (hq : FailFast Same q) (n : Nat) :
    FailFast Same (RProg.loop n p q) := by
  induction n with
  | zero => exact hq
  | succ n ih => exact hp.andThen ih

theorem FailFast.ite {α : Type} {bad : Err → α → Prop} {c : Prop} [Decidable c] {p q : RProg α} (hp : FailFast bad p)
    (hq : FailFast bad q) : FailFast bad (if c then p else q) := by
  by_cases h : c
  · rw [if_pos h]; exact hp
  · rw [if_neg h]; exact hq

theorem failFast_skip (fuel : Nat) : (∀ t, FailFast Same (skip fuel t)) ∧ FailFast Same (skipFields fuel) := by
  induction fuel with
  | zero => exact ⟨fun t => by rw [skip]; trivial, by rw [skipFields]; trivial⟩
  | succ fuel ih =>
    refine ⟨fun t => ?_, ?_⟩
    · rw [skip]
      refine .ite (.last _) (.ite (.last _) (.ite (.last _) (.ite (.last _) (.ite (.last _) (.ite (.last _) (.ite (.last _) ?_))))))
      refine .ite (.try' _ _ fun _ => ih.2) (.ite (.try' _ _ fun h => .loop ((ih.1 _).andThen (ih.1 _)) (.last _) _) ?_)
      refine .ite (.try' _ _ fun h => .loop (ih.1 _) (.last _) _) (.ite (.try' _ _ fun h => .loop (ih.1 _) (.last _) _) ?_)
      exact .ite (.last _) trivial
    · rw [skipFields]
      exact .try' _ _ fun h => .ite (.last _) ((ih.1 _).andThen (.try' _ _ fun _ => ih.2))

/-- Counting does not change what happens. -/
theorem run_counted {α : Type} (r : Rdr S) (p : RProg α) (s : S) (n : Nat) :
    p.run r s = (p.run (counted r) (s, n)).bind fun x => .done (x.1, x.2.1) := by
  induction p generalizing s n with
  | ret a => rfl
  | diverge => rfl
  | panic => rfl
  | call o k ih =>
    simp only [RProg.run, counted, Out.bind_assoc]
    congr 1
    funext x
    exact ih _ _ _

end GoThrift
