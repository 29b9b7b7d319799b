import Verif.Proof.Valid
import Verif.Proof.Robust
import Verif.Proof.Le

/-!
# Unmarshal on arbitrary bytes

On a reader whose successful calls use up a resource, Unmarshal into a valid value returns, with a number of calls proportional to the resource.
-/

namespace GoThrift

open Spec

variable {S : Type} {r : Rdr S} {Good : S → Prop} {Φ : S → Nat} {α β : Type}

/-- From state `s`, with bounds large enough, the program returns `x` in state `s'` after `k` calls. -/
def Does (r : Rdr S) (mk : Nat → Nat → RProg α) (s : S) (x : α) (s' : S) (k : Nat) : Prop :=
  ∃ K, ∀ sk fuel, K ≤ sk → K ≤ fuel → ∀ n, (mk sk fuel).run (counted r) (s, n) = .done (x, (s', n + k))

theorem Does.ret (x : α) (s : S) : Does r (fun _ _ => .ret x) s x s 0 := ⟨0, fun _ _ _ _ _ => rfl⟩

/-- One level of recursion. -/
theorem Does.succ {mk mk' : Nat → Nat → RProg α} {s s' : S} {x : α} {k : Nat} (K : Nat) (h : Does r mk s x s' k) (he : ∀ sk fuel, K ≤ fuel → mk' sk (fuel + 1) = mk sk fuel) :
    Does r mk' s x s' k := by
  obtain ⟨K', h⟩ := h
  refine ⟨max K K' + 1, fun sk fuel h1 h2 n => ?_⟩
  obtain ⟨f, rfl⟩ : ∃ f, fuel = f + 1 := ⟨fuel - 1, by omega⟩
  rw [he sk f (by omega)]
  exact h sk f (by omega) (by omega) n

theorem Does.congr {mk mk' : Nat → Nat → RProg α} {s s' : S} {x : α} {k : Nat} (h : Does r mk s x s' k) (he : ∀ sk fuel, mk' sk fuel = mk sk fuel) : Does r mk' s x s' k := by
  obtain ⟨K, h⟩ := h
  exact ⟨K, fun sk fuel h1 h2 n => by rw [he]; exact h sk fuel h1 h2 n⟩

theorem Does.bind {p : Nat → Nat → RProg α} {f : Nat → Nat → α → RProg β} {s s1 s' : S} {x : α} {y : β} {j k : Nat} (hp : Does r p s x s1 j) (hf : Does r (fun sk fuel => f sk fuel x) s1 y s' k) :
    Does r (fun sk fuel => (p sk fuel).bind (f sk fuel)) s y s' (j + k) := by
  obtain ⟨K1, h1⟩ := hp
  obtain ⟨K2, h2⟩ := hf
  refine ⟨max K1 K2, fun sk fuel g1 g2 n => ?_⟩
  dsimp only
  rw [RProg.run_bind, h1 sk fuel (by omega) (by omega), Out.bind_done]
  have := h2 sk fuel (by omega) (by omega) (n + j)
  rw [Nat.add_assoc] at this
  exact this

theorem Does.rcall_ok {act : String} {tt : WType} {t : TypeId} {o : ROp} {old : α} {k : Nat → Nat → o.Ans → UProg α} {s s1 s' : S} {a : o.Ans} {x : α × Option Err} {j : Nat}
    (hs : r.step o s = .done (.ok a, s1)) (hk : Does r (fun sk fuel => k sk fuel a) s1 x s' j) : Does r (fun sk fuel => rcall act tt t o old (k sk fuel)) s x s' (1 + j) := by
  obtain ⟨K, h⟩ := hk
  refine ⟨K, fun sk fuel g1 g2 n => ?_⟩
  dsimp only [rcall]
  rw [RProg.run, counted_step hs, Out.bind_done]
  have := h sk fuel g1 g2 (n + 1)
  rw [Nat.add_assoc] at this
  exact this

theorem Does.rcall_err {act : String} {tt : WType} {t : TypeId} {o : ROp} {old : α} {k : Nat → Nat → o.Ans → UProg α} {s s1 : S} {e : Err}
    (hs : r.step o s = .done (.error e, s1)) : Does r (fun sk fuel => rcall act tt t o old (k sk fuel)) s (old, some (.semanticE .unmarshal tt (some t) (.wire act e))) s1 1 := by
  refine ⟨0, fun sk fuel g1 g2 n => ?_⟩
  dsimp only [rcall]
  rw [RProg.run, counted_step hs, Out.bind_done]
  rfl

theorem Does.then_ok {p : Nat → Nat → UProg α} {fail : α → β} {f : Nat → Nat → α → UProg β} {s s1 s' : S} {a : α} {y : β × Option Err} {j k : Nat} (hp : Does r p s (a, none) s1 j)
    (hf : Does r (fun sk fuel => f sk fuel a) s1 y s' k) : Does r (fun sk fuel => (p sk fuel).andThen fail (f sk fuel)) s y s' (j + k) := by
  obtain ⟨K1, h1⟩ := hp
  obtain ⟨K2, h2⟩ := hf
  refine ⟨max K1 K2, fun sk fuel g1 g2 n => ?_⟩
  dsimp only [UProg.andThen]
  rw [RProg.run_bind, h1 sk fuel (by omega) (by omega), Out.bind_done]
  have := h2 sk fuel (by omega) (by omega) (n + j)
  rw [Nat.add_assoc] at this
  exact this

theorem Does.then_err {p : Nat → Nat → UProg α} {fail : α → β} {f : Nat → Nat → α → UProg β} {s s1 : S} {a : α} {e : Err} {j : Nat} (hp : Does r p s (a, some e) s1 j) :
    Does r (fun sk fuel => (p sk fuel).andThen fail (f sk fuel)) s (fail a, some e) s1 j := by
  obtain ⟨K1, h1⟩ := hp
  refine ⟨K1, fun sk fuel g1 g2 n => ?_⟩
  dsimp only [UProg.andThen]
  rw [RProg.run_bind, h1 sk fuel g1 g2, Out.bind_done]
  rfl

theorem counted_uuids (hu : UUIDs16 r) : UUIDs16 (counted r) := by
  intro s s' b h
  cases hs : r.step .uuid s.1 with
  | done x =>
    obtain ⟨x, s1⟩ := x
    rw [counted] at h
    simp only [hs, Out.bind_done] at h
    cases h
    exact hu _ _ _ hs
  | _ => rw [counted] at h; simp [hs, Out.bind] at h

theorem Does.safe {P : α → Prop} {mk : Nat → Nat → RProg α} {s s' : S} {x : α} {k : Nat} (h : Does r mk s x s' k) (hu : UUIDs16 r) (hs : ∀ sk fuel, Safe' P (mk sk fuel)) : P x := by
  obtain ⟨K, h⟩ := h
  exact (hs K K).run (counted_uuids hu) (h K K (Nat.le_refl _) (Nat.le_refl _) 0)

/-- Decoding of a value returns, and its calls are paid for by what it uses up. -/
def UB (r : Rdr S) (Good : S → Prop) (Φ : S → Nat) (b : Nat) (P : α → Prop) (mk : Nat → Nat → UProg α) (s : S) : Prop :=
  ∃ x s' k, Does r mk s x s' k ∧ Good s' ∧ P x.1 ∧ (x.2 = none → Φ s' < Φ s ∧ k + b + 3 * Φ s' ≤ 3 * Φ s) ∧ k + b ≤ 3 * Φ s + 2

theorem UB.at_once {b : Nat} (hb : b ≤ 2) {P : α → Prop} (a : α) (ha : P a) (e : Err) {mk : Nat → Nat → UProg α} {s : S} (hs : Good s) (h : Does r mk s (a, some e) s 0) : UB r Good Φ b P mk s :=
  ⟨_, s, 0, h, hs, ha, fun h => (by cases h), by omega⟩

theorem UB.succ {b K : Nat} {P : α → Prop} {mk mk' : Nat → Nat → UProg α} {s : S} (h : UB r Good Φ b P mk s) (he : ∀ sk fuel, K ≤ fuel → mk' sk (fuel + 1) = mk sk fuel) :
    UB r Good Φ b P mk' s := by
  obtain ⟨x, s', k, h1, h2⟩ := h
  exact ⟨x, s', k, h1.succ K he, h2⟩

theorem UB.imp {b : Nat} {P Q : α → Prop} {mk : Nat → Nat → UProg α} {s : S} (h : UB r Good Φ b P mk s) (hq : ∀ a, P a → Q a) : UB r Good Φ b Q mk s := by
  obtain ⟨x, s', k, h1, h2, h3, h4⟩ := h
  exact ⟨x, s', k, h1, h2, hq _ h3, h4⟩

/-- Add what is known of the result anyway. -/
theorem UB.safe {b : Nat} {P : α → Prop} {mk : Nat → Nat → UProg α} {s : S} (h : UB r Good Φ b (fun _ => True) mk s) (hu : UUIDs16 r) (hs : ∀ sk fuel, Safe' (fun x => P x.1) (mk sk fuel)) :
    UB r Good Φ b P mk s := by
  obtain ⟨x, s', k, h1, h2, _, h4⟩ := h
  exact ⟨x, s', k, h1, h2, h1.safe hu hs, h4⟩

/-- A leaf. -/
theorem UB.leaf (hm : Metered r Good Φ) {act : String} {tt : WType} {t : TypeId} {o : ROp} (ho : o.least = 1) (old : α) (f : o.Ans → α) {s : S} (hs : Good s) :
    UB r Good Φ 0 (fun _ => True) (fun _ _ => rcall act tt t o old fun v => .ret (f v, none)) s := by
  obtain ⟨x, s', h1, h2, h3⟩ := hm o s hs
  cases x with
  | error e => exact ⟨_, s', 1, .rcall_err h1, h2, trivial, fun h => (by cases h), by omega⟩
  | ok a =>
    have := h3 a rfl
    exact ⟨_, s', _, .rcall_ok h1 (.ret _ _), h2, trivial, fun _ => by omega, by omega⟩

/-- The closing call of a container. -/
theorem does_close (hm : Metered r Good Φ) (act : String) (tt : WType) (t : TypeId) (o : ROp) (v : α) {s : S} (hs : Good s) :
    ∃ x s', Does r (fun _ _ => rcall act tt t o v fun _ => .ret (v, none)) s x s' 1 ∧ Good s' ∧ (x.2 = none → Φ s' ≤ Φ s) := by
  obtain ⟨x, s', h1, h2, h3⟩ := hm o s hs
  cases x with
  | error e => exact ⟨_, s', .rcall_err h1, h2, fun h => (by cases h)⟩
  | ok a => exact ⟨_, s', Does.rcall_ok (j := 0) h1 (.ret _ _), h2, fun _ => by have := h3 a rfl; omega⟩

/-- The element loop. -/
theorem does_seqLoop {env : Env} {et : TypeId} (M : Nat) (u : Nat → Nat → GoVal → UProg GoVal) (hu : ∀ s, Good s → Φ s ≤ M → ∀ v, ValidValue env et v → UB r Good Φ 0 (ValidValue env et) (fun sk fuel => u sk fuel v) s)
    (grow : Nat → Nat) (n : Nat) (done rest : List GoVal) (mz : Bool) (hz : mz = true ∨ ∀ v ∈ rest, v = env.zero et) (s : S) (hs : Good s) (hM : Φ s ≤ M) :
    ∃ x s' k, Does r (fun sk fuel => seqLoop (u sk fuel) (env.zero et) grow n done rest mz) s x s' k ∧ Good s' ∧ (x.2 = none → Φ s' ≤ Φ s ∧ k + 3 * Φ s' ≤ 3 * Φ s) ∧ k ≤ 3 * Φ s + 2 := by
  induction n generalizing done rest mz s with
  | zero => exact ⟨_, s, 0, .ret _ _, hs, fun _ => by omega, by omega⟩
  | succ n ih =>
    obtain ⟨r0, rest', h1, h2, h3⟩ := slot_zero hz (grow done.length - done.length)
    have he : ∀ sk fuel, seqLoop (u sk fuel) (env.zero et) grow (n + 1) done rest mz =
        (u sk fuel (env.zero et)).andThen (fun v' => (done ++ [v'], rest')) fun v' => seqLoop (u sk fuel) (env.zero et) grow n (done ++ [v']) rest' (mz && !rest.isEmpty) := by
      intro sk fuel
      rw [seqLoop]
      (try dsimp only)
      rw [h1]
      (try dsimp only)
      rw [h2]
    obtain ⟨x, s1, k, i1, i2, i3, i4, i5⟩ := hu s hs hM _ (zero_valid env et)
    obtain ⟨v, e⟩ := x
    cases e with
    | some e => exact ⟨_, s1, k, (Does.then_err i1).congr he, i2, fun h => (by cases h), by omega⟩
    | none =>
      obtain ⟨i6, i7⟩ := i4 rfl
      obtain ⟨y, s2, k2, j1, j2, j3, j4⟩ := ih (done ++ [v]) rest' _ h3 s1 i2 (by omega)
      exact ⟨y, s2, _, (Does.then_ok i1 j1).congr he, j2, fun h => by have := j3 h; omega, by omega⟩

/-- The entry loop. -/
theorem does_mapLoop {env : Env} {kt et : TypeId} (M : Nat) (uk : Nat → Nat → UProg GoVal) (uv : Nat → Nat → GoVal → UProg GoVal)
    (hk : ∀ s, Good s → Φ s ≤ M → UB r Good Φ 0 (ValidValue env kt) uk s) (hv : ∀ s, Good s → Φ s ≤ M → ∀ v, ValidValue env et v → UB r Good Φ 0 (ValidValue env et) (fun sk fuel => uv sk fuel v) s)
    (n : Nat) (es : List (GoVal × GoVal)) (hes : ∀ x ∈ es, ValidValue env et x.2) (s : S) (hs : Good s) (hM : Φ s ≤ M) :
    ∃ x s' k, Does r (fun sk fuel => mapLoop (uk sk fuel) (uv sk fuel) (env.zero et) n es) s x s' k ∧ Good s' ∧ (x.2 = none → Φ s' ≤ Φ s ∧ k + 3 * Φ s' ≤ 3 * Φ s) ∧ k ≤ 3 * Φ s + 2 := by
  induction n generalizing es s with
  | zero => exact ⟨_, s, 0, .ret _ _, hs, fun _ => by omega, by omega⟩
  | succ n ih =>
    obtain ⟨x, s1, k, i1, i2, i3, i4, i5⟩ := hk s hs hM
    obtain ⟨key, e⟩ := x
    cases e with
    | some e => exact ⟨_, s1, k, (Does.then_err i1), i2, fun h => (by cases h), by omega⟩
    | none =>
      obtain ⟨i6, i7⟩ := i4 rfl
      have h0 : ValidValue env et ((mapIndex key es).getD (env.zero et)) := by
        cases hmi : mapIndex key es with
        | none => exact zero_valid env et
        | some v =>
          obtain ⟨k', h1, _⟩ := mapIndex_mem hmi
          exact hes _ h1
      obtain ⟨y, s2, k2, j1, j2, j3, j4, j5⟩ := hv s1 i2 (by omega) _ h0
      obtain ⟨v, e⟩ := y
      cases e with
      | some e => exact ⟨_, s2, _, .then_ok i1 (.then_err j1), j2, fun h => (by cases h), by omega⟩
      | none =>
        obtain ⟨j6, j7⟩ := j4 rfl
        have h1 : ∀ x ∈ setMapIndex key v es, ValidValue env et x.2 := by
          intro x hx
          rcases setMapIndex_mem hx with rfl | hx
          · exact j3
          · exact hes x hx
        obtain ⟨z, s3, k3, l1, l2, l3, l4⟩ := ih _ h1 s2 j2 (by omega)
        exact ⟨z, s3, _, .then_ok i1 (.then_ok j1 l1), l2, fun h => by have := l3 h; omega, by omega⟩

theorem fieldLoop_total (env : Env) (t : TypeId) (ds : List FieldDecl) (h : ∀ d ∈ ds, Acc (InPart env) d.typ) (i : Nat) : ∃ n x, fieldLoop env n t i ds = .done x := by
  induction ds generalizing i with
  | nil => exact ⟨0, _, rfl⟩
  | cons d ds ih =>
    obtain ⟨⟨o, ig, e⟩, hp⟩ := C17_terminates env.unicode d
    obtain ⟨n1, x, h1⟩ := ih (fun d hd => h d (by simp [hd])) (i + 1)
    obtain ⟨n2, a, h2⟩ := (lookup_iff_acc env d.typ).2 (h d (by simp))
    refine ⟨max n1 n2, ?_⟩
    rw [fieldLoop, hp, Out.bind_done]
    dsimp only
    cases e with
    | some e => exact ⟨_, rfl⟩
    | none =>
      dsimp only
      have h1' := (fieldLoop_le env n1 (max n1 n2) (by omega) t (i + 1) ds).done h1
      split
      · exact ⟨x, h1'⟩
      · rw [(lookupArshaler_le env n2 (max n1 n2) (by omega) d.typ).done h2, Out.bind_done, h1', Out.bind_done]
        cases x <;> exact ⟨_, rfl⟩

theorem makeStructFields_total (env : Env) (t : TypeId) (h : ∀ d ∈ env.fields t, Acc (InPart env) d.typ) : ∃ n x, ∀ m, n ≤ m → makeStructFields env m t = .done x := by
  obtain ⟨n, x, hx⟩ := fieldLoop_total env t _ h 0
  suffices ∃ y, makeStructFields env n t = .done y by
    obtain ⟨y, hy⟩ := this
    exact ⟨n, y, fun m hm => (makeStructFields_le env n m hm t).done hy⟩
  rw [makeStructFields, hx, Out.bind_done]
  cases x with
  | error e => exact ⟨_, rfl⟩
  | ok all => dsimp only; split <;> exact ⟨_, rfl⟩

theorem Spec.AllAcc.part {env : Env} {t t' : TypeId} (h : AllAcc env t) (hp : PartOf env t' t) : AllAcc env t' := fun t'' hw => h t'' (.step hw hp)

/-- The field loop. -/
theorem ub_fields (hm : Metered r Good Φ) (hu : UUIDs16 r) (env : Env) (N : Nat)
    (ih : ∀ s, Good s → Φ s < N → ∀ n t a old wt, lookupArshaler env n t = .done a → AllAcc env t → ValidValue env t old →
      UB r Good Φ 0 (ValidValue env t) (fun sk fuel => unmarshal env sk fuel a old wt) s) :
    ∀ m s, Good s → Φ s = m → m ≤ N → ∀ n t fields sfs vals, (env.type t).kind = .struct fields → Table env n t sfs → AllAcc env t → vals.length = fields.length →
      (∀ (i : Nat) f v, fields[i]? = some f → vals[i]? = some v → ValidValue env f.typ v) → UB r Good Φ 1 (fun _ => True) (fun sk fuel => unmarshalFields env sk fuel t sfs vals) s := by
  intro m
  induction m using Nat.strongRecOn with
  | ind m ihm =>
  intro s hs hm1 hN n t fields sfs vals hk htab hacc hlen hv
  subst hm1
  have hfs := fields_struct hk
  refine UB.succ (K := 0) (mk := fun sk fuel => rcall "ReadFieldBegin" Ty.struct t .fieldBegin (.struct vals) fun h =>
      if h.type = Ty.stop then rcall "ReadStructEnd" Ty.struct t .structEnd (.struct vals) fun _ => .ret (.struct vals, none)
      else
        match byID sfs h.id with
        | none => (skip sk h.type).bind fun e => match e with
          | some e => .ret (.struct vals, some e)
          | none => rcall "ReadFieldEnd" Ty.struct t .fieldEnd (.struct vals) fun _ => unmarshalFields env sk fuel t sfs vals
        | some f => match vals[f.index]? with
          | none => .panic
          | some v => (unmarshal env sk fuel f.a v h.type).andThen (fun v' => .struct (vals.set f.index v')) fun v' =>
            rcall "ReadFieldEnd" Ty.struct t .fieldEnd (.struct (vals.set f.index v')) fun _ => unmarshalFields env sk fuel t sfs (vals.set f.index v')) ?_
    (fun sk fuel _ => by rw [unmarshalFields]; rfl)
  obtain ⟨x, s1, h1, h2, h3⟩ := hm .fieldBegin s hs
  cases x with
  | error e => exact ⟨_, s1, 1, .rcall_err h1, h2, trivial, fun h => (by cases h), by omega⟩
  | ok h =>
    have h4 : Φ s1 + 1 ≤ Φ s := h3 h rfl
    by_cases hst : h.type = Ty.stop
    · obtain ⟨y, s2, j1, j2, j3⟩ := does_close hm "ReadStructEnd" Ty.struct t .structEnd (GoVal.struct vals) h2
      exact ⟨y, s2, _, .rcall_ok h1 (j1.congr fun _ _ => by rw [if_pos hst]), j2, trivial, fun h => by have := j3 h; omega, by omega⟩
    · -- the next field, from a state `s2`
      have next : ∀ (vals' : List GoVal) (s2 : S) (k2 : Nat), Good s2 → Φ s2 < Φ s1 → k2 + 3 * Φ s2 ≤ 3 * Φ s1 → vals'.length = fields.length →
          (∀ (i : Nat) f v, fields[i]? = some f → vals'[i]? = some v → ValidValue env f.typ v) →
          ∃ x s' k, Does r (fun sk fuel => rcall "ReadFieldEnd" Ty.struct t .fieldEnd (.struct vals') fun _ => unmarshalFields env sk fuel t sfs vals') s2 x s' k ∧ Good s' ∧
            (x.2 = none → Φ s' < Φ s ∧ 1 + (k2 + k) + 1 + 3 * Φ s' ≤ 3 * Φ s) ∧ 1 + (k2 + k) + 1 ≤ 3 * Φ s + 2 := by
        intro vals' s2 k2 g2 hlt hle hl' hv'
        obtain ⟨z, s3, l1, l2, l3⟩ := hm .fieldEnd s2 g2
        cases z with
        | error e => exact ⟨_, s3, 1, .rcall_err l1, l2, fun h => (by cases h), by omega⟩
        | ok u =>
          have l4 : Φ s3 + 0 ≤ Φ s2 := l3 u rfl
          obtain ⟨w, s4, k4, m1, g4, _, m2, m3⟩ := ihm (Φ s3) (by omega) s3 l2 rfl (by omega) n t fields sfs vals' hk htab hacc hl' hv'
          exact ⟨w, s4, _, .rcall_ok l1 m1, g4, fun h => by have := m2 h; omega, by omega⟩
      cases hb : byID sfs h.id with
      | none =>
        obtain ⟨y, s2, k2, j1, g2, j2, j3⟩ := bounded_skip hm _ s1 h2 rfl h.type
        have hsk : Does r (fun sk _ => skip sk h.type) s1 y s2 k2 := ⟨2 * Φ s1 + 2, fun sk fuel h1 h2 n => j1 sk h1 n⟩
        cases y with
        | some e =>
          refine ⟨(.struct vals, some e), s2, 1 + (k2 + 0), .rcall_ok h1 (Does.congr (Does.bind (f := fun sk fuel e => match e with
            | some e => .ret (.struct vals, some e)
            | none => rcall "ReadFieldEnd" Ty.struct t .fieldEnd (.struct vals) fun _ => unmarshalFields env sk fuel t sfs vals) hsk (.ret _ _)) fun _ _ => by rw [if_neg hst, hb]), g2, trivial,
            fun h => (by cases h), by omega⟩
        | none =>
          obtain ⟨j4, j5⟩ := j2 rfl
          obtain ⟨z, s3, k3, l1, l2, l3, l4⟩ := next vals s2 k2 g2 j4 (by omega) hlen hv
          refine ⟨z, s3, 1 + (k2 + k3), .rcall_ok h1 (Does.congr (Does.bind (f := fun sk fuel e => match e with
            | some e => .ret (.struct vals, some e)
            | none => rcall "ReadFieldEnd" Ty.struct t .fieldEnd (.struct vals) fun _ => unmarshalFields env sk fuel t sfs vals) hsk l1) fun _ _ => by rw [if_neg hst, hb]), l2, trivial, l3, l4⟩
      | some sf =>
        obtain ⟨d, d1, d2, d3⟩ := htab.byID_declares hb
        rw [hfs] at d1
        obtain ⟨v0, hv0⟩ : ∃ v0, vals[sf.index]? = some v0 := by
          have : sf.index < vals.length := by rw [hlen]; exact (List.getElem?_eq_some_iff.1 d1).1
          exact ⟨_, List.getElem?_eq_getElem this⟩
        have hacc' : AllAcc env d.typ := hacc.part (by simp only [PartOf, hk]; exact ⟨d, List.mem_of_getElem? d1, rfl⟩)
        obtain ⟨y, s2, k2, j1, g2, jv, j2, j3⟩ := ih s1 h2 (by omega) n d.typ sf.a v0 h.type d3 hacc' (hv _ d v0 d1 hv0)
        have upd : ∀ v, ValidValue env d.typ v → ∀ (i : Nat) f x, fields[i]? = some f → (vals.set sf.index v)[i]? = some x → ValidValue env f.typ x := by
          intro v hvv i f x hf hx
          by_cases hi : sf.index = i
          · subst hi
            rw [d1] at hf
            cases hf
            rw [List.getElem?_set_self (List.getElem?_eq_some_iff.1 hv0).1] at hx
            cases hx
            exact hvv
          · rw [List.getElem?_set_ne hi] at hx
            exact hv i f x hf hx
        obtain ⟨v', e⟩ := y
        cases e with
        | some e =>
          refine ⟨_, s2, 1 + k2, .rcall_ok h1 (Does.congr (Does.then_err (fail := fun v' => .struct (vals.set sf.index v')) (f := fun sk fuel v' =>
            rcall "ReadFieldEnd" Ty.struct t .fieldEnd (.struct (vals.set sf.index v')) fun _ => unmarshalFields env sk fuel t sfs (vals.set sf.index v')) j1) fun _ _ => by rw [if_neg hst, hb]; simp only [hv0]), g2, trivial,
            fun h => (by cases h), by omega⟩
        | none =>
          obtain ⟨j4, j5⟩ := j2 rfl
          obtain ⟨z, s3, k3, l1, l2, l3, l4⟩ := next (vals.set sf.index v') s2 k2 g2 j4 (by omega) (by simpa using hlen) (upd v' jv)
          exact ⟨z, s3, 1 + (k2 + k3), .rcall_ok h1 (Does.congr (Does.then_ok (fail := fun v' => .struct (vals.set sf.index v')) (f := fun sk fuel v' =>
            rcall "ReadFieldEnd" Ty.struct t .fieldEnd (.struct (vals.set sf.index v')) fun _ => unmarshalFields env sk fuel t sfs (vals.set sf.index v')) j1 l1) fun _ _ => by rw [if_neg hst, hb]; simp only [hv0]),
            l2, trivial, l3, l4⟩

theorem ub_leaf (hm : Metered r Good Φ) {env : Env} {n : Nat} {t : TypeId} {l : Leaf} (hl : lookupArshaler env n t = .done (.leaf t l)) {old : GoVal} (ht : ValidValue env t old) (wt : WType)
    {s : S} (hs : Good s) : UB r Good Φ 0 (fun _ => True) (fun _ _ => unmarshalLeaf env t l old wt) s := by
  unfold unmarshalLeaf
  by_cases hw : wt ≠ l.wireType
  · simp only [hw, not_false_eq_true, ne_eq, if_true]
    exact .at_once (by omega) old trivial _ hs (.ret _ _)
  · simp only [hw, if_false]
    cases l with
    | bytes =>
      cases n with
      | zero => cases hl
      | succ n =>
      have hc := lookup_cases hl
      have hsh := (Everywhere.here ht).1
      cases hk : (env.type t).kind <;> rw [hk] at hc <;> try (cases hc; done)
      case ptr => obtain ⟨_, _, h⟩ := hc; cases h
      case map => obtain ⟨_, _, _, _, h⟩ := hc; cases h
      case slice =>
        rcases hc with ⟨hb, _⟩ | ⟨_, _, _, h⟩
        · cases old <;> simp [Shape, hk, hb] at hsh
          exact .leaf hm rfl _ _ hs
        · cases h
    | _ => exact .leaf hm rfl _ _ hs

/-- Unmarshalling on a metered reader. -/
theorem ub_unmarshal (hm : Metered r Good Φ) (hu : UUIDs16 r) (env : Env) : ∀ m s, Good s → Φ s = m → ∀ n t a old wt, lookupArshaler env n t = .done a → AllAcc env t → ValidValue env t old →
    UB r Good Φ 0 (ValidValue env t) (fun sk fuel => unmarshal env sk fuel a old wt) s := by
  intro m
  induction m using Nat.strongRecOn with
  | ind m ih =>
  intro s hs hm1 n
  subst hm1
  have ih' : ∀ s', Good s' → Φ s' < Φ s → ∀ n t a old wt, lookupArshaler env n t = .done a → AllAcc env t → ValidValue env t old →
      UB r Good Φ 0 (ValidValue env t) (fun sk fuel => unmarshal env sk fuel a old wt) s' :=
    fun s' hs' hlt => ih (Φ s') hlt s' hs' rfl
  induction n with
  | zero => intro t a old wt hl; cases hl
  | succ n ihn =>
    intro t a old wt hl hacc ht
    refine UB.safe ?_ hu fun sk fuel => (safe_unmarshal env sk fuel).1 (n + 1) t a old wt hl ht
    have hc := lookup_cases hl
    have hsh := (Everywhere.here ht).1
    cases hk : (env.type t).kind with
    | other =>
      rw [hk] at hc
      subst hc
      exact UB.succ (K := 0) (mk := fun _ _ => .ret (old, some (.semantic .unmarshal wt (some t)))) (.at_once (by omega) old trivial _ hs (.ret _ _)) fun _ _ _ => by rw [unmarshal]
    | ptr e =>
      rw [hk] at hc
      obtain ⟨ea, hle, rfl⟩ := hc
      have htyp : ea.typ = e := (lookup_wireType hle).1
      obtain ⟨v0, h0, h0t⟩ : ∃ v0, old.deref? (env.zero ea.typ) = some v0 ∧ ValidValue env e v0 := by
        cases old <;> simp [Shape, hk] at hsh
        · exact ⟨_, rfl, htyp ▸ zero_valid env _⟩
        · rename_i v
          exact ⟨v, rfl, by have := ht.2; rwa [elemType_ptr hk] at this⟩
      refine UB.succ (K := 0) (mk := fun sk fuel => (unmarshal env sk fuel ea v0 wt).andThen .ptr fun v => .ret (.ptr v, none)) ?_ fun _ _ _ => by rw [unmarshal, h0]
      obtain ⟨x, s1, k, h1, h2, h3, h4, h5⟩ := ihn e ea v0 wt hle (hacc.part (by simp [PartOf, hk])) h0t
      obtain ⟨v, e⟩ := x
      cases e with
      | none => exact ⟨_, s1, k + 0, .then_ok h1 (.ret _ _), h2, trivial, fun h => h4 rfl, h5⟩
      | some e => exact ⟨_, s1, k, .then_err h1, h2, trivial, fun h => (by cases h), h5⟩
    | struct fs =>
      rw [hk] at hc
      subst hc
      have hfs := fields_struct hk
      obtain ⟨K, x, hx⟩ := makeStructFields_total env t fun d hd => hacc _ (.step (.refl _) (by simp only [PartOf, hk]; exact ⟨d, hfs ▸ hd, rfl⟩))
      cases x with
      | error e =>
        refine UB.succ (K := K) (mk := fun _ _ => .ret (old, some (withAction .unmarshal e))) (.at_once (by omega) old trivial _ hs (.ret _ _)) fun _ fuel hf => ?_
        rw [unmarshal, hx fuel hf]
        rfl
      | ok sfs =>
        cases old <;> simp [Shape, hk] at hsh
        rename_i vs
        by_cases hw : wt = Ty.struct
        · subst hw
          refine UB.succ (K := K) (mk := fun sk fuel => rcall "ReadStructBegin" Ty.struct t .structBegin (.struct vs) fun _ => unmarshalFields env sk fuel t sfs vs) ?_ fun _ fuel hf => ?_
          · obtain ⟨x, s', i1, i2, i3⟩ := hm .structBegin s hs
            cases x with
            | error e => exact ⟨_, s', 1, .rcall_err i1, i2, trivial, fun h => (by cases h), by omega⟩
            | ok a =>
              have i4 : Φ s' + 0 ≤ Φ s := i3 a rfl
              obtain ⟨x2, s2, k2, j1, g2, _, j2, j3⟩ := ub_fields hm hu env (Φ s) ih' (Φ s') s' i2 rfl i4 K t fs sfs vs hk (makeStructFields_table _ _ _ _ (hx K (Nat.le_refl _))) hacc hsh
                fun i f v hf hv => (everywhereFields_iff _ _).1 ht.2 i f v (by rw [fields_struct hk]; exact hf) hv
              exact ⟨x2, s2, 1 + k2, .rcall_ok i1 j1, g2, trivial, fun h => by have := j2 h; omega, by omega⟩
          · rw [unmarshal, hx fuel hf]
            rfl
        · refine UB.succ (K := K) (mk := fun _ _ => .ret (.struct vs, some (.semantic .unmarshal wt (some t)))) (.at_once (by omega) _ trivial _ hs (.ret _ _)) fun _ fuel hf => ?_
          rw [unmarshal, hx fuel hf]
          simp only [Out.elim, ne_eq, hw, not_false_eq_true, if_true]
    | map k e =>
      rw [hk] at hc
      obtain ⟨ka, ea, hlk, hle, rfl⟩ := hc
      have hkt : ka.typ = k := (lookup_wireType hlk).1
      have het : ea.typ = e := (lookup_wireType hle).1
      obtain ⟨es0, h0, h0t⟩ : ∃ es0, old.entries? = some es0 ∧ ∀ x ∈ es0, ValidValue env e x.2 := by
        cases old <;> simp [Shape, hk] at hsh
        · exact ⟨[], rfl, by simp⟩
        · rename_i es
          refine ⟨es, rfl, ?_⟩
          have := (everywhereEntries_iff _).1 ht.2
          rw [keyType_map hk, elemType_map hk] at this
          exact fun x hx => (this x hx).2
      by_cases hw : wt = Ty.map
      · subst hw
        let fin (v : GoVal) : UProg GoVal := rcall "ReadMapEnd" Ty.map t .mapEnd v fun _ => .ret (v, none)
        refine UB.succ (K := 0) (mk := fun sk fuel => rcall "ReadMapBegin" Ty.map t .mapBegin old fun h =>
          if h.size.toInt > 0 then
            (mapLoop (unmarshal env sk fuel ka (env.zero k) h.key) (fun v => unmarshal env sk fuel ea v h.value) (env.zero e) (loopCount h.size) es0).andThen .map fun es => fin (.map es)
          else fin old) ?_ fun _ fuel _ => by rw [unmarshal, unmarshalMap, h0, hkt, het]; rfl
        obtain ⟨x, s', i1, i2, i3⟩ := hm .mapBegin s hs
        cases x with
        | error e => exact ⟨_, s', 1, .rcall_err i1, i2, trivial, fun h => (by cases h), by omega⟩
        | ok h =>
          have i4 : Φ s' + 1 ≤ Φ s := i3 h rfl
          by_cases hsz : h.size.toInt > 0
          · obtain ⟨x, s2, k2, j1, j2, j3, j4⟩ := does_mapLoop (Φ s') (fun sk fuel => unmarshal env sk fuel ka (env.zero k) h.key) (fun sk fuel v => unmarshal env sk fuel ea v h.value)
              (fun s1 g1 hl1 => ih' s1 g1 (by omega) n k ka _ _ hlk (hacc.part (by simp [PartOf, hk])) (zero_valid env k))
              (fun s1 g1 hl1 v hv => ih' s1 g1 (by omega) n e ea v _ hle (hacc.part (by simp [PartOf, hk])) hv) (loopCount h.size) es0 h0t s' i2 (Nat.le_refl _)
            obtain ⟨es, er⟩ := x
            cases er with
            | some er => exact ⟨_, s2, _, .rcall_ok i1 (Does.congr (.then_err (fail := GoVal.map) (f := fun _ _ es => fin (.map es)) j1) fun _ _ => by rw [if_pos hsz]), j2, trivial, fun h => (by cases h), by omega⟩
            | none =>
              have j5 := j3 rfl
              obtain ⟨y, s3, l1, l2, l3⟩ := does_close hm "ReadMapEnd" Ty.map t .mapEnd (GoVal.map es) j2
              exact ⟨y, s3, _, .rcall_ok i1 (Does.congr (.then_ok (fail := GoVal.map) (f := fun _ _ es => fin (.map es)) j1 l1) fun _ _ => by rw [if_pos hsz]), l2, trivial,
                fun h => by have := l3 h; omega, by omega⟩
          · obtain ⟨y, s3, l1, l2, l3⟩ := does_close hm "ReadMapEnd" Ty.map t .mapEnd old i2
            exact ⟨y, s3, _, .rcall_ok i1 (Does.congr l1 fun _ _ => by rw [if_neg hsz]), l2, trivial, fun h => by have := l3 h; omega, by omega⟩
      · refine UB.succ (K := 0) (mk := fun _ _ => .ret (old, some (.semantic .unmarshal wt (some t)))) (.at_once (by omega) _ trivial _ hs (.ret _ _)) fun _ fuel _ => ?_
        rw [unmarshal, unmarshalMap]
        simp only [ne_eq, hw, not_false_eq_true, if_true]
    | slice e =>
      rw [hk] at hc
      rcases hc with ⟨hb, rfl⟩ | ⟨hb, ea, hle, rfl⟩
      · exact UB.succ (K := 0) (ub_leaf hm hl ht wt hs) fun _ _ _ => by rw [unmarshal]
      · have het : ea.typ = e := (lookup_wireType hle).1
        have h0 : old.elems?.isNone = false := by cases old <;> simp [Shape, hk, hb] at hsh <;> rfl
        have hpart : AllAcc env e := hacc.part (by simp [PartOf, hk, hb])
        -- after the header
        have body : ∀ (hd : SetHeader) (act : String) (tt : WType) (oe : ROp) (s' : S), Good s' → Φ s' + 1 ≤ Φ s →
            ∃ x s2 k, Does r (fun sk fuel => seqBody env t e (fun wt v => unmarshal env sk fuel ea v wt) old hd fun v => rcall act tt t oe v fun _ => .ret (v, none)) s' x s2 k ∧
              Good s2 ∧ (x.2 = none → Φ s2 < Φ s ∧ 1 + k + 0 + 3 * Φ s2 ≤ 3 * Φ s) ∧ 1 + k + 0 ≤ 3 * Φ s + 2 := by
          intro hd act tt oe s' g' hlt
          by_cases hsz : hd.size.toInt > 0
          · obtain ⟨x, s2, k2, j1, j2, j3, j4⟩ := does_seqLoop (Φ s') (fun sk fuel v => unmarshal env sk fuel ea v hd.element) (fun s1 g1 hl1 v hv => ih' s1 g1 (by omega) n e ea v _ hle hpart hv)
              (env.grow t) (loopCount hd.size) [] old.slots true (.inl rfl) s' g' (Nat.le_refl _)
            obtain ⟨p, er⟩ := x
            cases er with
            | some er =>
              exact ⟨_, s2, _, Does.congr (.then_err (fail := fun p => GoVal.slice p.1 p.2) (f := fun _ _ p => rcall act tt t oe (GoVal.slice p.1 p.2) fun _ => .ret (GoVal.slice p.1 p.2, none)) j1)
                fun _ _ => by rw [seqBody, if_pos hsz], j2, fun h => (by cases h), by omega⟩
            | none =>
              have j5 := j3 rfl
              obtain ⟨y, s3, l1, l2, l3⟩ := does_close hm act tt t oe (GoVal.slice p.1 p.2) j2
              exact ⟨y, s3, _, Does.congr (.then_ok (fail := fun p => GoVal.slice p.1 p.2) (f := fun _ _ p => rcall act tt t oe (GoVal.slice p.1 p.2) fun _ => .ret (GoVal.slice p.1 p.2, none)) j1 l1)
                fun _ _ => by rw [seqBody, if_pos hsz], l2, fun h => by have := l3 h; omega, by omega⟩
          · obtain ⟨y, s3, l1, l2, l3⟩ := does_close hm act tt t oe old.cleared g'
            exact ⟨y, s3, _, l1.congr fun _ _ => by rw [seqBody, if_neg hsz], l2, fun h => by have := l3 h; omega, by omega⟩
        by_cases hw : wt = if (env.type t).isSet = true then Ty.set else Ty.list
        · cases hset : (env.type t).isSet with
          | true =>
            refine UB.succ (K := 0) (mk := fun sk fuel => rcall "ReadSetBegin" Ty.set t .setBegin old fun h =>
              seqBody env t e (fun wt v => unmarshal env sk fuel ea v wt) old h fun v => rcall "ReadSetEnd" Ty.set t .setEnd v fun _ => .ret (v, none)) ?_ fun _ fuel _ => by
                rw [unmarshal, unmarshalSeq, h0, het]; simp [hw, hset]
            obtain ⟨x, s', i1, i2, i3⟩ := hm .setBegin s hs
            cases x with
            | error e => exact ⟨_, s', 1, .rcall_err i1, i2, trivial, fun h => (by cases h), by omega⟩
            | ok h =>
              obtain ⟨x, s2, k, j1, j2, j3, j4⟩ := body h "ReadSetEnd" Ty.set .setEnd s' i2 (i3 h rfl)
              exact ⟨x, s2, _, .rcall_ok i1 j1, j2, trivial, j3, j4⟩
          | false =>
            refine UB.succ (K := 0) (mk := fun sk fuel => rcall "ReadListBegin" Ty.list t .listBegin old fun h =>
              seqBody env t e (fun wt v => unmarshal env sk fuel ea v wt) old h fun v => rcall "ReadListEnd" Ty.list t .listEnd v fun _ => .ret (v, none)) ?_ fun _ fuel _ => by
                rw [unmarshal, unmarshalSeq, h0, het]; simp [hw, hset]
            obtain ⟨x, s', i1, i2, i3⟩ := hm .listBegin s hs
            cases x with
            | error e => exact ⟨_, s', 1, .rcall_err i1, i2, trivial, fun h => (by cases h), by omega⟩
            | ok h =>
              obtain ⟨x, s2, k, j1, j2, j3, j4⟩ := body h "ReadListEnd" Ty.list .listEnd s' i2 (i3 h rfl)
              exact ⟨x, s2, _, .rcall_ok i1 j1, j2, trivial, j3, j4⟩
        · refine UB.succ (K := 0) (mk := fun _ _ => .ret (old, some (.semantic .unmarshal wt (some t)))) (.at_once (by omega) _ trivial _ hs (.ret _ _)) fun _ fuel _ => ?_
          rw [unmarshal, unmarshalSeq]
          simp only [ne_eq, hw, not_false_eq_true, if_true]
    | _ =>
      rw [hk] at hc
      subst hc
      exact UB.succ (K := 0) (ub_leaf hm hl ht wt hs) fun _ _ _ => by rw [unmarshal]

/-- The whole of Unmarshal. -/
theorem Unmarshal_does (hm : Metered r Good Φ) (hu : UUIDs16 r) (env : Env) (p t : TypeId) (hp : (env.type p).kind = .ptr t) (hacc : AllAcc env t) (old : GoVal) (ht : ValidValue env t old) (s : S)
    (hs : Good s) : ∃ v e s' k K, ValidValue env t v ∧ Good s' ∧ k ≤ 3 * Φ s + 2 ∧
      ∀ fuel, K ≤ fuel → ∀ n, (Unmarshal env fuel (.val p (.ptr old))).run (counted r) (s, n) = .done ((.val p (.ptr v), e), (s', n + k)) := by
  obtain ⟨n, a, hl⟩ := (lookup_iff_acc env t).2 (hacc t (.refl t))
  obtain ⟨⟨v, e⟩, s', k, h1, h2, h3, h4, h5⟩ := ub_unmarshal hm hu env (Φ s) s hs rfl n t a old a.wireType hl hacc ht
  have he : env.elem? p = some t := by simp [Env.elem?, hp]
  have h6 : Does r (fun sk fuel => (unmarshal env sk fuel a old a.wireType).andThen (fun v => AnyVal.val p (.ptr v)) fun v => .ret (.val p (.ptr v), none)) s (.val p (.ptr v), e) s' k := by
    cases e with
    | none => exact Does.then_ok (k := 0) h1 (.ret _ _)
    | some e => exact Does.then_err h1
  obtain ⟨K, h6⟩ := h6
  refine ⟨v, e, s', k, max n K, h3, h2, h5, fun fuel hf m => ?_⟩
  simp only [Unmarshal, he, GoVal.pointee?]
  rw [(lookupArshaler_le env n fuel (by omega) t).done hl]
  exact h6 fuel fuel (by omega) (by omega) m

theorem uuid_readFull {C : Type} (c c' : C) (s s' : Flat) (b : Bytes) (h : (RM.lift (.readFull 16 fun b e => .ret (toExcept (b, e))) : RM C Bytes).run c s = .done ((.ok b, c'), s')) : b.length = 16 := by
  rw [RM.run_lift] at h
  simp only [BProg.run] at h
  by_cases hl : 16 ≤ s.bytes.length
  · rw [Flat.readFull_ok _ _ hl, Out.bind_done] at h
    cases h
    rw [List.length_take]
    omega
  · unfold Flat.readFull at h
    rw [if_neg hl] at h
    cases hf : s.fin with
    | err e => simp only [hf, Out.bind_done] at h; cases h
    | block => simp only [hf] at h; cases h

theorem Binary.uuids16 (strict : Bool) : UUIDs16 (reader strict) := by
  rintro s s' b h
  change (RM.run readUUID s.1 s.2).bind _ = _ at h
  cases hr : RM.run readUUID s.1 s.2 with
  | done x =>
    obtain ⟨⟨x, c⟩, f⟩ := x
    rw [hr, Out.bind_done] at h
    cases h
    exact uuid_readFull _ _ _ _ _ hr
  | _ => rw [hr] at h; cases h

theorem Compact.uuids16 : UUIDs16 reader := by
  rintro s s' b h
  change (RM.run readUUID s.1 s.2).bind _ = _ at h
  cases hr : RM.run readUUID s.1 s.2 with
  | done x =>
    obtain ⟨⟨x, c⟩, f⟩ := x
    rw [hr, Out.bind_done] at h
    cases h
    exact uuid_readFull _ _ _ _ _ hr
  | _ => rw [hr] at h; cases h

end GoThrift
