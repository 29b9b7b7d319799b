import Verif.Proof.BufWriter
import Verif.Model.Bufio

/-!
# C31, C32, C33: failing transports, Flush, Reset
-/

namespace GoThrift

open Spec

/-! ## C31 -/

/-- What C31 says of a protocol writer with method table `impl`, new writers `new` and ideal behaviour `w`. -/
def DeliversPrefix {C : Type} (impl : WOp → WM C Unit) (w : Wtr (C × Bytes)) (c0 : C) (new : ∀ σ : Type, Nat → σ → PW C σ) : Prop :=
  ∀ (σ : Type) (T : Transport σ), T.Honest → ∀ (size : Nat), 0 < size → ∀ (wr : σ) (cs : List WCall),
    ∃ as x as' c out, PW.run T impl cs (new σ size wr) = .done (as, x) ∧ ideal w cs (c0, []) = .done (as', (c, out)) ∧
      x.b.sent <+: out ∧
      -- if some call was answered differently than by the ideal writer, the transport has failed for good
      (opAnswers cs as ≠ opAnswers cs as' → ∃ e, x.b.err = some e) ∧
      -- and then: nothing more is delivered, Flush reports it, and so does every call that has something to write
      (∀ e, x.b.err = some e →
        (∀ ds, ∃ bs y, PW.run T impl ds x = .done (bs, y) ∧ y.b.sent = x.b.sent ∧ y.b.err = some e) ∧
        (x.flush T).1 = some e ∧
        (∀ o s a s', w.step o (x.c, s) = .done (a, s') → s'.2 ≠ s → ∃ e' y, x.step T impl (.op o) = .done (some e', y))) ∧
      -- otherwise nothing is lost
      (x.b.err = none → x.b.sent ++ x.b.buf = out)

theorem deliversPrefix {C : Type} (impl : WOp → WM C Unit) (c0 : C) (new : ∀ σ : Type, Nat → σ → PW C σ)
    (hnew : ∀ σ size (w : σ), new σ size w = ⟨c0, .new size w, true⟩) (hs : ∀ o, Strict (impl o)) :
    DeliversPrefix impl (idealWtr impl) c0 new := by
  intro σ T hT size hsize wr cs
  rw [hnew]
  obtain ⟨as, x, as', ⟨c, out⟩, h1, h2, h3, h4, h5, h6, h7⟩ := PW.run_spec (impl := impl) hT cs _ _ (PW.tracks_new size hsize wr c0 true)
  refine ⟨as, x, as', c, out, h1, h2, ?_, fun hne => ?_, fun e he => ⟨fun ds => ?_, ?_, fun o s a s' ho hw => ?_⟩, h3.good.ok⟩
  · cases hb : x.b.err with
    | none => exact ⟨_, h3.good.ok hb⟩
    | some e => exact h3.good.bad e hb
  · cases hb : x.b.err with
    | none => exact absurd (h7 hb) hne
    | some e => exact ⟨e, rfl⟩
  · obtain ⟨bs, y, _, _, g1, _, _, _, _, g6, _⟩ := PW.run_spec (impl := impl) hT ds x _ h3
    have := g6 e he
    exact ⟨bs, y, g1, by rw [this], by rw [this]; exact he⟩
  · obtain ⟨e', x', g1, _, _, _, _, g6⟩ := PW.flush_spec hT h3
    rw [g1]; exact (g6 e he).1
  · obtain ⟨r, g1, g2⟩ := hs o σ T hT x.c x.b out e h3.good he
    simp only [idealWtr] at ho
    injection ho with ho
    obtain ⟨-, ho⟩ := Prod.mk.inj ho
    subst ho
    rcases g2 with ⟨e', g2⟩ | ⟨-, g2⟩
    · refine ⟨e', { x with c := r.2, b := x.b }, ?_⟩
      rw [PW.step, g1, Out.bind_done, g2]; rfl
    · exact absurd (by simp only [WM.ideal, g2, List.append_nil]) hw

/-- **C31** binary: whatever an honest transport does, the bytes it has accepted are a prefix of the bytes the protocol prescribes for the calls
made; once it has failed, nothing more is delivered, and Flush and all writing calls report an error. -/
theorem C31_binary (strict : Bool) : DeliversPrefix (Binary.wimpl strict) (Binary.writer strict) () (fun _ => Binary.newPW) :=
  deliversPrefix (Binary.wimpl strict) () (fun _ => Binary.newPW) (fun _ _ _ => rfl) (Binary.strict_wimpl strict)

/-- **C31** compact. -/
theorem C31_compact : DeliversPrefix Compact.wimpl Compact.writer {} (fun _ => Compact.newPW) :=
  deliversPrefix Compact.wimpl {} (fun _ => Compact.newPW) (fun _ _ _ => rfl) Compact.strict_wimpl

/-- A transport that accepts a certain number of bytes in all and fails beyond that; it counts the calls of its Flush method. State: bytes
accepted, room left, number of flushes. -/
def limited : Transport (Bytes × Nat × Nat) where
  write s p := ((min s.2.1 p.length, if s.2.1 < p.length then some (.io 7) else none),
    (s.1 ++ p.take s.2.1, s.2.1 - p.length, s.2.2))
  isStringWriter _ := true
  writeString s p := ((min s.2.1 p.length, if s.2.1 < p.length then some (.io 8) else none),
    (s.1 ++ p.take s.2.1, s.2.1 - p.length, s.2.2))
  isFlusher _ := true
  flush s := (none, (s.1, s.2.1, s.2.2 + 1))

example : limited.Honest := by
  refine ⟨fun s p => Nat.min_le_right _ _, fun s p h => ?_, fun s p => Nat.min_le_right _ _, fun s p h => ?_⟩ <;>
  · simp only [limited] at h ⊢
    rw [if_pos (by omega)]; simp

/-- Fields are written through a buffer of 4 bytes to a transport that takes 3: the prefix `08 00 01` of `08 00 01 00 00 00 05 00` arrives; the
calls report the failure. -/
example : (PW.run limited (Binary.wimpl true) [.op (.fieldBegin ⟨[], 8, 1⟩), .op (.i32 5), .op .fieldEnd, .op .structEnd, .flush]
      (Binary.newPW 4 ([], 3, 0))).bind (fun r => .done (r.1, r.2.b.sent, r.2.b.wr)) =
    .done ([none, some (.io 7), none, some (.io 7), some (.io 7)], [8, 0, 1], ([8, 0, 1], 0, 0)) := by decide +kernel

/-! ## C32 -/

/-- **C32** binary: after any history of calls and resets, if Flush returns nil then the current transport has accepted everything written since
it was attached, nothing is left in the buffer, and if it is a Flusher its Flush method was then called, successfully. -/
theorem C32_binary (strict : Bool) {σ : Type} (T : Transport σ) (hT : T.Honest) (size : Nat) (hsize : 0 < size) (wr : σ)
    (es : List (Event σ)) :
    ∃ x as out, runEvents T (Binary.wimpl strict) Binary.resetPW es (Binary.newPW size wr) = .done x ∧
      ideal (Binary.writer strict) (sinceReset es []) ((), []) = .done (as, ((), out)) ∧
      ∀ x', x.flush T = (none, x') → x'.b.sent = out ∧ x'.b.buf = [] ∧
        ((∀ s, T.isFlusher s = true) → T.flush (x.b.flush T).2.wr = (none, x'.b.wr)) := by
  obtain ⟨x, as, ⟨c, out⟩, h1, h2, h3, h4, h5⟩ := PW.events_spec (impl := Binary.wimpl strict) hT Binary.resetPW ()
    (fun x w hp => ⟨PW.tracks_new _ hp w () true, rfl⟩) es (Binary.newPW size wr) [] [] ((), []) (PW.tracks_new size hsize wr () true) rfl
  refine ⟨x, as, out, h1, h2, fun x' hf => ?_⟩
  obtain ⟨e, x'', g1, _, _, _, g5, _⟩ := PW.flush_spec hT h3
  rw [hf] at g1
  obtain ⟨rfl, rfl⟩ := Prod.mk.inj g1
  obtain ⟨k1, k2, _, wr0, k3, _, k5⟩ := g5 rfl
  refine ⟨k1, k2, fun hs => ?_⟩
  rw [k5]
  exact k3 ⟨hs wr0, h5 (fun _ _ => rfl) rfl⟩

/-- **C32** compact, the first half: if Flush returns nil everything written since the last reset has been accepted. Missing: that the transport's own Flush method is called after a
Reset; see `C32_compact_violated`. -/
theorem C32_compact_partial {σ : Type} (T : Transport σ) (hT : T.Honest) (size : Nat) (hsize : 0 < size) (wr : σ)
    (es : List (Event σ)) :
    ∃ x as c out, runEvents T Compact.wimpl Compact.resetPW es (Compact.newPW size wr) = .done x ∧
      ideal Compact.writer (sinceReset es []) ({}, []) = .done (as, (c, out)) ∧
      ∀ x', x.flush T = (none, x') → x'.b.sent = out ∧ x'.b.buf = [] := by
  obtain ⟨x, as, ⟨c, out⟩, h1, h2, h3, h4, h5⟩ := PW.events_spec (impl := Compact.wimpl) hT Compact.resetPW {}
    (fun x w hp => ⟨PW.tracks_new _ hp w ({} : Compact.WState) false, rfl⟩) es (Compact.newPW size wr) [] [] ({}, []) (PW.tracks_new size hsize wr ({} : Compact.WState) true) rfl
  refine ⟨x, as, c, out, h1, h2, fun x' hf => ?_⟩
  obtain ⟨e, x'', g1, _, _, _, g5, _⟩ := PW.flush_spec hT h3
  rw [hf] at g1
  obtain ⟨rfl, rfl⟩ := Prod.mk.inj g1
  obtain ⟨k1, k2, _⟩ := g5 rfl
  exact ⟨k1, k2⟩

/-- **C32** compact, without Reset: Flush also calls the transport's Flush method. -/
theorem C32_compact_noReset_partial {σ : Type} (T : Transport σ) (hT : T.Honest) (hF : ∀ s, T.isFlusher s = true) (size : Nat) (hsize : 0 < size)
    (wr : σ) (cs : List WCall) :
    ∃ as x, PW.run T Compact.wimpl cs (Compact.newPW size wr) = .done (as, x) ∧
      ∀ x', x.flush T = (none, x') → T.flush (x.b.flush T).2.wr = (none, x'.b.wr) := by
  obtain ⟨as, x, as', s', h1, h2, h3, h4, h5, h6, h7⟩ :=
    PW.run_spec (impl := Compact.wimpl) hT cs _ _ (PW.tracks_new size hsize wr ({} : Compact.WState) true)
  refine ⟨as, x, h1, fun x' hf => ?_⟩
  obtain ⟨e, x'', g1, _, _, _, g5, _⟩ := PW.flush_spec hT h3
  rw [hf] at g1
  obtain ⟨rfl, rfl⟩ := Prod.mk.inj g1
  obtain ⟨_, _, _, wr0, k3, _, k5⟩ := g5 rfl
  rw [k5]
  exact k3 ⟨hF wr0, h5⟩

/-- The history has a reset. -/
def HasReset {σ : Type} (es : List (Spec.Event σ)) : Prop := ∃ w, Event.reset w ∈ es

/-- **C32** compact, exactly: after any history of calls and resets, if Flush returns nil, everything written since the last reset has been accepted; then the transport's own Flush method, if it has one, is called
iff there was no reset. If there was one, the transport is left as the bytes written have left it. -/
theorem C32_compact_exact_partial {σ : Type} (T : Transport σ) (hT : T.Honest) (hF : ∀ s, T.isFlusher s = true) (size : Nat) (hsize : 0 < size) (wr : σ) (es : List (Event σ)) :
    ∃ x as c out, runEvents T Compact.wimpl Compact.resetPW es (Compact.newPW size wr) = .done x ∧
      ideal Compact.writer (sinceReset es []) ({}, []) = .done (as, (c, out)) ∧
      ∀ x', x.flush T = (none, x') → x'.b.sent = out ∧ x'.b.buf = [] ∧
        (¬ HasReset es → T.flush (x.b.flush T).2.wr = (none, x'.b.wr)) ∧
        (HasReset es → x'.b.wr = (x.b.flush T).2.wr) := by
  obtain ⟨x, as, ⟨c, out⟩, h1, h2, h3, h4, h5⟩ := PW.events_spec (impl := Compact.wimpl) hT Compact.resetPW {}
    (fun x w hp => ⟨PW.tracks_new _ hp w ({} : Compact.WState) false, rfl⟩) es (Compact.newPW size wr) [] [] ({}, []) (PW.tracks_new size hsize wr ({} : Compact.WState) true) rfl
  have key : ∀ (es : List (Event σ)) (x x' : PW Compact.WState σ), runEvents T Compact.wimpl Compact.resetPW es x = .done x' →
      (¬ HasReset es → x'.uw = x.uw) ∧ (HasReset es ∨ x.uw = false → x'.uw = false) := by
    intro es
    induction es with
    | nil => intro x x' h; cases h; exact ⟨fun _ => rfl, fun h => h.elim (fun ⟨_, h⟩ => by cases h) id⟩
    | cons e es ih =>
      intro x x' h
      cases e with
      | call d =>
        rw [runEvents] at h
        cases hd : x.step T Compact.wimpl d with
        | done r =>
          rw [hd, Out.bind_done] at h
          have hu : r.2.uw = x.uw := by
            cases d with
            | op o =>
              simp only [PW.step] at hd
              cases hr : ((Compact.wimpl o) x.c).runBuf T x.b with
              | done q => rw [hr, Out.bind_done] at hd; cases hd; rfl
              | blocked => rw [hr] at hd; cases hd
              | diverged => rw [hr] at hd; cases hd
              | panicked => rw [hr] at hd; cases hd
            | flush =>
              simp only [PW.step, PW.flush] at hd
              split at hd
              · cases hd; rfl
              · simp only [PW.flushTransport] at hd
                split at hd <;> cases hd <;> rfl
          obtain ⟨i1, i2⟩ := ih r.2 x' h
          refine ⟨fun hn => (i1 fun ⟨w, hw⟩ => hn ⟨w, .tail _ hw⟩).trans hu, fun hn => i2 ?_⟩
          rcases hn with ⟨w, hw⟩ | hn
          · cases hw with
            | tail _ hw => exact .inl ⟨w, hw⟩
          · exact .inr (hu.trans hn)
        | blocked => rw [hd] at h; cases h
        | diverged => rw [hd] at h; cases h
        | panicked => rw [hd] at h; cases h
      | reset w => exact ⟨fun hn => absurd ⟨w, .head _⟩ hn, fun _ => (ih (Compact.resetPW x w) x' h).2 (.inr rfl)⟩
  obtain ⟨u1, u2⟩ := key es _ x h1
  refine ⟨x, as, c, out, h1, h2, fun x' hf => ?_⟩
  obtain ⟨e, x'', g1, _, _, _, g5, _⟩ := PW.flush_spec hT h3
  rw [hf] at g1
  obtain ⟨rfl, rfl⟩ := Prod.mk.inj g1
  obtain ⟨k1, k2, _, wr0, k3, k4, k5⟩ := g5 rfl
  refine ⟨k1, k2, fun hn => ?_, fun hn => ?_⟩
  · rw [k5]; exact k3 ⟨hF wr0, u1 hn⟩
  · rw [k5]; exact k4 fun h => by rw [u2 (.inl hn)] at h; cases h.2

/-- Two resets and a call in between. -/
example : limited.Honest ∧ (∀ s, limited.isFlusher s = true) ∧ HasReset (σ := Bytes × Nat × Nat) [.reset ([], 5, 0), .call (.op (.byte 1)), .reset ([], 100, 0)] ∧
    ¬ HasReset (σ := Bytes × Nat × Nat) [.call (.op (.byte 1)), .call .flush] := by
  refine ⟨⟨fun s p => Nat.min_le_right _ _, fun s p h => ?_, fun s p => Nat.min_le_right _ _, fun s p h => ?_⟩, fun _ => rfl, ⟨_, .head _⟩, fun ⟨w, h⟩ => by simp at h⟩ <;>
  · simp only [limited] at h ⊢
    rw [if_pos (by omega)]; simp

/-- **C32** is violated by the compact writer: after Reset, Flush returns nil although the transport, which has a Flush method, was not flushed. The binary
writer flushes it. -/
theorem C32_compact_violated :
    (∀ s, limited.isFlusher s = true) ∧
    ((runEvents limited Compact.wimpl Compact.resetPW [.reset ([], 100, 0), .call (.op (.byte 1))] (Compact.newPW 16 ([], 100, 0))).bind
        fun x => .done ((x.flush limited).1, (x.flush limited).2.b.wr)) = .done (none, ([1], 99, 0)) ∧
    ((runEvents limited (Binary.wimpl true) Binary.resetPW [.reset ([], 100, 0), .call (.op (.byte 1))] (Binary.newPW 16 ([], 100, 0))).bind
        fun x => .done ((x.flush limited).1, (x.flush limited).2.b.wr)) = .done (none, ([1], 99, 1)) := by
  refine ⟨fun _ => rfl, ?_, ?_⟩ <;> decide +kernel

/-! ## C33 -/

/-- **C33** binary writer: whatever was done before, after `Reset(w)` all calls are answered as by a new writer of the same buffer size on `w`, and deliver the same. -/
theorem C33_binary_writer (strict : Bool) {σ : Type} (T : Transport σ) (x : PW Unit σ) (w : σ) (cs : List WCall) :
    PW.run T (Binary.wimpl strict) cs (Binary.resetPW x w) = PW.run T (Binary.wimpl strict) cs (Binary.newPW x.b.size w) := rfl

/-- A transport without its Flush method. -/
def Spec.noFlush {σ : Type} (T : Transport σ) : Transport σ := { T with isFlusher := fun _ => false }

theorem BufWriter.flush_noFlush {σ : Type} (T : Transport σ) (b : BufWriter σ) : b.flush (noFlush T) = b.flush T := rfl

theorem BWProg.runBuf_noFlush {σ α : Type} (T : Transport σ) (p : BWProg α) (b : BufWriter σ) : p.runBuf (noFlush T) b = p.runBuf T b := by
  have loop : ∀ (direct : σ → Bool) (put : σ → Bytes → (Nat × Option Err) × σ) (fuel : Nat) (p : Bytes) (b : BufWriter σ),
      BufWriter.writeLoop (noFlush T) direct put fuel p b = BufWriter.writeLoop T direct put fuel p b := by
    intro direct put fuel
    induction fuel with
    | zero => intro p b; rfl
    | succ fuel ih => intro p b; simp only [BufWriter.writeLoop, ih, BufWriter.flush_noFlush]
  induction p generalizing b with
  | ret a => rfl
  | write kind p k ih =>
    have hp : b.put (noFlush T) kind p = b.put T kind p := by
      cases kind with
      | bytes => exact loop _ _ _ _ _
      | string => exact loop _ _ _ _ _
      | byte => rfl
    simp only [BWProg.runBuf, hp, ih]
  | ensure n k ih =>
    have hp : b.ensure (noFlush T) n = b.ensure T n := rfl
    simp only [BWProg.runBuf, hp, ih]

/-- **C33** compact writer, exactly: whatever was done before, after `Reset(w)` all calls are answered as by a new writer on `w` *without its Flush method*, deliver the same bytes and leave the transport in the same
state. So it is as good as new iff `w` is no Flusher; otherwise see `C33_compact_writer_violated`. -/
theorem C33_compact_writer_exact_partial {σ : Type} (T : Transport σ) (x : PW Compact.WState σ) (w : σ) (cs : List WCall) :
    (PW.run T Compact.wimpl cs (Compact.resetPW x w)).bind (fun r => .done (r.1, r.2.c, r.2.b)) =
      (PW.run (noFlush T) Compact.wimpl cs (Compact.newPW x.b.size w)).bind (fun r => .done (r.1, r.2.c, r.2.b)) := by
  have key : ∀ (cs : List WCall) (c : Compact.WState) (b : BufWriter σ),
      (PW.run T Compact.wimpl cs ⟨c, b, false⟩).bind (fun r => .done (r.1, r.2.c, r.2.b)) =
        (PW.run (noFlush T) Compact.wimpl cs ⟨c, b, true⟩).bind (fun r => .done (r.1, r.2.c, r.2.b)) := by
    intro cs
    induction cs with
    | nil => intro c b; rfl
    | cons d cs ih =>
      intro c b
      have hdone : ∀ (a : Option Err) (c : Compact.WState) (b : BufWriter σ),
          ((PW.run T Compact.wimpl cs ⟨c, b, false⟩).bind fun q => Out.done (a :: q.1, q.2)).bind (fun r => Out.done (r.1, r.2.c, r.2.b)) =
          ((PW.run (noFlush T) Compact.wimpl cs ⟨c, b, true⟩).bind fun q => Out.done (a :: q.1, q.2)).bind (fun r => Out.done (r.1, r.2.c, r.2.b)) := by
        intro a c b
        have := ih c b
        cases h1 : PW.run T Compact.wimpl cs ⟨c, b, false⟩ <;> cases h2 : PW.run (noFlush T) Compact.wimpl cs ⟨c, b, true⟩ <;>
          simp only [h1, h2, Out.bind_done, Out.bind] at this ⊢ <;> simp_all
      cases d with
      | op o =>
        simp only [PW.run, PW.step, BWProg.runBuf_noFlush]
        cases ((Compact.wimpl o) c).runBuf T b with
        | done r => exact hdone _ _ _
        | blocked => rfl
        | diverged => rfl
        | panicked => rfl
      | flush =>
        simp only [PW.run, PW.step, Out.bind_done, PW.flush, PW.flushTransport, BufWriter.flush_noFlush]
        cases h1 : (b.flush T).1 with
        | some e => exact hdone _ _ _
        | none => exact hdone _ _ _
  exact key cs {} _

/-- **C33** compact writer, on transports that are not Flushers: after `Reset(w)` all calls are answered as by a new writer on `w`, deliver the same bytes and leave the
transport in the same state. Missing: Flushers, see `C33_compact_writer_violated`. -/
theorem C33_compact_writer_partial {σ : Type} (T : Transport σ) (hF : ∀ s, T.isFlusher s = false) (x : PW Compact.WState σ) (w : σ)
    (cs : List WCall) :
    (PW.run T Compact.wimpl cs (Compact.resetPW x w)).bind (fun r => .done (r.1, r.2.c, r.2.b)) =
      (PW.run T Compact.wimpl cs (Compact.newPW x.b.size w)).bind (fun r => .done (r.1, r.2.c, r.2.b)) := by
  rw [C33_compact_writer_exact_partial]
  have : noFlush T = T := by
    obtain ⟨a, b, c, d, e⟩ := T
    simp only [noFlush]
    congr
    exact (funext hF).symm
  rw [this]

/-- **C33** is violated by the compact writer on a Flusher: the same calls leave a new writer's transport flushed and a reset writer's not. -/
theorem C33_compact_writer_violated :
    (PW.run limited Compact.wimpl [.op (.byte 1), .flush] (Compact.newPW 16 ([], 100, 0))).bind (fun r => .done r.2.b.wr) =
      .done ([1], 99, 1) ∧
    (PW.run limited Compact.wimpl [.op (.byte 1), .flush] (Compact.resetPW (Compact.newPW 16 ([], 50, 0)) ([], 100, 0))).bind (fun r => .done r.2.b.wr) =
      .done ([1], 99, 0) := by
  constructor <;> decide +kernel

/-- **C33** binary reader: whatever was done before, after `Reset(r)` every program of Reader calls gives what it gives on a new reader of the same
buffer size. -/
theorem C33_binary_reader {α : Type} (strict : Bool) (x : Unit × BufReader) (src : Source) (p : RProg α) :
    p.run (Binary.bufReader strict) (Binary.resetBR x src) = p.run (Binary.bufReader strict) (Binary.newBR x.2.size src) := rfl

/-- **C33** compact reader. -/
theorem C33_compact_reader {α : Type} (x : Compact.RState × BufReader) (src : Source) (p : RProg α) :
    p.run Compact.bufReader (Compact.resetBR x src) = p.run Compact.bufReader (Compact.newBR src) := rfl

/-- In the middle of a nested struct with a pending bool, an error and unread data; Reset forgets all of it. -/
example : Compact.resetBR (⟨[3, 0], 7, .true⟩, ⟨4096, [1, 2, 3], some .eof, ⟨[], .err .eof, fun _ => (1, false), 9⟩⟩)
      ⟨[5], .err .eof, fun _ => (1, false), 0⟩ = ({}, ⟨4096, [], none, ⟨[5], .err .eof, fun _ => (1, false), 0⟩⟩) := rfl

end GoThrift
