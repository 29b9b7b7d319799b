import Verif.Proof.ShareW
import Verif.Props.BufWriter
import Verif.Props.Share

/-!
# C78: protocol writers on the caller's own `bufio.Writer`
-/

namespace GoThrift.Share

open Spec

/-- **C78** a caller has a `*bufio.Writer` of at least 4096 bytes, makes protocol writers from it, uses, flushes and resets (to the same) them in any order and writes to it itself. Everything arrives in the
order in which it was written: what the transport has accepted is a prefix of it, all of it if nothing has failed and a Flush (of whichever writer) has returned nil. The answers are those of writers that
cannot fail, until the transport fails; from then on nothing more is delivered, every Flush reports the failure, and everything that has something to write is refused. -/
theorem C78_shared {σ : Type} (T : Transport σ) (hT : T.Honest) (n : Nat) (s : σ) (as : List WAct) :
    ∃ es w, (WWorld.mk (.new (4096 + n) s) []).run T as = .done (es, w) ∧
      let v := ((Sink.mk [] []).run as).2
      w.b.sent <+: v.out ∧
      (plainAnswers as es ≠ plainAnswers as ((Sink.mk [] []).run as).1 → ∃ e, w.b.err = some e) ∧
      (w.b.err = none → w.b.sent ++ w.b.buf = v.out) ∧
      (∀ a, w.Flushes a → ∀ w', w.step T a = .done (none, w') → w'.b.sent = v.out ∧ w'.b.buf = []) ∧
      (∀ e, w.b.err = some e →
        (∀ bs, ∃ es' w', w.run T bs = .done (es', w') ∧ w'.b.sent = w.b.sent ∧ w'.b.err = some e) ∧
        (∀ a, w.Flushes a → ∃ w', w.step T a = .done (some e, w')) ∧
        (∀ a, Sink.Writes ⟨[], w.ws.map (·.st)⟩ a → ∃ e' w', w.step T a = .done (some e', w'))) := by
  have h0 : Trk (WWorld.mk (.new (4096 + n) s) []) ⟨[], []⟩ := ⟨⟨by show 0 < 4096 + n; omega, fun _ => rfl, fun _ _ => List.prefix_rfl⟩, by show 4096 ≤ 4096 + n; omega, (fun x hx => by cases hx), rfl, fun _ => rfl⟩
  obtain ⟨es, w, h1, h2, h3, h4⟩ := run_spec hT as _ _ h0
  refine ⟨es, w, h1, ?_, fun hne => ?_, h2.good.ok, fun a ha w' hw => ?_, fun e he => ⟨fun bs => ?_, fun a ha => ?_, fun a ha => step_refused hT a h2 e he ha⟩⟩
  · cases hb : w.b.err with
    | none => exact ⟨_, h2.good.ok hb⟩
    | some e => exact h2.good.bad e hb
  · cases hb : w.b.err with
    | none => exact absurd (h4 hb) hne
    | some e => exact ⟨e, rfl⟩
  · obtain ⟨e, w1, g1, _, _, _, g5, _⟩ := step_spec hT a h2
    rw [hw] at g1
    injection g1 with g1
    obtain ⟨rfl, rfl⟩ := Prod.mk.inj g1
    exact ⟨(g5 ha rfl).2.1, (g5 ha rfl).1⟩
  · obtain ⟨es', w', g1, _, g3, _⟩ := run_spec hT bs w _ h2
    exact ⟨es', w', g1, by rw [g3 e he], by rw [g3 e he]; exact he⟩
  · obtain ⟨e', w1, g1, _, _, _, _, g6⟩ := step_spec hT a h2
    exact ⟨w1, by rw [g1, (g6 e he).2 ha]⟩

/-- **C78** any sequence of Go values, each with a protocol writer made for it from one `*bufio.Writer` of the caller's, and plain bytes: if a Flush of that returns nil, nothing has failed and the transport has
got the concatenation, which C77_mixed_stream reads back. -/
theorem C78_mixed_stream {σ : Type} (T : Transport σ) (hT : T.Honest) (n : Nat) (s : σ) (env : Env) (segs : List Seg) (outs : List Bytes) (hw : Each (Seg.Writes env) segs outs) :
    ∃ N, ∀ fuel, N ≤ fuel → ∀ e w, writeAll T env fuel segs (WWorld.mk (.new (4096 + n) s) []) = .done (e, w) →
      ∀ b, w.b.flush T = (none, b) → e = none ∧ b.sent = outs.flatten ∧ b.buf = [] := by
  have h0 : Trk (WWorld.mk (.new (4096 + n) s) []) ⟨[], []⟩ := ⟨⟨by show 0 < 4096 + n; omega, fun _ => rfl, fun _ _ => List.prefix_rfl⟩, by show 4096 ≤ 4096 + n; omega, (fun x hx => by cases hx), rfl, fun _ => rfl⟩
  obtain ⟨N, hN⟩ := writeAll_spec hT env segs outs hw
  refine ⟨N, fun fuel hf e w hr b hb => ?_⟩
  obtain ⟨_, ⟨v0, h2⟩, h3⟩ := hN fuel hf _ _ e w h0 hr
  obtain ⟨e1, b1, g1, g2, _, _, _, g6⟩ := BufWriter.flush_spec hT h2.good
  rw [hb] at g1
  obtain ⟨rfl, rfl⟩ := Prod.mk.inj g1
  have hn : w.b.err = none := by
    cases hx : w.b.err with
    | none => rfl
    | some e' => rw [g6 e' hx, hx] at g2; cases g2
  obtain ⟨k1, v', k2, k3⟩ := h3 hn
  obtain ⟨e2, b2, l1, _, _, _, l5, _⟩ := BufWriter.flush_spec hT k2.good
  rw [hb] at l1
  obtain ⟨rfl, rfl⟩ := Prod.mk.inj l1
  exact ⟨k1, by rw [(l5 rfl).2, k3]; rfl, (l5 rfl).1⟩

/-- What C78 says of a writer above a `*bufio.Writer` of any size `n` of the caller's. -/
def DeliversThrough {C : Type} (impl : WOp → WM C Unit) (w : Wtr (C × Bytes)) (c0 : C) (new : ∀ σ : Type, Nat → σ → PW C σ) : Prop :=
  ∀ (σ : Type) (T : Transport σ), T.Honest → ∀ (size : Nat), 0 < size → ∀ (n : Nat), 0 < n → ∀ (s : σ) (cs : List WCall),
    ∃ as x as' c out, PW.run (BufWriter.stack T) impl cs (new _ size (.new n s)) = .done (as, x) ∧ ideal w cs (c0, []) = .done (as', (c, out)) ∧
      -- the transport, below the caller's `*bufio.Writer`, has accepted a prefix
      x.b.wr.sent <+: out ∧
      -- as long as nothing fails, all bytes are in one of the three places, and the answers are right
      (x.b.err = none → x.b.wr.err = none → x.b.wr.sent ++ x.b.wr.buf ++ x.b.buf = out ∧ opAnswers cs as = opAnswers cs as') ∧
      -- Flush goes through to the transport
      ∀ x', x.flush (BufWriter.stack T) = (none, x') → x'.b.wr.sent = out ∧ x'.b.wr.buf = [] ∧ x'.b.buf = []

theorem deliversThrough {C : Type} (impl : WOp → WM C Unit) (c0 : C) (new : ∀ σ : Type, Nat → σ → PW C σ)
    (hnew : ∀ σ size (w : σ), new σ size w = ⟨c0, .new size w, true⟩) : DeliversThrough impl (idealWtr impl) c0 new := by
  intro σ T hT size hsize n hn s cs
  rw [hnew]
  have hS := BufWriter.stack_honest hT
  have hL := BufWriter.stack_logs hT
  have hnewGood : (BufWriter.new n s).Good [] := ⟨hn, fun _ => rfl, fun _ _ => List.prefix_rfl⟩
  obtain ⟨as, x, as', ⟨c, out⟩, h1, h2, h3, _, h5, _, h7⟩ := PW.run_spec (impl := impl) hS cs _ _ (PW.tracks_new size hsize (BufWriter.new n s) c0 true)
  have hg : x.b.wr.Good x.b.sent := PW.run_logs hL impl cs _ _ hnewGood h1
  have hpre : x.b.sent <+: out := by
    cases hb : x.b.err with
    | none => exact ⟨_, h3.good.ok hb⟩
    | some e => exact h3.good.bad e hb
  have hpre' : ∀ (b : BufWriter σ) (D : Bytes), b.Good D → b.sent <+: D := fun b D h => by
    cases hb : b.err with
    | none => exact ⟨_, h.ok hb⟩
    | some e => exact h.bad e hb
  refine ⟨as, x, as', c, out, h1, h2, (hpre' _ _ hg).trans hpre, fun e1 e2 => ⟨?_, h7 e1⟩, fun x' hx' => ?_⟩
  · rw [hg.ok e2]; exact h3.good.ok e1
  · obtain ⟨e, x'', g1, g2, _, _, g5, _⟩ := PW.flush_spec hS h3
    rw [hx'] at g1
    obtain ⟨rfl, rfl⟩ := Prod.mk.inj g1
    obtain ⟨k1, k2, _, wr0, k4, _, k6⟩ := g5 rfl
    have k4 : wr0.flush T = (none, x'.b.wr) := k4 ⟨rfl, h5⟩
    have hg0 : wr0.Good out := by
      have := BufWriter.flush_logs hL _ hg
      rw [k6] at this
      obtain ⟨e1, b1, l1, _, _, _, l5, _⟩ := BufWriter.flush_spec hS h3.good
      have he1 : e1 = none := by
        have hf := hx'
        unfold PW.flush at hf
        rw [l1] at hf
        cases e1 with
        | none => rfl
        | some e => cases hf
      rw [l1] at this
      rwa [(l5 he1).2] at this
    obtain ⟨e1, b1, l1, _, _, _, l5, _⟩ := BufWriter.flush_spec hT hg0
    rw [k4] at l1
    obtain ⟨rfl, rfl⟩ := Prod.mk.inj l1
    exact ⟨(l5 rfl).2, (l5 rfl).1, k2⟩

/-- **C78** binary: on a `*bufio.Writer` of the caller's that is smaller than 4096 bytes, and is wrapped; Flush goes through both to the transport. (With `T` itself of this kind, through any number.) -/
theorem C78_wrapped_binary (strict : Bool) : DeliversThrough (Binary.wimpl strict) (Binary.writer strict) () (fun _ => Binary.newPW) :=
  deliversThrough (Binary.wimpl strict) () (fun _ => Binary.newPW) (fun _ _ _ => rfl)

/-- **C78** compact. -/
theorem C78_wrapped_compact : DeliversThrough Compact.wimpl Compact.writer {} (fun _ => Compact.newPW) :=
  deliversThrough Compact.wimpl {} (fun _ => Compact.newPW) (fun _ _ _ => rfl)

/-- **C78** a `*bufio.Writer` above an honest transport is one, as are any number above each other. -/
theorem C78_stack_honest {σ : Type} (T : Transport σ) (hT : T.Honest) : (BufWriter.stack T).Honest := BufWriter.stack_honest hT

/-! ## Cases -/

/-- The caller writes 1, a protocol writer writes 2, the caller writes 3; then both are flushed. -/
def alternateW (p : Proto) : List WAct := [.new p, .write .byte [1], .op 0 (.byte 2), .write .byte [3], .flush 0, .flushOwn]

/-- **C78** the `*bufio.Writer` must have a buffer of 4096 bytes for the order to be kept. -/
theorem C78_needs_4096 (p : Proto) :
    ((WWorld.mk (.new 4096 (([] : Bytes), 9, 0)) []).run limited (alternateW p)).bind (fun r => .done (r.1, r.2.b.wr.1)) = .done ([none, none, none, none, none, none], [1, 2, 3]) ∧
    ((WWorld.mk (.new 4095 (([] : Bytes), 9, 0)) []).run limited (alternateW p)).bind (fun r => .done (r.1, r.2.b.wr.1)) = .done ([none, none, none, none, none, none], [1, 3, 2]) := by
  cases p with
  | binary strict => cases strict <;> decide +kernel
  | compact => decide +kernel

/-- **C32** a compact writer on a small `*bufio.Writer` of the caller's, reset to it again: Flush returns nil, but the byte is still in the caller's buffer. The binary writer is right, and so is a new compact one. -/
theorem C32_reset_to_bufio_violated :
    let acts p := [WAct.new p, .reset 0, .op 0 (.byte 2), .flush 0]
    let go p := ((WWorld.mk (.new 100 (([] : Bytes), 9, 0)) []).run limited (acts p)).bind (fun r => .done (r.1, r.2.b.wr.1))
    go .compact = .done ([none, none, none, none], []) ∧ go (.binary true) = .done ([none, none, none, none], [2]) := by decide +kernel

/-- A transport that takes 5 bytes: it fails while the third thing is flushed. -/
example : ((WWorld.mk (.new 4096 (([] : Bytes), 5, 0)) []).run limited
      [.new (.binary true), .new .compact, .op 0 (.i16 1), .op 1 (.i16 1), .write .string [7, 8], .op 0 (.byte 9), .flush 1, .op 1 (.byte 3), .reset 0, .flush 0, .flushOwn]).bind
        (fun r => .done (r.1, r.2.b.wr.1)) =
    .done ([none, none, none, none, none, none, some (.io 7), some (.io 7), none, some (.io 7), some (.io 7)], [0, 1, 2, 7, 8]) := by decide +kernel

/-- The mixed stream of C77 is written. -/
example : (writeAll limited Ex.env 20 [.value .compact (.val 0 Ex.valQ) 0 4 Ex.valQ, .bytes [9, 9], .value (.binary true) (.val 0 Ex.valQ) 0 4 Ex.valQ]
      (WWorld.mk (.new 4096 (([] : Bytes), 1000, 0)) [])).bind (fun r => .done (r.1, (r.2.b.flush limited).1, (r.2.b.flush limited).2.sent)) =
    .done (none, none, Ex.compactQ ++ [9, 9] ++ Ex.bytesQ) := by decide +kernel

/-- Through two buffers. -/
example : (PW.run (BufWriter.stack limited) Compact.wimpl [.op (.string [1, 2, 3, 4, 5, 6, 7]), .op (.i16 1), .flush] (Compact.newPW 5 (.new 3 ([], 100, 0)))).bind
      (fun r => .done (r.1, r.2.b.wr.wr.1)) = .done ([none, none, none], [7, 1, 2, 3, 4, 5, 6, 7, 2]) := by decide +kernel

end GoThrift.Share
