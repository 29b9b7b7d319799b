import Verif.Proof.BufWriter
import Verif.Proof.Clean
import Verif.Spec.ShareW

/-!
# Writers that share a `bufio.Writer`
-/

namespace GoThrift

open Spec

/-! ## A `bufio.Writer` as a transport -/

namespace BufWriter
variable {σ : Type} {T : Transport σ}

/-- The count apart, it is `writeLoop`. -/
theorem writeLoopN_forget (direct : σ → Bool) (put : σ → Bytes → (Nat × Option Err) × σ) : ∀ (fuel nn : Nat) (p : Bytes) (b : BufWriter σ),
    (writeLoopN T direct put fuel nn p b).bind (fun r => .done (r.1.2, r.2)) = writeLoop T direct put fuel p b := by
  intro fuel
  induction fuel with
  | zero => intro nn p b; rfl
  | succ fuel ih =>
    intro nn p b
    rw [writeLoopN, writeLoop]
    by_cases hc : p.length > b.available ∧ b.err = none
    · rw [if_pos hc, if_pos hc]
      by_cases hd : b.buf.length = 0 ∧ direct b.wr = true
      · rw [if_pos hd, if_pos hd]; exact ih _ _ _
      · rw [if_neg hd, if_neg hd]; exact ih _ _ _
    · rw [if_neg hc, if_neg hc]
      cases b.err <;> rfl

theorem writeLoopN_count (direct : σ → Bool) (put : σ → Bytes → (Nat × Option Err) × σ) (hput : PutOK put) : ∀ (fuel nn : Nat) (p : Bytes) (b : BufWriter σ) (n : Nat) (e : Option Err)
    (b' : BufWriter σ), writeLoopN T direct put fuel nn p b = .done ((n, e), b') → nn ≤ n ∧ n ≤ nn + p.length ∧ (n < nn + p.length → e ≠ none) := by
  intro fuel
  induction fuel with
  | zero => intro nn p b n e b' h; cases h
  | succ fuel ih =>
    intro nn p b n e b' h
    rw [writeLoopN] at h
    by_cases hc : p.length > b.available ∧ b.err = none
    · rw [if_pos hc] at h
      by_cases hd : b.buf.length = 0 ∧ direct b.wr = true
      · rw [if_pos hd] at h
        obtain ⟨h1, h2, h3⟩ := ih _ _ _ _ _ _ h
        have := (hput b.wr p).1
        rw [List.length_drop] at h2 h3
        exact ⟨by omega, by omega, fun hl => h3 (by omega)⟩
      · rw [if_neg hd] at h
        obtain ⟨h1, h2, h3⟩ := ih _ _ _ _ _ _ h
        rw [List.length_drop] at h2 h3
        exact ⟨by omega, by omega, fun hl => h3 (by omega)⟩
    · rw [if_neg hc] at h
      cases hb : b.err with
      | some e0 =>
        rw [hb] at h
        cases h
        exact ⟨by omega, by omega, fun _ hn => by cases hn⟩
      | none =>
        rw [hb] at h
        cases h
        exact ⟨by omega, by omega, fun hl => by omega⟩

theorem stack_honest (hT : T.Honest) : (stack T).Honest := by
  have key : ∀ (direct : σ → Bool) (put : σ → Bytes → (Nat × Option Err) × σ) (_ : PutOK put) (s : BufWriter σ) (p : Bytes),
      let r := (match writeLoopN T direct put (p.length + 3) 0 p s with | .done r => r | _ => ((0, some .shortWrite), s) : (Nat × Option Err) × BufWriter σ)
      r.1.1 ≤ p.length ∧ (r.1.1 < p.length → r.1.2 ≠ none) := by
    intro direct put hput s p
    cases h : writeLoopN T direct put (p.length + 3) 0 p s with
    | done r =>
      obtain ⟨⟨n, e⟩, b'⟩ := r
      have := writeLoopN_count direct put hput _ _ _ _ _ _ _ h
      rw [Nat.zero_add] at this
      exact this.2
    | blocked => exact ⟨Nat.zero_le _, fun _ hn => by cases hn⟩
    | diverged => exact ⟨Nat.zero_le _, fun _ hn => by cases hn⟩
    | panicked => exact ⟨Nat.zero_le _, fun _ hn => by cases hn⟩
  have h1 : PutOK T.write := fun s p => ⟨hT.write_le s p, hT.write_err s p⟩
  have h2 : PutOK T.writeString := fun s p => ⟨hT.writeString_le s p, hT.writeString_err s p⟩
  exact ⟨fun s p => (key _ _ h1 s p).1, fun s p => (key _ _ h1 s p).2, fun s p => (key _ _ h2 s p).1, fun s p => (key _ _ h2 s p).2⟩

/-- The bytes that are counted, and no others, may have been sent. -/
theorem writeLoopN_good (hT : T.Honest) (direct : σ → Bool) (put : σ → Bytes → (Nat × Option Err) × σ) (hput : PutOK put) : ∀ (fuel nn : Nat) (p : Bytes) (b : BufWriter σ) (n : Nat)
    (e : Option Err) (b' : BufWriter σ) (D : Bytes), Good b D → writeLoopN T direct put fuel nn p b = .done ((n, e), b') → Good b' (D ++ p.take (n - nn)) := by
  intro fuel
  induction fuel with
  | zero => intro nn p b n e b' D _ h; cases h
  | succ fuel ih =>
    intro nn p b n e b' D hg h
    have hcount := writeLoopN_count direct put hput _ _ _ _ _ _ _ h
    rw [writeLoopN] at h
    cases he : b.err with
    | some e0 =>
      rw [if_neg (by simp [he]), he] at h
      cases h
      exact hg.mono e0 he _
    | none =>
      have hok := hg.ok he
      by_cases hc : p.length > b.available ∧ b.err = none
      · rw [if_pos hc] at h
        by_cases hd : b.buf.length = 0 ∧ direct b.wr = true
        · rw [if_pos hd] at h
          have hb : b.buf = [] := List.length_eq_zero_iff.1 hd.1
          have hg' : Good { b with err := (put b.wr p).1.2, wr := (put b.wr p).2, sent := b.sent ++ p.take (put b.wr p).1.1 } (D ++ p.take (put b.wr p).1.1) :=
            ⟨hg.pos, fun _ => by simp only [hb, List.append_nil] at hok ⊢; rw [hok], fun _ _ => by
              simp only [hb, List.append_nil] at hok ⊢; rw [hok]; exact List.prefix_rfl⟩
          have h2 := writeLoopN_count direct put hput _ _ _ _ _ _ _ h
          have := ih _ _ _ _ _ _ _ hg' h
          rw [List.append_assoc, ← List.take_add] at this
          rwa [show (put b.wr p).1.1 + (n - (nn + (put b.wr p).1.1)) = n - nn by omega] at this
        · rw [if_neg hd] at h
          have hg0 : Good { b with buf := b.buf ++ p.take (min b.available p.length) } (D ++ p.take (min b.available p.length)) :=
            ⟨hg.pos, fun _ => by simp only; rw [← List.append_assoc, hok], fun e' h' => by simp only at h'; rw [he] at h'; cases h'⟩
          obtain ⟨e1, b1, h1, _, h3, _, _, _⟩ := flush_spec hT hg0
          dsimp only at h
          rw [h1] at h
          have h2 := writeLoopN_count direct put hput _ _ _ _ _ _ _ h
          have := ih _ _ _ _ _ _ _ h3 h
          rw [List.append_assoc, ← List.take_add] at this
          rwa [show min b.available p.length + (n - (nn + min b.available p.length)) = n - nn by omega] at this
      · rw [if_neg hc, he] at h
        cases h
        rw [show nn + p.length - nn = p.length by omega, List.take_length]
        exact ⟨hg.pos, fun _ => by simp only; rw [← List.append_assoc, hok], fun e' h' => by cases h'⟩

end BufWriter

/-- `I s D`: the transport has accepted `D`. -/
structure Transport.Logs {σ : Type} (T : Transport σ) (I : σ → Bytes → Prop) : Prop where
  write : ∀ s D p, I s D → I (T.write s p).2 (D ++ p.take (T.write s p).1.1)
  writeString : ∀ s D p, I s D → I (T.writeString s p).2 (D ++ p.take (T.writeString s p).1.1)
  flush : ∀ s D, I s D → I (T.flush s).2 D

namespace BufWriter
variable {σ : Type} {T : Transport σ}

theorem stack_logs (hT : T.Honest) : (stack T).Logs Good := by
  have key : ∀ (direct : σ → Bool) (put : σ → Bytes → (Nat × Option Err) × σ) (_ : PutOK put) (s : BufWriter σ) (D p : Bytes), Good s D →
      let r := (match writeLoopN T direct put (p.length + 3) 0 p s with | .done r => r | _ => ((0, some .shortWrite), s) : (Nat × Option Err) × BufWriter σ)
      Good r.2 (D ++ p.take r.1.1) := by
    intro direct put hput s D p hg
    cases h : writeLoopN T direct put (p.length + 3) 0 p s with
    | done r =>
      obtain ⟨⟨n, e⟩, b'⟩ := r
      exact writeLoopN_good hT direct put hput _ _ _ _ _ _ _ _ hg h
    | blocked => simpa using hg
    | diverged => simpa using hg
    | panicked => simpa using hg
  have h1 : PutOK T.write := fun s p => ⟨hT.write_le s p, hT.write_err s p⟩
  have h2 : PutOK T.writeString := fun s p => ⟨hT.writeString_le s p, hT.writeString_err s p⟩
  refine ⟨fun s D p h => key _ _ h1 s D p h, fun s D p h => key _ _ h2 s D p h, fun s D h => ?_⟩
  obtain ⟨e, b', g1, _, g3, _⟩ := flush_spec hT h
  show Good (flush T s).2 D
  rw [g1]
  exact g3

section
variable {I : σ → Bytes → Prop} (hL : T.Logs I)
include hL

theorem flush_logs (b : BufWriter σ) (h : I b.wr b.sent) : I (flush T b).2.wr (flush T b).2.sent := by
  unfold flush
  cases b.err with
  | some e => exact h
  | none =>
    dsimp only
    split
    · exact h
    · split <;> exact hL.write _ _ _ h

theorem writeLoop_logs (direct : σ → Bool) (put : σ → Bytes → (Nat × Option Err) × σ) (hput : ∀ s D p, I s D → I (put s p).2 (D ++ p.take (put s p).1.1)) :
    ∀ (fuel : Nat) (p : Bytes) (b : BufWriter σ) (e : Option Err) (b' : BufWriter σ), I b.wr b.sent → writeLoop T direct put fuel p b = .done (e, b') → I b'.wr b'.sent := by
  intro fuel
  induction fuel with
  | zero => intro p b e b' _ h; cases h
  | succ fuel ih =>
    intro p b e b' hb h
    rw [writeLoop] at h
    split at h
    · split at h
      · exact ih _ _ _ _ (hput _ _ _ hb) h
      · exact ih _ _ _ _ (flush_logs hL { b with buf := b.buf ++ p.take (min b.available p.length) } hb) h
    · split at h
      · cases h; exact hb
      · cases h; exact hb

theorem put_logs (kind : WKind) (p : Bytes) (b : BufWriter σ) (e : Option Err) (b' : BufWriter σ) (hb : I b.wr b.sent) (h : b.put T kind p = .done (e, b')) : I b'.wr b'.sent := by
  cases kind with
  | bytes => exact writeLoop_logs hL _ _ hL.write _ _ _ _ _ hb h
  | string => exact writeLoop_logs hL _ _ hL.writeString _ _ _ _ _ hb h
  | byte =>
    simp only [put, writeByte] at h
    split at h
    · cases h; exact hb
    · split at h
      · have := flush_logs hL _ hb
        split at h
        · cases h; exact this
        · cases h; exact this
      · cases h; exact hb

theorem runBuf_logs {α : Type} (P : BWProg α) : ∀ (b : BufWriter σ) r, I b.wr b.sent → P.runBuf T b = .done r → I r.2.wr r.2.sent := by
  induction P with
  | ret a => intro b r hb h; cases h; exact hb
  | write kind p k ih =>
    intro b r hb h
    rw [BWProg.runBuf] at h
    obtain ⟨q, h1, h2⟩ := Out.bind_eq_done h
    exact ih _ _ _ (put_logs hL kind p b q.1 q.2 hb h1) h2
  | ensure n k ih =>
    intro b r hb h
    rw [BWProg.runBuf] at h
    refine ih _ _ _ ?_ h
    unfold ensure
    split
    · exact hb
    · exact flush_logs hL _ hb

end

end BufWriter

theorem PW.flush_logs {C σ : Type} {T : Transport σ} {I : σ → Bytes → Prop} (hL : T.Logs I) (x : PW C σ) (h : I x.b.wr x.b.sent) : I (x.flush T).2.b.wr (x.flush T).2.b.sent := by
  have := BufWriter.flush_logs hL _ h
  unfold PW.flush
  dsimp only
  split
  · exact this
  · unfold flushTransport
    split
    · exact hL.flush _ _ this
    · exact this

theorem PW.run_logs {C σ : Type} {T : Transport σ} {I : σ → Bytes → Prop} (hL : T.Logs I) (impl : WOp → WM C Unit) : ∀ (cs : List WCall) (x : PW C σ) r, I x.b.wr x.b.sent →
    PW.run T impl cs x = .done r → I r.2.b.wr r.2.b.sent := by
  intro cs
  induction cs with
  | nil => intro x r hx h; cases h; exact hx
  | cons c cs ih =>
    intro x r hx h
    rw [PW.run] at h
    obtain ⟨q, h1, h2⟩ := Out.bind_eq_done h
    obtain ⟨q', h3, h4⟩ := Out.bind_eq_done h2
    cases h4
    refine ih q.2 q' ?_ h3
    cases c with
    | op o =>
      rw [PW.step] at h1
      obtain ⟨q'', h5, h6⟩ := Out.bind_eq_done h1
      cases h6
      exact BufWriter.runBuf_logs hL _ _ _ hx h5
    | flush =>
      rw [PW.step] at h1
      cases h1
      exact PW.flush_logs hL x hx

namespace Share

variable {σ : Type} {T : Transport σ}

theorem WState.step_eq (st : WState) (o : WOp) : st.step o = (errOf (st.impl o).ideal.1.1, (st.impl o).ideal.1.2, (st.impl o).ideal.2) := by
  cases st <;> simp [WState.step, WState.impl, BWProg.ideal_bind, BWProg.ideal, WM.ideal]

theorem WState.impl_failed (hT : T.Honest) (st : WState) (o : WOp) (b : BufWriter σ) (D : Bytes) (e : Err) (hg : b.Good D) (he : b.err = some e) (hne : (st.step o).2.2 ≠ []) :
    ∃ r e', (st.impl o).runBuf T b = .done (r, b) ∧ r.1 = .error e' := by
  cases st with
  | binary strict =>
    obtain ⟨r, h1, h2⟩ := Binary.strict_wimpl strict o σ T hT () b D e hg he
    rcases h2 with ⟨e', h2⟩ | ⟨_, h3⟩
    · exact ⟨(r.1, .binary strict), e', by rw [WState.impl, BWProg.runBuf_bind, h1]; rfl, h2⟩
    · exact absurd h3 hne
  | compact c =>
    obtain ⟨r, h1, h2⟩ := Compact.strict_wimpl o σ T hT c b D e hg he
    rcases h2 with ⟨e', h2⟩ | ⟨_, h3⟩
    · exact ⟨(r.1, .compact r.2), e', by rw [WState.impl, BWProg.runBuf_bind, h1]; rfl, h2⟩
    · exact absurd h3 hne

theorem WState.again_eq (st : WState) : st.again = st.proto.startW := by cases st <;> rfl

/-- The world against the sink. -/
structure Trk (w : WWorld σ) (v : Sink) : Prop where
  good : w.b.Good v.out
  big : 4096 ≤ w.b.size
  own : ∀ x ∈ w.ws, x.own = none
  len : w.ws.length = v.ws.length
  same : w.b.err = none → w.ws.map (·.st) = v.ws

/-- Is it a flush? -/
def WAct.isFlush : WAct → Bool
  | .flush _ => true
  | .flushOwn => true
  | _ => false

theorem Trk.get {w : WWorld σ} {v : Sink} (h : Trk w v) (hn : w.b.err = none) (i : Nat) : v.ws[i]? = (w.ws[i]?).map (·.st) := by
  rw [← h.same hn, List.getElem?_map]

theorem Trk.none_iff {w : WWorld σ} {v : Sink} (h : Trk w v) (i : Nat) : w.ws[i]? = none ↔ v.ws[i]? = none := by
  rw [List.getElem?_eq_none_iff, List.getElem?_eq_none_iff, h.len]

theorem own_set {ws : List PWr} (h : ∀ x ∈ ws, x.own = none) (i : Nat) (y : PWr) (hy : y.own = none) : ∀ x ∈ ws.set i y, x.own = none := by
  intro x hx
  rcases List.mem_or_eq_of_mem_set hx with hx | rfl
  · exact h x hx
  · exact hy

theorem step_spec (hT : T.Honest) (a : WAct) {w : WWorld σ} {v : Sink} (h : Trk w v) :
    ∃ e w', w.step T a = .done (e, w') ∧ Trk w' (v.step a).2 ∧ w'.b.size = w.b.size ∧ (w'.b.err = none → a.isFlush = false → e = (v.step a).1) ∧
      (w.Flushes a → e = none → w'.b.buf = [] ∧ w'.b.sent = v.out ∧ w'.b.err = none) ∧
      (∀ e', w.b.err = some e' → w'.b = w.b ∧ (w.Flushes a → e = some e')) := by
  cases a with
  | new p =>
    refine ⟨none, _, rfl, ⟨h.good, h.big, ?_, ?_, fun hn => ?_⟩, rfl, fun _ _ => rfl, fun hf => hf.elim, fun _ _ => ⟨rfl, fun hf => hf.elim⟩⟩
    · intro x hx
      rcases List.mem_append.1 hx with hx | hx
      · exact h.own x hx
      · rw [List.mem_singleton.1 hx]
        exact if_pos h.big
    · simp only [Sink.step, List.length_append, List.length_singleton, h.len]
    · simp only [Sink.step, List.map_append, h.same hn]; rfl
  | op i o =>
    rw [WWorld.step, Sink.step]
    cases hx : w.ws[i]? with
    | none =>
      rw [(h.none_iff i).1 hx]
      exact ⟨none, w, rfl, h, rfl, fun _ _ => rfl, fun hf => hf.elim, fun _ _ => ⟨rfl, fun hf => hf.elim⟩⟩
    | some x =>
      have hxo : x.own = none := h.own x (List.mem_of_getElem? hx)
      obtain ⟨st, hst⟩ : ∃ st, v.ws[i]? = some st := by
        cases hv : v.ws[i]? with
        | none => rw [(h.none_iff i).2 hv] at hx; cases hx
        | some st => exact ⟨st, rfl⟩
      rw [hst]
      dsimp only
      rw [opPWr, hxo]
      dsimp only
      cases hb : w.b.err with
      | none =>
        have : st = x.st := by
          have := h.get hb i
          rw [hst, hx] at this
          exact Option.some.inj this
        subst this
        obtain ⟨r, b', h1, h2, h3, h4⟩ := BWProg.runBuf_spec T hT (x.st.impl o) w.b v.out h.good
        rw [h1, Out.bind_done, Out.bind_done, WState.step_eq]
        refine ⟨_, _, rfl, ⟨h2, by simp only [h3]; exact h.big, own_set h.own i _ rfl, by simp only [List.length_set, h.len], fun hn => ?_⟩, h3, fun hn _ => ?_,
          fun hf => hf.elim, fun _ h' => by cases h'⟩
        · simp only [List.map_set, h.same hb, h4 hn]
        · simp only [h4 hn]
      | some e =>
        obtain ⟨r, h1⟩ := BWProg.runBuf_failed T hT (x.st.impl o) w.b v.out h.good e hb
        rw [h1, Out.bind_done, Out.bind_done]
        refine ⟨_, _, rfl, ⟨h.good.mono e hb _, h.big, own_set h.own i _ rfl, by simp only [List.length_set, h.len], fun hn => ?_⟩, rfl, fun hn _ => ?_,
          fun hf => hf.elim, fun _ h' => ⟨rfl, fun hf => hf.elim⟩⟩
        all_goals simp only at hn; rw [hb] at hn; cases hn
  | flush i =>
    rw [WWorld.step, Sink.step]
    cases hx : w.ws[i]? with
    | none =>
      have hi : ¬ w.Flushes (.flush i) := fun hf => absurd (List.getElem?_eq_none_iff.1 hx) (Nat.not_le.2 hf)
      exact ⟨none, w, rfl, h, rfl, (fun _ hf => by cases hf), fun hf => absurd hf hi, fun _ _ => ⟨rfl, fun hf => absurd hf hi⟩⟩
    | some x =>
      have hxo : x.own = none := h.own x (List.mem_of_getElem? hx)
      have hset : w.ws.set i x = w.ws := by
        obtain ⟨hi, rfl⟩ := List.getElem?_eq_some_iff.1 hx
        exact List.set_getElem_self hi
      dsimp only
      rw [flushPWr, hxo]
      dsimp only
      obtain ⟨e1, b1, h1, h2, h3, h4, h5, h6⟩ := BufWriter.flush_spec hT h.good
      rw [h1]
      have hback : b1.err = none → w.b.err = none := fun hn => by
        cases hb : w.b.err with
        | none => rfl
        | some e => rw [h6 e hb, hb] at hn; cases hn
      cases e1 with
      | some e =>
        dsimp only
        rw [hset]
        refine ⟨some e, _, rfl, ⟨h3, by rw [h4]; exact h.big, h.own, h.len, fun hn => h.same (hback hn)⟩, h4, (fun _ hf => by cases hf), (fun _ hc => by cases hc), fun e' he' => ?_⟩
        have := h6 e' he'
        subst this
        rw [he'] at h2
        exact ⟨rfl, fun _ => h2⟩
      | none =>
        obtain ⟨g1, g2⟩ := h5 rfl
        have hbn := hback h2.symm
        have : (if x.uw then (let q := b1.flush T; (q.1, x, q.2)) else ((none : Option Err), x, b1)) = (none, x, b1) := by
          have : b1.flush T = (none, b1) := by
            rw [BufWriter.flush, ← h2, g1]; rfl
          simp only [this]
          split <;> rfl
        simp only [this]
        rw [hset]
        refine ⟨none, _, rfl, ⟨h3, by rw [h4]; exact h.big, h.own, h.len, fun hn => h.same hbn⟩, h4, (fun _ hf => by cases hf), fun _ _ => ⟨g1, g2, h2.symm⟩, fun e' he' => ?_⟩
        rw [hbn] at he'; cases he'
  | reset i =>
    rw [WWorld.step, Sink.step]
    cases hx : w.ws[i]? with
    | none =>
      rw [(h.none_iff i).1 hx]
      exact ⟨none, w, rfl, h, rfl, fun _ _ => rfl, fun hf => hf.elim, fun _ _ => ⟨rfl, fun hf => hf.elim⟩⟩
    | some x =>
      have hxo : x.own = none := h.own x (List.mem_of_getElem? hx)
      obtain ⟨st, hst⟩ : ∃ st, v.ws[i]? = some st := by
        cases hv : v.ws[i]? with
        | none => rw [(h.none_iff i).2 hv] at hx; cases hx
        | some st => exact ⟨st, rfl⟩
      rw [hst]
      refine ⟨none, _, rfl, ⟨h.good, h.big, own_set h.own i _ (by rw [resetPWr, hxo]; rfl), by simp only [List.length_set, h.len], fun hn => ?_⟩, rfl, fun _ _ => rfl,
        fun hf => hf.elim, fun _ _ => ⟨rfl, fun hf => hf.elim⟩⟩
      have : st = x.st := by
        have := h.get hn i
        rw [hst, hx] at this
        exact Option.some.inj this
      simp only [List.map_set, h.same hn, resetPWr, this, WState.again_eq]
  | write kind p =>
    obtain ⟨e1, b1, h1, h2, h3, h4, h5⟩ := BufWriter.put_spec hT kind p h.good
    rw [WWorld.step, h1, Out.bind_done]
    refine ⟨e1, _, rfl, ⟨h3, by rw [h4]; exact h.big, h.own, h.len, fun hn => h.same ?_⟩, h4, fun hn _ => by rw [h2, hn]; rfl, fun hf => hf.elim,
      fun e' he' => ⟨h5 e' he', fun hf => hf.elim⟩⟩
    cases hb : w.b.err with
    | none => rfl
    | some e => simp only [h5 e hb, hb] at hn; cases hn
  | flushOwn =>
    rw [WWorld.step]
    obtain ⟨e1, b1, h1, h2, h3, h4, h5, h6⟩ := BufWriter.flush_spec hT h.good
    rw [h1]
    refine ⟨e1, _, rfl, ⟨h3, by rw [h4]; exact h.big, h.own, h.len, fun hn => h.same ?_⟩, h4, (fun _ hf => by cases hf), fun _ he => ?_, fun e' he' => ?_⟩
    · cases hb : w.b.err with
      | none => rfl
      | some e => simp only [h6 e hb, hb] at hn; cases hn
    · exact ⟨(h5 he).1, (h5 he).2, by rw [← h2, he]⟩
    · have := h6 e' he'
      subst this
      exact ⟨rfl, fun _ => by rw [h2, he']⟩

/-- A failed `*bufio.Writer`: what has something to write is refused. -/
theorem step_refused (hT : T.Honest) (a : WAct) {w : WWorld σ} {v : Sink} (h : Trk w v) (e : Err) (he : w.b.err = some e) (hw : Sink.Writes ⟨[], w.ws.map (·.st)⟩ a) :
    ∃ e' w', w.step T a = .done (some e', w') := by
  unfold Sink.Writes at hw
  cases a with
  | op i o =>
    rw [Sink.step] at hw
    rw [WWorld.step]
    cases hx : w.ws[i]? with
    | none => simp [hx] at hw
    | some x =>
      simp only [List.getElem?_map, hx, Option.map_some, List.nil_append] at hw
      obtain ⟨r, e', h1, h2⟩ := WState.impl_failed hT x.st o w.b v.out e h.good he hw
      dsimp only
      rw [opPWr, h.own x (List.mem_of_getElem? hx)]
      dsimp only
      rw [h1, Out.bind_done, Out.bind_done, h2]
      exact ⟨e', _, rfl⟩
  | write kind p =>
    obtain ⟨e1, b1, h1, h2, _, _, h5⟩ := BufWriter.put_spec hT kind p h.good
    rw [WWorld.step, h1, Out.bind_done, h2, h5 e he, he]
    exact ⟨e, _, rfl⟩
  | reset i =>
    rw [Sink.step] at hw
    exact absurd (by split <;> rfl) hw
  | new | flush | flushOwn => exact absurd rfl hw

theorem run_spec (hT : T.Honest) : ∀ (as : List WAct) (w : WWorld σ) (v : Sink), Trk w v →
    ∃ es w', w.run T as = .done (es, w') ∧ Trk w' (v.run as).2 ∧ (∀ e, w.b.err = some e → w'.b = w.b) ∧
      (w'.b.err = none → plainAnswers as es = plainAnswers as (v.run as).1) := by
  intro as
  induction as with
  | nil => intro w v h; exact ⟨[], w, rfl, h, fun _ _ => rfl, fun _ => rfl⟩
  | cons a as ih =>
    intro w v h
    obtain ⟨e, w1, h1, h2, _, h4, _, h6⟩ := step_spec hT a h
    obtain ⟨es, w', g1, g2, g3, g4⟩ := ih w1 _ h2
    refine ⟨e :: es, w', by rw [WWorld.run, h1, Out.bind_done, g1]; rfl, g2, fun e' he' => ?_, fun hn => ?_⟩
    · rw [← (h6 e' he').1]; exact g3 e' (by rw [(h6 e' he').1]; exact he')
    · have hn1 : w1.b.err = none := by
        cases hx : w1.b.err with
        | none => rfl
        | some e' => rw [g3 e' hx, hx] at hn; cases hn
      have g4 := g4 hn
      have h4 := h4 hn1
      rw [Sink.run]
      cases a with
      | flush i => exact g4
      | flushOwn => exact g4
      | new | op | reset | write => rw [plainAnswers, plainAnswers, g4, h4 rfl] <;> simp

/-! ## Marshal through a shared writer -/

/-- The `i`-th protocol writer on the sink. -/
def sinkWriter (i : Nat) : Wtr Sink where
  step o v := .done (v.step (.op i o))

theorem prog_spec (hT : T.Honest) (i : Nat) (P : WProg) : ∀ (w : WWorld σ) (v : Sink) r, Trk w v → P.run (sharedWriter T i) w = .done r →
    (∀ e, w.b.err = some e → r.2.b = w.b) ∧ (∃ v', Trk r.2 v') ∧ (r.2.b.err = none → ∃ v', P.run (sinkWriter i) v = .done (r.1, v') ∧ Trk r.2 v') := by
  induction P with
  | ret e => intro w v r h hr; cases hr; exact ⟨fun _ _ => rfl, ⟨v, h⟩, fun _ => ⟨v, rfl, h⟩⟩
  | diverge => intro w v r h hr; cases hr
  | panic => intro w v r h hr; cases hr
  | call o k ih =>
    intro w v r h hr
    obtain ⟨e, w1, h1, h2, _, h4, _, h6⟩ := step_spec hT (.op i o) h
    rw [WProg.run] at hr
    simp only [sharedWriter] at hr
    rw [h1, Out.bind_done] at hr
    obtain ⟨g1, g0, g2⟩ := ih e w1 _ r h2 hr
    refine ⟨fun e' he' => ?_, g0, fun hn => ?_⟩
    · rw [← (h6 e' he').1]; exact g1 e' (by rw [(h6 e' he').1]; exact he')
    · have hn1 : w1.b.err = none := by
        cases hx : w1.b.err with
        | none => rfl
        | some e' => rw [g1 e' hx, hx] at hn; cases hn
      obtain ⟨v', q1, q2⟩ := g2 hn
      refine ⟨v', ?_, q2⟩
      rw [WProg.run]
      simp only [sinkWriter, Out.bind_done]
      rw [← h4 hn1 rfl]
      exact q1

theorem sink_binary (strict : Bool) (i : Nat) (P : WProg) : ∀ (D s : Bytes) (ws : List WState), ws[i]? = some (.binary strict) →
    P.run (sinkWriter i) ⟨D ++ s, ws⟩ = (P.run (Binary.writer strict) ((), s)).bind fun r => .done (r.1, ⟨D ++ r.2.2, ws⟩) := by
  induction P with
  | ret e => intro D s ws _; rfl
  | diverge => intro D s ws _; rfl
  | panic => intro D s ws _; rfl
  | call o k ih =>
    intro D s ws h
    have hset : ws.set i (.binary strict) = ws := by
      obtain ⟨hi, hx⟩ := List.getElem?_eq_some_iff.1 h
      rw [← hx, List.set_getElem_self hi]
    rw [WProg.run, WProg.run]
    simp only [sinkWriter, Sink.step, h, Binary.writer, WState.step, Out.bind_done, hset]
    rw [List.append_assoc]
    exact ih _ D _ ws h

theorem sink_compact (i : Nat) (P : WProg) : ∀ (D s : Bytes) (ws : List WState) (c : Compact.WState), ws[i]? = some (.compact c) →
    P.run (sinkWriter i) ⟨D ++ s, ws⟩ = (P.run Compact.writer (c, s)).bind fun r => .done (r.1, ⟨D ++ r.2.2, ws.set i (.compact r.2.1)⟩) := by
  induction P with
  | ret e =>
    intro D s ws c h
    have hset : ws.set i (.compact c) = ws := by
      obtain ⟨hi, hx⟩ := List.getElem?_eq_some_iff.1 h
      rw [← hx, List.set_getElem_self hi]
    simp only [WProg.run, Out.bind_done, hset]
  | diverge => intro D s ws c _; rfl
  | panic => intro D s ws c _; rfl
  | call o k ih =>
    intro D s ws c h
    obtain ⟨hi, _⟩ := List.getElem?_eq_some_iff.1 h
    rw [WProg.run, WProg.run]
    simp only [sinkWriter, Sink.step, h, Compact.writer, WState.step, Out.bind_done]
    rw [List.append_assoc]
    have := ih (errOf ((Compact.wimpl o).ideal c).1.1) D (s ++ ((Compact.wimpl o).ideal c).2) (ws.set i (.compact ((Compact.wimpl o).ideal c).1.2)) ((Compact.wimpl o).ideal c).1.2
      (List.getElem?_set_self hi)
    simp only [List.set_set] at this
    exact this

theorem writeAll_spec (hT : T.Honest) (env : Env) : ∀ (segs : List Seg) (outs : List Bytes), Each (Seg.Writes env) segs outs →
    ∃ N, ∀ fuel, N ≤ fuel → ∀ (w : WWorld σ) (v : Sink) (e : Option Err) (w' : WWorld σ), Trk w v → writeAll T env fuel segs w = .done (e, w') →
      (∀ e', w.b.err = some e' → w'.b = w.b) ∧ (∃ v', Trk w' v') ∧ (w'.b.err = none → e = none ∧ ∃ v', Trk w' v' ∧ v'.out = v.out ++ outs.flatten) := by
  intro segs outs H
  induction H with
  | nil => exact ⟨0, fun fuel _ w v e w' h hr => by cases hr; exact ⟨fun _ _ => rfl, ⟨v, h⟩, fun _ => ⟨rfl, v, h, by simp⟩⟩⟩
  | @cons seg out segs outs hw _ ih =>
    obtain ⟨N, hN⟩ := ih
    -- Marshal on the sink
    have key : ∀ p x t ptr u, seg = .value p x t ptr u → ∃ M, ∀ fuel, M ≤ fuel → ∀ (v : Sink), ∃ ws,
        (Marshal env fuel x).run (sinkWriter v.ws.length) (v.step (.new p)).2 = .done (none, ⟨v.out ++ out, ws⟩) := by
      intro p x t ptr u hseg
      subst hseg
      cases p with
      | binary strict =>
        obtain ⟨-, -, -, -, -, -, M, hM⟩ := hw
        refine ⟨M, fun fuel hf v => ⟨v.ws ++ [.binary strict], ?_⟩⟩
        have := sink_binary strict v.ws.length (Marshal env fuel x) v.out [] (v.ws ++ [.binary strict]) (by simp)
        rw [List.append_nil, hM fuel hf] at this
        exact this
      | compact =>
        obtain ⟨-, -, -, -, -, -, c', M, hM⟩ := hw
        refine ⟨M, fun fuel hf v => ⟨(v.ws ++ [WState.compact {}]).set v.ws.length (.compact c'), ?_⟩⟩
        have := sink_compact v.ws.length (Marshal env fuel x) v.out [] (v.ws ++ [.compact {}]) {} (by simp)
        rw [List.append_nil, hM fuel hf] at this
        exact this
    cases seg with
    | value p x t ptr u =>
      obtain ⟨M, hM⟩ := key p x t ptr u rfl
      refine ⟨max N M, fun fuel hf w v e w' h hr => ?_⟩
      rw [writeAll] at hr
      obtain ⟨e1, w1, h1, h2, _, _, _, h6⟩ := step_spec hT (.new p) h
      rw [h1, Out.bind_done] at hr
      obtain ⟨q, hq, hr⟩ := Out.bind_eq_done hr
      obtain ⟨g1, ⟨v0, g0⟩, g2⟩ := prog_spec hT w.ws.length (Marshal env fuel x) w1 _ q h2 hq
      have hstick : ∀ e', w.b.err = some e' → q.2.b = w.b := fun e' he' => by
        have := (h6 e' he').1
        rw [g1 e' (by rw [this]; exact he'), this]
      cases hb : q.2.b.err with
      | none =>
        obtain ⟨v1, k1, k2⟩ := g2 hb
        obtain ⟨ws, hM⟩ := hM fuel (by omega) v
        rw [h.len] at k1
        rw [hM] at k1
        injection k1 with k1
        obtain ⟨k0, rfl⟩ := Prod.mk.inj k1
        rw [← k0] at hr
        obtain ⟨l1, l2, l3⟩ := hN fuel (by omega) q.2 _ e w' k2 hr
        refine ⟨fun e' he' => ?_, l2, fun hn => ?_⟩
        · rw [hstick e' he', he'] at hb; cases hb
        · obtain ⟨m1, v', m2, m3⟩ := l3 hn
          exact ⟨m1, v', m2, by rw [m3, List.flatten_cons, List.append_assoc]⟩
      | some e0 =>
        cases hq1 : q.1 with
        | some e1 =>
          rw [hq1] at hr
          cases hr
          exact ⟨hstick, ⟨v0, g0⟩, fun hn => by rw [hn] at hb; cases hb⟩
        | none =>
          rw [hq1] at hr
          obtain ⟨l1, l2, l3⟩ := hN fuel (by omega) q.2 _ e w' g0 hr
          refine ⟨fun e' he' => ?_, l2, fun hn => ?_⟩
          · rw [l1 e0 hb, hstick e' he']
          · rw [l1 e0 hb, hb] at hn; cases hn
    | bytes b =>
      refine ⟨N, fun fuel hf w v e w' h hr => ?_⟩
      obtain rfl : out = b := hw
      rw [writeAll] at hr
      obtain ⟨e1, w1, h1, h2, _, h4, _, h6⟩ := step_spec hT (.write .bytes out) h
      rw [h1, Out.bind_done] at hr
      cases e1 with
      | some e1 =>
        cases hr
        refine ⟨fun e' he' => (h6 e' he').1, ⟨_, h2⟩, fun hn => ?_⟩
        have := h4 hn rfl
        cases this
      | none =>
        obtain ⟨g1, g2, g3⟩ := hN fuel hf w1 _ e w' h2 hr
        refine ⟨fun e' he' => ?_, g2, fun hn => ?_⟩
        · rw [← (h6 e' he').1]; exact g1 e' (by rw [(h6 e' he').1]; exact he')
        · obtain ⟨k1, v', k2, k3⟩ := g3 hn
          exact ⟨k1, v', k2, by rw [k3, List.flatten_cons, ← List.append_assoc]; rfl⟩

end Share
end GoThrift
