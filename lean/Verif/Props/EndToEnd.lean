import Verif.Proof.EndToEnd
import Verif.Props.BufWriter
import Verif.Props.Bufio
import Verif.Props.RoundTrip

/-!
# C58: messages sent through one transport and received through another
-/

namespace GoThrift

open Spec Spec.TVal

/-- The binary protocol gets messages through. -/
def Binary.codec (w r : Bool) (hwr : w = r ∨ (w = true ∧ r = false)) (size : Nat) (hsize : 16 ≤ size) (fin : End) :
    Codec (idealWtr (Binary.wimpl w)) (Binary.reader r) (fun _ => True) () size fin (fun _ => True) (fun h => h.name.length < 2 ^ 31) (fun tv => WF (2 ^ 31 - 1) tv) where
  encM := encBinMessage w
  enc := encBin
  mono _ _ _ := trivial
  msgW h _ b _ _ := Binary.message_write w h b
  endW s := by simp [idealWtr, Binary.wimpl, errOf]
  valW tv _ b _ _ := ⟨(), trivial, Binary.writes w tv b⟩
  msgR h rest hm _ := Binary.gives (o := .messageBegin) (Binary.message_read size hsize rest fin w r hwr h hm)
  endR s := Binary.gives (o := .messageEnd) rfl
  valR tv rest hv _ := Binary.holds r size hsize fin tv hv rest

/-- What a successful Flush says. -/
theorem flushed {C σ : Type} {T : Transport σ} (hT : T.Honest) {x x' : PW C σ} {s : C × Bytes} (h : PW.Tracks x s) (hf : x.flush T = (none, x')) :
    x'.b.sent = s.2 ∧ x'.b.buf = [] ∧ x.b.err = none ∧ x'.b.err = none := by
  obtain ⟨e0, x0, f1, -, -, -, f5, f6⟩ := PW.flush_spec hT h
  cases f1.symm.trans hf
  obtain ⟨g1, g2, g3, _⟩ := f5 rfl
  refine ⟨g1, g2, ?_, g3⟩
  cases hb : x.b.err with
  | none => rfl
  | some e => cases (f6 e hb).1

/-- **C58** binary: messages are sent with Marshal through a writer with any honest transport. If all calls and the final Flush return nil, the bytes that the transport has accepted are such that a reader
on any (fair) transport that delivers them, in any pieces, followed by anything, receives the same headers and, up to `RoundTrip`, the same values, and stops exactly behind them. -/
theorem C58_binary (env : Env) (w r : Bool) (hwr : w = r ∨ (w = true ∧ r = false)) {σ : Type} (T : Transport σ) (hT : T.Honest) (size : Nat) (hsize : 0 < size) (wr : σ)
    (ms : List Msg) (hok : ∀ m ∈ ms, m.OK env (2 ^ 31 - 1)) (x x' : PW Unit σ)
    (h : Sends env (Binary.bufWriter w T) (ms.map fun m => (m.h, m.x)) (Binary.newPW size wr) x) (hf : x.flush T = (none, x')) :
    ∃ vs, SameValues env ms vs ∧ ∀ (src : Source) (rest : Bytes) (rsize : Nat), src.Fair → src.data = x'.b.sent ++ rest → 16 ≤ rsize →
      ∃ b', Receives env (Binary.bufReader r) (List.zipWith (Msg.into env) ms vs) ((), newBufReader rsize src) ((), b') ∧ b'.left = rest := by
  obtain ⟨⟨s, ht⟩, -⟩ := Sends.tracks hT ms hok (PW.tracks_new size hsize wr () true) h
  obtain ⟨hs, -, hn, -⟩ := flushed hT ht hf
  obtain ⟨out, vs, _, h1, -, h3, h4⟩ := sends_ideal hT (I := Nat × End) (rs := fun _ => ()) (size := fun i => max i.1 16) (fin := fun i => i.2) (Q := fun _ _ => True)
    (fun i => Binary.codec w r hwr (max i.1 16) (Nat.le_max_right _ _) i.2) _ _ (fun _ => ⟨rfl, rfl⟩) (16, .block) (fun t v tv hr ht hs => (rep_wf hr _ ht hs).1)
    ms (fun m hm => ⟨hok m hm, Nat.lt_of_le_of_lt (hok m hm).name (by decide)⟩) (PW.tracks_new size hsize wr () true) trivial h hn
  obtain ⟨hs', -⟩ := flushed hT h1 hf
  refine ⟨vs, h3, fun src rest rsize hfair hdata hr => ?_⟩
  have h5 := h4 (rsize, src.fin) rest trivial
  simp only [Nat.max_eq_left hr] at h5
  replace hs' : x'.b.sent = out := by simpa using hs'
  rw [← hs', ← hdata] at h5
  obtain ⟨⟨_, b'⟩, h6, -, h7⟩ := Receives.sim (Binary.bufReader_sim r) (s := ((), newBufReader rsize src)) ⟨rfl, BSim.new (by omega) hfair⟩ h5
  exact ⟨b', h6, h7.bytes.symm⟩

/-- The compact protocol gets messages through. -/
def Compact.codec (size : Nat) (hsize : 16 ≤ size) (fin : End) (rs : Compact.RState) (hrs : rs.boolField = .none) :
    Codec (idealWtr Compact.wimpl) Compact.reader (fun c => c.boolField.type = Ty.stop) rs size fin (fun rest => (∃ e, fin = .err e) ∨ 9 ≤ rest.length)
      (fun h => h.name.length < 2 ^ 63 ∧ h.type.toNat < 8) (fun tv => WF (2 ^ 63 - 1) tv ∧ TypesOK tv) where
  encM := Compact.msgW
  enc := Compact.encWith Compact.hdrW
  mono a rest h := h.imp_right fun h => by rw [List.length_append]; omega
  msgW h c b _ hm := Compact.message_write h (Nat.lt_trans hm.1 (by decide)) c b
  endW s := by simp [idealWtr, Compact.wimpl, errOf]
  valW tv c b hc hv := by
    obtain ⟨c', h1, h2⟩ := Compact.writes tv hv.1 hv.2 c b hc
    exact ⟨c', h1.2.2, h2⟩
  msgR h rest hm hq := Compact.gives (o := .messageBegin) (Compact.message_read_w size hsize rest fin hq rs h hm.2 hm.1)
  endR s := Compact.gives (o := .messageEnd) rfl
  valR tv rest hv hq := Compact.holdsWith Compact.hdrW_ok size hsize fin tv hv.1 hv.2 rs rest hrs (.inl hq)

/-- **C58** compact: the same for headers with a type below 8, if the stream ends at some time or goes on for at least nine bytes (see C23). -/
theorem C58_compact (env : Env) {σ : Type} (T : Transport σ) (hT : T.Honest) (size : Nat) (hsize : 0 < size) (wr : σ)
    (ms : List Msg) (hok : ∀ m ∈ ms, m.OK env (2 ^ 63 - 1) ∧ m.h.type.toNat < 8) (x x' : PW Compact.WState σ)
    (h : Sends env (Compact.bufWriter T) (ms.map fun m => (m.h, m.x)) (Compact.newPW size wr) x) (hf : x.flush T = (none, x')) :
    ∃ vs, SameValues env ms vs ∧ ∀ (src : Source) (rest : Bytes) (rsize : Nat), src.Fair → src.data = x'.b.sent ++ rest → 16 ≤ rsize →
      (∃ e, src.fin = .err e) ∨ 9 ≤ rest.length →
      ∃ rs' b', Receives env Compact.bufReader (List.zipWith (Msg.into env) ms vs) ({}, newBufReader rsize src) (rs', b') ∧ b'.left = rest := by
  obtain ⟨⟨s, ht⟩, -⟩ := Sends.tracks hT ms (fun m hm => (hok m hm).1) (PW.tracks_new size hsize wr ({} : Compact.WState) true) h
  obtain ⟨hs, -, hn, -⟩ := flushed hT ht hf
  obtain ⟨out, vs, _, h1, -, h3, h4⟩ := sends_ideal hT (I := Nat × End) (rs := fun _ => ({} : Compact.RState)) (size := fun i => max i.1 16) (fin := fun i => i.2)
    (Q := fun i rest => (∃ e, i.2 = .err e) ∨ 9 ≤ rest.length)
    (fun i => Compact.codec (max i.1 16) (Nat.le_max_right _ _) i.2 {} rfl) _ _ (fun _ => ⟨rfl, rfl⟩) (16, .block) (fun t v tv hr ht hs => ⟨(rep_wf hr _ ht hs).1, (rep_wf hr _ ht hs).2.1⟩)
    ms (fun m hm => ⟨(hok m hm).1, Nat.lt_of_le_of_lt (hok m hm).1.name (by decide), (hok m hm).2⟩) (PW.tracks_new size hsize wr ({} : Compact.WState) true) rfl h hn
  obtain ⟨hs', -⟩ := flushed hT h1 hf
  refine ⟨vs, h3, fun src rest rsize hfair hdata hr hq => ?_⟩
  have h5 := h4 (rsize, src.fin) rest hq
  simp only [Nat.max_eq_left hr] at h5
  replace hs' : x'.b.sent = out := by simpa using hs'
  rw [← hs', ← hdata] at h5
  obtain ⟨⟨rs', b'⟩, h6, -, h7⟩ := Receives.sim Compact.bufReader_sim (s := (({} : Compact.RState), newBufReader rsize src)) ⟨rfl, BSim.new (by omega) hfair⟩ h5
  exact ⟨rs', b', h6, h7.bytes.symm⟩

/-! ## Examples -/

/-- Try to send messages with some bound on the recursion. -/
def trySend {S : Type} (env : Env) (fuel : Nat) (w : Wtr S) : List (MessageHeader × AnyVal) → S → Option S
  | [], s => some s
  | (h, x) :: ms, s => match w.step (.messageBegin h) s with
    | .done (none, s1) => match (Marshal env fuel x).run w s1 with
      | .done (none, s2) => match w.step .messageEnd s2 with
        | .done (none, s3) => trySend env fuel w ms s3
        | _ => none
      | _ => none
    | _ => none

theorem sends_of_try {S : Type} {env : Env} {fuel : Nat} {w : Wtr S} {ms : List (MessageHeader × AnyVal)} {s s' : S} (h : trySend env fuel w ms s = some s') : Sends env w ms s s' := by
  induction ms generalizing s with
  | nil => cases h; rfl
  | cons m ms ih =>
    obtain ⟨hd, x⟩ := m
    rw [trySend] at h
    split at h
    · rename_i s1 h1
      split at h
      · rename_i s2 h2
        split at h
        · rename_i s3 h3
          exact ⟨s1, s2, s3, h1, ⟨fuel, fun fuel' hf => ((Marshal_le env fuel fuel' hf x).run _ _).done h2⟩, h3, ih h⟩
        · cases h
      · cases h
    · cases h

/-- Two messages. -/
def Ex.msgs : List Msg := [⟨⟨ascii "ping", 1, 7⟩, .val 0 Ex.valQ, 0, 4, Ex.valQ⟩, ⟨⟨ascii "pong", 2, -7⟩, .val 4 (.ptr Ex.valQ), 0, 4, Ex.valQ⟩]

theorem Ex.msgs_ok (lim : Nat) (hl : 4 ≤ lim) : ∀ m ∈ Ex.msgs, m.OK Ex.env lim := by
  intro m hm
  simp only [Ex.msgs, List.mem_cons, List.not_mem_nil, or_false] at hm
  rcases hm with rfl | rfl
  · exact ⟨.inl ⟨rfl, fun e h => by cases h⟩, rfl, Ex.hasType_valQ, Ex.sizes_valQ.mono (by omega), Ex.keys_valQ, Ex.distinct_P, hl⟩
  · exact ⟨.inr ⟨4, rfl, rfl⟩, rfl, Ex.hasType_valQ, Ex.sizes_valQ.mono (by omega), Ex.keys_valQ, Ex.distinct_P, hl⟩

/-- The hypotheses of C58, with a buffer of 4 bytes and a transport with enough room. -/
example : ∃ x x', Sends Ex.env (Binary.bufWriter true limited) (Ex.msgs.map fun m => (m.h, m.x)) (Binary.newPW 4 ([], 1000, 0)) x ∧ x.flush limited = (none, x') ∧
    x'.b.sent.length = 166 := by
  have h : ((trySend Ex.env 20 (Binary.bufWriter true limited) (Ex.msgs.map fun m => (m.h, m.x)) (Binary.newPW 4 ([], 1000, 0))).map
      fun x => ((x.flush limited).1, (x.flush limited).2.b.sent.length)) = some (none, 166) := by decide +kernel
  obtain ⟨x, h1, h2⟩ := Option.map_eq_some_iff.1 h
  exact ⟨x, (x.flush limited).2, sends_of_try h1, Prod.ext (Prod.mk.inj h2).1 rfl, (Prod.mk.inj h2).2⟩

/-- The same with the compact protocol. -/
example : ∃ x x', Sends Ex.env (Compact.bufWriter limited) (Ex.msgs.map fun m => (m.h, m.x)) (Compact.newPW 4 ([], 1000, 0)) x ∧ x.flush limited = (none, x') ∧
    x'.b.sent.length = 63 := by
  have h : ((trySend Ex.env 20 (Compact.bufWriter limited) (Ex.msgs.map fun m => (m.h, m.x)) (Compact.newPW 4 ([], 1000, 0))).map
      fun x => ((x.flush limited).1, (x.flush limited).2.b.sent.length)) = some (none, 63) := by decide +kernel
  obtain ⟨x, h1, h2⟩ := Option.map_eq_some_iff.1 h
  exact ⟨x, (x.flush limited).2, sends_of_try h1, Prod.ext (Prod.mk.inj h2).1 rfl, (Prod.mk.inj h2).2⟩

/-- With room for 50 bytes only, a call reports it. -/
example : (trySend Ex.env 20 (Binary.bufWriter true limited) (Ex.msgs.map fun m => (m.h, m.x)) (Binary.newPW 4 ([], 50, 0))).isNone = true := by decide +kernel

end GoThrift
