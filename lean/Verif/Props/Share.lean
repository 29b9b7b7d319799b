import Verif.Proof.Share
import Verif.Props.RoundTrip

/-!
# C77: protocol readers on the caller's own `bufio.Reader`
-/

namespace GoThrift.Share

open Spec

/-- **C77** any program that works with many transports at once, with `*bufio.Reader`s of its own, with protocol readers made from transports (and reset to others) and with protocol readers made from its
`*bufio.Reader`s, sees plain streams, one for each transport: every call, of whichever reader, takes from its stream what it returns and nothing else, what it leaves is there for the next reader of that
stream, and no reader disturbs another stream. `c.ideal` says what the program gets from plain streams. -/
theorem C77_readers {ρ α : Type} (rd : ReadFn ρ) (C : rd.Contract) (raws : Nat → ρ) (h : ∀ i, C.ok (raws i)) (c : Client α) :
    OutRel (fun x y => x.1 = y.1 ∧ Agree C x.2 y.2) (c.run rd (.start raws)) (c.ideal (.start C raws)) :=
  (run_sim c _ _ (WSim.start C raws h)).mono fun _ _ h => ⟨h.1, h.2.agree⟩

theorem ideal_readAll (env : Env) : ∀ (segs : List Seg) (outs : List Bytes) (rest : Bytes), Each (Seg.Writes env) segs outs →
    ∀ (size : Nat) (fin : End), 16 ≤ size → ((∃ e, fin = .err e) ∨ 9 ≤ rest.length) →
    ∃ (N : Nat) (gs : List Got), Each (Seg.Returns env) segs gs ∧ ∀ (fuel : Nat), N ≤ fuel → ∀ (v : Streams) (acc : List Got), v.bs[0]? = some 0 → v.fs 0 = ⟨size, outs.flatten ++ rest, fin⟩ →
      ∃ v', (readAll env fuel segs v.rs.length acc).ideal v = .done (acc ++ gs, v') ∧ v'.fs 0 = ⟨size, rest, fin⟩ ∧ v'.bs = v.bs := by
  intro segs outs rest H size fin hsize hfin
  induction H with
  | nil => exact ⟨0, [], .nil, fun fuel _ v acc hb hv => ⟨v, by rw [readAll, Client.ideal, List.append_nil], by simpa using hv, rfl⟩⟩
  | @cons seg out segs outs hw _ ih =>
    obtain ⟨N, gs, hgs, hN⟩ := ih
    have hlen : (∃ e, fin = .err e) ∨ 9 ≤ (outs.flatten ++ rest).length := by
      rcases hfin with h | h
      · exact .inl h
      · right; rw [List.length_append]; omega
    match seg, hw with
    | .value (.binary strict) x t ptr w, hw =>
      obtain ⟨h1, h2, h3, h4, h5, h6, h7⟩ := hw
      obtain ⟨out', v', e1, e2, e3⟩ := C01_binary_round_trip env strict x t ptr w h1 h2 h3 h4 h5 h6 [] _ h7
      obtain rfl : out = out' := by simpa using congrArg Prod.snd e1
      obtain ⟨M, hM⟩ := e3 size (outs.flatten ++ rest) fin hsize
      refine ⟨max N M, .value (.val ptr (.ptr v')) none :: gs, .cons ⟨v', rfl, e2⟩ hgs, fun fuel hf v acc hb hv => ?_⟩
      rw [readAll, Client.ideal, hb]
      dsimp only
      rw [ideal_prog_binary strict v.rs.length 0 _ _ _ (by rw [List.getElem?_append_right (Nat.le_refl _), Nat.sub_self]; rfl)]
      have hv' : v.fs 0 = ⟨size, out ++ (outs.flatten ++ rest), fin⟩ := by rw [hv, List.flatten_cons, List.append_assoc]
      simp only [hv']
      rw [hM fuel (by omega), Out.bind_done]
      obtain ⟨v'', g1, g2⟩ := hN fuel (by omega) ⟨upd v.fs 0 ⟨size, outs.flatten ++ rest, fin⟩, v.used, v.bs, v.rs ++ [⟨0, .binary strict⟩], v.os⟩
        (acc ++ [.value (.val ptr (.ptr v')) none]) hb (by simp only [upd_same])
      refine ⟨v'', ?_, g2⟩
      simpa [Proto.start] using g1
    | .value .compact x t ptr w, hw =>
      obtain ⟨h1, h2, h3, h4, h5, h6, c', h7⟩ := hw
      obtain ⟨c'', out', v', e1, e2, e3⟩ := C02_compact_round_trip env x t ptr w h1 h2 h3 h4 h5 h6 {} rfl [] _ h7
      obtain rfl : out = out' := by simpa using congrArg Prod.snd e1
      obtain ⟨M, hM⟩ := e3 size (outs.flatten ++ rest) fin {} hsize rfl hlen
      refine ⟨max N M, .value (.val ptr (.ptr v')) none :: gs, .cons ⟨v', rfl, e2⟩ hgs, fun fuel hf v acc hb hv => ?_⟩
      rw [readAll, Client.ideal, hb]
      dsimp only
      rw [ideal_prog_compact v.rs.length 0 _ _ _ {} (by rw [List.getElem?_append_right (Nat.le_refl _), Nat.sub_self]; rfl)]
      have hv' : v.fs 0 = ⟨size, out ++ (outs.flatten ++ rest), fin⟩ := by rw [hv, List.flatten_cons, List.append_assoc]
      simp only [hv']
      rw [hM fuel (by omega), Out.bind_done]
      obtain ⟨v'', g1, g2⟩ := hN fuel (by omega) ⟨upd v.fs 0 ⟨size, outs.flatten ++ rest, fin⟩, v.used, v.bs, (v.rs ++ [(⟨0, .compact {}⟩ : SRd)]).set v.rs.length ⟨0, .compact {}⟩, v.os⟩
        (acc ++ [.value (.val ptr (.ptr v')) none]) hb (by simp only [upd_same])
      refine ⟨v'', ?_, g2⟩
      simpa [Proto.start] using g1
    | .bytes b, hw =>
      obtain rfl : out = b := hw
      refine ⟨N, .bytes out none :: gs, .cons rfl hgs, fun fuel hf v acc hb hv => ?_⟩
      rw [readAll, Client.ideal, hb]
      dsimp only
      have hv' : v.fs 0 = ⟨size, out ++ (outs.flatten ++ rest), fin⟩ := by rw [hv, List.flatten_cons, List.append_assoc]
      have hr : (v.fs 0).readFull out.length = .done ((out, none), ⟨size, outs.flatten ++ rest, fin⟩) := by
        rw [hv', Flat.readFull]
        simp
      rw [hr, Out.bind_done]
      obtain ⟨v'', g1, g2⟩ := hN fuel hf ⟨upd v.fs 0 ⟨size, outs.flatten ++ rest, fin⟩, v.used, v.bs, v.rs, v.os⟩ (acc ++ [.bytes out none]) hb (by simp only [upd_same])
      exact ⟨v'', by simpa using g1, g2⟩

/-- **C77** any sequence of Go values, each marshalled with one of the protocols, and plain bytes, is read back through one `*bufio.Reader` of the caller's on one transport (a new protocol reader for each
value, io.ReadFull for the bytes), whatever pieces the transport delivers it in; what follows is left. -/
theorem C77_mixed_stream {ρ : Type} (rd : ReadFn ρ) (C : rd.Contract) (raws : Nat → ρ) (h : ∀ i, C.ok (raws i)) (env : Env) (segs : List Seg) (outs : List Bytes)
    (hw : Each (Seg.Writes env) segs outs) (rest : Bytes) (hb : C.left (raws 0) = outs.flatten ++ rest) (hfin : (∃ e, C.fin (raws 0) = .err e) ∨ 9 ≤ rest.length) (n : Nat) :
    ∃ (N : Nat) (gs : List Got), Each (Seg.Returns env) segs gs ∧ ∀ fuel, N ≤ fuel →
      ∃ w, (Client.openBuf n (readAll env fuel segs 0 [])).run rd (.start raws) = .done (gs, w) ∧ ∃ a, w.bs = [a] ∧ unread C w.heap a = rest := by
  obtain ⟨N, gs, h1, h2⟩ := ideal_readAll env segs outs rest hw (4096 + n) (C.fin (raws 0)) (by omega) hfin
  refine ⟨N, gs, h1, fun fuel hf => ?_⟩
  obtain ⟨v', h3, h4, h4'⟩ := h2 fuel hf ⟨upd (Streams.start C raws).fs 0 ⟨4096 + n, C.left (raws 0), C.fin (raws 0)⟩, 1, [0], [], []⟩ [] rfl (by simp only [upd_same, hb])
  have h5 := C77_readers rd C raws h (.openBuf n (readAll env fuel segs 0 []))
  rw [show (Client.openBuf n (readAll env fuel segs 0 [])).ideal (.start C raws) = .done (gs, v') by
    rw [Client.ideal]; simpa [Streams.start] using h3] at h5
  cases hx : (Client.openBuf n (readAll env fuel segs 0 [])).run rd (.start raws) with
  | done x =>
    rw [hx] at h5
    obtain ⟨e1, e2⟩ := h5
    obtain ⟨x1, x2⟩ := x
    cases e1
    have e3 := e2.bs
    dsimp only at h4' e3
    rw [h4'] at e3
    cases e3' : x2.bs with
    | nil => rw [e3'] at e3; cases e3
    | cons a as =>
      rw [e3'] at e3
      cases e3 with
      | cons q r =>
        cases r
        exact ⟨x2, rfl, a, e3', by rw [q, h4]⟩
  | blocked => rw [hx] at h5; exact h5.elim
  | diverged => rw [hx] at h5; exact h5.elim
  | panicked => rw [hx] at h5; exact h5.elim

/-! ## Cases -/

/-- Transports that have their bytes at once. -/
def have_ (data : Nat → Bytes) : Nat → Source := fun i => ⟨data i, .err .eof, fun _ => (4096, false), 0⟩

/-- Two transports, one with a `*bufio.Reader` of the caller's and a binary and a compact reader made from that, one with a reader of its own that is then reset to a third. -/
example : ((Client.openBuf 0 (.new (.binary true) 0 (.new .compact 0 (.openOwn .compact
      (.call 0 .byte fun a => .call 1 .i16 fun b => .readByte 0 fun c => .callOwn 0 .byte fun d => .resetOwn 0 (.callOwn 0 .byte fun e => .call 0 .byte fun f =>
        .ret [a.toOption.map (·.toInt), b.toOption.map (·.toInt), c.toOption.map (·.toInt), d.toOption.map (·.toInt), e.toOption.map (·.toInt), f.toOption.map (·.toInt)]))))) : Client (List (Option Int))).run Source.read
      (.start (have_ fun i => if i = 0 then [1, 4, 3, 9] else if i = 1 then [5, 6] else [7]))).bind (fun r => .done r.1) =
    .done [some 1, some 2, some 3, some 5, some 7, some 9] := by decide +kernel

example : ∀ i, Source.contract.ok (have_ (fun _ => [1, 2, 3]) i) := fun _ _ => ⟨0, by decide, by show 4096 ≠ 0; decide⟩

/-- A stream of mixed content: a value in the compact protocol, two plain bytes, the same value in the binary protocol. -/
example : Each (Seg.Writes Ex.env) [.value .compact (.val 0 Ex.valQ) 0 4 Ex.valQ, .bytes [9, 9], .value (.binary true) (.val 0 Ex.valQ) 0 4 Ex.valQ] [Ex.compactQ, [9, 9], Ex.bytesQ] :=
  .cons ⟨.inl ⟨rfl, fun e h => by cases h⟩, rfl, Ex.hasType_valQ, Ex.sizes_valQ.mono (by decide), Ex.keys_valQ, Ex.distinct_P, {},
      20, fun fuel hf => ((Marshal_le Ex.env 20 fuel hf _).run _ _).done (by decide +kernel)⟩
    (.cons rfl (.cons ⟨.inl ⟨rfl, fun e h => by cases h⟩, rfl, Ex.hasType_valQ, Ex.sizes_valQ.mono (by decide), Ex.keys_valQ, Ex.distinct_P,
      20, fun fuel hf => ((Marshal_le Ex.env 20 fuel hf _).run _ _).done (by decide +kernel)⟩ .nil))

/-- One `*bufio.Reader` of the caller's with a buffer of `size` bytes on the transport 0. -/
def one (size : Nat) (data : Nat → Bytes) : Heap Source := ⟨have_ data, fun _ => ⟨size, [], none, .raw 0⟩, 1⟩

/-- The caller reads a byte from its `*bufio.Reader`, then one with the protocol reader, then one from its `*bufio.Reader`. -/
def alternate (x : PRd) (h : Heap Source) : Out (Except Err Byte × Except Err (BitVec 8) × Except Err Byte) :=
  (runOn Source.read 0 (.readByte .ret) h).bind fun a => (runOn Source.read x.buf (x.st.impl .byte) a.2).bind fun b =>
    (runOn Source.read 0 (.readByte .ret) b.2).bind fun c => .done (a.1, b.1.1, c.1)

/-- **C77** the `*bufio.Reader` must have a buffer of 4096 bytes: with one of 4095 bytes, a protocol reader made from it takes all that is there (as it does with any `io.Reader`), and nothing is left for the
caller. -/
theorem C77_needs_4096 (p : Proto) :
    alternate (newPRd p (.buf 0) (one 4096 fun _ => [1, 2, 3])).1 (newPRd p (.buf 0) (one 4096 fun _ => [1, 2, 3])).2 = .done (.ok 1, .ok 2, .ok 3) ∧
    alternate (newPRd p (.buf 0) (one 4095 fun _ => [1, 2, 3])).1 (newPRd p (.buf 0) (one 4095 fun _ => [1, 2, 3])).2 = .done (.ok 1, .ok 2, .error .eof) := by
  cases p with
  | binary strict => cases strict <;> decide +kernel
  | compact => decide +kernel

/-- A protocol reader made from the transport 1 and then reset to the caller's `*bufio.Reader`. -/
def resetToBuf (p : Proto) : PRd × Heap Source :=
  let r := newPRd p (.raw 1) (one 4096 fun _ => [1, 2, 3])
  resetPRd r.1 (.buf 0) r.2

/-- **C33** a binary reader that is reset to a `*bufio.Reader` is not like a new one made from it: it takes more than it returns, so that the caller misses bytes. A compact reader is like a new one. -/
theorem C33_reset_to_bufio_violated :
    (∀ strict, alternate (newPRd (.binary strict) (.buf 0) (one 4096 fun _ => [1, 2, 3])).1 (newPRd (.binary strict) (.buf 0) (one 4096 fun _ => [1, 2, 3])).2 =
      .done (.ok 1, .ok 2, .ok 3)) ∧
    (∀ strict, alternate (resetToBuf (.binary strict)).1 (resetToBuf (.binary strict)).2 = .done (.ok 1, .ok 2, .error .eof)) ∧
    alternate (resetToBuf .compact).1 (resetToBuf .compact).2 = .done (.ok 1, .ok 2, .ok 3) :=
  ⟨fun strict => by cases strict <;> decide +kernel, fun strict => by cases strict <;> decide +kernel, by decide +kernel⟩

/-- **C77** a protocol reader that was made from a `*bufio.Reader` of the caller's must not be reset to another transport: Reset then resets the caller's `*bufio.Reader` as well. The caller reads a byte, resets the
protocol reader to the transport 1, and reads on: it gets a byte of transport 1, the bytes 2 and 3 are lost. -/
theorem C77_reset_takes_along (p : Proto) :
    let data := fun i => if i = 0 then [1, 2, 3] else [101, 102]
    let r := newPRd p (.buf 0) (one 4096 data)
    ((runOn Source.read 0 (.readByte .ret) r.2).bind fun a => (runOn Source.read 0 (.readByte .ret) (resetPRd r.1 (.raw 1) a.2).2).bind fun b => .done (a.1, b.1)) =
      .done (.ok 1, .ok 101) := by
  cases p with
  | binary strict => cases strict <;> decide +kernel
  | compact => decide +kernel

end GoThrift.Share
