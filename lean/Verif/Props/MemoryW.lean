import Verif.Proof.MemoryW
import Verif.Props.BufWriter

/-!
# C75: what is written does not depend on the memory it passes through
-/

namespace GoThrift

open Mem Spec

/-- What is in the buffer of the writer and not sent yet. -/
def Mem.MPW.held {C σ : Type} (x : MPW C σ) : Bytes := x.m.load (.arr 0 x.m.b.n)

/-- Two writers an observer cannot tell apart: same fields, same transport in the same state, same bytes sent and held, same error kept. -/
def SameWriter {C σ : Type} (x : MPW C σ) (y : PW C σ) : Prop :=
  x.c = y.c ∧ x.uw = y.uw ∧ x.m.b.wr = y.b.wr ∧ x.m.b.sent = y.b.sent ∧ x.held = y.b.buf ∧ x.m.b.err = y.b.err ∧ x.m.b.buf.length = y.b.size

theorem sameWriter {C σ : Type} {N : Nat} {x : MPW C σ} {y : PW C σ} (h : MPW.Sim N x y) : SameWriter x y := by
  obtain ⟨c, b, uw⟩ := y
  have := h.abs
  dsimp only at this
  subst this
  exact ⟨h.c, h.uw, rfl, rfl, rfl, rfl, rfl⟩

/-- **C75** binary: any sequence of calls on a writer with its arrays (numbers put into the scratch array and written from there) is answered as on
a writer that is given bytes, and leaves the transport in the same state: whatever is in the two arrays before, and however the transport
behaves, as long as it is honest. -/
theorem C75_binary (strict : Bool) {σ : Type} (T : Transport σ) (hT : T.Honest) (buf scratch : Bytes) (hb : buf ≠ []) (hs : scratch.length = 8) (w : σ)
    (cs : List WCall) :
    OutRel (fun x y => x.1 = y.1 ∧ SameWriter x.2 y.2) ((MPW.new () buf scratch w true).run T (Mem.Binary.wimpl strict) cs)
      ((Binary.newPW buf.length w).run T (Binary.wimpl strict) cs) :=
  (MPW.run_sim hT (Mem.Binary.wimpl_same strict) cs (MPW.new_sim (N := 8) () buf scratch hb (by omega) w true)).mono fun _ _ h => ⟨h.1, sameWriter h.2⟩

/-- **C75** compact: the same; headers are appended to the free part of the buffer of the `bufio.Writer` and passed to its `Write`. From any state
of the fields. -/
theorem C75_compact {σ : Type} (T : Transport σ) (hT : T.Honest) (c : Compact.WState) (buf scratch : Bytes) (hb : buf ≠ []) (hs : scratch.length = 10)
    (w : σ) (uw : Bool) (cs : List WCall) :
    OutRel (fun x y => x.1 = y.1 ∧ SameWriter x.2 y.2) ((MPW.new c buf scratch w uw).run T Mem.Compact.wimpl cs)
      (PW.run T Compact.wimpl cs ⟨c, .new buf.length w, uw⟩) :=
  (MPW.run_sim hT Mem.Compact.wimpl_same cs (MPW.new_sim (N := 10) c buf scratch hb (by omega) w uw)).mono fun _ _ h => ⟨h.1, sameWriter h.2⟩

/-- **C75** binary, in terms of bytes: the calls do not panic and do not loop; what the transport has accepted is a prefix of what the protocol prescribes for
the calls, and unless the transport failed, that and what the buffer holds is all of it. -/
theorem C75_binary_bytes (strict : Bool) {σ : Type} (T : Transport σ) (hT : T.Honest) (buf scratch : Bytes) (hb : buf ≠ []) (hs : scratch.length = 8)
    (w : σ) (cs : List WCall) :
    ∃ as x as' out, (MPW.new () buf scratch w true).run T (Mem.Binary.wimpl strict) cs = .done (as, x) ∧
      ideal (Binary.writer strict) cs ((), []) = .done (as', ((), out)) ∧ x.m.b.sent <+: out ∧ (x.m.b.err = none → x.m.b.sent ++ x.held = out) := by
  obtain ⟨as, x, as', c, out, h1, h2, h3, -, -, h4⟩ := C31_binary strict σ T hT buf.length (List.length_pos_iff.2 hb) w cs
  have h := C75_binary strict T hT buf scratch hb hs w cs
  rw [h1] at h
  cases hx : (MPW.new () buf scratch w true).run T (Mem.Binary.wimpl strict) cs <;> rw [hx] at h <;> simp only [OutRel] at h
  rename_i y
  obtain ⟨g1, g2, g3, g4, g5, g6, g7, g8⟩ := h
  refine ⟨y.1, y.2, as', out, rfl, h2, by rw [g5]; exact h3, ?_⟩
  rw [g5, g6, g7]
  exact h4

/-- **C75** compact, in terms of bytes. -/
theorem C75_compact_bytes {σ : Type} (T : Transport σ) (hT : T.Honest) (buf scratch : Bytes) (hb : buf ≠ []) (hs : scratch.length = 10) (w : σ)
    (cs : List WCall) :
    ∃ as x as' c out, (MPW.new {} buf scratch w true).run T Mem.Compact.wimpl cs = .done (as, x) ∧
      ideal Compact.writer cs ({}, []) = .done (as', (c, out)) ∧ x.m.b.sent <+: out ∧ (x.m.b.err = none → x.m.b.sent ++ x.held = out) := by
  obtain ⟨as, x, as', c, out, h1, h2, h3, -, -, h4⟩ := C31_compact σ T hT buf.length (List.length_pos_iff.2 hb) w cs
  have h := C75_compact T hT {} buf scratch hb hs w true cs
  have h1' : PW.run T Compact.wimpl cs ⟨{}, .new buf.length w, true⟩ = .done (as, x) := h1
  rw [h1'] at h
  cases hx : (MPW.new {} buf scratch w true).run T Mem.Compact.wimpl cs <;> rw [hx] at h <;> simp only [OutRel] at h
  rename_i y
  obtain ⟨g1, g2, g3, g4, g5, g6, g7, g8⟩ := h
  refine ⟨y.1, y.2, as', c, out, rfl, h2, by rw [g5]; exact h3, ?_⟩
  rw [g5, g6, g7]
  exact h4

/-- Fields through a buffer of 5 bytes full of rubbish to a transport that takes 100 bytes: the field header `11` of the bool is appended to the
empty buffer, the next one, `06 d8 04`, behind it; the last byte does not fit and the buffer is flushed for it. -/
example : ((MPW.new {} [0xaa, 0xaa, 0xaa, 0xaa, 0xaa] (List.replicate 10 0xbb) ([], 100, 0) true).run limited Mem.Compact.wimpl
      [.op (.structBegin []), .op (.fieldBegin ⟨[], Ty.bool, 1⟩), .op (.bool true), .op (.fieldBegin ⟨[], Ty.i64, 300⟩), .op (.i64 (-1)), .op .structEnd]).bind
      (fun r => .done (r.1, r.2.m.b.sent, r.2.held, r.2.m.b.buf, r.2.m.scratch)) =
    .done (List.replicate 6 none, [0x11, 0x06, 0xd8, 0x04, 0x01], [0x00], [0x00, 0x06, 0xd8, 0x04, 0x01], 0x01 :: List.replicate 9 0xbb) := by
  decide +kernel

/-- The header of a map needs more than the whole buffer: `append` moves the bytes to new memory. -/
example : ((MPW.new {} [0xaa, 0xaa] (List.replicate 10 0xbb) ([], 100, 0) true).run limited Mem.Compact.wimpl
      [.op (.mapBegin ⟨Ty.i32, Ty.i32, 1000⟩)]).bind (fun r => .done (r.1, r.2.m.b.sent ++ r.2.held)) = .done ([none], [0xe8, 0x07, 0x55]) := by
  decide +kernel

/-- A transport that fails after three bytes: what it took is a prefix. -/
example : ((MPW.new () [0xaa, 0xaa, 0xaa, 0xaa] (List.replicate 8 0xbb) ([], 3, 0) true).run limited (Mem.Binary.wimpl true)
      [.op (.fieldBegin ⟨[], 8, 1⟩), .op (.i32 5), .flush]).bind (fun r => .done (r.1, r.2.m.b.sent, r.2.held)) =
    .done ([none, some (.io 7), some (.io 7)], [8, 0, 1], [0]) := by decide +kernel

end GoThrift
