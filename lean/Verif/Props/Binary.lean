import Verif.Proof.Message
import Verif.Spec.Scalar
import Verif.Model.Protocol

/-!
# C24, C30 (binary), C48 (binary), C50
-/

namespace GoThrift

open Spec Spec.TVal

/-! ## C24 -/

/-- **C24** a message header written by a strict (non-strict) writer is read back by a strict (non-strict) reader, and one written by
a strict writer also by a non-strict reader. -/
theorem C24_message_round_trip (w r : Bool) (hwr : w = r ∨ (w = true ∧ r = false)) (h : MessageHeader)
    (hn : h.name.length < 2 ^ 31) :
    WritesThenReads (Binary.writer w) (Binary.reader r) () () (.messageBegin h) .messageBegin h :=
  ⟨encBinMessage w h, fun b => Binary.message_write w h b, fun size rest e hs =>
    Binary.gives (o := .messageBegin) (Binary.message_read size hs rest (.err e) w r hwr h hn)⟩

/-- **C24** a strict reader returns an error for every header whose first two bytes are not the version-1 marker `80 01`. -/
theorem C24_strict_rejects (b0 b1 b2 b3 : Byte) (h : ¬ (b0 = 0x80 ∧ b1 = 0x01)) (size : Nat) (hsize : 16 ≤ size) (rest : Bytes)
    (fin : End) :
    ∃ err s', (Binary.reader true).step .messageBegin ((), ⟨size, b0 :: b1 :: b2 :: b3 :: rest, fin⟩) = .done (.error err, s') ∧
      (err = .binMissingVersion ∨ ∃ v, err = .binBadVersion v) :=
  Binary.strict_rejects true b0 b1 b2 b3 h (.inl rfl) size hsize rest fin

/-- **C24** a non-strict reader rejects every header that starts with the sign bit set but is not version 1. -/
theorem C24_nonstrict_rejects (b0 b1 b2 b3 : Byte) (h : ¬ (b0 = 0x80 ∧ b1 = 0x01)) (h0 : 128 ≤ b0.toNat) (size : Nat)
    (hsize : 16 ≤ size) (rest : Bytes) (fin : End) :
    ∃ err s', (Binary.reader false).step .messageBegin ((), ⟨size, b0 :: b1 :: b2 :: b3 :: rest, fin⟩) = .done (.error err, s') ∧
      (err = .binMissingVersion ∨ ∃ v, err = .binBadVersion v) :=
  Binary.strict_rejects false b0 b1 b2 b3 h (.inr h0) size hsize rest fin

example : WritesThenReads (Binary.writer true) (Binary.reader false) () () (.messageBegin ⟨[0x70], 1, -5⟩) .messageBegin
    ⟨[0x70], 1, -5⟩ := C24_message_round_trip true false (.inr ⟨rfl, rfl⟩) _ (by decide)

/-- A header of the old encoding is one the strict reader rejects. -/
example : ∃ err s', (Binary.reader true).step .messageBegin
      ((), ⟨16, encBinMessage false ⟨[0x70], 1, 5⟩, .err .eof⟩) = .done (.error err, s') ∧
      (err = .binMissingVersion ∨ ∃ v, err = .binBadVersion v) :=
  C24_strict_rejects 0 0 0 1 (by decide) 16 (by decide) [0x70, 1, 0, 0, 0, 5] (.err .eof)

/-! ## C30, binary half -/

/-- **C30** binary: the calls for any value succeed and write exactly the bytes of the binary protocol specification. -/
theorem C30_binary_value (strict : Bool) (t : TVal) (b : Bytes) :
    Writes (Binary.writer strict) (calls t) ((), b) ((), b ++ encBin t) :=
  Binary.writes strict t b

/-- **C30** binary: message headers. -/
theorem C30_binary_message (strict : Bool) (h : MessageHeader) (b : Bytes) :
    Writes (Binary.writer strict) [.messageBegin h] ((), b) ((), b ++ encBinMessage strict h) :=
  .one (Binary.message_write strict h b)

/-- The specification on a concrete message and value. -/
example : encBinMessage true ⟨[0x70], 1, -2⟩ = [0x80, 1, 0, 1, 0, 0, 0, 1, 0x70, 255, 255, 255, 254] ∧
    encBin (.struct [] [([], 300, .str false [0x61, 0x62]), ([], -1, .list Ty.byte [.byte 7])]) =
      [11, 1, 44, 0, 0, 0, 2, 0x61, 0x62, 15, 255, 255, 3, 0, 0, 0, 1, 7, 0] := by decide

/-! ## C48, binary half -/

/-- **C48** binary: every scalar is read back bit for bit (doubles are bit patterns). -/
theorem C48_binary (strict : Bool) :
    (∀ v, WritesThenReads (Binary.writer strict) (Binary.reader strict) () () (.bool v) .bool v) ∧
    (∀ v, WritesThenReads (Binary.writer strict) (Binary.reader strict) () () (.byte v) .byte v) ∧
    (∀ v, WritesThenReads (Binary.writer strict) (Binary.reader strict) () () (.i16 v) .i16 v) ∧
    (∀ v, WritesThenReads (Binary.writer strict) (Binary.reader strict) () () (.i32 v) .i32 v) ∧
    (∀ v, WritesThenReads (Binary.writer strict) (Binary.reader strict) () () (.i64 v) .i64 v) ∧
    (∀ v, WritesThenReads (Binary.writer strict) (Binary.reader strict) () () (.double v) .double v) ∧
    (∀ v : Bytes, v.length < 2 ^ 31 →
      WritesThenReads (Binary.writer strict) (Binary.reader strict) () () (.string v) .string v) ∧
    (∀ v buf : Bytes, v.length < 2 ^ 31 →
      WritesThenReads (Binary.writer strict) (Binary.reader strict) () () (.bytes v) (.bytes buf) (buf ++ v)) ∧
    (∀ v : Bytes, v.length = 16 → WritesThenReads (Binary.writer strict) (Binary.reader strict) () () (.uuid v) .uuid v) := by
  have key : ∀ (ow : WOp) (o : ROp) (v : o.Ans) (t : TVal), calls t = [ow] → WF (2 ^ 31 - 1) t →
      (∀ s s', Holds (Binary.reader strict) t s s' → Gives (Binary.reader strict) o s v s') →
      WritesThenReads (Binary.writer strict) (Binary.reader strict) () () ow o v := by
    intro ow o v t hc hw hg
    refine ⟨encBin t, fun b => ?_, fun size rest e hs => hg _ _ (Binary.holds strict size hs (.err e) t hw rest)⟩
    exact Writes.step (hc ▸ Binary.writes strict t b)
  refine ⟨fun v => key _ _ _ (.bool v) rfl trivial fun _ _ h => h, fun v => key _ _ _ (.byte v) rfl trivial fun _ _ h => h,
    fun v => key _ _ _ (.i16 v) rfl trivial fun _ _ h => h, fun v => key _ _ _ (.i32 v) rfl trivial fun _ _ h => h,
    fun v => key _ _ _ (.i64 v) rfl trivial fun _ _ h => h, fun v => key _ _ _ (.double v) rfl trivial fun _ _ h => h,
    fun v hv => key _ _ _ (.str false v) rfl (Nat.le_pred_of_lt hv) fun _ _ h => h.1,
    fun v buf hv => key _ _ _ (.str true v) rfl (Nat.le_pred_of_lt hv) fun _ _ h => h.2.1 buf,
    fun v hv => key _ _ _ (.uuid v) rfl hv fun _ _ h => h.1⟩

/-- A signalling NaN goes through unchanged. -/
example : WritesThenReads (Binary.writer true) (Binary.reader true) () () (.double 0x7ff0000000000001) .double 0x7ff0000000000001 :=
  (C48_binary true).2.2.2.2.2.1 _

/-! ## C50 -/

/-- **C50** a joined protocol reads as its first and writes as its second argument. -/
theorem C50_join (r w : Protocol) (input : Bytes) (fin : End) :
    (joinProtocol r w).newReader input fin = r.newReader input fin ∧ (joinProtocol r w).newWriter = w.newWriter :=
  ⟨rfl, rfl⟩

/-- **C50** the documented use: a reader of JoinProtocol(ProtocolNonStrict, Protocol) reads any message and value written by a writer of
it. -/
theorem C50_join_nonstrict_strict (h : MessageHeader) (hn : h.name.length < 2 ^ 31) (t : TVal) (hw : WF (2 ^ 31 - 1) t) :
    let p := joinProtocol (Binary.protocol false) (Binary.protocol true)
    ∃ (ws : p.newWriter.S) (out : Bytes),
      Writes p.newWriter.impl (.messageBegin h :: calls t) p.newWriter.state ws ∧ ws = ((), out) ∧
      ∀ (rest : Bytes) (fin : End), ∃ s1 s2, Gives (p.newReader (out ++ rest) fin).impl .messageBegin
          (p.newReader (out ++ rest) fin).state h s1 ∧
        Holds (p.newReader (out ++ rest) fin).impl t s1 s2 ∧ s2 = ((), ⟨defaultBufSize, rest, fin⟩) := by
  refine ⟨((), encBinMessage true h ++ encBin t), encBinMessage true h ++ encBin t, ?_, rfl, fun rest fin =>
    ⟨((), ⟨4096, encBin t ++ rest, fin⟩), ((), ⟨4096, rest, fin⟩), ?_, Binary.holds false 4096 (by decide) fin t hw rest, rfl⟩⟩
  · exact .cons (Binary.message_write true h []) (Binary.writes true t _)
  · refine Binary.gives (o := .messageBegin) ?_
    rw [List.append_assoc]
    exact Binary.message_read 4096 (by decide) (encBin t ++ rest) fin true false (.inr ⟨rfl, rfl⟩) h hn

end GoThrift
