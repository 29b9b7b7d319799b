import Verif.Proof.Wait

/-!
# C03, C23, C47: skipping values, idle transports, back-to-back messages

Reader states: `((), ⟨size, bytes, fin⟩)` is a binary reader and `(c, ⟨size, bytes, fin⟩)` a compact reader with fields `c` in front
of `bytes`, with a `bufio.Reader` of the given buffer size (bufio's minimum is 16); after `bytes` the stream ends as `fin` says.
-/

namespace GoThrift

open Spec Spec.TVal

/-! ## C03 -/

/-- **C03** for any Reader: if it is positioned at a value, Skip of the value's type leaves it exactly after the value. -/
theorem C03_skip_any {S : Type} (r : Rdr S) (t : TVal) (s s' : S) (h : Holds r t s s') : SkipReturns r t.ty s none s' :=
  ⟨fuelOf t, fun fuel hf => skip_holds t fuel hf s s' h⟩

/-- **C03** binary. -/
theorem C03_skip_binary (strict : Bool) (t : TVal) (hw : WF (2 ^ 31 - 1) t) (size : Nat) (hsize : 16 ≤ size) (rest : Bytes)
    (fin : End) :
    SkipReturns (Binary.reader strict) t.ty ((), ⟨size, encBin t ++ rest, fin⟩) none ((), ⟨size, rest, fin⟩) :=
  C03_skip_any _ t _ _ (Binary.holds strict size hsize fin t hw rest)

/-- **C03** compact: in any reader state that is not in the middle of a bool field; the reader's fields are restored. -/
theorem C03_skip_compact (t : TVal) (hw : WF (2 ^ 63 - 1) t) (ht : TypesOK t) (c : Compact.RState) (hc : c.boolField = .none)
    (size : Nat) (hsize : 16 ≤ size) (rest : Bytes) (e : Err) :
    SkipReturns Compact.reader t.ty (c, ⟨size, encCompact t ++ rest, .err e⟩) none (c, ⟨size, rest, .err e⟩) :=
  C03_skip_any _ t _ _ (Compact.holds size hsize _ t hw ht c rest hc (.inl (.inl ⟨e, rfl⟩)))

/-- A value exercising nesting: struct { 1: bool, 300: map<string, list<i32>> }. -/
def sample : TVal := .struct [] [([], 1, .bool true), ([], 300, .map Ty.string Ty.list
  [(.str false [0x61], .list Ty.i32 [.i32 1, .i32 (-1)])])]

/-- The hypotheses of C03 are met by `sample`. -/
example : WF (2 ^ 31 - 1) sample ∧ WF (2 ^ 63 - 1) sample ∧ TypesOK sample := by
  simp [sample, WF, WFFields, WFEntries, WFElems, TypesOK, TypesOKFields, TypesOKEntries, TypesOKElems, ty, ValidTy]

/-- Its binary encoding, in bytes. -/
example : encBin sample = [2, 0, 1, 1, 13, 1, 44, 11, 15, 0, 0, 0, 1, 0, 0, 0, 1, 0x61, 8, 0, 0, 0, 2, 0, 0, 0, 1,
    255, 255, 255, 255, 0] := by decide

/-! ## C23 -/

/-- **C23** binary: a complete value is skipped without a further read on the idle transport. -/
theorem C23_binary_value (strict : Bool) (t : TVal) (hw : WF (2 ^ 31 - 1) t) (size : Nat) (hsize : 16 ≤ size) :
    SkipReturns (Binary.reader strict) t.ty ((), ⟨size, encBin t, .block⟩) none ((), ⟨size, [], .block⟩) := by
  have := C03_skip_binary strict t hw size hsize [] .block
  rwa [List.append_nil] at this

/-- **C23** binary: more generally everything the Reader methods answer about a complete value is answered without waiting. -/
theorem C23_binary_holds (strict : Bool) (t : TVal) (hw : WF (2 ^ 31 - 1) t) (size : Nat) (hsize : 16 ≤ size) :
    Holds (Binary.reader strict) t ((), ⟨size, encBin t, .block⟩) ((), ⟨size, [], .block⟩) := by
  have := Binary.holds strict size hsize .block t hw []
  rwa [List.append_nil] at this

/-- **C23** binary: a complete message header. -/
theorem C23_binary_message (strict : Bool) (h : MessageHeader) (hn : h.name.length < 2 ^ 31) (size : Nat) (hsize : 16 ≤ size) :
    (Binary.reader strict).step .messageBegin ((), ⟨size, encBinMessage strict h, .block⟩) =
      .done (.ok h, ((), ⟨size, [], .block⟩)) := by
  have := Binary.message_read size hsize [] .block strict strict (.inl rfl) h hn
  rw [List.append_nil] at this
  exact Binary.gives (o := .messageBegin) this

/-- The complete compact message "call ping, sequence id 1, no arguments", as in the protocol specification. -/
def pingCall : Bytes := [0x82, 0x21, 0x01, 0x04, 0x70, 0x69, 0x6e, 0x67, 0x00]

/-- `pingCall` is what the specification prescribes. -/
theorem pingCall_spec : pingCall = encCompactMessage ⟨[0x70, 0x69, 0x6e, 0x67], 1, 1⟩ ++ encCompact (.struct [] []) := by
  have h1 : leb 1 = [1] := by rw [leb]; rfl
  have h4 : leb 4 = [4] := by rw [leb]; rfl
  simp [pingCall, encCompactMessage, encCompact, encCompactFields, h1, h4]

/-- **C23 violated** for compact: a new compact reader given the complete `pingCall` on an open idle connection waits for more bytes
before it returns the message header. -/
theorem C23_compact_message_blocks :
    Compact.reader.step .messageBegin ({}, ⟨4096, pingCall, .block⟩) = .blocked := by decide +kernel

/-- **C23 violated** for compact: the same for the complete string "a". -/
theorem C23_compact_string_blocks : encCompact (.str false [0x61]) = [1, 0x61] ∧
    Compact.reader.step .string ({}, ⟨4096, [1, 0x61], .block⟩) = .blocked := by
  constructor
  · have h1 : leb 1 = [1] := by rw [leb]; rfl
    simp [encCompact, h1]
  · decide +kernel

/-- **C23**, what holds for compact: a value without strings is read without waiting, and so is any value followed by at
least nine more bytes (missing: values containing strings at the end of the available data, see above). -/
theorem C23_compact_partial (t : TVal) (hw : WF (2 ^ 63 - 1) t) (ht : TypesOK t) (c : Compact.RState) (hc : c.boolField = .none)
    (size : Nat) (hsize : 16 ≤ size) (rest : Bytes) (h : NoStr t ∨ 9 ≤ rest.length) :
    Holds Compact.reader t (c, ⟨size, encCompact t ++ rest, .block⟩) (c, ⟨size, rest, .block⟩) ∧
    SkipReturns Compact.reader t.ty (c, ⟨size, encCompact t ++ rest, .block⟩) none (c, ⟨size, rest, .block⟩) := by
  have := Compact.holds size hsize .block t hw ht c rest hc
    (h.elim .inr (fun h => .inl (.inr h)))
  exact ⟨this, C03_skip_any _ t _ _ this⟩

example : NoStr (.struct [] [([], 1, .bool true), ([], 2, .list Ty.i32 [.i32 7])]) := by
  simp [NoStr, NoStrFields, NoStrElems]

/-- **C23** compact, exactly: on an open idle connection, a complete value of which `rest` has arrived in addition is read without waiting iff from the beginning of each string in it at least
ten bytes have arrived. Otherwise Skip waits for more. (`C23_compact_partial` is the sufficient condition that does not count bytes.) -/
theorem C23_compact_exact_partial (t : TVal) (hw : WF (2 ^ 63 - 1) t) (ht : TypesOK t) (c : Compact.RState) (hc : c.boolField = .none) (size : Nat) (hsize : 16 ≤ size) (rest : Bytes) :
    (TenFromEachString rest.length t →
      Holds Compact.reader t (c, ⟨size, encCompact t ++ rest, .block⟩) (c, ⟨size, rest, .block⟩) ∧
      SkipReturns Compact.reader t.ty (c, ⟨size, encCompact t ++ rest, .block⟩) none (c, ⟨size, rest, .block⟩)) ∧
    (¬ TenFromEachString rest.length t → ∃ n, ∀ fuel, n ≤ fuel → (skip fuel t.ty).run Compact.reader (c, ⟨size, encCompact t ++ rest, .block⟩) = .blocked) := by
  rw [← Compact.fit_iff, ← Compact.encWith_spec]
  refine ⟨fun h => ?_, fun h => ⟨fuelOf t, fun fuel hf => skip_stuck t fuel hf _ (Compact.waits Compact.hdrSpec_ok hsize t hw ht c rest hc h)⟩⟩
  have := Compact.holdsFit Compact.hdrSpec_ok size hsize .block t hw ht c rest hc (.inr h)
  exact ⟨this, C03_skip_any _ t _ _ this⟩

/-- **C23** compact, exactly, for message headers: the header is read without waiting iff at least ten bytes have arrived from the beginning of the name on. -/
theorem C23_compact_message_exact_partial (h : MessageHeader) (ht : h.type.toNat < 8) (hn : h.name.length < 2 ^ 63) (c : Compact.RState) (size : Nat) (hsize : 16 ≤ size) (rest : Bytes) :
    (10 ≤ (leb h.name.length ++ h.name ++ rest).length →
      Compact.reader.step .messageBegin (c, ⟨size, encCompactMessage h ++ rest, .block⟩) = .done (.ok h, (c, ⟨size, rest, .block⟩))) ∧
    ((leb h.name.length ++ h.name ++ rest).length < 10 → Compact.reader.step .messageBegin (c, ⟨size, encCompactMessage h ++ rest, .block⟩) = .blocked) := by
  refine ⟨fun h1 => ?_, fun h1 => Compact.step_waits (Compact.message_waits hsize rest c h ht h1)⟩
  have := Compact.message_read size hsize rest .block c h.type ht h.id (BitVec.ofNat 64 h.id.toNat) (by simp) h.name (.inr (by rw [← List.length_append]; exact h1)) hn
  rw [(Compact.message_byte _ ht).1, ← Compact.leb_eq_put _ (by have := h.id.isLt; omega)] at this
  exact Compact.gives (o := .messageBegin) this

/-- A struct with a string of one byte: the stop byte follows, seven more bytes are needed. -/
example : let t := TVal.struct [] [([], 1, .str false [0x61])]
    WF (2 ^ 63 - 1) t ∧ TypesOK t ∧ ¬ TenFromEachString 6 t ∧ TenFromEachString 7 t := by
  have h1 : leb 1 = [1] := by rw [leb]; rfl
  simp [WF, WFFields, TypesOK, TypesOKFields, TenFromEachString, TenFields, encCompact, encCompactFields, h1]

/-! ## C47 -/

/-- Items a binary writer can express. -/
def ItemsOKBin (is : List Item) : Prop := ∀ i ∈ is, match i with
  | .message h => h.name.length < 2 ^ 31
  | .value t => WF (2 ^ 31 - 1) t

/-- Items a compact writer can express. -/
def ItemsOKCompact (is : List Item) : Prop := ∀ i ∈ is, match i with
  | .message h => h.name.length < 2 ^ 63 ∧ h.type.toNat < 8
  | .value t => WF (2 ^ 63 - 1) t ∧ TypesOK t

/-- **C47** binary: any sequence of messages and values written to one writer is read back in order, ending exactly at the
bytes that follow. -/
theorem C47_binary (strict : Bool) (is : List Item) (hok : ItemsOKBin is) (size : Nat) (hsize : 16 ≤ size) (rest : Bytes)
    (fin : End) :
    ∃ out, (∀ b, Writes (Binary.writer strict) (itemCalls is) ((), b) ((), b ++ out)) ∧
      HoldsItems (Binary.reader strict) is ((), ⟨size, out ++ rest, fin⟩) ((), ⟨size, rest, fin⟩) := by
  induction is with
  | nil => exact ⟨[], fun b => by simp [itemCalls, Writes.nil], rfl⟩
  | cons i is ih =>
    obtain ⟨out, hw, hr⟩ := ih (fun i hi => hok i (by simp [hi]))
    have hi := hok i (by simp)
    cases i with
    | message h =>
      refine ⟨encBinMessage strict h ++ out, fun b => ?_, ((), ⟨size, out ++ rest, fin⟩), ?_, hr⟩
      · rw [itemCalls, ← List.append_assoc]
        exact .cons (Binary.message_write strict h b) (hw _)
      · rw [List.append_assoc]
        exact Binary.gives (Binary.message_read size hsize (out ++ rest) fin strict strict (.inl rfl) h hi)
    | value t =>
      refine ⟨encBin t ++ out, fun b => ?_, ((), ⟨size, out ++ rest, fin⟩), ?_, hr⟩
      · rw [itemCalls, ← List.append_assoc]
        exact .append (Binary.writes strict t b) (hw _)
      · rw [List.append_assoc]
        exact Binary.holds strict size hsize fin t hi (out ++ rest)

/-- **C47** compact. -/
theorem C47_compact (is : List Item) (hok : ItemsOKCompact is) (size : Nat) (hsize : 16 ≤ size) (rest : Bytes) (e : Err) :
    ∃ out, (∀ (c : Compact.WState) b, c.boolField.type = Ty.stop → ∃ c', c'.ids = c.ids ∧ c'.last = c.last ∧
        Writes Compact.writer (itemCalls is) (c, b) (c', b ++ out)) ∧
      ∀ (c : Compact.RState), c.boolField = .none →
        HoldsItems Compact.reader is (c, ⟨size, out ++ rest, .err e⟩) (c, ⟨size, rest, .err e⟩) := by
  induction is with
  | nil => exact ⟨[], fun c b _ => ⟨c, rfl, rfl, by simp [itemCalls, Writes.nil]⟩, fun c _ => rfl⟩
  | cons i is ih =>
    obtain ⟨out, hw, hr⟩ := ih (fun i hi => hok i (by simp [hi]))
    have hi := hok i (by simp)
    have hs : ∀ n, Compact.Safe (.err e) n := fun _ => .inl ⟨e, rfl⟩
    cases i with
    | message h =>
      refine ⟨Compact.msgW h ++ out, fun c b hc => ?_, fun c hc => ⟨(c, ⟨size, out ++ rest, .err e⟩), ?_, hr c hc⟩⟩
      · obtain ⟨c', h1, h2, h3⟩ := hw c (b ++ Compact.msgW h) hc
        refine ⟨c', h1, h2, ?_⟩
        rw [itemCalls, ← List.append_assoc]
        exact .cons (Compact.message_write h (Nat.lt_trans hi.1 (by decide)) c b) h3
      · rw [List.append_assoc]
        exact Compact.gives (Compact.message_read_w size hsize (out ++ rest) (.err e) (hs _) c h hi.2 hi.1)
    | value t =>
      refine ⟨Compact.encWith Compact.hdrW t ++ out, fun c b hc => ?_,
        fun c hc => ⟨(c, ⟨size, out ++ rest, .err e⟩), ?_, hr c hc⟩⟩
      · obtain ⟨c1, s1, w1⟩ := Compact.writes t hi.1 hi.2 c b hc
        obtain ⟨c', h1, h2, h3⟩ := hw c1 (b ++ Compact.encWith Compact.hdrW t) s1.2.2
        refine ⟨c', h1.trans s1.1, h2.trans s1.2.1, ?_⟩
        rw [itemCalls, ← List.append_assoc]
        exact .append w1 h3
      · rw [List.append_assoc]
        exact Compact.holdsWith Compact.hdrW_ok size hsize (.err e) t hi.1 hi.2 c (out ++ rest) hc (.inl (hs _))

/-- The hypotheses are met by two messages with arguments in between. -/
example : let is := [Item.message ⟨[0x70], 1, 7⟩, .value sample, .message ⟨[0x71], 2, -1⟩, .value sample]
    ItemsOKBin is ∧ ItemsOKCompact is := by
  simp [ItemsOKBin, ItemsOKCompact, sample, WF, WFFields, WFEntries, WFElems, TypesOK, TypesOKFields, TypesOKEntries,
    TypesOKElems, ty, ValidTy]

end GoThrift
