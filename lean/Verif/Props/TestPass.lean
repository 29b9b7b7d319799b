import Verif.Proof.TestPass
import Verif.Props.ThriftTest

/-!
# C91: what it means that `TestProtocol` passes
-/

namespace GoThrift

open Spec ThriftTest

/-- **C91** If `TestProtocol` passes, with any protocol, the protocol has done with each element of the table, except UUIDs that are not to be tested, what the test asks for. -/
theorem C91_passed {C R : Type} (P : Protocol C R) (env : Env) (ord : Nat → GoVal → GoVal) (fuel : Nat) (uuid : Bool) (table : List Case) (h : testProtocol P env ord fuel uuid table = .done true) :
    ∀ tt ∈ table, (tt.hasUUID = true → uuid = true) → Passed P env ord tt := testProtocol_ok h

/-- **C91**: so a protocol fails whose reader cannot read the header of a message, … -/
theorem C91_header {C R : Type} (P : Protocol C R) (hP : ∀ r h r', P.rdr.step .messageBegin r ≠ .done (.ok h, r')) (env : Env) (ord : Nat → GoVal → GoVal) (fuel : Nat) (uuid : Bool) (table : List Case)
    (tt : Case) (ht : tt ∈ table) (hu : tt.hasUUID = true → uuid = true) : testProtocol P env ord fuel uuid table ≠ .done true := by
  intro h
  obtain ⟨_, _, _, _, _, _, _, _, _, _, _, _, _, _, ⟨_, _, _, h1, _⟩, _⟩ := C91_passed P env ord fuel uuid table h tt ht hu
  exact hP _ _ _ h1

/-- **C91** … or loses the type of the message, … -/
theorem C91_type {C R : Type} (P : Protocol C R) (hP : ∀ r h r', P.rdr.step .messageBegin r = .done (.ok h, r') → h.type = 0) (env : Env) (ord : Nat → GoVal → GoVal) (fuel : Nat) (uuid : Bool)
    (table : List Case) (tt : Case) (ht : tt ∈ table) (hu : tt.hasUUID = true → uuid = true) : testProtocol P env ord fuel uuid table ≠ .done true := by
  intro h
  obtain ⟨_, msg, h, _, _, _, _, _, _, _, h0, _, _, _, ⟨_, _, _, h1, _⟩, ha, _⟩ := C91_passed P env ord fuel uuid table h tt ht hu
  have := hP _ _ _ h1
  rw [ha.1] at this
  rw [this] at h0
  cases h0

/-- **C91** … or never takes all of a message from the buffer. -/
theorem C91_leaves {C R : Type} (P : Protocol C R) (hP : ∀ r a r', P.rdr.step .messageEnd r = .done (.ok a, r') → r'.2.src.data ≠ []) (env : Env) (ord : Nat → GoVal → GoVal) (fuel : Nat) (uuid : Bool)
    (table : List Case) (tt : Case) (ht : tt ∈ table) (hu : tt.hasUUID = true → uuid = true) : testProtocol P env ord fuel uuid table ≠ .done true := by
  intro h
  obtain ⟨_, _, _, _, _, _, _, _, _, _, _, _, _, _, ⟨_, _, _, _, _, h2⟩, _, hl, _⟩ := C91_passed P env ord fuel uuid table h tt ht hu
  exact hP _ _ _ h2 hl

/-- The hypotheses of `C91_passed`: the test passes with the compact protocol and the table of the repository, so each element has been written, read, written again and skipped. -/
example : ∃ fuel, testProtocol ThriftTest.compact TestEx.env (fun _ v => v) fuel true ThriftTest.table = .done true ∧ ∀ tt ∈ ThriftTest.table, Passed ThriftTest.compact TestEx.env (fun _ v => v) tt := by
  obtain ⟨n, h⟩ := C71_table TestEx.env TestEx.program (fun _ v => v) (fun _ v => .refl v) true
  have h := (h n (Nat.le_refl _)).2
  exact ⟨n, h, fun tt ht => C91_passed _ _ _ _ _ _ h tt ht fun _ => rfl⟩

/-- A reader whose answers to one call are changed. -/
def TestEx.changed (f : (o : ROp) → Except Err o.Ans × Unit × BufReader → Except Err o.Ans × Unit × BufReader) : Protocol Unit Unit :=
  { ThriftTest.binary true with rdr := ⟨fun o x => ((Binary.bufReader true).step o x).bind fun y => .done (f o y)⟩ }

/-- The hypotheses of the others: readers of the binary protocol that refuse all messages, lose their type, or put a byte back at the end. -/
example : (∀ r h r', (TestEx.changed fun o y => match o, y with | .messageBegin, y => (.error .eof, y.2) | _, y => y).rdr.step .messageBegin r ≠ .done (.ok h, r')) ∧
    (∀ r h r', (TestEx.changed fun o y => match o, y with | .messageBegin, (.ok h, y) => (.ok { h with type := 0 }, y) | _, y => y).rdr.step .messageBegin r = .done (.ok h, r') → h.type = 0) ∧
    ∀ r a r', (TestEx.changed fun o y => match o, y with | .messageEnd, y => (y.1, y.2.1, { y.2.2 with src := bufferR [0] }) | _, y => y).rdr.step .messageEnd r = .done (.ok a, r') →
      r'.2.src.data ≠ [] := by
  refine ⟨fun r h r' hs => ?_, fun r h r' hs => ?_, fun r h r' hs => ?_⟩
  · change ((Binary.bufReader true).step .messageBegin r).bind _ = _ at hs
    cases hb : (Binary.bufReader true).step .messageBegin r with
    | done y => rw [hb] at hs; cases hs
    | _ => rw [hb] at hs; cases hs
  · change ((Binary.bufReader true).step .messageBegin r).bind _ = _ at hs
    cases hb : (Binary.bufReader true).step .messageBegin r with
    | done y =>
      obtain ⟨a, y⟩ := y
      rw [hb] at hs
      cases a with
      | ok a => cases hs; rfl
      | error e => cases hs
    | _ => rw [hb] at hs; cases hs
  · simp only [TestEx.changed] at hs
    cases hb : (Binary.bufReader true).step .messageEnd r with
    | done y => rw [hb, Out.bind_done] at hs; obtain ⟨_, rfl⟩ := Prod.mk.inj (Out.done.inj hs); simp [bufferR]
    | _ => rw [hb] at hs; cases hs

end GoThrift
