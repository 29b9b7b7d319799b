import Verif.Spec.Arshal
import Verif.Spec.Holds
import Verif.Model.ThriftTest

/-!
# What `TestProtocol` tests

For any protocol: the calls that the test makes, and what they have to give.
-/

namespace GoThrift.Spec

open GoThrift.ThriftTest

variable {C R : Type}

/-- The writer, with these bytes in the buffer it writes to. -/
def onto (w : PW C Bytes) (b : Bytes) : PW C Bytes := { w with b := { w.b with wr := b } }

/-- The reader, with these bytes in the buffer it reads from. -/
def from_ (r : R × BufReader) (b : Bytes) : R × BufReader := (r.1, { r.2 with src := bufferR b })

/-- The bytes in the buffer of a reader that it has not taken from there yet. -/
def left (r : R × BufReader) : Bytes := r.2.src.data

/-- A message with the value `x` is written and flushed, without an error. -/
def WritesMessage (P : Protocol C R) (env : Env) (msg : MessageHeader) (x : AnyVal) (w w' : PW C Bytes) : Prop :=
  ∃ w1 w2 w3, (PW.wtr bufferW P.wimpl).step (.messageBegin msg) w = .done (none, w1) ∧ MarshalReturns env (PW.wtr bufferW P.wimpl) x w1 none w2 ∧
    (PW.wtr bufferW P.wimpl).step .messageEnd w2 = .done (none, w3) ∧ w3.flush bufferW = (none, w')

/-- A message with the header `h` is read into `x`, which becomes `x'`, without an error. -/
def ReadsMessage (P : Protocol C R) (env : Env) (h : MessageHeader) (x x' : AnyVal) (r r' : R × BufReader) : Prop :=
  ∃ r1 r2 a, P.rdr.step .messageBegin r = .done (.ok h, r1) ∧ UnmarshalReturns env P.rdr x (from_ r1 (left r1)) none x' r2 ∧ P.rdr.step .messageEnd (from_ r2 (left r2)) = .done (.ok a, r')

/-- A message is skipped, without an error. -/
def SkipsMessage (P : Protocol C R) (r r' : R × BufReader) : Prop :=
  ∃ h r1 r2 a, P.rdr.step .messageBegin r = .done (.ok h, r1) ∧ SkipReturns P.rdr Ty.struct (from_ r1 (left r1)) none r2 ∧ P.rdr.step .messageEnd (from_ r2 (left r2)) = .done (.ok a, r')

/-- The headers agree: the name need not be there. -/
def Agree (h msg : MessageHeader) : Prop := h.type = msg.type ∧ h.id = msg.id ∧ (h.name = msg.name ∨ h.name = [] ∨ msg.name = [])

/-- The protocol does with the element `tt` of the table what the test asks for; `ord n` is the order in which maps are iterated by the n-th Marshal. -/
def Passed (P : Protocol C R) (env : Env) (ord : Nat → GoVal → GoVal) (tt : Case) : Prop :=
  ∃ (n : Nat) (msg h : MessageHeader) (want : Bytes) (x : AnyVal) (w0 w1 : PW C Bytes) (r0 r1 : R × BufReader), msg.name = tt.name ∧ 1 ≤ msg.type.toNat ∧ msg.type.toNat ≤ 4 ∧
    -- the value is written,
    WritesMessage P env msg (.val tt.t (ord n tt.val)) (onto (P.resetW w0 []) []) w1 ∧ w1.b.wr = want ∧
    -- read back into a new variable, with nothing left behind,
    ReadsMessage P env h (.val tt.p (.ptr (env.zero tt.t))) x (from_ (P.resetR r0 (bufferR want)) want) r1 ∧ Agree h msg ∧ left r1 = [] ∧
    -- what was read gives the same bytes, three times,
    (tt.hasMap = false → ∃ w2 w3 w4, WritesMessage P env msg (ordered ord (n + 1) x) (onto w1 []) w2 ∧ w2.b.wr = want ∧ WritesMessage P env msg (ordered ord (n + 2) x) (onto w2 []) w3 ∧ w3.b.wr = want ∧
      WritesMessage P env msg (ordered ord (n + 3) x) (onto w3 []) w4 ∧ w4.b.wr = want) ∧
    -- and three messages are skipped, each as soon as it is there.
    ∃ b r2 r3 r4, b = (if tt.hasMap = true then [] else want) ∧ SkipsMessage P (from_ (P.resetR r1 (bufferR b)) (b ++ want)) r2 ∧ SkipsMessage P (from_ r2 (left r2 ++ want)) r3 ∧
      SkipsMessage P (from_ r3 (left r3 ++ want)) r4

end GoThrift.Spec
