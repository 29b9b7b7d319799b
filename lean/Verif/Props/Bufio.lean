import Verif.Proof.Bufio

/-!
# C22: how the transport fragments the data does not matter
-/

namespace GoThrift

/-- Two transports that carry the same bytes and end the same way, each in its own pieces. -/
structure SameStream (s t : Source) : Prop where
  data : s.data = t.data
  fin : s.fin = t.fin
  fair : s.Fair
  fair' : t.Fair

/-- **C22** binary: any program of Reader calls (each may depend on the answers so far) gives the same answers and consumes the same bytes on
two transports that carry the same bytes; one waits exactly if the other does. -/
theorem C22_binary {α : Type} (strict : Bool) (p : RProg α) (size : Nat) (hsize : 0 < size) (s t : Source) (h : SameStream s t) :
    OutRel (fun x y => x.1 = y.1 ∧ x.2.2.left = y.2.2.left) (p.run (Binary.bufReader strict) ((), newBufReader size s))
      (p.run (Binary.bufReader strict) ((), newBufReader size t)) := by
  have hs := RProg.run_sim (Binary.bufReader_sim strict) p ((), newBufReader size s) ((), ⟨size, s.data, s.fin⟩)
    ⟨rfl, BSim.new hsize h.fair⟩
  have ht := RProg.run_sim (Binary.bufReader_sim strict) p ((), newBufReader size t) ((), ⟨size, t.data, t.fin⟩)
    ⟨rfl, BSim.new hsize h.fair'⟩
  rw [← h.data, ← h.fin] at ht
  refine (hs.join ht).mono ?_
  rintro x y ⟨z, ⟨h1, h2⟩, ⟨h3, h4⟩⟩
  exact ⟨h1.trans h3.symm, h2.2.bytes.symm.trans h4.2.bytes⟩

/-- **C22** compact: the same, from any state of the reader, and its fields end up the same. -/
theorem C22_compact {α : Type} (p : RProg α) (c : Compact.RState) (size : Nat) (hsize : 0 < size) (s t : Source) (h : SameStream s t) :
    OutRel (fun x y => x.1 = y.1 ∧ x.2.1 = y.2.1 ∧ x.2.2.left = y.2.2.left) (p.run Compact.bufReader (c, newBufReader size s))
      (p.run Compact.bufReader (c, newBufReader size t)) := by
  have hs := RProg.run_sim Compact.bufReader_sim p (c, newBufReader size s) (c, ⟨size, s.data, s.fin⟩) ⟨rfl, BSim.new hsize h.fair⟩
  have ht := RProg.run_sim Compact.bufReader_sim p (c, newBufReader size t) (c, ⟨size, t.data, t.fin⟩) ⟨rfl, BSim.new hsize h.fair'⟩
  rw [← h.data, ← h.fin] at ht
  refine (hs.join ht).mono ?_
  rintro x y ⟨z, ⟨h1, h2⟩, ⟨h3, h4⟩⟩
  exact ⟨h1.trans h3.symm, h2.1.trans h4.1.symm, h2.2.bytes.symm.trans h4.2.bytes⟩

/-- **C22** in particular one Reader method. -/
theorem C22_method_binary (strict : Bool) (o : ROp) (size : Nat) (hsize : 0 < size) (s t : Source) (h : SameStream s t) :
    OutRel (fun x y => x.1 = y.1 ∧ x.2.2.left = y.2.2.left) ((Binary.bufReader strict).step o ((), newBufReader size s))
      ((Binary.bufReader strict).step o ((), newBufReader size t)) := by
  have := C22_binary strict (.call o .ret) size hsize s t h
  simp only [RProg.run] at this
  erw [Out.bind_id, Out.bind_id] at this
  exact this

/-- **C22** in particular one Reader method. -/
theorem C22_method_compact (o : ROp) (c : Compact.RState) (size : Nat) (hsize : 0 < size) (s t : Source) (h : SameStream s t) :
    OutRel (fun x y => x.1 = y.1 ∧ x.2.1 = y.2.1 ∧ x.2.2.left = y.2.2.left) (Compact.bufReader.step o (c, newBufReader size s))
      (Compact.bufReader.step o (c, newBufReader size t)) := by
  have := C22_compact (.call o .ret) c size hsize s t h
  simp only [RProg.run] at this
  erw [Out.bind_id, Out.bind_id] at this
  exact this

/-- **C22** the stream all other theorems speak of, one that has all its bytes at once, is such a transport: what is proved of it holds of
every transport. -/
theorem C22_flat_binary {α : Type} (strict : Bool) (p : RProg α) (size : Nat) (hsize : 0 < size) (s : Source) (h : s.Fair) :
    OutRel (fun x y => x.1 = y.1 ∧ x.2.2.left = y.2.2.bytes) (p.run (Binary.bufReader strict) ((), newBufReader size s))
      (p.run (Binary.reader strict) ((), ⟨size, s.data, s.fin⟩)) :=
  (RProg.run_sim (Binary.bufReader_sim strict) p ((), newBufReader size s) ((), ⟨size, s.data, s.fin⟩) ⟨rfl, BSim.new hsize h⟩).mono
    fun _ _ h => ⟨h.1, h.2.2.bytes.symm⟩

/-- **C22** see `C22_flat_binary`. -/
theorem C22_flat_compact {α : Type} (p : RProg α) (c : Compact.RState) (size : Nat) (hsize : 0 < size) (s : Source) (h : s.Fair) :
    OutRel (fun x y => x.1 = y.1 ∧ x.2.1 = y.2.1 ∧ x.2.2.left = y.2.2.bytes) (p.run Compact.bufReader (c, newBufReader size s))
      (p.run Compact.reader (c, ⟨size, s.data, s.fin⟩)) :=
  (RProg.run_sim Compact.bufReader_sim p (c, newBufReader size s) (c, ⟨size, s.data, s.fin⟩) ⟨rfl, BSim.new hsize h⟩).mono
    fun _ _ h => ⟨h.1, h.2.1, h.2.2.bytes.symm⟩

/-- A struct delivered byte by byte with an empty read before every byte and the final error together with the last byte. -/
def trickle (data : Bytes) : Source := ⟨data, .err .eof, fun i => (i % 2, true), 0⟩

/-- The same bytes at once. -/
def atOnce (data : Bytes) : Source := ⟨data, .err .eof, fun _ => (4096, false), 0⟩

example (data : Bytes) : SameStream (trickle data) (atOnce data) :=
  ⟨rfl, rfl, fun i => ⟨(i + 1) % 2, by omega, by show (i + (i + 1) % 2) % 2 ≠ 0; omega⟩, fun i => ⟨0, by decide, by show 4096 ≠ 0; decide⟩⟩

example : ((skip 5 Ty.struct).run (Binary.bufReader true) ((), newBufReader 16 (trickle [8, 0, 1, 0, 0, 0, 5, 0, 99]))).bind
      (fun r => .done (r.1, r.2.2.left)) = .done (none, [99]) ∧
    ((skip 5 Ty.struct).run Compact.bufReader (({} : Compact.RState), newBufReader 16 (trickle [0x15, 10, 0, 99]))).bind
      (fun r => .done (r.1, r.2.2.left)) = .done (none, [99]) := by decide +kernel

/-- Beyond the limit of 100 empty reads bufio gives up, so the hypothesis `Fair` cannot be dropped. -/
example : ((Binary.bufReader true).step .byte ((), newBufReader 16 ⟨[1], .err .eof, fun i => (if i < 100 then 0 else 1, false), 0⟩)).bind
      (fun r => .done (errOf r.1)) = .done (some .noProgress) := by decide +kernel

end GoThrift
