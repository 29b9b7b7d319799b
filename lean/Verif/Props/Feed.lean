import Verif.Proof.Feed

/-!
# C76: any `io.Reader`
-/

namespace GoThrift

/-- **C76** a client of a new binary reader gets, on any `io.Reader` that keeps the contract, what it gets on the plain stream of its bytes, and leaves the same bytes behind. `s` is the state of the
`io.Reader`, `C.left s` its bytes. -/
theorem C76_binary {ρ α : Type} (rd : ReadFn ρ) (C : rd.Contract) (strict : Bool) (p : RProg α) (size : Nat) (hsize : 0 < size) (s : ρ) (h : C.ok s) :
    OutRel (fun x y => x.1 = y.1 ∧ x.2.2.unread ++ C.left x.2.2.src = y.2.2.bytes ∧ C.ok x.2.2.src) (p.run (Binary.gReader rd strict) ((), .new size s))
      (p.run (Binary.reader strict) ((), ⟨size, C.left s, C.fin s⟩)) :=
  (RProg.run_sim (Binary.gReader_sim (C := C) strict) p ((), .new size s) ((), ⟨size, C.left s, C.fin s⟩) ⟨rfl, GSim.new hsize h⟩).mono
    fun _ _ h => ⟨h.1, h.2.2.bytes.symm, h.2.2.ok⟩

/-- **C76** the same of a compact reader. -/
theorem C76_compact {ρ α : Type} (rd : ReadFn ρ) (C : rd.Contract) (p : RProg α) (c : Compact.RState) (size : Nat) (hsize : 0 < size) (s : ρ) (h : C.ok s) :
    OutRel (fun x y => x.1 = y.1 ∧ x.2.1 = y.2.1 ∧ x.2.2.unread ++ C.left x.2.2.src = y.2.2.bytes ∧ C.ok x.2.2.src) (p.run (Compact.gReader rd) (c, .new size s))
      (p.run Compact.reader (c, ⟨size, C.left s, C.fin s⟩)) :=
  (RProg.run_sim (Compact.gReader_sim (C := C)) p (c, .new size s) (c, ⟨size, C.left s, C.fin s⟩) ⟨rfl, GSim.new hsize h⟩).mono
    fun _ _ h => ⟨h.1, h.2.1, h.2.2.bytes.symm, h.2.2.ok⟩

/-- **C76** a `bufio.Reader` keeps the contract if what it reads from does: its bytes are those in its buffer and then those of the `io.Reader` below it. -/
theorem C76_bufio {ρ : Type} (rd : ReadFn ρ) (C : rd.Contract) :
    ∃ D : ReadFn.Contract (GBuf.read rd), ∀ (size : Nat) (s : ρ), 0 < size → C.ok s →
      D.ok (GBuf.new size s) ∧ D.left (GBuf.new size s) = C.left s ∧ D.fin (GBuf.new size s) = C.fin s ∧ ∀ b : GBuf ρ, D.left b = b.unread ++ C.left b.src :=
  ⟨GBuf.contract C, fun _ _ hsize h => ⟨⟨h, hsize, Nat.zero_le _, fun _ he => by cases he⟩, rfl, rfl, fun _ => rfl⟩⟩

/-- **C76** so a reader on a (small) `bufio.Reader` of the caller's, which is wrapped in one of its own, gives the same answers; `n` is the size of the caller's. -/
theorem C76_wrapped_binary {ρ α : Type} (rd : ReadFn ρ) (C : rd.Contract) (strict : Bool) (p : RProg α) (n size : Nat) (hn : 0 < n) (hsize : 0 < size) (s : ρ)
    (h : C.ok s) :
    OutRel (fun x y => x.1 = y.1 ∧ x.2.2.unread ++ (x.2.2.src.unread ++ C.left x.2.2.src.src) = y.2.2.bytes)
      (p.run (Binary.gReader (GBuf.read rd) strict) ((), .new size (.new n s))) (p.run (Binary.reader strict) ((), ⟨size, C.left s, C.fin s⟩)) :=
  (C76_binary (GBuf.read rd) (GBuf.contract C) strict p size hsize (.new n s) ⟨h, hn, Nat.zero_le _, fun _ he => by cases he⟩).mono fun _ _ h => ⟨h.1, h.2.1⟩

/-- **C76** the same of a compact reader. -/
theorem C76_wrapped_compact {ρ α : Type} (rd : ReadFn ρ) (C : rd.Contract) (p : RProg α) (c : Compact.RState) (n size : Nat) (hn : 0 < n) (hsize : 0 < size) (s : ρ)
    (h : C.ok s) :
    OutRel (fun x y => x.1 = y.1 ∧ x.2.1 = y.2.1 ∧ x.2.2.unread ++ (x.2.2.src.unread ++ C.left x.2.2.src.src) = y.2.2.bytes)
      (p.run (Compact.gReader (GBuf.read rd)) (c, .new size (.new n s))) (p.run Compact.reader (c, ⟨size, C.left s, C.fin s⟩)) :=
  (C76_compact (GBuf.read rd) (GBuf.contract C) p c size hsize (.new n s) ⟨h, hn, Nat.zero_le _, fun _ he => by cases he⟩).mono fun _ _ h => ⟨h.1, h.2.1, h.2.2.1⟩

/-- **C76** the transports of C22, which deliver their bytes in any pieces, keep the contract. -/
theorem C76_source : ∃ C : ReadFn.Contract Source.read, ∀ s : Source, s.Fair → C.ok s ∧ C.left s = s.data ∧ C.fin s = s.fin :=
  ⟨Source.contract, fun _ h => ⟨h, rfl, rfl⟩⟩

/-- A transport that is not one of these, since how many bytes it delivers depends on the bytes: one more than the first of them says. -/
def Counter.read : ReadFn Bytes := fun s cap =>
  match s with
  | [] => .done (([], some .eof), [])
  | x :: xs => .done ((((x :: xs).take (min cap (x.toNat + 1))), none), (x :: xs).drop (min cap (x.toNat + 1)))

/-- It keeps the contract. -/
def Counter.contract : ReadFn.Contract Counter.read where
  ok _ := True
  left s := s
  fin _ := .err .eof
  idle _ := 0
  idle_lt _ _ := by decide
  total s cap _ _ := by cases s <;> exact .inr ⟨_, rfl⟩
  keeps s cap p e s' _ hcap hr := by
    cases s with
    | nil => cases hr; exact ⟨trivial, Nat.zero_le _, rfl, rfl, (fun x hx => by cases hx; exact ⟨rfl, rfl⟩), fun _ hn => by cases hn⟩
    | cons x xs =>
      cases hr
      refine ⟨trivial, by rw [List.length_take]; omega, (List.take_append_drop _ _).symm, rfl, (fun x hx => by cases hx), fun hn => ?_⟩
      have := congrArg List.length hn
      rw [List.length_take] at this
      simp only [List.length_nil, List.length_cons] at this
      omega

/-- A struct through two `bufio.Reader`s on that transport. -/
example : ((skip 5 Ty.struct).run (Binary.gReader (GBuf.read Counter.read) true) ((), .new 4096 (.new 16 ([8, 0, 1, 0, 0, 0, 5, 0, 99] : Bytes)))).bind
      (fun r => .done (r.1, r.2.2.unread ++ (r.2.2.src.unread ++ r.2.2.src.src))) = .done (none, [99]) ∧
    ((skip 5 Ty.struct).run (Compact.gReader (GBuf.read Counter.read)) (({} : Compact.RState), .new 4096 (.new 16 ([0x15, 10, 0, 99] : Bytes)))).bind
      (fun r => .done (r.1, r.2.2.unread ++ (r.2.2.src.unread ++ r.2.2.src.src))) = .done (none, [99]) := by decide +kernel

end GoThrift
