import Verif.Proof.Robust

/-!
# Streams that stay open

On a stream that blocks at its end a program waits for ever, or does what it does on a stream that ends.
-/

namespace GoThrift

/-- The same stream, open. -/
def Flat.opened (s : Flat) : Flat := { s with fin := .block }

/-- The same outcome, on an open stream. -/
def reopen {α : Type} (x : Out (α × Flat)) : Out (α × Flat) := x.bind fun r => .done (r.1, r.2.opened)

theorem BProg.run_idle {α : Type} (p : BProg α) (s : Flat) (e : Err) (he : s.fin = .err e) : p.run s.opened = .blocked ∨ p.run s.opened = reopen (p.run s) := by
  induction p generalizing s with
  | ret a => exact .inr rfl
  | diverge => exact .inr rfl
  | panic => exact .inr rfl
  | size k ih => exact ih _ s he
  | peek n k ih =>
    obtain ⟨size, bytes, fin⟩ := s
    cases he
    simp only [BProg.run, Flat.peek, Flat.opened]
    by_cases h1 : n < 0
    · simp only [h1, if_true]; exact ih _ _ ⟨size, bytes, .err e⟩ rfl
    · by_cases h2 : n.toNat > size
      · by_cases h3 : size ≤ bytes.length
        · simp only [h1, h2, h3, if_true, if_false]; exact ih _ _ ⟨size, bytes, .err e⟩ rfl
        · simp only [h1, h2, h3, if_true, if_false]; exact .inl rfl
      · by_cases h3 : n.toNat ≤ bytes.length
        · simp only [h1, h2, h3, if_true, if_false]; exact ih _ _ ⟨size, bytes, .err e⟩ rfl
        · simp only [h1, h2, h3, if_false]; exact .inl rfl
  | discard n k ih =>
    obtain ⟨size, bytes, fin⟩ := s
    cases he
    simp only [BProg.run, Flat.discard, Flat.opened]
    by_cases h1 : n < 0
    · simp only [h1, if_true]; exact ih _ ⟨size, bytes, .err e⟩ rfl
    · by_cases h3 : n.toNat ≤ bytes.length
      · simp only [h1, h3, if_true, if_false]; exact ih _ ⟨size, bytes.drop n.toNat, .err e⟩ rfl
      · simp only [h1, h3, if_false]; exact .inl rfl
  | readByte k ih =>
    obtain ⟨size, bytes, fin⟩ := s
    cases he
    cases bytes with
    | nil => exact .inl rfl
    | cons b bs => exact ih _ ⟨size, bs, .err e⟩ rfl
  | readFull n k ih =>
    obtain ⟨size, bytes, fin⟩ := s
    cases he
    simp only [BProg.run, Flat.readFull, Flat.opened]
    by_cases h3 : n ≤ bytes.length
    · simp only [h3, if_true]; exact ih _ _ ⟨size, bytes.drop n, .err e⟩ rfl
    · simp only [h3, if_false]; exact .inl rfl

theorem mkReader_idle {C : Type} (impl : (o : ROp) → RM C o.Ans) (o : ROp) (c : C) (s : Flat) (e : Err) (he : s.fin = .err e) :
    (mkReader impl).step o (c, s.opened) = .blocked ∨
    (mkReader impl).step o (c, s.opened) = ((mkReader impl).step o (c, s)).bind fun r => .done (r.1, (r.2.1, r.2.2.opened)) := by
  rcases BProg.run_idle (impl o c) s e he with h | h
  · left
    show ((impl o c).run s.opened).bind _ = _
    rw [h]; rfl
  · right
    show ((impl o c).run s.opened).bind _ = (((impl o c).run s).bind _).bind _
    rw [h]
    cases (impl o c).run s <;> rfl

/-- A reader that never loops and keeps the end of the stream. -/
theorem RProg.run_idle {α C : Type} {J : ROp → C → C → Nat → Prop} (impl : (o : ROp) → RM C o.Ans) (ht : TameReader (mkReader impl) J) (p : RProg α) (c : C) (size : Nat) (hs : 16 ≤ size)
    (bytes : Bytes) (e : Err) :
    p.run (mkReader impl) (c, ⟨size, bytes, .block⟩) = .blocked ∨
    p.run (mkReader impl) (c, ⟨size, bytes, .block⟩) = (p.run (mkReader impl) (c, ⟨size, bytes, .err e⟩)).bind fun r => .done (r.1, (r.2.1, r.2.2.opened)) := by
  induction p generalizing c bytes with
  | ret a => exact .inr rfl
  | diverge => exact .inr rfl
  | panic => exact .inr rfl
  | call o k ih =>
    obtain ⟨x, c', used, rest, h1, h2, h3⟩ := ht o size hs c bytes e
    rw [RProg.run, RProg.run, h2]
    rcases mkReader_idle impl o c ⟨size, bytes, .err e⟩ e rfl with h | h
    · left
      rw [show (⟨size, bytes, .block⟩ : Flat) = Flat.opened ⟨size, bytes, .err e⟩ from rfl, h]
      rfl
    · rw [show (⟨size, bytes, .block⟩ : Flat) = Flat.opened ⟨size, bytes, .err e⟩ from rfl, h, h2]
      exact ih x c' rest

end GoThrift
