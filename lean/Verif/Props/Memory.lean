import Verif.Proof.Memory
import Verif.Spec.Fragment

/-!
# C74: what is read from the buffer is read before the buffer is overwritten
-/

namespace GoThrift

open Mem

/-- The bytes a reader has not delivered yet. -/
def Mem.ArrReader.left (b : ArrReader) : Bytes := b.load ⟨b.r, b.w⟩ ++ b.src.data

/-- The reader on its array and the stream hold the same bytes. -/
def ASim {C : Type} (x : C × ArrReader) (y : C × Flat) : Prop := x.1 = y.1 ∧ x.2.OK ∧ BSim x.2.abs y.2

theorem ASim.new {C : Type} (c : C) (buf : Bytes) (hbuf : buf ≠ []) (s : Source) (h : s.Fair) (junk : Nat → Bytes) :
    ASim (c, ArrReader.new buf s junk) (c, ⟨buf.length, s.data, s.fin⟩) := by
  refine ⟨rfl, ⟨Nat.le_refl _, Nat.zero_le _⟩, ?_⟩
  have := BSim.new (List.length_pos_iff.2 hbuf) h
  have e : (ArrReader.new buf s junk).abs = newBufReader buf.length s := rfl
  rw [e]
  exact this

/-- **C74** binary: any program of Reader calls (each may depend on the answers so far) gives the same answers and leaves the same bytes on the
array of a `bufio.Reader` as on a stream that has all its bytes at once: whatever is in the array before, in whatever pieces the bytes
arrive, and whatever the transport leaves in the parts of the array it was lent. -/
theorem C74_binary {α : Type} (strict : Bool) (p : RProg α) (buf : Bytes) (hbuf : buf ≠ []) (s : Source) (h : s.Fair) (junk : Nat → Bytes) :
    OutRel (fun x y => x.1 = y.1 ∧ x.2.2.left = y.2.2.bytes) (p.run (Mem.Binary.reader strict) ((), ArrReader.new buf s junk))
      (p.run (Binary.reader strict) ((), ⟨buf.length, s.data, s.fin⟩)) := by
  refine (RProg.run_sim (R := ASim) ?_ p _ _ (ASim.new () buf hbuf s h junk)).mono fun x y h => ⟨h.1, h.2.2.2.bytes.symm⟩
  rintro o s t ⟨h1, h2, h3⟩
  have ha := Mem.Binary.step_same strict o s (s.1, s.2.abs) ⟨rfl, h2, rfl⟩
  have hb := Binary.bufReader_sim strict o (s.1, s.2.abs) t ⟨h1, h3⟩
  cases hx : (Mem.Binary.reader strict).step o s <;> cases hy : (Binary.bufReader strict).step o (s.1, s.2.abs) <;>
    cases hz : (Binary.reader strict).step o t <;> rw [hx, hy] at ha <;> rw [hy, hz] at hb <;> simp only [OutRel] at ha hb ⊢
  obtain ⟨a1, a2, a3, a4⟩ := ha
  obtain ⟨b1, b2, b3⟩ := hb
  refine ⟨a1.trans b1, a2.trans b2, a3, ?_⟩
  rw [a4]
  exact b3

/-- **C74** compact: the same, from any state of the reader. -/
theorem C74_compact {α : Type} (p : RProg α) (c : Compact.RState) (buf : Bytes) (hbuf : buf ≠ []) (s : Source) (h : s.Fair) (junk : Nat → Bytes) :
    OutRel (fun x y => x.1 = y.1 ∧ x.2.1 = y.2.1 ∧ x.2.2.left = y.2.2.bytes) (p.run Mem.Compact.reader (c, ArrReader.new buf s junk))
      (p.run Compact.reader (c, ⟨buf.length, s.data, s.fin⟩)) := by
  refine (RProg.run_sim (R := ASim) ?_ p _ _ (ASim.new c buf hbuf s h junk)).mono fun x y h => ⟨h.1, h.2.1, h.2.2.2.bytes.symm⟩
  rintro o s t ⟨h1, h2, h3⟩
  have ha := Mem.Compact.step_same o s (s.1, s.2.abs) ⟨rfl, h2, rfl⟩
  have hb := Compact.bufReader_sim o (s.1, s.2.abs) t ⟨h1, h3⟩
  cases hx : Mem.Compact.reader.step o s <;> cases hy : Compact.bufReader.step o (s.1, s.2.abs) <;>
    cases hz : Compact.reader.step o t <;> rw [hx, hy] at ha <;> rw [hy, hz] at hb <;> simp only [OutRel] at ha hb ⊢
  obtain ⟨a1, a2, a3, a4⟩ := ha
  obtain ⟨b1, b2, b3⟩ := hb
  refine ⟨a1.trans b1, a2.trans b2, a3, ?_⟩
  rw [a4]
  exact b3

/-- The same call on a stream that has all its bytes at once. -/
def Mem.Call.flat (c : Call) (f : Flat) : Out (((Bytes ⊕ BitVec 64) × Option Err) × Flat) :=
  match c with
  | .next n => ((GoThrift.next n).run f).bind fun x => .done ((.inl x.1.1, x.1.2), x.2)
  | .readString n => ((GoThrift.wireReadString n).run f).bind fun x => .done ((.inl x.1.1, x.1.2), x.2)
  | .readBytes n buf => ((GoThrift.wireReadBytes n buf).run f).bind fun x => .done ((.inl x.1.1, x.1.2), x.2)
  | .readUvarint => (GoThrift.readUvarint.run f).bind fun x => .done ((.inr x.1.1, x.1.2), x.2)
  | .readVarint => (GoThrift.readVarint.run f).bind fun x => .done ((.inr x.1.1, x.1.2), x.2)

/-- The same session on a stream that has all its bytes at once. -/
def flatSession : List Call → Flat → Out (List ((Bytes ⊕ BitVec 64) × Option Err) × Flat)
  | [], f => .done ([], f)
  | c :: cs, f => (c.flat f).bind fun x => (flatSession cs x.2).bind fun y => .done (x.1 :: y.1, y.2)

/-- A result that is not a slice of the array. -/
def Mem.Kept.own : Kept → Bool
  | .slice _ _ => false
  | _ => true

theorem Mem.Kept.own_look {k : Kept} (h : k.own = true) (b b' : ArrReader) : k.look b = k.look b' := by
  cases k with
  | slice s e => exact absurd h (by simp [Kept.own])
  | bytes c e => rfl
  | number x e => rfl

/-- From programs to calls. -/
theorem same_flat {α : Type} {m : MProg α} {p : BProg α} (h : Same m p) {b : ArrReader} {f : Flat} (hb : b.OK) (hf : BSim b.abs f) :
    OutRel (fun x y => x.1 = y.1 ∧ x.2.OK ∧ BSim x.2.abs y.2) (m.run b) (p.run f) := by
  have ha := h b hb
  have hb := BProg.runBuf_sim p b.abs f hf
  cases hx : m.run b <;> cases hy : p.runBuf b.abs <;> cases hz : p.run f <;> rw [hx, hy] at ha <;> rw [hy, hz] at hb <;>
    simp only [OutRel] at ha hb ⊢
  obtain ⟨a1, a3, a4⟩ := ha
  obtain ⟨b1, b3⟩ := hb
  refine ⟨a1.trans b1, a3, ?_⟩
  rw [a4]
  exact b3

theorem call_flat (c : Call) {b : ArrReader} {f : Flat} (hb : b.OK) (hf : BSim b.abs f) :
    OutRel (fun x y => x.1.look x.2 = y.1 ∧ x.2.OK ∧ BSim x.2.abs y.2) (c.prog.run b) (c.flat f) := by
  cases c with
  | next n =>
    have ha := next_spec n hb
    have hb := BProg.runBuf_sim (GoThrift.next n) b.abs f hf
    unfold Call.prog Call.flat
    rw [MProg.run_bind]
    cases hx : (Mem.next n).run b <;> cases hy : (GoThrift.next n).runBuf b.abs <;> cases hz : (GoThrift.next n).run f <;> rw [hx, hy] at ha <;>
      rw [hy, hz] at hb <;> simp only [OutRel] at ha hb ⊢ <;> try (rw [hz]; trivial)
    rename_i x y z
    obtain ⟨a1, a2, a3, a4, a5⟩ := ha
    obtain ⟨b1, b2⟩ := hb
    rw [hz]
    show (Sum.inl (x.2.load x.1.1), x.1.2) = (Sum.inl z.1.1, z.1.2) ∧ x.2.OK ∧ BSim x.2.abs z.2
    rw [a4, a1, b1, a3]
    exact ⟨rfl, a2, b2⟩
  | readString n =>
    unfold Call.prog Call.flat
    rw [MProg.run_bind]
    refine (same_flat (wireReadString_same n) hb hf).bind ?_
    rintro ⟨⟨x, e⟩, b'⟩ ⟨⟨y, e'⟩, f'⟩ ⟨h1, h2, h3⟩
    cases h1
    exact ⟨rfl, h2, h3⟩
  | readBytes n buf =>
    unfold Call.prog Call.flat
    rw [MProg.run_bind]
    refine (same_flat (wireReadBytes_same n buf) hb hf).bind ?_
    rintro ⟨⟨x, e⟩, b'⟩ ⟨⟨y, e'⟩, f'⟩ ⟨h1, h2, h3⟩
    cases h1
    exact ⟨rfl, h2, h3⟩
  | readUvarint =>
    unfold Call.prog Call.flat
    rw [MProg.run_bind]
    refine (same_flat readUvarint_same hb hf).bind ?_
    rintro ⟨⟨x, e⟩, b'⟩ ⟨⟨y, e'⟩, f'⟩ ⟨h1, h2, h3⟩
    cases h1
    exact ⟨rfl, h2, h3⟩
  | readVarint =>
    unfold Call.prog Call.flat
    rw [MProg.run_bind]
    refine (same_flat readVarint_same hb hf).bind ?_
    rintro ⟨⟨x, e⟩, b'⟩ ⟨⟨y, e'⟩, f'⟩ ⟨h1, h2, h3⟩
    cases h1
    exact ⟨rfl, h2, h3⟩

theorem session_flat : ∀ (cs : List Call) (b : ArrReader) (f : Flat), b.OK → BSim b.abs f →
    OutRel (fun x y => x.1.length = y.1.length ∧ x.2.left = y.2.bytes ∧
        ∀ i k v, x.1[i]? = some k → y.1[i]? = some v → (k.own = true ∨ i + 1 = x.1.length) → k.look x.2 = v)
      (session cs b) (flatSession cs f)
  | [], b, f, hb, hf => ⟨rfl, hf.bytes.symm, fun i k v h => by cases h⟩
  | c :: cs, b, f, hb, hf => by
    unfold session flatSession
    refine (call_flat c hb hf).bind ?_
    rintro ⟨k, b'⟩ ⟨v, f'⟩ ⟨h1, h2, h3⟩
    dsimp only at h1 h2 h3 ⊢
    have hnil : cs = [] → session cs b' = .done ([], b') := fun e => by rw [e]; rfl
    have hs := session_flat cs b' f' h2 h3
    cases hx : session cs b' <;> cases hy : flatSession cs f' <;> rw [hx, hy] at hs <;> simp only [OutRel] at hs <;> try trivial
    rename_i x y
    obtain ⟨g1, g2, g3⟩ := hs
    refine ⟨?_, g2, ?_⟩
    · show x.1.length + 1 = y.1.length + 1
      rw [g1]
    · intro i k' v' hi hv ho
      cases i with
      | zero =>
        cases hi; cases hv
        rcases ho with ho | ho
        · rw [Kept.own_look ho _ b', h1]
        · have hl : x.1.length = 0 := by
            have : 0 + 1 = x.1.length + 1 := ho
            omega
          have hb' : x.2 = b' := by
            cases cs with
            | nil => rw [hnil rfl] at hx; cases hx; rfl
            | cons c cs =>
              exfalso
              unfold session at hx
              cases hp : c.prog.run b' with
              | done z =>
                rw [hp, Out.bind_done] at hx
                cases hq : session cs z.2 with
                | done w => rw [hq] at hx; cases hx; cases hl
                | blocked => rw [hq] at hx; cases hx
                | diverged => rw [hq] at hx; cases hx
                | panicked => rw [hq] at hx; cases hx
              | blocked => rw [hp] at hx; cases hx
              | diverged => rw [hp] at hx; cases hx
              | panicked => rw [hp] at hx; cases hx
          show k.look x.2 = v
          rw [hb', h1]
      | succ i =>
        refine g3 i k' v' hi hv ?_
        rcases ho with ho | ho
        · exact .inl ho
        · refine .inr ?_
          have : i + 1 + 1 = x.1.length + 1 := ho
          omega

/-- **C74** any session of calls of `Next`, `ReadString`, `ReadBytes`, `ReadUvarint` and `ReadVarint` on one `bufio.Reader`, all results kept and
looked at when the session is over: every string, byte slice and number is still what the call delivers on a stream that has all its
bytes at once, and so is the slice returned by `Next` if nothing was called after it. -/
theorem C74_session (cs : List Call) (buf : Bytes) (hbuf : buf ≠ []) (s : Source) (h : s.Fair) (junk : Nat → Bytes) :
    OutRel (fun x y => x.1.length = y.1.length ∧ x.2.left = y.2.bytes ∧
        ∀ i k v, x.1[i]? = some k → y.1[i]? = some v → (k.own = true ∨ i + 1 = x.1.length) → k.look x.2 = v)
      (session cs (ArrReader.new buf s junk)) (flatSession cs ⟨buf.length, s.data, s.fin⟩) :=
  have hs := ASim.new () buf hbuf s h junk
  session_flat cs _ _ hs.2.1 hs.2.2

/-- Only `Next` returns slices of the array. -/
theorem C74_owned (c : Call) (hc : ∀ n, c ≠ .next n) (b b' : ArrReader) (k : Kept) (h : c.prog.run b = .done (k, b')) : k.own = true := by
  have aux : ∀ {α : Type} (m : MProg α) (f : α → Kept), (∀ a, (f a).own = true) → (m.bind fun r => .ret (f r)).run b = .done (k, b') → k.own = true := by
    intro α m f hf h
    rw [MProg.run_bind] at h
    cases hm : m.run b with
    | done x => rw [hm] at h; cases h; exact hf _
    | blocked => rw [hm] at h; cases h
    | diverged => rw [hm] at h; cases h
    | panicked => rw [hm] at h; cases h
  cases c with
  | next n => exact absurd rfl (hc n)
  | readString n => exact aux (Mem.wireReadString n) (fun r => .bytes r.1 r.2) (fun _ => rfl) h
  | readBytes n buf => exact aux (Mem.wireReadBytes n buf) (fun r => .bytes r.1 r.2) (fun _ => rfl) h
  | readUvarint => exact aux Mem.readUvarint (fun r => .number r.1 r.2) (fun _ => rfl) h
  | readVarint => exact aux Mem.readVarint (fun r => .number r.1 r.2) (fun _ => rfl) h

/-- A transport that delivers three bytes at a time. -/
def threes (data : Bytes) : Source := ⟨data, .err .eof, fun _ => (3, false), 0⟩

theorem threes_fair (data : Bytes) : (threes data).Fair := fun _ => ⟨0, by decide, by show 3 ≠ 0; decide⟩

/-- **C74** the restriction for `Next` is necessary: the slice of a first call holds other bytes after a second call. -/
theorem C74_next_overwritten : ∃ (b : ArrReader) (k k' : Kept) (b' : ArrReader),
    session [.next 2, .next 4] b = .done ([k, k'], b') ∧ k.own = false ∧
    ((flatSession [.next 2, .next 4] ⟨b.buf.length, b.src.data, b.src.fin⟩).bind fun x => .done (x.1[0]?)) = .done (some (.inl [1, 2], none)) ∧
    k.look b' = (.inl [3, 4], none) := by
  refine ⟨ArrReader.new [0, 0, 0, 0, 0] (threes [1, 2, 3, 4, 5, 6, 7]) (fun _ => [9, 9, 9, 9]), .slice ⟨0, 2⟩ none, .slice ⟨0, 4⟩ none, _, rfl, rfl, ?_, ?_⟩
  · decide +kernel
  · rfl

example : [7, 7, 7] ≠ ([] : Bytes) ∧ (threes [5, 0, 1]).Fair := ⟨by decide, threes_fair _⟩

/-- Strings longer and shorter than the array, with an array full of old bytes and a transport that scribbles. -/
example : ((session [.readString 2, .readUvarint, .readString 6, .next 2] (ArrReader.new [7, 7, 7] (threes [1, 2, 0x85, 1, 3, 4, 5, 6, 7, 8, 9, 10]) fun _ => [99, 99, 99])).bind fun x =>
      .done (x.1.map (Kept.look x.2), x.2.left)) =
    .done ([(.inl [1, 2], none), (.inr 133, none), (.inl [3, 4, 5, 6, 7, 8], none), (.inl [9, 10], none)], []) := by decide +kernel

end GoThrift
