import Verif.Proof.Clean

/-!
# C70: a reader goes on when its source grows
-/

namespace GoThrift

/-- **C70** binary: at any time, any program gets the answers, and leaves the bytes, that it would with a new reader of a source that holds the bytes
not consumed so far. In particular an error at the end of the source is not kept: it is forgotten when more bytes arrive. -/
theorem C70_binary {α : Type} (strict : Bool) {size : Nat} (hsize : 16 ≤ size) {x : Unit × BufReader}
    (h : Growing (Binary.bufReader strict) (Binary.newBR size) Binary.resetBR x) (p : RProg α) (s : Source) (fair : s.Fair) (data : s.data = x.2.left) (fin : s.fin = x.2.src.fin) :
    OutRel (fun a b => a.1 = b.1 ∧ a.2.2.left = b.2.2.left) (p.run (Binary.bufReader strict) x) (p.run (Binary.bufReader strict) (Binary.newBR size s)) := by
  obtain ⟨-, h2⟩ := h.clean (by omega) (fun o => Binary.step_clean strict hsize o) (Binary.bufReader_sim strict) (fun _ => rfl) (fun x s hx => by rw [← hx]; rfl)
  have hs := RProg.run_sim (Binary.bufReader_sim strict) p x ((), _) ⟨rfl, h2⟩
  have ht := RProg.run_sim (Binary.bufReader_sim strict) p (Binary.newBR size s) ((), ⟨size, s.data, s.fin⟩) ⟨rfl, BSim.new (by omega) fair⟩
  rw [data, fin] at ht
  refine (hs.join ht).mono ?_
  rintro x y ⟨z, ⟨h1, h2⟩, ⟨h3, h4⟩⟩
  exact ⟨h1.trans h3.symm, h2.2.bytes.symm.trans h4.2.bytes⟩

/-- **C70** compact: the same with a reader that has the same fields (the ids of the enclosing structs); they also end up the same. -/
theorem C70_compact {α : Type} {x : Compact.RState × BufReader}
    (h : Growing Compact.bufReader Compact.newBR Compact.resetBR x) (p : RProg α) (s : Source) (fair : s.Fair) (data : s.data = x.2.left) (fin : s.fin = x.2.src.fin) :
    OutRel (fun a b => a.1 = b.1 ∧ a.2.1 = b.2.1 ∧ a.2.2.left = b.2.2.left) (p.run Compact.bufReader x) (p.run Compact.bufReader (x.1, (Compact.newBR s).2)) := by
  obtain ⟨-, h2⟩ := h.clean (size := 4096) (by omega) (fun o => Compact.step_clean (by omega) o) Compact.bufReader_sim (fun _ => rfl) (fun x s hx => rfl)
  have hs := RProg.run_sim Compact.bufReader_sim p x (x.1, _) ⟨rfl, h2⟩
  have ht := RProg.run_sim Compact.bufReader_sim p (x.1, (Compact.newBR s).2) (x.1, ⟨4096, s.data, s.fin⟩) ⟨rfl, BSim.new (by omega) fair⟩
  rw [data, fin] at ht
  refine (hs.join ht).mono ?_
  rintro x y ⟨z, ⟨h1, h2⟩, ⟨h3, h4⟩⟩
  exact ⟨h1.trans h3.symm, h2.1.trans h4.1.symm, h2.2.bytes.symm.trans h4.2.bytes⟩

/-- **C70** the hypothesis that the source is quiet cannot be dropped: if a source delivers its last byte together with `io.EOF`, and then one more byte arrives, the
reader reports `io.EOF` once more before it reads that byte. -/
theorem C70_needs_quiet :
    (((Binary.bufReader true).step .byte (Binary.newBR 16 ⟨[1], .err .eof, fun _ => (4096, true), 0⟩)).bind fun r =>
      ((Binary.bufReader true).step .byte (r.2.1, { r.2.2 with src := ⟨[2], .err .eof, fun _ => (4096, true), 0⟩ })).bind fun q =>
        ((Binary.bufReader true).step .byte q.2).bind fun z => .done (r.1, q.1, z.1)) = .done (.ok 1, .error .eof, .ok 2) := rfl

/-! ## Examples -/

/-- A `bytes.Buffer` that holds `data`. -/
def grown (data : Bytes) : Source := ⟨data, .err .eof, fun _ => (4096, false), 0⟩

theorem grown_quiet (data : Bytes) : (grown data).Quiet := fun _ => rfl
theorem grown_fair (data : Bytes) : (grown data).Fair := fun _ => ⟨0, by decide, by show 4096 ≠ 0; decide⟩

/-- The reader meets the end of the source in the middle of a struct; then the rest of the struct arrives, and is read. -/
example : Growing (Binary.bufReader true) (Binary.newBR 16) Binary.resetBR ((), ⟨16, [], none, grown [8, 0, 1, 0, 0, 0, 5, 0]⟩) ∧
    (Binary.bufReader true).step .byte (Binary.newBR 16 (grown [])) = .done (.error .eof, (), ⟨16, [], none, ⟨[], .err .eof, fun _ => (4096, false), 1⟩⟩) ∧
    ((skip 5 Ty.struct).run (Binary.bufReader true) ((), ⟨16, [], none, grown [8, 0, 1, 0, 0, 0, 5, 0]⟩)).bind (fun r => .done (r.1, r.2.2.left)) = .done (none, []) :=
  ⟨.grow (x := ((), ⟨16, [], none, ⟨[], .err .eof, fun _ => (4096, false), 1⟩⟩)) (.calls (a := .error .eof) (.call .byte .ret) (.new (grown []) (grown_quiet _) (grown_fair _)) rfl) (grown [8, 0, 1, 0, 0, 0, 5, 0]) _ rfl (grown_quiet _) (grown_fair _), rfl, by decide +kernel⟩

/-- See above: the compact reader has read the header of field 1 when it meets the end; the delta of the next field counts from there. -/
example : ∃ x, Growing Compact.bufReader Compact.newBR Compact.resetBR x ∧ x.2.left = [0x15, 10, 0] ∧
    ((RProg.call .fieldBegin .ret).run Compact.bufReader x).bind (fun r => .done (r.1.toOption.map fun h => h.id)) = .done (some 2) :=
  ⟨_, .grow (.calls (.call .i32 .ret) (.calls (.call .fieldBegin .ret) (.new (grown [0x15]) (grown_quiet _) (grown_fair _)) rfl) rfl)
    (grown [0x15, 10, 0]) [0x15, 10, 0] rfl (grown_quiet _) (grown_fair _), rfl, by decide +kernel⟩

end GoThrift
