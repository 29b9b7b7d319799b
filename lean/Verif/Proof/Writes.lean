import Verif.Proof.BE
import Verif.Proof.CompactRead

/-! # The writers on the calls for a value -/

namespace GoThrift

open Spec Spec.TVal

section
variable {S : Type} {w : Wtr S}

theorem Writes.nil (s : S) : Writes w [] s s := rfl

theorem Writes.cons {o : WOp} {l : List WOp} {s s1 s2 : S} (h1 : w.step o s = .done (none, s1)) (h2 : Writes w l s1 s2) :
    Writes w (o :: l) s s2 := by
  simpa [Writes, WProg.ofCalls, WProg.run, h1] using h2

theorem Writes.one {o : WOp} {s s1 : S} (h1 : w.step o s = .done (none, s1)) : Writes w [o] s s1 := .cons h1 (.nil _)

theorem Writes.step {o : WOp} {s s1 : S} (h : Writes w [o] s s1) : w.step o s = .done (none, s1) := by
  simp only [Writes, WProg.ofCalls, WProg.run] at h
  cases hs : w.step o s with
  | done x =>
    obtain ⟨e, s'⟩ := x
    rw [hs, Out.bind_done] at h
    cases e with
    | none => simpa [WProg.run] using h
    | some e => simp [WProg.run] at h
  | _ => simp [hs] at h

theorem ofCalls_append_run (l1 l2 : List WOp) (s : S) : (WProg.ofCalls (l1 ++ l2)).run w s =
    ((WProg.ofCalls l1).run w s).bind fun x => match x.1 with
      | none => (WProg.ofCalls l2).run w x.2
      | some e => .done (some e, x.2) := by
  induction l1 generalizing s with
  | nil => rfl
  | cons o l1 ih =>
    simp only [List.cons_append, WProg.ofCalls, WProg.run, Out.bind_assoc]
    congr 1; funext x
    rcases x with ⟨_ | e, s'⟩
    · exact ih s'
    · rfl

theorem Writes.append {l1 l2 : List WOp} {s s1 s2 : S} (h1 : Writes w l1 s s1) (h2 : Writes w l2 s1 s2) :
    Writes w (l1 ++ l2) s s2 := by
  rw [Writes, ofCalls_append_run, h1]
  exact h2

end

namespace Binary

variable {strict : Bool}

theorem step_run {o : WOp} {b out : Bytes} (h : (wimpl strict o).ideal () = ((.ok (), ()), out)) :
    (writer strict).step o ((), b) = .done (none, ((), b ++ out)) := by
  simp [writer, h, errOf]

theorem ideal_write_bind {β : Type} (k : WKind) (b : Bytes) (f : Unit → W β) :
    ((WM.write k b).bind f).ideal () = (((f ()).ideal ()).1, b ++ ((f ()).ideal ()).2) := by
  rw [WM.ideal_bind, WM.ideal_write]

theorem writeI32_size (n : Nat) : putBE 4 (n % 4294967296) = be 4 n := by
  rw [putBE_eq]
  simp only [be, List.range_succ_eq_map, List.range_zero, List.map_cons, List.map_nil]
  congr 1
  · apply BitVec.eq_of_toNat_eq; simp; omega
  congr 1
  · apply BitVec.eq_of_toNat_eq; simp; omega
  congr 1
  · apply BitVec.eq_of_toNat_eq; simp; omega
  congr 1
  apply BitVec.eq_of_toNat_eq; simp

/-- What has to be shown for each value. -/
def WOK (strict : Bool) (t : TVal) : Prop := ∀ b, Writes (writer strict) (calls t) ((), b) ((), b ++ encBin t)

theorem fields_write (fs : List (Bytes × BitVec 16 × TVal)) (h : ∀ f ∈ fs, WOK strict f.2.2) :
    ∀ b, Writes (writer strict) (callsFields fs ++ [.structEnd]) ((), b) ((), b ++ encBinFields fs) := by
  induction fs with
  | nil => intro b; exact .one (step_run (by simp [wimpl, writeByte, encBinFields, Ty.stop]))
  | cons f fs ih =>
    obtain ⟨n, id, v⟩ := f
    intro b
    simp only [callsFields, encBinFields]
    simp only [List.append_assoc]
    refine .append (.one (s1 := ((), b ++ ([v.ty] ++ be 2 id.toNat))) (step_run ?_)) ?_
    · simp [wimpl, writeFieldBegin, writeByte, writeI16, ideal_write_bind, putBE_eq]
    refine .append (h (n, id, v) (by simp) _) ?_
    rw [List.singleton_append]
    refine .cons (s1 := ((), (b ++ ([v.ty] ++ be 2 id.toNat)) ++ encBin v)) ?_ ?_
    · simp [writer, wimpl, errOf]
    · have := ih (fun f hf => h f (by simp [hf])) ((b ++ ([v.ty] ++ be 2 id.toNat)) ++ encBin v)
      simpa only [List.append_assoc, List.nil_append] using this

theorem entries_write (es : List (TVal × TVal)) (h : ∀ e ∈ es, WOK strict e.1 ∧ WOK strict e.2) :
    ∀ b, Writes (writer strict) (callsEntries es) ((), b) ((), b ++ encBinEntries es) := by
  induction es with
  | nil => intro b; simp [callsEntries, encBinEntries, Writes.nil]
  | cons e es ih =>
    obtain ⟨k, v⟩ := e
    intro b
    obtain ⟨hk, hv⟩ := h (k, v) (by simp)
    have := ((hk b).append (hv _)).append (ih (fun e he => h e (by simp [he])) _)
    simpa only [callsEntries, encBinEntries, List.append_assoc] using this

theorem elems_write (es : List TVal) (h : ∀ e ∈ es, WOK strict e) :
    ∀ b, Writes (writer strict) (callsElems es) ((), b) ((), b ++ encBinElems es) := by
  induction es with
  | nil => intro b; simp [callsElems, encBinElems, Writes.nil]
  | cons e es ih =>
    intro b
    have := (h e (by simp) b).append (ih (fun e he => h e (by simp [he])) _)
    simpa only [callsElems, encBinElems, List.append_assoc] using this

/-- The binary writer writes the binary encoding. -/
theorem writes (strict : Bool) (t : TVal) : WOK strict t := by
  induction t using TVal.ind with
  | hbool v => intro b; refine .one (step_run ?_); cases v <;> simp [wimpl, writeByte, encBin]
  | hbyte v => intro b; exact .one (step_run (by simp [wimpl, writeByte, encBin]))
  | hdouble v => intro b; exact .one (step_run (by simp [wimpl, writeDouble, encBin, putBE_eq]))
  | hi16 v => intro b; exact .one (step_run (by simp [wimpl, writeI16, encBin, putBE_eq]))
  | hi32 v => intro b; exact .one (step_run (by simp [wimpl, writeI32, encBin, putBE_eq]))
  | hi64 v => intro b; exact .one (step_run (by simp [wimpl, writeI64, encBin, putBE_eq]))
  | hstr raw v =>
    intro b
    refine .one (step_run ?_)
    cases raw <;> simp [wimpl, writeString, writeBytes, writeSize, lenInt, writeI32, ideal_write_bind, writeI32_size, encBin]
  | huuid v => intro b; exact .one (step_run (by simp [wimpl, encBin]))
  | hstruct n fs h =>
    intro b
    simp only [calls, encBin, List.append_assoc]
    refine .append (.one (s1 := ((), b)) ?_) (fields_write fs h b)
    simp [writer, wimpl, errOf]
  | hmap kt vt es h =>
    intro b
    simp only [calls, encBin]
    have h1 : Writes (writer strict) [.mapBegin ⟨kt, vt, BitVec.ofNat 64 es.length⟩] ((), b)
        ((), b ++ ([kt, vt] ++ be 4 es.length)) := by
      refine .one (step_run ?_)
      simp [wimpl, writeMapBegin, writeByte, writeSize, writeI32, ideal_write_bind, writeI32_size]
    have h2 : ∀ b, Writes (writer strict) [.mapEnd] ((), b) ((), b) := by
      intro b; refine .one ?_; simp [writer, wimpl, errOf]
    have := (h1.append (entries_write es h _)).append (h2 _)
    simpa only [List.append_assoc] using this
  | hset et es h =>
    intro b
    simp only [calls, encBin]
    have h1 : Writes (writer strict) [.setBegin ⟨et, BitVec.ofNat 64 es.length⟩] ((), b)
        ((), b ++ ([et] ++ be 4 es.length)) := by
      refine .one (step_run ?_)
      simp [wimpl, writeSetBegin, writeByte, writeSize, writeI32, ideal_write_bind, writeI32_size]
    have h2 : ∀ b, Writes (writer strict) [.setEnd] ((), b) ((), b) := by
      intro b; refine .one ?_; simp [writer, wimpl, errOf]
    have := (h1.append (elems_write es h _)).append (h2 _)
    simpa only [List.append_assoc] using this
  | hlist et es h =>
    intro b
    simp only [calls, encBin]
    have h1 : Writes (writer strict) [.listBegin ⟨et, BitVec.ofNat 64 es.length⟩] ((), b)
        ((), b ++ ([et] ++ be 4 es.length)) := by
      refine .one (step_run ?_)
      simp [wimpl, writeSetBegin, writeByte, writeSize, writeI32, ideal_write_bind, writeI32_size]
    have h2 : ∀ b, Writes (writer strict) [.listEnd] ((), b) ((), b) := by
      intro b; refine .one ?_; simp [writer, wimpl, errOf]
    have := (h1.append (elems_write es h _)).append (h2 _)
    simpa only [List.append_assoc] using this

end Binary

namespace Compact

/-- The writer's field header as a function. -/
def hdrW (code : Byte) (last id : BitVec 16) : Bytes :=
  if (id - last).toInt > 0 ∧ (id - last).toInt ≤ 15 then [((id - last) <<< 4).setWidth 8 ||| code]
  else [code] ++ appendI16 id

theorem delta_nibbles (d : BitVec 16) (h : d.toInt > 0 ∧ d.toInt ≤ 15) (code : Byte) (hc : code.toNat < 16) :
    ((d <<< 4).setWidth 8 ||| code) = nibbles d.toNat code.toNat ∧ 0 < d.toNat ∧ d.toNat ≤ 15 := by
  have h0 : 0 < d.toNat ∧ d.toNat ≤ 15 := by
    rw [BitVec.toInt_eq_toNat_cond] at h
    have := d.isLt
    split at h <;> omega
  refine ⟨?_, h0⟩
  obtain ⟨n, hn⟩ : ∃ n : Fin 16, d = BitVec.ofNat 16 n := ⟨⟨d.toNat, by omega⟩, by simp⟩
  obtain ⟨m, hm⟩ : ∃ m : Fin 16, code = BitVec.ofNat 8 m := ⟨⟨code.toNat, hc⟩, by simp⟩
  subst hn hm
  revert m n
  decide +kernel

theorem hdrW_ok : HdrOK hdrW := by
  intro sz rest fin c code t hw ht hc id
  rw [hdrW]
  split
  · rename_i h
    obtain ⟨h1, h2, h3⟩ := delta_nibbles _ h code hc
    rw [h1, List.cons_append, List.nil_append, readFieldBegin_short _ _ _ _ _ _ hw ht hc _ h2 h3]
    have : c.last + BitVec.ofNat 16 (id - c.last).toNat = id := by
      rw [BitVec.ofNat_toNat, BitVec.setWidth_eq, BitVec.add_comm, BitVec.sub_add_cancel]
    rw [this]
  · rw [appendI16, ← lebz16, readFieldBegin_long _ _ _ _ _ _ hw ht hc]

theorem step_run {o : WOp} {c c' : WState} {b out : Bytes} (h : (wimpl o).ideal c = ((.ok (), c'), out)) :
    writer.step o (c, b) = .done (none, (c', b ++ out)) := by
  simp [writer, h, errOf]

theorem ideal_write_bind {β : Type} (k : WKind) (b : Bytes) (f : Unit → W β) (c : WState) :
    ((WM.write k b).bind f).ideal c = (((f ()).ideal c).1, b ++ ((f ()).ideal c).2) := by
  rw [WM.ideal_bind, WM.ideal_write]

theorem ideal_get_bind {β : Type} (f : WState → W β) (c : WState) :
    (WM.get.bind f).ideal c = (f c).ideal c := by
  rw [WM.ideal_bind, WM.ideal_get]; rfl

theorem ideal_set_bind {β : Type} (f : Unit → W β) (c c' : WState) :
    ((WM.set c').bind f).ideal c = (f ()).ideal c' := by
  rw [WM.ideal_bind, WM.ideal_set]; rfl

theorem appendWrite_ok (max : Nat) (b : Bytes) (c : WState) : (appendWrite max (.ok b)).ideal c = ((.ok (), c), b) := by
  simp [appendWrite, WM.ideal_bind]

theorem writeFieldHeader_run (h : FieldHeader) (v : Bool) (code : Byte)
    (hc : (if h.type = Ty.bool then (if v then Except.ok CT.boolTrue else Except.ok CT.boolFalse) else typeCompact h.type
      : Except Err Byte) = .ok code) (c : WState) :
    (writeFieldHeader h v).ideal c = ((.ok (), { c with last := h.id }), hdrW code c.last h.id) := by
  have : appendFieldHeader h v c.last = .ok (hdrW code c.last h.id) := by
    simp only [appendFieldHeader, hc, hdrW]
    split <;> rfl
  simp only [writeFieldHeader, WM.bind_eq, ideal_get_bind, this]
  rw [WM.ideal_bind, appendWrite_ok]
  simp [ideal_get_bind]

/-- Equal up to leftovers in the pending bool field header. -/
def Same (c c' : WState) : Prop := c'.ids = c.ids ∧ c'.last = c.last ∧ c'.boolField.type = Ty.stop

theorem Same.trans {a b c : WState} (h1 : Same a b) (h2 : Same b c) : Same a c :=
  ⟨h2.1.trans h1.1, h2.2.1.trans h1.2.1, h2.2.2⟩

/-- What has to be shown for each value. -/
def WOK (t : TVal) : Prop := WF (2 ^ 63 - 1) t → TypesOK t → ∀ (c : WState) b, c.boolField.type = Ty.stop →
  ∃ c', Same c c' ∧ Writes writer (calls t) (c, b) (c', b ++ encWith hdrW t)

theorem fields_write (fs : List (Bytes × BitVec 16 × TVal)) (h : ∀ f ∈ fs, WOK f.2.2) (hw : WFFields (2 ^ 63 - 1) fs)
    (ht : TypesOKFields fs) : ∀ (c : WState) b id ids, c.boolField.type = Ty.stop → c.ids = id :: ids →
    ∃ c' : WState, c'.ids = ids ∧ c'.last = id ∧ c'.boolField.type = Ty.stop ∧
      Writes writer (callsFields fs ++ [.structEnd]) (c, b) (c', b ++ encWithFields hdrW c.last fs) := by
  induction fs with
  | nil =>
    intro c b id ids hc hids
    refine ⟨{ c with ids := ids, last := id }, rfl, rfl, hc, .one (step_run ?_)⟩
    simp only [wimpl, writeStructEnd, WM.bind_eq, ideal_get_bind, hids, ideal_set_bind, writeByte, WM.ideal_write]
    rfl
  | cons f fs ih =>
    obtain ⟨n, id, v⟩ := f
    intro c b i ids hc hids
    simp only [WFFields] at hw
    simp only [TypesOKFields] at ht
    by_cases hv : v.ty = Ty.bool
    · cases v with
      | bool v =>
        let c2 : WState := ⟨c.ids, id, ⟨n, Ty.stop, id⟩⟩
        obtain ⟨c3, q1, q2, q3, q4⟩ := ih (fun f hf => h f (by simp [hf])) hw.2 ht.2 c2
          (b ++ hdrW (compactFieldCode (.bool v)) c.last id) i ids rfl hids
        refine ⟨c3, q1, q2, q3, ?_⟩
        simp only [callsFields, calls, List.cons_append, List.nil_append]
        refine .cons (s1 := ({ c with boolField := ⟨n, Ty.bool, id⟩ }, b ++ [])) (step_run ?_) ?_
        · simp only [wimpl, writeFieldBegin, ty, if_true, WM.bind_eq, ideal_get_bind, WM.ideal_set]
        refine .cons (s1 := (c2, (b ++ []) ++ hdrW (compactFieldCode (.bool v)) c.last id)) (step_run ?_) ?_
        · simp only [wimpl, writeBool, WM.bind_eq, ideal_get_bind]
          rw [if_pos (by decide), WM.ideal_bind, writeFieldHeader_run (code := compactFieldCode (.bool v))]
          · simp [ideal_get_bind, c2]
          · cases v <;> rfl
        refine .cons (s1 := (c2, (b ++ []) ++ hdrW (compactFieldCode (.bool v)) c.last id)) ?_ ?_
        · simp [writer, wimpl, errOf]
        · simpa [encWithFields, hv] using q4
      | _ => exact absurd hv (by simp only [ty]; decide)
    · let c1 : WState := { c with last := id }
      obtain ⟨c2, s2, w2⟩ := h (n, id, v) (by simp) hw.1 ht.1 c1 (b ++ hdrW (compactFieldCode v) c.last id) hc
      obtain ⟨c3, q1, q2, q3, q4⟩ := ih (fun f hf => h f (by simp [hf])) hw.2 ht.2 c2
          (b ++ hdrW (compactFieldCode v) c.last id ++ encWith hdrW v) i ids s2.2.2 (s2.1.trans hids)
      refine ⟨c3, q1, q2, q3, ?_⟩
      simp only [callsFields, List.append_assoc]
      refine .append (.one (s1 := (c1, b ++ hdrW (compactFieldCode v) c.last id)) (step_run ?_)) ?_
      · simp only [wimpl, writeFieldBegin, if_neg hv]
        rw [writeFieldHeader_run (code := compactFieldCode v)]
        rw [if_neg hv]
        cases v with
        | bool v => exact absurd rfl hv
        | _ => simp only [compactFieldCode]; exact (code_spec _ (validTy_ty _)).1
      rw [List.singleton_append]
      refine .append w2 (.cons (s1 := (c2, b ++ hdrW (compactFieldCode v) c.last id ++ encWith hdrW v)) ?_ ?_)
      · simp [writer, wimpl, errOf]
      · have hl : c2.last = id := s2.2.1
        rw [hl] at q4
        simpa only [encWithFields, if_neg hv, List.append_assoc, List.nil_append] using q4

theorem entries_write (kt vt : WType) (es : List (TVal × TVal)) (h : ∀ e ∈ es, WOK e.1 ∧ WOK e.2)
    (hw : WFEntries (2 ^ 63 - 1) kt vt es) (ht : TypesOKEntries es) : ∀ (c : WState) b, c.boolField.type = Ty.stop →
    ∃ c', Same c c' ∧ Writes writer (callsEntries es) (c, b) (c', b ++ encWithEntries hdrW es) := by
  induction es with
  | nil => intro c b hc; exact ⟨c, ⟨rfl, rfl, hc⟩, by simp [callsEntries, encWithEntries, Writes.nil]⟩
  | cons e es ih =>
    obtain ⟨k, v⟩ := e
    intro c b hc
    simp only [WFEntries] at hw
    simp only [TypesOKEntries] at ht
    obtain ⟨hk, hv⟩ := h (k, v) (by simp)
    obtain ⟨c1, s1, w1⟩ := hk hw.2.2.1 ht.1 c b hc
    obtain ⟨c2, s2, w2⟩ := hv hw.2.2.2.1 ht.2.1 c1 (b ++ encWith hdrW k) s1.2.2
    obtain ⟨c3, s3, w3⟩ := ih (fun e he => h e (by simp [he])) hw.2.2.2.2 ht.2.2 c2 (b ++ encWith hdrW k ++ encWith hdrW v) s2.2.2
    refine ⟨c3, (s1.trans s2).trans s3, ?_⟩
    simpa only [callsEntries, encWithEntries, List.append_assoc] using (w1.append w2).append w3

theorem elems_write (et : WType) (es : List TVal) (h : ∀ e ∈ es, WOK e)
    (hw : WFElems (2 ^ 63 - 1) et es) (ht : TypesOKElems es) : ∀ (c : WState) b, c.boolField.type = Ty.stop →
    ∃ c', Same c c' ∧ Writes writer (callsElems es) (c, b) (c', b ++ encWithElems hdrW es) := by
  induction es with
  | nil => intro c b hc; exact ⟨c, ⟨rfl, rfl, hc⟩, by simp [callsElems, encWithElems, Writes.nil]⟩
  | cons e es ih =>
    intro c b hc
    simp only [WFElems] at hw
    simp only [TypesOKElems] at ht
    obtain ⟨c1, s1, w1⟩ := h e (by simp) hw.2.1 ht.1 c b hc
    obtain ⟨c2, s2, w2⟩ := ih (fun e he => h e (by simp [he])) hw.2.2 ht.2 c1 (b ++ encWith hdrW e) s1.2.2
    refine ⟨c2, s1.trans s2, ?_⟩
    simpa only [callsElems, encWithElems, List.append_assoc] using w1.append w2

theorem appendMapHeader_eq (kt vt : WType) (n : Nat) (hk : n ≠ 0 → ValidTy kt ∧ ValidTy vt) (hn : n < 2 ^ 63) :
    appendMapHeader ⟨kt, vt, BitVec.ofNat 64 n⟩ = .ok (compactMapHeader kt vt n) := by
  simp only [appendMapHeader, compactMapHeader, toInt_ofNat64 n hn]
  by_cases h0 : n = 0
  · rw [if_pos h0, if_pos (by omega)]
  · obtain ⟨hk, hv⟩ := hk h0
    obtain ⟨k1, -, k3, -⟩ := code_spec kt hk
    obtain ⟨v1, -, v3, -⟩ := code_spec vt hv
    rw [if_neg h0, if_neg (by omega), k1, v1]
    simp only [appendSize, ← leb_eq_put n (by omega)]
    congr 3
    generalize compactCode kt = a at *
    generalize compactCode vt = b at *
    obtain ⟨n, rfl⟩ : ∃ n : Fin 16, a = BitVec.ofNat 8 n := ⟨⟨a.toNat, k3⟩, by simp⟩
    obtain ⟨m, rfl⟩ : ∃ n : Fin 16, b = BitVec.ofNat 8 n := ⟨⟨b.toNat, v3⟩, by simp⟩
    have : ∀ n m : Fin 16, BitVec.ofNat 8 n <<< 4 ||| BitVec.ofNat 8 m =
        nibbles (BitVec.ofNat 8 n).toNat (BitVec.ofNat 8 m).toNat := by decide +kernel
    exact this n m

theorem appendSetHeader_eq (et : WType) (n : Nat) (he : ValidTy et) (hn : n < 2 ^ 63) :
    appendSetHeader ⟨et, BitVec.ofNat 64 n⟩ = .ok (compactListHeader et n) := by
  obtain ⟨e1, -, e3, -⟩ := code_spec et he
  simp only [appendSetHeader, compactListHeader, toInt_ofNat64 n hn, e1]
  generalize compactCode et = a at *
  obtain ⟨m, rfl⟩ : ∃ n : Fin 16, a = BitVec.ofNat 8 n := ⟨⟨a.toNat, e3⟩, by simp⟩
  by_cases h : n < 15
  · rw [if_pos h, if_pos (by omega)]
    have : ∀ (n : Fin 15) (m : Fin 16), ((BitVec.ofNat 64 n <<< 4).setWidth 8 ||| BitVec.ofNat 8 m) =
        nibbles n (BitVec.ofNat 8 m).toNat := by decide +kernel
    rw [this ⟨n, h⟩ m]
  · rw [if_neg h, if_neg (by omega), appendSize, ← leb_eq_put n (by omega)]
    have : ∀ (m : Fin 16), (0xf0 ||| BitVec.ofNat 8 m) = nibbles 15 (BitVec.ofNat 8 m).toNat := by decide +kernel
    rw [this m]

/-- The compact writer writes `encWith hdrW`. -/
theorem writes (t : TVal) : WOK t := by
  induction t using TVal.ind with
  | hbool v =>
    intro _ _ c b hc
    refine ⟨c, ⟨rfl, rfl, hc⟩, .one (step_run ?_)⟩
    simp only [wimpl, writeBool, WM.bind_eq, ideal_get_bind]
    rw [if_neg (by simp [hc])]
    cases v <;> simp [writeByte, encWith]
  | hbyte v => intro _ _ c b hc; exact ⟨c, ⟨rfl, rfl, hc⟩, .one (step_run (by simp [wimpl, writeByte, encWith]))⟩
  | hdouble v =>
    intro _ _ c b hc
    exact ⟨c, ⟨rfl, rfl, hc⟩, .one (step_run (by simp [wimpl, writeDouble, encWith, putLE_eq]))⟩
  | hi16 v =>
    intro _ _ c b hc
    exact ⟨c, ⟨rfl, rfl, hc⟩, .one (step_run (by simp [wimpl, writeI64, encWith, lebz16]))⟩
  | hi32 v =>
    intro _ _ c b hc
    exact ⟨c, ⟨rfl, rfl, hc⟩, .one (step_run (by simp [wimpl, writeI64, encWith, lebz32]))⟩
  | hi64 v =>
    intro _ _ c b hc
    exact ⟨c, ⟨rfl, rfl, hc⟩, .one (step_run (by simp [wimpl, writeI64, encWith, lebz64]))⟩
  | hstr raw v =>
    intro hw _ c b hc
    simp only [WF] at hw
    refine ⟨c, ⟨rfl, rfl, hc⟩, .one (step_run ?_)⟩
    cases raw <;> simp [wimpl, writeString, writeBytes, writeSize, writeUvarint, lenInt, ideal_write_bind, encWith,
      leb_eq_put v.length (by omega)]
  | huuid v => intro _ _ c b hc; exact ⟨c, ⟨rfl, rfl, hc⟩, .one (step_run (by simp [wimpl, encWith]))⟩
  | hstruct n fs h =>
    intro hw ht c b hc
    simp only [calls, encWith, List.append_assoc]
    obtain ⟨c', h1, h2, h3, h4⟩ := fields_write fs h hw ht { c with ids := c.last :: c.ids, last := 0 } b c.last c.ids hc rfl
    refine ⟨c', ⟨h1, h2, h3⟩, .append (.one ?_) h4⟩
    simp [writer, wimpl, errOf, writeStructBegin, ideal_get_bind]
  | hmap kt vt es h =>
    intro hw ht c b hc
    simp only [WF] at hw
    obtain ⟨c', s', w'⟩ := entries_write kt vt es h hw.2 ht c (b ++ compactMapHeader kt vt es.length) hc
    refine ⟨c', s', ?_⟩
    have h1 : Writes writer [.mapBegin ⟨kt, vt, BitVec.ofNat 64 es.length⟩] (c, b) (c, b ++ compactMapHeader kt vt es.length) := by
      refine .one (step_run ?_)
      simp only [wimpl]
      rw [appendMapHeader_eq _ _ _ (entries_types _ kt vt es hw.2) (by omega), appendWrite_ok]
    have h2 : ∀ b, Writes writer [.mapEnd] (c', b) (c', b) := by
      intro b; refine .one ?_; simp [writer, wimpl, errOf]
    simpa only [calls, encWith, List.append_assoc] using (h1.append w').append (h2 _)
  | hset et es h =>
    intro hw ht c b hc
    simp only [WF] at hw
    simp only [TypesOK] at ht
    obtain ⟨c', s', w'⟩ := elems_write et es h hw.2 ht.2 c (b ++ compactListHeader et es.length) hc
    refine ⟨c', s', ?_⟩
    have h1 : Writes writer [.setBegin ⟨et, BitVec.ofNat 64 es.length⟩] (c, b) (c, b ++ compactListHeader et es.length) := by
      refine .one (step_run ?_)
      simp only [wimpl]
      rw [appendSetHeader_eq _ _ ht.1 (by omega), appendWrite_ok]
    have h2 : ∀ b, Writes writer [.setEnd] (c', b) (c', b) := by
      intro b; refine .one ?_; simp [writer, wimpl, errOf]
    simpa only [calls, encWith, List.append_assoc] using (h1.append w').append (h2 _)
  | hlist et es h =>
    intro hw ht c b hc
    simp only [WF] at hw
    simp only [TypesOK] at ht
    obtain ⟨c', s', w'⟩ := elems_write et es h hw.2 ht.2 c (b ++ compactListHeader et es.length) hc
    refine ⟨c', s', ?_⟩
    have h1 : Writes writer [.listBegin ⟨et, BitVec.ofNat 64 es.length⟩] (c, b) (c, b ++ compactListHeader et es.length) := by
      refine .one (step_run ?_)
      simp only [wimpl]
      rw [appendSetHeader_eq _ _ ht.1 (by omega), appendWrite_ok]
    have h2 : ∀ b, Writes writer [.listEnd] (c', b) (c', b) := by
      intro b; refine .one ?_; simp [writer, wimpl, errOf]
    simpa only [calls, encWith, List.append_assoc] using (h1.append w').append (h2 _)

end Compact

end GoThrift
