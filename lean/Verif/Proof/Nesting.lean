import Verif.Spec.Nesting
import Verif.Proof.Writes
import Verif.Model.Compact

/-! # Struct nesting in the compact protocol -/

namespace GoThrift.Compact

open Spec

/-- A reader method that leaves the stack of field ids alone. -/
def Keeps {α : Type} (m : M α) : Prop :=
  ∀ c s r c' s', m.run c s = .done ((r, c'), s') → c'.ids = c.ids

theorem Keeps.lift {α : Type} (p : BProg (Except Err α)) : Keeps (RM.lift p : M α) := by
  intro c s r c' s' h
  rw [RM.run_lift] at h
  cases hp : p.run s <;> simp [hp] at h
  rw [h.1.2]

theorem Keeps.need (n : Nat) (b : Bytes) : Keeps (RM.need n b : M Unit) := by
  intro c s r c' s' h
  by_cases hn : n ≤ b.length
  · rw [RM.run_need n b hn] at h
    cases h; rfl
  · simp [RM.run, RM.need, Nat.not_le.1 hn, BProg.run] at h

theorem Keeps.ok {α : Type} (a : α) : Keeps (RM.ok a : M α) := by
  intro c s r c' s' h
  simp at h; rw [h.1.2]

theorem Keeps.fail {α : Type} (e : Err) : Keeps (RM.fail e : M α) := by
  intro c s r c' s' h
  simp at h; rw [h.1.2]

theorem Keeps.bind {α β : Type} {m : M α} {f : α → M β} (hm : Keeps m) (hf : ∀ a, Keeps (f a)) : Keeps (m.bind f) := by
  intro c s r c' s' h
  rw [RM.run_bind] at h
  cases hp : m.run c s with
  | done x =>
    obtain ⟨⟨a, c1⟩, s1⟩ := x
    have h1 := hm c s a c1 s1 hp
    rw [hp] at h
    cases a with
    | ok a => exact (hf a c1 s1 r c' s' h).trans h1
    | error e => simp at h; rw [← h.1.2, h1]
  | _ => simp [hp] at h

/-- Reading the fields and then continuing in a way that keeps the ids. -/
theorem Keeps.get_bind {β : Type} {f : RState → M β}
    (hf : ∀ c s r c' s', (f c).run c s = .done ((r, c'), s') → c'.ids = c.ids) : Keeps (RM.get.bind f) := by
  intro c s r c' s' h
  rw [RM.run_bind, RM.run_get] at h
  exact hf c s r c' s' h

theorem Keeps.set_run {β : Type} {f : Unit → M β} (hf : Keeps (f ())) (c c0 : RState) (s : Flat) (r : Except Err β) (c' : RState)
    (s' : Flat) (h : ((RM.set c0).bind f).run c s = .done ((r, c'), s')) : c'.ids = c0.ids := by
  rw [RM.run_bind, RM.run_set] at h
  exact hf c0 s r c' s' h

theorem Keeps.set_ok {β : Type} {a : β} {c c0 : RState} {s : Flat} {r : Except Err β} {c' : RState}
    {s' : Flat} (h : ((RM.set c0).bind fun _ => RM.ok a).run c s = .done ((r, c'), s')) : c'.ids = c0.ids :=
  Keeps.set_run (.ok a) c c0 s r c' s' h

theorem keeps_readByte : Keeps readByte := .lift _
theorem keeps_ofExcept {α : Type} (r : Except Err α) : Keeps (ofExcept r) := .lift _
theorem keeps_readSize : Keeps readSize := .lift _
theorem keeps_readUvarint : Keeps readUvarint := .lift _
theorem keeps_readI64 : Keeps readI64 := .lift _
theorem keeps_readI32 : Keeps readI32 := .bind keeps_readI64 fun _ => .ok _
theorem keeps_readI16 : Keeps readI16 := .bind keeps_readI64 fun _ => .ok _
theorem keeps_readString : Keeps readString := .bind keeps_readUvarint fun _ => .lift _
theorem keeps_readBytes (buf : Bytes) : Keeps (readBytes buf) := .bind keeps_readUvarint fun _ => .lift _

theorem keeps_readBool : Keeps readBool := by
  unfold readBool
  simp only [RM.bind_eq]
  refine .get_bind fun c s r c' s' h => ?_
  split at h
  · exact Keeps.bind keeps_readByte (fun _ => .ok _) c s r c' s' h
  · have := Keeps.set_ok h; exact this
  · have := Keeps.set_ok h; exact this

theorem keeps_readFieldBegin : Keeps readFieldBegin := by
  refine .bind keeps_readByte fun dt => .bind (keeps_ofExcept _) fun t => ?_
  simp only
  split
  · exact .ok _
  · refine .bind (fun c s r c' s' h => ?_) fun c => ?_
    · simp at h; rw [h.1.2]
    · split
      · exact .bind keeps_readI16 fun id => .get_bind fun c s r c' s' h =>
          by have := Keeps.set_ok h; exact this
      · exact .bind (.ok _) fun id => .get_bind fun c s r c' s' h =>
          by have := Keeps.set_ok h; exact this

theorem keeps_readMapBegin : Keeps readMapBegin := by
  refine .bind keeps_readSize fun n => ?_
  split
  · exact .ok _
  · exact .bind keeps_readByte fun _ => .bind (keeps_ofExcept _) fun _ => .bind (keeps_ofExcept _) fun _ => .ok _

theorem keeps_readSetBegin : Keeps readSetBegin := by
  refine .bind keeps_readByte fun st => .bind (keeps_ofExcept _) fun _ => ?_
  simp only
  split
  · exact .bind keeps_readSize fun _ => .ok _
  · exact .ok _

theorem keeps_readMessageBegin : Keeps readMessageBegin := by
  refine .bind keeps_readByte fun p => ?_
  split
  · exact .fail _
  · refine .bind keeps_readByte fun vt => ?_
    simp only
    split
    · exact .fail _
    · exact .bind keeps_readUvarint fun _ => .bind keeps_readString fun _ => .ok _

theorem keeps_impl (o : ROp) (h1 : o ≠ .structBegin) (h2 : o ≠ .structEnd) : Keeps (impl o) := by
  cases o with
  | structBegin => exact absurd rfl h1
  | structEnd => exact absurd rfl h2
  | messageBegin => exact keeps_readMessageBegin
  | fieldBegin => exact keeps_readFieldBegin
  | mapBegin => exact keeps_readMapBegin
  | setBegin => exact keeps_readSetBegin
  | listBegin => exact keeps_readSetBegin
  | bool => exact keeps_readBool
  | byte => exact keeps_readByte
  | double => exact .bind (.lift _) fun _ => .bind (.need _ _) fun _ => .ok _
  | i16 => exact keeps_readI16
  | i32 => exact keeps_readI32
  | i64 => exact keeps_readI64
  | string => exact keeps_readString
  | bytes buf => exact keeps_readBytes buf
  | uuid => exact .lift _
  | skipString => exact .bind keeps_readUvarint fun _ => .lift _
  | skipUUID => exact .lift _
  | messageEnd => exact .ok _
  | fieldEnd => exact .ok _
  | mapEnd => exact .ok _
  | setEnd => exact .ok _
  | listEnd => exact .ok _

theorem step_keeps (o : ROp) (h1 : o ≠ .structBegin) (h2 : o ≠ .structEnd) (c : RState) (f : Flat) (x : Except Err o.Ans × (RState × Flat))
    (h : reader.step o (c, f) = .done x) : x.2.1.ids = c.ids := by
  simp only [reader] at h
  cases hr : (impl o).run c f with
  | done y =>
    obtain ⟨⟨r, c'⟩, f'⟩ := y
    rw [hr] at h
    simp at h
    rw [← h]
    exact keeps_impl o h1 h2 c f r c' f' hr
  | _ => simp [hr] at h

theorem structEnd_step (c : RState) (f : Flat) (id : BitVec 16) (ids : List (BitVec 16)) (h : c.ids = id :: ids) :
    reader.step .structEnd (c, f) = .done (.ok (), ({ c with ids := ids, last := id }, f)) := by
  obtain ⟨i, l, b⟩ := c
  simp only at h
  subst h
  rfl

theorem balancedR_other (o : ROp) (h1 : o ≠ .structBegin) (h2 : o ≠ .structEnd) (d : Nat) (os : List ROp) :
    balancedR d (o :: os) = balancedR d os := by
  cases o <;> simp_all [balancedR] <;> cases d <;> simp [balancedR]

/-- Balanced calls inside open structs leave the outer part of the stack alone. -/
theorem readAll_balanced (os : List ROp) : ∀ (d : Nat) (c : RState) (f : Flat) (st outer : List (BitVec 16)) (c' : RState) (f' : Flat),
    balancedR d os = true → c.ids = st ++ outer → st.length = d → readAll reader os (c, f) = .done (c', f') → c'.ids = outer := by
  induction os with
  | nil =>
    intro d c f st outer c' f' hb hids hl hr
    simp [balancedR] at hb
    subst hb
    simp [readAll] at hr
    rw [← hr.1, hids, List.length_eq_zero_iff.1 hl, List.nil_append]
  | cons o os ih =>
    intro d c f st outer c' f' hb hids hl hr
    rw [readAll] at hr
    by_cases h1 : o = .structBegin
    · subst h1
      exact ih (d + 1) { c with ids := c.last :: c.ids, last := 0 } f (c.last :: st) outer c' f' (by simpa [balancedR] using hb)
        (by simp [hids]) (by simp [hl]) hr
    · by_cases h2 : o = .structEnd
      · subst h2
        cases st with
        | nil =>
          simp at hl; subst hl
          simp [balancedR] at hb
        | cons id st =>
          rw [structEnd_step c f id (st ++ outer) (by simp [hids])] at hr
          simp only [List.length_cons] at hl
          subst hl
          exact ih st.length _ f st outer c' f' (by simpa [balancedR] using hb) rfl rfl hr
      · rw [balancedR_other o h1 h2] at hb
        cases hs : reader.step o (c, f) with
        | done x =>
          rw [hs] at hr
          have := step_keeps o h1 h2 c f x hs
          exact ih d x.2.1 x.2.2 st outer c' f' hb (this.trans hids) hl hr
        | _ => simp [hs] at hr

theorem readAll_append {S : Type} (r : Rdr S) (a b : List ROp) (s : S) :
    readAll r (a ++ b) s = (readAll r a s).bind fun s' => readAll r b s' := by
  induction a generalizing s with
  | nil => rfl
  | cons o a ih => simp [readAll, ih, Out.bind_assoc]

theorem readAll_struct (os : List ROp) (hb : balancedR 0 os = true) (c c' : RState) (f f' : Flat)
    (h : readAll reader (.structBegin :: os ++ [.structEnd]) (c, f) = .done (c', f')) : c'.ids = c.ids ∧ c'.last = c.last := by
  rw [List.cons_append, readAll] at h
  have hb' : reader.step .structBegin (c, f) = .done (.ok [], ({ c with ids := c.last :: c.ids, last := 0 }, f)) := rfl
  rw [hb', Out.bind_done, readAll_append] at h
  cases hm : readAll reader os ({ c with ids := c.last :: c.ids, last := 0 }, f) with
  | done x =>
    obtain ⟨c1, f1⟩ := x
    have h1 := readAll_balanced os 0 _ f [] (c.last :: c.ids) c1 f1 hb rfl rfl hm
    rw [hm, Out.bind_done, readAll, structEnd_step c1 f1 _ _ h1] at h
    simp [readAll] at h
    rw [← h.1]; exact ⟨rfl, rfl⟩
  | _ => rw [hm] at h; cases h

/-! ## Writer -/

/-- A writer method that leaves the stack of field ids alone. -/
def WKeeps {α : Type} (m : W α) : Prop := ∀ c, (m.ideal c).1.2.ids = c.ids

theorem WKeeps.bind {α β : Type} {m : W α} {f : α → W β} (hm : WKeeps m) (hf : ∀ a, WKeeps (f a)) : WKeeps (m.bind f) := by
  intro c
  rw [WM.ideal_bind]
  have h := hm c
  rcases hp : m.ideal c with ⟨⟨(e | a), c1⟩, b⟩
  · simp [hp] at h ⊢; exact h
  · simp [hp] at h ⊢; rw [← h]; exact hf a c1

theorem WKeeps.get_bind {β : Type} {f : WState → W β} (hf : ∀ c, ((f c).ideal c).1.2.ids = c.ids) : WKeeps (WM.get.bind f) := by
  intro c; rw [WM.ideal_bind, WM.ideal_get]; exact hf c

theorem WKeeps.write (k : WKind) (b : Bytes) : WKeeps (WM.write k b) := by intro c; simp
theorem WKeeps.ok {α : Type} (a : α) : WKeeps (WM.ok a) := by intro c; rfl

theorem wkeeps_appendWrite (max : Nat) (r : Except Err Bytes) : WKeeps (appendWrite max r) :=
  .bind (fun _ => rfl) fun _ => .bind (fun _ => rfl) fun _ => .write _ _

theorem wkeeps_writeFieldHeader (h : FieldHeader) (v : Bool) : WKeeps (writeFieldHeader h v) :=
  .bind (fun _ => rfl) fun _ => .bind (wkeeps_appendWrite _ _) fun _ => .get_bind fun _ => rfl

theorem wkeeps_writeString (v : Bytes) : WKeeps (writeString v) := .bind (.write _ _) fun _ => .write _ _

theorem wkeeps_wimpl (o : WOp) (h1 : ∀ n, o ≠ .structBegin n) (h2 : o ≠ .structEnd) : WKeeps (wimpl o) := by
  cases o with
  | structBegin n => exact absurd rfl (h1 n)
  | structEnd => exact absurd rfl h2
  | messageBegin h =>
    exact .bind (.write _ _) fun _ => .bind (.write _ _) fun _ => .bind (.write _ _) fun _ => wkeeps_writeString _
  | fieldBegin h =>
    simp only [wimpl, writeFieldBegin]
    split
    · exact .get_bind fun _ => rfl
    · exact wkeeps_writeFieldHeader _ _
  | mapBegin h => exact wkeeps_appendWrite _ _
  | setBegin h => exact wkeeps_appendWrite _ _
  | listBegin h => exact wkeeps_appendWrite _ _
  | bool v =>
    unfold wimpl writeBool
    simp only [WM.bind_eq]
    refine .get_bind fun c => ?_
    split
    · exact WKeeps.bind (wkeeps_writeFieldHeader _ _) (fun _ => WKeeps.get_bind (f := fun c => WM.set
        { c with boolField := { c.boolField with type := Ty.stop } }) fun _ => rfl) c
    · split <;> exact WKeeps.write _ _ c
  | string v => exact wkeeps_writeString v
  | bytes v => exact .bind (.write _ _) fun _ => .write _ _
  | byte v => exact .write _ _
  | double v => exact .write _ _
  | i16 v => exact .write _ _
  | i32 v => exact .write _ _
  | i64 v => exact .write _ _
  | uuid v => exact .write _ _
  | messageEnd => exact .ok _
  | fieldEnd => exact .ok _
  | mapEnd => exact .ok _
  | setEnd => exact .ok _
  | listEnd => exact .ok _

theorem wstep_keeps (o : WOp) (h1 : ∀ n, o ≠ .structBegin n) (h2 : o ≠ .structEnd) (s : WState × Bytes) :
    ∃ x, writer.step o s = .done x ∧ x.2.1.ids = s.1.ids :=
  ⟨_, rfl, wkeeps_wimpl o h1 h2 s.1⟩

theorem wstructEnd_step (c : WState) (b : Bytes) (id : BitVec 16) (ids : List (BitVec 16)) (h : c.ids = id :: ids) :
    writer.step .structEnd (c, b) = .done (none, ({ c with ids := ids, last := id }, b ++ [0])) := by
  obtain ⟨i, l, bf⟩ := c
  simp only at h
  subst h
  rfl

theorem balancedW_other (o : WOp) (h1 : ∀ n, o ≠ .structBegin n) (h2 : o ≠ .structEnd) (d : Nat) (os : List WOp) :
    balancedW d (o :: os) = balancedW d os := by
  cases o <;> simp_all [balancedW] <;> cases d <;> simp [balancedW]

theorem writeAll_balanced (os : List WOp) : ∀ (d : Nat) (s : WState × Bytes) (st outer : List (BitVec 16)),
    balancedW d os = true → s.1.ids = st ++ outer → st.length = d →
    ∃ s', writeAll writer os s = .done s' ∧ s'.1.ids = outer := by
  induction os with
  | nil =>
    intro d s st outer hb hids hl
    simp [balancedW] at hb
    subst hb
    exact ⟨s, rfl, by rw [hids, List.length_eq_zero_iff.1 hl, List.nil_append]⟩
  | cons o os ih =>
    intro d s st outer hb hids hl
    rw [writeAll]
    by_cases h1 : ∃ n, o = .structBegin n
    · obtain ⟨n, rfl⟩ := h1
      exact ih (d + 1) ({ s.1 with ids := s.1.last :: s.1.ids, last := 0 }, s.2 ++ []) (s.1.last :: st) outer
        (by simpa [balancedW] using hb) (by simp [hids]) (by simp [hl])
    · by_cases h2 : o = .structEnd
      · subst h2
        cases st with
        | nil =>
          simp at hl; subst hl
          simp [balancedW] at hb
        | cons id st =>
          obtain ⟨c, b⟩ := s
          rw [wstructEnd_step c b id (st ++ outer) (by simpa using hids)]
          simp only [List.length_cons] at hl
          subst hl
          exact ih st.length _ st outer (by simpa [balancedW] using hb) rfl rfl
      · have h1' : ∀ n, o ≠ .structBegin n := fun n h => h1 ⟨n, h⟩
        rw [balancedW_other o h1' h2] at hb
        obtain ⟨x, hx, hk⟩ := wstep_keeps o h1' h2 s
        rw [hx, Out.bind_done]
        exact ih d x.2 st outer hb (hk.trans hids) hl

theorem writeAll_append {S : Type} (w : Wtr S) (a b : List WOp) (s : S) :
    writeAll w (a ++ b) s = (writeAll w a s).bind fun s' => writeAll w b s' := by
  induction a generalizing s with
  | nil => rfl
  | cons o a ih => simp [writeAll, ih, Out.bind_assoc]

theorem writeAll_struct (n : Bytes) (os : List WOp) (hb : balancedW 0 os = true) (s : WState × Bytes) :
    ∃ s', writeAll writer (.structBegin n :: os ++ [.structEnd]) s = .done s' ∧ s'.1.ids = s.1.ids ∧ s'.1.last = s.1.last := by
  rw [List.cons_append, writeAll]
  have hb' : writer.step (.structBegin n) s = .done (none, ({ s.1 with ids := s.1.last :: s.1.ids, last := 0 }, s.2 ++ [])) := rfl
  rw [hb', Out.bind_done, writeAll_append]
  obtain ⟨s1, h1, h2⟩ := writeAll_balanced os 0 ({ s.1 with ids := s.1.last :: s.1.ids, last := 0 }, s.2 ++ []) []
    (s.1.last :: s.1.ids) hb rfl rfl
  rw [h1, Out.bind_done, writeAll]
  obtain ⟨c, b⟩ := s1
  rw [wstructEnd_step c b _ _ h2]
  exact ⟨_, rfl, rfl, rfl⟩

/-! ## What the next field header depends on -/

theorem Out.bind_congr {α β : Type} (x : Out α) (f g : α → Out β) (h : ∀ a, f a = g a) : x.bind f = x.bind g := by
  rw [show f = g from funext h]

theorem seen_fieldBegin (c c' : RState) (h : c'.last = c.last) (f : Flat) :
    seen (reader.step .fieldBegin (c', f)) = seen (reader.step .fieldBegin (c, f)) := by
  simp only [seen, reader, impl, readFieldBegin, readByte, ofExcept, readI16, readI64, RM.bind_eq, RM.run_bind, RM.run_lift, RM.pure_eq,
    Out.bind_assoc, Out.bind_done]
  refine Out.bind_congr _ _ _ fun a => ?_
  rcases a with ⟨e | dt, f1⟩
  · rfl
  · simp only [BProg.run, Out.bind_done]
    rcases wire (dt &&& 15) with e | t
    · rfl
    · simp only
      split
      · rfl
      · simp only [RM.run_bind, RM.run_get, Out.bind_done, h]
        split
        · simp only [RM.run_bind, RM.run_lift, Out.bind_assoc]
          refine Out.bind_congr _ _ _ fun a => ?_
          rcases a with ⟨e | x, f2⟩ <;> rfl
        · rfl

theorem written_fieldBegin (c c' : WState) (h : c'.last = c.last) (hd : FieldHeader) (ht : hd.type ≠ Ty.bool) (b b' : Bytes) :
    ∃ e c1 c1' out, writer.step (.fieldBegin hd) (c, b) = .done (e, (c1, b ++ out)) ∧
      writer.step (.fieldBegin hd) (c', b') = .done (e, (c1', b' ++ out)) := by
  simp only [writer, wimpl, writeFieldBegin, if_neg ht, writeFieldHeader, WM.bind_eq, ideal_get_bind, h, appendWrite]
  cases appendFieldHeader hd false c.last with
  | error e =>
    refine ⟨some e, c, c', [], ?_, ?_⟩ <;> simp [WM.ideal_bind, WM.ofExcept, errOf]
  | ok out =>
    refine ⟨none, { c with last := hd.id }, { c' with last := hd.id }, out, ?_, ?_⟩ <;> simp [WM.ideal_bind, WM.ofExcept, errOf]

theorem written_boolField (c c' : WState) (h : c'.last = c.last) (hd : FieldHeader) (ht : hd.type = Ty.bool) (v : Bool) (b b' : Bytes) :
    ∃ c1 c1' out, Writes writer [.fieldBegin hd, .bool v] (c, b) (c1, b ++ out) ∧
      Writes writer [.fieldBegin hd, .bool v] (c', b') (c1', b' ++ out) := by
  have key : ∀ (c : WState) (b : Bytes), Writes writer [.fieldBegin hd, .bool v] (c, b)
      ({ c with last := hd.id, boolField := { hd with type := Ty.stop } },
        b ++ hdrW (if v then CT.boolTrue else CT.boolFalse) c.last hd.id) := by
    intro c b
    refine .cons (s1 := ({ c with boolField := hd }, b)) ?_ (.one (step_run ?_))
    · simp [writer, wimpl, writeFieldBegin, ht, ideal_get_bind, errOf]
    · simp only [wimpl, writeBool, WM.bind_eq, ideal_get_bind]
      rw [if_pos (by rw [ht]; decide), WM.ideal_bind,
        writeFieldHeader_run hd v (if v then CT.boolTrue else CT.boolFalse) (by rw [if_pos ht]; cases v <;> rfl)]
      simp [ideal_get_bind]
  have h2 := key c' b'
  rw [h] at h2
  exact ⟨_, _, _, key c b, h2⟩

end GoThrift.Compact
