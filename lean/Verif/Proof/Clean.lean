import Verif.Proof.Bufio
import Verif.Spec.Grow

/-!
# A `bufio.Reader` does not keep an error

Between the calls the protocol readers make on it, a `bufio.Reader` on a source that reports its errors apart from data has no error pending.
-/

namespace GoThrift

theorem Out.bind_eq_done {α β : Type} {x : Out α} {f : α → Out β} {b : β} (h : x.bind f = .done b) : ∃ a, x = .done a ∧ f a = .done b := by
  cases x with
  | done a => exact ⟨a, rfl, h⟩
  | blocked => cases h
  | diverged => cases h
  | panicked => cases h

/-- A read of a quiet source: if there is an error there are no bytes. -/
theorem Source.Quiet.read {s : Source} (h : s.Quiet) {cap : Nat} {r : (Bytes × Option Err) × Source} (hr : s.read cap = .done r) :
    r.2.Quiet ∧ (r.1.2 = none ∨ r.1.1 = []) := by
  unfold Source.read at hr
  dsimp only at hr
  split at hr
  · cases hr; exact ⟨h, .inl rfl⟩
  · split at hr
    · split at hr
      · cases hr
      · cases hr; exact ⟨h, .inr rfl⟩
    · cases hr
      refine ⟨h, .inl ?_⟩
      simp only [h s.idx, Bool.false_eq_true, false_and, if_false]
      cases s.fin <;> rfl

namespace BufReader

/-- No error pending; the source is quiet; the buffer has this size. -/
structure Clean (size : Nat) (b : BufReader) : Prop where
  size : b.size = size
  quiet : b.src.Quiet
  err : b.err = none

/-- The same, or nothing more than before in the buffer. -/
structure Tried (size : Nat) (old : Bytes) (b : BufReader) : Prop where
  size : b.size = size
  quiet : b.src.Quiet
  err : b.err = none ∨ b.unread = old

theorem fillLoop_tried {size : Nat} : ∀ (i : Nat) {b b' : BufReader}, b.Clean size → fillLoop i b = .done b' → b'.Tried size b.unread := by
  intro i
  induction i with
  | zero => intro b b' h hb; rw [fillLoop] at hb; cases hb; exact ⟨h.size, h.quiet, .inr rfl⟩
  | succ i ih =>
    intro b b' h hb
    rw [fillLoop] at hb
    obtain ⟨r, hr, hb⟩ := Out.bind_eq_done hb
    obtain ⟨q, hq⟩ := h.quiet.read hr
    dsimp only at hb
    cases he : r.1.2 with
    | some e =>
      rw [he] at hb
      cases hb
      have : r.1.1 = [] := hq.resolve_left fun h0 => by rw [he] at h0; cases h0
      exact ⟨h.size, q, .inr (by simp [this])⟩
    | none =>
      rw [he] at hb
      dsimp only at hb
      split at hb
      · cases hb; exact ⟨h.size, q, .inl h.err⟩
      · rename_i hl
        have h0 : r.1.1 = [] := List.length_eq_zero_iff.1 (by omega)
        have := ih (b := { b with unread := b.unread ++ r.1.1, src := r.2 }) ⟨h.size, q, h.err⟩ hb
        rw [h0] at this
        simpa using this

theorem fill_tried {size : Nat} {b b' : BufReader} (h : b.Clean size) (hb : b.fill = .done b') : b'.Tried size b.unread := by
  unfold fill at hb
  split at hb
  · cases hb
  · exact fillLoop_tried _ h hb

theorem peekLoop_tried {size : Nat} (n : Nat) : ∀ (fuel : Nat) {b b' : BufReader}, b.Clean size → peekLoop fuel n b = .done b' →
    b'.size = size ∧ b'.src.Quiet ∧ (b'.err = none ∨ b'.unread.length < n) := by
  intro fuel
  induction fuel with
  | zero => intro b b' h hb; cases hb
  | succ fuel ih =>
    intro b b' h hb
    rw [peekLoop] at hb
    split at hb
    · rename_i hc
      obtain ⟨b1, h1, h2⟩ := Out.bind_eq_done hb
      have ht := fill_tried h h1
      cases he : b1.err with
      | none => exact ih ⟨ht.size, ht.quiet, he⟩ h2
      | some e =>
        cases fuel with
        | zero => cases h2
        | succ fuel =>
          rw [peekLoop, if_neg (by simp [he])] at h2
          cases h2
          have : _ = b.unread := ht.err.resolve_left fun h0 => by rw [he] at h0; cases h0
          exact ⟨ht.size, ht.quiet, .inr (by rw [this]; exact hc.1)⟩
    · cases hb; exact ⟨h.size, h.quiet, .inl h.err⟩

theorem peek_clean {size : Nat} {b b' : BufReader} {n : Int} {r : Bytes × Option Err} (h : b.Clean size) (hn : n ≤ size) (hb : b.peek n = .done (r, b')) : b'.Clean size := by
  unfold peek at hb
  split at hb
  · cases hb; exact h
  · obtain ⟨b1, h1, h2⟩ := Out.bind_eq_done hb
    obtain ⟨g1, g2, g3⟩ := peekLoop_tried _ _ h h1
    rw [if_neg (by omega)] at h2
    split at h2
    · cases h2; exact ⟨g1, g2, rfl⟩
    · cases h2; exact ⟨g1, g2, g3.resolve_right ‹_›⟩

theorem discardLoop_clean {size : Nat} : ∀ (fuel remain : Nat) {b b' : BufReader} {e : Option Err}, 0 < remain → b.Clean size → discardLoop fuel remain b = .done (e, b') → b'.Clean size := by
  intro fuel
  induction fuel with
  | zero => intro remain b b' e _ h hb; cases hb
  | succ fuel ih =>
    intro remain b b' e hpos h hb
    rw [discardLoop] at hb
    obtain ⟨b1, h1, h2⟩ := Out.bind_eq_done hb
    have ht : b1.size = size ∧ b1.src.Quiet ∧ (b1.err = none ∨ b1.unread = []) := by
      split at h1
      · rename_i h0
        have ht := fill_tried h h1
        exact ⟨ht.size, ht.quiet, ht.err.imp_right fun h2 => h2.trans (List.length_eq_zero_iff.1 h0)⟩
      · cases h1; exact ⟨h.size, h.quiet, .inl h.err⟩
    obtain ⟨g1, g2, g3⟩ := ht
    dsimp only at h2
    split at h2
    · rename_i h0
      cases h2
      refine ⟨g1, g2, g3.resolve_right fun hc => ?_⟩
      rw [hc] at h0
      simp at h0
      omega
    · rename_i h0
      cases he : b1.err with
      | some e' =>
        rw [he] at h2
        cases h2
        exact ⟨g1, g2, rfl⟩
      | none =>
        rw [he] at h2
        exact ih (remain - min b1.unread.length remain) (b := { b1 with unread := b1.unread.drop (min b1.unread.length remain), err := none }) (by omega) ⟨g1, g2, rfl⟩ h2

theorem discard_clean {size : Nat} {b b' : BufReader} {n : Int} {e : Option Err} (h : b.Clean size) (hb : b.discard n = .done (e, b')) : b'.Clean size := by
  unfold discard at hb
  split at hb
  · cases hb; exact h
  · split at hb
    · cases hb; exact h
    · exact discardLoop_clean _ _ (by omega) h hb

theorem readByteLoop_clean {size : Nat} : ∀ (fuel : Nat) {b b' : BufReader} {r : Except Err Byte}, b.size = size → b.src.Quiet → (b.err = none ∨ b.unread = []) →
    readByteLoop fuel b = .done (r, b') → b'.Clean size := by
  intro fuel
  induction fuel with
  | zero => intro b b' r _ _ _ hb; cases hb
  | succ fuel ih =>
    intro b b' r h1 h2 h3 hb
    rw [readByteLoop] at hb
    cases hu : b.unread with
    | cons c cs =>
      rw [hu] at hb
      cases hb
      exact ⟨h1, h2, h3.resolve_right fun h => by rw [hu] at h; cases h⟩
    | nil =>
      rw [hu] at hb
      cases he : b.err with
      | some e =>
        rw [he] at hb
        cases hb
        exact ⟨h1, h2, rfl⟩
      | none =>
        rw [he] at hb
        obtain ⟨b1, g1, g2⟩ := Out.bind_eq_done hb
        have ht := fill_tried ⟨h1, h2, he⟩ g1
        exact ih ht.size ht.quiet (ht.err.imp_right fun h => h.trans hu) g2

theorem readByte_clean {size : Nat} {b b' : BufReader} {r : Except Err Byte} (h : b.Clean size) (hb : b.readByte = .done (r, b')) : b'.Clean size :=
  readByteLoop_clean 2 h.size h.quiet (.inl h.err) hb

theorem read_clean {size cap : Nat} {b b' : BufReader} {r : Bytes × Option Err} (h : b.Clean size) (hb : b.read cap = .done (r, b')) : b'.Clean size := by
  unfold read at hb
  split at hb
  · split at hb <;> cases hb
    · exact h
    · exact ⟨h.size, h.quiet, rfl⟩
  · split at hb
    · rw [h.err] at hb
      dsimp only at hb
      split at hb
      · obtain ⟨q, g1, g2⟩ := Out.bind_eq_done hb
        cases g2
        exact ⟨h.size, (h.quiet.read g1).1, rfl⟩
      · obtain ⟨q, g1, g2⟩ := Out.bind_eq_done hb
        obtain ⟨q1, q2⟩ := h.quiet.read g1
        split at g2
        · cases g2; exact ⟨h.size, q1, rfl⟩
        · rename_i h0
          cases g2
          exact ⟨h.size, q1, q2.resolve_right fun hc => h0 (by rw [hc]; rfl)⟩
    · cases hb; exact ⟨h.size, h.quiet, h.err⟩

theorem readFullLoop_clean {size n : Nat} : ∀ (fuel : Nat) {acc : Bytes} {b b' : BufReader} {r : Bytes × Option Err}, b.Clean size → readFullLoop fuel n acc b = .done (r, b') → b'.Clean size := by
  intro fuel
  induction fuel with
  | zero => intro acc b b' r _ hb; cases hb
  | succ fuel ih =>
    intro acc b b' r h hb
    rw [readFullLoop] at hb
    split at hb
    · cases hb; exact h
    · obtain ⟨q, g1, g2⟩ := Out.bind_eq_done hb
      have hc := read_clean h (r := q.1) (b' := q.2) g1
      dsimp only at g2
      split at g2
      · split at g2 <;> cases g2 <;> exact hc
      · exact ih hc g2

end BufReader

/-! ## Programs -/

/-- The program never peeks at more bytes than the buffer, of this size, can hold. -/
def BProg.Small {α : Type} (size : Nat) : BProg α → Prop
  | .ret _ | .diverge | .panic => True
  | .peek n k => n ≤ size ∧ ∀ b e, (k b e).Small size
  | .discard _ k => ∀ e, (k e).Small size
  | .readByte k => ∀ r, (k r).Small size
  | .readFull _ k => ∀ b e, (k b e).Small size
  | .size k => (k size).Small size

theorem BProg.Small.runBuf {α : Type} {size : Nat} {p : BProg α} (hp : p.Small size) {b b' : BufReader} {a : α} (h : b.Clean size) (hb : p.runBuf b = .done (a, b')) : b'.Clean size := by
  induction p generalizing b with
  | ret a => cases hb; exact h
  | diverge => cases hb
  | panic => cases hb
  | peek n k ih =>
    obtain ⟨r, g1, g2⟩ := Out.bind_eq_done hb
    exact ih _ _ (hp.2 _ _) (BufReader.peek_clean h hp.1 (r := r.1) (b' := r.2) g1) g2
  | discard n k ih =>
    obtain ⟨r, g1, g2⟩ := Out.bind_eq_done hb
    exact ih _ (hp _) (BufReader.discard_clean h (e := r.1) (b' := r.2) g1) g2
  | readByte k ih =>
    obtain ⟨r, g1, g2⟩ := Out.bind_eq_done hb
    exact ih _ (hp _) (BufReader.readByte_clean h (r := r.1) (b' := r.2) g1) g2
  | readFull n k ih =>
    obtain ⟨r, g1, g2⟩ := Out.bind_eq_done hb
    exact ih _ _ (hp _ _) (BufReader.readFullLoop_clean _ h (r := r.1) (b' := r.2) g1) g2
  | size k ih => 
    rw [BProg.runBuf, h.size] at hb
    exact ih _ hp h hb

theorem BProg.Small.bind {α β : Type} {size : Nat} {p : BProg α} {f : α → BProg β} (hp : p.Small size) (hf : ∀ a, (f a).Small size) : (p.bind f).Small size := by
  induction p with
  | ret a => exact hf a
  | diverge => trivial
  | panic => trivial
  | peek n k ih => exact ⟨hp.1, fun b e => ih b e (hp.2 b e)⟩
  | discard n k ih => exact fun e => ih e (hp e)
  | readByte k ih => exact fun r => ih r (hp r)
  | readFull n k ih => exact fun b e => ih b e (hp b e)
  | size k ih => exact ih _ hp

/-! ## Methods -/

/-- The method never peeks at more than the buffer can hold. -/
def RM.Small {C α : Type} (size : Nat) (m : RM C α) : Prop := ∀ c, (m c).Small size

section
variable {C α β : Type} {size : Nat}

theorem RM.Small.bind {m : RM C α} {f : α → RM C β} (hm : m.Small size) (hf : ∀ a, (f a).Small size) : (m.bind f).Small size := fun c =>
  (hm c).bind fun r => by
    obtain ⟨(e | a), c'⟩ := r
    · trivial
    · exact hf a c'

theorem RM.Small.lift {p : BProg (Except Err α)} (h : p.Small size) : (RM.lift p : RM C α).Small size := fun _ => h.bind fun _ => trivial
theorem RM.Small.ok (a : α) : (RM.ok a : RM C α).Small size := fun _ => trivial
theorem RM.Small.fail (e : Err) : (RM.fail e : RM C α).Small size := fun _ => trivial
theorem RM.Small.get : (RM.get : RM C C).Small size := fun _ => trivial
theorem RM.Small.set (c : C) : (RM.set c : RM C Unit).Small size := fun _ => trivial
theorem RM.Small.need (n : Nat) (b : Bytes) : (RM.need n b : RM C Unit).Small size := fun c => by unfold RM.need; split <;> trivial

theorem small_next {n : Int} (h : n ≤ size) : (next n).Small size := ⟨h, fun _ _ _ => trivial⟩

theorem small_readLoop : ∀ (fuel : Nat) (n left : Int) (acc : Bytes), (readLoop fuel n left acc).Small size := by
  intro fuel
  induction fuel with
  | zero => intro n left acc; unfold readLoop; split <;> trivial
  | succ fuel ih =>
    intro n left acc
    unfold readLoop
    split
    · show ((next (min left size)).bind _).Small size
      refine (small_next (Int.min_le_right _ _)).bind fun r => ?_
      dsimp only
      split
      · trivial
      · exact ih _ _ _
    · trivial

theorem small_string (n : Int) : (wireReadString n).Small size := by
  show (if (size : Int) ≥ n then next n else readLoop n.toNat n n []).Small size
  split
  · exact small_next ‹_›
  · exact small_readLoop _ _ _ _

theorem small_bytes (n : Int) (buf : Bytes) : (wireReadBytes n buf).Small size := by
  show (if (size : Int) ≥ n then (next n).bind _ else readLoop n.toNat n n buf).Small size
  split
  · exact (small_next ‹_›).bind fun _ => trivial
  · exact small_readLoop _ _ _ _

theorem small_binUvarintLoop : ∀ (left i : Nat) (x : BitVec 64) (s : Nat), (binReadUvarintLoop left i x s).Small size := by
  intro left
  induction left with
  | zero => intro i x s; trivial
  | succ left ih =>
    intro i x s r
    cases r with
    | error e => trivial
    | ok b =>
      dsimp only
      split
      · split <;> trivial
      · exact ih _ _ _

theorem small_binVarint : binReadVarint.Small size := (small_binUvarintLoop _ _ _ _).bind fun _ => by trivial

theorem small_uvarint (h : 10 ≤ size) : readUvarint.Small size := by
  refine ⟨by show (10 : Int) ≤ size; omega, fun b e => ?_⟩
  dsimp only
  split
  · split
    · exact fun _ => trivial
    · exact small_binUvarintLoop _ _ _ _
  · exact small_binUvarintLoop _ _ _ _

end

theorem Binary.small (strict : Bool) {size : Nat} (h : 16 ≤ size) (o : ROp) : (Binary.impl strict o).Small size := by
  have next : ∀ n : Int, n ≤ 16 → (Binary.nextM n).Small size := fun n hn => .lift ((small_next (by omega)).bind fun _ => trivial)
  have byte : Binary.readByte.Small size := .lift fun _ => trivial
  have i16 : Binary.readI16.Small size := .bind (next 2 (by decide)) fun _ => .bind (.need _ _) fun _ => .ok _
  have i32 : Binary.readI32.Small size := .bind (next 4 (by decide)) fun _ => .bind (.need _ _) fun _ => .ok _
  have i64 : Binary.readI64.Small size := .bind (next 8 (by decide)) fun _ => .bind (.need _ _) fun _ => .ok _
  have dbl : Binary.readDouble.Small size := .bind (next 8 (by decide)) fun _ => .bind (.need _ _) fun _ => .ok _
  have sz : Binary.readSize.Small size := .bind i32 fun _ => .ok _
  have wstr : ∀ n, (RM.lift ((wireReadString n).bind fun r => .ret (toExcept r)) : Binary.M Bytes).Small size := fun n => .lift ((small_string n).bind fun _ => trivial)
  have str : Binary.readString.Small size := .bind sz fun _ => wstr _
  have disc : ∀ n, (Binary.discard n).Small size := fun n => .lift fun _ => trivial
  cases o with
  | messageBegin =>
    refine .bind sz fun n => ?_
    try dsimp only
    split
    · try dsimp only
      split
      · exact .fail _
      · exact .bind str fun _ => .bind i32 fun _ => .ok _
    · try dsimp only
      split
      · exact .fail _
      · exact .bind (wstr _) fun _ => .bind byte fun _ => .bind i32 fun _ => .ok _
  | fieldBegin =>
    refine .bind byte fun t => ?_
    try dsimp only
    split
    · exact .ok _
    · exact .bind i16 fun _ => .ok _
  | mapBegin => exact .bind byte fun _ => .bind byte fun _ => .bind sz fun _ => .ok _
  | setBegin => exact .bind byte fun _ => .bind sz fun _ => .ok _
  | listBegin => exact .bind byte fun _ => .bind sz fun _ => .ok _
  | bool => exact .bind byte fun _ => .ok _
  | byte => exact byte
  | double => exact dbl
  | i16 => exact i16
  | i32 => exact i32
  | i64 => exact i64
  | string => exact str
  | bytes buf => exact .bind sz fun _ => .lift ((small_bytes _ _).bind fun _ => trivial)
  | uuid => exact .lift fun _ _ => trivial
  | skipString => exact .bind sz fun _ => disc _
  | skipUUID => exact disc _
  | _ => exact .ok _

theorem Compact.small {size : Nat} (h : 16 ≤ size) (o : ROp) : (Compact.impl o).Small size := by
  have byte : Compact.readByte.Small size := .lift fun _ => trivial
  have ofE : ∀ {α : Type} (r : Except Err α), (Compact.ofExcept r).Small size := fun r => .lift trivial
  have uv : Compact.readUvarint.Small size := .lift ((small_uvarint (by omega)).bind fun _ => trivial)
  have sz : Compact.readSize.Small size := .lift ((small_binUvarintLoop _ _ _ _).bind fun _ => trivial)
  have i64 : Compact.readI64.Small size := .lift (small_binVarint.bind fun _ => trivial)
  have i32 : Compact.readI32.Small size := .bind i64 fun _ => .ok _
  have i16 : Compact.readI16.Small size := .bind i64 fun _ => .ok _
  have str : Compact.readString.Small size := .bind uv fun _ => .lift ((small_string _).bind fun _ => trivial)
  have disc : ∀ n, (Compact.discard n).Small size := fun n => .lift fun _ => trivial
  have set : Compact.readSetBegin.Small size := .bind byte fun _ => .bind (ofE _) fun _ => by
    try dsimp only
    split
    · exact .bind sz fun _ => .ok _
    · exact .ok _
  cases o with
  | messageBegin =>
    refine .bind byte fun p => ?_
    try dsimp only
    split
    · exact .fail _
    · refine .bind byte fun vt => ?_
      try dsimp only
      split
      · exact .fail _
      · exact .bind uv fun _ => .bind str fun _ => .ok _
  | structBegin => exact .bind .get fun _ => .bind (.set _) fun _ => .ok _
  | structEnd =>
    refine .bind .get fun c => ?_
    try dsimp only
    split
    · exact .fail _
    · exact .set _
  | fieldBegin =>
    refine .bind byte fun dt => .bind (ofE _) fun ty => ?_
    try dsimp only
    split
    · exact .ok _
    · refine .bind .get fun c => ?_
      try dsimp only
      split
      · exact .bind i16 fun _ => .bind .get fun _ => .bind (.set _) fun _ => .ok _
      · exact .bind (.ok _) fun _ => .bind .get fun _ => .bind (.set _) fun _ => .ok _
  | mapBegin =>
    refine .bind sz fun n => ?_
    try dsimp only
    split
    · exact .ok _
    · exact .bind byte fun _ => .bind (ofE _) fun _ => .bind (ofE _) fun _ => .ok _
  | setBegin => exact set
  | listBegin => exact set
  | bool =>
    refine .bind .get fun c => ?_
    try dsimp only
    split
    · exact .bind byte fun _ => .ok _
    · exact .bind (.set _) fun _ => .ok _
    · exact .bind (.set _) fun _ => .ok _
  | byte => exact byte
  | double => exact .bind (.lift ((small_next (by omega)).bind fun _ => trivial)) fun _ => .bind (.need _ _) fun _ => .ok _
  | i16 => exact i16
  | i32 => exact i32
  | i64 => exact i64
  | string => exact str
  | bytes buf => exact .bind uv fun _ => .lift ((small_bytes _ _).bind fun _ => trivial)
  | uuid => exact .lift fun _ _ => trivial
  | skipString => exact .bind uv fun _ => disc _
  | skipUUID => exact disc _
  | _ => exact .ok _

/-- One call leaves no error behind. -/
theorem Binary.step_clean (strict : Bool) {size : Nat} (h : 16 ≤ size) (o : ROp) {x x' : Unit × BufReader} {a : Except Err o.Ans} (hx : x.2.Clean size)
    (hs : (Binary.bufReader strict).step o x = .done (a, x')) : x'.2.Clean size := by
  obtain ⟨r, g1, g2⟩ := Out.bind_eq_done hs
  cases g2
  exact BProg.Small.runBuf (Binary.small strict h o x.1) hx (a := r.1) (b' := r.2) g1

theorem Compact.step_clean {size : Nat} (h : 16 ≤ size) (o : ROp) {x x' : Compact.RState × BufReader} {a : Except Err o.Ans} (hx : x.2.Clean size)
    (hs : Compact.bufReader.step o x = .done (a, x')) : x'.2.Clean size := by
  obtain ⟨r, g1, g2⟩ := Out.bind_eq_done hs
  cases g2
  exact BProg.Small.runBuf (Compact.small h o x.1) hx (a := r.1) (b' := r.2) g1

/-- Programs of Reader calls leave no error behind. -/
theorem RProg.run_clean {α C : Type} {r : Rdr (C × BufReader)} {size : Nat}
    (hstep : ∀ (o : ROp) {x x' : C × BufReader} {a : Except Err o.Ans}, x.2.Clean size → r.step o x = .done (a, x') → x'.2.Clean size)
    (p : RProg α) {x x' : C × BufReader} {a : α} (h : x.2.Clean size) (hp : p.run r x = .done (a, x')) : x'.2.Clean size := by
  induction p generalizing x with
  | ret a => cases hp; exact h
  | diverge => cases hp
  | panic => cases hp
  | call o k ih =>
    obtain ⟨q, g1, g2⟩ := Out.bind_eq_done hp
    exact ih _ (hstep o h (a := q.1) (x' := q.2) g1) g2

/-- Between the calls there is no error pending and the reader is in the state of the flat reader of what is left. -/
theorem Growing.clean {C : Type} {r : Rdr (C × BufReader)} {rf : Rdr (C × Flat)} {fresh : Source → C × BufReader} {reset : C × BufReader → Source → C × BufReader} {size : Nat} (hsize : 0 < size)
    (hstep : ∀ (o : ROp) {x x' : C × BufReader} {a : Except Err o.Ans}, x.2.Clean size → r.step o x = .done (a, x') → x'.2.Clean size)
    (hsim : ∀ o s t, RSim s t → OutRel (fun x y => x.1 = y.1 ∧ RSim x.2 y.2) (r.step o s) (rf.step o t))
    (hfresh : ∀ s, (fresh s).2 = newBufReader size s) (hreset : ∀ x s, x.2.size = size → (reset x s).2 = newBufReader size s)
    {x : C × BufReader} (h : Growing r fresh reset x) : x.2.Clean size ∧ BSim x.2 ⟨size, x.2.left, x.2.src.fin⟩ := by
  induction h with
  | new s quiet fair => rw [hfresh]; exact ⟨⟨rfl, quiet, rfl⟩, BSim.new hsize fair⟩
  | @calls _ p x x' a _ ret ih =>
    refine ⟨p.run_clean hstep ih.1 ret, ?_⟩
    have := RProg.run_sim hsim p x (x.1, _) ⟨rfl, ih.2⟩
    rw [ret] at this
    cases hf : p.run rf (x.1, ⟨size, x.2.left, x.2.src.fin⟩) with
    | done y =>
      rw [hf] at this
      have hb := this.2.2
      exact ⟨((p.run_clean hstep ih.1 ret).size).symm, hb.pos, rfl, rfl, hb.le, hb.fair, hb.err⟩
    | blocked => rw [hf] at this; exact this.elim
    | diverged => rw [hf] at this; exact this.elim
    | panicked => rw [hf] at this; exact this.elim
  | @grow x _ s more data quiet fair ih =>
    exact ⟨⟨ih.1.size, quiet, ih.1.err⟩, ⟨ih.1.size.symm, ih.2.pos, rfl, rfl, ih.2.le, fair, fun e he => by
      have h0 : x.2.err = some e := he
      rw [ih.1.err] at h0
      cases h0⟩⟩
  | @reset x _ s quiet fair ih => rw [hreset x s ih.1.size]; exact ⟨⟨rfl, quiet, rfl⟩, BSim.new hsize fair⟩

end GoThrift
