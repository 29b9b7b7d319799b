import Verif.Proof.EndToEnd
import Verif.Proof.CanonSettle
import Verif.Proof.Clean
import Verif.Spec.ThriftTest
import Verif.Props.Skip

/-!
# `TestProtocol` passes: lemmas
-/

namespace GoThrift

open Spec Spec.TVal ThriftTest

/-! ## Maps with at most one entry -/

theorem smallMapsAll_iff {vs : List GoVal} : SmallMapsAll vs ↔ ∀ v ∈ vs, SmallMaps v := by
  induction vs with
  | nil => simp [SmallMapsAll]
  | cons v vs ih => simp [SmallMapsAll, ih]

theorem smallMapsEntries_iff {es : List (GoVal × GoVal)} : SmallMapsEntries es ↔ ∀ x ∈ es, SmallMaps x.1 ∧ SmallMaps x.2 := by
  induction es with
  | nil => simp [SmallMapsEntries]
  | cons x es ih => obtain ⟨k, v⟩ := x; simp [SmallMapsEntries, ih, and_assoc]

/-- There is only one order of one entry. -/
theorem Spec.SameValue.small {o : Bool} {v v' : GoVal} (h : SameValue o v v') (hs : SmallMaps v) : SameValue true v v' ∧ SmallMaps v' := by
  have at' : ∀ {l l' : List GoVal}, l'.length = l.length → (∀ (i : Nat) x x', l[i]? = some x → l'[i]? = some x' → SmallMaps x → SameValue true x x' ∧ SmallMaps x') →
      SmallMapsAll l → (∀ (i : Nat) x x', l[i]? = some x → l'[i]? = some x' → SameValue true x x') ∧ SmallMapsAll l' := by
    intro l l' hlen ih hs
    rw [smallMapsAll_iff] at hs
    refine ⟨fun i x x' h1 h2 => (ih i x x' h1 h2 (hs x (List.mem_of_getElem? h1))).1, smallMapsAll_iff.2 fun x' hx' => ?_⟩
    obtain ⟨i, hi⟩ := List.getElem?_of_mem hx'
    obtain ⟨x, hx⟩ := pair_at hlen hi
    exact (ih i x x' hx hi (hs x (List.mem_of_getElem? hx))).2
  induction h with
  | refl => exact ⟨.refl _, hs⟩
  | ptr _ ih => exact ⟨.ptr (ih hs).1, (ih hs).2⟩
  | slice hlen _ ih => exact ⟨.slice hlen (at' hlen ih hs).1, (at' hlen ih hs).2⟩
  | struct hlen _ ih => exact ⟨.struct hlen (at' hlen ih hs).1, (at' hlen ih hs).2⟩
  | @map es es1 es' hp ho hlen h1 h2 ih1 ih2 =>
    obtain ⟨hl, hs⟩ := hs
    rw [smallMapsEntries_iff] at hs
    have he : es1 = es' := by
      have h1 : es1.length ≤ 1 := by omega
      match es1, hp, h1 with
      | [], hp, _ => exact (List.nil_perm.1 hp).symm
      | [x], hp, _ => exact List.singleton_perm.1 hp
      | _ :: _ :: _, _, h => simp at h
    subst he
    refine ⟨.map (.refl _) (fun _ => rfl) hlen (fun i x x' h1 h2 => (ih1 i x x' h1 h2 (hs x (List.mem_of_getElem? h1)).1).1)
      (fun i x x' h1 h2 => (ih2 i x x' h1 h2 (hs x (List.mem_of_getElem? h1)).2).1), by omega, smallMapsEntries_iff.2 fun x' hx' => ?_⟩
    obtain ⟨i, hi⟩ := List.getElem?_of_mem hx'
    obtain ⟨x, hx⟩ := pair_at hlen hi
    have := hs x (List.mem_of_getElem? hx)
    exact ⟨(ih1 i x x' hx hi this.1).2, (ih2 i x x' hx hi this.2).2⟩

/-! ## The buffer as a transport -/

theorem bufferW_honest : bufferW.Honest :=
  ⟨fun _ _ => Nat.le_refl _, fun _ _ h => absurd h (Nat.lt_irrefl _), fun _ _ => Nat.le_refl _, fun _ _ h => absurd h (Nat.lt_irrefl _)⟩

/-- There is no error, and what has been sent meanwhile has been appended to the buffer. -/
def Appends (b b' : BufWriter Bytes) : Prop := b.err = none → b'.err = none ∧ ∃ d, b'.sent = b.sent ++ d ∧ b'.wr = b.wr ++ d

namespace Appends

theorem refl (b : BufWriter Bytes) : Appends b b := fun h => ⟨h, [], by simp, by simp⟩

theorem same {b b' : BufWriter Bytes} (h1 : b'.err = b.err) (h2 : b'.sent = b.sent) (h3 : b'.wr = b.wr) : Appends b b' := fun h => ⟨h1.trans h, [], by simp [h2], by simp [h3]⟩

theorem trans {a b c : BufWriter Bytes} (h1 : Appends a b) (h2 : Appends b c) : Appends a c := fun h => by
  obtain ⟨e1, d1, s1, w1⟩ := h1 h
  obtain ⟨e2, d2, s2, w2⟩ := h2 e1
  exact ⟨e2, d1 ++ d2, by rw [s2, s1, List.append_assoc], by rw [w2, w1, List.append_assoc]⟩

theorem flush (b : BufWriter Bytes) : Appends b (b.flush bufferW).2 := fun h => by
  unfold BufWriter.flush
  rw [h]
  dsimp only
  split
  · exact ⟨h, [], by simp, by simp⟩
  · simp only [bufferW, Nat.lt_irrefl, false_and, if_false]
    exact ⟨trivial, b.buf, by simp, rfl⟩

theorem writeLoop {direct : Bytes → Bool} : ∀ (fuel : Nat) (p : Bytes) {b b' : BufWriter Bytes} {e : Option Err},
    BufWriter.writeLoop bufferW direct bufferW.write fuel p b = .done (e, b') → Appends b b' := by
  intro fuel
  induction fuel with
  | zero => intro p b b' e h; cases h
  | succ fuel ih =>
    intro p b b' e h
    rw [BufWriter.writeLoop] at h
    split at h
    · rename_i hc
      split at h
      · exact trans (fun hb => ⟨rfl, p, by simp [bufferW], rfl⟩) (ih _ h)
      · dsimp only at h
        exact trans (trans (b := { b with buf := b.buf ++ p.take (min b.available p.length) }) (same rfl rfl rfl) (flush _)) (ih _ h)
    · cases he : b.err with
      | some e0 => intro hb; rw [he] at hb; cases hb
      | none =>
        rw [he] at h
        cases h
        exact same he.symm rfl rfl

theorem put {kind : WKind} {p : Bytes} {b b' : BufWriter Bytes} {e : Option Err} (h : b.put bufferW kind p = .done (e, b')) : Appends b b' := by
  cases kind with
  | bytes => exact writeLoop _ _ h
  | string => exact writeLoop _ _ h
  | byte =>
    simp only [BufWriter.put, BufWriter.writeByte] at h
    cases he : b.err with
    | some e0 => intro hb; rw [he] at hb; cases hb
    | none =>
      rw [he] at h
      dsimp only at h
      split at h
      · split at h
        · cases h; exact flush _
        · cases h; exact trans (flush b) (same rfl rfl rfl)
      · cases h; exact same he.symm rfl rfl

theorem runBuf {α : Type} (p : BWProg α) {b b' : BufWriter Bytes} {a : α} (h : p.runBuf bufferW b = .done (a, b')) : Appends b b' := by
  induction p generalizing b with
  | ret a => cases h; exact refl _
  | write kind p k ih =>
    obtain ⟨⟨e, b1⟩, h1, h2⟩ := Out.bind_eq_done h
    exact trans (put h1) (ih _ h2)
  | ensure n k ih =>
    refine trans ?_ (ih _ h)
    unfold BufWriter.ensure
    split
    · exact refl _
    · exact flush _

end Appends

/-! ## Writing a message -/

section
variable {C : Type} {impl : WOp → WM C Unit}

/-- The writer is where the ideal writer is, and without error. -/
structure Sound (x : PW C Bytes) (c : C) (D : Bytes) : Prop where
  tracks : PW.Tracks x (c, D)
  err : x.b.err = none

theorem Sound.plug {x : PW C Bytes} {c : C} {D : Bytes} (h : Sound x c D) (b : Bytes) : Sound { x with b := { x.b with wr := b } } c D :=
  ⟨⟨⟨h.tracks.good.1, h.tracks.good.2, h.tracks.good.3⟩, h.tracks.same⟩, h.err⟩

/-- What a call of the ideal writer that succeeds says of the writer on the buffer. -/
theorem Sound.step {x : PW C Bytes} {c c' : C} {D D' : Bytes} (h : Sound x c D) {o : WOp} (hi : (idealWtr impl).step o (c, D) = .done (none, (c', D'))) :
    ∃ x', (PW.wtr bufferW impl).step o x = .done (none, x') ∧ Sound x' c' D' ∧ Appends x.b x'.b := by
  obtain ⟨e, x', h1, h2, -, -, h5, -⟩ := PW.op_spec (impl := impl) bufferW_honest o h.tracks
  have ha : Appends x.b x'.b := by
    obtain ⟨r, g1, g2⟩ := Out.bind_eq_done h1
    cases g2
    exact Appends.runBuf _ (b' := r.2) (a := r.1) g1
  have he := (ha h.err).1
  have h3 : errOf ((impl o).ideal c).1.1 = none ∧ ((impl o).ideal c).1.2 = c' ∧ D ++ ((impl o).ideal c).2 = D' := by
    simp only [idealWtr, Out.done.injEq, Prod.mk.injEq] at hi
    exact hi
  obtain ⟨i1, i2, i3⟩ := h3
  rw [i2, i3] at h2
  exact ⟨x', by rw [← i1, ← h5 he]; exact h1, ⟨h2, he⟩, ha⟩

theorem Sound.writes {x : PW C Bytes} {s s' : C × Bytes} (cs : List WOp) (h : Sound x s.1 s.2) (hi : Writes (idealWtr impl) cs s s') :
    ∃ x', Writes (PW.wtr bufferW impl) cs x x' ∧ Sound x' s'.1 s'.2 ∧ Appends x.b x'.b := by
  induction cs generalizing x s with
  | nil => cases hi; exact ⟨x, .nil _, h, .refl _⟩
  | cons o cs ih =>
    obtain ⟨s1, h1, h2⟩ := hi.cons_inv
    obtain ⟨x1, g1, g2, g3⟩ := Sound.step (impl := impl) h (o := o) (c' := s1.1) (D' := s1.2) h1
    obtain ⟨x', g4, g5, g6⟩ := ih g2 h2
    exact ⟨x', .cons g1 g4, g5, g3.trans g6⟩

theorem Sound.flush {x : PW C Bytes} {c : C} {D : Bytes} (h : Sound x c D) :
    ∃ x', x.flush bufferW = (none, x') ∧ Sound x' c D ∧ Appends x.b x'.b ∧ x'.b.sent = D := by
  obtain ⟨e, x', h1, h2, -, -, h5, -⟩ := PW.flush_spec bufferW_honest h.tracks
  obtain ⟨e1, b1, f1, f2, -⟩ := BufWriter.flush_spec bufferW_honest h.tracks.good
  have ha := Appends.flush x.b
  have he := (ha h.err).1
  have hx : x.flush bufferW = (none, { x with b := (x.b.flush bufferW).2 }) := by
    unfold PW.flush
    rw [f1] at he ha ⊢
    rw [f2, show b1.err = none from he]
    simp [PW.flushTransport, bufferW]
  cases h1.symm.trans hx
  exact ⟨_, hx, ⟨h2, he⟩, ha, (h5 rfl).1⟩

end

/-! ## Parts of the test -/

/-- With enough fuel, the part of the test returns. -/
def Runs {C R α : Type} (m : Nat → TM C R α) (s : State C R) (a : α) (s' : State C R) : Prop := ∃ n, ∀ fuel, n ≤ fuel → m fuel s = .done (some a, s')

namespace Runs
variable {C R α β : Type}

theorem const {m : TM C R α} {s s' : State C R} {a : α} (h : m s = .done (some a, s')) : Runs (fun _ => m) s a s' := ⟨0, fun _ _ => h⟩

theorem bind {m : Nat → TM C R α} {f : Nat → α → TM C R β} {s s1 s2 : State C R} {a : α} {b : β} (h1 : Runs m s a s1) (h2 : Runs (fun n => f n a) s1 b s2) :
    Runs (fun n => m n >>= f n) s b s2 := by
  obtain ⟨n1, h1⟩ := h1
  obtain ⟨n2, h2⟩ := h2
  refine ⟨max n1 n2, fun fuel hf => ?_⟩
  show (m fuel s).bind _ = _
  rw [h1 fuel (by omega)]
  exact h2 fuel (by omega)

theorem whenever {c : Prop} [Decidable c] {m : Nat → TM C R Unit} {s s' : State C R} (h1 : c → Runs m s () s') (h2 : ¬ c → s' = s) : Runs (fun n => TM.whenever c (m n)) s () s' := by
  by_cases hc : c
  · simp only [TM.whenever, if_pos hc]; exact h1 hc
  · simp only [TM.whenever, if_neg hc]; rw [h2 hc]; exact const rfl

end Runs

/-- What a protocol must do to pass. `r0` and `c0` are the fields of the reader and of the writer after Reset; `W` says which fields of the writer are fine before a message. -/
structure Works {C R : Type} (P : Protocol C R) (rf : Rdr (R × Flat)) (W : C → Prop) (c0 : C) (r0 : R) (lim : Nat) (Q : Bytes → Prop) (M : MessageHeader → Prop) (V : TVal → Prop) where
  codec : Codec (idealWtr P.wimpl) rf W r0 4096 (.err .eof) Q M V
  rest : ∀ b, Q b
  msg : ∀ h : MessageHeader, h.name.length ≤ lim → h.type.toNat ≤ 4 → M h
  val : ∀ env t v tv, Rep env t v tv → HasType env t v → SizesAtMost env lim t v → V tv
  sim : ∀ o s t, RSim s t → OutRel (fun x y => x.1 = y.1 ∧ RSim x.2 y.2) (P.rdr.step o s) (rf.step o t)
  clean : ∀ (o : ROp) {x x' : R × BufReader} {a : Except Err o.Ans}, x.2.Clean 4096 → P.rdr.step o x = .done (a, x') → x'.2.Clean 4096
  newR : ∀ s, (P.newR s).2.size = 4096
  resetR : ∀ x s, x.2.size = 4096 → P.resetR x s = (r0, newBufReader 4096 s)
  newW : ∀ b, 0 < (P.newW b).b.size
  resetW : ∀ x b, 0 < x.b.size → Sound (P.resetW x b) c0 [] ∧ (P.resetW x b).b.sent = []
  start : W c0

section
variable {C R : Type} {P : Protocol C R} {rf : Rdr (R × Flat)} {W : C → Prop} {c0 : C} {r0 : R} {lim : Nat} {Q : Bytes → Prop} {M : MessageHeader → Prop} {V : TVal → Prop}

/-- The writer is ready for the next message: all it has been given has been sent. -/
structure Ready (W : C → Prop) (x : PW C Bytes) : Prop where
  ex : ∃ c, Sound x c x.b.sent ∧ W c

theorem Ready.pos {x : PW C Bytes} (h : Ready W x) : 0 < x.b.size := by obtain ⟨c, h, -⟩ := h.ex; exact h.tracks.good.pos

/-- Use of the writer. -/
theorem runs_writer {f : Nat → PW C Bytes → Out (Option Err × PW C Bytes)} {s : State C R} {x : PW C Bytes}
    (h : ∃ n, ∀ fuel, n ≤ fuel → f fuel { s.w with b := { s.w.b with wr := s.b } } = .done (none, x)) :
    Runs (fun n => TM.writer (f n)) s none { s with w := x, b := x.b.wr } := by
  obtain ⟨n, h⟩ := h
  refine ⟨n, fun fuel hf => ?_⟩
  show (f fuel { s.w with b := { s.w.b with wr := s.b } }).bind _ = _
  rw [h fuel hf]
  rfl

/-- Marshal a message. -/
theorem runs_marshal (hP : Works P rf W c0 r0 lim Q M V) {env : Env} {ord : Nat → GoVal → GoVal} {s : State C R} (hs : Ready W s.w) (hM : M s.msg) {tv : TVal} (hV : V tv) {x : AnyVal}
    (hx : ∀ {S : Type} (w : Wtr S) (q q' : S), Writes w (calls tv) q q' → MarshalReturns env w (ordered ord s.marshals x) q none q') :
    ∃ w', Ready W w' ∧ Runs (fun n => ThriftTest.marshal P env ord n x) s ()
      { s with b := s.b ++ (hP.codec.encM s.msg ++ hP.codec.enc tv), w := w', marshals := s.marshals + 1 } := by
  obtain ⟨⟨c, h, hW⟩⟩ := hs
  obtain ⟨x1, g1, h1, a1⟩ := (h.plug s.b).step (impl := P.wimpl) (hP.codec.msgW s.msg c _ hW hM)
  obtain ⟨c', hW', hv⟩ := hP.codec.valW tv c (s.w.b.sent ++ hP.codec.encM s.msg) hW hV
  obtain ⟨x2, g2, h2, a2⟩ := Sound.writes (impl := P.wimpl) (x := { x1 with b := { x1.b with wr := x1.b.wr } }) _ h1 hv
  obtain ⟨x3, g3, h3, a3⟩ := Sound.step (impl := P.wimpl) (x := { x2 with b := { x2.b with wr := x2.b.wr } }) h2 (hP.codec.endW _)
  obtain ⟨x4, g4, h4, a4, e4⟩ := Sound.flush (x := { x3 with b := { x3.b with wr := x3.b.wr } }) h3
  obtain ⟨-, d, d1, d2⟩ := (((a1.trans a2).trans a3).trans a4) h.err
  refine ⟨x4, ⟨c', by rw [e4]; exact h4, hW'⟩, ?_⟩
  have hb : x4.b.wr = s.b ++ (hP.codec.encM s.msg ++ hP.codec.enc tv) := by
    rw [d2]
    congr 1
    have := d1.symm.trans e4
    simpa [List.append_assoc] using this
  unfold ThriftTest.marshal
  refine .bind (.const rfl) ?_
  refine .bind (runs_writer ⟨0, fun _ _ => g1⟩) (.bind (.const rfl) ?_)
  refine .bind (runs_writer (hx _ _ _ g2)) (.bind (.const rfl) ?_)
  refine .bind (.const rfl) ?_
  refine .bind (runs_writer ⟨0, fun _ _ => g3⟩) (.bind (.const rfl) ?_)
  refine .bind (runs_writer ⟨0, fun _ _ => by rw [g4]⟩) (.const ?_)
  rw [← hb]
  rfl

/-! ## Reading -/

/-- The reader is between messages, and `L` is still to be read. -/
structure Listens (r0 : R) (s : State C R) (L : Bytes) : Prop where
  fields : s.r.1 = r0
  size : s.r.2.size = 4096
  err : s.r.2.err = none
  le : s.r.2.unread.length ≤ 4096
  left : s.r.2.unread ++ s.b = L

theorem Listens.reset (hP : Works P rf W c0 r0 lim Q M V) {s : State C R} (hs : s.r.2.size = 4096) : Listens r0 { s with r := P.resetR s.r (bufferR s.b) } s.b := by
  have := hP.resetR s.r (bufferR s.b) hs
  exact ⟨by rw [this], by rw [this]; rfl, by rw [this]; rfl, by rw [this]; exact Nat.zero_le _, by rw [this]; rfl⟩

/-- Use of the reader. -/
theorem runs_reader (hP : Works P rf W c0 r0 lim Q M V) {α : Type} {p : Nat → RProg α} {s : State C R} {L L' : Bytes} {a : α} (hs : Listens r0 s L)
    (hle : ∀ n m, n ≤ m → RProg.Le (p n) (p m)) (h : ∃ n, ∀ fuel, n ≤ fuel → (p fuel).run rf (r0, ⟨4096, L, .err .eof⟩) = .done (a, (r0, ⟨4096, L', .err .eof⟩))) :
    ∃ r' b', Listens r0 { s with r := r', b := b' } L' ∧ Runs (fun n => TM.reader P (p n)) s a { s with r := r', b := b' } := by
  obtain ⟨n, h⟩ := h
  have hb : BSim { s.r.2 with src := bufferR s.b } ⟨4096, L, .err .eof⟩ :=
    ⟨hs.size.symm, by show 0 < s.r.2.size; rw [hs.size]; decide, hs.left.symm, rfl, by show s.r.2.unread.length ≤ s.r.2.size; rw [hs.size]; exact hs.le,
      fun i => ⟨0, by decide, Nat.succ_ne_zero _⟩, fun e he => by
        have : s.r.2.err = some e := he
        rw [hs.err] at this
        cases this⟩
  have hc : BufReader.Clean 4096 { s.r.2 with src := bufferR s.b } := ⟨hs.size, fun _ => rfl, hs.err⟩
  have key : ∀ fuel, n ≤ fuel → ∃ x', (p fuel).run P.rdr (s.r.1, { s.r.2 with src := bufferR s.b }) = .done (a, x') ∧ RSim x' (r0, ⟨4096, L', .err .eof⟩) ∧ x'.2.Clean 4096 := by
    intro fuel hf
    have hr := RProg.run_sim hP.sim (p fuel) (s.r.1, { s.r.2 with src := bufferR s.b }) (r0, ⟨4096, L, .err .eof⟩) ⟨hs.fields, hb⟩
    rw [h fuel hf] at hr
    cases hq : (p fuel).run P.rdr (s.r.1, { s.r.2 with src := bufferR s.b }) with
    | done x =>
      rw [hq] at hr
      obtain ⟨x1, x2⟩ := x
      obtain ⟨rfl, h2⟩ := hr
      exact ⟨x2, rfl, h2, (p fuel).run_clean hP.clean (x := (s.r.1, { s.r.2 with src := bufferR s.b })) hc hq⟩
    | blocked => rw [hq] at hr; exact hr.elim
    | diverged => rw [hq] at hr; exact hr.elim
    | panicked => rw [hq] at hr; exact hr.elim
  obtain ⟨x', h1, ⟨h2, h3⟩, h4⟩ := key n (Nat.le_refl _)
  refine ⟨x', x'.2.src.data, ⟨h2, h4.size, h4.err, by have := h3.le; rw [h4.size] at this; exact this, h3.bytes.symm⟩, n, fun fuel hf => ?_⟩
  show ((p fuel).run P.rdr (s.r.1, { s.r.2 with src := bufferR s.b })).bind _ = _
  rw [((hle n fuel hf).run _ _).done h1]
  rfl

/-- One call. -/
theorem runs_call (hP : Works P rf W c0 r0 lim Q M V) {o : ROp} {s : State C R} {L L' : Bytes} {a : o.Ans} (hs : Listens r0 s L)
    (h : Gives rf o (r0, ⟨4096, L, .err .eof⟩) a (r0, ⟨4096, L', .err .eof⟩)) :
    ∃ r' b', Listens r0 { s with r := r', b := b' } L' ∧ Runs (fun _ => TM.reader P (.call o .ret)) s (.ok a) { s with r := r', b := b' } :=
  runs_reader hP hs (fun _ _ _ => .refl _) ⟨0, fun _ _ => by
    show (rf.step o _).bind _ = _
    rw [h]
    rfl⟩

/-- Skip a message. -/
theorem runs_skip (hP : Works P rf W c0 r0 lim Q M V) {h : MessageHeader} (hM : M h) {tv : TVal} (hV : V tv) (hty : tv.ty = Ty.struct) {s : State C R} {L : Bytes}
    (hs : Listens r0 s L) (hL : L ++ (hP.codec.encM h ++ hP.codec.enc tv) = (hP.codec.encM h ++ hP.codec.enc tv) ++ L) :
    ∃ r' b', Listens r0 { s with r := r', b := b' } L ∧ Runs (fun n => do
        TM.set fun s => { s with b := s.b ++ (hP.codec.encM h ++ hP.codec.enc tv) }
        TM.check (errOf (← TM.reader P (.call .messageBegin .ret)))
        TM.check (← TM.reader P (skip n Ty.struct))
        TM.check (errOf (← TM.reader P (.call .messageEnd .ret)))) s () { s with r := r', b := b' } := by
  have h0 : Listens r0 { s with b := s.b ++ (hP.codec.encM h ++ hP.codec.enc tv) } (hP.codec.encM h ++ (hP.codec.enc tv ++ L)) :=
    ⟨hs.fields, hs.size, hs.err, hs.le, by
      show s.r.2.unread ++ (s.b ++ _) = _
      rw [← List.append_assoc, hs.left, hL, List.append_assoc]⟩
  obtain ⟨r1, b1, l1, g1⟩ := runs_call hP h0 (hP.codec.msgR h _ hM (hP.rest _))
  obtain ⟨r2, b2, l2, g2⟩ := runs_reader hP l1 (p := fun n => skip n Ty.struct) (fun n m h => (skip_le n m h).1 _) (by
    rw [← hty]
    exact C03_skip_any rf tv _ _ (hP.codec.valR tv L hV (hP.rest _)))
  obtain ⟨r3, b3, l3, g3⟩ := runs_call hP l2 (hP.codec.endR _)
  refine ⟨r3, b3, l3, .bind (.const rfl) ?_⟩
  refine .bind g1 (.bind (.const rfl) (.bind g2 (.bind (.const rfl) (.bind g3 (.const rfl)))))

/-- Three times. -/
theorem runs_three {m : Nat → TM C R Unit} {s s1 s2 s3 : State C R} (h1 : Runs m s () s1) (h2 : Runs m s1 () s2) (h3 : Runs m s2 () s3) : Runs (fun n => TM.times (m n) 3) s () s3 :=
  .bind h1 (.bind h2 (.bind h3 (.const rfl)))

/-! ## One subtest -/

theorem Listens.nil {s : State C R} (h : Listens r0 s []) : s.b = [] := (List.append_eq_nil_iff.1 h.left).2

theorem isMessageHeaderEqual_self (h : MessageHeader) : isMessageHeaderEqual h h = true := by simp [isMessageHeaderEqual, isMessageNameEqual]

/-- How it is between two subtests. -/
structure Between (s : State C R) : Prop where
  b : s.b = []
  failed : s.failed = false
  w : 0 < s.w.b.size
  r : s.r.2.size = 4096

/-- Marshal what has come back, and compare. -/
theorem runs_again (hP : Works P rf W c0 r0 lim Q M V) {env : Env} {ord : Nat → GoVal → GoVal} {s : State C R} (hs : Ready W s.w) (hM : M s.msg) {tv : TVal} (hV : V tv) {x : AnyVal}
    (hx : ∀ n {S : Type} (w : Wtr S) (q q' : S), Writes w (calls tv) q q' → MarshalReturns env w (ordered ord n x) q none q') :
    ∃ w', Ready W w' ∧ Runs (fun n => do
        TM.set fun s => { s with b := [] }
        ThriftTest.marshal P env ord n x
        TM.whenever ((← TM.get).b ≠ hP.codec.encM s.msg ++ hP.codec.enc tv) TM.errorf) s ()
      { s with b := hP.codec.encM s.msg ++ hP.codec.enc tv, w := w', marshals := s.marshals + 1 } := by
  obtain ⟨w', h1, h2⟩ := runs_marshal hP (env := env) (ord := ord) (s := { s with b := [] }) hs hM hV (x := x) (hx _)
  refine ⟨w', h1, .bind (.const rfl) (.bind h2 (.bind (.const rfl) ?_))⟩
  refine Runs.whenever (fun h => absurd rfl h) (fun _ => rfl)

theorem type_le (t : BitVec 8) : (t % 4 + 1).toNat ≤ 4 := by
  have : (t % 4).toNat < 4 := by rw [BitVec.toNat_umod]; exact Nat.mod_lt _ (by decide)
  rw [BitVec.toNat_add]
  exact Nat.le_trans (Nat.mod_le _ _) (by show _ + 1 ≤ 4; omega)

theorem subtest_runs (hP : Works P rf W c0 r0 lim Q M V) {env : Env} {ord : Nat → GoVal → GoVal} (hord : ∀ n v, SameValue false v (ord n v)) {uuid : Bool} {tt : Case} (hc : CaseOK env lim tt)
    (hu : ¬ (tt.hasUUID = true ∧ uuid = false)) {s : State C R} (hs : Between s) : ∃ s', Between s' ∧ Runs (fun n => subtest P env ord n uuid tt) s () s' := by
  obtain ⟨fs, hkind⟩ := hc.kind
  obtain ⟨tv, hr⟩ := hc.rep
  obtain ⟨n0, a, hl⟩ := (lookup_iff_acc env tt.t).2 hc.acc
  have hz := zeroSame_plain hc.noIsZero
  -- the first message
  obtain ⟨msg, hmsg⟩ : ∃ msg : MessageHeader, msg = { name := tt.name, type := s.msg.type % 4 + 1, id := s.msg.id + 1 } := ⟨_, rfl⟩
  have hM : M msg := hP.msg _ (by rw [hmsg]; exact hc.name) (by rw [hmsg]; exact type_le _)
  obtain ⟨tv2, hr2, ht2, hs2, v2, hv2, hdec, henc⟩ := settled_settles hz lim hc.hasType hc.sizes hc.keys hc.distinct hr hc.settled (hord s.marshals tt.val) hl ((rep_wireType hr).lookup hl)
  have hV := hP.val env _ _ _ hr2 ht2 hs2
  have hty : tv2.ty = Ty.struct := wireTypeOf_unique (rep_wireType hr2) (.struct hkind)
  obtain ⟨snd, sent⟩ := hP.resetW s.w s.b hs.w
  obtain ⟨w1, r1, g1⟩ := runs_marshal hP (env := env) (ord := ord) (s := { s with msg := msg, w := P.resetW s.w s.b }) ⟨c0, by rw [sent]; exact snd, hP.start⟩ hM hV
    (x := .val tt.t tt.val) (henc _ _ (.inl rfl) (.inl ⟨rfl, fun e h => by rw [hkind] at h; cases h⟩))
  -- read it
  obtain ⟨want, hw⟩ : ∃ want, want = hP.codec.encM msg ++ hP.codec.enc tv2 := ⟨_, rfl⟩
  replace g1 : Runs (fun n => ThriftTest.marshal P env ord n (.val tt.t tt.val)) { s with msg := msg, w := P.resetW s.w s.b } ()
      { s with msg := msg, w := w1, b := want, marshals := s.marshals + 1 } := by
    have h0 : s.b ++ (hP.codec.encM msg ++ hP.codec.enc tv2) = want := by rw [hs.b, hw]; rfl
    rw [← h0]
    exact g1
  have hwant : want = hP.codec.encM msg ++ (hP.codec.enc tv2 ++ []) := by rw [hw, List.append_nil]
  have l2 : Listens r0 { s with msg := msg, w := w1, b := want, marshals := s.marshals + 1, r := P.resetR s.r (bufferR want) } (hP.codec.encM msg ++ (hP.codec.enc tv2 ++ [])) := by
    have := Listens.reset hP (s := { s with msg := msg, w := w1, b := want, marshals := s.marshals + 1 }) hs.r
    rw [← hwant]
    exact this
  obtain ⟨r3, b3, l3, g3⟩ := runs_call hP l2 (hP.codec.msgR msg _ hM (hP.rest _))
  obtain ⟨r4, b4, l4, g4⟩ := runs_reader hP l3 (p := fun n => Unmarshal env n (.val tt.p (.ptr (env.zero tt.t)))) (fun n m h => Unmarshal_le env n m h _)
    (hdec rf tt.p _ _ hc.ptr (hP.codec.valR tv2 [] hV (hP.rest _)))
  obtain ⟨r5, b5, l5, g5⟩ := runs_call hP l4 (hP.codec.endR _)
  have hb5 := l5.nil
  -- write it again
  obtain ⟨s5, hs5⟩ : ∃ s5 : State C R, s5 = { s with msg := msg, w := w1, b := b5, marshals := s.marshals + 1, r := r5 } := ⟨_, rfl⟩
  obtain ⟨s6, k1, k2, k3, k4, g6⟩ : ∃ s6 : State C R, (s6.b = [] ∨ s6.b = want) ∧ s6.failed = false ∧ 0 < s6.w.b.size ∧ s6.r.2.size = 4096 ∧
      Runs (fun n => TM.whenever (tt.hasMap = false) (TM.times (do
        TM.set fun s => { s with b := [] }
        ThriftTest.marshal P env ord n (.val tt.p (.ptr v2))
        TM.whenever ((← TM.get).b ≠ want) TM.errorf) 3)) s5 () s6 := by
    by_cases hmap : tt.hasMap = false
    · have hx : ∀ n {S : Type} (w : Wtr S) (q q' : S), Writes w (calls tv2) q q' → MarshalReturns env w (ordered ord n (.val tt.p (.ptr v2))) q none q' := by
        intro n S w q q' hw
        obtain ⟨u3, e3, h3⟩ : ∃ u3, ord n (.ptr v2) = .ptr u3 ∧ SameValue false v2 u3 := by
          have := hord n (.ptr v2)
          generalize ord n (.ptr v2) = y at this
          cases this with
          | refl => exact ⟨v2, rfl, .refl _⟩
          | ptr h => exact ⟨_, rfl, h⟩
        refine henc u3 _ (.inr (h3.small (hv2.small ((hord s.marshals tt.val).small (hc.maps hmap)).2).2).1) (.inr ⟨tt.p, hc.ptr, ?_⟩) w q q' hw
        simp only [ordered, e3]
      subst hs5
      rw [hw]
      obtain ⟨w6, m1, n1⟩ := runs_again hP (env := env) (ord := ord) (s := { s with msg := msg, w := w1, b := b5, marshals := s.marshals + 1, r := r5 }) r1 hM hV hx
      obtain ⟨w7, m2, n2⟩ := runs_again hP (env := env) (ord := ord) (s := { s with msg := msg, w := w6, b := hP.codec.encM msg ++ hP.codec.enc tv2, marshals := s.marshals + 1 + 1, r := r5 })
        m1 hM hV hx
      obtain ⟨w8, m3, n3⟩ := runs_again hP (env := env) (ord := ord) (s := { s with msg := msg, w := w7, b := hP.codec.encM msg ++ hP.codec.enc tv2, marshals := s.marshals + 1 + 1 + 1, r := r5 })
        m2 hM hV hx
      exact ⟨{ s with msg := msg, w := w8, b := hP.codec.encM msg ++ hP.codec.enc tv2, marshals := s.marshals + 1 + 1 + 1 + 1, r := r5 }, .inr rfl, hs.failed, m3.pos, l5.size,
        .whenever (fun _ => runs_three n1 n2 n3) (fun h => absurd hmap h)⟩
    · subst hs5
      exact ⟨{ s with msg := msg, w := w1, b := b5, marshals := s.marshals + 1, r := r5 }, .inl hb5, hs.failed, r1.pos, l5.size, .whenever (fun h => absurd h hmap) (fun _ => rfl)⟩
  -- skip it
  have l6 := Listens.reset hP k4
  have hcomm : s6.b ++ (hP.codec.encM msg ++ hP.codec.enc tv2) = (hP.codec.encM msg ++ hP.codec.enc tv2) ++ s6.b := by
    rcases k1 with k1 | k1
    · rw [k1]; simp
    · rw [k1, hw]
  obtain ⟨r7, b7, l7, g7⟩ := runs_skip hP hM hV hty l6 hcomm
  obtain ⟨r8, b8, l8, g8⟩ := runs_skip hP hM hV hty l7 hcomm
  obtain ⟨r9, b9, l9, g9⟩ := runs_skip hP hM hV hty l8 hcomm
  refine ⟨{ s6 with r := r9, b := [] }, ⟨rfl, k2, k3, l9.size⟩, ?_⟩
  unfold subtest
  refine .bind (.whenever (fun h => absurd h hu) (fun _ => rfl)) ?_
  refine .bind (.const (s' := { s with msg := msg }) (by rw [hmsg]; rfl)) (.bind (.const rfl) ?_)
  refine .bind g1 (.bind (.const rfl) (.bind (.const rfl) ?_))
  refine .bind g3 (.bind (.bind (.const rfl) (.whenever (fun h => ?_) (fun _ => rfl))) ?_)
  · rw [show isMessageHeaderEqual msg msg = true from isMessageHeaderEqual_self msg] at h
    cases h
  refine .bind g4 (.bind (.const rfl) (.bind g5 (.bind (.const rfl) (.bind (.const rfl) (.bind (.whenever (fun h => ?_) (fun _ => rfl)) ?_)))))
  · exact absurd (by rw [hb5]; rfl) h
  rw [hs5] at g6
  have g10 := runs_three g7 g8 g9
  rw [← hw] at g10
  exact .bind g6 (.bind (.const rfl) (.bind g10 (.const rfl)))

/-! ## All of them -/

theorem subtests_run (hP : Works P rf W c0 r0 lim Q M V) {env : Env} {ord : Nat → GoVal → GoVal} (hord : ∀ n v, SameValue false v (ord n v)) {uuid : Bool} (table : List Case)
    (hc : ∀ tt ∈ table, (tt.hasUUID = true → uuid = true) → CaseOK env lim tt) {s : State C R} (hs : Between s) :
    ∃ s', Between s' ∧ ∃ n, ∀ fuel, n ≤ fuel → subtests P env ord fuel uuid table s = .done s' := by
  induction table generalizing s with
  | nil => exact ⟨s, hs, 0, fun _ _ => rfl⟩
  | cons tt table ih =>
    obtain ⟨s1, h1, n1, g1⟩ : ∃ s1, Between s1 ∧ ∃ n, ∀ fuel, n ≤ fuel → ∃ a, subtest P env ord fuel uuid tt s = .done (a, s1) := by
      by_cases hu : tt.hasUUID = true ∧ uuid = false
      · refine ⟨s, hs, 0, fun fuel _ => ⟨none, ?_⟩⟩
        show (TM.whenever _ _ s).bind _ = _
        rw [TM.whenever, if_pos hu]
        rfl
      · obtain ⟨s', h1, n, h2⟩ := subtest_runs hP hord (hc tt (by simp) (fun h => by
          cases uuid with
          | true => rfl
          | false => exact absurd ⟨h, rfl⟩ hu)) hu hs
        exact ⟨s', h1, n, fun fuel hf => ⟨_, h2 fuel hf⟩⟩
    obtain ⟨s', h2, n2, g2⟩ := ih (fun tt h => hc tt (by simp [h])) h1
    refine ⟨s', h2, max n1 n2, fun fuel hf => ?_⟩
    obtain ⟨a, g1⟩ := g1 fuel (by omega)
    rw [subtests, g1]
    exact g2 fuel (by omega)

theorem testProtocol_passes (hP : Works P rf W c0 r0 lim Q M V) {env : Env} {ord : Nat → GoVal → GoVal} (hord : ∀ n v, SameValue false v (ord n v)) {uuid : Bool} (table : List Case)
    (hc : ∀ tt ∈ table, (tt.hasUUID = true → uuid = true) → CaseOK env lim tt) : ∃ n, ∀ fuel, n ≤ fuel → testProtocol P env ord fuel uuid table = .done true := by
  obtain ⟨s', h, n, g⟩ := subtests_run hP hord table hc (s := ⟨⟨[], 0, 0⟩, [], P.newW [], P.newR (bufferR []), 0, false⟩) ⟨rfl, rfl, hP.newW _, hP.newR _⟩
  refine ⟨n, fun fuel hf => ?_⟩
  rw [testProtocol, g fuel hf]
  show Out.done (!s'.failed) = _
  rw [h.failed]
  rfl

end

end GoThrift
