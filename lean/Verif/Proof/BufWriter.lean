import Verif.Spec.Delivery

/-!
# The `bufio.Writer` algorithms deliver a prefix
-/

namespace GoThrift

open Spec

/-- `D` is what should have been written so far. -/
structure BufWriter.Good {σ : Type} (b : BufWriter σ) (D : Bytes) : Prop where
  pos : 0 < b.size
  ok : b.err = none → b.sent ++ b.buf = D
  bad : ∀ e, b.err = some e → b.sent <+: D

namespace BufWriter
variable {σ : Type} {T : Transport σ}

theorem Good.mono {b : BufWriter σ} {D : Bytes} (h : Good b D) (e : Err) (he : b.err = some e) (p : Bytes) : Good b (D ++ p) :=
  ⟨h.pos, (fun hn => by rw [he] at hn; cases hn), fun e' h' => (h.bad e' h').trans (List.prefix_append _ _)⟩

theorem flush_spec (hT : T.Honest) {b : BufWriter σ} {D : Bytes} (h : Good b D) :
    ∃ e b', flush T b = (e, b') ∧ e = b'.err ∧ Good b' D ∧ b'.size = b.size ∧ (e = none → b'.buf = [] ∧ b'.sent = D) ∧
      (∀ e, b.err = some e → b' = b) := by
  unfold flush
  cases he : b.err with
  | some e => exact ⟨some e, b, rfl, he.symm, h, rfl, (fun hc => by cases hc), fun _ _ => rfl⟩
  | none =>
    have hok := h.ok he
    dsimp only
    split
    · rename_i h0
      have hb : b.buf = [] := List.length_eq_zero_iff.1 h0
      exact ⟨none, b, rfl, he.symm, h, rfl, fun _ => ⟨hb, by rw [← hok, hb, List.append_nil]⟩, fun e hc => by cases hc⟩
    · have hle := hT.write_le b.wr b.buf
      have hpre : b.sent ++ b.buf.take (T.write b.wr b.buf).1.1 <+: D := by
        rw [← hok, List.prefix_append_right_inj]; exact List.take_prefix _ _
      split
      · rename_i e _
        exact ⟨some e, _, rfl, rfl, ⟨h.pos, (fun hc => by cases hc), fun _ _ => hpre⟩, rfl, (fun hc => by cases hc), fun _ hc => by cases hc⟩
      · rename_i hn
        have hfull : b.buf.take (T.write b.wr b.buf).1.1 = b.buf := by
          rw [List.take_of_length_le]
          by_cases hlt : (T.write b.wr b.buf).1.1 < b.buf.length
          · exact absurd (by
              split at hn
              · cases hn
              · exact hn) (hT.write_err b.wr b.buf hlt)
          · omega
        refine ⟨none, _, rfl, rfl, ⟨h.pos, fun _ => ?_, fun e' h' => ?_⟩, rfl, fun _ => ⟨rfl, ?_⟩, fun _ hc => by cases hc⟩
        · simp only [hfull, List.append_nil]; exact hok
        · cases h'
        · simp only [hfull]; exact hok

/-- What a direct write may do. -/
def PutOK (put : σ → Bytes → (Nat × Option Err) × σ) : Prop :=
  ∀ s p, (put s p).1.1 ≤ p.length ∧ ((put s p).1.1 < p.length → (put s p).1.2 ≠ none)

theorem writeLoop_failed (direct : σ → Bool) (put : σ → Bytes → (Nat × Option Err) × σ) (fuel : Nat) (p : Bytes) (b : BufWriter σ) (e : Err)
    (he : b.err = some e) : writeLoop T direct put (fuel + 1) p b = .done (some e, b) := by
  rw [writeLoop, if_neg (by simp [he]), he]

theorem writeLoop_spec (hT : T.Honest) (direct : σ → Bool) (put : σ → Bytes → (Nat × Option Err) × σ) (hput : PutOK put) :
    ∀ (fuel : Nat) (p : Bytes) (b : BufWriter σ) (D : Bytes), Good b D → p.length + 2 + (if b.buf = [] then 0 else 1) ≤ fuel →
      ∃ e b', writeLoop T direct put fuel p b = .done (e, b') ∧ e = b'.err ∧ Good b' (D ++ p) ∧ b'.size = b.size ∧
        (∀ e, b.err = some e → b' = b) := by
  intro fuel
  induction fuel with
  | zero => intro p b D h hf; omega
  | succ fuel ih =>
    intro p b D h hf
    cases he : b.err with
    | some e =>
      exact ⟨some e, b, writeLoop_failed _ _ _ _ _ _ he, he.symm, h.mono e he p, rfl, fun _ _ => rfl⟩
    | none =>
      have hok := h.ok he
      rw [writeLoop]
      by_cases hc : p.length > b.available ∧ b.err = none
      · rw [if_pos hc]
        by_cases hd : b.buf.length = 0 ∧ direct b.wr = true
        · rw [if_pos hd]
          have hb : b.buf = [] := List.length_eq_zero_iff.1 hd.1
          obtain ⟨hle, herr⟩ := hput b.wr p
          have hg : Good { b with err := (put b.wr p).1.2, wr := (put b.wr p).2, sent := b.sent ++ p.take (put b.wr p).1.1 }
              (D ++ p.take (put b.wr p).1.1) :=
            ⟨h.pos, fun _ => by simp only [hb, List.append_nil] at hok ⊢; rw [hok], fun _ _ => by
              simp only [hb, List.append_nil] at hok ⊢; rw [hok]; exact List.prefix_rfl⟩
          by_cases hx : (put b.wr p).1.1 < p.length
          · obtain ⟨e, he'⟩ := Option.ne_none_iff_exists'.1 (herr hx)
            obtain ⟨fuel, rfl⟩ : ∃ m, fuel = m + 1 := ⟨fuel - 1, by omega⟩
            refine ⟨some e, _, writeLoop_failed _ _ _ _ _ e he', he'.symm, ?_, rfl, fun _ hc => by cases hc⟩
            have := hg.mono e he' (p.drop (put b.wr p).1.1)
            rwa [List.append_assoc, List.take_append_drop] at this
          · have hdrop : p.drop (put b.wr p).1.1 = [] := List.drop_of_length_le (by omega)
            have hlen : 0 < p.length := by omega
            obtain ⟨e, b', h1, h2, h3, h4, _⟩ := ih (p.drop (put b.wr p).1.1) _ _ hg (by
              rw [hdrop]; simp only [hb, if_true, List.length_nil]; omega)
            refine ⟨e, b', h1, h2, ?_, h4, fun _ hc => by cases hc⟩
            rwa [List.append_assoc, List.take_append_drop] at h3
        · rw [if_neg hd]
          have hg0 : Good { b with buf := b.buf ++ p.take (min b.available p.length) } (D ++ p.take (min b.available p.length)) :=
            ⟨h.pos, fun _ => by simp only; rw [← List.append_assoc, hok], fun e' h' => by simp only at h'; rw [he] at h'; cases h'⟩
          obtain ⟨e1, b1, h1, h2, h3, h4, h5, _⟩ := flush_spec hT hg0
          dsimp only
          rw [h1]
          cases e1 with
          | some e =>
            obtain ⟨fuel, rfl⟩ : ∃ m, fuel = m + 1 := ⟨fuel - 1, by omega⟩
            refine ⟨some e, b1, writeLoop_failed _ _ _ _ _ e h2.symm, h2, ?_, h4, fun _ hc => by cases hc⟩
            have := h3.mono e h2.symm (p.drop (min b.available p.length))
            rwa [List.append_assoc, List.take_append_drop] at this
          | none =>
            obtain ⟨h5, -⟩ := h5 rfl
            obtain ⟨e, b', g1, g2, g3, g4, _⟩ := ih (p.drop (min b.available p.length)) b1 _ h3 (by
              rw [h5, List.length_drop]
              by_cases hb : b.buf = []
              · have : b.available = b.size := by simp [available, hb]
                have := h.pos
                simp only [hb, if_true] at hf ⊢
                omega
              · rw [if_neg hb] at hf
                simp only [if_true]
                omega)
            refine ⟨e, b', g1, g2, ?_, g4.trans h4, fun _ hc => by cases hc⟩
            rwa [List.append_assoc, List.take_append_drop] at g3
      · rw [if_neg hc, he]
        exact ⟨none, _, rfl, rfl, ⟨h.pos, fun _ => by simp only; rw [← List.append_assoc, hok], fun e' h' => by
          cases h'⟩, rfl, fun _ hc => by cases hc⟩

theorem put_spec (hT : T.Honest) (kind : WKind) (p : Bytes) {b : BufWriter σ} {D : Bytes} (h : Good b D) :
    ∃ e b', put T kind p b = .done (e, b') ∧ e = b'.err ∧ Good b' (D ++ p) ∧ b'.size = b.size ∧ (∀ e, b.err = some e → b' = b) := by
  cases kind with
  | bytes =>
    exact writeLoop_spec hT _ _ (fun s p => ⟨hT.write_le s p, hT.write_err s p⟩) _ p b D h (by split <;> omega)
  | string =>
    exact writeLoop_spec hT _ _ (fun s p => ⟨hT.writeString_le s p, hT.writeString_err s p⟩) _ p b D h (by split <;> omega)
  | byte =>
    simp only [put, writeByte]
    cases he : b.err with
    | some e => exact ⟨some e, b, rfl, he.symm, h.mono e he p, rfl, fun _ _ => rfl⟩
    | none =>
      have app : ∀ b : BufWriter σ, Good b D → b.err = none → Good { b with buf := b.buf ++ p } (D ++ p) := fun b h he =>
        ⟨h.pos, fun _ => by simp only; rw [← List.append_assoc, h.ok he], fun e' h' => by simp only at h'; rw [he] at h'; cases h'⟩
      dsimp only
      split
      · obtain ⟨e1, b1, h1, h2, h3, h4, h5, _⟩ := flush_spec hT h
        rw [h1]
        cases e1 with
        | some e => exact ⟨some e, b1, rfl, h2, h3.mono e h2.symm p, h4, fun _ hc => by cases hc⟩
        | none => exact ⟨none, _, rfl, h2, app b1 h3 h2.symm, h4, fun _ hc => by cases hc⟩
      · have := app b h he
        rw [he] at this
        exact ⟨none, _, rfl, rfl, this, rfl, fun _ hc => by cases hc⟩

theorem ensure_spec (hT : T.Honest) (n : Nat) {b : BufWriter σ} {D : Bytes} (h : Good b D) :
    ∃ e b', ensure T n b = (e, b') ∧ Good b' D ∧ b'.size = b.size ∧ (b.err = none → e = b'.err) ∧ (∀ e, b.err = some e → b' = b) := by
  unfold ensure
  split
  · exact ⟨none, b, rfl, h, rfl, fun hn => hn.symm, fun _ _ => rfl⟩
  · obtain ⟨e1, b1, h1, h2, h3, h4, _, h6⟩ := flush_spec hT h
    exact ⟨e1, b1, h1, h3, h4, fun _ => h2, h6⟩

end BufWriter

/-- After a failure nothing more happens. -/
theorem BWProg.runBuf_failed {σ α : Type} (T : Transport σ) (hT : T.Honest) (p : BWProg α) (b : BufWriter σ) (D : Bytes) (h : b.Good D)
    (e : Err) (he : b.err = some e) : ∃ a, p.runBuf T b = .done (a, b) := by
  induction p with
  | ret a => exact ⟨a, rfl⟩
  | write kind q k ih =>
    obtain ⟨e1, b1, h1, -, -, -, h5⟩ := BufWriter.put_spec hT kind q h
    rw [runBuf, h1, Out.bind_done, h5 e he]
    exact ih e1
  | ensure n k ih =>
    obtain ⟨e1, b1, h1, -, -, -, h5⟩ := BufWriter.ensure_spec hT n h
    rw [runBuf, h1, h5 e he]
    exact ih e1

/-- As long as nothing fails a program does what it does on a sink that accepts everything; what is sent is a prefix anyway. -/
theorem BWProg.runBuf_spec {σ α : Type} (T : Transport σ) (hT : T.Honest) (p : BWProg α) (b : BufWriter σ) (D : Bytes) (h : b.Good D) :
    ∃ a b', p.runBuf T b = .done (a, b') ∧ b'.Good (D ++ p.ideal.2) ∧ b'.size = b.size ∧ (b'.err = none → a = p.ideal.1) := by
  induction p generalizing b D with
  | ret a => exact ⟨a, b, rfl, by simpa [ideal] using h, rfl, fun _ => rfl⟩
  | write kind q k ih =>
    obtain ⟨e1, b1, h1, h2, h3, h4, _⟩ := BufWriter.put_spec hT kind q h
    rw [runBuf, h1, Out.bind_done]
    cases e1 with
    | none =>
      obtain ⟨a, b', g1, g2, g3, g4⟩ := ih none b1 (D ++ q) h3
      refine ⟨a, b', g1, ?_, g3.trans h4, g4⟩
      simpa [ideal, List.append_assoc] using g2
    | some e =>
      obtain ⟨a, ha⟩ := runBuf_failed T hT (k (some e)) b1 _ h3 e h2.symm
      refine ⟨a, b1, ha, ?_, h4, fun hn => by rw [hn] at h2; cases h2⟩
      have := h3.mono e h2.symm ((k none).ideal.2)
      simpa [ideal, List.append_assoc] using this
  | ensure n k ih =>
    obtain ⟨e1, b1, h1, h3, h4, h2, h5⟩ := BufWriter.ensure_spec hT n h
    rw [runBuf, h1]
    cases hb : b.err with
    | some e =>
      have := h5 e hb
      subst this
      obtain ⟨a, ha⟩ := runBuf_failed T hT (k e1) b1 _ h3 e hb
      refine ⟨a, b1, ha, ?_, rfl, fun hn => by rw [hn] at hb; cases hb⟩
      exact h3.mono e hb _
    | none =>
      have h2 := h2 hb
      cases e1 with
      | none =>
        obtain ⟨a, b', g1, g2, g3, g4⟩ := ih none b1 D h3
        exact ⟨a, b', g1, g2, g3.trans h4, g4⟩
      | some e =>
        obtain ⟨a, ha⟩ := runBuf_failed T hT (k (some e)) b1 _ h3 e h2.symm
        exact ⟨a, b1, ha, h3.mono e h2.symm _, h4, fun hn => by rw [hn] at h2; cases h2⟩

/-- A method that, on a failed writer, either reports an error or does not write at all. -/
def Strict {C α : Type} (m : WM C α) : Prop :=
  ∀ (σ : Type) (T : Transport σ), T.Honest → ∀ (c : C) (b : BufWriter σ) (D : Bytes) (e : Err), b.Good D → b.err = some e →
    ∃ r, (m c).runBuf T b = .done (r, b) ∧ ((∃ e', r.1 = .error e') ∨ (r = (m c).ideal.1 ∧ (m c).ideal.2 = []))

namespace Strict
variable {C α β : Type}

theorem ok (a : α) : Strict (WM.ok a : WM C α) := fun _ _ _ c b _ _ _ _ => ⟨(.ok a, c), rfl, .inr ⟨rfl, rfl⟩⟩
theorem fail (e : Err) : Strict (WM.fail e : WM C α) := fun _ _ _ c b _ _ _ _ => ⟨(.error e, c), rfl, .inl ⟨e, rfl⟩⟩
theorem get : Strict (WM.get : WM C C) := fun _ _ _ c b _ _ _ _ => ⟨(.ok c, c), rfl, .inr ⟨rfl, rfl⟩⟩
theorem set (c' : C) : Strict (WM.set c' : WM C Unit) := fun _ _ _ c b _ _ _ _ => ⟨(.ok (), c'), rfl, .inr ⟨rfl, rfl⟩⟩
theorem ofExcept (r : Except Err α) : Strict (WM.ofExcept r : WM C α) := fun _ _ _ c b _ _ _ _ => ⟨(r, c), rfl, .inr ⟨rfl, rfl⟩⟩

theorem write (kind : WKind) (p : Bytes) : Strict (WM.write kind p : WM C Unit) := by
  intro σ T hT c b D e hg he
  obtain ⟨e1, b1, h1, h2, _, _, h5⟩ := BufWriter.put_spec hT kind p hg
  have := h5 e he
  subst this
  rw [he] at h2
  subst h2
  exact ⟨(.error e, c), by rw [WM.write, BWProg.runBuf, h1]; rfl, .inl ⟨e, rfl⟩⟩

theorem ensure (n : Nat) : Strict (WM.ensure n : WM C Unit) := by
  intro σ T hT c b D e hg he
  obtain ⟨e1, b1, h1, _, _, _, h5⟩ := BufWriter.ensure_spec hT n hg
  have := h5 e he
  subst this
  cases e1 with
  | none => exact ⟨(.ok (), c), by rw [WM.ensure, BWProg.runBuf, h1]; rfl, .inr ⟨rfl, rfl⟩⟩
  | some e1 => exact ⟨(.error e1, c), by rw [WM.ensure, BWProg.runBuf, h1]; rfl, .inl ⟨e1, rfl⟩⟩

theorem _root_.GoThrift.BWProg.runBuf_bind {σ α β : Type} (T : Transport σ) (m : BWProg α) (f : α → BWProg β) (b : BufWriter σ) :
    (m.bind f).runBuf T b = (m.runBuf T b).bind fun r => (f r.1).runBuf T r.2 := by
  induction m generalizing b with
  | ret a => rfl
  | write kind p k ih =>
    simp only [BWProg.bind, BWProg.runBuf]
    cases b.put T kind p <;> simp [Out.bind, ih]
  | ensure n k ih => simp only [BWProg.bind, BWProg.runBuf, ih]

theorem bind {m : WM C α} {f : α → WM C β} (hm : Strict m) (hf : ∀ a, Strict (f a)) : Strict (m.bind f) := by
  intro σ T hT c b D e hg he
  obtain ⟨r, h1, h2⟩ := hm σ T hT c b D e hg he
  rw [WM.bind, BWProg.runBuf_bind, h1, Out.bind_done]
  obtain ⟨r, c'⟩ := r
  cases r with
  | error e' => exact ⟨(.error e', c'), rfl, .inl ⟨e', rfl⟩⟩
  | ok a =>
    rcases h2 with ⟨e', h2⟩ | ⟨h2, h3⟩
    · cases h2
    · obtain ⟨r', g1, g2⟩ := hf a σ T hT c' b D e hg he
      refine ⟨r', g1, g2.imp id fun ⟨g2, g3⟩ => ?_⟩
      rw [BWProg.ideal_bind, ← h2]
      exact ⟨g2, by rw [h3]; exact g3⟩

theorem ite {p : Prop} [Decidable p] {m n : WM C α} (hm : Strict m) (hn : Strict n) : Strict (if p then m else n) := by
  split <;> assumption

end Strict

/-- Every method of the binary writer. -/
theorem Binary.strict_wimpl (strict : Bool) (o : WOp) : Strict (wimpl strict o) := by
  have wb : ∀ v, Strict (writeByte v) := fun v => Strict.write _ _
  have w16 : ∀ v, Strict (writeI16 v) := fun v => Strict.write _ _
  have w32 : ∀ v, Strict (writeI32 v) := fun v => Strict.write _ _
  have ws : ∀ v, Strict (writeSize v) := fun v => w32 _
  have wstr : ∀ v, Strict (writeString v) := fun v => Strict.bind (ws _) fun _ => Strict.write _ _
  cases o with
  | messageBegin h =>
    refine Strict.ite ?_ ?_
    · exact Strict.bind (w32 _) fun _ => Strict.bind (wstr _) fun _ => w32 _
    · exact Strict.bind (wstr _) fun _ => Strict.bind (wb _) fun _ => w32 _
  | fieldBegin h => exact Strict.bind (wb _) fun _ => w16 _
  | mapBegin h => exact Strict.bind (wb _) fun _ => Strict.bind (wb _) fun _ => ws _
  | setBegin h => exact Strict.bind (wb _) fun _ => ws _
  | listBegin h => exact Strict.bind (wb _) fun _ => ws _
  | bool v => exact Strict.ite (wb _) (wb _)
  | string v => exact wstr v
  | bytes v => exact Strict.bind (ws _) fun _ => Strict.write _ _
  | structEnd | byte | double | i16 | i32 | i64 | uuid => exact Strict.write _ _
  | _ => exact Strict.ok ()

/-- Every method of the compact writer. -/
theorem Compact.strict_wimpl (o : WOp) : Strict (wimpl o) := by
  have wb : ∀ v, Strict (writeByte v) := fun v => Strict.write _ _
  have wu : ∀ v, Strict (writeUvarint v) := fun v => Strict.write _ _
  have wstr : ∀ v, Strict (writeString v) := fun v => Strict.bind (wu _) fun _ => Strict.write _ _
  have wapp : ∀ n r, Strict (appendWrite n r) := fun n r =>
    Strict.bind (Strict.ensure _) fun _ => Strict.bind (Strict.ofExcept _) fun _ => Strict.write _ _
  have wh : ∀ h v, Strict (writeFieldHeader h v) := fun h v =>
    Strict.bind Strict.get fun c => Strict.bind (wapp _ _) fun _ => Strict.bind Strict.get fun _ => Strict.set _
  cases o with
  | messageBegin h =>
    exact Strict.bind (wb _) fun _ => Strict.bind (wb _) fun _ => Strict.bind (wu _) fun _ => wstr _
  | structBegin _ => exact Strict.bind Strict.get fun _ => Strict.set _
  | structEnd =>
    refine Strict.bind Strict.get fun c => ?_
    cases c.ids with
    | nil => exact Strict.fail _
    | cons id ids => exact Strict.bind (Strict.set _) fun _ => wb _
  | fieldBegin h =>
    refine Strict.ite ?_ (wh _ _)
    exact Strict.bind Strict.get fun c => Strict.set _
  | mapBegin h | setBegin h | listBegin h => exact wapp _ _
  | bool v =>
    refine Strict.bind Strict.get fun c => Strict.ite ?_ (Strict.ite (wb _) (wb _))
    exact Strict.bind (wh _ _) fun _ => Strict.bind Strict.get fun _ => Strict.set _
  | string v => exact wstr v
  | bytes v => exact Strict.bind (wu _) fun _ => Strict.write _ _
  | byte | double | i16 | i32 | i64 | uuid => exact Strict.write _ _
  | _ => exact Strict.ok ()

/-- The ideal writer of a method table. -/
def idealWtr {C : Type} (impl : WOp → WM C Unit) : Wtr (C × Bytes) where
  step o s := let r := (impl o).ideal s.1; .done (errOf r.1.1, (r.1.2, s.2 ++ r.2))

theorem idealWtr_binary (strict : Bool) : idealWtr (Binary.wimpl strict) = Binary.writer strict := rfl
theorem idealWtr_compact : idealWtr Compact.wimpl = Compact.writer := rfl

namespace PW
variable {C σ : Type} {T : Transport σ} {impl : WOp → WM C Unit}

/-- The real writer against the ideal one. -/
structure Tracks (x : PW C σ) (s : C × Bytes) : Prop where
  good : x.b.Good s.2
  same : x.b.err = none → x.c = s.1

theorem flush_spec (hT : T.Honest) {x : PW C σ} {s : C × Bytes} (h : Tracks x s) :
    ∃ e x', x.flush T = (e, x') ∧ Tracks x' s ∧ x'.b.size = x.b.size ∧ x'.uw = x.uw ∧
      (e = none → x'.b.sent = s.2 ∧ x'.b.buf = [] ∧ x'.b.err = none ∧
        ∃ wr0, (T.isFlusher wr0 = true ∧ x.uw = true → T.flush wr0 = (none, x'.b.wr)) ∧
          (¬ (T.isFlusher wr0 = true ∧ x.uw = true) → x'.b.wr = wr0) ∧ (x.b.flush T).2.wr = wr0) ∧
      (∀ e', x.b.err = some e' → e = some e' ∧ x' = x) := by
  obtain ⟨e1, b1, h1, h2, h3, h4, h5, h6⟩ := BufWriter.flush_spec hT h.good
  unfold PW.flush
  rw [h1]
  cases e1 with
  | some e =>
    refine ⟨some e, { x with b := b1 }, rfl, ⟨h3, fun hn => ?_⟩, h4, rfl, (fun hc => by cases hc), fun e' he' => ?_⟩
    · simp only at hn; rw [hn] at h2; cases h2
    · have := h6 e' he'
      subst this
      rw [he'] at h2
      exact ⟨h2, rfl⟩
  | none =>
    obtain ⟨g1, g2⟩ := h5 rfl
    have hbn : x.b.err = none := by
      cases hb : x.b.err with
      | none => rfl
      | some e => have := h6 e hb; rw [this, hb] at h2; cases h2
    have hx : ∀ e', x.b.err = some e' → False := fun e' he' => by rw [hbn] at he'; cases he'
    dsimp only
    unfold flushTransport
    dsimp only
    by_cases hu : x.uw = true ∧ T.isFlusher b1.wr = true
    · rw [if_pos hu]
      refine ⟨(T.flush b1.wr).1, _, rfl, ⟨⟨h3.pos, h3.ok, h3.bad⟩, fun _ => h.same hbn⟩, h4, rfl, fun hn => ⟨g2, g1, h2.symm, b1.wr, ?_, ?_, rfl⟩,
        fun e' he' => (hx e' he').elim⟩
      · intro _; exact Prod.ext hn rfl
      · intro hc; exact absurd ⟨hu.2, hu.1⟩ hc
    · rw [if_neg hu]
      refine ⟨none, _, rfl, ⟨h3, fun _ => h.same hbn⟩, h4, rfl, fun _ => ⟨g2, g1, h2.symm, b1.wr, ?_, fun _ => rfl, rfl⟩,
        fun e' he' => (hx e' he').elim⟩
      intro hc; exact absurd ⟨hc.2, hc.1⟩ hu

theorem op_spec (hT : T.Honest) (o : WOp) {x : PW C σ} {s : C × Bytes} (h : Tracks x s) :
    ∃ e x', x.step T impl (.op o) = .done (e, x') ∧
      Tracks x' (((impl o).ideal s.1).1.2, s.2 ++ ((impl o).ideal s.1).2) ∧ x'.b.size = x.b.size ∧ x'.uw = x.uw ∧
      (x'.b.err = none → e = errOf ((impl o).ideal s.1).1.1) ∧ (∀ e', x.b.err = some e' → x'.b = x.b) := by
  obtain ⟨a, b', h1, h2, h3, h4⟩ := BWProg.runBuf_spec T hT ((impl o) x.c) x.b s.2 h.good
  rw [PW.step, h1, Out.bind_done]
  cases hb : x.b.err with
  | none =>
    have hc := h.same hb
    rw [hc] at h2 h4
    refine ⟨_, _, rfl, ⟨h2, fun hn => ?_⟩, h3, rfl, fun hn => ?_, fun _ h' => by cases h'⟩
    · exact congrArg Prod.snd (h4 hn)
    · exact congrArg (fun r => errOf r.1) (h4 hn)
  | some e =>
    obtain ⟨a', ha⟩ := BWProg.runBuf_failed T hT ((impl o) x.c) x.b s.2 h.good e hb
    rw [h1] at ha
    obtain ⟨rfl, rfl⟩ : a = a' ∧ b' = x.b := by injection ha with ha; exact ⟨congrArg Prod.fst ha, congrArg Prod.snd ha⟩
    refine ⟨_, _, rfl, ⟨h.good.mono e hb _, fun hn => ?_⟩, rfl, rfl, fun hn => ?_, fun _ _ => rfl⟩
    all_goals simp only at hn; rw [hb] at hn; cases hn

/-- Any calls. -/
theorem run_spec (hT : T.Honest) : ∀ (cs : List WCall) (x : PW C σ) (s : C × Bytes), Tracks x s →
    ∃ as x' as' s', PW.run T impl cs x = .done (as, x') ∧ ideal (idealWtr impl) cs s = .done (as', s') ∧ Tracks x' s' ∧
      x'.b.size = x.b.size ∧ x'.uw = x.uw ∧ (∀ e, x.b.err = some e → x'.b = x.b) ∧
      (x'.b.err = none → opAnswers cs as = opAnswers cs as') := by
  intro cs
  induction cs with
  | nil => intro x s h; exact ⟨[], x, [], s, rfl, rfl, h, rfl, rfl, fun _ _ => rfl, fun _ => rfl⟩
  | cons c cs ih =>
    intro x s h
    cases c with
    | flush =>
      obtain ⟨e, x1, h1, h2, h3, h4, _, h6⟩ := flush_spec hT h
      obtain ⟨as, x', as', s', g1, g2, g3, g4, g5, g6, g7⟩ := ih x1 s h2
      refine ⟨e :: as, x', none :: as', s', ?_, ?_, g3, g4.trans h3, g5.trans h4, fun e' he' => ?_, g7⟩
      · rw [PW.run, PW.step, h1, Out.bind_done, g1]; rfl
      · rw [ideal, g2]; rfl
      · have := (h6 e' he').2; subst this; exact g6 e' he'
    | op o =>
      obtain ⟨e, x1, h1, h2, h3, h4, h5, h6⟩ := op_spec (impl := impl) hT o h
      obtain ⟨as, x', as', s', g1, g2, g3, g4, g5, g6, g7⟩ := ih x1 _ h2
      refine ⟨e :: as, x', errOf ((impl o).ideal s.1).1.1 :: as', s', ?_, ?_, g3, g4.trans h3, g5.trans h4, fun e' he' => ?_, fun hn => ?_⟩
      · rw [PW.run, h1, Out.bind_done, g1]; rfl
      · rw [ideal]
        simp only [idealWtr, Out.bind_done] at g2 ⊢
        rw [g2]; rfl
      · have := h6 e' he'; rw [← this]; exact g6 e' (by rw [this]; exact he')
      · have : x1.b.err = none := by
          cases hx : x1.b.err with
          | none => rfl
          | some e' => rw [g6 e' hx, hx] at hn; cases hn
        rw [opAnswers, opAnswers, h5 this, g7 hn]

theorem _root_.GoThrift.Spec.ideal_append {S : Type} (w : Wtr S) : ∀ (cs ds : List WCall) (s : S) as s', ideal w cs s = .done (as, s') →
    ideal w (cs ++ ds) s = (ideal w ds s').bind fun q => .done (as ++ q.1, q.2) := by
  intro cs
  induction cs with
  | nil =>
    intro ds s as s' h
    cases h
    show ideal w ds s = _
    cases ideal w ds s <;> rfl
  | cons c cs ih =>
    intro ds s as s' h
    cases c with
    | flush =>
      rw [ideal] at h
      rw [List.cons_append, ideal]
      cases h1 : ideal w cs s with
      | done q =>
        rw [h1] at h; cases h
        rw [ih ds s q.1 q.2 h1]
        cases ideal w ds q.2 <;> rfl
      | blocked => rw [h1] at h; cases h
      | diverged => rw [h1] at h; cases h
      | panicked => rw [h1] at h; cases h
    | op o =>
      rw [ideal] at h
      rw [List.cons_append, ideal]
      cases h0 : w.step o s with
      | done r =>
        rw [h0, Out.bind_done] at h
        rw [Out.bind_done]
        cases h1 : ideal w cs r.2 with
        | done q =>
          rw [h1] at h; cases h
          rw [ih ds r.2 q.1 q.2 h1]
          cases ideal w ds q.2 <;> rfl
        | blocked => rw [h1] at h; cases h
        | diverged => rw [h1] at h; cases h
        | panicked => rw [h1] at h; cases h
      | blocked => rw [h0] at h; cases h
      | diverged => rw [h0] at h; cases h
      | panicked => rw [h0] at h; cases h

/-- Any history with resets. `c0` are the fields of a new writer. -/
theorem events_spec (hT : T.Honest) (reset : PW C σ → σ → PW C σ) (c0 : C)
    (hreset : ∀ x w, 0 < x.b.size → Tracks (reset x w) (c0, []) ∧ (reset x w).b.size = x.b.size) :
    ∀ (es : List (Event σ)) (x : PW C σ) (cs : List WCall) (as : List (Option Err)) (s : C × Bytes), Tracks x s →
      ideal (idealWtr impl) cs (c0, []) = .done (as, s) →
    ∃ x' as' s', runEvents T impl reset es x = .done x' ∧ ideal (idealWtr impl) (sinceReset es cs) (c0, []) = .done (as', s') ∧ Tracks x' s' ∧
      x'.b.size = x.b.size ∧ ((∀ x w, (reset x w).uw = true) → x.uw = true → x'.uw = true) := by
  intro es
  induction es with
  | nil => intro x cs as s h hi; exact ⟨x, as, s, rfl, hi, h, rfl, fun _ h => h⟩
  | cons e es ih =>
    intro x cs as s h hi
    cases e with
    | reset w =>
      obtain ⟨h1, h2⟩ := hreset x w h.good.pos
      obtain ⟨x', as', s', g1, g2, g3, g4, g5⟩ := ih (reset x w) [] [] (c0, []) h1 rfl
      exact ⟨x', as', s', g1, g2, g3, g4.trans h2, fun hu _ => g5 hu (hu x w)⟩
    | call c =>
      obtain ⟨as1, x1, as2, s2, g1, g2, g3, g4, g5, _⟩ := run_spec (impl := impl) hT [c] x s h
      rw [PW.run] at g1
      have hstep : ∃ a, x.step T impl c = .done (a, x1) := by
        cases hs : x.step T impl c with
        | done r => rw [hs] at g1; simp only [PW.run, Out.bind_done] at g1; cases g1; exact ⟨r.1, rfl⟩
        | blocked => rw [hs] at g1; cases g1
        | diverged => rw [hs] at g1; cases g1
        | panicked => rw [hs] at g1; cases g1
      obtain ⟨a, hstep⟩ := hstep
      obtain ⟨x', as', s', k1, k2, k3, k4, k5⟩ := ih x1 (cs ++ [c]) (as ++ as2) s2 g3 (by rw [ideal_append _ _ _ _ _ _ hi, g2]; rfl)
      refine ⟨x', as', s', ?_, k2, k3, k4.trans g4, fun hu hx => k5 hu (g5.trans hx)⟩
      rw [runEvents, hstep, Out.bind_done]
      exact k1

/-- An idle `bufio.Writer` tracks the ideal writer. -/
theorem tracks_new (size : Nat) (hsize : 0 < size) (w : σ) (c : C) (uw : Bool) : Tracks (⟨c, .new size w, uw⟩ : PW C σ) (c, []) :=
  ⟨⟨hsize, fun _ => rfl, fun e h => by cases h⟩, fun _ => rfl⟩

end PW

end GoThrift
