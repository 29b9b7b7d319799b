import Verif.Model.MemoryW
import Verif.Proof.BE
import Verif.Proof.Varint
import Verif.Proof.Bufio

/-!
# The array of a `bufio.Writer` behaves as the buffered bytes as a value
-/

namespace GoThrift.Mem

namespace WMem
variable {σ : Type} {T : Transport σ}

/-- The part `buf[:n]` is one; the scratch array has at least `N` bytes. -/
structure OK (N : Nat) (m : WMem σ) : Prop where
  le : m.b.n ≤ m.b.buf.length
  pos : 0 < m.b.buf.length
  room : N ≤ m.scratch.length

/-- What `Verif/Model/BufWriter.lean` keeps of it. -/
def abs (m : WMem σ) : BufWriter σ := ⟨m.b.buf.length, m.b.buf.take m.b.n, m.b.err, m.b.wr, m.b.sent⟩

/-- The two are related. -/
def Rel {α : Type} (N : Nat) (x : α × WMem σ) (y : α × BufWriter σ) : Prop := x.1 = y.1 ∧ x.2.OK N ∧ x.2.abs = y.2

theorem abs_len {N : Nat} {m : WMem σ} (h : m.OK N) : m.abs.buf.length = m.b.n := by
  have := h.le
  simp only [abs, List.length_take]
  omega

theorem abs_available {N : Nat} {m : WMem σ} (h : m.OK N) : m.abs.available = m.available := by
  unfold BufWriter.available available
  rw [abs_len h]
  rfl

theorem store_length {m : WMem σ} {lo : Nat} {p : Bytes} (h : lo ≤ m.b.buf.length) : (m.store lo p).b.buf.length = m.b.buf.length := by
  simp only [store, List.length_append, List.length_take, List.length_drop]
  omega

theorem store_take {m : WMem σ} {lo k : Nat} {p : Bytes} (h : lo ≤ m.b.buf.length) (hk : k ≤ p.length) (hk' : k ≤ m.b.buf.length - lo) :
    (m.store lo p).b.buf.take (lo + k) = m.b.buf.take lo ++ p.take k := by
  simp only [store]
  rw [List.append_assoc, List.take_append, List.take_append, List.length_take, Nat.min_eq_left h, Nat.add_sub_cancel_left,
    List.length_take, List.take_take, List.take_take]
  have h1 : min (lo + k) lo = lo := by omega
  have h2 : min k (m.b.buf.length - lo) = k := by omega
  have h3 : k - min (m.b.buf.length - lo) p.length = 0 := by omega
  rw [h1, h2, h3, List.take_zero, List.append_nil]

theorem flush_spec {N : Nat} {m : WMem σ} (hT : T.Honest) (h : m.OK N) : Rel N (m.flush T) (m.abs.flush T) := by
  have hle := h.le
  have hlen := abs_len h
  unfold flush BufWriter.flush
  have he : m.abs.err = m.b.err := rfl
  rw [he]
  cases hb : m.b.err with
  | some e => exact ⟨rfl, h, rfl⟩
  | none =>
    dsimp only
    rw [hlen]
    by_cases hn : m.b.n = 0
    · rw [if_pos hn, if_pos hn]; exact ⟨rfl, h, rfl⟩
    · rw [if_neg hn, if_neg hn]
      have hp : m.load (.arr 0 m.b.n) = m.abs.buf := rfl
      have hw : m.abs.wr = m.b.wr := rfl
      rw [hp, hw]
      have hk : (T.write m.b.wr m.abs.buf).1.1 ≤ m.b.n := by
        have := hT.write_le m.b.wr m.abs.buf
        omega
      generalize T.write m.b.wr m.abs.buf = r at hk
      obtain ⟨⟨k, e⟩, s⟩ := r
      dsimp only at hk ⊢
      cases (if k < m.b.n ∧ e = none then some Err.shortWrite else e) with
      | none => exact ⟨rfl, ⟨Nat.zero_le _, h.pos, h.room⟩, by simp only [abs, List.take_zero, hb]⟩
      | some e' =>
        dsimp only
        by_cases hc : k > 0 ∧ k < m.b.n
        · rw [if_pos hc]
          have hl : ∀ m1 : WMem σ, m1.b.buf = m.b.buf → ∀ p, (m1.store 0 p).b.buf.length = m.b.buf.length := by
            intro m1 h1 p
            rw [store_length (Nat.zero_le _), h1]
          refine ⟨rfl, ⟨?_, ?_, h.room⟩, ?_⟩
          · exact Nat.le_trans (by omega : m.b.n - k ≤ m.b.buf.length)
              (Nat.le_of_eq (hl ⟨⟨m.b.buf, m.b.n, m.b.err, s, m.b.sent ++ m.abs.buf.take k⟩, m.scratch⟩ rfl _).symm)
          · exact Nat.lt_of_lt_of_eq h.pos
              (hl ⟨⟨m.b.buf, m.b.n, m.b.err, s, m.b.sent ++ m.abs.buf.take k⟩, m.scratch⟩ rfl _).symm
          · have hld : ((m.b.buf.take m.b.n).drop k).length = m.b.n - k := by
              simp only [List.length_drop, List.length_take]; omega
            have ht := store_take (m := { m with b := { m.b with wr := s, sent := m.b.sent ++ m.abs.buf.take k } }) (lo := 0) (k := m.b.n - k)
              (p := (m.b.buf.take m.b.n).drop k) (Nat.zero_le _) (by omega) (by show m.b.n - k ≤ m.b.buf.length - 0; omega)
            rw [Nat.zero_add, List.take_zero, List.nil_append, List.take_of_length_le (by omega : ((m.b.buf.take m.b.n).drop k).length ≤ m.b.n - k)] at ht
            simp only [abs]
            congr 1
            exact hl _ rfl _
        · rw [if_neg hc]
          refine ⟨rfl, ⟨by show m.b.n - k ≤ m.b.buf.length; omega, h.pos, h.room⟩, ?_⟩
          simp only [abs]
          congr 1
          by_cases h0 : k = 0
          · subst h0; rw [Nat.sub_zero, List.drop_zero]
          · have : k = m.b.n := by omega
            subst this
            rw [Nat.sub_self, List.take_zero, List.drop_eq_nil_of_le (by simp only [List.length_take]; omega)]

/-- The flush leaves the scratch array alone. -/
theorem flush_scratch (m : WMem σ) : (m.flush T).2.scratch = m.scratch := by
  unfold flush
  cases m.b.err with
  | some e => rfl
  | none =>
    dsimp only
    split
    · rfl
    · split
      · split <;> rfl
      · rfl

/-- Not a slice of the array of the writer. -/
def _root_.GoThrift.Mem.Src.Stable : Src → Prop
  | .arr _ _ => False
  | _ => True

theorem _root_.GoThrift.Mem.Src.Stable.drop {s : Src} (h : s.Stable) (k : Nat) : (s.drop k).Stable := by
  cases s with
  | own p => trivial
  | scratch lo hi => trivial
  | arr lo hi => exact h

theorem load_drop (m : WMem σ) (s : Src) (k : Nat) : m.load (s.drop k) = (m.load s).drop k := by
  cases s <;> simp only [load, Src.drop, List.drop_drop]

theorem load_stable {m m' : WMem σ} {s : Src} (h : s.Stable) (hm : m'.scratch = m.scratch) : m'.load s = m.load s := by
  cases s with
  | own p => rfl
  | scratch lo hi => simp only [load, hm]
  | arr lo hi => exact h.elim

/-- The last round of `Write`. -/
theorem store_rest {N : Nat} {m : WMem σ} (h : m.OK N) {p : Bytes} {k : Nat} (hk : k ≤ p.length) (hk' : k ≤ m.available) (e : Option Err) :
    ({ m.store m.b.n p with b := { (m.store m.b.n p).b with n := m.b.n + k, err := e } } : WMem σ).OK N ∧
    ({ m.store m.b.n p with b := { (m.store m.b.n p).b with n := m.b.n + k, err := e } } : WMem σ).abs =
      ⟨m.abs.size, m.abs.buf ++ p.take k, e, m.abs.wr, m.abs.sent⟩ := by
  have hle := h.le
  have hl : (m.store m.b.n p).b.buf.length = m.b.buf.length := store_length hle
  have ht := store_take (p := p) (k := k) hle hk hk'
  unfold available at hk'
  refine ⟨⟨?_, ?_, h.room⟩, ?_⟩
  · show m.b.n + k ≤ (m.store m.b.n p).b.buf.length
    omega
  · show 0 < (m.store m.b.n p).b.buf.length
    have := h.pos
    omega
  · show (⟨(m.store m.b.n p).b.buf.length, (m.store m.b.n p).b.buf.take (m.b.n + k), e, m.b.wr, m.b.sent⟩ : BufWriter σ) = _
    rw [hl, ht]
    rfl

theorem writeLoop_spec {N : Nat} (hT : T.Honest) (direct : σ → Bool) (put : σ → Bytes → (Nat × Option Err) × σ) :
    ∀ (fuel : Nat) (s : Src) (m : WMem σ), s.Stable → m.OK N →
      OutRel (Rel N) (writeLoop T direct put fuel s m) (BufWriter.writeLoop T direct put fuel (m.load s) m.abs)
  | 0, _, _, _, _ => trivial
  | fuel + 1, s, m, hs, h => by
    have hle := h.le
    have next : ∀ (k : Nat) (m' : WMem σ), m'.OK N → m'.scratch = m.scratch →
        OutRel (Rel N) (writeLoop T direct put fuel (s.drop k) m') (BufWriter.writeLoop T direct put fuel (m.load (s.drop k)) m'.abs) := by
      intro k m' hok hm
      rw [← load_stable (hs.drop k) hm]
      exact writeLoop_spec hT direct put fuel (s.drop k) m' (hs.drop k) hok
    unfold writeLoop BufWriter.writeLoop
    rw [abs_available h, abs_len h]
    have he : m.abs.err = m.b.err := rfl
    have hw : m.abs.wr = m.b.wr := rfl
    dsimp only
    rw [he, hw]
    by_cases hc : (m.load s).length > m.available ∧ m.b.err = none
    · rw [if_pos hc, if_pos hc]
      by_cases hd : m.b.n = 0 ∧ direct m.b.wr = true
      · rw [if_pos hd, if_pos hd, ← load_drop]
        exact next _ ⟨⟨m.b.buf, m.b.n, (put m.b.wr (m.load s)).1.2, (put m.b.wr (m.load s)).2,
          m.b.sent ++ (m.load s).take (put m.b.wr (m.load s)).1.1⟩, m.scratch⟩ ⟨h.le, h.pos, h.room⟩ rfl
      · rw [if_neg hd, if_neg hd, ← load_drop]
        obtain ⟨h1, h2⟩ := store_rest h (p := m.load s) (k := min m.available (m.load s).length) (by omega) (by omega) m.b.err
        obtain ⟨f1, f2, f3⟩ := flush_spec hT h1
        have hscr : ∀ m1 : WMem σ, m1.scratch = m.scratch → (m1.flush T).2.scratch = m.scratch := fun m1 h => (flush_scratch m1).trans h
        have := next (min m.available (m.load s).length) _ f2 (hscr _ rfl)
        rw [f3, h2] at this
        exact this
    · rw [if_neg hc, if_neg hc]
      cases hb : m.b.err with
      | some e => exact ⟨rfl, h, rfl⟩
      | none =>
        have hk : (m.load s).length ≤ m.available := by
          have : ¬ (m.load s).length > m.available := fun h' => hc ⟨h', hb⟩
          omega
        obtain ⟨h1, h2⟩ := store_rest h (p := m.load s) (k := (m.load s).length) (Nat.le_refl _) hk m.b.err
        rw [List.take_length] at h2
        exact ⟨rfl, h1, h2.trans (by rw [hb]; rfl)⟩

/-- A slice right after the buffered bytes, as `AvailableBuffer` and appending give it. -/
theorem write_available {N : Nat} {m : WMem σ} {hi : Nat} (h : m.OK N) (hlo : m.b.n ≤ hi) (hhi : hi ≤ m.b.buf.length) :
    OutRel (Rel N) (m.write T .bytes (.arr m.b.n hi)) (m.abs.put T .bytes (m.load (.arr m.b.n hi))) := by
  have hlen : (m.load (.arr m.b.n hi)).length = hi - m.b.n := by
    simp only [load, List.length_drop, List.length_take]; omega
  have hk : (m.load (.arr m.b.n hi)).length ≤ m.available := by
    unfold available
    omega
  show OutRel _ (writeLoop T _ _ _ _ m) (BufWriter.writeLoop T _ _ _ _ m.abs)
  unfold writeLoop BufWriter.writeLoop
  dsimp only
  rw [abs_available h]
  have he : m.abs.err = m.b.err := rfl
  have hno : ¬ ((m.load (.arr m.b.n hi)).length > m.available ∧ m.b.err = none) := by omega
  rw [he, if_neg hno, if_neg hno]
  cases hb : m.b.err with
  | some e => exact ⟨rfl, h, rfl⟩
  | none =>
    obtain ⟨h1, h2⟩ := store_rest h (p := m.load (.arr m.b.n hi)) (k := (m.load (.arr m.b.n hi)).length) (Nat.le_refl _) hk m.b.err
    rw [List.take_length] at h2
    exact ⟨rfl, h1, h2.trans (by rw [hb])⟩

theorem writeByte_spec {N : Nat} (hT : T.Honest) {m : WMem σ} (h : m.OK N) (v : Byte) :
    OutRel (Rel N) (m.writeByte T (.own [v])) (m.abs.writeByte T [v]) := by
  unfold writeByte BufWriter.writeByte
  have he : m.abs.err = m.b.err := rfl
  rw [he]
  cases hb : m.b.err with
  | some e => exact ⟨rfl, h, rfl⟩
  | none =>
    dsimp only
    rw [abs_available h]
    by_cases ha : m.available ≤ 0
    · rw [if_pos ha, if_pos ha]
      have hf := flush_spec hT h
      have hroom : (m.flush T).1 = none → 1 ≤ (m.flush T).2.available := by
        intro hn
        unfold flush at hn ⊢
        rw [hb] at hn ⊢
        dsimp only at hn ⊢
        by_cases h0 : m.b.n = 0
        · have := h.pos
          unfold available at ha
          omega
        · rw [if_neg h0] at hn ⊢
          split at hn
          · cases hn
          · rename_i hq
            have := h.pos
            show 1 ≤ m.b.buf.length - 0
            omega
      generalize m.flush T = r at hf hroom
      generalize m.abs.flush T = r' at hf
      obtain ⟨e, m'⟩ := r
      obtain ⟨e', y⟩ := r'
      obtain ⟨h1, h2, h3⟩ := hf
      cases h1
      dsimp only at h2 h3 hroom ⊢
      subst h3
      cases e with
      | some e => exact ⟨rfl, h2, rfl⟩
      | none =>
        obtain ⟨h4, h5⟩ := store_rest h2 (p := [v]) (k := 1) (Nat.le_refl _) (hroom rfl) m'.b.err
        exact ⟨rfl, h4, h5⟩
    · rw [if_neg ha, if_neg ha]
      obtain ⟨h4, h5⟩ := store_rest h (p := [v]) (k := 1) (Nat.le_refl _) (by omega) m.b.err
      exact ⟨rfl, h4, h5.trans (by rw [hb]; rfl)⟩

theorem ensure_spec {N : Nat} (hT : T.Honest) {m : WMem σ} (h : m.OK N) (n : Nat) : Rel N (m.ensure T n) (m.abs.ensure T n) := by
  unfold ensure BufWriter.ensure
  rw [abs_available h]
  by_cases hc : m.available ≥ n
  · rw [if_pos hc, if_pos hc]; exact ⟨rfl, h, rfl⟩
  · rw [if_neg hc, if_neg hc]; exact flush_spec hT h

end WMem

open WMem

variable {σ : Type}

theorem MWProg.run_bind {α β : Type} (T : Transport σ) (p : MWProg α) (f : α → MWProg β) (m : WMem σ) :
    (p.bind f).run T m = (p.run T m).bind fun x => (f x.1).run T x.2 := by
  induction p generalizing m <;> simp_all [MWProg.bind, MWProg.run, Out.bind_assoc]

theorem BWProg.runBuf_bind {α β : Type} (T : Transport σ) (p : BWProg α) (f : α → BWProg β) (b : BufWriter σ) :
    (p.bind f).runBuf T b = (p.runBuf T b).bind fun x => (f x.1).runBuf T x.2 := by
  induction p generalizing b <;> simp_all [BWProg.bind, BWProg.runBuf, Out.bind_assoc]

/-- The program with slices does what the program with bytes does. -/
def SameW {α : Type} (N : Nat) (p : MWProg α) (q : BWProg α) : Prop :=
  ∀ (σ : Type) (T : Transport σ), T.Honest → ∀ m : WMem σ, m.OK N → OutRel (Rel N) (p.run T m) (q.runBuf T m.abs)

theorem SameW.ret {α : Type} {N : Nat} (a : α) : SameW N (.ret a) (.ret a) := fun _ _ _ _ h => ⟨rfl, h, rfl⟩

theorem SameW.bind {α β : Type} {N : Nat} {p : MWProg α} {q : BWProg α} {f : α → MWProg β} {g : α → BWProg β} (h : SameW N p q)
    (hf : ∀ a, SameW N (f a) (g a)) : SameW N (p.bind f) (q.bind g) := by
  intro σ T hT m hm
  rw [MWProg.run_bind, BWProg.runBuf_bind]
  refine (h σ T hT m hm).bind ?_
  rintro ⟨x, m'⟩ ⟨y, c⟩ ⟨h1, h2, h3⟩
  cases h1
  dsimp only at h3 h2 ⊢
  subst h3
  exact hf _ σ T hT m' h2

/-- From the memory after a write. -/
theorem SameW.after {α : Type} {N : Nat} {f : Option Err → MWProg α} {g : Option Err → BWProg α} (hf : ∀ e, SameW N (f e) (g e)) {T : Transport σ}
    (hT : T.Honest) {x : Out (Option Err × WMem σ)} {y : Out (Option Err × BufWriter σ)} (h : OutRel (Rel N) x y) :
    OutRel (Rel N) (x.bind fun r => (f r.1).run T r.2) (y.bind fun r => (g r.1).runBuf T r.2) := by
  refine h.bind ?_
  rintro ⟨x, m'⟩ ⟨y, c⟩ ⟨h1, h2, h3⟩
  cases h1
  dsimp only at h3 h2 ⊢
  subst h3
  exact hf _ σ T hT m' h2

theorem SameW.write {α : Type} {N : Nat} (kind : WKind) (p : Bytes) (hk : kind = .byte → ∃ v, p = [v]) {f : Option Err → MWProg α}
    {g : Option Err → BWProg α} (hf : ∀ e, SameW N (f e) (g e)) : SameW N (.write kind (.own p) f) (.write kind p g) := by
  intro σ T hT m hm
  refine SameW.after hf hT ?_
  cases kind with
  | bytes => exact writeLoop_spec hT _ _ _ (.own p) m trivial hm
  | string => exact writeLoop_spec hT _ _ _ (.own p) m trivial hm
  | byte =>
    obtain ⟨v, rfl⟩ := hk rfl
    exact writeByte_spec hT hm v

theorem SameW.number {α : Type} {N : Nat} (p : Bytes) (hp : p.length ≤ N) {f : Option Err → MWProg α}
    {g : Option Err → BWProg α} (hf : ∀ e, SameW N (f e) (g e)) :
    SameW N (.put p (.write .bytes (.scratch 0 p.length) f)) (.write .bytes p g) := by
  intro σ T hT m hm
  have hr := hm.room
  unfold MWProg.run WMem.put
  rw [if_pos (by omega), Out.bind_done]
  refine SameW.after hf hT ?_
  have hl : ({ m with scratch := p ++ m.scratch.drop p.length } : WMem σ).load (.scratch 0 p.length) = p := by
    simp only [load, List.take_left', List.drop_zero]
  have := writeLoop_spec (N := N) hT (fun _ => true) T.write (p.length + 3) (.scratch 0 p.length) { m with scratch := p ++ m.scratch.drop p.length } trivial
    ⟨hm.le, hm.pos, by simp only [List.length_append, List.length_drop]; omega⟩
  rw [hl] at this
  unfold WMem.write
  dsimp only
  rw [hl]
  exact this

theorem SameW.ensure {α : Type} {N : Nat} (n : Nat) {f : Option Err → MWProg α} {g : Option Err → BWProg α} (hf : ∀ e, SameW N (f e) (g e)) :
    SameW N (.ensure n f) (.ensure n g) := by
  intro σ T hT m hm
  obtain ⟨h1, h2, h3⟩ := ensure_spec hT hm n
  show OutRel (Rel N) ((f (m.ensure T n).1).run T (m.ensure T n).2) ((g (m.abs.ensure T n).1).runBuf T (m.abs.ensure T n).2)
  rw [← h1, ← h3]
  exact hf _ σ T hT _ h2

/-- Appending to `AvailableBuffer()`: the bytes are right after the buffered ones, or in new memory, and nothing that is buffered changes. -/
theorem appendAll_spec {C : Type} {N : Nat} (T : Transport σ) : ∀ (p : Bytes) (s : Src) (m : WMem σ) (k : Src → MWProg (Except Err Unit × C)) (acc : Bytes),
    m.OK N → m.load s = acc → ((∃ hi, s = .arr m.b.n hi ∧ m.b.n ≤ hi ∧ hi ≤ m.b.buf.length) ∨ s.Stable) →
    ∃ (s' : Src) (m' : WMem σ), (MWM.appendAll p s k).run T m = (k s').run T m' ∧ m'.OK N ∧ m'.abs = m.abs ∧ m'.load s' = acc ++ p ∧
      ((∃ hi, s' = .arr m'.b.n hi ∧ m'.b.n ≤ hi ∧ hi ≤ m'.b.buf.length) ∨ s'.Stable)
  | [], s, m, k, acc, h, hl, hs => ⟨s, m, rfl, h, rfl, by rw [hl, List.append_nil], hs⟩
  | c :: cs, s, m, k, acc, h, hl, hs => by
    have step : ∀ (s' : Src) (m' : WMem σ), m.append s c = (s', m') → m'.OK N → m'.abs = m.abs → m'.load s' = acc ++ [c] →
        ((∃ hi, s' = .arr m'.b.n hi ∧ m'.b.n ≤ hi ∧ hi ≤ m'.b.buf.length) ∨ s'.Stable) →
        ∃ (s'' : Src) (m'' : WMem σ), (MWM.appendAll (c :: cs) s k).run T m = (k s'').run T m'' ∧ m''.OK N ∧ m''.abs = m.abs ∧
          m''.load s'' = acc ++ (c :: cs) ∧ ((∃ hi, s'' = .arr m''.b.n hi ∧ m''.b.n ≤ hi ∧ hi ≤ m''.b.buf.length) ∨ s''.Stable) := by
      intro s' m' ha hok habs hload hs'
      obtain ⟨s'', m'', g1, g2, g3, g4, g5⟩ := appendAll_spec T cs s' m' k (acc ++ [c]) hok hload hs'
      refine ⟨s'', m'', ?_, g2, g3.trans habs, by rw [g4, List.append_assoc]; rfl, g5⟩
      show (MWProg.run T (MWM.appendAll cs (m.append s c).1 k) (m.append s c).2) = _
      rw [ha]
      exact g1
    rcases hs with ⟨hi, rfl, h1, h2⟩ | hs
    · by_cases hlt : hi < m.b.buf.length
      · have hlen : (m.store hi [c]).b.buf.length = m.b.buf.length := store_length h2
        have ht := store_take (m := m) (lo := hi) (k := 1) (p := [c]) h2 (Nat.le_refl _) (by omega)
        have ht' : (m.store hi [c]).b.buf.take (hi + 1) = m.b.buf.take hi ++ [c] := ht
        refine step (.arr m.b.n (hi + 1)) (m.store hi [c]) (by simp only [WMem.append, if_pos hlt]) ⟨?_, ?_, h.room⟩ ?_ ?_ ?_
        · show m.b.n ≤ (m.store hi [c]).b.buf.length
          omega
        · rw [hlen]; exact h.pos
        · show (⟨(m.store hi [c]).b.buf.length, (m.store hi [c]).b.buf.take m.b.n, m.b.err, m.b.wr, m.b.sent⟩ : BufWriter σ) = _
          rw [hlen]
          have : (m.store hi [c]).b.buf.take m.b.n = m.b.buf.take m.b.n := by
            have := congrArg (List.take m.b.n) ht'
            rw [List.take_take, Nat.min_eq_left (by omega), List.take_append_of_le_length (by simp only [List.length_take]; omega), List.take_take,
              Nat.min_eq_left h1] at this
            exact this
          rw [this]
          rfl
        · show ((m.store hi [c]).b.buf.take (hi + 1)).drop m.b.n = acc ++ [c]
          rw [ht', List.drop_append_of_le_length (by simp only [List.length_take]; omega)]
          have : (m.b.buf.take hi).drop m.b.n = acc := hl
          rw [this]
        · exact .inl ⟨hi + 1, rfl, by show m.b.n ≤ hi + 1; omega, by show hi + 1 ≤ (m.store hi [c]).b.buf.length; omega⟩
      · exact step (.own (acc ++ [c])) m (by simp only [WMem.append, if_neg hlt, hl]) h rfl rfl (.inr trivial)
    · refine step (.own (acc ++ [c])) m ?_ h rfl rfl (.inr trivial)
      cases s with
      | own q => simp only [WMem.append, hl]
      | scratch lo hi => simp only [WMem.append, hl]
      | arr lo hi => exact hs.elim

/-- Same for methods. -/
def SameWM {C α : Type} (N : Nat) (m : MWM C α) (p : WM C α) : Prop := ∀ c, SameW N (m c) (p c)

section
variable {C α : Type} {N : Nat}

theorem SameWM.ok (a : α) : SameWM N (pure a : MWM C α) (pure a : WM C α) := fun _ => .ret _
theorem SameWM.fail (e : Err) : SameWM N (MWM.fail e : MWM C α) (WM.fail e : WM C α) := fun _ => .ret _
theorem SameWM.get : SameWM N (MWM.get : MWM C C) (WM.get : WM C C) := fun _ => .ret _
theorem SameWM.set (c : C) : SameWM N (MWM.set c : MWM C Unit) (WM.set c : WM C Unit) := fun _ => .ret _

theorem SameWM.bind {β : Type} {m : MWM C α} {p : WM C α} {f : α → MWM C β} {g : α → WM C β} (h : SameWM N m p) (hf : ∀ a, SameWM N (f a) (g a)) :
    SameWM N (m >>= f) (p >>= g) := by
  intro c
  refine (h c).bind ?_
  rintro ⟨(e | a), c'⟩
  · exact .ret _
  · exact hf a c'

theorem SameWM.ite {P : Prop} [Decidable P] {m m' : MWM C α} {p p' : WM C α} (h : SameWM N m p) (h' : SameWM N m' p') :
    SameWM N (if P then m else m') (if P then p else p') := by
  by_cases hp : P
  · rw [if_pos hp, if_pos hp]; exact h
  · rw [if_neg hp, if_neg hp]; exact h'

theorem res_same (e : Option Err) (c : C) : SameW N (MWM.res e c) (WM.res e c) := by
  cases e with
  | none => exact .ret _
  | some e => exact .ret _

theorem SameWM.write (kind : WKind) (p : Bytes) (hk : kind = .byte → ∃ v, p = [v]) :
    SameWM N (MWM.write kind (.own p) : MWM C Unit) (WM.write kind p) := fun c => .write kind p hk fun e => res_same e c

theorem SameWM.number {n : Nat} (p : Bytes) (hn : p.length = n) (hp : n ≤ N) :
    SameWM N (MWM.number n p : MWM C Unit) (WM.write .bytes p) := by
  subst hn
  exact fun c => .number p hp fun e => res_same e c

theorem SameWM.appendWrite (max : Nat) (r : Except Err Bytes) :
    SameWM N (MWM.appendWrite max r : MWM C Unit) (do WM.ensure max; let buf ← WM.ofExcept r; WM.write .bytes buf) := by
  intro c
  refine .ensure max fun e => ?_
  cases e with
  | some e => exact .ret _
  | none =>
    intro σ T hT m hm
    show OutRel (Rel N) (MWProg.run T (match r with
      | .error e => .ret (.error e, c)
      | .ok p => MWM.appendAll p (.arr m.b.n m.b.n) fun buf => .write .bytes buf fun e => MWM.res e c) m) _
    cases r with
    | error e => exact ⟨rfl, hm, rfl⟩
    | ok p =>
      dsimp only
      obtain ⟨s', m', h1, h2, h3, h4, h5⟩ := appendAll_spec (N := N) T p (.arr m.b.n m.b.n) m (fun buf => .write .bytes buf fun e => MWM.res e c) [] hm
        (by simp only [load]; exact List.drop_eq_nil_of_le (by simp only [List.length_take]; omega))
        (.inl ⟨_, rfl, Nat.le_refl _, hm.le⟩)
      rw [h1, ← h3]
      rw [List.nil_append] at h4
      show OutRel (Rel N) _ (BWProg.runBuf T (.write .bytes p fun e => WM.res e c) m'.abs)
      rw [← h4]
      refine SameW.after (fun e => res_same e c) hT ?_
      rcases h5 with ⟨hi, rfl, h5, h6⟩ | h5
      · exact write_available h2 h5 h6
      · exact writeLoop_spec hT _ _ _ s' m' h5 h2

end

namespace Binary
open GoThrift.Binary (putBE)

theorem putBE_length (k n : Nat) : (putBE k n).length = k := by rw [putBE_eq, be_length]

theorem writeByte_same (v : Byte) : SameWM 8 (writeByte v) (GoThrift.Binary.writeByte v) := .write .byte _ fun _ => ⟨v, rfl⟩
theorem writeI16_same (v : BitVec 16) : SameWM 8 (writeI16 v) (GoThrift.Binary.writeI16 v) := .number _ (putBE_length _ _) (by decide)
theorem writeI32_same (v : BitVec 32) : SameWM 8 (writeI32 v) (GoThrift.Binary.writeI32 v) := .number _ (putBE_length _ _) (by decide)
theorem writeI64_same (v : BitVec 64) : SameWM 8 (writeI64 v) (GoThrift.Binary.writeI64 v) := .number _ (putBE_length _ _) (by decide)
theorem writeDouble_same (v : BitVec 64) : SameWM 8 (writeDouble v) (GoThrift.Binary.writeDouble v) := .number _ (putBE_length _ _) (by decide)
theorem writeSize_same (v : BitVec 64) : SameWM 8 (writeSize v) (GoThrift.Binary.writeSize v) := writeI32_same _
theorem writeString_same (v : Bytes) : SameWM 8 (writeString v) (GoThrift.Binary.writeString v) :=
  (writeSize_same _).bind fun _ => .write .string _ (by intro h; cases h)
theorem writeBytes_same (v : Bytes) : SameWM 8 (writeBytes v) (GoThrift.Binary.writeBytes v) :=
  (writeSize_same _).bind fun _ => .write .bytes _ (by intro h; cases h)
theorem writeMessageBegin_same (strict : Bool) (h : MessageHeader) :
    SameWM 8 (writeMessageBegin strict h) (GoThrift.Binary.writeMessageBegin strict h) :=
  .ite ((writeI32_same _).bind fun _ => (writeString_same _).bind fun _ => writeI32_same _)
    ((writeString_same _).bind fun _ => (writeByte_same _).bind fun _ => writeI32_same _)
theorem writeSetBegin_same (h : SetHeader) : SameWM 8 (writeSetBegin h) (GoThrift.Binary.writeSetBegin h) :=
  (writeByte_same _).bind fun _ => writeSize_same _

theorem wimpl_same (strict : Bool) (o : WOp) : SameWM 8 (wimpl strict o) (GoThrift.Binary.wimpl strict o) := by
  cases o with
  | messageBegin h => exact writeMessageBegin_same strict h
  | messageEnd => exact .ok _
  | structBegin _ => exact .ok _
  | structEnd => exact writeByte_same _
  | fieldBegin h => exact (writeByte_same _).bind fun _ => writeI16_same _
  | fieldEnd => exact .ok _
  | mapBegin h => exact (writeByte_same _).bind fun _ => (writeByte_same _).bind fun _ => writeSize_same _
  | mapEnd => exact .ok _
  | setBegin h => exact writeSetBegin_same h
  | setEnd => exact .ok _
  | listBegin h => exact writeSetBegin_same h
  | listEnd => exact .ok _
  | bool v => exact .ite (writeByte_same _) (writeByte_same _)
  | byte v => exact writeByte_same v
  | double v => exact writeDouble_same v
  | i16 v => exact writeI16_same v
  | i32 v => exact writeI32_same v
  | i64 v => exact writeI64_same v
  | string v => exact writeString_same v
  | bytes v => exact writeBytes_same v
  | uuid v => exact .write .bytes _ (by intro h; cases h)

end Binary

namespace Compact
open GoThrift.Compact (putLE)

theorem putLE_length (k n : Nat) : (putLE k n).length = k := by rw [putLE_eq, List.length_reverse, be_length]

theorem putUvarint_length_le (v : BitVec 64) : (putUvarint v).length ≤ 10 := by
  rw [putUvarint_eq_leb]
  exact leb_length_le 9 _ (Nat.lt_of_lt_of_le v.isLt (by decide))

theorem writeByte_same (v : Byte) : SameWM 10 (writeByte v) (GoThrift.Compact.writeByte v) := .write .byte _ fun _ => ⟨v, rfl⟩
theorem writeUvarint_same (v : BitVec 64) : SameWM 10 (writeUvarint v) (GoThrift.Compact.writeUvarint v) := .number _ rfl (putUvarint_length_le v)
theorem writeI64_same (v : BitVec 64) : SameWM 10 (writeI64 v) (GoThrift.Compact.writeI64 v) := .number _ rfl (putUvarint_length_le _)
theorem writeDouble_same (v : BitVec 64) : SameWM 10 (writeDouble v) (GoThrift.Compact.writeDouble v) := .number _ (putLE_length _ _) (by decide)
theorem writeString_same (v : Bytes) : SameWM 10 (writeString v) (GoThrift.Compact.writeString v) :=
  (writeUvarint_same _).bind fun _ => .write .string _ (by intro h; cases h)
theorem writeBytes_same (v : Bytes) : SameWM 10 (writeBytes v) (GoThrift.Compact.writeBytes v) :=
  (writeUvarint_same _).bind fun _ => .write .bytes _ (by intro h; cases h)
theorem writeFieldHeader_same (h : FieldHeader) (b : Bool) : SameWM 10 (writeFieldHeader h b) (GoThrift.Compact.writeFieldHeader h b) :=
  SameWM.get.bind fun _ => (SameWM.appendWrite _ _).bind fun _ => SameWM.get.bind fun _ => .set _
theorem writeStructEnd_same : SameWM 10 writeStructEnd GoThrift.Compact.writeStructEnd := by
  refine SameWM.get.bind fun c => ?_
  cases c.ids with
  | nil => exact .fail _
  | cons id ids => exact (SameWM.set _).bind fun _ => writeByte_same _

theorem wimpl_same (o : WOp) : SameWM 10 (wimpl o) (GoThrift.Compact.wimpl o) := by
  cases o with
  | messageBegin h =>
    exact (writeByte_same _).bind fun _ => (writeByte_same _).bind fun _ => (writeUvarint_same _).bind fun _ => writeString_same _
  | messageEnd => exact .ok _
  | structBegin _ => exact SameWM.get.bind fun _ => .set _
  | structEnd => exact writeStructEnd_same
  | fieldBegin h => exact .ite (SameWM.get.bind fun _ => .set _) (writeFieldHeader_same _ _)
  | fieldEnd => exact .ok _
  | mapBegin h => exact .appendWrite _ _
  | mapEnd => exact .ok _
  | setBegin h => exact .appendWrite _ _
  | setEnd => exact .ok _
  | listBegin h => exact .appendWrite _ _
  | listEnd => exact .ok _
  | bool v =>
    exact SameWM.get.bind fun _ => .ite ((writeFieldHeader_same _ _).bind fun _ => SameWM.get.bind fun _ => .set _)
      (.ite (writeByte_same _) (writeByte_same _))
  | byte v => exact writeByte_same v
  | double v => exact writeDouble_same v
  | i16 v => exact writeI64_same _
  | i32 v => exact writeI64_same _
  | i64 v => exact writeI64_same v
  | string v => exact writeString_same v
  | bytes v => exact writeBytes_same v
  | uuid v => exact .write .bytes _ (by intro h; cases h)

end Compact

namespace MPW
variable {C : Type} {T : Transport σ}

/-- A writer with its memory, and one that has the buffered bytes as a value. -/
structure Sim (N : Nat) (x : MPW C σ) (y : PW C σ) : Prop where
  c : x.c = y.c
  uw : x.uw = y.uw
  ok : x.m.OK N
  abs : x.m.abs = y.b

theorem flush_sim {N : Nat} (hT : T.Honest) {x : MPW C σ} {y : PW C σ} (h : Sim N x y) :
    (x.flush T).1 = (y.flush T).1 ∧ Sim N (x.flush T).2 (y.flush T).2 := by
  obtain ⟨c, m, uw⟩ := x
  obtain ⟨c', b, uw'⟩ := y
  obtain ⟨h1, h2, h3, h4⟩ := h
  dsimp only at h1 h2 h3 h4
  subst h1 h2 h4
  have hf := flush_spec hT h3
  unfold flush PW.flush
  dsimp only
  generalize m.flush T = r at hf
  generalize m.abs.flush T = r' at hf
  obtain ⟨e, m'⟩ := r
  obtain ⟨e', b'⟩ := r'
  obtain ⟨f1, f2, f3⟩ := hf
  dsimp only at f1 f2 f3
  subst f1 f3
  cases e with
  | some e => exact ⟨rfl, rfl, rfl, f2, rfl⟩
  | none =>
    unfold flushTransport PW.flushTransport
    dsimp only
    have hw : m'.abs.wr = m'.b.wr := rfl
    rw [hw]
    by_cases hc : uw = true ∧ T.isFlusher m'.b.wr = true
    · rw [if_pos hc, if_pos hc]
      exact ⟨rfl, rfl, rfl, ⟨f2.le, f2.pos, f2.room⟩, rfl⟩
    · rw [if_neg hc, if_neg hc]
      exact ⟨rfl, rfl, rfl, f2, rfl⟩

theorem step_sim {N : Nat} (hT : T.Honest) {impl : WOp → MWM C Unit} {wimpl : WOp → WM C Unit} (hi : ∀ o, SameWM N (impl o) (wimpl o)) (c : WCall)
    {x : MPW C σ} {y : PW C σ} (h : Sim N x y) :
    OutRel (fun a b => a.1 = b.1 ∧ Sim N a.2 b.2) (x.step T impl c) (y.step T wimpl c) := by
  cases c with
  | flush => exact flush_sim hT h
  | op o =>
    obtain ⟨c, m, uw⟩ := x
    obtain ⟨c', b, uw'⟩ := y
    obtain ⟨h1, h2, h3, h4⟩ := h
    dsimp only at h1 h2 h3 h4
    subst h1 h2 h4
    refine OutRel.bind (hi o c σ T hT m h3) ?_
    rintro ⟨⟨a, c1⟩, m1⟩ ⟨⟨b, c2⟩, b1⟩ ⟨g1, g2, g3⟩
    cases g1
    exact ⟨rfl, rfl, rfl, g2, g3⟩

theorem run_sim {N : Nat} (hT : T.Honest) {impl : WOp → MWM C Unit} {wimpl : WOp → WM C Unit} (hi : ∀ o, SameWM N (impl o) (wimpl o)) :
    ∀ (cs : List WCall) {x : MPW C σ} {y : PW C σ}, Sim N x y →
      OutRel (fun a b => a.1 = b.1 ∧ Sim N a.2 b.2) (x.run T impl cs) (y.run T wimpl cs)
  | [], _, _, h => ⟨rfl, h⟩
  | c :: cs, _, _, h => by
    refine (step_sim hT hi c h).bind ?_
    rintro ⟨e, x1⟩ ⟨e', y1⟩ ⟨g1, g2⟩
    dsimp only at g1 g2
    subst g1
    refine (run_sim hT hi cs g2).bind ?_
    rintro ⟨es, x2⟩ ⟨es', y2⟩ ⟨k1, k2⟩
    dsimp only at k1 k2
    subst k1
    exact ⟨rfl, k2⟩

theorem new_sim {N : Nat} (c : C) (buf scratch : Bytes) (hb : buf ≠ []) (hs : N ≤ scratch.length) (w : σ) (uw : Bool) :
    Sim N (new c buf scratch w uw) ⟨c, .new buf.length w, uw⟩ :=
  ⟨rfl, rfl, ⟨Nat.zero_le _, List.length_pos_iff.2 hb, hs⟩, rfl⟩

end MPW

end GoThrift.Mem
