import Verif.Spec.Fragment

/-!
# The `bufio.Reader` algorithms agree with a flat stream
-/

namespace GoThrift

/-- The `bufio.Reader` and the flat stream hold the same bytes. -/
structure BSim (b : BufReader) (f : Flat) : Prop where
  size : f.size = b.size
  pos : 0 < b.size
  bytes : f.bytes = b.unread ++ b.src.data
  fin : f.fin = b.src.fin
  le : b.unread.length ≤ b.size
  fair : b.src.Fair
  err : ∀ e, b.err = some e → b.src.data = [] ∧ b.src.fin = .err e

theorem OutRel.bind {α β γ δ : Type} {R : α → β → Prop} {Q : γ → δ → Prop} {x : Out α} {y : Out β} {f : α → Out γ} {g : β → Out δ}
    (h : OutRel R x y) (hfg : ∀ a b, R a b → OutRel Q (f a) (g b)) : OutRel Q (x.bind f) (y.bind g) := by
  cases x <;> cases y <;> simp only [OutRel] at h <;> first | exact hfg _ _ h | trivial

theorem OutRel.mono {α β : Type} {R Q : α → β → Prop} {x : Out α} {y : Out β} (h : OutRel R x y) (hrq : ∀ a b, R a b → Q a b) :
    OutRel Q x y := by
  cases x <;> cases y <;> simp only [OutRel] at h ⊢
  exact hrq _ _ h

theorem OutRel.join {α β γ : Type} {R : α → γ → Prop} {Q : β → γ → Prop} {x : Out α} {y : Out β} {z : Out γ} (h : OutRel R x z)
    (h' : OutRel Q y z) : OutRel (fun a b => ∃ c, R a c ∧ Q b c) x y := by
  cases x <;> cases z <;> simp only [OutRel] at h <;> cases y <;> simp only [OutRel] at h' ⊢
  exact ⟨_, h, h'⟩

theorem Out.bind_id {α : Type} (x : Out α) : x.bind .done = x := by cases x <;> rfl

theorem BSim.new {size : Nat} {s : Source} (hsize : 0 < size) (h : s.Fair) : BSim (newBufReader size s) ⟨size, s.data, s.fin⟩ :=
  ⟨rfl, hsize, rfl, rfl, Nat.zero_le _, h, fun e he => by cases he⟩

/-- Same answer, same bytes left. -/
def SimRes {α : Type} (x : α × BufReader) (y : α × Flat) : Prop := x.1 = y.1 ∧ BSim x.2 y.2

/-- The three things a read can do. -/
theorem Source.read_cases (s : Source) (cap : Nat) (hcap : 0 < cap) :
    ((s.sched s.idx).1 = 0 ∧ s.read cap = .done (([], none), { s with idx := s.idx + 1 })) ∨
    ((s.sched s.idx).1 ≠ 0 ∧ s.data = [] ∧ s.fin = .block ∧ s.read cap = .blocked) ∨
    (∃ e, (s.sched s.idx).1 ≠ 0 ∧ s.data = [] ∧ s.fin = .err e ∧ s.read cap = .done (([], some e), { s with idx := s.idx + 1 })) ∨
    (∃ n err, (s.sched s.idx).1 ≠ 0 ∧ 0 < n ∧ n ≤ cap ∧ n ≤ s.data.length ∧ s.data ≠ [] ∧
      (∀ e, err = some e → s.data.drop n = [] ∧ s.fin = .err e) ∧
      s.read cap = .done ((s.data.take n, err), { s with idx := s.idx + 1, data := s.data.drop n })) := by
  by_cases h0 : (s.sched s.idx).1 = 0
  · left; exact ⟨h0, by simp [read, h0]⟩
  · right
    by_cases hd : s.data = []
    · cases hf : s.fin with
      | block => left; exact ⟨h0, hd, rfl, by simp [read, h0, hd, hf]⟩
      | err e => right; left; exact ⟨e, h0, hd, rfl, by simp [read, h0, hd, hf]⟩
    · right; right
      have hl : 0 < s.data.length := List.length_pos_iff.2 hd
      refine ⟨min (min (s.sched s.idx).1 cap) s.data.length, (match s.fin with
          | .err e => if (s.sched s.idx).2 ∧ s.data.drop (min (s.sched s.idx).1 cap) = [] then some e else none
          | .block => none), h0, by omega, by omega, by omega, hd, ?_, ?_⟩
      rotate_left
      · have e1 : s.data.take (min (min (s.sched s.idx).1 cap) s.data.length) = s.data.take (min (s.sched s.idx).1 cap) := by
          rw [List.take_eq_take_iff]; omega
        have e2 : s.data.drop (min (min (s.sched s.idx).1 cap) s.data.length) = s.data.drop (min (s.sched s.idx).1 cap) := by
          by_cases h : min (s.sched s.idx).1 cap ≤ s.data.length
          · rw [Nat.min_eq_left h]
          · rw [List.drop_of_length_le (by omega), List.drop_of_length_le (by omega)]
        rw [e1, e2]
        simp only [read, if_neg h0, if_neg hd]
        rfl
      · intro e he
        have e2 : s.data.drop (min (min (s.sched s.idx).1 cap) s.data.length) = s.data.drop (min (s.sched s.idx).1 cap) := by
          by_cases h : min (s.sched s.idx).1 cap ≤ s.data.length
          · rw [Nat.min_eq_left h]
          · rw [List.drop_of_length_le (by omega), List.drop_of_length_le (by omega)]
        rw [e2]
        cases hf : s.fin with
        | block => simp [hf] at he
        | err e' =>
          simp only [hf] at he
          split at he
          · rename_i h; cases he; exact ⟨h.2, rfl⟩
          · cases he

namespace BufReader

theorem fillLoop_spec {f : Flat} : ∀ (i : Nat) (b : BufReader), BSim b f → b.unread.length < b.size →
    (∃ j, j < i ∧ (b.src.sched (b.src.idx + j)).1 ≠ 0) →
    (fillLoop i b = .blocked ∧ b.src.data = [] ∧ f.fin = .block) ∨
    ∃ b', fillLoop i b = .done b' ∧ BSim b' f ∧ b'.size = b.size ∧ (b.unread.length < b'.unread.length ∨ ∃ e, b'.err = some e) := by
  intro i
  induction i with
  | zero => rintro b h hl ⟨j, hj, _⟩; omega
  | succ i ih =>
    rintro b h hl ⟨j, hj, hs⟩
    rcases Source.read_cases b.src (b.size - b.unread.length) (by omega) with ⟨h0, hr⟩ | ⟨h0, hd, hf, hr⟩ | ⟨e, h0, hd, hf, hr⟩ |
      ⟨n, err, h0, hn, hc, hln, hd, he, hr⟩
    · have hb : BSim { b with unread := b.unread ++ [], src := { b.src with idx := b.src.idx + 1 } } f :=
        ⟨h.size, h.pos, by simpa using h.bytes, h.fin, by simpa using h.le, h.fair, h.err⟩
      have hj0 : j ≠ 0 := by rintro rfl; exact hs h0
      have := ih _ hb (by simpa using hl) ⟨j - 1, by omega, by
        have : b.src.idx + 1 + (j - 1) = b.src.idx + j := by omega
        simpa only [this] using hs⟩
      simp only [fillLoop, hr, Out.bind_done]
      simpa using this
    · left
      exact ⟨by simp [fillLoop, hr], hd, by rw [h.fin, hf]⟩
    · right
      refine ⟨{ b with unread := b.unread ++ [], err := some e, src := { b.src with idx := b.src.idx + 1 } },
        by simp only [fillLoop, hr, Out.bind_done], ?_, rfl, .inr ⟨e, rfl⟩⟩
      exact ⟨h.size, h.pos, by simpa using h.bytes, h.fin, by simpa using h.le, h.fair, fun e' he' => by
        cases he'; exact ⟨hd, hf⟩⟩
    · right
      have hlen : (b.src.data.take n).length = n := by rw [List.length_take]; omega
      cases err with
      | some e =>
        obtain ⟨he1, he2⟩ := he e rfl
        refine ⟨{ b with
            unread := b.unread ++ b.src.data.take n, err := some e
            src := { b.src with idx := b.src.idx + 1, data := b.src.data.drop n } },
          by simp only [fillLoop, hr, Out.bind_done], ?_, rfl, .inr ⟨e, rfl⟩⟩
        exact ⟨h.size, h.pos, by simp [h.bytes], h.fin, by simp only [List.length_append]; omega, h.fair, fun e' he' => by
          cases he'; exact ⟨he1, he2⟩⟩
      | none =>
        refine ⟨{ b with unread := b.unread ++ b.src.data.take n, src := { b.src with idx := b.src.idx + 1, data := b.src.data.drop n } }, ?_, ?_,
          rfl, .inl ?_⟩
        · simp only [fillLoop, hr, Out.bind_done]
          rw [if_pos (by omega)]
        · exact ⟨h.size, h.pos, by simp [h.bytes], h.fin, by simp only [List.length_append]; omega, h.fair, fun e' he' =>
            absurd (h.err e' he').1 hd⟩
        · simp only [List.length_append]; omega

theorem fill_spec {b : BufReader} {f : Flat} (h : BSim b f) (hl : b.unread.length < b.size) :
    (b.fill = .blocked ∧ b.src.data = [] ∧ f.fin = .block) ∨
    ∃ b', b.fill = .done b' ∧ BSim b' f ∧ b'.size = b.size ∧ (b.unread.length < b'.unread.length ∨ ∃ e, b'.err = some e) := by
  have h1 := fillLoop_spec 100 b h hl (h.fair _)
  rw [fill, if_neg (by omega)]
  exact h1

theorem peekLoop_spec {f : Flat} (n : Nat) : ∀ (fuel : Nat) (b : BufReader), BSim b f → b.size - b.unread.length + 2 ≤ fuel →
    (peekLoop fuel n b = .blocked ∧ f.fin = .block ∧ f.bytes.length < n ∧ f.bytes.length < f.size) ∨
    ∃ b', peekLoop fuel n b = .done b' ∧ BSim b' f ∧ b'.size = b.size ∧ ¬ (b'.unread.length < n ∧ b'.unread.length < b'.size ∧ b'.err = none) := by
  intro fuel
  induction fuel with
  | zero => intro b h hf; omega
  | succ fuel ih =>
    intro b h hf
    by_cases hc : b.unread.length < n ∧ b.unread.length < b.size ∧ b.err = none
    · rcases fill_spec h hc.2.1 with ⟨h1, h2, h3⟩ | ⟨b', h1, h2, h3, h4⟩
      · left
        have : f.bytes = b.unread := by rw [h.bytes, h2, List.append_nil]
        refine ⟨by rw [peekLoop, if_pos hc, h1]; rfl, h3, ?_⟩
        rw [this, h.size]; exact ⟨hc.1, hc.2.1⟩
      · by_cases he : ∃ e, b'.err = some e
        · right
          obtain ⟨e, he⟩ := he
          obtain ⟨fuel, rfl⟩ : ∃ m, fuel = m + 1 := ⟨fuel - 1, by omega⟩
          refine ⟨b', ?_, h2, h3, by simp [he]⟩
          rw [peekLoop, if_pos hc, h1, Out.bind_done, peekLoop, if_neg (by simp [he])]
        · have h5 : b.unread.length < b'.unread.length := h4.resolve_right he
          have := h2.le
          have := ih b' h2 (by omega)
          rw [peekLoop, if_pos hc, h1, Out.bind_done, ← h3]
          exact this
    · right
      exact ⟨b, by rw [peekLoop, if_neg hc], h, rfl, hc⟩

theorem peek_spec {b : BufReader} {f : Flat} (h : BSim b f) (n : Int) :
    OutRel (fun x y => x.1 = y ∧ BSim x.2 f) (b.peek n) (f.peek n) := by
  by_cases hn : n < 0
  · simp only [peek, Flat.peek, if_pos hn]; exact ⟨rfl, h⟩
  · rw [peek, Flat.peek, if_neg hn, if_neg hn]
    rcases peekLoop_spec n.toNat (b.size + 2) b h (by omega) with ⟨h1, h2, h3, h4⟩ | ⟨b', h1, h2, h3, h4⟩
    · rw [h1, Out.bind_blocked]
      by_cases hs : n.toNat > f.size
      · rw [if_pos hs, if_neg (by omega), h2]; trivial
      · rw [if_neg hs, if_neg (by omega), h2]; trivial
    · rw [h1, Out.bind_done]
      by_cases hs : n.toNat > f.size
      · rw [if_pos hs, if_pos (by rw [← h2.size]; exact hs)]
        have hle := h2.le
        rw [← h2.size] at hle
        by_cases hfull : b'.unread.length = f.size
        · rw [if_pos (by rw [h2.bytes, List.length_append]; omega)]
          refine ⟨?_, h2⟩
          simp only [h2.bytes]
          rw [List.take_append_of_le_length (by omega), List.take_of_length_le (by omega)]
        · have herr : ∃ e, b'.err = some e := by
            cases hb : b'.err with
            | some e => exact ⟨e, rfl⟩
            | none => exact absurd ⟨by omega, by rw [← h2.size]; omega, hb⟩ h4
          obtain ⟨e, he⟩ := herr
          obtain ⟨h5, h6⟩ := h2.err e he
          have hb : f.bytes = b'.unread := by rw [h2.bytes, h5, List.append_nil]
          rw [if_neg (by rw [hb]; omega), h2.fin, h6]
          exact ⟨by rw [hb], h2⟩
      · rw [if_neg hs, if_neg (by rw [← h2.size]; exact hs)]
        by_cases hl : b'.unread.length < n.toNat
        · rw [if_pos hl]
          have herr : ∃ e, b'.err = some e := by
            cases hb : b'.err with
            | some e => exact ⟨e, rfl⟩
            | none => exact absurd ⟨hl, by rw [← h2.size]; omega, hb⟩ h4
          obtain ⟨e, he⟩ := herr
          obtain ⟨h5, h6⟩ := h2.err e he
          have hb : f.bytes = b'.unread := by rw [h2.bytes, h5, List.append_nil]
          rw [if_neg (by rw [hb]; omega), h2.fin, h6]
          exact ⟨by rw [hb, he]; rfl, ⟨h2.size, h2.pos, h2.bytes, h2.fin, h2.le, h2.fair, fun e' he' => by cases he'⟩⟩
        · rw [if_neg hl, if_pos (by rw [h2.bytes, List.length_append]; omega)]
          refine ⟨?_, h2⟩
          rw [h2.bytes, List.take_append_of_le_length (by omega)]

theorem _root_.GoThrift.Flat.discard_short_err (f : Flat) {n : Nat} {e : Err} (h : f.bytes.length < n) (hf : f.fin = .err e) :
    f.discard n = .done (some e, { f with bytes := [] }) := by
  cases f; cases hf
  simp only [Flat.discard]
  rw [if_neg (by omega : ¬ (n : Int) < 0), if_neg (by simpa using h)]

/-- Dropping unread bytes on both sides. -/
theorem _root_.GoThrift.BSim.drop {b : BufReader} {f : Flat} (h : BSim b f) (k : Nat) (hk : k ≤ b.unread.length) :
    BSim { b with unread := b.unread.drop k } { f with bytes := f.bytes.drop k } :=
  ⟨h.size, h.pos, by simp only [h.bytes]; rw [List.drop_append_of_le_length hk], h.fin, by
    simp only [List.length_drop]; have := h.le; omega, h.fair, h.err⟩

theorem _root_.GoThrift.BSim.clear {b : BufReader} {f : Flat} (h : BSim b f) : BSim { b with err := none } f :=
  ⟨h.size, h.pos, h.bytes, h.fin, h.le, h.fair, fun e he => by cases he⟩

theorem discardLoop_spec : ∀ (fuel remain : Nat) (b : BufReader) (f : Flat), BSim b f → 0 < remain → remain ≤ fuel →
    OutRel SimRes (discardLoop fuel remain b) (f.discard remain) := by
  intro fuel
  induction fuel with
  | zero => intro remain b f h h0 hle; omega
  | succ fuel ih =>
    intro remain b f h h0 hle
    have key : ∀ b', BSim b' f → (0 < b'.unread.length ∨ ∃ e, b'.err = some e) →
        OutRel SimRes (let skip := min b'.unread.length remain
          let b := { b' with unread := b'.unread.drop skip }
          if remain - skip = 0 then .done (none, b)
          else match b.err with
            | some e => .done (some e, { b with err := none })
            | none => discardLoop fuel (remain - skip) b) (f.discard remain) := by
      intro b' h' hor
      dsimp only
      have hd := h'.drop (min b'.unread.length remain) (by omega)
      by_cases hr : remain - min b'.unread.length remain = 0
      · rw [if_pos hr]
        have hmin : min b'.unread.length remain = remain := by omega
        rw [Flat.discard, if_neg (by omega), if_pos (by rw [h'.bytes, List.length_append]; omega)]
        refine ⟨rfl, ?_⟩
        rw [hmin] at hd ⊢
        exact hd
      · rw [if_neg hr]
        have hmin : min b'.unread.length remain = b'.unread.length := by omega
        rw [hmin] at hd hr ⊢
        cases he : b'.err with
        | some e =>
          obtain ⟨h5, h6⟩ := h'.err e he
          have hb : f.bytes = b'.unread := by rw [h'.bytes, h5, List.append_nil]
          rw [f.discard_short_err (by rw [hb]; omega) (h'.fin.trans h6)]
          refine ⟨rfl, ?_⟩
          have := hd.clear
          have hnil : f.bytes.drop b'.unread.length = [] := by rw [hb, List.drop_of_length_le (by omega)]
          rw [hnil] at this
          exact this
        | none =>
          have hpos : 0 < b'.unread.length := hor.resolve_right (by simp [he])
          have := ih (remain - b'.unread.length) _ _ hd (by omega) (by omega)
          rw [he] at this
          have e1 : f.discard remain = (Flat.discard { f with bytes := f.bytes.drop b'.unread.length }
              ((remain - b'.unread.length : Nat) : Int)) := by
            have hbl : b'.unread.length ≤ f.bytes.length := by rw [h'.bytes, List.length_append]; omega
            simp only [Flat.discard]
            rw [if_neg (by omega : ¬ (remain : Int) < 0), if_neg (by omega : ¬ ((remain - b'.unread.length : Nat) : Int) < 0)]
            simp only [Int.toNat_natCast, List.length_drop, List.drop_drop]
            by_cases hl : remain ≤ f.bytes.length
            · rw [if_pos hl, if_pos (by omega)]
              have : b'.unread.length + (remain - b'.unread.length) = remain := by omega
              rw [this]
            · rw [if_neg hl, if_neg (by omega)]
          rw [e1]
          exact this
    rw [discardLoop]
    by_cases hu : b.unread.length = 0
    · rw [if_pos hu]
      rcases fill_spec h (by have := h.pos; omega) with ⟨h1, h2, h3⟩ | ⟨b', h1, h2, h3, h4⟩
      · have : f.bytes = b.unread := by rw [h.bytes, h2, List.append_nil]
        rw [h1, Flat.discard, if_neg (by omega), if_neg (by rw [this, hu]; omega), h3]
        trivial
      · rw [h1, Out.bind_done]
        exact key b' h2 (h4.imp (by omega) id)
    · rw [if_neg hu, Out.bind_done]
      exact key b h (.inl (by omega))

theorem discard_spec {b : BufReader} {f : Flat} (h : BSim b f) (n : Int) : OutRel SimRes (b.discard n) (f.discard n) := by
  by_cases hn : n < 0
  · simp only [discard, Flat.discard, if_pos hn]; exact ⟨rfl, h⟩
  · by_cases h0 : n.toNat = 0
    · rw [discard, Flat.discard, if_neg hn, if_neg hn, if_pos h0, if_pos (by omega), h0]
      exact ⟨rfl, h⟩
    · rw [discard, if_neg hn, if_neg h0]
      have := discardLoop_spec (n.toNat + 1) n.toNat b f h (by omega) (by omega)
      rwa [Int.toNat_of_nonneg (by omega)] at this

theorem readByte_spec {b : BufReader} {f : Flat} (h : BSim b f) : OutRel SimRes b.readByte f.readByte := by
  have nonempty : ∀ (b : BufReader), BSim b f → ∀ c cs, b.unread = c :: cs →
      OutRel SimRes (.done ((.ok c : Except Err Byte), { b with unread := cs }) : Out (Except Err Byte × BufReader)) f.readByte := by
    intro b h c cs hu
    have hb : f.bytes = c :: (cs ++ b.src.data) := by rw [h.bytes, hu]; rfl
    rw [Flat.readByte, hb]
    refine ⟨rfl, h.size, h.pos, rfl, h.fin, ?_, h.fair, h.err⟩
    have := h.le; rw [hu, List.length_cons] at this; simp only; omega
  have witherr : ∀ (b : BufReader), BSim b f → ∀ e, b.unread = [] → b.err = some e →
      OutRel SimRes (.done ((.error e : Except Err Byte), { b with err := none }) : Out (Except Err Byte × BufReader)) f.readByte := by
    intro b h e hu he
    obtain ⟨h5, h6⟩ := h.err e he
    have hb : f.bytes = [] := by rw [h.bytes, h5, hu]; rfl
    rw [Flat.readByte, hb, h.fin, h6]
    exact ⟨rfl, h.clear⟩
  rw [readByte, readByteLoop]
  split
  · exact nonempty b h _ _ ‹_›
  · rename_i hu
    split
    · exact witherr b h _ hu ‹_›
    · rcases fill_spec h (by rw [hu]; exact h.pos) with ⟨h1, h2, h3⟩ | ⟨b', h1, h2, h3, h4⟩
      · rw [h1, Flat.readByte]
        have : f.bytes = [] := by rw [h.bytes, h2, hu]; rfl
        rw [this, h3]; trivial
      · rw [h1, Out.bind_done, readByteLoop]
        split
        · exact nonempty b' h2 _ _ ‹_›
        · rename_i hu'
          obtain ⟨e, he⟩ := h4.resolve_left (by rw [hu']; simp)
          rw [he]
          exact witherr b' h2 e hu' he

/-- The answer of `io.ReadFull` when `acc` has already been read. -/
def fullAns (acc : Bytes) (n : Nat) (f : Flat) : Out ((Bytes × Option Err) × Flat) :=
  if n - acc.length ≤ f.bytes.length then
    .done ((acc ++ f.bytes.take (n - acc.length), none), { f with bytes := f.bytes.drop (n - acc.length) })
  else match f.fin with
    | .block => .blocked
    | .err e => .done ((acc ++ f.bytes, some (if (acc ++ f.bytes).length > 0 ∧ e = .eof then .unexpectedEOF else e)), { f with bytes := [] })

theorem fullAns_step (acc : Bytes) (n k : Nat) (f : Flat) (hk : k ≤ f.bytes.length) (hn : acc.length + k ≤ n) :
    fullAns (acc ++ f.bytes.take k) n { f with bytes := f.bytes.drop k } = fullAns acc n f := by
  have hl : (f.bytes.take k).length = k := by rw [List.length_take]; omega
  have e1 : n - (acc ++ f.bytes.take k).length = n - acc.length - k := by rw [List.length_append]; omega
  unfold fullAns
  rw [e1]
  simp only [List.length_drop, List.append_assoc, List.take_append_drop, List.drop_drop]
  by_cases hc : n - acc.length ≤ f.bytes.length
  · rw [if_pos hc, if_pos (by omega)]
    have e2 : f.bytes.take k ++ (f.bytes.drop k).take (n - acc.length - k) = f.bytes.take (n - acc.length) := by
      have h3 := List.take_add (l := f.bytes) (i := k) (j := n - acc.length - k)
      rw [← h3]; congr 1; omega
    rw [e2]
    have : k + (n - acc.length - k) = n - acc.length := by omega
    rw [this]
  · rw [if_neg hc, if_neg (by omega)]

theorem fullAns_short {acc : Bytes} {n : Nat} {f : Flat} {e : Err} (h : f.bytes.length < n - acc.length) (hf : f.fin = .err e) :
    fullAns acc n f = .done ((acc ++ f.bytes, some (if (acc ++ f.bytes).length > 0 ∧ e = .eof then .unexpectedEOF else e)),
      { f with bytes := [] }) := by
  cases f; cases hf
  simp only [fullAns]
  rw [if_neg (Nat.not_le.2 h)]

theorem fullAns_blocked {acc : Bytes} {n : Nat} {f : Flat} (h : f.bytes.length < n - acc.length) (hf : f.fin = .block) :
    fullAns acc n f = .blocked := by
  simp only [fullAns, hf]
  rw [if_neg (by omega)]

theorem readFullLoop_spec (n : Nat) : ∀ (fuel : Nat) (acc : Bytes) (b : BufReader) (f : Flat), BSim b f → acc.length ≤ n →
    (∃ j, j < 100 ∧ (b.src.sched (b.src.idx + j)).1 ≠ 0 ∧ 100 * (n - acc.length) + j + 1 ≤ fuel) →
    OutRel SimRes (readFullLoop fuel n acc b) (fullAns acc n f) := by
  intro fuel
  induction fuel with
  | zero => rintro acc b f h hle ⟨j, _, _, hj⟩; omega
  | succ fuel ih =>
    rintro acc b f h hle ⟨j, hj1, hj2, hj3⟩
    rw [readFullLoop]
    by_cases hdone : acc.length ≥ n
    · rw [if_pos hdone]
      have : n - acc.length = 0 := by omega
      rw [fullAns, this, if_pos (by omega)]
      simp only [List.take_zero, List.append_nil, List.drop_zero]
      exact ⟨rfl, h⟩
    · rw [if_neg hdone]
      have hcap : n - acc.length ≠ 0 := by omega
      -- a successful partial read of `k` bytes, continued
      have go : ∀ (k : Nat) (b' : BufReader), 0 < k → k ≤ n - acc.length → k ≤ f.bytes.length →
          BSim b' { f with bytes := f.bytes.drop k } →
          OutRel SimRes (readFullLoop fuel n (acc ++ f.bytes.take k) b') (fullAns acc n f) := by
        intro k b' hk0 hk1 hk2 hb'
        have hl : (acc ++ f.bytes.take k).length = acc.length + k := by rw [List.length_append, List.length_take]; omega
        rw [← fullAns_step acc n k f hk2 (by omega)]
        obtain ⟨j', hj1', hj2'⟩ := hb'.fair b'.src.idx
        exact ih _ _ _ hb' (by omega) ⟨j', hj1', hj2', by omega⟩
      rw [read, if_neg hcap]
      by_cases hu : b.unread.length = 0
      · rw [if_pos hu]
        have hu' : b.unread = [] := List.length_eq_zero_iff.1 hu
        cases he : b.err with
        | some e =>
          obtain ⟨h5, h6⟩ := h.err e he
          have hb : f.bytes = [] := by rw [h.bytes, h5, hu']; rfl
          simp only [Out.bind_done, List.append_nil]
          rw [if_neg hdone, fullAns_short (by rw [hb]; simp; omega) (h.fin.trans h6), hb]
          simp only [List.append_nil]
          refine ⟨rfl, ?_⟩
          have := h.clear
          exact ⟨this.size, this.pos, by rw [← hb]; exact this.bytes, this.fin, this.le, this.fair, this.err⟩
        | none =>
          dsimp only
          by_cases hbig : n - acc.length ≥ b.size
          · rw [if_pos hbig]
            rcases Source.read_cases b.src (n - acc.length) (by omega) with ⟨h0, hr⟩ | ⟨h0, hd, hf, hr⟩ | ⟨e, h0, hd, hf, hr⟩ |
              ⟨k, err, h0, hk, hc, hlk, hd, herr, hr⟩
            · rw [hr]
              simp only [Out.bind_done, List.append_nil]
              have hj0 : j ≠ 0 := by rintro rfl; exact hj2 h0
              refine ih acc _ f ⟨h.size, h.pos, h.bytes, h.fin, h.le, h.fair, fun e' he' => by cases he'⟩ hle ⟨j - 1, by omega, ?_, by omega⟩
              have : b.src.idx + 1 + (j - 1) = b.src.idx + j := by omega
              simpa only [this] using hj2
            · have hb : f.bytes = [] := by rw [h.bytes, hd, hu']; rfl
              rw [hr, fullAns_blocked (by rw [hb]; simp; omega) (h.fin.trans hf)]
              trivial
            · have hb : f.bytes = [] := by rw [h.bytes, hd, hu']; rfl
              rw [hr]
              simp only [Out.bind_done, List.append_nil]
              rw [if_neg hdone, fullAns_short (by rw [hb]; simp; omega) (h.fin.trans hf), hb]
              simp only [List.append_nil]
              exact ⟨rfl, h.size, h.pos, by rw [← hb]; exact h.bytes, h.fin, h.le, h.fair, fun e' he' => by cases he'⟩
            · have hb : f.bytes = b.src.data := by rw [h.bytes, hu']; rfl
              rw [hr]
              simp only [Out.bind_done]
              have hsim : BSim { b with err := none, src := { b.src with idx := b.src.idx + 1, data := b.src.data.drop k } }
                  { f with bytes := f.bytes.drop k } :=
                ⟨h.size, h.pos, by simp [hu', hb], h.fin, h.le, h.fair, fun e' he' => by cases he'⟩
              cases err with
              | none =>
                rw [← hb]
                rw [← hb] at hsim
                exact go k _ hk hc (by rw [hb]; exact hlk) hsim
              | some e =>
                obtain ⟨h7, h8⟩ := herr e rfl
                have hkl : k = b.src.data.length := by
                  have := List.drop_eq_nil_iff.1 h7; omega
                have htk : b.src.data.take k = b.src.data := List.take_of_length_le (by omega)
                dsimp only
                by_cases hfull : (acc ++ b.src.data.take k).length ≥ n
                · rw [if_pos hfull]
                  have hkn : k = n - acc.length := by
                    rw [List.length_append, htk, ← hkl] at hfull; omega
                  rw [fullAns, if_pos (by rw [hb]; omega), ← hkn, hb]
                  refine ⟨rfl, ?_⟩
                  rw [← hb]; rw [← hb] at hsim; exact hsim
                · rw [if_neg hfull]
                  rw [htk] at hfull ⊢
                  rw [List.length_append] at hfull
                  rw [fullAns_short (by rw [hb]; omega) (h.fin.trans h8), hb]
                  refine ⟨rfl, ?_⟩
                  have h9 : f.bytes.drop k = [] := by rw [hb]; exact h7
                  rw [h9] at hsim
                  exact hsim
          · rw [if_neg hbig]
            rcases Source.read_cases b.src b.size h.pos with ⟨h0, hr⟩ | ⟨h0, hd, hf, hr⟩ | ⟨e, h0, hd, hf, hr⟩ |
              ⟨k, err, h0, hk, hc, hlk, hd, herr, hr⟩
            · rw [hr]
              simp only [Out.bind_done, List.length_nil, if_true, List.append_nil]
              have hj0 : j ≠ 0 := by rintro rfl; exact hj2 h0
              refine ih acc _ f ⟨h.size, h.pos, h.bytes, h.fin, h.le, h.fair, fun e' he' => by cases he'⟩ hle ⟨j - 1, by omega, ?_, by omega⟩
              have : b.src.idx + 1 + (j - 1) = b.src.idx + j := by omega
              simpa only [this] using hj2
            · have hb : f.bytes = [] := by rw [h.bytes, hd, hu']; rfl
              rw [hr, fullAns_blocked (by rw [hb]; simp; omega) (h.fin.trans hf)]
              trivial
            · have hb : f.bytes = [] := by rw [h.bytes, hd, hu']; rfl
              rw [hr]
              simp only [Out.bind_done, List.length_nil, if_true, List.append_nil]
              rw [if_neg hdone, fullAns_short (by rw [hb]; simp; omega) (h.fin.trans hf), hb]
              simp only [List.append_nil]
              exact ⟨rfl, h.size, h.pos, by rw [← hb]; exact h.bytes, h.fin, h.le, h.fair, fun e' he' => by cases he'⟩
            · have hb : f.bytes = b.src.data := by rw [h.bytes, hu']; rfl
              have hlen : (b.src.data.take k).length = k := by rw [List.length_take]; omega
              rw [hr]
              simp only [Out.bind_done]
              rw [hlen, if_neg (by omega), Out.bind_done]
              dsimp only
              have htt : (b.src.data.take k).take (n - acc.length) = f.bytes.take (min (n - acc.length) k) := by
                rw [List.take_take, hb]
              rw [htt]
              refine go (min (n - acc.length) k) _ (by omega) (by omega) (by rw [hb]; omega) ?_
              refine ⟨h.size, h.pos, ?_, h.fin, ?_, h.fair, fun e' he' => ?_⟩
              · simp only [hb]
                by_cases hkk : k ≤ n - acc.length
                · rw [Nat.min_eq_right hkk, List.drop_of_length_le (l := b.src.data.take k) (by omega), List.nil_append]
                · rw [Nat.min_eq_left (by omega), ← List.drop_append_of_le_length (by omega), List.take_append_drop]
              · simp only [List.length_drop, List.length_take]; omega
              · exact herr e' he'
      · rw [if_neg hu]
        simp only [Out.bind_done]
        have hb : f.bytes.take (min (n - acc.length) b.unread.length) = b.unread.take (n - acc.length) := by
          rw [h.bytes, List.take_append_of_le_length (by omega)]
          rw [List.take_eq_take_iff]; omega
        rw [← hb]
        refine go _ _ (by omega) (by omega) (by rw [h.bytes, List.length_append]; omega) ?_
        have hd : b.unread.drop (n - acc.length) = b.unread.drop (min (n - acc.length) b.unread.length) := by
          by_cases hkk : n - acc.length ≤ b.unread.length
          · rw [Nat.min_eq_left hkk]
          · rw [List.drop_of_length_le (by omega), List.drop_of_length_le (by omega)]
        rw [hd]
        exact h.drop _ (by omega)

theorem readFull_spec {b : BufReader} {f : Flat} (h : BSim b f) (n : Nat) : OutRel SimRes (b.readFull n) (f.readFull n) := by
  obtain ⟨j, hj1, hj2⟩ := h.fair b.src.idx
  have := readFullLoop_spec n (100 * (n + 2)) [] b f h (Nat.zero_le _) ⟨j, hj1, hj2, by simp; omega⟩
  have e : fullAns [] n f = f.readFull n := by
    simp only [fullAns, Flat.readFull, List.length_nil, Nat.sub_zero, List.nil_append, List.length_pos_iff]
    rfl
  rw [← e]
  exact this

end BufReader

/-- Any program gives the same on a `bufio.Reader` as on the flat stream. -/
theorem BProg.runBuf_sim {α : Type} (p : BProg α) (b : BufReader) (f : Flat) (h : BSim b f) :
    OutRel SimRes (p.runBuf b) (p.run f) := by
  induction p generalizing b f with
  | ret a => exact ⟨rfl, h⟩
  | diverge => trivial
  | panic => trivial
  | peek n k ih =>
    refine (BufReader.peek_spec h n).bind ?_
    rintro ⟨⟨x, e⟩, b'⟩ ⟨y, e'⟩ ⟨h1, h2⟩
    cases h1
    exact ih _ _ _ _ h2
  | discard n k ih =>
    refine (BufReader.discard_spec h n).bind ?_
    rintro ⟨e, b'⟩ ⟨e', f'⟩ ⟨h1, h2⟩
    cases h1
    exact ih _ _ _ h2
  | readByte k ih =>
    refine (BufReader.readByte_spec h).bind ?_
    rintro ⟨e, b'⟩ ⟨e', f'⟩ ⟨h1, h2⟩
    cases h1
    exact ih _ _ _ h2
  | readFull n k ih =>
    refine (BufReader.readFull_spec h n).bind ?_
    rintro ⟨⟨x, e⟩, b'⟩ ⟨⟨y, e'⟩, f'⟩ ⟨h1, h2⟩
    cases h1
    exact ih _ _ _ _ h2
  | size k ih =>
    rw [BProg.runBuf, BProg.run, h.size]
    exact ih _ _ _ h

/-- Same for protocol readers: same fields, same bytes. -/
def RSim {C : Type} (x : C × BufReader) (y : C × Flat) : Prop := x.1 = y.1 ∧ BSim x.2 y.2

theorem Binary.bufReader_sim (strict : Bool) (o : ROp) (s : Unit × BufReader) (t : Unit × Flat) (h : RSim s t) :
    OutRel (fun x y => x.1 = y.1 ∧ RSim x.2 y.2) ((Binary.bufReader strict).step o s) ((Binary.reader strict).step o t) := by
  obtain ⟨h1, h2⟩ := h
  refine OutRel.bind (BProg.runBuf_sim ((Binary.impl strict o) s.1) s.2 t.2 h2) ?_
  rintro ⟨⟨x, c⟩, b⟩ ⟨⟨y, c'⟩, f⟩ ⟨h3, h4⟩
  cases h3
  exact ⟨rfl, rfl, h4⟩

theorem Compact.bufReader_sim (o : ROp) (s : RState × BufReader) (t : RState × Flat) (h : RSim s t) :
    OutRel (fun x y => x.1 = y.1 ∧ RSim x.2 y.2) (bufReader.step o s) (reader.step o t) := by
  obtain ⟨h1, h2⟩ := h
  obtain ⟨c, b⟩ := s
  obtain ⟨c', f⟩ := t
  cases h1
  refine OutRel.bind (BProg.runBuf_sim ((impl o) c) b f h2) ?_
  rintro ⟨⟨x, c⟩, b⟩ ⟨⟨y, c'⟩, f⟩ ⟨h3, h4⟩
  cases h3
  exact ⟨rfl, rfl, h4⟩

/-- Programs of Reader calls on related readers. -/
theorem RProg.run_sim {α S T : Type} {r : Rdr S} {r' : Rdr T} {R : S → T → Prop}
    (hstep : ∀ o s t, R s t → OutRel (fun x y => x.1 = y.1 ∧ R x.2 y.2) (r.step o s) (r'.step o t))
    (p : RProg α) (s : S) (t : T) (h : R s t) : OutRel (fun x y => x.1 = y.1 ∧ R x.2 y.2) (p.run r s) (p.run r' t) := by
  induction p generalizing s t with
  | ret a => exact ⟨rfl, h⟩
  | diverge => trivial
  | panic => trivial
  | call o k ih =>
    refine OutRel.bind (hstep o s t h) ?_
    rintro ⟨x, s'⟩ ⟨y, t'⟩ ⟨h1, h2⟩
    cases h1
    exact ih _ _ _ h2

end GoThrift
