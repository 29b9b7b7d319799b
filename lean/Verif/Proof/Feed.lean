import Verif.Spec.Feed
import Verif.Proof.Bufio

/-!
# The `bufio.Reader` algorithms agree with a flat stream, over any `io.Reader` that keeps the contract
-/

namespace GoThrift

variable {ρ : Type} {rd : ReadFn ρ}

/-- The `bufio.Reader` and the flat stream hold the same bytes. -/
structure GSim (C : rd.Contract) (b : GBuf ρ) (f : Flat) : Prop where
  size : f.size = b.size
  pos : 0 < b.size
  bytes : f.bytes = b.unread ++ C.left b.src
  fin : f.fin = C.fin b.src
  le : b.unread.length ≤ b.size
  ok : C.ok b.src
  err : ∀ e, b.err = some e → C.left b.src = [] ∧ C.fin b.src = .err e

/-- Same answer, same bytes left. -/
def GSimRes (C : rd.Contract) {α : Type} (x : α × GBuf ρ) (y : α × Flat) : Prop := x.1 = y.1 ∧ GSim C x.2 y.2

variable {C : rd.Contract}

theorem GSim.new {size : Nat} {s : ρ} (hsize : 0 < size) (h : C.ok s) : GSim C (GBuf.new size s) ⟨size, C.left s, C.fin s⟩ :=
  ⟨rfl, hsize, rfl, rfl, Nat.zero_le _, h, fun e he => by cases he⟩

/-- The four things a read can do. -/
theorem ReadFn.Contract.cases (C : rd.Contract) (s : ρ) (cap : Nat) (h : C.ok s) (hcap : 0 < cap) :
    (∃ s', rd s cap = .done (([], none), s') ∧ C.ok s' ∧ C.left s' = C.left s ∧ C.fin s' = C.fin s ∧ C.idle s' < C.idle s) ∨
    (rd s cap = .blocked ∧ C.left s = [] ∧ C.fin s = .block) ∨
    (∃ e s', rd s cap = .done (([], some e), s') ∧ C.ok s' ∧ C.left s = [] ∧ C.left s' = [] ∧ C.fin s' = C.fin s ∧ C.fin s = .err e) ∨
    (∃ p err s', rd s cap = .done ((p, err), s') ∧ C.ok s' ∧ 0 < p.length ∧ p.length ≤ cap ∧ C.left s = p ++ C.left s' ∧ C.fin s' = C.fin s ∧
      ∀ e, err = some e → C.left s' = [] ∧ C.fin s = .err e) := by
  rcases C.total s cap h hcap with hb | ⟨⟨⟨p, e⟩, s'⟩, hr⟩
  · exact .inr (.inl hb)
  · obtain ⟨h1, h2, h3, h4, h5, h6⟩ := C.keeps s cap p e s' h hcap hr
    cases p with
    | nil =>
      cases e with
      | none => exact .inl ⟨s', hr, h1, h3.symm, h4, h6 rfl rfl⟩
      | some e => exact .inr (.inr (.inl ⟨e, s', hr, h1, by rw [h3, (h5 e rfl).1]; rfl, (h5 e rfl).1, h4, (h5 e rfl).2⟩))
    | cons c cs => exact .inr (.inr (.inr ⟨c :: cs, e, s', hr, h1, Nat.zero_lt_succ _, h2, h3, h4, h5⟩))

namespace GBuf

theorem fillLoop_spec {f : Flat} : ∀ (i : Nat) (b : GBuf ρ), GSim C b f → b.unread.length < b.size → C.idle b.src < i →
    (fillLoop rd i b = .blocked ∧ C.left b.src = [] ∧ f.fin = .block) ∨
    ∃ b', fillLoop rd i b = .done b' ∧ GSim C b' f ∧ b'.size = b.size ∧ (b.unread.length < b'.unread.length ∨ ∃ e, b'.err = some e) := by
  intro i
  induction i with
  | zero => intro b h hl hi; omega
  | succ i ih =>
    intro b h hl hi
    rcases C.cases b.src (b.size - b.unread.length) h.ok (by omega) with ⟨s', hr, h1, h2, h3, h4⟩ | ⟨hr, h1, h2⟩ | ⟨e, s', hr, h1, h2, h3, h4, h5⟩ |
      ⟨p, err, s', hr, h1, h2, h3, h4, h5, h6⟩
    · have hb : GSim C { b with unread := b.unread ++ [], src := s' } f :=
        ⟨h.size, h.pos, by simpa [h2] using h.bytes, by rw [h.fin, h3], by simpa using h.le, h1, by simpa only [h2, h3] using h.err⟩
      have := ih _ hb (by simpa using hl) (by show C.idle s' < i; omega)
      simp only [fillLoop, hr, Out.bind_done]
      simpa [h2] using this
    · left
      exact ⟨by simp [fillLoop, hr], h1, by rw [h.fin, h2]⟩
    · right
      refine ⟨{ b with unread := b.unread ++ [], err := some e, src := s' }, by simp only [fillLoop, hr, Out.bind_done], ?_, rfl, .inr ⟨e, rfl⟩⟩
      exact ⟨h.size, h.pos, by simp only [List.append_nil]; rw [h.bytes, h2, h3], by rw [h.fin, h4], by simpa using h.le, h1, fun e' he' => by
        cases he'; exact ⟨h3, h4.trans h5⟩⟩
    · right
      cases err with
      | some e =>
        obtain ⟨he1, he2⟩ := h6 e rfl
        refine ⟨{ b with unread := b.unread ++ p, err := some e, src := s' }, by simp only [fillLoop, hr, Out.bind_done], ?_, rfl, .inr ⟨e, rfl⟩⟩
        exact ⟨h.size, h.pos, by rw [h.bytes, h4, List.append_assoc], by rw [h.fin, h5], by simp only [List.length_append]; omega, h1, fun e' he' => by
          cases he'; exact ⟨he1, h5.trans he2⟩⟩
      | none =>
        refine ⟨{ b with unread := b.unread ++ p, src := s' }, ?_, ?_, rfl, .inl ?_⟩
        · simp only [fillLoop, hr, Out.bind_done]
          rw [if_pos h2]
        · refine ⟨h.size, h.pos, by rw [h.bytes, h4, List.append_assoc], by rw [h.fin, h5], by simp only [List.length_append]; omega, h1, fun e' he' => ?_⟩
          have := (h.err e' he').1
          rw [h4] at this
          have := List.append_eq_nil_iff.1 this
          rw [this.1] at h2
          exact absurd h2 (by simp)
        · simp only [List.length_append]; omega

theorem fill_spec {b : GBuf ρ} {f : Flat} (h : GSim C b f) (hl : b.unread.length < b.size) :
    (b.fill rd = .blocked ∧ C.left b.src = [] ∧ f.fin = .block) ∨
    ∃ b', b.fill rd = .done b' ∧ GSim C b' f ∧ b'.size = b.size ∧ (b.unread.length < b'.unread.length ∨ ∃ e, b'.err = some e) := by
  have h1 := fillLoop_spec 100 b h hl (C.idle_lt _ h.ok)
  rw [fill, if_neg (by omega)]
  exact h1

theorem peekLoop_spec {f : Flat} (n : Nat) : ∀ (fuel : Nat) (b : GBuf ρ), GSim C b f → b.size - b.unread.length + 2 ≤ fuel →
    (peekLoop rd fuel n b = .blocked ∧ f.fin = .block ∧ f.bytes.length < n ∧ f.bytes.length < f.size) ∨
    ∃ b', peekLoop rd fuel n b = .done b' ∧ GSim C b' f ∧ b'.size = b.size ∧ ¬ (b'.unread.length < n ∧ b'.unread.length < b'.size ∧ b'.err = none) := by
  intro fuel
  induction fuel with
  | zero => intro b h hf; omega
  | succ fuel ih =>
    intro b h hf
    by_cases hc : b.unread.length < n ∧ b.unread.length < b.size ∧ b.err = none
    · rcases fill_spec h hc.2.1 with ⟨h1, h2, h3⟩ | ⟨b', h1, h2, h3, h4⟩
      · left
        have : f.bytes = b.unread := by rw [h.bytes, h2, List.append_nil]
        refine ⟨by rw [peekLoop, if_pos hc, h1]; rfl, h3, ?_⟩
        rw [this, h.size]; exact ⟨hc.1, hc.2.1⟩
      · by_cases he : ∃ e, b'.err = some e
        · right
          obtain ⟨e, he⟩ := he
          obtain ⟨fuel, rfl⟩ : ∃ m, fuel = m + 1 := ⟨fuel - 1, by omega⟩
          refine ⟨b', ?_, h2, h3, by simp [he]⟩
          rw [peekLoop, if_pos hc, h1, Out.bind_done, peekLoop, if_neg (by simp [he])]
        · have h5 : b.unread.length < b'.unread.length := h4.resolve_right he
          have := h2.le
          have := ih b' h2 (by omega)
          rw [peekLoop, if_pos hc, h1, Out.bind_done, ← h3]
          exact this
    · right
      exact ⟨b, by rw [peekLoop, if_neg hc], h, rfl, hc⟩

theorem peek_spec {b : GBuf ρ} {f : Flat} (h : GSim C b f) (n : Int) :
    OutRel (fun x y => x.1 = y ∧ GSim C x.2 f) (b.peek rd n) (f.peek n) := by
  by_cases hn : n < 0
  · simp only [peek, Flat.peek, if_pos hn]; exact ⟨rfl, h⟩
  · rw [peek, Flat.peek, if_neg hn, if_neg hn]
    rcases peekLoop_spec n.toNat (b.size + 2) b h (by omega) with ⟨h1, h2, h3, h4⟩ | ⟨b', h1, h2, h3, h4⟩
    · rw [h1, Out.bind_blocked]
      by_cases hs : n.toNat > f.size
      · rw [if_pos hs, if_neg (by omega), h2]; trivial
      · rw [if_neg hs, if_neg (by omega), h2]; trivial
    · rw [h1, Out.bind_done]
      by_cases hs : n.toNat > f.size
      · rw [if_pos hs, if_pos (by rw [← h2.size]; exact hs)]
        have hle := h2.le
        rw [← h2.size] at hle
        by_cases hfull : b'.unread.length = f.size
        · rw [if_pos (by rw [h2.bytes, List.length_append]; omega)]
          refine ⟨?_, h2⟩
          simp only [h2.bytes]
          rw [List.take_append_of_le_length (by omega), List.take_of_length_le (by omega)]
        · have herr : ∃ e, b'.err = some e := by
            cases hb : b'.err with
            | some e => exact ⟨e, rfl⟩
            | none => exact absurd ⟨by omega, by rw [← h2.size]; omega, hb⟩ h4
          obtain ⟨e, he⟩ := herr
          obtain ⟨h5, h6⟩ := h2.err e he
          have hb : f.bytes = b'.unread := by rw [h2.bytes, h5, List.append_nil]
          rw [if_neg (by rw [hb]; omega), h2.fin, h6]
          exact ⟨by rw [hb], h2⟩
      · rw [if_neg hs, if_neg (by rw [← h2.size]; exact hs)]
        by_cases hl : b'.unread.length < n.toNat
        · rw [if_pos hl]
          have herr : ∃ e, b'.err = some e := by
            cases hb : b'.err with
            | some e => exact ⟨e, rfl⟩
            | none => exact absurd ⟨hl, by rw [← h2.size]; omega, hb⟩ h4
          obtain ⟨e, he⟩ := herr
          obtain ⟨h5, h6⟩ := h2.err e he
          have hb : f.bytes = b'.unread := by rw [h2.bytes, h5, List.append_nil]
          rw [if_neg (by rw [hb]; omega), h2.fin, h6]
          exact ⟨by rw [hb, he]; rfl, ⟨h2.size, h2.pos, h2.bytes, h2.fin, h2.le, h2.ok, fun e' he' => by cases he'⟩⟩
        · rw [if_neg hl, if_pos (by rw [h2.bytes, List.length_append]; omega)]
          refine ⟨?_, h2⟩
          rw [h2.bytes, List.take_append_of_le_length (by omega)]

/-- Dropping unread bytes on both sides. -/
theorem _root_.GoThrift.GSim.drop {b : GBuf ρ} {f : Flat} (h : GSim C b f) (k : Nat) (hk : k ≤ b.unread.length) :
    GSim C { b with unread := b.unread.drop k } { f with bytes := f.bytes.drop k } :=
  ⟨h.size, h.pos, by simp only [h.bytes]; rw [List.drop_append_of_le_length hk], h.fin, by
    simp only [List.length_drop]; have := h.le; omega, h.ok, h.err⟩

theorem _root_.GoThrift.GSim.clear {b : GBuf ρ} {f : Flat} (h : GSim C b f) : GSim C { b with err := none } f :=
  ⟨h.size, h.pos, h.bytes, h.fin, h.le, h.ok, fun e he => by cases he⟩

theorem discardLoop_spec : ∀ (fuel remain : Nat) (b : GBuf ρ) (f : Flat), GSim C b f → 0 < remain → remain ≤ fuel →
    OutRel (GSimRes C) (discardLoop rd fuel remain b) (f.discard remain) := by
  intro fuel
  induction fuel with
  | zero => intro remain b f h h0 hle; omega
  | succ fuel ih =>
    intro remain b f h h0 hle
    have key : ∀ b', GSim C b' f → (0 < b'.unread.length ∨ ∃ e, b'.err = some e) →
        OutRel (GSimRes C) (let skip := min b'.unread.length remain
          let b := { b' with unread := b'.unread.drop skip }
          if remain - skip = 0 then .done (none, b)
          else match b.err with
            | some e => .done (some e, { b with err := none })
            | none => discardLoop rd fuel (remain - skip) b) (f.discard remain) := by
      intro b' h' hor
      dsimp only
      have hd := h'.drop (min b'.unread.length remain) (by omega)
      by_cases hr : remain - min b'.unread.length remain = 0
      · rw [if_pos hr]
        have hmin : min b'.unread.length remain = remain := by omega
        rw [Flat.discard, if_neg (by omega), if_pos (by rw [h'.bytes, List.length_append]; omega)]
        refine ⟨rfl, ?_⟩
        rw [hmin] at hd ⊢
        exact hd
      · rw [if_neg hr]
        have hmin : min b'.unread.length remain = b'.unread.length := by omega
        rw [hmin] at hd hr ⊢
        cases he : b'.err with
        | some e =>
          obtain ⟨h5, h6⟩ := h'.err e he
          have hb : f.bytes = b'.unread := by rw [h'.bytes, h5, List.append_nil]
          rw [f.discard_short_err (by rw [hb]; omega) (h'.fin.trans h6)]
          refine ⟨rfl, ?_⟩
          have := hd.clear
          have hnil : f.bytes.drop b'.unread.length = [] := by rw [hb, List.drop_of_length_le (by omega)]
          rw [hnil] at this
          exact this
        | none =>
          have hpos : 0 < b'.unread.length := hor.resolve_right (by simp [he])
          have := ih (remain - b'.unread.length) _ _ hd (by omega) (by omega)
          rw [he] at this
          have e1 : f.discard remain = (Flat.discard { f with bytes := f.bytes.drop b'.unread.length }
              ((remain - b'.unread.length : Nat) : Int)) := by
            have hbl : b'.unread.length ≤ f.bytes.length := by rw [h'.bytes, List.length_append]; omega
            simp only [Flat.discard]
            rw [if_neg (by omega : ¬ (remain : Int) < 0), if_neg (by omega : ¬ ((remain - b'.unread.length : Nat) : Int) < 0)]
            simp only [Int.toNat_natCast, List.length_drop, List.drop_drop]
            by_cases hl : remain ≤ f.bytes.length
            · rw [if_pos hl, if_pos (by omega)]
              have : b'.unread.length + (remain - b'.unread.length) = remain := by omega
              rw [this]
            · rw [if_neg hl, if_neg (by omega)]
          rw [e1]
          exact this
    rw [discardLoop]
    by_cases hu : b.unread.length = 0
    · rw [if_pos hu]
      rcases fill_spec h (by have := h.pos; omega) with ⟨h1, h2, h3⟩ | ⟨b', h1, h2, h3, h4⟩
      · have : f.bytes = b.unread := by rw [h.bytes, h2, List.append_nil]
        rw [h1, Flat.discard, if_neg (by omega), if_neg (by rw [this, hu]; omega), h3]
        trivial
      · rw [h1, Out.bind_done]
        exact key b' h2 (h4.imp (by omega) id)
    · rw [if_neg hu, Out.bind_done]
      exact key b h (.inl (by omega))

theorem discard_spec {b : GBuf ρ} {f : Flat} (h : GSim C b f) (n : Int) : OutRel (GSimRes C) (b.discard rd n) (f.discard n) := by
  by_cases hn : n < 0
  · simp only [discard, Flat.discard, if_pos hn]; exact ⟨rfl, h⟩
  · by_cases h0 : n.toNat = 0
    · rw [discard, Flat.discard, if_neg hn, if_neg hn, if_pos h0, if_pos (by omega), h0]
      exact ⟨rfl, h⟩
    · rw [discard, if_neg hn, if_neg h0]
      have := discardLoop_spec (n.toNat + 1) n.toNat b f h (by omega) (by omega)
      rwa [Int.toNat_of_nonneg (by omega)] at this

theorem readByte_spec {b : GBuf ρ} {f : Flat} (h : GSim C b f) : OutRel (GSimRes C) (b.readByte rd) f.readByte := by
  have nonempty : ∀ (b : GBuf ρ), GSim C b f → ∀ c cs, b.unread = c :: cs →
      OutRel (GSimRes C) (.done ((.ok c : Except Err Byte), { b with unread := cs }) : Out (Except Err Byte × GBuf ρ)) f.readByte := by
    intro b h c cs hu
    have hb : f.bytes = c :: (cs ++ C.left b.src) := by rw [h.bytes, hu]; rfl
    rw [Flat.readByte, hb]
    refine ⟨rfl, h.size, h.pos, rfl, h.fin, ?_, h.ok, h.err⟩
    have := h.le; rw [hu, List.length_cons] at this; simp only; omega
  have witherr : ∀ (b : GBuf ρ), GSim C b f → ∀ e, b.unread = [] → b.err = some e →
      OutRel (GSimRes C) (.done ((.error e : Except Err Byte), { b with err := none }) : Out (Except Err Byte × GBuf ρ)) f.readByte := by
    intro b h e hu he
    obtain ⟨h5, h6⟩ := h.err e he
    have hb : f.bytes = [] := by rw [h.bytes, h5, hu]; rfl
    rw [Flat.readByte, hb, h.fin, h6]
    exact ⟨rfl, h.clear⟩
  rw [readByte, readByteLoop]
  split
  · exact nonempty b h _ _ ‹_›
  · rename_i hu
    split
    · exact witherr b h _ hu ‹_›
    · rcases fill_spec h (by rw [hu]; exact h.pos) with ⟨h1, h2, h3⟩ | ⟨b', h1, h2, h3, h4⟩
      · rw [h1, Flat.readByte]
        have : f.bytes = [] := by rw [h.bytes, h2, hu]; rfl
        rw [this, h3]; trivial
      · rw [h1, Out.bind_done, readByteLoop]
        split
        · exact nonempty b' h2 _ _ ‹_›
        · rename_i hu'
          obtain ⟨e, he⟩ := h4.resolve_left (by rw [hu']; simp)
          rw [he]
          exact witherr b' h2 e hu' he

open BufReader (fullAns fullAns_step fullAns_short fullAns_blocked)

theorem readFullLoop_spec (n : Nat) : ∀ (fuel : Nat) (acc : Bytes) (b : GBuf ρ) (f : Flat), GSim C b f → acc.length ≤ n →
    100 * (n - acc.length) + C.idle b.src + 1 ≤ fuel →
    OutRel (GSimRes C) (readFullLoop rd fuel n acc b) (fullAns acc n f) := by
  intro fuel
  induction fuel with
  | zero => intro acc b f h hle hj; omega
  | succ fuel ih =>
    intro acc b f h hle hj
    rw [readFullLoop]
    by_cases hdone : acc.length ≥ n
    · rw [if_pos hdone]
      have : n - acc.length = 0 := by omega
      rw [fullAns, this, if_pos (by omega)]
      simp only [List.take_zero, List.append_nil, List.drop_zero]
      exact ⟨rfl, h⟩
    · rw [if_neg hdone]
      have hcap : n - acc.length ≠ 0 := by omega
      -- a successful partial read of `p`, continued
      have go : ∀ (p q : Bytes) (b' : GBuf ρ), 0 < p.length → p.length ≤ n - acc.length → f.bytes = p ++ q →
          GSim C b' { f with bytes := q } →
          OutRel (GSimRes C) (readFullLoop rd fuel n (acc ++ p) b') (fullAns acc n f) := by
        intro p q b' hk0 hk1 hk2 hb'
        have hstep := fullAns_step acc n p.length f (by rw [hk2, List.length_append]; omega) (by omega)
        rw [hk2, List.take_left', List.drop_left'] at hstep <;> try rfl
        have hf : ({ f with bytes := q } : Flat) = { f with bytes := q } := rfl
        rw [← hstep]
        have := C.idle_lt _ hb'.ok
        exact ih _ _ _ hb' (by rw [List.length_append]; omega) (by rw [List.length_append]; omega)
      rw [read, if_neg hcap]
      by_cases hu : b.unread.length = 0
      · rw [if_pos hu]
        have hu' : b.unread = [] := List.length_eq_zero_iff.1 hu
        cases he : b.err with
        | some e =>
          obtain ⟨h5, h6⟩ := h.err e he
          have hb : f.bytes = [] := by rw [h.bytes, h5, hu']; rfl
          simp only [Out.bind_done, List.append_nil]
          rw [if_neg hdone, fullAns_short (by rw [hb]; simp; omega) (h.fin.trans h6), hb]
          simp only [List.append_nil]
          refine ⟨rfl, ?_⟩
          have := h.clear
          exact ⟨this.size, this.pos, by rw [← hb]; exact this.bytes, this.fin, this.le, this.ok, this.err⟩
        | none =>
          dsimp only
          by_cases hbig : n - acc.length ≥ b.size
          · rw [if_pos hbig]
            rcases C.cases b.src (n - acc.length) h.ok (by omega) with ⟨s', hr, h1, h2, h3, h4⟩ | ⟨hr, h1, h2⟩ | ⟨e, s', hr, h1, h2, h3, h4, h5⟩ |
              ⟨p, err, s', hr, h1, h2, h3, h4, h5, h6⟩
            · rw [hr]
              simp only [Out.bind_done, List.append_nil]
              exact ih acc _ f ⟨h.size, h.pos, by simp only [h2]; exact h.bytes, by simp only [h3]; exact h.fin, h.le, h1, fun e' he' => by cases he'⟩ hle (by
                show _ + C.idle s' + 1 ≤ _; omega)
            · have hb : f.bytes = [] := by rw [h.bytes, h1, hu']; rfl
              rw [hr, fullAns_blocked (by rw [hb]; simp; omega) (h.fin.trans h2)]
              trivial
            · have hb : f.bytes = [] := by rw [h.bytes, h2, hu']; rfl
              rw [hr]
              simp only [Out.bind_done, List.append_nil]
              rw [if_neg hdone, fullAns_short (by rw [hb]; simp; omega) (h.fin.trans h5), hb]
              simp only [List.append_nil]
              exact ⟨rfl, h.size, h.pos, by simp only [hu', h3]; rfl, by simp only [h4]; exact h.fin, h.le, h1, fun e' he' => by cases he'⟩
            · have hb : f.bytes = p ++ C.left s' := by rw [h.bytes, hu', h4]; rfl
              rw [hr]
              simp only [Out.bind_done]
              have hsim : GSim C { b with err := none, src := s' } { f with bytes := C.left s' } :=
                ⟨h.size, h.pos, by simp [hu'], by simp only [h5]; exact h.fin, h.le, h1, fun e' he' => by cases he'⟩
              cases err with
              | none => exact go p _ _ h2 h3 hb hsim
              | some e =>
                obtain ⟨h7, h8⟩ := h6 e rfl
                rw [h7] at hsim
                rw [h7, List.append_nil] at hb
                dsimp only
                by_cases hfull : (acc ++ p).length ≥ n
                · rw [if_pos hfull]
                  have hkn : n - acc.length = p.length := by rw [List.length_append] at hfull; omega
                  rw [fullAns, hkn, if_pos (by rw [hb]; exact Nat.le_refl _), hb, List.take_length, List.drop_length]
                  exact ⟨rfl, hsim⟩
                · rw [if_neg hfull]
                  rw [List.length_append] at hfull
                  rw [fullAns_short (by rw [hb]; omega) (h.fin.trans h8), hb]
                  exact ⟨rfl, hsim⟩
          · rw [if_neg hbig]
            rcases C.cases b.src b.size h.ok h.pos with ⟨s', hr, h1, h2, h3, h4⟩ | ⟨hr, h1, h2⟩ | ⟨e, s', hr, h1, h2, h3, h4, h5⟩ |
              ⟨p, err, s', hr, h1, h2, h3, h4, h5, h6⟩
            · rw [hr]
              simp only [Out.bind_done, List.length_nil, if_true, List.append_nil]
              exact ih acc _ f ⟨h.size, h.pos, by simp only [h2]; exact h.bytes, by simp only [h3]; exact h.fin, h.le, h1, fun e' he' => by cases he'⟩ hle (by
                show _ + C.idle s' + 1 ≤ _; omega)
            · have hb : f.bytes = [] := by rw [h.bytes, h1, hu']; rfl
              rw [hr, fullAns_blocked (by rw [hb]; simp; omega) (h.fin.trans h2)]
              trivial
            · have hb : f.bytes = [] := by rw [h.bytes, h2, hu']; rfl
              rw [hr]
              simp only [Out.bind_done, List.length_nil, if_true, List.append_nil]
              rw [if_neg hdone, fullAns_short (by rw [hb]; simp; omega) (h.fin.trans h5), hb]
              simp only [List.append_nil]
              exact ⟨rfl, h.size, h.pos, by simp only [hu', h3]; rfl, by simp only [h4]; exact h.fin, h.le, h1, fun e' he' => by cases he'⟩
            · have hb : f.bytes = p ++ C.left s' := by rw [h.bytes, hu', h4]; rfl
              rw [hr]
              simp only [Out.bind_done]
              rw [if_neg (by omega), Out.bind_done]
              dsimp only
              refine go (p.take (n - acc.length)) (p.drop (n - acc.length) ++ C.left s') _ (by rw [List.length_take]; omega) (by rw [List.length_take]; omega)
                (by rw [← List.append_assoc, List.take_append_drop]; exact hb) ?_
              exact ⟨h.size, h.pos, rfl, by simp only [h5]; exact h.fin, by simp only [List.length_drop]; omega, h1, fun e' he' => ⟨(h6 e' he').1, h5.trans (h6 e' he').2⟩⟩
      · rw [if_neg hu]
        simp only [Out.bind_done]
        refine go (b.unread.take (n - acc.length)) (b.unread.drop (n - acc.length) ++ C.left b.src) _ (by rw [List.length_take]; omega) (by rw [List.length_take]; omega)
          (by rw [← List.append_assoc, List.take_append_drop]; exact h.bytes) ?_
        exact ⟨h.size, h.pos, rfl, h.fin, by simp only [List.length_drop]; have := h.le; omega, h.ok, h.err⟩

theorem readFull_spec {b : GBuf ρ} {f : Flat} (h : GSim C b f) (n : Nat) : OutRel (GSimRes C) (b.readFull rd n) (f.readFull n) := by
  have hi := C.idle_lt _ h.ok
  have := readFullLoop_spec n (100 * (n + 2)) [] b f h (Nat.zero_le _) (by simp; omega)
  have e : fullAns [] n f = f.readFull n := by
    simp only [fullAns, Flat.readFull, List.length_nil, Nat.sub_zero, List.nil_append, List.length_pos_iff]
    rfl
  rw [← e]
  exact this

end GBuf

/-- Any program gives the same on a `bufio.Reader` as on the flat stream. -/
theorem BProg.runG_sim {α : Type} (p : BProg α) (b : GBuf ρ) (f : Flat) (h : GSim C b f) :
    OutRel (GSimRes C) (p.runG rd b) (p.run f) := by
  induction p generalizing b f with
  | ret a => exact ⟨rfl, h⟩
  | diverge => trivial
  | panic => trivial
  | peek n k ih =>
    refine (GBuf.peek_spec h n).bind ?_
    rintro ⟨⟨x, e⟩, b'⟩ ⟨y, e'⟩ ⟨h1, h2⟩
    cases h1
    exact ih _ _ _ _ h2
  | discard n k ih =>
    refine (GBuf.discard_spec h n).bind ?_
    rintro ⟨e, b'⟩ ⟨e', f'⟩ ⟨h1, h2⟩
    cases h1
    exact ih _ _ _ h2
  | readByte k ih =>
    refine (GBuf.readByte_spec h).bind ?_
    rintro ⟨e, b'⟩ ⟨e', f'⟩ ⟨h1, h2⟩
    cases h1
    exact ih _ _ _ h2
  | readFull n k ih =>
    refine (GBuf.readFull_spec h n).bind ?_
    rintro ⟨⟨x, e⟩, b'⟩ ⟨⟨y, e'⟩, f'⟩ ⟨h1, h2⟩
    cases h1
    exact ih _ _ _ _ h2
  | size k ih =>
    rw [BProg.runG, BProg.run, h.size]
    exact ih _ _ _ h


/-- Same for protocol readers: same fields, same bytes. -/
def GRSim (C : rd.Contract) {S : Type} (x : S × GBuf ρ) (y : S × Flat) : Prop := x.1 = y.1 ∧ GSim C x.2 y.2

theorem Binary.gReader_sim (strict : Bool) (o : ROp) (s : Unit × GBuf ρ) (t : Unit × Flat) (h : GRSim C s t) :
    OutRel (fun x y => x.1 = y.1 ∧ GRSim C x.2 y.2) ((Binary.gReader rd strict).step o s) ((Binary.reader strict).step o t) := by
  obtain ⟨h1, h2⟩ := h
  refine OutRel.bind (BProg.runG_sim ((Binary.impl strict o) s.1) s.2 t.2 h2) ?_
  rintro ⟨⟨x, c⟩, b⟩ ⟨⟨y, c'⟩, f⟩ ⟨h3, h4⟩
  cases h3
  exact ⟨rfl, rfl, h4⟩

theorem Compact.gReader_sim (o : ROp) (s : RState × GBuf ρ) (t : RState × Flat) (h : GRSim C s t) :
    OutRel (fun x y => x.1 = y.1 ∧ GRSim C x.2 y.2) ((gReader rd).step o s) (reader.step o t) := by
  obtain ⟨h1, h2⟩ := h
  obtain ⟨c, b⟩ := s
  obtain ⟨c', f⟩ := t
  cases h1
  refine OutRel.bind (BProg.runG_sim ((impl o) c) b f h2) ?_
  rintro ⟨⟨x, c⟩, b⟩ ⟨⟨y, c'⟩, f⟩ ⟨h3, h4⟩
  cases h3
  exact ⟨rfl, rfl, h4⟩

/-- A `bufio.Reader` keeps the contract if what it reads from does. -/
def GBuf.contract (C : rd.Contract) : ReadFn.Contract (GBuf.read rd) where
  ok b := C.ok b.src ∧ 0 < b.size ∧ b.unread.length ≤ b.size ∧ ∀ e, b.err = some e → C.left b.src = [] ∧ C.fin b.src = .err e
  left b := b.unread ++ C.left b.src
  fin b := C.fin b.src
  idle b := C.idle b.src
  idle_lt b h := C.idle_lt _ h.1
  total := by
    rintro b cap ⟨h1, h2, h3, h4⟩ hcap
    rw [read, if_neg (by omega)]
    by_cases hu : b.unread.length = 0
    · rw [if_pos hu]
      have hu' : b.unread = [] := List.length_eq_zero_iff.1 hu
      cases he : b.err with
      | some e => exact .inr ⟨_, rfl⟩
      | none =>
        dsimp only
        by_cases hbig : cap ≥ b.size
        · rw [if_pos hbig]
          rcases C.total b.src cap h1 hcap with ⟨g1, g2, g3⟩ | ⟨r, g1⟩
          · rw [g1, hu']; exact .inl ⟨rfl, g2, g3⟩
          · rw [g1]; exact .inr ⟨_, rfl⟩
        · rw [if_neg hbig]
          rcases C.total b.src b.size h1 h2 with ⟨g1, g2, g3⟩ | ⟨r, g1⟩
          · rw [g1, hu']; exact .inl ⟨rfl, g2, g3⟩
          · rw [g1, Out.bind_done]
            by_cases hr : r.1.1.length = 0
            · rw [if_pos hr]; exact .inr ⟨_, rfl⟩
            · rw [if_neg hr]; exact .inr ⟨_, rfl⟩
    · rw [if_neg hu]; exact .inr ⟨_, rfl⟩
  keeps := by
    rintro b cap p e b' ⟨h1, h2, h3, h4⟩ hcap hr
    rw [read, if_neg (by omega)] at hr
    by_cases hu : b.unread.length = 0
    · rw [if_pos hu] at hr
      have hu' : b.unread = [] := List.length_eq_zero_iff.1 hu
      cases he : b.err with
      | some e =>
        rw [he] at hr
        cases hr
        obtain ⟨g1, g2⟩ := h4 e he
        exact ⟨⟨h1, h2, h3, fun e' he' => by cases he'⟩, Nat.zero_le _, rfl, rfl, fun x hx => by
          cases hx; exact ⟨by rw [hu', g1]; rfl, g2⟩, fun _ hn => by cases hn⟩
      | none =>
        rw [he] at hr
        dsimp only at hr
        by_cases hbig : cap ≥ b.size
        · rw [if_pos hbig] at hr
          rcases C.total b.src cap h1 hcap with ⟨g1, -, -⟩ | ⟨⟨⟨q, e'⟩, s'⟩, g1⟩
          · rw [g1] at hr; cases hr
          · rw [g1, Out.bind_done] at hr
            obtain ⟨k1, k2, k3, k4, k5, k6⟩ := C.keeps _ _ _ _ _ h1 hcap g1
            cases hr
            exact ⟨⟨k1, h2, h3, fun e' he' => by cases he'⟩, k2, by simp only [hu']; exact k3, k4, fun x hx => by
              simp only [hu']; exact k5 x hx, k6⟩
        · rw [if_neg hbig] at hr
          rcases C.total b.src b.size h1 h2 with ⟨g1, -, -⟩ | ⟨⟨⟨q, e'⟩, s'⟩, g1⟩
          · rw [g1] at hr; cases hr
          · rw [g1, Out.bind_done] at hr
            obtain ⟨k1, k2, k3, k4, k5, k6⟩ := C.keeps _ _ _ _ _ h1 h2 g1
            dsimp only at hr
            by_cases hq : q.length = 0
            · rw [if_pos hq] at hr
              have hq' : q = [] := List.length_eq_zero_iff.1 hq
              subst hq'
              cases hr
              exact ⟨⟨k1, h2, h3, fun e' he' => by cases he'⟩, Nat.zero_le _, by simp only [hu']; exact k3, k4, fun x hx => by
                simp only [hu']; exact k5 x hx, fun _ hn => k6 rfl hn⟩
            · rw [if_neg hq] at hr
              cases hr
              refine ⟨⟨k1, h2, by simp only [List.length_drop]; omega, fun x hx => ?_⟩, by rw [List.length_take]; omega, ?_, k4, (fun x hx => by cases hx), fun hn => ?_⟩
              · obtain ⟨m1, m2⟩ := k5 x hx
                exact ⟨m1, k4.trans m2⟩
              · simp only [hu', List.nil_append]
                rw [← List.append_assoc, List.take_append_drop]; exact k3
              · have := congrArg List.length hn
                rw [List.length_take] at this
                simp only [List.length_nil] at this
                omega
    · rw [if_neg hu] at hr
      cases hr
      refine ⟨⟨h1, h2, by simp only [List.length_drop]; omega, h4⟩, by rw [List.length_take]; omega, ?_, rfl, (fun x hx => by cases hx), fun hn => ?_⟩
      · rw [← List.append_assoc, List.take_append_drop]
      · have := congrArg List.length hn
        rw [List.length_take] at this
        simp only [List.length_nil] at this
        omega

/-! ## The transports of `Verif/Model/Bufio.lean` -/

namespace Source

/-- The number of empty reads to come. -/
def empties (sched : Nat → Nat × Bool) : Nat → Nat → Nat
  | 0, _ => 0
  | n + 1, i => if (sched i).1 = 0 then empties sched n (i + 1) + 1 else 0

theorem empties_lt (sched : Nat → Nat × Bool) : ∀ (n i j : Nat), j < n → (sched (i + j)).1 ≠ 0 → empties sched n i ≤ j
  | 0, _, _, h, _ => by omega
  | n + 1, i, j, h, hs => by
    rw [empties]
    by_cases h0 : (sched i).1 = 0
    · rw [if_pos h0]
      cases j with
      | zero => exact absurd h0 hs
      | succ j =>
        have := empties_lt sched n (i + 1) j (by omega) (by rw [show i + 1 + j = i + (j + 1) by omega]; exact hs)
        omega
    · rw [if_neg h0]; omega

theorem empties_more (sched : Nat → Nat × Bool) : ∀ (n i j : Nat), j < n → (sched (i + j)).1 ≠ 0 → empties sched (n + 1) i = empties sched n i
  | 0, _, _, h, _ => by omega
  | n + 1, i, j, h, hs => by
    conv => lhs; rw [empties]
    conv => rhs; rw [empties]
    by_cases h0 : (sched i).1 = 0
    · rw [if_pos h0, if_pos h0]
      cases j with
      | zero => exact absurd h0 hs
      | succ j => rw [empties_more sched n (i + 1) j (by omega) (by rw [show i + 1 + j = i + (j + 1) by omega]; exact hs)]
    · rw [if_neg h0, if_neg h0]

/-- They keep the contract. -/
def contract : ReadFn.Contract Source.read where
  ok s := s.Fair
  left s := s.data
  fin s := s.fin
  idle s := empties s.sched 100 s.idx
  idle_lt s h := by
    obtain ⟨j, hj, hs⟩ := h s.idx
    have := empties_lt s.sched 100 s.idx j hj hs
    omega
  total s cap h hcap := by
    rw [read]
    by_cases h0 : (s.sched s.idx).1 = 0
    · rw [if_pos h0]; exact .inr ⟨_, rfl⟩
    · rw [if_neg h0]
      by_cases hd : s.data = []
      · rw [if_pos hd]
        cases hf : s.fin with
        | block => exact .inl ⟨rfl, hd, rfl⟩
        | err e => exact .inr ⟨_, rfl⟩
      · rw [if_neg hd]; exact .inr ⟨_, rfl⟩
  keeps s cap p e s' h hcap hr := by
    rw [read] at hr
    by_cases h0 : (s.sched s.idx).1 = 0
    · rw [if_pos h0] at hr
      cases hr
      refine ⟨h, Nat.zero_le _, rfl, rfl, (fun x hx => by cases hx), fun _ _ => ?_⟩
      obtain ⟨j, hj, hs⟩ := h s.idx
      cases j with
      | zero => exact absurd h0 hs
      | succ j =>
        show empties s.sched (99 + 1) (s.idx + 1) < empties s.sched (99 + 1) s.idx
        rw [empties_more s.sched 99 (s.idx + 1) j (by omega) (by rw [show s.idx + 1 + j = s.idx + (j + 1) by omega]; exact hs)]
        conv => rhs; rw [empties, if_pos h0]
        omega
    · rw [if_neg h0] at hr
      by_cases hd : s.data = []
      · rw [if_pos hd] at hr
        cases hf : s.fin with
        | block => rw [hf] at hr; cases hr
        | err e' =>
          rw [hf] at hr
          cases hr
          exact ⟨h, Nat.zero_le _, rfl, rfl, (fun x hx => by cases hx; exact ⟨hd, rfl⟩), fun _ hn => by cases hn⟩
      · rw [if_neg hd] at hr
        have hlen := List.length_pos_iff.2 hd
        cases hr
        refine ⟨h, by rw [List.length_take]; omega, (List.take_append_drop _ _).symm, rfl, fun x hx => ?_, fun hn => ?_⟩
        · cases hf : s.fin with
          | block => rw [hf] at hx; cases hx
          | err e' =>
            rw [hf] at hx
            dsimp only at hx
            split at hx
            · rename_i hc
              cases hx
              exact ⟨hc.2, rfl⟩
            · cases hx
        · have := congrArg List.length hn
          rw [List.length_take] at this
          simp only [List.length_nil] at this
          omega

end Source

end GoThrift
