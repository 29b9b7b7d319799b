import Verif.Model.Memory
import Verif.Proof.Bufio

/-!
# The array of a `bufio.Reader` behaves as the unread bytes as a value
-/

namespace GoThrift.Mem

namespace ArrReader

/-- The part `buf[r:w]` is one. -/
structure OK (b : ArrReader) : Prop where
  rw : b.r ≤ b.w
  wl : b.w ≤ b.buf.length

/-- What `Verif/Model/Bufio.lean` keeps of it. -/
def abs (b : ArrReader) : BufReader := ⟨b.buf.length, b.load ⟨b.r, b.w⟩, b.err, b.src⟩

theorem abs_len {b : ArrReader} (h : b.OK) : b.abs.unread.length = b.w - b.r := by
  have := h.rw; have := h.wl
  simp only [abs, load, List.length_drop, List.length_take]
  omega

/-- The two are related. -/
def Rel {α : Type} (x : α × ArrReader) (y : α × BufReader) : Prop := x.1 = y.1 ∧ x.2.OK ∧ x.2.abs = y.2

/-- The two are related, no answer. -/
def Rel0 (x : ArrReader) (y : BufReader) : Prop := x.OK ∧ x.abs = y

theorem store_length {b : ArrReader} {lo : Nat} {p : Bytes} (h : lo ≤ b.buf.length) : (b.store lo p).buf.length = b.buf.length := by
  simp only [store, List.length_append, List.length_take, List.length_drop]
  omega

theorem read_le {s : Source} {cap : Nat} {x : (Bytes × Option Err) × Source} (h : s.read cap = .done x) : x.1.1.length ≤ cap := by
  unfold Source.read at h
  dsimp only at h
  split at h
  · cases h; exact Nat.zero_le _
  · split at h
    · split at h
      · cases h
      · cases h; exact Nat.zero_le _
    · cases h
      simp only [List.length_take]
      omega

/-- Storing data of length at most the room, and then anything. -/
theorem store_take {b : ArrReader} {lo : Nat} {p q : Bytes} (h : lo ≤ b.buf.length) (hp : p.length ≤ b.buf.length - lo) :
    (b.store lo (p ++ q)).buf.take (lo + p.length) = b.buf.take lo ++ p := by
  simp only [store]
  rw [List.append_assoc, List.take_append, List.take_append, List.length_take, Nat.min_eq_left h, Nat.add_sub_cancel_left,
    List.length_take, List.take_take, List.take_take]
  have h1 : min (lo + p.length) lo = lo := by omega
  have h2 : min p.length (b.buf.length - lo) = p.length := by omega
  rw [h1, h2, List.take_append_of_le_length (Nat.le_refl _), List.take_length]
  have h3 : p.length - min (b.buf.length - lo) (p ++ q).length = 0 := by
    simp only [List.length_append]; omega
  rw [h3, List.take_zero, List.append_nil]

theorem readAt_spec {b : ArrReader} {lo : Nat} (h : lo ≤ b.buf.length) :
    OutRel (fun x y => x.1.1 = y.1.1.length ∧ x.1.2 = y.1.2 ∧ y.1.1.length ≤ b.buf.length - lo ∧ x.2.buf.length = b.buf.length ∧
        x.2.buf.take (lo + y.1.1.length) = b.buf.take lo ++ y.1.1 ∧ x.2.r = b.r ∧ x.2.w = b.w ∧ x.2.err = b.err ∧ x.2.src = y.2)
      (b.readAt lo) (b.src.read (b.buf.length - lo)) := by
  unfold readAt
  cases hr : b.src.read (b.buf.length - lo) with
  | done y =>
    have hl := read_le hr
    exact ⟨rfl, rfl, hl, store_length h, store_take h hl, rfl, rfl, rfl, rfl⟩
  | blocked => trivial
  | diverged => trivial
  | panicked => trivial

theorem fillLoop_spec : ∀ (i : Nat) (b : ArrReader), b.OK → b.r = 0 → OutRel Rel0 (fillLoop i b) (BufReader.fillLoop i b.abs)
  | 0, b, h, _ => ⟨⟨h.rw, h.wl⟩, rfl⟩
  | i + 1, b, h, h0 => by
    unfold fillLoop BufReader.fillLoop
    rw [abs_len h]
    show OutRel _ _ ((b.src.read (b.buf.length - (b.w - b.r))).bind _)
    rw [show b.w - b.r = b.w from by omega]
    refine (readAt_spec h.wl).bind ?_
    rintro ⟨⟨n, e⟩, b'⟩ ⟨⟨data, e'⟩, src⟩ ⟨h1, h2, h3, h4, h5, h6, h7, h8, h9⟩
    dsimp only at h1 h2 h3 h4 h5 h6 h7 h8 h9
    subst h1 h2 h9
    have hok : ({ b' with w := b'.w + data.length } : ArrReader).OK := by
      refine ⟨?_, ?_⟩
      · show b'.r ≤ b'.w + data.length; omega
      · have := h.wl
        show b'.w + data.length ≤ b'.buf.length; omega
    have habs : ∀ e, ({ b' with w := b'.w + data.length, err := e } : ArrReader).abs =
        ⟨b.abs.size, b.abs.unread ++ data, e, b'.src⟩ := by
      intro e
      simp only [abs, load, h4, h6, h7, h0, List.drop_zero, h5]
    dsimp only
    cases e with
    | some e =>
      exact ⟨⟨hok.rw, hok.wl⟩, habs _⟩
    | none =>
      dsimp only
      by_cases hd : data.length > 0
      · rw [if_pos hd, if_pos hd]
        refine ⟨hok, ?_⟩
        have := habs b'.err
        rw [h8] at this
        rw [h8]
        exact this
      · rw [if_neg hd, if_neg hd]
        have h10 := fillLoop_spec i _ hok (h6.trans h0)
        rw [habs b'.err, h8] at h10
        rw [h8]
        exact h10

theorem slide_spec {b : ArrReader} (h : b.OK) : b.slide.OK ∧ b.slide.r = 0 ∧ b.slide.w = b.w - b.r ∧ b.slide.abs = b.abs := by
  have h1 := h.rw; have h2 := h.wl
  unfold slide
  by_cases hr : b.r > 0
  · rw [if_pos hr]
    have hl : (b.store 0 (b.load ⟨b.r, b.w⟩)).buf.length = b.buf.length := store_length (Nat.zero_le _)
    have hlen : (b.load ⟨b.r, b.w⟩).length = b.w - b.r := abs_len h
    refine ⟨⟨Nat.zero_le _, ?_⟩, rfl, rfl, ?_⟩
    · show b.w - b.r ≤ (b.store 0 _).buf.length
      omega
    · have ht := store_take (b := b) (lo := 0) (p := b.load ⟨b.r, b.w⟩) (q := []) (Nat.zero_le _) (by omega)
      rw [List.append_nil, Nat.zero_add, hlen, List.take_zero, List.nil_append] at ht
      simp only [abs, hl]
      congr 1
  · rw [if_neg hr]
    exact ⟨h, by omega, by omega, rfl⟩

theorem fill_spec {b : ArrReader} (h : b.OK) : OutRel Rel0 b.fill b.abs.fill := by
  obtain ⟨h1, h2, h3, h4⟩ := slide_spec h
  unfold fill BufReader.fill
  dsimp only
  have hl : b.slide.buf.length = b.abs.size := by rw [← h4]; rfl
  rw [abs_len h, ← hl, h3]
  by_cases hc : b.w - b.r ≥ b.slide.buf.length
  · rw [if_pos hc, if_pos hc]; trivial
  · rw [if_neg hc, if_neg hc, ← h4]
    exact fillLoop_spec 100 _ h1 h2

theorem peekLoop_spec (n : Nat) : ∀ (fuel : Nat) (b : ArrReader), b.OK → OutRel Rel0 (peekLoop fuel n b) (BufReader.peekLoop fuel n b.abs)
  | 0, _, _ => trivial
  | fuel + 1, b, h => by
    unfold peekLoop BufReader.peekLoop
    rw [abs_len h]
    show OutRel _ (if b.w - b.r < n ∧ b.w - b.r < b.buf.length ∧ b.err = none then _ else _)
      (if b.w - b.r < n ∧ b.w - b.r < b.buf.length ∧ b.err = none then _ else _)
    by_cases hc : b.w - b.r < n ∧ b.w - b.r < b.buf.length ∧ b.err = none
    · rw [if_pos hc, if_pos hc]
      refine (fill_spec h).bind ?_
      rintro b' y ⟨h1, rfl⟩
      exact peekLoop_spec n fuel b' h1
    · rw [if_neg hc, if_neg hc]
      exact ⟨h, rfl⟩

/-- A slice `Peek` may return: unread bytes from the first on. -/
structure Front (b : ArrReader) (s : Slice) : Prop where
  le : s.lo ≤ s.hi
  fits : s.lo = b.r ∧ s.hi ≤ b.w ∨ s = ⟨0, 0⟩

theorem Front.len {b : ArrReader} {s : Slice} (h : b.OK) (hf : Front b s) : (b.load s).length = s.len := by
  have := h.rw; have := h.wl; have := hf.le
  simp only [load, Slice.len, List.length_drop, List.length_take]
  rcases hf.fits with hf | hf
  · omega
  · subst hf; rfl

/-- `Peek` returns a slice with the bytes the model of the unread bytes returns. -/
theorem peek_spec {b : ArrReader} (h : b.OK) (n : Int) :
    OutRel (fun x y => x.1.2 = y.1.2 ∧ x.2.OK ∧ x.2.abs = y.2 ∧ x.2.load x.1.1 = y.1.1 ∧ Front x.2 x.1.1) (b.peek n) (b.abs.peek n) := by
  unfold peek BufReader.peek
  by_cases hn : n < 0
  · rw [if_pos hn, if_pos hn]
    exact ⟨rfl, h, rfl, rfl, ⟨Nat.le_refl _, .inr rfl⟩⟩
  · rw [if_neg hn, if_neg hn]
    refine (peekLoop_spec n.toNat _ b h).bind ?_
    rintro b' y ⟨h1, rfl⟩
    have h2 := h1.rw; have h3 := h1.wl
    rw [abs_len h1]
    show OutRel _ (if n.toNat > b'.buf.length then _ else _) (if n.toNat > b'.buf.length then _ else _)
    by_cases hc : n.toNat > b'.buf.length
    · rw [if_pos hc, if_pos hc]
      exact ⟨rfl, h1, rfl, rfl, ⟨h2, .inl ⟨rfl, Nat.le_refl _⟩⟩⟩
    · rw [if_neg hc, if_neg hc]
      by_cases hc : b'.w - b'.r < n.toNat
      · rw [if_pos hc, if_pos hc]
        have : b'.r + (b'.w - b'.r) = b'.w := by omega
        rw [this]
        exact ⟨rfl, ⟨h2, h3⟩, rfl, rfl, ⟨h2, .inl ⟨rfl, Nat.le_refl _⟩⟩⟩
      · rw [if_neg hc, if_neg hc]
        refine ⟨rfl, h1, rfl, ?_, ⟨Nat.le_add_right _ _, .inl ⟨rfl, by show b'.r + n.toNat ≤ b'.w; omega⟩⟩⟩
        show (b'.buf.take (b'.r + n.toNat)).drop b'.r = ((b'.buf.take b'.w).drop b'.r).take n.toNat
        rw [List.drop_take, List.drop_take, List.take_take]
        congr 1
        omega

/-- Dropping unread bytes. -/
theorem abs_advance {b : ArrReader} (h : b.OK) {k : Nat} (hk : k ≤ b.w - b.r) :
    ({ b with r := b.r + k } : ArrReader).OK ∧
      ∀ e, ({ b with r := b.r + k, err := e } : ArrReader).abs = ⟨b.abs.size, b.abs.unread.drop k, e, b.src⟩ := by
  have h1 := h.rw; have h2 := h.wl
  refine ⟨⟨by show b.r + k ≤ b.w; omega, h2⟩, fun e => ?_⟩
  simp only [abs, load, List.drop_drop]

theorem discardLoop_spec : ∀ (fuel remain : Nat) (b : ArrReader), b.OK →
    OutRel Rel (discardLoop fuel remain b) (BufReader.discardLoop fuel remain b.abs)
  | 0, _, _, _ => trivial
  | fuel + 1, remain, b, h => by
    unfold discardLoop BufReader.discardLoop
    rw [abs_len h]
    refine OutRel.bind (R := Rel0) ?_ ?_
    · by_cases hc : b.w - b.r = 0
      · rw [if_pos hc, if_pos hc]; exact fill_spec h
      · rw [if_neg hc, if_neg hc]; exact ⟨h, rfl⟩
    · rintro b' y ⟨h1, rfl⟩
      dsimp only
      rw [abs_len h1]
      obtain ⟨h2, h3⟩ := abs_advance h1 (k := min (b'.w - b'.r) remain) (by omega)
      by_cases hc : remain - min (b'.w - b'.r) remain = 0
      · rw [if_pos hc, if_pos hc]
        exact ⟨rfl, h2, h3 _⟩
      · rw [if_neg hc, if_neg hc]
        have he : b'.abs.err = b'.err := rfl
        rw [he]
        cases hb : b'.err with
        | some e => exact ⟨rfl, ⟨h2.rw, h2.wl⟩, h3 none⟩
        | none =>
          dsimp only
          have h4 := discardLoop_spec fuel (remain - min (b'.w - b'.r) remain) { b' with r := b'.r + min (b'.w - b'.r) remain, err := none }
            ⟨h2.rw, h2.wl⟩
          rw [h3 none] at h4
          exact h4

theorem discard_spec {b : ArrReader} (h : b.OK) (n : Int) : OutRel Rel (b.discard n) (b.abs.discard n) := by
  unfold discard BufReader.discard
  by_cases hn : n < 0
  · rw [if_pos hn, if_pos hn]; exact ⟨rfl, h, rfl⟩
  · rw [if_neg hn, if_neg hn]
    by_cases h0 : n.toNat = 0
    · rw [if_pos h0, if_pos h0]; exact ⟨rfl, h, rfl⟩
    · rw [if_neg h0, if_neg h0]; exact discardLoop_spec _ _ b h

/-- Discarding bytes that are there moves nothing. -/
theorem discard_there {b : ArrReader} {k : Nat} (hk : k ≤ b.w - b.r) : b.discard k = .done (none, { b with r := b.r + k }) := by
  unfold discard
  rw [if_neg (by omega)]
  by_cases h0 : k = 0
  · subst h0; rfl
  · have hk' : (k : Int).toNat = k := rfl
    rw [hk', if_neg h0]
    unfold discardLoop
    rw [if_neg (by omega), Out.bind_done]
    dsimp only
    rw [show min (b.w - b.r) k = k from by omega, if_pos (Nat.sub_self _)]

theorem readByteLoop_spec : ∀ (fuel : Nat) (b : ArrReader), b.OK → OutRel Rel (readByteLoop fuel b) (BufReader.readByteLoop fuel b.abs)
  | 0, _, _ => trivial
  | fuel + 1, b, h => by
    have h1 := h.rw; have h2 := h.wl
    unfold readByteLoop BufReader.readByteLoop
    have hlen := abs_len h
    by_cases hc : b.r = b.w
    · rw [if_pos hc]
      have hnil : b.abs.unread = [] := List.length_eq_zero_iff.1 (by omega)
      rw [hnil]
      dsimp only
      have he : b.abs.err = b.err := rfl
      rw [he]
      cases hb : b.err with
      | some e => exact ⟨rfl, ⟨h1, h2⟩, by rw [← hnil]; rfl⟩
      | none =>
        refine (fill_spec h).bind ?_
        rintro b' y ⟨h1, rfl⟩
        exact readByteLoop_spec fuel b' h1
    · rw [if_neg hc]
      have hdrop : b.abs.unread = b.buf.getD b.r 0 :: b.abs.unread.drop 1 := by
        have hlt : b.r < (b.buf.take b.w).length := by simp only [List.length_take]; omega
        show (b.buf.take b.w).drop b.r = _ :: ((b.buf.take b.w).drop b.r).drop 1
        rw [List.drop_eq_getElem_cons hlt, List.getElem_take, List.drop_succ_cons, List.drop_zero]
        have : b.buf.getD b.r 0 = b.buf[b.r]'(by omega) := by
          rw [List.getD_eq_getElem?_getD, List.getElem?_eq_getElem (by omega)]; rfl
        rw [this]
      rw [hdrop]
      obtain ⟨h3, h4⟩ := abs_advance h (k := 1) (by omega)
      exact ⟨rfl, h3, h4 _⟩

theorem readByte_spec {b : ArrReader} (h : b.OK) : OutRel Rel b.readByte b.abs.readByte := readByteLoop_spec 2 b h

theorem read_spec {b : ArrReader} (h : b.OK) (cap : Nat) : OutRel Rel (b.read cap) (b.abs.read cap) := by
  have h1 := h.rw; have h2 := h.wl
  have he : b.abs.err = b.err := rfl
  unfold read BufReader.read
  rw [abs_len h]
  by_cases hcap : cap = 0
  · rw [if_pos hcap, if_pos hcap]
    by_cases hc : b.w - b.r > 0
    · rw [if_pos hc, if_pos hc]; exact ⟨rfl, h, rfl⟩
    · rw [if_neg hc, if_neg hc]; exact ⟨rfl, ⟨h1, h2⟩, rfl⟩
  · rw [if_neg hcap, if_neg hcap]
    by_cases hc : b.r = b.w
    · have hz : b.w - b.r = 0 := by omega
      rw [if_pos hc, if_pos hz, he]
      cases hb : b.err with
      | some e => exact ⟨rfl, ⟨h1, h2⟩, rfl⟩
      | none =>
        dsimp only
        show OutRel _ (if cap ≥ b.buf.length then _ else _) (if cap ≥ b.buf.length then _ else _)
        by_cases hs : cap ≥ b.buf.length
        · rw [if_pos hs, if_pos hs]
          show OutRel _ ((b.src.read cap).bind _) ((b.src.read cap).bind _)
          cases b.src.read cap with
          | done x => exact ⟨rfl, ⟨h1, h2⟩, rfl⟩
          | blocked => trivial
          | diverged => trivial
          | panicked => trivial
        · rw [if_neg hs, if_neg hs]
          refine (readAt_spec (b := { b with r := 0, w := 0, err := none }) (lo := 0) (Nat.zero_le _)).bind ?_
          rintro ⟨⟨n, e⟩, b'⟩ ⟨⟨data, e'⟩, src⟩ ⟨h1, h2, h3, h4, h5, h6, h7, h8, h9⟩
          dsimp only at h1 h2 h3 h4 h5 h6 h7 h8 h9
          subst h1 h2 h9
          rw [List.take_zero, List.nil_append, Nat.zero_add] at h5
          dsimp only
          by_cases hd : data.length = 0
          · rw [if_pos hd, if_pos hd]
            refine ⟨rfl, ⟨by show b'.r ≤ b'.w; omega, by show b'.w ≤ b'.buf.length; omega⟩, ?_⟩
            have : b.load ⟨b.r, b.w⟩ = [] := List.length_eq_zero_iff.1 (by
              show b.abs.unread.length = 0
              rw [abs_len h]; omega)
            show (⟨b'.buf.length, (b'.buf.take b'.w).drop b'.r, b'.err, b'.src⟩ : BufReader) = ⟨b.buf.length, b.load ⟨b.r, b.w⟩, none, b'.src⟩
            rw [this, h4, h7, h8, List.take_zero, List.drop_nil]
          · rw [if_neg hd, if_neg hd]
            have hle : data.length ≤ b'.buf.length := by omega
            refine ⟨?_, ⟨Nat.min_le_right _ _, hle⟩, ?_⟩
            · show ((b'.buf.take (min cap data.length)).drop 0, none) = (data.take cap, none)
              rw [List.drop_zero]
              have := congrArg (List.take cap) h5
              rw [List.take_take] at this
              rw [this]
            · show (⟨b'.buf.length, (b'.buf.take data.length).drop (min cap data.length), e, b'.src⟩ : BufReader) = ⟨b.buf.length, data.drop cap, e, b'.src⟩
              rw [h4, h5]
              congr 1
              by_cases hcl : cap ≤ data.length
              · rw [Nat.min_eq_left hcl]
              · rw [Nat.min_eq_right (by omega), List.drop_length, List.drop_eq_nil_of_le (by omega)]
    · have hz : ¬ b.w - b.r = 0 := by omega
      rw [if_neg hc, if_neg hz]
      obtain ⟨h3, h4⟩ := abs_advance h (k := min cap (b.w - b.r)) (by omega)
      refine ⟨?_, h3, ?_⟩
      · show ((b.buf.take (b.r + min cap (b.w - b.r))).drop b.r, none) = (((b.buf.take b.w).drop b.r).take cap, none)
        rw [List.drop_take, List.drop_take, List.take_take, Nat.add_sub_cancel_left]
      · refine (h4 b.err).trans ?_
        show (⟨b.buf.length, b.abs.unread.drop (min cap (b.w - b.r)), b.err, b.src⟩ : BufReader) = ⟨b.buf.length, b.abs.unread.drop cap, b.err, b.src⟩
        congr 1
        by_cases hcl : cap ≤ b.w - b.r
        · rw [Nat.min_eq_left hcl]
        · rw [Nat.min_eq_right (by omega), ← abs_len h, List.drop_length, List.drop_eq_nil_of_le (by have := abs_len h; omega)]

theorem readFullLoop_spec (n : Nat) : ∀ (fuel : Nat) (acc : Bytes) (b : ArrReader), b.OK →
    OutRel Rel (readFullLoop fuel n acc b) (BufReader.readFullLoop fuel n acc b.abs)
  | 0, _, _, _ => trivial
  | fuel + 1, acc, b, h => by
    unfold readFullLoop BufReader.readFullLoop
    by_cases hc : acc.length ≥ n
    · rw [if_pos hc, if_pos hc]; exact ⟨rfl, h, rfl⟩
    · rw [if_neg hc, if_neg hc]
      refine (read_spec h _).bind ?_
      rintro ⟨⟨p, e⟩, b'⟩ ⟨⟨p', e'⟩, y⟩ ⟨h1, h2, h3⟩
      cases h1
      dsimp only at h2 h3 ⊢
      subst h3
      cases e with
      | some e =>
        dsimp only
        by_cases hc : (acc ++ p).length ≥ n
        · rw [if_pos hc, if_pos hc]; exact ⟨rfl, h2, rfl⟩
        · rw [if_neg hc, if_neg hc]; exact ⟨rfl, h2, rfl⟩
      | none => exact readFullLoop_spec n fuel _ b' h2

theorem readFull_spec {b : ArrReader} (h : b.OK) (n : Nat) : OutRel Rel (b.readFull n) (b.abs.readFull n) := readFullLoop_spec n _ [] b h

end ArrReader

open ArrReader

theorem MProg.run_bind {α β : Type} (m : MProg α) (f : α → MProg β) (b : ArrReader) :
    (m.bind f).run b = (m.run b).bind fun x => (f x.1).run x.2 := by
  induction m generalizing b <;> simp_all [MProg.bind, MProg.run, Out.bind_assoc]

theorem BProg.runBuf_bind {α β : Type} (m : BProg α) (f : α → BProg β) (b : BufReader) :
    (m.bind f).runBuf b = (m.runBuf b).bind fun x => (f x.1).runBuf x.2 := by
  induction m generalizing b <;> simp_all [BProg.bind, BProg.runBuf, Out.bind_assoc]

/-- The program with slices does what the program with bytes does. -/
def Same {α : Type} (m : MProg α) (p : BProg α) : Prop := ∀ b : ArrReader, b.OK → OutRel Rel (m.run b) (p.runBuf b.abs)

theorem Same.ret {α : Type} (a : α) : Same (.ret a) (.ret a) := fun _ h => ⟨rfl, h, rfl⟩

theorem Same.panic {α : Type} : Same (.panic : MProg α) .panic := fun _ _ => trivial

theorem Same.bind {α β : Type} {m : MProg α} {p : BProg α} {f : α → MProg β} {g : α → BProg β} (h : Same m p) (hf : ∀ a, Same (f a) (g a)) :
    Same (m.bind f) (p.bind g) := by
  intro b hb
  rw [MProg.run_bind, BProg.runBuf_bind]
  refine (h b hb).bind ?_
  rintro ⟨x, b'⟩ ⟨y, c⟩ ⟨h1, h2, h3⟩
  cases h1
  dsimp only at h3 h2 ⊢
  subst h3
  exact hf _ b' h2

theorem Same.discard {α : Type} (n : Int) {f : Option Err → MProg α} {g : Option Err → BProg α} (hf : ∀ a, Same (f a) (g a)) :
    Same (.discard n f) (.discard n g) := by
  intro b hb
  refine (discard_spec hb n).bind ?_
  rintro ⟨x, b'⟩ ⟨y, c⟩ ⟨h1, h2, h3⟩
  cases h1
  dsimp only at h3 h2 ⊢
  subst h3
  exact hf _ b' h2

theorem Same.readByte {α : Type} {f : Except Err Byte → MProg α} {g : Except Err Byte → BProg α} (hf : ∀ a, Same (f a) (g a)) :
    Same (.readByte f) (.readByte g) := by
  intro b hb
  refine (readByte_spec hb).bind ?_
  rintro ⟨x, b'⟩ ⟨y, c⟩ ⟨h1, h2, h3⟩
  cases h1
  dsimp only at h3 h2 ⊢
  subst h3
  exact hf _ b' h2

theorem Same.readFull {α : Type} (n : Nat) {f : Bytes → Option Err → MProg α} {g : Bytes → Option Err → BProg α} (hf : ∀ a e, Same (f a e) (g a e)) :
    Same (.readFull n f) (.readFull n g) := by
  intro b hb
  refine (readFull_spec hb n).bind ?_
  rintro ⟨x, b'⟩ ⟨y, c⟩ ⟨h1, h2, h3⟩
  cases h1
  dsimp only at h3 h2 ⊢
  subst h3
  exact hf _ _ b' h2

theorem Same.size {α : Type} {f : Nat → MProg α} {g : Nat → BProg α} (hf : ∀ a, Same (f a) (g a)) :
    Same (.size f) (.size g) := fun b hb => hf _ b hb

/-- A slice that is looked at before anything else is read. -/
theorem Same.peekLoad {α : Type} (n : Int) {f : Slice → Option Err → MProg α} {g : Bytes → Option Err → BProg α}
    (hf : ∀ (b : ArrReader) (s : Slice) (e : Option Err), b.OK → Front b s → OutRel Rel ((f s e).run b) ((g (b.load s) e).runBuf b.abs)) :
    Same (.peek n f) (.peek n g) := by
  intro b hb
  refine (peek_spec hb n).bind ?_
  rintro ⟨⟨s, e⟩, b'⟩ ⟨⟨p, e'⟩, c⟩ ⟨h1, h2, h3, h4, h5⟩
  dsimp only at h1 h2 h3 h4 h5 ⊢
  subst h1 h3 h4
  exact hf b' s e h2 h5

/-- The slice `Next` returns holds the bytes. -/
theorem next_spec (n : Int) {b : ArrReader} (h : b.OK) :
    OutRel (fun x y => x.1.2 = y.1.2 ∧ x.2.OK ∧ x.2.abs = y.2 ∧ x.2.load x.1.1 = y.1.1 ∧ x.1.1.len = y.1.1.length)
      ((next n).run b) ((GoThrift.next n).runBuf b.abs) := by
  refine (peek_spec h n).bind ?_
  rintro ⟨⟨s, e⟩, b'⟩ ⟨⟨p, e'⟩, c⟩ ⟨h1, h2, h3, h4, h5⟩
  dsimp only at h1 h2 h3 h4 h5 ⊢
  subst h1 h3 h4
  have hlen := h5.len h2
  unfold MProg.run BProg.runBuf
  rw [hlen]
  have hk : s.len ≤ b'.w - b'.r := by
    unfold Slice.len
    rcases h5.fits with h | h
    · omega
    · subst h; exact Nat.zero_le _
  have hd := discard_spec h2 (s.len : Int)
  rw [discard_there hk] at hd ⊢
  cases hb : b'.abs.discard s.len with
  | done y =>
    rw [hb] at hd
    obtain ⟨h6, h7, h8⟩ := hd
    exact ⟨rfl, h7, h8, rfl, hlen.symm⟩
  | blocked => rw [hb] at hd; exact hd
  | diverged => rw [hb] at hd; exact hd
  | panicked => rw [hb] at hd; exact hd

/-- Look at the slice `Next` returns, then go on. -/
theorem Same.nextLoad {α : Type} (n : Int) {f : Nat → Bytes → Option Err → MProg α} {g : Bytes → Option Err → BProg α}
    (hf : ∀ c e, Same (f c.length c e) (g c e)) :
    Same ((next n).bind fun r => .load r.1 fun c => f r.1.len c r.2) ((GoThrift.next n).bind fun r => g r.1 r.2) := by
  intro b hb
  rw [MProg.run_bind, BProg.runBuf_bind]
  refine (next_spec n hb).bind ?_
  rintro ⟨⟨s, e⟩, b'⟩ ⟨⟨p, e'⟩, c⟩ ⟨h1, h2, h3, h4, h5⟩
  dsimp only at h1 h2 h3 h4 h5 ⊢
  subst h1 h3 h4
  rw [h5]
  exact hf _ _ b' h2

theorem readLoop_same (n : Int) : ∀ (fuel : Nat) (left : Int) (acc : Bytes), Same (readLoop fuel n left acc) (GoThrift.readLoop fuel n left acc)
  | 0, left, acc => by
    unfold readLoop GoThrift.readLoop
    by_cases h : left > 0
    · rw [if_pos h, if_pos h]; exact fun _ _ => trivial
    · rw [if_neg h, if_neg h]; exact .ret _
  | fuel + 1, left, acc => by
    unfold readLoop GoThrift.readLoop
    by_cases h : left > 0
    · rw [if_pos h, if_pos h]
      refine .size fun sz => ?_
      refine Same.nextLoad _ (f := fun l c e => match e with
        | some e => .ret (acc ++ c, some (if left - l ≠ n ∧ e = .eof then .unexpectedEOF else e))
        | none => readLoop fuel n (left - l) (acc ++ c)) (g := fun c e => match e with
        | some e => .ret (acc ++ c, some (if left - c.length ≠ n ∧ e = .eof then .unexpectedEOF else e))
        | none => GoThrift.readLoop fuel n (left - c.length) (acc ++ c)) ?_
      intro c e
      cases e with
      | some e => exact .ret _
      | none => exact readLoop_same n fuel _ _
    · rw [if_neg h, if_neg h]; exact .ret _

theorem BProg.bind_ret {α : Type} (p : BProg α) : p.bind .ret = p := by
  induction p <;> simp_all [BProg.bind]

theorem wireReadString_same (n : Int) : Same (wireReadString n) (GoThrift.wireReadString n) := by
  refine .size fun sz => ?_
  by_cases h : (sz : Int) ≥ n
  · rw [if_pos h, if_pos h, ← BProg.bind_ret (GoThrift.next n)]
    exact Same.nextLoad n (f := fun _ c e => .ret (c, e)) (g := fun c e => .ret (c, e)) fun c e => .ret _
  · rw [if_neg h, if_neg h]; exact readLoop_same n _ _ _

theorem wireReadBytes_same (n : Int) (buf : Bytes) : Same (wireReadBytes n buf) (GoThrift.wireReadBytes n buf) := by
  refine .size fun sz => ?_
  by_cases h : (sz : Int) ≥ n
  · rw [if_pos h, if_pos h]
    exact Same.nextLoad n (f := fun _ c e => .ret (buf ++ c, e)) (g := fun c e => .ret (buf ++ c, e)) fun c e => .ret _
  · rw [if_neg h, if_neg h]; exact readLoop_same n _ _ _

theorem binReadUvarintLoop_same : ∀ (left i : Nat) (x : BitVec 64) (s : Nat),
    Same (binReadUvarintLoop left i x s) (GoThrift.binReadUvarintLoop left i x s)
  | 0, _, _, _ => .ret _
  | left + 1, i, x, s => by
    refine .readByte fun r => ?_
    cases r with
    | error e => exact .ret _
    | ok b =>
      dsimp only
      by_cases h : b < 0x80
      · rw [if_pos h, if_pos h]
        by_cases h : i = maxVarintLen64 - 1 ∧ b > 1
        · rw [if_pos h, if_pos h]; exact .ret _
        · rw [if_neg h, if_neg h]; exact .ret _
      · rw [if_neg h, if_neg h]; exact binReadUvarintLoop_same _ _ _ _

theorem binReadUvarint_same : Same binReadUvarint GoThrift.binReadUvarint := binReadUvarintLoop_same _ _ _ _

theorem binReadVarint_same : Same binReadVarint GoThrift.binReadVarint := binReadUvarint_same.bind fun _ => .ret _

theorem readUvarint_same : Same readUvarint GoThrift.readUvarint := by
  refine Same.peekLoad _ fun b s e hb hs => ?_
  rw [hs.len hb]
  by_cases h : s.len > 0
  · rw [if_pos h, if_pos h]
    show OutRel _ (MProg.run (if (uvarint (b.load s)).2 > 0 then _ else _) b) (BProg.runBuf (if (uvarint (b.load s)).2 > 0 then _ else _) b.abs)
    by_cases h : (uvarint (b.load s)).2 > 0
    · rw [if_pos h, if_pos h]; exact Same.discard _ (fun e => .ret _) b hb
    · rw [if_neg h, if_neg h]; exact binReadUvarint_same b hb
  · rw [if_neg h, if_neg h]; exact binReadUvarint_same b hb

theorem readVarint_same : Same readVarint GoThrift.readVarint := by
  refine Same.peekLoad _ fun b s e hb hs => ?_
  rw [hs.len hb]
  by_cases h : s.len > 0
  · rw [if_pos h, if_pos h]
    show OutRel _ (MProg.run (if (varint (b.load s)).2 > 0 then _ else _) b) (BProg.runBuf (if (varint (b.load s)).2 > 0 then _ else _) b.abs)
    by_cases h : (varint (b.load s)).2 > 0
    · rw [if_pos h, if_pos h]; exact Same.discard _ (fun e => .ret _) b hb
    · rw [if_neg h, if_neg h]; exact binReadVarint_same b hb
  · rw [if_neg h, if_neg h]; exact binReadVarint_same b hb

/-- Same for methods. -/
def SameM {C α : Type} (m : MM C α) (p : RM C α) : Prop := ∀ c, Same (m c) (p c)

theorem SameM.ok {C α : Type} (a : α) : SameM (pure a : MM C α) (pure a : RM C α) := fun _ => .ret _
theorem SameM.fail {C α : Type} (e : Err) : SameM (MM.fail e : MM C α) (RM.fail e : RM C α) := fun _ => .ret _
theorem SameM.get {C : Type} : SameM (MM.get : MM C C) (RM.get : RM C C) := fun _ => .ret _
theorem SameM.set {C : Type} (c : C) : SameM (MM.set c : MM C Unit) (RM.set c : RM C Unit) := fun _ => .ret _

theorem SameM.bind {C α β : Type} {m : MM C α} {p : RM C α} {f : α → MM C β} {g : α → RM C β} (h : SameM m p) (hf : ∀ a, SameM (f a) (g a)) :
    SameM (m >>= f) (p >>= g) := by
  intro c
  refine (h c).bind ?_
  rintro ⟨(e | a), c'⟩
  · exact .ret _
  · exact hf a c'

theorem SameM.lift {C α : Type} {p : MProg (Except Err α)} {q : BProg (Except Err α)} (h : Same p q) :
    SameM (MM.lift p : MM C α) (RM.lift q : RM C α) := fun _ => h.bind fun _ => .ret _

theorem SameM.lift' {C α : Type} {p : MProg (α × Option Err)} {q : BProg (α × Option Err)} (h : Same p q) :
    SameM (MM.lift (p.bind fun r => .ret (toExcept r)) : MM C α) (RM.lift (q.bind fun r => .ret (toExcept r)) : RM C α) :=
  .lift (h.bind fun _ => .ret _)

theorem SameM.ite {C α : Type} {P : Prop} [Decidable P] {m m' : MM C α} {p p' : RM C α} (h : SameM m p) (h' : SameM m' p') :
    SameM (if P then m else m') (if P then p else p') := by
  by_cases hp : P
  · rw [if_pos hp, if_pos hp]; exact h
  · rw [if_neg hp, if_neg hp]; exact h'

theorem SameM.fixed {C β : Type} (n : Nat) (f : Bytes → Nat) (h : Nat → β) :
    SameM (do let v ← MM.fixed n f; pure (h v) : MM C β)
      (do let buf ← RM.lift ((GoThrift.next n).bind fun r => .ret (toExcept r)); RM.need n buf; pure (h (f buf)) : RM C β) := by
  intro c b hb
  show OutRel Rel ((((next n).bind _).bind _).run b) (BProg.runBuf ((((GoThrift.next n).bind _).bind _).bind _) b.abs)
  rw [MProg.run_bind, MProg.run_bind, BProg.runBuf_bind, BProg.runBuf_bind, BProg.runBuf_bind, Out.bind_assoc, Out.bind_assoc, Out.bind_assoc]
  refine (next_spec n hb).bind ?_
  rintro ⟨⟨s, e⟩, b'⟩ ⟨⟨p, e'⟩, y⟩ ⟨h1, h2, h3, h4, h5⟩
  dsimp only at h1 h2 h3 h4 h5 ⊢
  subst h1 h3 h4
  cases e with
  | some e => exact ⟨rfl, h2, rfl⟩
  | none =>
    dsimp only
    rw [h5]
    by_cases hl : (b'.load s).length < n
    · rw [if_pos hl]
      show OutRel Rel .panicked (BProg.runBuf (BProg.bind (if (b'.load s).length < n then _ else _) _) b'.abs)
      rw [if_pos hl]
      trivial
    · rw [if_neg hl]
      show OutRel Rel _ (BProg.runBuf (BProg.bind (if (b'.load s).length < n then _ else _) _) b'.abs)
      rw [if_neg hl]
      exact ⟨rfl, h2, rfl⟩

namespace Binary

theorem readByte_same : SameM readByte GoThrift.Binary.readByte := .lift (.readByte fun _ => .ret _)
theorem readI16_same : SameM readI16 GoThrift.Binary.readI16 := .fixed 2 _ _
theorem readI32_same : SameM readI32 GoThrift.Binary.readI32 := .fixed 4 _ _
theorem readI64_same : SameM readI64 GoThrift.Binary.readI64 := .fixed 8 _ _
theorem readDouble_same : SameM readDouble GoThrift.Binary.readDouble := .fixed 8 _ _
theorem readBool_same : SameM readBool GoThrift.Binary.readBool := readByte_same.bind fun _ => .ok _
theorem readSize_same : SameM readSize GoThrift.Binary.readSize := readI32_same.bind fun _ => .ok _
theorem readString_same : SameM readString GoThrift.Binary.readString := readSize_same.bind fun _ => .lift' (wireReadString_same _)
theorem readBytes_same (buf : Bytes) : SameM (readBytes buf) (GoThrift.Binary.readBytes buf) :=
  readSize_same.bind fun _ => .lift' (wireReadBytes_same _ _)
theorem readUUID_same : SameM readUUID GoThrift.Binary.readUUID := .lift (.readFull _ fun _ _ => .ret _)
theorem discard_same (n : Int) : SameM (discard n) (GoThrift.Binary.discard n) := .lift (.discard _ fun _ => .ret _)
theorem skipString_same : SameM skipString GoThrift.Binary.skipString := readSize_same.bind fun _ => discard_same _
theorem readFieldBegin_same : SameM readFieldBegin GoThrift.Binary.readFieldBegin :=
  readByte_same.bind fun _ => .ite (.ok _) (readI16_same.bind fun _ => .ok _)
theorem readMapBegin_same : SameM readMapBegin GoThrift.Binary.readMapBegin :=
  readByte_same.bind fun _ => readByte_same.bind fun _ => readSize_same.bind fun _ => .ok _
theorem readSetBegin_same : SameM readSetBegin GoThrift.Binary.readSetBegin :=
  readByte_same.bind fun _ => readSize_same.bind fun _ => .ok _
theorem readMessageBegin_same (strict : Bool) : SameM (readMessageBegin strict) (GoThrift.Binary.readMessageBegin strict) :=
  readSize_same.bind fun _ => .ite
    (.ite (.fail _) (readString_same.bind fun _ => readI32_same.bind fun _ => .ok _))
    (.ite (.fail _) ((SameM.lift' (wireReadString_same _)).bind fun _ => readByte_same.bind fun _ => readI32_same.bind fun _ => .ok _))

theorem impl_same (strict : Bool) (o : ROp) : SameM (impl strict o) (GoThrift.Binary.impl strict o) := by
  cases o with
  | messageBegin => exact readMessageBegin_same strict
  | messageEnd => exact .ok _
  | structBegin => exact .ok _
  | structEnd => exact .ok _
  | fieldBegin => exact readFieldBegin_same
  | fieldEnd => exact .ok _
  | mapBegin => exact readMapBegin_same
  | mapEnd => exact .ok _
  | setBegin => exact readSetBegin_same
  | setEnd => exact .ok _
  | listBegin => exact readSetBegin_same
  | listEnd => exact .ok _
  | bool => exact readBool_same
  | byte => exact readByte_same
  | double => exact readDouble_same
  | i16 => exact readI16_same
  | i32 => exact readI32_same
  | i64 => exact readI64_same
  | string => exact readString_same
  | bytes buf => exact readBytes_same buf
  | uuid => exact readUUID_same
  | skipString => exact skipString_same
  | skipUUID => exact discard_same _

end Binary

namespace Compact

theorem readByte_same : SameM readByte GoThrift.Compact.readByte := .lift (.readByte fun _ => .ret _)
theorem ofExcept_same {α : Type} (r : Except Err α) : SameM (ofExcept r) (GoThrift.Compact.ofExcept r) := .lift (.ret _)
theorem readUvarint_same : SameM readUvarint GoThrift.Compact.readUvarint := .lift' Mem.readUvarint_same
theorem readSize_same : SameM readSize GoThrift.Compact.readSize := .lift' binReadUvarint_same
theorem readI64_same : SameM readI64 GoThrift.Compact.readI64 := .lift' binReadVarint_same
theorem readI32_same : SameM readI32 GoThrift.Compact.readI32 := readI64_same.bind fun _ => .ok _
theorem readI16_same : SameM readI16 GoThrift.Compact.readI16 := readI64_same.bind fun _ => .ok _
theorem readDouble_same : SameM readDouble GoThrift.Compact.readDouble := .fixed 8 _ _
theorem readBool_same : SameM readBool GoThrift.Compact.readBool := by
  refine SameM.get.bind fun c => ?_
  rcases c with ⟨ids, last, (_ | _ | _)⟩
  · exact readByte_same.bind fun _ => .ok _
  · exact (SameM.set _).bind fun _ => .ok _
  · exact (SameM.set _).bind fun _ => .ok _
theorem readString_same : SameM readString GoThrift.Compact.readString := readUvarint_same.bind fun _ => .lift' (wireReadString_same _)
theorem readBytes_same (buf : Bytes) : SameM (readBytes buf) (GoThrift.Compact.readBytes buf) :=
  readUvarint_same.bind fun _ => .lift' (wireReadBytes_same _ _)
theorem readUUID_same : SameM readUUID GoThrift.Compact.readUUID := .lift (.readFull _ fun _ _ => .ret _)
theorem discard_same (n : Int) : SameM (discard n) (GoThrift.Compact.discard n) := .lift (.discard _ fun _ => .ret _)
theorem skipString_same : SameM skipString GoThrift.Compact.skipString := readUvarint_same.bind fun _ => discard_same _
theorem readStructBegin_same : SameM readStructBegin GoThrift.Compact.readStructBegin :=
  SameM.get.bind fun _ => (SameM.set _).bind fun _ => .ok _
theorem readStructEnd_same : SameM readStructEnd GoThrift.Compact.readStructEnd := by
  refine SameM.get.bind fun c => ?_
  rcases c with ⟨(_ | ⟨id, ids⟩), last, f⟩
  · exact .fail _
  · exact .set _
theorem readFieldBegin_same : SameM readFieldBegin GoThrift.Compact.readFieldBegin :=
  readByte_same.bind fun _ => (ofExcept_same _).bind fun _ => .ite (.ok _)
    (SameM.get.bind fun _ => .ite (readI16_same.bind fun _ => SameM.get.bind fun _ => (SameM.set _).bind fun _ => .ok _)
      ((SameM.ok _).bind fun _ => SameM.get.bind fun _ => (SameM.set _).bind fun _ => .ok _))
theorem readMapBegin_same : SameM readMapBegin GoThrift.Compact.readMapBegin :=
  readSize_same.bind fun _ => .ite (.ok _)
    (readByte_same.bind fun _ => (ofExcept_same _).bind fun _ => (ofExcept_same _).bind fun _ => .ok _)
theorem readSetBegin_same : SameM readSetBegin GoThrift.Compact.readSetBegin :=
  readByte_same.bind fun _ => (ofExcept_same _).bind fun _ => .ite (readSize_same.bind fun _ => .ok _) (.ok _)
theorem readMessageBegin_same : SameM readMessageBegin GoThrift.Compact.readMessageBegin :=
  readByte_same.bind fun _ => .ite (.fail _) (readByte_same.bind fun _ => .ite (.fail _)
    (readUvarint_same.bind fun _ => readString_same.bind fun _ => .ok _))

theorem impl_same (o : ROp) : SameM (impl o) (GoThrift.Compact.impl o) := by
  cases o with
  | messageBegin => exact readMessageBegin_same
  | messageEnd => exact .ok _
  | structBegin => exact readStructBegin_same
  | structEnd => exact readStructEnd_same
  | fieldBegin => exact readFieldBegin_same
  | fieldEnd => exact .ok _
  | mapBegin => exact readMapBegin_same
  | mapEnd => exact .ok _
  | setBegin => exact readSetBegin_same
  | setEnd => exact .ok _
  | listBegin => exact readSetBegin_same
  | listEnd => exact .ok _
  | bool => exact readBool_same
  | byte => exact readByte_same
  | double => exact readDouble_same
  | i16 => exact readI16_same
  | i32 => exact readI32_same
  | i64 => exact readI64_same
  | string => exact readString_same
  | bytes buf => exact readBytes_same buf
  | uuid => exact readUUID_same
  | skipString => exact skipString_same
  | skipUUID => exact discard_same _

end Compact

/-- Protocol readers: same fields, same unread bytes. -/
def RRel {C : Type} (x : C × ArrReader) (y : C × BufReader) : Prop := x.1 = y.1 ∧ x.2.OK ∧ x.2.abs = y.2

theorem Binary.step_same (strict : Bool) (o : ROp) (s : Unit × ArrReader) (t : Unit × BufReader) (h : RRel s t) :
    OutRel (fun x y => x.1 = y.1 ∧ RRel x.2 y.2) ((reader strict).step o s) ((GoThrift.Binary.bufReader strict).step o t) := by
  obtain ⟨c, b⟩ := s
  obtain ⟨c', f⟩ := t
  obtain ⟨h1, h2, h3⟩ := h
  cases h1
  dsimp only at h3 h2
  subst h3
  refine OutRel.bind (impl_same strict o c b h2) ?_
  rintro ⟨⟨x, c⟩, b⟩ ⟨⟨y, c'⟩, f⟩ ⟨h3, h4⟩
  cases h3
  exact ⟨rfl, rfl, h4⟩

theorem Compact.step_same (o : ROp) (s : GoThrift.Compact.RState × ArrReader) (t : GoThrift.Compact.RState × BufReader) (h : RRel s t) :
    OutRel (fun x y => x.1 = y.1 ∧ RRel x.2 y.2) (reader.step o s) (GoThrift.Compact.bufReader.step o t) := by
  obtain ⟨c, b⟩ := s
  obtain ⟨c', f⟩ := t
  obtain ⟨h1, h2, h3⟩ := h
  cases h1
  dsimp only at h3 h2
  subst h3
  refine OutRel.bind (impl_same o c b h2) ?_
  rintro ⟨⟨x, c⟩, b⟩ ⟨⟨y, c'⟩, f⟩ ⟨h3, h4⟩
  cases h3
  exact ⟨rfl, rfl, h4⟩

end GoThrift.Mem
