import Verif.Model.WireBufio
import Verif.Proof.Flat
import Verif.Spec.Stream

/-! # Lemmas about Next, ReadString, ReadBytes -/

namespace GoThrift

open Spec

theorem next_ok (s : Flat) (n : Int) (h0 : 0 ≤ n) (hs : n.toNat ≤ s.size) (hl : n.toNat ≤ s.bytes.length) :
    (next n).run s = .done ((s.bytes.take n.toNat, none), { s with bytes := s.bytes.drop n.toNat }) := by
  have hlen : (s.bytes.take n.toNat).length = n.toNat := by rw [List.length_take]; omega
  simp only [next, BProg.run, Flat.peek_ok s n h0 hs hl, Out.bind_done]
  rw [Flat.discard_len s _ (by omega), hlen]
  simp only [Out.bind_done]
  rw [if_pos (by omega)]

theorem next_short (s : Flat) (n : Int) (e : Err) (h0 : 0 ≤ n) (hs : n.toNat ≤ s.size) (hl : s.bytes.length < n.toNat)
    (he : s.fin = .err e) : (next n).run s = .done ((s.bytes, some (shortErr s.bytes e)), { s with bytes := [] }) := by
  simp only [next, BProg.run, Flat.peek_short s n e h0 hs hl he, Out.bind_done]
  rw [Flat.discard_len s _ (by omega)]
  simp only [Out.bind_done, List.drop_length]
  rw [if_neg (by omega)]
  unfold shortErr
  by_cases hb : s.bytes = []
  · simp [hb]
  · have : 0 < s.bytes.length := by cases h : s.bytes <;> simp_all
    by_cases h2 : e = .eof <;> simp [hb, h2, this]

theorem next_block (s : Flat) (n : Int) (h0 : 0 ≤ n) (hs : n.toNat ≤ s.size) (hl : s.bytes.length < n.toNat)
    (he : s.fin = .block) : (next n).run s = .blocked := by
  simp only [next, BProg.run, Flat.peek_block s n h0 hs hl he, Out.bind_blocked]

theorem next_neg (s : Flat) (n : Int) (h0 : n < 0) :
    (next n).run s = .done (([], some .negativeCount), s) := by
  simp only [next, BProg.run, Flat.peek_neg s n h0, Out.bind_done]
  rw [Flat.discard_len s [] (by simp)]
  simp only [Out.bind_done, List.length_nil, List.drop_zero]
  rw [if_neg (by omega), if_neg (by simp)]

theorem readLoop_ok (n : Int) : ∀ (fuel : Nat) (left : Int) (acc : Bytes) (s : Flat), left.toNat ≤ fuel → 0 ≤ left →
    0 < s.size → left.toNat ≤ s.bytes.length →
    (readLoop fuel n left acc).run s =
      .done ((acc ++ s.bytes.take left.toNat, none), { s with bytes := s.bytes.drop left.toNat }) := by
  intro fuel
  induction fuel with
  | zero =>
    intro left acc s hf h0 _ _
    have : left = 0 := by omega
    subst this
    rw [readLoop, if_neg (by omega)]; simp [BProg.run]
  | succ fuel ih =>
    intro left acc s hf h0 hs hl
    rw [readLoop]
    by_cases hpos : left > 0
    · rw [if_pos hpos]
      simp only [BProg.run, BProg.run_bind]
      rw [next_ok s (min left s.size) (by omega) (by omega) (by omega)]
      simp only [Out.bind_done]
      have hlen : (s.bytes.take (min left (s.size : Int)).toNat).length = (min left (s.size : Int)).toNat := by
        rw [List.length_take]; omega
      simp only [hlen]
      generalize hm : (min left (s.size : Int)).toNat = m at *
      rw [ih (left - (m : Int)) _ { s with bytes := s.bytes.drop m } (by omega) (by omega) hs
        (by simp only [List.length_drop]; omega)]
      simp only [List.append_assoc, List.drop_drop]
      have hsplit : left.toNat = m + (left - (m : Int)).toNat := by omega
      rw [hsplit, List.take_add]
    · have : left = 0 := by omega
      subst this
      rw [if_neg hpos]; simp [BProg.run]

theorem readLoop_short (n : Int) (e : Err) : ∀ (fuel : Nat) (left : Int) (acc : Bytes) (s : Flat), left.toNat ≤ fuel →
    left ≤ n → 0 < s.size → s.bytes.length < left.toNat → s.fin = .err e →
    (readLoop fuel n left acc).run s =
      .done ((acc ++ s.bytes, some (if (left ≠ n ∨ s.bytes ≠ []) ∧ e = .eof then .unexpectedEOF else e)),
        { s with bytes := [] }) := by
  intro fuel
  induction fuel with
  | zero => intro left acc s hf _ _ hl; omega
  | succ fuel ih =>
    intro left acc s hf hn hs hl he
    rw [readLoop, if_pos (by omega)]
    simp only [BProg.run, BProg.run_bind]
    by_cases hc : s.bytes.length < (min left (s.size : Int)).toNat
    · rw [next_short s (min left s.size) e (by omega) (by omega) hc he]
      simp only [Out.bind_done, BProg.run]
      congr 3
      congr 1
      unfold shortErr
      by_cases hb : s.bytes = []
      · simp [hb]
      · have : 0 < s.bytes.length := by cases h : s.bytes <;> simp_all
        have : ¬ (left - s.bytes.length = n) := by omega
        by_cases h2 : e = .eof <;> simp [hb, h2]
    · rw [next_ok s (min left s.size) (by omega) (by omega) (by omega)]
      simp only [Out.bind_done]
      have hlen : (s.bytes.take (min left (s.size : Int)).toNat).length = (min left (s.size : Int)).toNat := by
        rw [List.length_take]; omega
      simp only [hlen]
      generalize hm : (min left (s.size : Int)).toNat = m at *
      rw [ih (left - (m : Int)) _ { s with bytes := s.bytes.drop m } (by omega) (by omega) hs
        (by simp only [List.length_drop]; omega) he]
      simp only [List.append_assoc, List.take_append_drop]
      congr 3
      congr 1
      have hb : s.bytes ≠ [] := by intro h; rw [h] at hc; simp at hc; omega
      have h3 : left - (m : Int) ≠ n := by omega
      by_cases h2 : e = .eof <;> simp [hb, h2, h3]

theorem wireReadString_ok (s : Flat) (n : Int) (h0 : 0 ≤ n) (hs : 0 < s.size) (hl : n.toNat ≤ s.bytes.length) :
    (wireReadString n).run s = .done ((s.bytes.take n.toNat, none), { s with bytes := s.bytes.drop n.toNat }) := by
  simp only [wireReadString, BProg.run]
  by_cases h : (s.size : Int) ≥ n
  · rw [if_pos h, next_ok s n h0 (by omega) hl]
  · rw [if_neg h, readLoop_ok n _ n [] s (by omega) h0 hs hl]; rfl

theorem wireReadString_short (s : Flat) (n : Int) (e : Err) (hs : 0 < s.size) (hl : s.bytes.length < n.toNat)
    (he : s.fin = .err e) :
    (wireReadString n).run s = .done ((s.bytes, some (shortErr s.bytes e)), { s with bytes := [] }) := by
  simp only [wireReadString, BProg.run]
  by_cases h : (s.size : Int) ≥ n
  · rw [if_pos h, next_short s n e (by omega) (by omega) hl he]
  · rw [if_neg h, readLoop_short n e _ n [] s (by omega) (by omega) hs hl he]
    simp [shortErr]

theorem wireReadString_neg (s : Flat) (n : Int) (h0 : n < 0) :
    (wireReadString n).run s = .done (([], some .negativeCount), s) := by
  simp only [wireReadString, BProg.run]
  rw [if_pos (by omega), next_neg s n h0]

theorem wireReadBytes_ok (s : Flat) (n : Int) (buf : Bytes) (h0 : 0 ≤ n) (hs : 0 < s.size) (hl : n.toNat ≤ s.bytes.length) :
    (wireReadBytes n buf).run s =
      .done ((buf ++ s.bytes.take n.toNat, none), { s with bytes := s.bytes.drop n.toNat }) := by
  simp only [wireReadBytes, BProg.run]
  by_cases h : (s.size : Int) ≥ n
  · rw [if_pos h, BProg.run_bind, next_ok s n h0 (by omega) hl]; rfl
  · rw [if_neg h, readLoop_ok n _ n buf s (by omega) h0 hs hl]

theorem wireReadBytes_short (s : Flat) (n : Int) (buf : Bytes) (e : Err) (hs : 0 < s.size) (hl : s.bytes.length < n.toNat)
    (he : s.fin = .err e) :
    (wireReadBytes n buf).run s = .done ((buf ++ s.bytes, some (shortErr s.bytes e)), { s with bytes := [] }) := by
  simp only [wireReadBytes, BProg.run]
  by_cases h : (s.size : Int) ≥ n
  · rw [if_pos h, BProg.run_bind, next_short s n e (by omega) (by omega) hl he]; rfl
  · rw [if_neg h, readLoop_short n e _ n buf s (by omega) (by omega) hs hl he]
    simp [shortErr]

theorem wireReadBytes_neg (s : Flat) (n : Int) (buf : Bytes) (h0 : n < 0) :
    (wireReadBytes n buf).run s = .done ((buf, some .negativeCount), s) := by
  simp only [wireReadBytes, BProg.run]
  rw [if_pos (by omega), BProg.run_bind, next_neg s n h0]; simp [BProg.run]

end GoThrift
