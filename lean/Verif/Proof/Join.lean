import Verif.Proof.LexPos
import Verif.Proof.Strip

/-!
# Two sources one after the other
-/

namespace GoThrift.Idl

open Spec

/-- Texts separated by a newline. -/
theorem Lex.join {u : Unicode} {cs ds : List Chr} {l m : List Lx} {c : Chr} (h : Lex u cs l) (hc : c.1 = 0x0a) (h' : Lex u ds m) : Lex u (cs ++ c :: ds) (l ++ m) := by
  induction h with
  | nil => exact .white (by unfold White; omega) h'
  | white hw _ ih => exact .white hw ih
  | @comment cs w rest l hx _ ih =>
    have := hx.split
    subst this
    rw [List.append_assoc]
    exact .comment (NextLexeme.swap (r := []) (by rwa [List.append_nil]) hc) ih
  | @token cs w rest t l hx hne _ ih =>
    have := hx.split
    subst this
    rw [List.append_assoc]
    exact .token (NextLexeme.swap (r := []) (by rwa [List.append_nil]) hc) hne ih

/-- The byte order mark. -/
theorem chars_mark (src : Bytes) : (∃ c cs, chars src = c :: cs ∧ c.1 = 0xfeff) ↔ [0xef, 0xbb, 0xbf] <+: src := by
  have e : ([0xef, 0xbb, 0xbf] : Bytes) = utf8 0xfeff := by decide +kernel
  have hs : Scalar 0xfeff := .inr ⟨by decide, by decide⟩
  constructor
  · rintro ⟨c, cs, h1, h2⟩
    have hne : src ≠ [] := by rintro rfl; cases h1
    rcases Utf8.utf8_of_decodeRune hne with ⟨r, rest, hr, rfl⟩ | hd
    · rw [chars_utf8 hr] at h1
      cases h1
      rw [e, show r = 0xfeff from h2]
      exact ⟨rest, rfl⟩
    · rw [chars_of_ne _ hne, hd] at h1
      cases h1
      cases h2
  · rintro ⟨rest, rfl⟩
    rw [e, chars_utf8 hs]
    exact ⟨_, _, rfl, rfl⟩

theorem sourceText_plain {src : Bytes} (h : ¬ [0xef, 0xbb, 0xbf] <+: src) : sourceText src = chars src := by
  rw [← chars_mark] at h
  unfold sourceText
  split
  · next c cs e => rw [if_neg fun hc => h ⟨c, cs, e, hc⟩, e]
  · next e => rw [e]

/-- The text of two sources with a newline between them. -/
theorem sourceText_join {src src2 : Bytes} (hok : ∀ c ∈ sourceText src, c.Ok) : sourceText (src ++ 0x0a :: src2) = sourceText src ++ (0x0a, [0x0a]) :: chars src2 := by
  have hat := (Scanner.init_at src).1
  have hb := bytesOf_chars (src.drop (Scanner.init src).offset)
  have hrest := hat.rest
  rw [Scanner.init_src] at hrest
  rw [hrest] at hb
  have hsrc : src = src.take (Scanner.init src).offset ++ bytesOf (sourceText src) := by rw [hb, List.take_append_drop]
  have hx : ∀ c ∈ sourceText src, Scalar c.1 ∧ c.2 = utf8 c.1 := fun c hc => ok_utf8 (src := src.drop (Scanner.init src).offset) (by rw [hrest]; exact hc) (hok c hc)
  have hchars : chars (bytesOf (sourceText src) ++ 0x0a :: src2) = sourceText src ++ (0x0a, [0x0a]) :: chars src2 := by
    rw [chars_append hx]
    exact congrArg _ (chars_utf8 (r := 0x0a) (.inl (by decide)) src2)
  rw [hsrc, List.append_assoc, ← hsrc]
  rcases Scanner.init_offset src with h0 | ⟨h3, h4⟩
  · rw [h0, List.take_zero, List.nil_append]
    generalize sourceText src = x at *
    unfold sourceText
    rw [hchars]
    cases x with
    | nil => rfl
    | cons c x =>
      show (if c.1 = 0xfeff then _ else _) = _
      rw [if_neg (hok c List.mem_cons_self).2.2]
      rfl
  · rw [h3, h4]
    generalize sourceText src = x at *
    unfold sourceText
    rw [show ([0xef, 0xbb, 0xbf] : Bytes) = utf8 0xfeff by decide +kernel, chars_utf8 (.inr ⟨by decide, by decide⟩), hchars]
    rfl

end GoThrift.Idl

namespace GoThrift.Spec

open Idl

theorem Many.append {α : Type} {R : α → List Lx → Prop} {xs ys : List α} {v w : List Lx} (h : Many R xs v) (h' : Many R ys w) : Many R (xs ++ ys) (v ++ w) := by
  induction h with
  | nil => exact h'
  | cons h _ ih => rw [List.append_assoc]; exact .cons h ih

theorem FileG.join {f g : File} {v w : List Lx} (h : FileG f v) (h' : FileG g w) (he : f.defs = [] ∨ g.headers = []) : FileG ⟨f.headers ++ g.headers, f.defs ++ g.defs⟩ (v ++ w) := by
  obtain ⟨hh, hd⟩ := h
  obtain ⟨hh', hd'⟩ := h'
  rcases he with he | he <;> subst he
  · cases hd
    rw [List.append_nil, ← List.append_assoc]
    exact .mk (hh.append hh') hd'
  · cases hh'
    rw [List.nil_append, List.append_assoc]
    simp only [List.append_nil]
    exact .mk hh (hd.append hd')

theorem Many.front {α : Type} {A : List Token} {R : α → List Lx → Prop} (hA : Fronts A R) {xs : List α} {w : List Lx} (h : Many R xs w) (r : List Lx) (hx : xs ≠ []) :
    ∃ t n l, strip w ++ r = (t, n) :: l ∧ t ∈ A := by
  cases h with
  | nil => exact absurd rfl hx
  | cons h _ =>
    obtain ⟨h0, h1⟩ := hA _ _ h
    rw [strip_append, List.append_assoc]
    generalize strip _ = w at h0 h1
    cases w with
    | nil => exact absurd rfl h0
    | cons x w => exact ⟨x.1, x.2, _, rfl, h1 _ _ _ rfl⟩

/-- Headers do not follow definitions. -/
theorem FileG.no_join {f g k : File} {v w : List Lx} (h : FileG f v) (h' : FileG g w) (h1 : f.defs ≠ []) (h2 : g.headers ≠ []) : ¬ FileG k (v ++ w) := by
  intro hk
  generalize hz : v ++ w = z at hk
  obtain ⟨hh, hd⟩ := h
  obtain ⟨hh', hd'⟩ := h'
  obtain ⟨hkh, hkd⟩ := hk
  have e := congrArg strip hz
  simp only [strip_append, List.append_assoc] at e
  have av1 : ∀ {ds : List Def} {w r : List Lx}, Many DefG ds w → (ds = [] → r = []) → Avoids ([Tk.lparen] ++ [Tk.include_, Tk.namespace_]) (strip w ++ r) := by
    intro ds w r h hr
    by_cases hds : ds = []
    · subst hds
      cases h
      rw [hr rfl]
      exact .nil
    · obtain ⟨t, n, l, e, ht⟩ := h.front def_fronts r hds
      rw [e]
      have : ∀ t ∈ defWords, t ∉ ([Tk.lparen] ++ [Tk.include_, Tk.namespace_]) := by decide
      exact .cons (this t ht)
  obtain ⟨_, e2⟩ := hh.clear header_clear header_fronts (by decide) hkh e (av1 hd fun h => absurd h h1) (by simpa using av1 hkd (r := []) fun _ => rfl)
  obtain ⟨t, n, l, e3, ht⟩ := hh'.front header_fronts (strip _) h2
  have := hd.clear def_clear def_fronts (by decide) hkd (r' := []) (by rw [e2, List.append_nil]) (by
    rw [e3]
    have : ∀ t ∈ [Tk.include_, Tk.namespace_], t ∉ ([Tk.lparen] ++ defWords) := by decide
    exact .cons (this t ht)) .nil
  rw [e3] at this
  exact nomatch this.2

end GoThrift.Spec
