import Verif.Spec.Writable
import Verif.Spec.Grammar
import Verif.Proof.Layout
import Verif.Proof.Utf8

/-!
# Trees that can be written: to and from sequences of tokens
-/

namespace GoThrift.Spec

open Idl

/-- A token of the grammar with a text of it. -/
def Said (u : Unicode) (x : Lx) : Prop := x.1 ≠ Tk.comment ∧ TextOf u x.1 x.2

/-- All tokens have texts of theirs. -/
def Spoken (u : Unicode) (w : List Lx) : Prop := ∀ x ∈ w, Said u x

/-- There are tokens for it. -/
def Sayable {α : Type} (u : Unicode) (R : α → List Lx → Prop) (x : α) : Prop := ∃ w, R x w ∧ Spoken u w

/-! ## From tokens to trees -/

section
variable {u : Unicode}

theorem Spoken.left {v w : List Lx} (h : Spoken u (v ++ w)) : Spoken u v := fun x hx => h x (List.mem_append_left _ hx)

theorem Spoken.right {v w : List Lx} (h : Spoken u (v ++ w)) : Spoken u w := fun x hx => h x (List.mem_append_right _ hx)

theorem Spoken.tail {x : Lx} {w : List Lx} (h : Spoken u (x :: w)) : Spoken u w := fun y hy => h y (List.mem_cons_of_mem _ hy)

theorem Spoken.head {t : Token} {n : Bytes} {w : List Lx} (h : Spoken u ((t, n) :: w)) : TextOf u t n := (h (t, n) (by simp)).2

theorem Items.all {α : Type} {R : α → List Lx → Prop} {P : α → Prop} (hR : ∀ x w, R x w → Spoken u w → P x) {xs : List α} {w : List Lx} (h : Items R xs w) (hw : Spoken u w) : ∀ x ∈ xs, P x := by
  induction h with
  | nil => exact fun x hx => nomatch hx
  | cons hr _ _ ih => exact List.forall_mem_cons.2 ⟨hR _ _ hr hw.left, ih hw.right.right⟩

theorem Items.within {α : Type} {R : α → List Lx → Prop} {P : α → Prop} {n : Nat} (hR : ∀ x w, w.length ≤ n → R x w → Spoken u w → P x) {xs : List α} {w : List Lx} (h : Items R xs w)
    (hn : w.length ≤ n) (hw : Spoken u w) : ∀ x ∈ xs, P x := by
  induction h with
  | nil => exact fun x hx => nomatch hx
  | cons hr _ _ ih =>
    simp only [List.length_append] at hn
    exact List.forall_mem_cons.2 ⟨hR _ _ (by omega) hr hw.left, ih (by omega) hw.right.right⟩

theorem Bracketed.all {α : Type} {o c : Token} {R : α → List Lx → Prop} {P : α → Prop} (hR : ∀ x w, R x w → Spoken u w → P x) {xs : List α} {w : List Lx} (h : Bracketed o c R xs w)
    (hw : Spoken u w) : ∀ x ∈ xs, P x := by
  cases h with
  | mk h => exact h.all hR hw.tail.left

theorem Many.all {α : Type} {R : α → List Lx → Prop} {P : α → Prop} (hR : ∀ x w, R x w → Spoken u w → P x) {xs : List α} {w : List Lx} (h : Many R xs w) (hw : Spoken u w) : ∀ x ∈ xs, P x := by
  induction h with
  | nil => exact fun x hx => nomatch hx
  | cons hr _ ih => exact List.forall_mem_cons.2 ⟨hR _ _ hr hw.left, ih hw.right⟩

theorem AnnotationsG.ok {an : Annotations} {w : List Lx} (h : AnnotationsG an w) (hw : Spoken u w) : AnnotationsOK u an := by
  cases h with
  | none => exact fun l hl => nomatch hl
  | some h =>
    rintro l hl
    injection hl with hl
    subst hl
    refine h.all (P := fun a : Annotation => Identifier u a.name ∧ ∀ v, a.value = Option.some v → TextOf u Tk.string v) ?_ hw
    intro x w hx hw
    cases hx with
    | bare => exact ⟨hw.head, fun v hv => nomatch hv⟩
    | value =>
      refine ⟨hw.head, fun v hv => ?_⟩
      injection hv with hv
      exact hv ▸ hw.tail.tail.head

theorem TypeG.ok {t : TypeNode} {w : List Lx} (h : TypeG t w) (hw : Spoken u w) : TypeOK u t := by
  induction h with
  | map _ _ ha ih1 ih2 => exact .map (ih1 hw.tail.tail.left) (ih2 hw.tail.tail.right.tail.left) (ha.ok hw.tail.tail.right.tail.right.tail)
  | set _ ha ih => exact .set (ih hw.tail.tail.left) (ha.ok hw.tail.tail.right.tail)
  | list _ ha ih => exact .list (ih hw.tail.tail.left) (ha.ok hw.tail.tail.right.tail)
  | ref ha => exact .ref hw.head (ha.ok hw.tail)

theorem valueG_ok (n : Nat) : ∀ {v : Value} {w : List Lx}, w.length ≤ n → ValueG v w → Spoken u w → ValueOK u v := by
  induction n with
  | zero =>
    intro v w hn h hw
    cases h with
    | list h => cases h; simp at hn
    | pairs h => cases h; simp at hn
    | _ => simp at hn
  | succ n ih =>
    intro v w hn h hw
    cases h with
    | ident => exact .ident hw.head
    | int => exact .int hw.head
    | float => exact .float hw.head
    | string => exact .string hw.head
    | list h =>
      cases h with
      | @mk _ _ _ w h =>
      refine .list ?_
      have hn : w.length ≤ n := by simp at hn; omega
      have hw := hw.tail.left
      exact h.within (fun x w hl hr hw => ih hl hr hw) hn hw
    | @pairs l _ h =>
      cases h with
      | @mk _ _ _ w h =>
      have hn : w.length ≤ n := by simp at hn; omega
      have hw := hw.tail.left
      have : ∀ p ∈ l, ValueOK u p.1 ∧ ValueOK u p.2 := by
        refine h.within (fun x w hl hr hw => ?_) hn hw
        cases hr with
        | mk hk hv =>
          simp only [List.length_append, List.length_cons] at hl
          exact ⟨ih (by omega) hk hw.left, ih (by omega) hv hw.right.tail⟩
      exact .pairs (fun p hp => (this p hp).1) (fun p hp => (this p hp).2)

theorem ValueG.ok {v : Value} {w : List Lx} (h : ValueG v w) (hw : Spoken u w) : ValueOK u v := valueG_ok _ (Nat.le_refl _) h hw

theorem AssignedG.ok {α : Type} {R : α → List Lx → Prop} {P : α → Prop} (hR : ∀ x w, R x w → Spoken u w → P x) {o : Option α} {w : List Lx} (h : AssignedG R o w) (hw : Spoken u w) :
    ∀ x, o = Option.some x → P x := by
  cases h with
  | none => exact fun x hx => nomatch hx
  | some h =>
    intro x hx
    injection hx with hx
    exact hx ▸ hR _ _ h hw.tail

theorem EnumValueG.ok {e : EnumValue} {w : List Lx} (h : EnumValueG e w) (hw : Spoken u w) : EnumValueOK u e := by
  cases h with
  | mk hv ha => exact ⟨hw.head, hv.ok (fun x w hx hw => by cases hx; exact hw.head) hw.tail.left, ha.ok hw.tail.right⟩

/-- A text that begins like a word and is reserved. -/
theorem TextOf.reserved {s : String} {t : Token} {n : Bytes} (hs : (s, t) ∈ reserved) (h : TextOf u t n) : Reserved n t := by
  obtain ⟨_, h⟩ := h
  have hb := bytesOf_chars n
  generalize chars n = w at h hb
  have no : ∀ {k : Token}, k ∈ [Tk.int, Tk.float, Tk.string, Tk.comment, Tk.ident] ++ operators.map Prod.snd → t ≠ k := by
    intro k hk he
    subst he
    revert hs hk
    have : ∀ p ∈ Spec.reserved, p.2 ∉ [Tk.int, Tk.float, Tk.string, Tk.comment, Tk.ident] ++ operators.map Prod.snd := by decide +kernel
    exact fun hs => this _ hs
  cases h with
  | word _ _ hr =>
    rcases hr with hr | ⟨hr, _⟩
    · rwa [hb] at hr
    · exact absurd hr (no (by simp))
  | hex => exact absurd rfl (no (k := Tk.int) (by simp))
  | int => exact absurd rfl (no (k := Tk.int) (by simp))
  | float => exact absurd rfl (no (k := Tk.float) (by simp))
  | string => exact absurd rfl (no (k := Tk.string) (by simp))
  | operator h => exact absurd rfl (no (k := t) (List.mem_append_right _ (List.mem_map.2 ⟨_, h, rfl⟩)))
  | lineComment => exact absurd rfl (no (k := Tk.comment) (by simp))
  | fullComment => exact absurd rfl (no (k := Tk.comment) (by simp))

theorem FieldG.ok {f : Field} {w : List Lx} (h : FieldG f w) (hw : Spoken u w) : FieldOK u f := by
  cases h with
  | mk hi hr ht hf hn hd ha =>
    have h1 := hw.left
    have hw := hw.right
    have h3 := hw.right.left
    have hw := hw.right.right.right
    refine ⟨?_, ?_, ht.ok h3, ?_, hd.ok (fun _ _ h hw => h.ok hw) hw.right.left, ha.ok hw.right.right⟩
    · cases hi with
      | none => exact fun i hi => nomatch hi
      | some =>
        intro i hi
        injection hi with hi
        exact hi ▸ h1.head
    · cases hr <;> simp
    · cases hn with
      | ident => exact .inl hw.left.head
      | word hs => exact .inr ⟨_, TextOf.reserved hs hw.left.head⟩

theorem MethodG.ok {m : Method} {w : List Lx} (h : MethodG m w) (hw : Spoken u w) : MethodOK u m := by
  cases h with
  | mk ho hr hf ht ha =>
    have hw := hw.right
    have h1 := hw.left
    have hw := hw.right
    refine ⟨?_, ?_, hw.head, hf.all (fun _ _ h hw => h.ok hw) hw.tail.left, ?_, ha.ok hw.tail.right.right⟩
    · cases hr <;> simp
    · cases hr with
      | void => exact fun t ht => nomatch ht
      | type h =>
        intro t ht
        injection ht with ht
        exact ht ▸ h.ok h1
    · cases ht with
      | none => exact fun l hl => nomatch hl
      | some h =>
        intro l hl
        injection hl with hl
        exact hl ▸ h.all (fun _ _ h hw => h.ok hw) hw.tail.right.left.tail

theorem DefG.ok {d : Def} {w : List Lx} (h : DefG d w) (hw : Spoken u w) : DefOK u d := by
  cases h with
  | const ht hv hs => exact ⟨ht.ok hw.tail.left, hw.tail.right.head, hv.ok hw.tail.right.tail.tail.left⟩
  | typedef ht ha hs => exact ⟨ht.ok hw.tail.left, hw.tail.right.head, ha.ok hw.tail.right.tail.left⟩
  | enum hl ha => exact ⟨hw.tail.head, hl.all (fun _ _ h hw => h.ok hw) hw.tail.tail.left, ha.ok hw.tail.tail.right⟩
  | struct hk hl ha => exact ⟨by cases hk <;> simp, hw.tail.head, hl.all (fun _ _ h hw => h.ok hw) hw.tail.tail.left, ha.ok hw.tail.tail.right⟩
  | service he hl ha =>
    refine ⟨hw.tail.head, ?_, hl.all (fun _ _ h hw => h.ok hw) hw.tail.tail.right.left, ha.ok hw.tail.tail.right.right⟩
    cases he with
    | none => exact fun b hb => nomatch hb
    | some =>
      intro b hb
      injection hb with hb
      exact hb ▸ hw.tail.tail.left.tail.head

theorem HeaderG.ok {d : Header} {w : List Lx} (h : HeaderG d w) (hw : Spoken u w) : HeaderOK u d := by
  cases h with
  | «include» => exact hw.tail.head
  | «namespace» hs ha =>
    refine ⟨?_, hw.tail.right.head, ha.ok hw.tail.right.tail⟩
    cases hs with
    | all => exact fun s hs => nomatch hs
    | name =>
      intro s hs
      injection hs with hs
      exact hs ▸ hw.tail.left.head

theorem FileG.ok {f : File} {w : List Lx} (h : FileG f w) (hw : Spoken u w) : Writable u f := by
  cases h with
  | mk hh hd => exact ⟨hh.all (fun _ _ h hw => h.ok hw) hw.left, hd.all (fun _ _ h hw => h.ok hw) hw.right⟩

/-! ## From texts to tokens -/

theorem chars_part {src : Bytes} {w : List Chr} (h : ∀ c ∈ w, c ∈ chars src ∧ c.Ok) : chars (bytesOf w) = w := by
  have := chars_append (x := w) (fun c hc => ok_utf8 (h c hc).1 (h c hc).2) []
  rwa [List.append_nil, chars_nil, List.append_nil] at this

theorem Lex.spoken {cs : List Chr} {toks : List Lx} (h : Lex u cs toks) {src : Bytes} (hc : ∀ c ∈ cs, c ∈ chars src ∧ c.Ok) : Spoken u toks := by
  induction h with
  | nil => exact fun x hx => nomatch hx
  | white _ _ ih => exact ih fun c h => hc c (List.mem_cons_of_mem _ h)
  | comment hn _ ih =>
    rw [hn.split] at hc
    exact ih fun c h => hc c (List.mem_append_right _ h)
  | token hn ht _ ih =>
    rw [hn.split] at hc
    have hw := fun c h => hc c (List.mem_append_left _ h)
    refine List.forall_mem_cons.2 ⟨⟨ht, ?_⟩, ih fun c h => hc c (List.mem_append_right _ h)⟩
    have := chars_part hw
    refine ⟨?_, ?_⟩
    · show ∀ c ∈ chars (bytesOf _), _
      rw [this]
      exact fun c h => (hw c h).2
    · show Lexeme u _ (chars (bytesOf _))
      rw [this]
      exact hn.lexeme

/-- The texts of tokens with a blank behind each of them. -/
def spaced (w : List Lx) : Bytes := w.flatMap fun x => x.2 ++ [0x20]

theorem chars_blank (rest : Bytes) : chars (0x20 :: rest) = (0x20, [0x20]) :: chars rest := chars_utf8 (r := 0x20) (.inl (by decide)) rest

theorem spaced_lex {w : List Lx} (h : Spoken u w) : Lex u (chars (spaced w)) w ∧ ∀ c ∈ chars (spaced w), c.Ok := by
  induction w with
  | nil => exact ⟨.nil, fun c hc => nomatch hc⟩
  | cons x w ih =>
    obtain ⟨t, n⟩ := x
    obtain ⟨h1, h2⟩ := ih h.tail
    obtain ⟨ht, hok, hl⟩ := h (t, n) (by simp)
    have e : chars (spaced ((t, n) :: w)) = chars n ++ (0x20, [0x20]) :: chars (spaced w) := by
      have := chars_append (x := chars n) (fun c hc => ok_utf8 hc (hok c hc)) (0x20 :: spaced w)
      rw [bytesOf_chars, chars_blank] at this
      rw [← this]
      simp [spaced]
    rw [e]
    constructor
    · have hn0 : NextLexeme u (chars n ++ []) t (chars n) [] := ⟨rfl, hl, fun t' w' rest' he _ => by
        have := congrArg List.length he
        rw [List.length_append, List.length_append] at this
        simp at this
        omega, fun ⟨_, _, _, h, _⟩ => nomatch h⟩
      have hn := hn0.gap (c := (0x20, [0x20])) (r' := chars (spaced w)) (.inl (.inl rfl)) (fun h => absurd (hl.unique (LineComment.lexeme h)) ht) (fun _ h => nomatch h)
      have := Lex.token hn ht (.white (.inl rfl) h1)
      rwa [bytesOf_chars] at this
    · intro c hc
      rcases List.mem_append.1 hc with hc | hc
      · exact hok c hc
      · rcases List.mem_cons.1 hc with rfl | hc
        · exact by decide
        · exact h2 c hc

/-! ## From trees to tokens -/

theorem Spoken.nil : Spoken u [] := fun x hx => nomatch hx

theorem Spoken.append {v w : List Lx} (hv : Spoken u v) (hw : Spoken u w) : Spoken u (v ++ w) := by
  intro x hx
  rcases List.mem_append.1 hx with h | h
  · exact hv x h
  · exact hw x h

theorem Spoken.cons {x : Lx} {w : List Lx} (hx : Said u x) (hw : Spoken u w) : Spoken u (x :: w) := List.forall_mem_cons.2 ⟨hx, hw⟩

/-- A text of an operator. -/
theorem said_op {t : Token} {n : Bytes} (h : (∀ c ∈ chars n, c.Ok) ∧ (runesOf (chars n), t) ∈ operators) : Said u (t, n) :=
  ⟨by
    have : ∀ p ∈ operators, p.2 ≠ Tk.comment := by decide +kernel
    exact this _ h.2, h.1, .operator h.2⟩

/-- The characters of words are letters and underscores. -/
theorem reserved_chars : ∀ p ∈ reserved, (∀ c ∈ chars (wordBytes p.1), c.Ok ∧ (0x61 ≤ c.1 ∧ c.1 ≤ 0x7a ∨ c.1 = 0x5f)) ∧ chars (wordBytes p.1) ≠ [] ∧ p.2 ≠ Tk.comment := by decide +kernel

theorem said_word {s : String} {t : Token} (h : (s, t) ∈ reserved) : Said u (t, wordBytes s) := by
  obtain ⟨h1, h2, h3⟩ := reserved_chars _ h
  refine ⟨h3, fun c hc => (h1 c hc).1, ?_⟩
  have hb := bytesOf_chars (wordBytes s)
  dsimp only at h1 h2 ⊢
  generalize chars (wordBytes s) = w at h1 h2 hb
  cases w with
  | nil => exact absurd rfl h2
  | cons c w =>
    have hs : ∀ d ∈ c :: w, IdentStart u d.1 := fun d hd => (h1 d hd).2.elim (fun h => .inr (.inl h)) (fun h => .inr (.inr (.inl h)))
    exact .word (hs c (by simp)) (fun d hd => .inl (hs d (List.mem_cons_of_mem _ hd))) (.inl ⟨s, h, hb⟩)

theorem said_lit {t : Token} {n : Bytes} (ht : t ≠ Tk.comment) (h : TextOf u t n) : Said u (t, n) := ⟨ht, h⟩

theorem said_ident {n : Bytes} (h : Identifier u n) : Said u (Tk.ident, n) := said_lit (by decide) h

theorem Items.say {α : Type} {R : α → List Lx → Prop} {xs : List α} (h : ∀ x ∈ xs, Sayable u R x) : Sayable u (Items R) xs := by
  induction xs with
  | nil => exact ⟨[], .nil, .nil⟩
  | cons x xs ih =>
    obtain ⟨w, h1, h2⟩ := h x (by simp)
    obtain ⟨v, h3, h4⟩ := ih fun y hy => h y (List.mem_cons_of_mem _ hy)
    have hs : Said u (Tk.comma, [0x2c]) := said_op (by decide +kernel)
    exact ⟨_, .cons (s := [(Tk.comma, [0x2c])]) h1 (fun t ht => .inl (by rw [List.mem_singleton.1 ht])) h3, h2.append (.cons hs h4)⟩

theorem Many.say {α : Type} {R : α → List Lx → Prop} {xs : List α} (h : ∀ x ∈ xs, Sayable u R x) : Sayable u (Many R) xs := by
  induction xs with
  | nil => exact ⟨[], .nil, .nil⟩
  | cons x xs ih =>
    obtain ⟨w, h1, h2⟩ := h x (by simp)
    obtain ⟨v, h3, h4⟩ := ih fun y hy => h y (List.mem_cons_of_mem _ hy)
    exact ⟨_, .cons h1 h3, h2.append h4⟩

theorem Bracketed.say {α : Type} {o c : Token} {a b : Bytes} (ho : Said u (o, a)) (hc : Said u (c, b)) {R : α → List Lx → Prop} {xs : List α} (h : ∀ x ∈ xs, Sayable u R x) :
    Sayable u (Bracketed o c R) xs := by
  obtain ⟨w, h1, h2⟩ := Items.say h
  exact ⟨_, .mk (a := a) (b := b) h1, .cons ho (h2.append (.cons hc .nil))⟩

theorem Bracketed.say_paren {α : Type} {R : α → List Lx → Prop} {xs : List α} (h : ∀ x ∈ xs, Sayable u R x) : Sayable u (Bracketed Tk.lparen Tk.rparen R) xs :=
  Bracketed.say (a := [0x28]) (b := [0x29]) (said_op (by decide +kernel)) (said_op (by decide +kernel)) h

theorem Bracketed.say_brace {α : Type} {R : α → List Lx → Prop} {xs : List α} (h : ∀ x ∈ xs, Sayable u R x) : Sayable u (Bracketed Tk.lbrace Tk.rbrace R) xs :=
  Bracketed.say (a := [0x7b]) (b := [0x7d]) (said_op (by decide +kernel)) (said_op (by decide +kernel)) h

theorem Bracketed.say_brack {α : Type} {R : α → List Lx → Prop} {xs : List α} (h : ∀ x ∈ xs, Sayable u R x) : Sayable u (Bracketed Tk.lbrack Tk.rbrack R) xs :=
  Bracketed.say (a := [0x5b]) (b := [0x5d]) (said_op (by decide +kernel)) (said_op (by decide +kernel)) h

theorem say_assign : Said u (Tk.assign, [0x3d]) := said_op (by decide +kernel)

theorem say_colon : Said u (Tk.colon, [0x3a]) := said_op (by decide +kernel)

theorem AnnotationsOK.say {an : Annotations} (h : AnnotationsOK u an) : Sayable u AnnotationsG an := by
  cases an with
  | none => exact ⟨_, .none, .nil⟩
  | some l =>
    obtain ⟨w, h1, h2⟩ := Bracketed.say_paren (u := u) (R := AnnotationG) (xs := l) fun a ha => by
      obtain ⟨h1, h2⟩ := h l rfl a ha
      obtain ⟨n, v⟩ := a
      cases v with
      | none => exact ⟨_, .bare, .cons (said_ident h1) .nil⟩
      | some v => exact ⟨_, .value (a := [0x3d]), .cons (said_ident h1) (.cons say_assign (.cons (said_lit (by decide) (h2 v rfl)) .nil))⟩
    exact ⟨w, .some h1, h2⟩

theorem TypeOK.say {t : TypeNode} (h : TypeOK u t) : Sayable u TypeG t := by
  have hl : Said u (Tk.lss, [0x3c]) := said_op (by decide +kernel)
  have hg : Said u (Tk.gtr, [0x3e]) := said_op (by decide +kernel)
  have hc : Said u (Tk.comma, [0x2c]) := said_op (by decide +kernel)
  induction h with
  | map _ _ ha ih1 ih2 =>
    obtain ⟨v, h1, h2⟩ := ih1
    obtain ⟨w, h3, h4⟩ := ih2
    obtain ⟨x, h5, h6⟩ := ha.say
    exact ⟨_, .map h1 h3 h5, .cons (said_word (s := "map") (by simp [reserved])) (.cons hl (h2.append (.cons hc (h4.append (.cons hg h6)))))⟩
  | set _ ha ih =>
    obtain ⟨v, h1, h2⟩ := ih
    obtain ⟨x, h5, h6⟩ := ha.say
    exact ⟨_, .set h1 h5, .cons (said_word (s := "set") (by simp [reserved])) (.cons hl (h2.append (.cons hg h6)))⟩
  | list _ ha ih =>
    obtain ⟨v, h1, h2⟩ := ih
    obtain ⟨x, h5, h6⟩ := ha.say
    exact ⟨_, .list h1 h5, .cons (said_word (s := "list") (by simp [reserved])) (.cons hl (h2.append (.cons hg h6)))⟩
  | ref hn ha =>
    obtain ⟨x, h5, h6⟩ := ha.say
    exact ⟨_, .ref h5, .cons (said_ident hn) h6⟩

theorem ValueOK.say {v : Value} (h : ValueOK u v) : Sayable u ValueG v := by
  induction h with
  | ident h => exact ⟨_, .ident, .cons (said_ident h) .nil⟩
  | int h => exact ⟨_, .int, .cons (said_lit (by decide) h) .nil⟩
  | float h => exact ⟨_, .float, .cons (said_lit (by decide) h) .nil⟩
  | string h => exact ⟨_, .string, .cons (said_lit (by decide) h) .nil⟩
  | list _ ih =>
    obtain ⟨w, h1, h2⟩ := Bracketed.say_brack ih
    exact ⟨w, .list h1, h2⟩
  | @pairs l _ _ ih1 ih2 =>
    obtain ⟨w, h1, h2⟩ := Bracketed.say_brace (u := u) (R := PairG ValueG) (xs := l) fun p hp => by
      obtain ⟨v, h1, h2⟩ := ih1 p hp
      obtain ⟨w, h3, h4⟩ := ih2 p hp
      exact ⟨_, .mk (c := [0x3a]) h1 h3, h2.append (.cons say_colon h4)⟩
    exact ⟨w, .pairs h1, h2⟩

theorem AssignedG.say {α : Type} {R : α → List Lx → Prop} {o : Option α} (h : ∀ x, o = Option.some x → Sayable u R x) : Sayable u (AssignedG R) o := by
  cases o with
  | none => exact ⟨_, .none, .nil⟩
  | some x =>
    obtain ⟨w, h1, h2⟩ := h x rfl
    exact ⟨_, .some (a := [0x3d]) h1, .cons say_assign h2⟩

theorem EnumValueOK.say {e : EnumValue} (h : EnumValueOK u e) : Sayable u EnumValueG e := by
  obtain ⟨n, v, an⟩ := e
  obtain ⟨h1, h2, h3⟩ := h
  obtain ⟨wv, h4, h5⟩ := AssignedG.say (u := u) (R := LitG Tk.int) (o := v) fun x hx => ⟨_, .mk, .cons (said_lit (by decide) (h2 x hx)) .nil⟩
  obtain ⟨wa, h6, h7⟩ := h3.say
  exact ⟨_, .mk h4 h6, .cons (said_ident h1) (h5.append h7)⟩

theorem FieldOK.say {f : Field} (h : FieldOK u f) : Sayable u FieldG f := by
  obtain ⟨id, req, opt, t, ref, n, d, an⟩ := f
  obtain ⟨h1, h2, h3, h4, h5, h6⟩ := h
  dsimp only at h1 h2 h3 h4 h5 h6
  have i1 : Sayable u FieldIdG id := by
    cases id with
    | none => exact ⟨_, .none, .nil⟩
    | some i => exact ⟨_, .some (c := [0x3a]), .cons (said_lit (by decide) (h1 i rfl)) (.cons say_colon .nil)⟩
  have i2 : Sayable u (fun (_ : Unit) => RequirednessG req opt) () := by
    cases req <;> cases opt
    · exact ⟨_, .none, .nil⟩
    · exact ⟨_, .optional (a := wordBytes "optional"), .cons (said_word (s := "optional") (by simp [reserved])) .nil⟩
    · exact ⟨_, .required (a := wordBytes "required"), .cons (said_word (s := "required") (by simp [reserved])) .nil⟩
    · exact absurd ⟨rfl, rfl⟩ h2
  have i4 : Sayable u (FlagG Tk.and) ref := by
    cases ref with
    | false => exact ⟨_, .no, .nil⟩
    | true => exact ⟨_, .yes (a := [0x26]), .cons (said_op (by decide +kernel)) .nil⟩
  have i5 : Sayable u FieldNameG n := by
    rcases h4 with h4 | ⟨t, s, hs, rfl⟩
    · exact ⟨_, .ident, .cons (said_ident h4) .nil⟩
    · exact ⟨_, .word hs, .cons (said_word hs) .nil⟩
  obtain ⟨w1, a1, b1⟩ := i1
  obtain ⟨w2, a2, b2⟩ := i2
  obtain ⟨w3, a3, b3⟩ := h3.say
  obtain ⟨w4, a4, b4⟩ := i4
  obtain ⟨w5, a5, b5⟩ := i5
  obtain ⟨w6, a6, b6⟩ := AssignedG.say (R := ValueG) fun v hv => (h5 v hv).say
  obtain ⟨w7, a7, b7⟩ := h6.say
  exact ⟨_, .mk a1 a2 a3 a4 a5 a6 a7, b1.append (b2.append (b3.append (b4.append (b5.append (b6.append b7)))))⟩

theorem MethodOK.say {m : Method} (h : MethodOK u m) : Sayable u MethodG m := by
  obtain ⟨one, void, ret, n, args, th, an⟩ := m
  obtain ⟨h1, h2, h3, h4, h5, h6⟩ := h
  dsimp only at h1 h2 h3 h4 h5 h6
  have i1 : Sayable u (FlagG Tk.oneway) one := by
    cases one with
    | false => exact ⟨_, .no, .nil⟩
    | true => exact ⟨_, .yes (a := wordBytes "oneway"), .cons (said_word (by simp [reserved])) .nil⟩
  have i2 : Sayable u (ReturnG void) ret := by
    cases ret with
    | none =>
      rw [h1.2 rfl]
      exact ⟨_, .void (a := wordBytes "void"), .cons (said_word (by simp [reserved])) .nil⟩
    | some t =>
      obtain ⟨w, a, b⟩ := (h2 t rfl).say
      cases void with
      | true => exact nomatch h1.1 rfl
      | false => exact ⟨w, .type a, b⟩
  have i3 : Sayable u ThrowsG th := by
    cases th with
    | none => exact ⟨_, .none, .nil⟩
    | some l =>
      obtain ⟨w, a, b⟩ := Bracketed.say_paren (u := u) (R := FieldG) (xs := l) fun f hf => (h5 l rfl f hf).say
      exact ⟨_, .some (a := wordBytes "throws") a, .cons (said_word (by simp [reserved])) b⟩
  obtain ⟨w1, a1, b1⟩ := i1
  obtain ⟨w2, a2, b2⟩ := i2
  obtain ⟨w3, a3, b3⟩ := Bracketed.say_paren (u := u) (R := FieldG) (xs := args) fun f hf => (h4 f hf).say
  obtain ⟨w4, a4, b4⟩ := i3
  obtain ⟨w5, a5, b5⟩ := h6.say
  exact ⟨_, .mk a1 a2 a3 a4 a5, b1.append (b2.append (.cons (said_ident h3) (b3.append (b4.append b5))))⟩

theorem DefOK.say {d : Def} (h : DefOK u d) : Sayable u DefG d := by
  cases d with
  | bad => exact h.elim
  | const t n v =>
    obtain ⟨h1, h2, h3⟩ := h
    obtain ⟨w1, a1, b1⟩ := h1.say
    obtain ⟨w2, a2, b2⟩ := h3.say
    exact ⟨_, .const (a := wordBytes "const") (b := [0x3d]) (s := []) a1 a2 (fun t ht => nomatch ht),
      .cons (said_word (by simp [reserved])) (b1.append (.cons (said_ident h2) (.cons say_assign (b2.append .nil))))⟩
  | typedef t n an =>
    obtain ⟨h1, h2, h3⟩ := h
    obtain ⟨w1, a1, b1⟩ := h1.say
    obtain ⟨w2, a2, b2⟩ := h3.say
    exact ⟨_, .typedef (a := wordBytes "typedef") (s := []) a1 a2 (fun t ht => nomatch ht),
      .cons (said_word (by simp [reserved])) (b1.append (.cons (said_ident h2) (b2.append .nil)))⟩
  | enum n l an =>
    obtain ⟨h1, h2, h3⟩ := h
    obtain ⟨w1, a1, b1⟩ := Bracketed.say_brace (u := u) (R := EnumValueG) (xs := l) fun f hf => (h2 f hf).say
    obtain ⟨w2, a2, b2⟩ := h3.say
    exact ⟨_, .enum (a := wordBytes "enum") a1 a2, .cons (said_word (by simp [reserved])) (.cons (said_ident h1) (b1.append b2))⟩
  | struct un ex n l an =>
    obtain ⟨h0, h1, h2, h3⟩ := h
    obtain ⟨w1, a1, b1⟩ := Bracketed.say_brace (u := u) (R := FieldG) (xs := l) fun f hf => (h2 f hf).say
    obtain ⟨w2, a2, b2⟩ := h3.say
    cases un <;> cases ex
    · exact ⟨_, .struct (a := wordBytes "struct") .struct a1 a2, .cons (said_word (by simp [reserved])) (.cons (said_ident h1) (b1.append b2))⟩
    · exact ⟨_, .struct (a := wordBytes "exception") .exception a1 a2, .cons (said_word (by simp [reserved])) (.cons (said_ident h1) (b1.append b2))⟩
    · exact ⟨_, .struct (a := wordBytes "union") .union a1 a2, .cons (said_word (by simp [reserved])) (.cons (said_ident h1) (b1.append b2))⟩
    · exact absurd ⟨rfl, rfl⟩ h0
  | service n e l an =>
    obtain ⟨h0, h1, h2, h3⟩ := h
    have i1 : Sayable u ExtendsG e := by
      cases e with
      | none => exact ⟨_, .none, .nil⟩
      | some b => exact ⟨_, .some (a := wordBytes "extends"), .cons (said_word (by simp [reserved])) (.cons (said_ident (h1 b rfl)) .nil)⟩
    obtain ⟨w0, a0, b0⟩ := i1
    obtain ⟨w1, a1, b1⟩ := Bracketed.say_brace (u := u) (R := MethodG) (xs := l) fun f hf => (h2 f hf).say
    obtain ⟨w2, a2, b2⟩ := h3.say
    exact ⟨_, .service (a := wordBytes "service") a0 a1 a2, .cons (said_word (by simp [reserved])) (.cons (said_ident h0) (b0.append (b1.append b2)))⟩

theorem HeaderOK.say {d : Header} (h : HeaderOK u d) : Sayable u HeaderG d := by
  cases d with
  | «include» p => exact ⟨_, .«include» (a := wordBytes "include"), .cons (said_word (by simp [reserved])) (.cons (said_lit (by decide) h) .nil)⟩
  | «namespace» sc n an =>
    obtain ⟨h1, h2, h3⟩ := h
    have i1 : Sayable u ScopeG sc := by
      cases sc with
      | none => exact ⟨_, .all (a := [0x2a]), .cons (said_op (by decide +kernel)) .nil⟩
      | some b => exact ⟨_, .name, .cons (said_ident (h1 b rfl)) .nil⟩
    obtain ⟨w0, a0, b0⟩ := i1
    obtain ⟨w2, a2, b2⟩ := h3.say
    exact ⟨_, .«namespace» (a := wordBytes "namespace") a0 a2, .cons (said_word (by simp [reserved])) (b0.append (.cons (said_ident h2) b2))⟩

theorem Writable.say {f : File} (h : Writable u f) : Sayable u FileG f := by
  obtain ⟨hs, ds⟩ := f
  obtain ⟨w1, a1, b1⟩ := Many.say (u := u) (R := HeaderG) (xs := hs) fun d hd => (h.1 d hd).say
  obtain ⟨w2, a2, b2⟩ := Many.say (u := u) (R := DefG) (xs := ds) fun d hd => (h.2 d hd).say
  exact ⟨_, .mk a1 a2, b1.append b2⟩

end

end GoThrift.Spec
