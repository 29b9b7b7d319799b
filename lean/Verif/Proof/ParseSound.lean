import Verif.Proof.ParseGood

/-!
# The functions of the parser end, and what they accept without errors is in the grammar
-/

namespace GoThrift.Idl

open Spec

/-- Sequencing, where it does not matter how much a panic consumes. -/
theorem Good.seq {α β : Type} {G : α → List Lx → Prop} {H : α → β → List Lx → Prop} {k1 k2 : Nat} {p : PProg α} {f : α → PProg β} {t : TS} (hp : Good G k1 0 p t)
    (hf : ∀ a t', t'.rest.length ≤ t.rest.length - k1 → Good (H a) k2 0 (f a) t') : Good (fun b w => ∃ a w1 w2, w = w1 ++ w2 ∧ G a w1 ∧ H a b w2) (k1 + k2) 0 (p >>= f) t :=
  hp.bind (Nat.zero_le _) hf

theorem separator_good (n : Nat) (t : TS) (h : t.rest.length < n) : Good (fun _ w => Seps w) 0 0 (separator n) t := by
  induction n generalizing t with
  | zero => omega
  | succ n ih =>
    unfold separator
    refine .tok (.ite (fun hc => ?_) (fun hc => ?_))
    · obtain ⟨y, p, l, hr⟩ := rest_of_tok' (t := t) (by rcases hc with hc | hc <;> rw [hc] <;> decide)
      have hpos : 0 < t.rest.length := by rw [hr]; simp
      refine ((Good.next hr 0).seq fun _ t' hl => ih t' (by omega)).mono (Nat.zero_le _) (Nat.le_refl _) ?_
      rintro _ w ⟨_, w1, w2, rfl, rfl, h2⟩ x hx
      rcases List.mem_cons.1 hx with rfl | hx
      · exact hc
      · exact h2 x hx
    · refine (Good.pure () t 0).mono (Nat.le_refl _) (Nat.le_refl _) ?_
      rintro _ w ⟨_, rfl⟩ x hx
      cases hx

theorem listLoop_good {α : Type} {R : α → List Lx → Prop} (close : Token) (f : PProg α) (n : Nat) (t : TS) (h : t.rest.length < n)
    (hf : ∀ t', t'.rest.length ≤ t.rest.length → Good R 1 0 f t') : Good (Items R) 0 0 (listLoop close f n) t := by
  induction n generalizing t with
  | zero => omega
  | succ n ih =>
    unfold listLoop
    refine .tok (.ite (fun hc => ?_) (fun hc => ?_))
    · obtain ⟨y, p, l, hr⟩ := rest_of_tok' hc.1
      have hpos : 0 < t.rest.length := by rw [hr]; simp
      refine ((hf t (Nat.le_refl _)).seq fun a t1 hl1 => (separator_good n t1 (by omega)).seq fun _ t2 hl2 =>
        (ih t2 (by omega) fun t' ht' => hf t' (by omega)).seq fun l t3 _ => Good.pure (a :: l) t3 0).mono (Nat.zero_le _) (Nat.le_refl _) ?_
      rintro b w ⟨a, w1, w2, rfl, h1, _, w3, w4, rfl, h2, l, w5, w6, rfl, h3, rfl, rfl⟩
      rw [List.append_nil]
      exact .cons h1 h2 h3
    · refine (Good.pure [] t 0).mono (Nat.le_refl _) (Nat.le_refl _) ?_
      rintro _ w ⟨rfl, rfl⟩
      exact .nil

theorem list_good {α : Type} {R : α → List Lx → Prop} {open_ close : Token} (ho : open_ ≠ Tk.eof) (hc : close ≠ Tk.eof) (f : PProg α) (n : Nat) (t : TS) (h : t.rest.length - 1 < n)
    (hf : ∀ t', t'.rest.length ≤ t.rest.length - 1 → Good R 1 0 f t') : Good (Bracketed open_ close R) 1 0 (list n open_ close f) t := by
  unfold list
  refine ((Good.want ho t 0).seq fun _ t1 hl1 => (listLoop_good close f n t1 (by omega) fun t' ht' => hf t' (by omega)).seq fun l t2 _ =>
    (Good.want hc t2 0).seq fun _ t3 _ => Good.pure l t3 0).mono (by omega) (Nat.le_refl _) ?_
  rintro b w ⟨_, w1, w2, rfl, ⟨y, rfl⟩, l, w3, w4, rfl, h2, _, w5, w6, rfl, ⟨z, rfl⟩, rfl, rfl⟩
  exact .mk h2

theorem annotation_good (t : TS) : Good AnnotationG 1 0 annotation t := by
  unfold annotation
  refine ((Good.litOf (x := Tk.ident) (by decide) t 0).seq fun name t1 _ => (assigned_good (f := string) fun t' _ => Good.litOf (x := Tk.string) (by decide) t' 0).seq fun v t2 _ =>
    Good.pure (⟨name, v⟩ : Annotation) t2 0).mono (by omega) (Nat.le_refl _) ?_
  rintro b w ⟨name, w1, w2, rfl, ⟨⟩, a, w3, w4, rfl, h2, rfl, rfl⟩
  cases h2 with
  | none => exact .bare
  | some h3 => cases h3; exact .value

theorem annotations_good (n : Nat) (t : TS) (h : t.rest.length < n) : Good AnnotationsG 0 0 (annotations n) t := by
  unfold annotations
  refine .tok (.ite (fun hc => ?_) (fun hc => ?_))
  · refine (Good.pure none t 0).mono (Nat.le_refl _) (Nat.le_refl _) ?_
    rintro _ w ⟨rfl, rfl⟩
    exact .none
  · refine ((list_good (R := AnnotationG) (by decide) (by decide) annotation n t (by omega) fun t' _ => annotation_good t').seq fun l t1 _ => Good.pure (some l) t1 0).mono (by omega) (Nat.le_refl _) ?_
    rintro b w ⟨l, w1, w2, rfl, h1, rfl, rfl⟩
    rw [List.append_nil]
    exact .some h1

theorem type_good (n : Nat) (t : TS) (h : t.rest.length < n) : Good TypeG 1 0 (type_ n) t := by
  induction n generalizing t with
  | zero => omega
  | succ n ih =>
    unfold type_
    refine .tok (.ite (fun hc => ?_) fun _ => .ite (fun hc => ?_) fun _ => .ite (fun hc => ?_) fun _ => .ite (fun hc => ?_) fun _ => Good.bad)
    · obtain ⟨y, p, l, hr⟩ := rest_of_tok' (t := t) (by rw [hc]; decide)
      have hpos : 0 < t.rest.length := by rw [hr]; simp
      refine ((Good.want (x := Tk.map) (by decide) t 0).seq fun _ t1 l1 => (Good.want (x := Tk.lss) (by decide) t1 0).seq fun _ t2 l2 =>
        (ih t2 (by omega)).seq fun k t3 l3 => (Good.want (x := Tk.comma) (by decide) t3 0).seq fun _ t4 l4 => (ih t4 (by omega)).seq fun v t5 l5 =>
        (Good.want (x := Tk.gtr) (by decide) t5 0).seq fun _ t6 l6 => (annotations_good n t6 (by omega)).seq fun a t7 _ => Good.pure (TypeNode.map k v a) t7 0).mono (by omega) (Nat.le_refl _) ?_
      rintro b w ⟨_, w1, _, rfl, ⟨y1, rfl⟩, _, w2, _, rfl, ⟨y2, rfl⟩, k, w3, _, rfl, hk, _, w4, _, rfl, ⟨y4, rfl⟩, v, w5, _, rfl, hv, _, w6, _, rfl, ⟨y6, rfl⟩, a, w7, _, rfl, ha, rfl, rfl⟩
      rw [List.append_nil]
      exact .map hk hv ha
    · obtain ⟨y, p, l, hr⟩ := rest_of_tok' (t := t) (by rw [hc]; decide)
      have hpos : 0 < t.rest.length := by rw [hr]; simp
      refine ((Good.want (x := Tk.set) (by decide) t 0).seq fun _ t1 l1 => (Good.want (x := Tk.lss) (by decide) t1 0).seq fun _ t2 l2 =>
        (ih t2 (by omega)).seq fun v t5 l5 =>
        (Good.want (x := Tk.gtr) (by decide) t5 0).seq fun _ t6 l6 => (annotations_good n t6 (by omega)).seq fun a t7 _ => Good.pure (TypeNode.set v a) t7 0).mono (by omega) (Nat.le_refl _) ?_
      rintro b w ⟨_, w1, _, rfl, ⟨y1, rfl⟩, _, w2, _, rfl, ⟨y2, rfl⟩, v, w5, _, rfl, hv, _, w6, _, rfl, ⟨y6, rfl⟩, a, w7, _, rfl, ha, rfl, rfl⟩
      rw [List.append_nil]
      exact .set hv ha
    · obtain ⟨y, p, l, hr⟩ := rest_of_tok' (t := t) (by rw [hc]; decide)
      have hpos : 0 < t.rest.length := by rw [hr]; simp
      refine ((Good.want (x := Tk.list) (by decide) t 0).seq fun _ t1 l1 => (Good.want (x := Tk.lss) (by decide) t1 0).seq fun _ t2 l2 =>
        (ih t2 (by omega)).seq fun v t5 l5 =>
        (Good.want (x := Tk.gtr) (by decide) t5 0).seq fun _ t6 l6 => (annotations_good n t6 (by omega)).seq fun a t7 _ => Good.pure (TypeNode.list v a) t7 0).mono (by omega) (Nat.le_refl _) ?_
      rintro b w ⟨_, w1, _, rfl, ⟨y1, rfl⟩, _, w2, _, rfl, ⟨y2, rfl⟩, v, w5, _, rfl, hv, _, w6, _, rfl, ⟨y6, rfl⟩, a, w7, _, rfl, ha, rfl, rfl⟩
      rw [List.append_nil]
      exact .list hv ha
    · obtain ⟨y, p, l, hr⟩ := rest_of_tok' (t := t) (by rw [hc]; decide)
      have hpos : 0 < t.rest.length := by rw [hr]; simp
      refine ((Good.litOf (x := Tk.ident) (by decide) t 0).seq fun name t1 l1 => (annotations_good n t1 (by omega)).seq fun a t7 _ => Good.pure (TypeNode.ref name a) t7 0).mono (by omega) (Nat.le_refl _) ?_
      rintro b w ⟨name, w1, _, rfl, ⟨⟩, a, w7, _, rfl, ha, rfl, rfl⟩
      rw [List.append_nil]
      exact .ref ha

theorem value_good (n : Nat) (t : TS) (h : t.rest.length < n) : Good ValueG 1 0 (value n) t := by
  induction n generalizing t with
  | zero => omega
  | succ n ih =>
    unfold value
    refine .tok (.ite (fun hc => ?_) fun _ => .ite (fun hc => ?_) fun _ => .ite (fun hc => ?_) fun _ => .ite (fun hc => ?_) fun _ => .ite (fun hc => ?_) fun _ => .ite (fun hc => ?_) fun _ => Good.bad)
    · refine ((Good.litOf (x := Tk.ident) (by decide) t 0).seq fun x t1 _ => Good.pure (Value.ident x) t1 0).mono (by omega) (Nat.le_refl _) ?_
      rintro b w ⟨x, w1, _, rfl, ⟨⟩, rfl, rfl⟩
      exact .ident
    · refine ((Good.litOf (x := Tk.int) (by decide) t 0).seq fun x t1 _ => Good.pure (Value.int x) t1 0).mono (by omega) (Nat.le_refl _) ?_
      rintro b w ⟨x, w1, _, rfl, ⟨⟩, rfl, rfl⟩
      exact .int
    · refine ((Good.litOf (x := Tk.float) (by decide) t 0).seq fun x t1 _ => Good.pure (Value.float x) t1 0).mono (by omega) (Nat.le_refl _) ?_
      rintro b w ⟨x, w1, _, rfl, ⟨⟩, rfl, rfl⟩
      exact .float
    · refine ((Good.litOf (x := Tk.string) (by decide) t 0).seq fun x t1 _ => Good.pure (Value.string x) t1 0).mono (by omega) (Nat.le_refl _) ?_
      rintro b w ⟨x, w1, _, rfl, ⟨⟩, rfl, rfl⟩
      exact .string
    · obtain ⟨y, p, l, hr⟩ := rest_of_tok' (t := t) (by rw [hc]; decide)
      have hpos : 0 < t.rest.length := by rw [hr]; simp
      refine ((list_good (R := ValueG) (by decide) (by decide) (value n) n t (by omega) fun t' _ => ih t' (by omega)).seq fun l t1 _ => Good.pure (Value.list l) t1 0).mono (by omega) (Nat.le_refl _) ?_
      rintro b w ⟨l, w1, w2, rfl, h1, rfl, rfl⟩
      rw [List.append_nil]
      exact .list h1
    · obtain ⟨y, p, l, hr⟩ := rest_of_tok' (t := t) (by rw [hc]; decide)
      have hpos : 0 < t.rest.length := by rw [hr]; simp
      refine ((list_good (R := PairG ValueG) (by decide) (by decide) _ n t (by omega) fun t' _ => ?_).seq fun l t1 _ => Good.pure (Value.pairs l) t1 0).mono (by omega) (Nat.le_refl _) ?_
      · refine ((ih t' (by omega)).seq fun k t1 _ => (Good.want (x := Tk.colon) (by decide) t1 0).seq fun _ t2 _ => (ih t2 (by omega)).seq fun v t3 _ => Good.pure (k, v) t3 0).mono (by omega) (Nat.le_refl _) ?_
        rintro b w ⟨k, w1, _, rfl, hk, _, w2, _, rfl, ⟨y, rfl⟩, v, w3, _, rfl, hv, rfl, rfl⟩
        rw [List.append_nil]
        exact .mk hk hv
      · rintro b w ⟨l, w1, w2, rfl, h1, rfl, rfl⟩
        rw [List.append_nil]
        exact .pairs h1

theorem enumValue_good (n : Nat) (t : TS) (h : t.rest.length < n) : Good EnumValueG 1 0 (enumValue n) t := by
  unfold enumValue
  refine ((Good.litOf (x := Tk.ident) (by decide) t 0).seq fun name t1 _ => (assigned_good (f := int) fun t' _ => Good.litOf (x := Tk.int) (by decide) t' 0).seq fun v t2 _ =>
    (annotations_good n t2 (by omega)).seq fun an t3 _ => Good.pure (⟨name, v, an⟩ : EnumValue) t3 0).mono (by omega) (Nat.le_refl _) ?_
  rintro b w ⟨name, w1, w2, rfl, ⟨⟩, a, w3, w4, rfl, h2, an, w5, w6, rfl, h3, rfl, rfl⟩
  simp only [List.cons_append, List.nil_append, List.append_nil]
  exact EnumValueG.mk h2 h3

theorem isKeyword_iff : ∀ t : Token, isKeyword t = true ↔ ∃ p ∈ reserved, p.2 = t := by decide +kernel

theorem fieldName_good (t : TS) : Good FieldNameG 1 0 fieldName t := by
  unfold fieldName
  refine .tok (.ite (fun hc => .lit ?_) fun hc => ?_)
  · obtain ⟨y, p, l, hr⟩ := rest_of_tok' (t := t) (by
      rcases hc with hc | hc
      · rw [hc]; decide
      · intro he; rw [he] at hc; revert hc; decide)
    have hl : t.lit = y := by unfold TS.lit; rw [hr]
    refine ((Good.next hr 0).seq fun _ t' _ => Good.pure t.lit t' 0).mono (by omega) (Nat.le_refl _) ?_
    rintro b w ⟨_, w1, w2, rfl, rfl, rfl, rfl⟩
    rw [hl]
    rcases hc with hc | hc
    · rw [hc]; exact .ident
    · obtain ⟨⟨s, t'⟩, hm, he⟩ := (isKeyword_iff _).1 hc
      dsimp only at he
      rw [← he]
      exact .word hm
  · refine ((Good.want_err (x := Tk.ident) (fun h => hc (.inl h)) 0).seq fun _ t' _ => Good.pure [] t' 0).mono (by omega) (Nat.le_refl _) ?_
    rintro b w ⟨_, w1, w2, rfl, h, _⟩
    exact h.elim

theorem requiredness_good (t : TS) : Good (fun r w => RequirednessG r.1 r.2 w) 0 0 requiredness t := by
  unfold requiredness
  refine ((Good.got (x := Tk.required) (by decide) t 0).seq (H := fun b r w => if b then r = (true, false) ∧ w = [] else RequirednessG r.1 r.2 w ∧ r.1 = false) (k2 := 0) fun b t1 _ => .ite (fun hb => ?_) fun hb => ?_).mono (by omega) (Nat.le_refl _) ?_
  · refine (Good.pure (true, false) t1 0).mono (Nat.le_refl _) (Nat.le_refl _) fun a w h => ?_
    rw [if_pos hb]
    exact h
  · refine ((Good.got (x := Tk.optional) (by decide) t1 0).seq (H := fun b r w => r = (false, b) ∧ w = []) (k2 := 0) fun b t1 _ => .ite (fun hb => ?_) fun hb => ?_).mono (by omega) (Nat.le_refl _) ?_
    · rw [hb]; exact Good.pure (false, true) t1 0
    · rw [show b = false by simpa using hb]; exact Good.pure (false, false) t1 0
    · rintro r w ⟨b, w1, w2, rfl, h1, rfl, rfl⟩
      rw [List.append_nil, if_neg hb]
      refine ⟨?_, rfl⟩
      cases h1 with
      | no => exact .none
      | yes => exact .optional
  · rintro r w ⟨b, w1, w2, rfl, h1, h2⟩
    cases h1 with
    | no => exact h2.1
    | yes =>
      obtain ⟨rfl, rfl⟩ := h2
      exact .required

theorem fieldId_good (t : TS) : Good FieldIdG 0 0 fieldId t := by
  unfold fieldId
  refine .tok (.ite (fun hc => ?_) fun hc => ?_)
  · refine ((Good.litOf (x := Tk.int) (by decide) t 0).seq fun i t1 _ => (Good.want (x := Tk.colon) (by decide) t1 0).seq fun _ t2 _ => Good.pure (some i) t2 0).mono (by omega) (Nat.le_refl _) ?_
    rintro b w ⟨i, w1, _, rfl, ⟨⟩, _, w3, _, rfl, ⟨y, rfl⟩, rfl, rfl⟩
    exact .some
  · refine (Good.pure none t 0).mono (by omega) (Nat.le_refl _) ?_
    rintro b w ⟨rfl, rfl⟩
    exact .none

theorem field_good (n : Nat) (t : TS) (h : t.rest.length < n) : Good FieldG 1 0 (field n) t := by
  unfold field
  refine ((fieldId_good t).seq fun id t1 l1 => (requiredness_good t1).seq fun r t2 l2 => (type_good n t2 (by omega)).seq fun ty t3 l3 =>
    (Good.got (x := Tk.and) (by decide) t3 0).seq fun ref t4 l4 => (fieldName_good t4).seq fun name t5 l5 =>
    (assigned_good fun t' _ => value_good n t' (by omega)).seq fun d t6 l6 => (annotations_good n t6 (by omega)).seq fun an t7 _ =>
    Good.pure (⟨id, r.1, r.2, ty, ref, name, d, an⟩ : Field) t7 0).mono (by omega) (Nat.le_refl _) ?_
  rintro b w ⟨id, w1, _, rfl, h1, r, w2, _, rfl, h2, ty, w3, _, rfl, h3, ref, w4, _, rfl, h4, name, w5, _, rfl, h5, d, w6, w7, rfl, h6, an, w8, _, rfl, h7, rfl, rfl⟩
  rw [List.append_nil]
  exact .mk h1 h2 h3 h4 h5 h6 h7

theorem fields_good (n : Nat) {open_ close : Token} (ho : open_ ≠ Tk.eof) (hc : close ≠ Tk.eof) (t : TS) (h : t.rest.length < n) : Good (Bracketed open_ close FieldG) 1 0 (fields n open_ close) t :=
  list_good ho hc (field n) n t (by omega) fun t' _ => field_good n t' (by omega)

theorem returnType_good (n : Nat) (t : TS) (h : t.rest.length < n) : Good (fun r w => ReturnG r.1 r.2 w) 0 0 (returnType n) t := by
  unfold returnType
  refine ((Good.got (x := Tk.void) (by decide) t 0).seq (k2 := 0) (H := fun b r w => (b = true ∧ r = (true, none) ∧ w = []) ∨ (b = false ∧ ∃ ty, r = (false, some ty) ∧ TypeG ty w)) fun b t1 l1 => .ite (fun hb => ?_) fun hb => ?_).mono (Nat.le_refl _) (Nat.le_refl _) ?_
  · refine (Good.pure (true, none) t1 0).mono (by omega) (Nat.le_refl _) ?_
    rintro _ _ ⟨rfl, rfl⟩
    exact .inl ⟨hb, rfl, rfl⟩
  · refine ((type_good n t1 (by omega)).seq fun ty t3 _ => Good.pure (false, some ty) t3 0).mono (by omega) (Nat.le_refl _) ?_
    rintro _ _ ⟨ty, w, _, rfl, h1, rfl, rfl⟩
    exact .inr ⟨by simpa using hb, ty, rfl, by simpa using h1⟩
  · rintro r w ⟨b, w1, w2, rfl, h1, ⟨rfl, rfl, rfl⟩ | ⟨rfl, ty, rfl, h2⟩⟩
    · cases h1; exact .void
    · cases h1; exact .type h2

theorem method_good (n : Nat) (t : TS) (h : t.rest.length < n) : Good MethodG 1 0 (method n) t := by
  unfold method
  refine ((Good.got (x := Tk.oneway) (by decide) t 0).seq fun one t1 l1 => (returnType_good n t1 (by omega)).seq fun r t2 l2 => (Good.litOf (x := Tk.ident) (by decide) t2 0).seq fun name t3 l3 =>
    (fields_good n (open_ := Tk.lparen) (close := Tk.rparen) (by decide) (by decide) t3 (by omega)).seq fun args t4 l4 =>
    (after_good (x := Tk.throws) (by decide) (t := t4) fun t' _ => fields_good n (open_ := Tk.lparen) (close := Tk.rparen) (by decide) (by decide) t' (by omega)).seq fun th t5 l5 =>
    (annotations_good n t5 (by omega)).seq fun an t6 _ => Good.pure (⟨one, r.1, r.2, name, args, th, an⟩ : Method) t6 0).mono (by omega) (Nat.le_refl _) ?_
  rintro b w ⟨one, w1, _, rfl, h1, r, w2, _, rfl, h2, name, w4, _, rfl, ⟨⟩, args, w5, _, rfl, h5, th, w7, _, rfl, h7, an, w8, _, rfl, h8, rfl, rfl⟩
  have hth : ThrowsG th w7 := by
    rcases h7 with ⟨rfl, rfl⟩ | ⟨l, y, w', rfl, rfl, h7⟩
    · exact .none
    · exact .some h7
  have := MethodG.mk (n := name) h1 h2 h5 hth h8
  simpa using this

theorem const_good (n : Nat) (t : TS) (h : t.rest.length < n) : Good DefG 1 1 (const_ n) t := by
  unfold const_
  refine ((Good.want (x := Tk.const) (by decide) t 1).bind (j2 := 0) (Nat.le_refl _) fun _ t1 l1 => (type_good n t1 (by omega)).seq fun ty t2 l2 => (Good.litOf (x := Tk.ident) (by decide) t2 0).seq fun name t3 l3 =>
    (Good.want (x := Tk.assign) (by decide) t3 0).seq fun _ t4 l4 => (value_good n t4 (by omega)).seq fun v t5 l5 => (separator_good n t5 (by omega)).seq fun _ t6 _ =>
    Good.pure (Def.const ty name v) t6 0).mono (by omega) (Nat.le_refl _) ?_
  rintro b w ⟨_, w1, _, rfl, ⟨y1, rfl⟩, ty, w2, _, rfl, h2, name, w3, _, rfl, ⟨⟩, _, w4, _, rfl, ⟨y4, rfl⟩, v, w5, _, rfl, h5, _, w6, _, rfl, h6, rfl, rfl⟩
  simp only [List.cons_append, List.nil_append, List.append_nil]
  exact DefG.const h2 h5 h6

theorem typedef_good (n : Nat) (t : TS) (h : t.rest.length < n) : Good DefG 1 1 (typedef n) t := by
  unfold typedef
  refine ((Good.want (x := Tk.typedef) (by decide) t 1).bind (j2 := 0) (Nat.le_refl _) fun _ t1 l1 => (type_good n t1 (by omega)).seq fun ty t2 l2 => (Good.litOf (x := Tk.ident) (by decide) t2 0).seq fun name t3 l3 =>
    (annotations_good n t3 (by omega)).seq fun an t5 l5 => (separator_good n t5 (by omega)).seq fun _ t6 _ => Good.pure (Def.typedef ty name an) t6 0).mono (by omega) (Nat.le_refl _) ?_
  rintro b w ⟨_, w1, _, rfl, ⟨y1, rfl⟩, ty, w2, _, rfl, h2, name, w3, _, rfl, ⟨⟩, an, w5, _, rfl, h5, _, w6, _, rfl, h6, rfl, rfl⟩
  simp only [List.cons_append, List.nil_append, List.append_nil]
  exact DefG.typedef h2 h5 h6

theorem enum_good (n : Nat) (t : TS) (h : t.rest.length < n) : Good DefG 1 1 (enum n) t := by
  unfold enum
  refine ((Good.want (x := Tk.enum) (by decide) t 1).bind (j2 := 0) (Nat.le_refl _) fun _ t1 l1 => (Good.litOf (x := Tk.ident) (by decide) t1 0).seq fun name t3 l3 =>
    (list_good (R := EnumValueG) (by decide) (by decide) (enumValue n) n t3 (by omega) fun t' _ => enumValue_good n t' (by omega)).seq fun l t4 l4 =>
    (annotations_good n t4 (by omega)).seq fun an t6 _ => Good.pure (Def.enum name l an) t6 0).mono (by omega) (Nat.le_refl _) ?_
  rintro b w ⟨_, w1, _, rfl, ⟨y1, rfl⟩, name, w3, _, rfl, ⟨⟩, l, w4, _, rfl, h4, an, w5, _, rfl, h5, rfl, rfl⟩
  simp only [List.cons_append, List.nil_append, List.append_nil]
  exact DefG.enum h4 h5

theorem struct_good (n : Nat) {x : Token} (hx : x = Tk.struct ∨ x = Tk.union ∨ x = Tk.exception) (t : TS) (h : t.rest.length < n) : Good DefG 1 1 (struct_ n x) t := by
  unfold struct_
  refine ((Good.want (x := x) (by rcases hx with rfl | rfl | rfl <;> decide) t 1).bind (j2 := 0) (Nat.le_refl _) fun _ t1 l1 => (Good.litOf (x := Tk.ident) (by decide) t1 0).seq fun name t3 l3 =>
    (fields_good n (open_ := Tk.lbrace) (close := Tk.rbrace) (by decide) (by decide) t3 (by omega)).seq fun l t4 l4 =>
    (annotations_good n t4 (by omega)).seq fun an t6 _ => Good.pure (Def.struct (x = Tk.union) (x = Tk.exception) name l an) t6 0).mono (by omega) (Nat.le_refl _) ?_
  rintro b w ⟨_, w1, _, rfl, ⟨y1, rfl⟩, name, w3, _, rfl, ⟨⟩, l, w4, _, rfl, h4, an, w5, _, rfl, h5, rfl, rfl⟩
  simp only [List.cons_append, List.nil_append, List.append_nil]
  refine DefG.struct ?_ h4 h5
  rcases hx with rfl | rfl | rfl
  · exact .struct
  · exact .union
  · exact .exception

theorem service_good (n : Nat) (t : TS) (h : t.rest.length < n) : Good DefG 1 1 (service n) t := by
  unfold service
  refine ((Good.want (x := Tk.service) (by decide) t 1).bind (j2 := 0) (Nat.le_refl _) fun _ t1 l1 => (Good.litOf (x := Tk.ident) (by decide) t1 0).seq fun name t3 l3 =>
    (after_good (x := Tk.extends_) (by decide) (t := t3) (f := ident) fun t' _ => Good.litOf (x := Tk.ident) (by decide) t' 0).seq fun ext t4 l4 =>
    (list_good (R := MethodG) (by decide) (by decide) (method n) n t4 (by omega) fun t' _ => method_good n t' (by omega)).seq fun l t5 l5 =>
    (annotations_good n t5 (by omega)).seq fun an t6 _ => Good.pure (Def.service name ext l an) t6 0).mono (by omega) (Nat.le_refl _) ?_
  rintro b w ⟨_, w1, _, rfl, ⟨y1, rfl⟩, name, w3, _, rfl, ⟨⟩, ext, w7, _, rfl, h7, l, w4, _, rfl, h4, an, w5, _, rfl, h5, rfl, rfl⟩
  simp only [List.cons_append, List.nil_append, List.append_nil]
  refine DefG.service ?_ h4 h5
  rcases h7 with ⟨rfl, rfl⟩ | ⟨n, y, w', rfl, rfl, ⟨⟩⟩
  · exact .none
  · exact .some

/-- The loop that looks for the next definition. -/
theorem resync_good (n : Nat) (t : TS) (h : t.rest.length < n) :
    ∃ t', (resync n).run tokSource t = .done (some (), t') ∧ t'.eof = t.eof ∧ t'.rest = t.rest.dropWhile (fun x => decide (x.1 ≠ Tk.eof ∧ ¬ isDefinition x.1 = true)) ∧ t'.errs = t.errs := by
  induction n generalizing t with
  | zero => omega
  | succ n ih =>
    have hrun : (resync (n + 1)).run tokSource t = (if t.tok ≠ Tk.eof ∧ ¬ isDefinition t.tok = true then (do next; resync n) else pure ()).run tokSource t := by
      rw [resync]; rfl
    rw [hrun]
    obtain ⟨rest, eof, errs⟩ := t
    cases rest with
    | nil => exact ⟨⟨[], eof, errs⟩, rfl, rfl, rfl, rfl⟩
    | cons x l =>
      by_cases hc : x.1 ≠ Tk.eof ∧ ¬ isDefinition x.1 = true
      · rw [if_pos (show TS.tok ⟨x :: l, eof, errs⟩ ≠ _ ∧ ¬ isDefinition (TS.tok ⟨x :: l, eof, errs⟩) = true from hc)]
        obtain ⟨t', h1, h2, h3, h4⟩ := ih ⟨l, eof, errs⟩ (by simp at h ⊢; omega)
        exact ⟨t', h1, h2, by rw [h3, List.dropWhile_cons_of_pos (by simpa using hc)], h4⟩
      · rw [if_neg (show ¬ (TS.tok ⟨x :: l, eof, errs⟩ ≠ _ ∧ ¬ isDefinition (TS.tok ⟨x :: l, eof, errs⟩) = true) from hc)]
        exact ⟨⟨x :: l, eof, errs⟩, rfl, rfl, by rw [List.dropWhile_cons_of_neg (by simpa using hc)], rfl⟩

theorem definition_good (n : Nat) (t : TS) (h : t.rest.length < n) : Good DefG 1 0 (definition n) t ∧ (isDefinition t.tok = true → Good DefG 1 1 (definition n) t) := by
  have key : isDefinition t.tok = true → Good DefG 1 1 (definition n) t := by
    intro hd
    unfold definition
    refine .tok (.ite (fun _ => const_good n t h) fun h1 => .ite (fun _ => typedef_good n t h) fun h2 => .ite (fun _ => enum_good n t h) fun h3 => .ite (fun hx => struct_good n hx t h) fun h4 =>
      .ite (fun _ => service_good n t h) fun h5 => ?_)
    exfalso
    revert hd h1 h2 h3 h4 h5
    generalize t.tok = x
    revert x
    decide +kernel
  refine ⟨?_, key⟩
  by_cases hd : isDefinition t.tok = true
  · exact (key hd).mono (Nat.le_refl _) (Nat.zero_le _) fun _ _ h => h
  · unfold definition
    refine .tok (.ite (fun hc => ?_) fun _ => .ite (fun hc => ?_) fun _ => .ite (fun hc => ?_) fun _ => .ite (fun hc => ?_) fun _ => .ite (fun hc => ?_) fun _ => Good.bad)
    · rw [hc] at hd; exact absurd (by decide) hd
    · rw [hc] at hd; exact absurd (by decide) hd
    · rw [hc] at hd; exact absurd (by decide) hd
    · rcases hc with hc | hc | hc <;> (rw [hc] at hd; exact absurd (by decide) hd)
    · rw [hc] at hd; exact absurd (by decide) hd

theorem run_recover {S α : Type} (r : Source S) (p h : PProg α) (s : S) :
    (p.recover h).run r s = (p.run r s).bind fun x => match x.1 with
      | some a => .done (some a, x.2)
      | none => h.run r x.2 := by
  induction p generalizing s with
  | ret a => rfl
  | bad => rfl
  | diverge => rfl
  | call o k ih =>
    rw [PProg.recover, PProg.run, PProg.run, Out.bind_assoc]
    congr 1
    funext x
    exact ih x.1 x.2

theorem definition_bad (n : Nat) {t : TS} (hd : ¬ isDefinition t.tok = true) : (definition n).run tokSource t = .done (none, t.expected .definition) := by
  have no : ∀ x, isDefinition x = true → ¬ t.tok = x := fun x hx he => hd (by rw [he]; exact hx)
  unfold definition
  show (if t.tok = Tk.const then _ else _ : PProg Def).run tokSource t = _
  rw [if_neg (no _ (by decide))]
  show (if t.tok = Tk.typedef then _ else _ : PProg Def).run tokSource t = _
  rw [if_neg (no _ (by decide))]
  show (if t.tok = Tk.enum then _ else _ : PProg Def).run tokSource t = _
  rw [if_neg (no _ (by decide))]
  show (if t.tok = Tk.struct ∨ t.tok = Tk.union ∨ t.tok = Tk.exception then _ else _ : PProg Def).run tokSource t = _
  rw [if_neg (by rintro (hc | hc | hc) <;> exact no _ (by decide) hc)]
  show (if t.tok = Tk.service then _ else _ : PProg Def).run tokSource t = _
  rw [if_neg (no _ (by decide))]
  rfl

theorem run_def (n : Nat) (t : TS) : (def_ n).run tokSource t = ((definition n).run tokSource t).bind fun x => match x.1 with
    | some a => .done (some a, x.2)
    | none => ((resync n) >>= fun _ => pos >>= fun q => pure (Def.bad t.pos q)).run tokSource x.2 := by
  rw [show (def_ n).run tokSource t = ((definition n).recover ((resync n) >>= fun _ => pos >>= fun q => pure (Def.bad t.pos q))).run tokSource t from rfl, run_recover]
  congr 1
  funext x
  obtain ⟨r, t1⟩ := x
  cases r <;> rfl

theorem def_good (n : Nat) (t : TS) (h : t.rest.length < n) (h0 : t.tok ≠ Tk.eof) : Good DefG 1 0 (def_ n) t ∧ ∃ d t', (def_ n).run tokSource t = .done (some d, t') := by
  have hrun := run_def n t
  obtain ⟨hg, hg'⟩ := definition_good n t h
  obtain ⟨r, t1, h1, h2, h3, h4, h5, h6, h7⟩ := hg
  rw [h1, Out.bind_done] at hrun
  cases r with
  | some d => exact ⟨⟨some d, t1, hrun, h2, h3, h4, h5, h6, h7⟩, d, t1, hrun⟩
  | none =>
    obtain ⟨t2, g1, g2, g3, g4⟩ := resync_good n t1 (by have := h3.length_le; omega)
    dsimp only at hrun
    rw [run_bind, g1, Out.bind_done] at hrun
    have hne := (h5 rfl).1
    have hrun' : (def_ n).run tokSource t = .done (some (.bad t.pos t2.pos), t2) := hrun
    refine ⟨⟨some (.bad t.pos t2.pos), t2, hrun', g2.trans h2, ?_, by rw [g4]; exact h4, (by intro h; cases h), fun _ => ?_, fun he => absurd (by rw [← g4]; exact he) hne⟩, _, t2, hrun'⟩
    · rw [g3]
      exact (List.dropWhile_suffix _).trans h3
    · by_cases hd : isDefinition t.tok = true
      · obtain ⟨r', t1', e1, _, _, _, e5, _⟩ := hg' hd
        rw [h1] at e1
        injection e1 with e1
        injection e1 with e1 e2
        subst e2
        have := (e5 e1.symm).2
        have h8 : t2.rest.length ≤ t1.rest.length := by rw [g3]; exact (List.dropWhile_suffix _).length_le
        omega
      · rw [definition_bad n hd] at h1
        injection h1 with h1
        injection h1 with _ h1
        have ht1 : t1.rest = t.rest := by rw [← h1]; rfl
        obtain ⟨y, p, l, hx⟩ := rest_of_tok' h0
        rw [g3, ht1, hx, List.dropWhile_cons_of_pos (by simp only [decide_eq_true_eq]; exact ⟨h0, hd⟩)]
        exact (List.dropWhile_suffix _).length_le

theorem scope_good (t : TS) : Good ScopeG 0 0 scope t := by
  unfold scope
  refine ((Good.got (x := Tk.mul) (by decide) t 0).seq (k2 := 0) (H := fun b r w => (b = true ∧ r = none ∧ w = []) ∨ (b = false ∧ ∃ n, r = some n ∧ LitG Tk.ident n w)) fun b t1 l1 => .ite (fun hb => ?_) fun hb => ?_).mono (Nat.le_refl _) (Nat.le_refl _) ?_
  · refine (Good.pure none t1 0).mono (by omega) (Nat.le_refl _) ?_
    rintro _ _ ⟨rfl, rfl⟩
    exact .inl ⟨hb, rfl, rfl⟩
  · refine ((Good.litOf (x := Tk.ident) (by decide) t1 0).seq fun i t3 _ => Good.pure (some i) t3 0).mono (by omega) (Nat.le_refl _) ?_
    rintro _ _ ⟨i, w, _, rfl, h1, rfl, rfl⟩
    exact .inr ⟨by simpa using hb, i, rfl, by simpa using h1⟩
  · rintro r w ⟨b, w1, w2, rfl, h1, ⟨rfl, rfl, rfl⟩ | ⟨rfl, n, rfl, ⟨⟩⟩⟩
    · cases h1; exact .all
    · cases h1; exact .name

theorem header_good (n : Nat) (t : TS) (h : t.rest.length ≤ n) (ht : t.tok = Tk.include_ ∨ t.tok = Tk.namespace_) :
    Good (fun o w => ∃ hd, o = some hd ∧ HeaderG hd w) 1 0 (header n) t := by
  unfold header
  refine .tok (.ite (fun hc => ?_) fun hc => .ite (fun hc => ?_) fun hc' => ?_)
  · refine ((Good.want (x := Tk.include_) (by decide) t 0).seq fun _ t1 _ => (Good.litOf (x := Tk.string) (by decide) t1 0).seq fun p t2 _ => Good.pure (some (Header.include p)) t2 0).mono (by omega) (Nat.le_refl _) ?_
    rintro b w ⟨_, w1, _, rfl, ⟨y1, rfl⟩, p, w2, _, rfl, ⟨⟩, rfl, rfl⟩
    exact ⟨_, rfl, .include⟩
  · obtain ⟨y, p, l, hr⟩ := rest_of_tok' (t := t) (by rw [hc]; decide)
    have hpos : 0 < t.rest.length := by rw [hr]; simp
    refine ((Good.want (x := Tk.namespace_) (by decide) t 0).seq fun _ t1 _ => (scope_good t1).seq fun sc t2 _ => (Good.litOf (x := Tk.ident) (by decide) t2 0).seq fun name t3 _ =>
      (annotations_good n t3 (by omega)).seq fun an t4 _ => Good.pure (some (Header.namespace sc name an)) t4 0).mono (by omega) (Nat.le_refl _) ?_
    rintro b w ⟨_, w1, _, rfl, ⟨y1, rfl⟩, sc, w2, _, rfl, h2, name, w3, _, rfl, ⟨⟩, an, w4, _, rfl, h4, rfl, rfl⟩
    simp only [List.cons_append, List.nil_append, List.append_nil]
    exact ⟨_, rfl, .namespace h2 h4⟩
  · rcases ht with ht | ht
    · exact absurd ht hc
    · exact absurd ht hc'

theorem header_none (n : Nat) (t : TS) (ht : ¬ (t.tok = Tk.include_ ∨ t.tok = Tk.namespace_)) : (header n).run tokSource t = .done (some none, t) := by
  unfold header
  show (if t.tok = Tk.include_ then _ else _ : PProg (Option Header)).run tokSource t = _
  rw [if_neg fun h => ht (.inl h)]
  show (if t.tok = Tk.namespace_ then _ else _ : PProg (Option Header)).run tokSource t = _
  rw [if_neg fun h => ht (.inr h)]
  rfl

theorem headers_good (n : Nat) (t : TS) (h : t.rest.length < n) : Good (Many HeaderG) 0 0 (headers n) t := by
  induction n generalizing t with
  | zero => omega
  | succ n ih =>
    by_cases ht : t.tok = Tk.include_ ∨ t.tok = Tk.namespace_
    · unfold headers
      obtain ⟨y, p, l, hr⟩ := rest_of_tok' (t := t) (by rcases ht with ht | ht <;> rw [ht] <;> decide)
      have hpos : 0 < t.rest.length := by rw [hr]; simp
      refine ((header_good n t (by omega) ht).seq (k2 := 0) (H := fun o b w => ∀ hd, o = some hd → ∃ l, b = hd :: l ∧ Many HeaderG l w) fun o t1 l1 => ?_).mono (by omega) (Nat.le_refl _) ?_
      · cases o with
        | none => exact (Good.pure [] t1 0).mono (by omega) (Nat.le_refl _) fun _ _ _ hd h => nomatch h
        | some hd =>
          refine ((ih t1 (by omega)).seq fun l t2 _ => Good.pure (hd :: l) t2 0).mono (by omega) (Nat.le_refl _) ?_
          rintro b w ⟨l, w1, _, rfl, h1, rfl, rfl⟩ hd' he
          injection he with he
          subst he
          exact ⟨l, rfl, by simpa using h1⟩
      · rintro b w ⟨o, w1, w2, rfl, ⟨hd, rfl, h1⟩, h2⟩
        obtain ⟨l, rfl, h3⟩ := h2 hd rfl
        exact .cons h1 h3
    · refine ⟨some [], t, ?_, rfl, List.suffix_refl _, List.prefix_refl _, (by intro h; cases h), fun _ => Nat.le_refl _, fun _ => ⟨[], [], rfl, rfl, .nil⟩⟩
      unfold headers
      rw [run_bind, header_none n t ht]
      rfl

theorem defs_good (n : Nat) (t : TS) (h : t.rest.length < n) :
    Good (Many DefG) 0 0 (defs n) t ∧ ∃ l t', (defs n).run tokSource t = .done (some l, t') ∧ t'.tok = Tk.eof := by
  induction n generalizing t with
  | zero => omega
  | succ n ih =>
    by_cases ht : t.tok ≠ Tk.eof
    · obtain ⟨y, p, l, hr⟩ := rest_of_tok' ht
      have hpos : 0 < t.rest.length := by rw [hr]; simp
      have hrun : (defs (n + 1)).run tokSource t = (def_ (n + 1) >>= fun d => defs n >>= fun l => pure (d :: l)).run tokSource t := by
        rw [defs]
        show (if t.tok ≠ Tk.eof then _ else _ : PProg (List Def)).run tokSource t = _
        rw [if_pos ht]
      obtain ⟨hg, d, t1, hd⟩ := def_good (n + 1) t h ht
      constructor
      · have := (hg.seq fun d t1 l1 => (ih t1 (by omega)).1.seq fun l t2 _ => Good.pure (d :: l) t2 0).mono (k' := 0) (G' := Many DefG) (by omega) (Nat.le_refl _) (by
          rintro b w ⟨d, w1, _, rfl, h1, l, w2, _, rfl, h2, rfl, rfl⟩
          rw [List.append_nil]
          exact .cons h1 h2)
        obtain ⟨r, t', h1, h2⟩ := this
        exact ⟨r, t', hrun.trans h1, h2⟩
      · have hl : t1.rest.length ≤ t.rest.length - 1 := by
          obtain ⟨r', t1', e1, _, _, _, _, e6, _⟩ := hg
          rw [hd] at e1
          injection e1 with e1
          injection e1 with e1 e2
          rw [e2]
          exact e6 (by rw [← e1]; simp)
        obtain ⟨_, l, t2, h2, h3⟩ := ih t1 (by omega)
        refine ⟨d :: l, t2, ?_, h3⟩
        rw [hrun, run_bind, hd, Out.bind_done]
        dsimp only
        rw [run_bind, h2, Out.bind_done]
        rfl
    · have hrun : (defs (n + 1)).run tokSource t = .done (some [], t) := by
        rw [defs]
        show (if t.tok ≠ Tk.eof then _ else _ : PProg (List Def)).run tokSource t = _
        rw [if_neg ht]
        rfl
      exact ⟨⟨some [], t, hrun, rfl, List.suffix_refl _, List.prefix_refl _, (by intro h; cases h), fun _ => Nat.le_refl _, fun _ => ⟨[], [], rfl, rfl, .nil⟩⟩, [], t, hrun, by simpa using ht⟩

/-- The program does not panic. -/
def PProg.NoBad {α : Type} : PProg α → Prop
  | .ret _ => True
  | .bad => False
  | .diverge => True
  | .call _ k => ∀ a, (k a).NoBad

theorem PProg.NoBad.bind {α β : Type} {p : PProg α} {f : α → PProg β} (hp : p.NoBad) (hf : ∀ a, (f a).NoBad) : (p >>= f).NoBad := by
  show (p.bind f).NoBad
  induction p with
  | ret a => exact hf a
  | bad => exact hp
  | diverge => trivial
  | call o k ih => exact fun a => ih a (hp a)

theorem PProg.NoBad.ite {α : Type} {c : Prop} {_ : Decidable c} {p q : PProg α} (hp : p.NoBad) (hq : q.NoBad) : (if c then p else q).NoBad := by
  split
  · exact hp
  · exact hq

theorem PProg.NoBad.run {S α : Type} {r : Source S} {p : PProg α} (hp : p.NoBad) {s : S} {x : Option α × S} (h : p.run r s = .done x) : ∃ a, x.1 = some a := by
  induction p generalizing s with
  | ret a => injection h with h; subst h; exact ⟨a, rfl⟩
  | bad => exact hp.elim
  | diverge => cases h
  | call o k ih =>
    rw [PProg.run] at h
    cases ho : r.step o s with
    | done a =>
      rw [ho, Out.bind_done] at h
      exact ih a.1 (hp a.1) h
    | _ => rw [ho] at h; cases h

section
open PProg

theorem op_noBad (o : POp) : (PProg.op o).NoBad := fun _ => trivial
theorem pure_noBad {α : Type} (a : α) : (pure a : PProg α).NoBad := trivial
theorem got_noBad (x : Token) : (got x).NoBad := (op_noBad .tok).bind fun _ => .ite ((op_noBad .next).bind fun _ => pure_noBad _) (pure_noBad _)
theorem want_noBad (x : Token) : (want x).NoBad := (got_noBad x).bind fun _ => .ite ((op_noBad _).bind fun _ => op_noBad _) (pure_noBad _)
theorem litOf_noBad (x : Token) : (litOf x).NoBad := (op_noBad .tok).bind fun _ => .ite ((op_noBad .lit).bind fun _ => (op_noBad .next).bind fun _ => pure_noBad _) ((want_noBad _).bind fun _ => pure_noBad _)

theorem separator_noBad (n : Nat) : (separator n).NoBad := by
  induction n with
  | zero => trivial
  | succ n ih => exact (op_noBad .tok).bind fun _ => .ite ((op_noBad .next).bind fun _ => ih) (pure_noBad _)

theorem listLoop_noBad {α : Type} (close : Token) {f : PProg α} (hf : f.NoBad) (n : Nat) : (listLoop close f n).NoBad := by
  induction n with
  | zero => trivial
  | succ n ih => exact (op_noBad .tok).bind fun _ => .ite (hf.bind fun _ => (separator_noBad n).bind fun _ => ih.bind fun _ => pure_noBad _) (pure_noBad _)

theorem gotAssign_noBad : gotAssign.NoBad :=
  (got_noBad _).bind fun _ => .ite (pure_noBad _) ((op_noBad .tok).bind fun _ => .ite ((want_noBad _).bind fun _ => pure_noBad _) (pure_noBad _))

theorem assigned_noBad {α : Type} {f : PProg α} (hf : f.NoBad) : (assigned f).NoBad := gotAssign_noBad.bind fun _ => .ite (hf.bind fun _ => pure_noBad _) (pure_noBad _)

theorem annotations_noBad (n : Nat) : (annotations n).NoBad :=
  (op_noBad .tok).bind fun _ => .ite (pure_noBad _) (NoBad.bind ((want_noBad _).bind fun _ => (listLoop_noBad _ ((litOf_noBad _).bind fun _ => (assigned_noBad (litOf_noBad _)).bind fun _ => pure_noBad _) n).bind
    fun _ => (want_noBad _).bind fun _ => pure_noBad _) fun _ => pure_noBad _)

theorem header_noBad (n : Nat) : (header n).NoBad :=
  (op_noBad .tok).bind fun _ => .ite ((want_noBad _).bind fun _ => (litOf_noBad _).bind fun _ => pure_noBad _) (.ite ((want_noBad _).bind fun _ =>
    NoBad.bind ((got_noBad _).bind fun _ => .ite (pure_noBad _) ((litOf_noBad _).bind fun _ => pure_noBad _)) fun _ => (litOf_noBad _).bind fun _ => (annotations_noBad n).bind fun _ => pure_noBad _) (pure_noBad _))

theorem headers_noBad (n : Nat) : (headers n).NoBad := by
  induction n with
  | zero => trivial
  | succ n ih =>
    refine (header_noBad n).bind fun o => ?_
    cases o with
    | none => exact pure_noBad _
    | some h => exact ih.bind fun _ => pure_noBad _

end

theorem headers_total (n : Nat) (t : TS) (h : t.rest.length < n) : ∃ l t', (headers n).run tokSource t = .done (some l, t') := by
  obtain ⟨r, t', h1, _⟩ := headers_good n t h
  obtain ⟨l, hl⟩ := (headers_noBad n).run h1
  dsimp only at hl
  subst hl
  exact ⟨l, t', h1⟩

theorem file_good (n : Nat) (t : TS) (h : t.rest.length < n) :
    Good FileG 0 0 (file_ n) t ∧ ∃ f t', (file_ n).run tokSource t = .done (some f, t') ∧ t'.tok = Tk.eof := by
  constructor
  · unfold file_
    refine ((headers_good n t h).seq fun hs t1 l1 => (defs_good n t1 (by omega)).1.seq fun ds t2 _ => Good.pure (⟨hs, ds⟩ : File) t2 0).mono (by omega) (Nat.le_refl _) ?_
    rintro b w ⟨hs, w1, _, rfl, h1, ds, w2, _, rfl, h2, rfl, rfl⟩
    rw [List.append_nil]
    exact .mk h1 h2
  · obtain ⟨hs, t1, h1⟩ := headers_total n t h
    obtain ⟨r, t1', e1, _, e3, _⟩ := headers_good n t h
    rw [h1] at e1
    injection e1 with e1
    injection e1 with _ e1
    obtain ⟨_, ds, t2, h2, h3⟩ := defs_good n t1 (by rw [e1]; have := e3.length_le; omega)
    refine ⟨⟨hs, ds⟩, t2, ?_, h3⟩
    unfold file_
    rw [run_bind, h1, Out.bind_done]
    dsimp only
    rw [run_bind, h2, Out.bind_done]
    rfl

end GoThrift.Idl
