import Verif.Proof.ParseFull
import Verif.Proof.ParseSound

/-!
# What the functions of the parser have consumed before their first error can be continued

The proofs follow those of `Proof/ParseSound.lean`.
-/

namespace GoThrift.Idl

open Spec
open Scanner (plain)

theorem separator_first (n : Nat) (t : TS) : (separator n).first t = none := by
  induction n generalizing t with
  | zero => rfl
  | succ n ih =>
    unfold separator
    show (if t.tok = Tk.comma ∨ t.tok = Tk.semicolon then _ else _ : PProg Unit).first t = none
    split
    · exact ih t.next
    · rfl

theorem separator_full (n : Nat) (t : TS) (h : t.rest.length < n) : Full (fun _ w => Seps w) 0 0 (separator n) t :=
  .quiet (separator_good n t h) ⟨(), [], .nil, fun _ h => nomatch h⟩ (separator_first n t)

theorem listLoop_full {α : Type} {R : α → List Lx → Prop} (close : Token) (f : PProg α) (n : Nat) (t : TS) (h : t.rest.length < n)
    (hf : ∀ t', t'.rest.length ≤ t.rest.length → Full R 1 0 f t') : Full (Items R) 0 0 (listLoop close f n) t := by
  induction n generalizing t with
  | zero => omega
  | succ n ih =>
    unfold listLoop
    refine .tok (.ite (fun hc => ?_) (fun hc => ?_))
    · obtain ⟨y, p, l, hr⟩ := rest_of_tok' hc.1
      have hpos : 0 < t.rest.length := by rw [hr]; simp
      refine ((hf t (Nat.le_refl _)).seq fun a t1 hl1 => (separator_full n t1 (by omega)).seq fun _ t2 hl2 =>
        (ih t2 (by omega) fun t' ht' => hf t' (by omega)).seq fun l t3 _ => Full.pure (a :: l) t3 0).mono (Nat.zero_le _) (Nat.le_refl _) ?_
      rintro b w ⟨a, w1, w2, rfl, h1, _, w3, w4, rfl, h2, l, w5, w6, rfl, h3, rfl, rfl⟩
      rw [List.append_nil]
      exact .cons h1 h2 h3
    · refine (Full.pure [] t 0).mono (Nat.le_refl _) (Nat.le_refl _) ?_
      rintro _ w ⟨rfl, rfl⟩
      exact .nil

theorem list_full {α : Type} {R : α → List Lx → Prop} {open_ close : Token} (ho : Sampled open_) (hc : Sampled close) (f : PProg α) (n : Nat) (t : TS) (h : t.rest.length - 1 < n)
    (hf : ∀ t', t'.rest.length ≤ t.rest.length - 1 → Full R 1 0 f t') : Full (Bracketed open_ close R) 1 0 (list n open_ close f) t := by
  unfold list
  refine ((Full.want ho t 0).seq fun _ t1 hl1 => (listLoop_full close f n t1 (by omega) fun t' ht' => hf t' (by omega)).seq fun l t2 _ =>
    (Full.want hc t2 0).seq fun _ t3 _ => Full.pure l t3 0).mono (by omega) (Nat.le_refl _) ?_
  rintro b w ⟨_, w1, w2, rfl, ⟨y, rfl⟩, l, w3, w4, rfl, h2, _, w5, w6, rfl, ⟨z, rfl⟩, rfl, rfl⟩
  exact .mk h2

theorem annotation_full (t : TS) : Full AnnotationG 1 0 annotation t := by
  unfold annotation
  refine ((Full.litOf (x := Tk.ident) (by decide) t 0).seq fun name t1 _ => (assigned_full (f := string) fun t' _ => Full.litOf (x := Tk.string) (by decide) t' 0).seq fun v t2 _ =>
    Full.pure (⟨name, v⟩ : Annotation) t2 0).mono (by omega) (Nat.le_refl _) ?_
  rintro b w ⟨name, w1, w2, rfl, ⟨⟩, a, w3, w4, rfl, h2, rfl, rfl⟩
  cases h2 with
  | none => exact .bare
  | some h3 => cases h3; exact .value

theorem annotations_full (n : Nat) (t : TS) (h : t.rest.length < n) : Full AnnotationsG 0 0 (annotations n) t := by
  unfold annotations
  refine .tok (.ite (fun hc => ?_) (fun hc => ?_))
  · refine (Full.pure none t 0).mono (Nat.le_refl _) (Nat.le_refl _) ?_
    rintro _ w ⟨rfl, rfl⟩
    exact .none
  · refine ((list_full (R := AnnotationG) (by decide) (by decide) annotation n t (by omega) fun t' _ => annotation_full t').seq fun l t1 _ => Full.pure (some l) t1 0).mono (by omega) (Nat.le_refl _) ?_
    rintro b w ⟨l, w1, w2, rfl, h1, rfl, rfl⟩
    rw [List.append_nil]
    exact .some h1

/-- The name `a` as a type. -/
theorem sample_type : TypeG (.ref (sample Tk.ident) none) [(Tk.ident, sample Tk.ident)] := .ref .none

theorem type_words : ∀ x ∈ begins .type, Sampled x ∧ ∃ a suf, StdW suf ∧ TypeG a ((x, sample x) :: suf) := by
  intro x hx
  simp only [begins, List.mem_cons, List.not_mem_nil, or_false] at hx
  rcases hx with rfl | rfl | rfl | rfl
  · exact ⟨by decide, _, [(Tk.lss, sample Tk.lss), (Tk.ident, sample Tk.ident), (Tk.comma, sample Tk.comma), (Tk.ident, sample Tk.ident), (Tk.gtr, sample Tk.gtr)],
      .cons (by decide) (.cons (by decide) (.cons (by decide) (.cons (by decide) (.one (by decide))))), .map sample_type sample_type .none⟩
  · exact ⟨by decide, _, [(Tk.lss, sample Tk.lss), (Tk.ident, sample Tk.ident), (Tk.gtr, sample Tk.gtr)], .cons (by decide) (.cons (by decide) (.one (by decide))), .set sample_type .none⟩
  · exact ⟨by decide, _, [(Tk.lss, sample Tk.lss), (Tk.ident, sample Tk.ident), (Tk.gtr, sample Tk.gtr)], .cons (by decide) (.cons (by decide) (.one (by decide))), .list sample_type .none⟩
  · exact ⟨by decide, _, [], .nil, sample_type⟩

theorem value_words : ∀ x ∈ begins .value, Sampled x ∧ ∃ a suf, StdW suf ∧ ValueG a ((x, sample x) :: suf) := by
  intro x hx
  simp only [begins, List.mem_cons, List.not_mem_nil, or_false] at hx
  rcases hx with rfl | rfl | rfl | rfl | rfl | rfl
  · exact ⟨by decide, _, [], .nil, .ident⟩
  · exact ⟨by decide, _, [], .nil, .int⟩
  · exact ⟨by decide, _, [], .nil, .float⟩
  · exact ⟨by decide, _, [], .nil, .string⟩
  · exact ⟨by decide, _, [(Tk.rbrack, sample Tk.rbrack)], .one (by decide), .list (.mk .nil)⟩
  · exact ⟨by decide, _, [(Tk.rbrace, sample Tk.rbrace)], .one (by decide), .pairs (.mk .nil)⟩

theorem type_full (n : Nat) (t : TS) (h : t.rest.length < n) : Full TypeG 1 0 (type_ n) t := by
  induction n generalizing t with
  | zero => omega
  | succ n ih =>
    unfold type_
    refine .tok (.ite (fun hc => ?_) fun _ => .ite (fun hc => ?_) fun _ => .ite (fun hc => ?_) fun _ => .ite (fun hc => ?_) fun _ => Full.bad ⟨_, List.mem_cons_self ..⟩ type_words)
    · obtain ⟨y, p, l, hr⟩ := rest_of_tok' (t := t) (by rw [hc]; decide)
      have hpos : 0 < t.rest.length := by rw [hr]; simp
      refine ((Full.want (x := Tk.map) (by decide) t 0).seq fun _ t1 l1 => (Full.want (x := Tk.lss) (by decide) t1 0).seq fun _ t2 l2 =>
        (ih t2 (by omega)).seq fun k t3 l3 => (Full.want (x := Tk.comma) (by decide) t3 0).seq fun _ t4 l4 => (ih t4 (by omega)).seq fun v t5 l5 =>
        (Full.want (x := Tk.gtr) (by decide) t5 0).seq fun _ t6 l6 => (annotations_full n t6 (by omega)).seq fun a t7 _ => Full.pure (TypeNode.map k v a) t7 0).mono (by omega) (Nat.le_refl _) ?_
      rintro b w ⟨_, w1, _, rfl, ⟨y1, rfl⟩, _, w2, _, rfl, ⟨y2, rfl⟩, k, w3, _, rfl, hk, _, w4, _, rfl, ⟨y4, rfl⟩, v, w5, _, rfl, hv, _, w6, _, rfl, ⟨y6, rfl⟩, a, w7, _, rfl, ha, rfl, rfl⟩
      rw [List.append_nil]
      exact .map hk hv ha
    · obtain ⟨y, p, l, hr⟩ := rest_of_tok' (t := t) (by rw [hc]; decide)
      have hpos : 0 < t.rest.length := by rw [hr]; simp
      refine ((Full.want (x := Tk.set) (by decide) t 0).seq fun _ t1 l1 => (Full.want (x := Tk.lss) (by decide) t1 0).seq fun _ t2 l2 =>
        (ih t2 (by omega)).seq fun v t5 l5 =>
        (Full.want (x := Tk.gtr) (by decide) t5 0).seq fun _ t6 l6 => (annotations_full n t6 (by omega)).seq fun a t7 _ => Full.pure (TypeNode.set v a) t7 0).mono (by omega) (Nat.le_refl _) ?_
      rintro b w ⟨_, w1, _, rfl, ⟨y1, rfl⟩, _, w2, _, rfl, ⟨y2, rfl⟩, v, w5, _, rfl, hv, _, w6, _, rfl, ⟨y6, rfl⟩, a, w7, _, rfl, ha, rfl, rfl⟩
      rw [List.append_nil]
      exact .set hv ha
    · obtain ⟨y, p, l, hr⟩ := rest_of_tok' (t := t) (by rw [hc]; decide)
      have hpos : 0 < t.rest.length := by rw [hr]; simp
      refine ((Full.want (x := Tk.list) (by decide) t 0).seq fun _ t1 l1 => (Full.want (x := Tk.lss) (by decide) t1 0).seq fun _ t2 l2 =>
        (ih t2 (by omega)).seq fun v t5 l5 =>
        (Full.want (x := Tk.gtr) (by decide) t5 0).seq fun _ t6 l6 => (annotations_full n t6 (by omega)).seq fun a t7 _ => Full.pure (TypeNode.list v a) t7 0).mono (by omega) (Nat.le_refl _) ?_
      rintro b w ⟨_, w1, _, rfl, ⟨y1, rfl⟩, _, w2, _, rfl, ⟨y2, rfl⟩, v, w5, _, rfl, hv, _, w6, _, rfl, ⟨y6, rfl⟩, a, w7, _, rfl, ha, rfl, rfl⟩
      rw [List.append_nil]
      exact .list hv ha
    · obtain ⟨y, p, l, hr⟩ := rest_of_tok' (t := t) (by rw [hc]; decide)
      have hpos : 0 < t.rest.length := by rw [hr]; simp
      refine ((Full.litOf (x := Tk.ident) (by decide) t 0).seq fun name t1 l1 => (annotations_full n t1 (by omega)).seq fun a t7 _ => Full.pure (TypeNode.ref name a) t7 0).mono (by omega) (Nat.le_refl _) ?_
      rintro b w ⟨name, w1, _, rfl, ⟨⟩, a, w7, _, rfl, ha, rfl, rfl⟩
      rw [List.append_nil]
      exact .ref ha

theorem value_full (n : Nat) (t : TS) (h : t.rest.length < n) : Full ValueG 1 0 (value n) t := by
  induction n generalizing t with
  | zero => omega
  | succ n ih =>
    unfold value
    refine .tok (.ite (fun hc => ?_) fun _ => .ite (fun hc => ?_) fun _ => .ite (fun hc => ?_) fun _ => .ite (fun hc => ?_) fun _ => .ite (fun hc => ?_) fun _ => .ite (fun hc => ?_) fun _ => Full.bad ⟨_, List.mem_cons_self ..⟩ value_words)
    · refine ((Full.litOf (x := Tk.ident) (by decide) t 0).seq fun x t1 _ => Full.pure (Value.ident x) t1 0).mono (by omega) (Nat.le_refl _) ?_
      rintro b w ⟨x, w1, _, rfl, ⟨⟩, rfl, rfl⟩
      exact .ident
    · refine ((Full.litOf (x := Tk.int) (by decide) t 0).seq fun x t1 _ => Full.pure (Value.int x) t1 0).mono (by omega) (Nat.le_refl _) ?_
      rintro b w ⟨x, w1, _, rfl, ⟨⟩, rfl, rfl⟩
      exact .int
    · refine ((Full.litOf (x := Tk.float) (by decide) t 0).seq fun x t1 _ => Full.pure (Value.float x) t1 0).mono (by omega) (Nat.le_refl _) ?_
      rintro b w ⟨x, w1, _, rfl, ⟨⟩, rfl, rfl⟩
      exact .float
    · refine ((Full.litOf (x := Tk.string) (by decide) t 0).seq fun x t1 _ => Full.pure (Value.string x) t1 0).mono (by omega) (Nat.le_refl _) ?_
      rintro b w ⟨x, w1, _, rfl, ⟨⟩, rfl, rfl⟩
      exact .string
    · obtain ⟨y, p, l, hr⟩ := rest_of_tok' (t := t) (by rw [hc]; decide)
      have hpos : 0 < t.rest.length := by rw [hr]; simp
      refine ((list_full (R := ValueG) (by decide) (by decide) (value n) n t (by omega) fun t' _ => ih t' (by omega)).seq fun l t1 _ => Full.pure (Value.list l) t1 0).mono (by omega) (Nat.le_refl _) ?_
      rintro b w ⟨l, w1, w2, rfl, h1, rfl, rfl⟩
      rw [List.append_nil]
      exact .list h1
    · obtain ⟨y, p, l, hr⟩ := rest_of_tok' (t := t) (by rw [hc]; decide)
      have hpos : 0 < t.rest.length := by rw [hr]; simp
      refine ((list_full (R := PairG ValueG) (by decide) (by decide) _ n t (by omega) fun t' _ => ?_).seq fun l t1 _ => Full.pure (Value.pairs l) t1 0).mono (by omega) (Nat.le_refl _) ?_
      · refine ((ih t' (by omega)).seq fun k t1 _ => (Full.want (x := Tk.colon) (by decide) t1 0).seq fun _ t2 _ => (ih t2 (by omega)).seq fun v t3 _ => Full.pure (k, v) t3 0).mono (by omega) (Nat.le_refl _) ?_
        rintro b w ⟨k, w1, _, rfl, hk, _, w2, _, rfl, ⟨y, rfl⟩, v, w3, _, rfl, hv, rfl, rfl⟩
        rw [List.append_nil]
        exact .mk hk hv
      · rintro b w ⟨l, w1, w2, rfl, h1, rfl, rfl⟩
        rw [List.append_nil]
        exact .pairs h1

theorem enumValue_full (n : Nat) (t : TS) (h : t.rest.length < n) : Full EnumValueG 1 0 (enumValue n) t := by
  unfold enumValue
  refine ((Full.litOf (x := Tk.ident) (by decide) t 0).seq fun name t1 _ => (assigned_full (f := int) fun t' _ => Full.litOf (x := Tk.int) (by decide) t' 0).seq fun v t2 _ =>
    (annotations_full n t2 (by omega)).seq fun an t3 _ => Full.pure (⟨name, v, an⟩ : EnumValue) t3 0).mono (by omega) (Nat.le_refl _) ?_
  rintro b w ⟨name, w1, w2, rfl, ⟨⟩, a, w3, w4, rfl, h2, an, w5, w6, rfl, h3, rfl, rfl⟩
  simp only [List.cons_append, List.nil_append, List.append_nil]
  exact EnumValueG.mk h2 h3

theorem fieldName_first (t : TS) : fieldName.first t = if t.tok = Tk.ident ∨ isKeyword t.tok then none else some (t, .tok Tk.ident) := by
  unfold fieldName
  show (if t.tok = Tk.ident ∨ isKeyword t.tok then _ else _ : PProg Bytes).first t = _
  by_cases h : t.tok = Tk.ident ∨ isKeyword t.tok
  · rw [if_pos h, if_pos h]; rfl
  · rw [if_neg h, if_neg h]
    have hne : t.tok ≠ Tk.ident := fun he => h (.inl he)
    have := want_first Tk.ident t
    rw [if_neg hne] at this
    obtain ⟨r, t', h1, _⟩ := Good.want_err hne 0
    rw [first_bind h1, this]
    rfl

theorem fieldName_full (t : TS) : Full FieldNameG 1 0 fieldName t := by
  have hf := fieldName_first t
  by_cases h : t.tok = Tk.ident ∨ isKeyword t.tok
  · rw [if_pos h] at hf
    exact .quiet (fieldName_good t) ⟨_, _, .one (x := Tk.ident) (by decide), .ident⟩ hf
  · rw [if_neg h] at hf
    refine .here (fieldName_good t) hf ⟨_, List.mem_singleton.2 rfl⟩ fun y hy => ?_
    rw [List.mem_singleton.1 hy]
    exact ⟨by decide, _, [], .nil, .ident⟩

theorem requiredness_full (t : TS) : Full (fun r w => RequirednessG r.1 r.2 w) 0 0 requiredness t := by
  unfold requiredness
  refine ((Full.got (x := Tk.required) (by decide) t 0).seq (H := fun b r w => if b then r = (true, false) ∧ w = [] else RequirednessG r.1 r.2 w ∧ r.1 = false) (k2 := 0) fun b t1 _ => .ite (fun hb => ?_) fun hb => ?_).mono (by omega) (Nat.le_refl _) ?_
  · refine (Full.pure (true, false) t1 0).mono (Nat.le_refl _) (Nat.le_refl _) fun a w h => ?_
    rw [if_pos hb]
    exact h
  · refine ((Full.got (x := Tk.optional) (by decide) t1 0).seq (H := fun b r w => r = (false, b) ∧ w = []) (k2 := 0) fun b t1 _ => .ite (fun hb => ?_) fun hb => ?_).mono (by omega) (Nat.le_refl _) ?_
    · rw [hb]; exact Full.pure (false, true) t1 0
    · rw [show b = false by simpa using hb]; exact Full.pure (false, false) t1 0
    · rintro r w ⟨b, w1, w2, rfl, h1, rfl, rfl⟩
      rw [List.append_nil, if_neg hb]
      refine ⟨?_, rfl⟩
      cases h1 with
      | no => exact .none
      | yes => exact .optional
  · rintro r w ⟨b, w1, w2, rfl, h1, h2⟩
    cases h1 with
    | no => exact h2.1
    | yes =>
      obtain ⟨rfl, rfl⟩ := h2
      exact .required

theorem fieldId_full (t : TS) : Full FieldIdG 0 0 fieldId t := by
  unfold fieldId
  refine .tok (.ite (fun hc => ?_) fun hc => ?_)
  · refine ((Full.litOf (x := Tk.int) (by decide) t 0).seq fun i t1 _ => (Full.want (x := Tk.colon) (by decide) t1 0).seq fun _ t2 _ => Full.pure (some i) t2 0).mono (by omega) (Nat.le_refl _) ?_
    rintro b w ⟨i, w1, _, rfl, ⟨⟩, _, w3, _, rfl, ⟨y, rfl⟩, rfl, rfl⟩
    exact .some
  · refine (Full.pure none t 0).mono (by omega) (Nat.le_refl _) ?_
    rintro b w ⟨rfl, rfl⟩
    exact .none

theorem field_full (n : Nat) (t : TS) (h : t.rest.length < n) : Full FieldG 1 0 (field n) t := by
  unfold field
  refine ((fieldId_full t).seq fun id t1 l1 => (requiredness_full t1).seq fun r t2 l2 => (type_full n t2 (by omega)).seq fun ty t3 l3 =>
    (Full.got (x := Tk.and) (by decide) t3 0).seq fun ref t4 l4 => (fieldName_full t4).seq fun name t5 l5 =>
    (assigned_full fun t' _ => value_full n t' (by omega)).seq fun d t6 l6 => (annotations_full n t6 (by omega)).seq fun an t7 _ =>
    Full.pure (⟨id, r.1, r.2, ty, ref, name, d, an⟩ : Field) t7 0).mono (by omega) (Nat.le_refl _) ?_
  rintro b w ⟨id, w1, _, rfl, h1, r, w2, _, rfl, h2, ty, w3, _, rfl, h3, ref, w4, _, rfl, h4, name, w5, _, rfl, h5, d, w6, w7, rfl, h6, an, w8, _, rfl, h7, rfl, rfl⟩
  rw [List.append_nil]
  exact .mk h1 h2 h3 h4 h5 h6 h7

theorem fields_full (n : Nat) {open_ close : Token} (ho : Sampled open_) (hc : Sampled close) (t : TS) (h : t.rest.length < n) : Full (Bracketed open_ close FieldG) 1 0 (fields n open_ close) t :=
  list_full ho hc (field n) n t (by omega) fun t' _ => field_full n t' (by omega)

theorem returnType_full (n : Nat) (t : TS) (h : t.rest.length < n) : Full (fun r w => ReturnG r.1 r.2 w) 0 0 (returnType n) t := by
  unfold returnType
  refine ((Full.got (x := Tk.void) (by decide) t 0).seq (k2 := 0) (H := fun b r w => (b = true ∧ r = (true, none) ∧ w = []) ∨ (b = false ∧ ∃ ty, r = (false, some ty) ∧ TypeG ty w)) fun b t1 l1 => .ite (fun hb => ?_) fun hb => ?_).mono (Nat.le_refl _) (Nat.le_refl _) ?_
  · refine (Full.pure (true, none) t1 0).mono (by omega) (Nat.le_refl _) ?_
    rintro _ _ ⟨rfl, rfl⟩
    exact .inl ⟨hb, rfl, rfl⟩
  · refine ((type_full n t1 (by omega)).seq fun ty t3 _ => Full.pure (false, some ty) t3 0).mono (by omega) (Nat.le_refl _) ?_
    rintro _ _ ⟨ty, w, _, rfl, h1, rfl, rfl⟩
    exact .inr ⟨by simpa using hb, ty, rfl, by simpa using h1⟩
  · rintro r w ⟨b, w1, w2, rfl, h1, ⟨rfl, rfl, rfl⟩ | ⟨rfl, ty, rfl, h2⟩⟩
    · cases h1; exact .void
    · cases h1; exact .type h2

theorem method_full (n : Nat) (t : TS) (h : t.rest.length < n) : Full MethodG 1 0 (method n) t := by
  unfold method
  refine ((Full.got (x := Tk.oneway) (by decide) t 0).seq fun one t1 l1 => (returnType_full n t1 (by omega)).seq fun r t2 l2 => (Full.litOf (x := Tk.ident) (by decide) t2 0).seq fun name t3 l3 =>
    (fields_full n (open_ := Tk.lparen) (close := Tk.rparen) (by decide) (by decide) t3 (by omega)).seq fun args t4 l4 =>
    (after_full (x := Tk.throws) (by decide) (t := t4) fun t' _ => fields_full n (open_ := Tk.lparen) (close := Tk.rparen) (by decide) (by decide) t' (by omega)).seq fun th t5 l5 =>
    (annotations_full n t5 (by omega)).seq fun an t6 _ => Full.pure (⟨one, r.1, r.2, name, args, th, an⟩ : Method) t6 0).mono (by omega) (Nat.le_refl _) ?_
  rintro b w ⟨one, w1, _, rfl, h1, r, w2, _, rfl, h2, name, w4, _, rfl, ⟨⟩, args, w5, _, rfl, h5, th, w7, _, rfl, h7, an, w8, _, rfl, h8, rfl, rfl⟩
  have hth : ThrowsG th w7 := by
    rcases h7 with ⟨rfl, rfl⟩ | ⟨l, y, w', rfl, rfl, h7⟩
    · exact .none
    · exact .some h7
  have := MethodG.mk (n := name) h1 h2 h5 hth h8
  simpa using this

theorem const_full (n : Nat) (t : TS) (h : t.rest.length < n) : Full DefG 1 1 (const_ n) t := by
  unfold const_
  refine ((Full.want (x := Tk.const) (by decide) t 1).bind (j2 := 0) (Nat.le_refl _) fun _ t1 l1 => (type_full n t1 (by omega)).seq fun ty t2 l2 => (Full.litOf (x := Tk.ident) (by decide) t2 0).seq fun name t3 l3 =>
    (Full.want (x := Tk.assign) (by decide) t3 0).seq fun _ t4 l4 => (value_full n t4 (by omega)).seq fun v t5 l5 => (separator_full n t5 (by omega)).seq fun _ t6 _ =>
    Full.pure (Def.const ty name v) t6 0).mono (by omega) (Nat.le_refl _) ?_
  rintro b w ⟨_, w1, _, rfl, ⟨y1, rfl⟩, ty, w2, _, rfl, h2, name, w3, _, rfl, ⟨⟩, _, w4, _, rfl, ⟨y4, rfl⟩, v, w5, _, rfl, h5, _, w6, _, rfl, h6, rfl, rfl⟩
  simp only [List.cons_append, List.nil_append, List.append_nil]
  exact DefG.const h2 h5 h6

theorem typedef_full (n : Nat) (t : TS) (h : t.rest.length < n) : Full DefG 1 1 (typedef n) t := by
  unfold typedef
  refine ((Full.want (x := Tk.typedef) (by decide) t 1).bind (j2 := 0) (Nat.le_refl _) fun _ t1 l1 => (type_full n t1 (by omega)).seq fun ty t2 l2 => (Full.litOf (x := Tk.ident) (by decide) t2 0).seq fun name t3 l3 =>
    (annotations_full n t3 (by omega)).seq fun an t5 l5 => (separator_full n t5 (by omega)).seq fun _ t6 _ => Full.pure (Def.typedef ty name an) t6 0).mono (by omega) (Nat.le_refl _) ?_
  rintro b w ⟨_, w1, _, rfl, ⟨y1, rfl⟩, ty, w2, _, rfl, h2, name, w3, _, rfl, ⟨⟩, an, w5, _, rfl, h5, _, w6, _, rfl, h6, rfl, rfl⟩
  simp only [List.cons_append, List.nil_append, List.append_nil]
  exact DefG.typedef h2 h5 h6

theorem enum_full (n : Nat) (t : TS) (h : t.rest.length < n) : Full DefG 1 1 (enum n) t := by
  unfold enum
  refine ((Full.want (x := Tk.enum) (by decide) t 1).bind (j2 := 0) (Nat.le_refl _) fun _ t1 l1 => (Full.litOf (x := Tk.ident) (by decide) t1 0).seq fun name t3 l3 =>
    (list_full (R := EnumValueG) (by decide) (by decide) (enumValue n) n t3 (by omega) fun t' _ => enumValue_full n t' (by omega)).seq fun l t4 l4 =>
    (annotations_full n t4 (by omega)).seq fun an t6 _ => Full.pure (Def.enum name l an) t6 0).mono (by omega) (Nat.le_refl _) ?_
  rintro b w ⟨_, w1, _, rfl, ⟨y1, rfl⟩, name, w3, _, rfl, ⟨⟩, l, w4, _, rfl, h4, an, w5, _, rfl, h5, rfl, rfl⟩
  simp only [List.cons_append, List.nil_append, List.append_nil]
  exact DefG.enum h4 h5

theorem struct_full (n : Nat) {x : Token} (hx : x = Tk.struct ∨ x = Tk.union ∨ x = Tk.exception) (t : TS) (h : t.rest.length < n) : Full DefG 1 1 (struct_ n x) t := by
  unfold struct_
  refine ((Full.want (x := x) (by rcases hx with rfl | rfl | rfl <;> decide) t 1).bind (j2 := 0) (Nat.le_refl _) fun _ t1 l1 => (Full.litOf (x := Tk.ident) (by decide) t1 0).seq fun name t3 l3 =>
    (fields_full n (open_ := Tk.lbrace) (close := Tk.rbrace) (by decide) (by decide) t3 (by omega)).seq fun l t4 l4 =>
    (annotations_full n t4 (by omega)).seq fun an t6 _ => Full.pure (Def.struct (x = Tk.union) (x = Tk.exception) name l an) t6 0).mono (by omega) (Nat.le_refl _) ?_
  rintro b w ⟨_, w1, _, rfl, ⟨y1, rfl⟩, name, w3, _, rfl, ⟨⟩, l, w4, _, rfl, h4, an, w5, _, rfl, h5, rfl, rfl⟩
  simp only [List.cons_append, List.nil_append, List.append_nil]
  refine DefG.struct ?_ h4 h5
  rcases hx with rfl | rfl | rfl
  · exact .struct
  · exact .union
  · exact .exception

theorem service_full (n : Nat) (t : TS) (h : t.rest.length < n) : Full DefG 1 1 (service n) t := by
  unfold service
  refine ((Full.want (x := Tk.service) (by decide) t 1).bind (j2 := 0) (Nat.le_refl _) fun _ t1 l1 => (Full.litOf (x := Tk.ident) (by decide) t1 0).seq fun name t3 l3 =>
    (after_full (x := Tk.extends_) (by decide) (t := t3) (f := ident) fun t' _ => Full.litOf (x := Tk.ident) (by decide) t' 0).seq fun ext t4 l4 =>
    (list_full (R := MethodG) (by decide) (by decide) (method n) n t4 (by omega) fun t' _ => method_full n t' (by omega)).seq fun l t5 l5 =>
    (annotations_full n t5 (by omega)).seq fun an t6 _ => Full.pure (Def.service name ext l an) t6 0).mono (by omega) (Nat.le_refl _) ?_
  rintro b w ⟨_, w1, _, rfl, ⟨y1, rfl⟩, name, w3, _, rfl, ⟨⟩, ext, w7, _, rfl, h7, l, w4, _, rfl, h4, an, w5, _, rfl, h5, rfl, rfl⟩
  simp only [List.cons_append, List.nil_append, List.append_nil]
  refine DefG.service ?_ h4 h5
  rcases h7 with ⟨rfl, rfl⟩ | ⟨n, y, w', rfl, rfl, ⟨⟩⟩
  · exact .none
  · exact .some

theorem definition_words : ∀ x ∈ begins .definition, Sampled x ∧ ∃ a suf, StdW suf ∧ DefG a ((x, sample x) :: suf) := by
  have hname : StdW [(Tk.ident, sample Tk.ident), (Tk.lbrace, sample Tk.lbrace), (Tk.rbrace, sample Tk.rbrace)] := .cons (by decide) (.cons (by decide) (.one (by decide)))
  have hseps : Seps [] := fun _ h => nomatch h
  intro x hx
  simp only [begins, defWords, List.mem_cons, List.not_mem_nil, or_false] at hx
  rcases hx with rfl | rfl | rfl | rfl | rfl | rfl | rfl
  all_goals first
    | exact ⟨by decide, _, [(Tk.ident, sample Tk.ident), (Tk.ident, sample Tk.ident), (Tk.assign, sample Tk.assign), (Tk.int, sample Tk.int)],
        .cons (by decide) (.cons (by decide) (.cons (by decide) (.one (by decide)))), DefG.const sample_type .int hseps⟩
    | exact ⟨by decide, _, [(Tk.ident, sample Tk.ident), (Tk.ident, sample Tk.ident)], .cons (by decide) (.one (by decide)), DefG.typedef sample_type .none hseps⟩
    | exact ⟨by decide, _, _, hname, DefG.enum (.mk .nil) .none⟩
    | exact ⟨by decide, _, _, hname, DefG.struct .struct (.mk .nil) .none⟩
    | exact ⟨by decide, _, _, hname, DefG.struct .union (.mk .nil) .none⟩
    | exact ⟨by decide, _, _, hname, DefG.struct .exception (.mk .nil) .none⟩
    | exact ⟨by decide, _, _, hname, DefG.service .none (.mk .nil) .none⟩

theorem definition_full (n : Nat) (t : TS) (h : t.rest.length < n) : Full DefG 1 0 (definition n) t := by
  unfold definition
  exact .tok (.ite (fun _ => (const_full n t h).mono (Nat.le_refl _) (Nat.zero_le _) fun _ _ h => h) fun _ => .ite (fun _ => (typedef_full n t h).mono (Nat.le_refl _) (Nat.zero_le _) fun _ _ h => h) fun _ =>
    .ite (fun _ => (enum_full n t h).mono (Nat.le_refl _) (Nat.zero_le _) fun _ _ h => h) fun _ => .ite (fun hx => (struct_full n hx t h).mono (Nat.le_refl _) (Nat.zero_le _) fun _ _ h => h) fun _ =>
    .ite (fun _ => (service_full n t h).mono (Nat.le_refl _) (Nat.zero_le _) fun _ _ h => h) fun _ => Full.bad ⟨_, List.mem_cons_self ..⟩ definition_words)

theorem definition_first (n : Nat) (t : TS) (h : t.rest.length < n) : (def_ n).first t = (definition n).first t := by
  obtain ⟨r, t1, h1, h2, h3, h4, h5, h6, h7⟩ := (definition_good n t h).1
  rw [show (def_ n).first t = ((definition n).recover ((resync n) >>= fun _ => pos >>= fun q => pure (Def.bad t.pos q))).first t from rfl, first_recover h1]
  cases hf : (definition n).first t with
  | some x => rfl
  | none =>
    obtain ⟨a, _, rfl, _⟩ := h7 (first_none h1 hf)
    rfl

theorem def_full (n : Nat) (t : TS) (h : t.rest.length < n) (h0 : t.tok ≠ Tk.eof) : Full DefG 1 0 (def_ n) t :=
  ⟨(def_good n t h h0).1, (definition_full n t h).word, fun t1 w hf => (definition_full n t h).first t1 w (by rw [← definition_first n t h]; exact hf)⟩

theorem scope_full (t : TS) : Full ScopeG 0 0 scope t := by
  unfold scope
  refine ((Full.got (x := Tk.mul) (by decide) t 0).seq (k2 := 0) (H := fun b r w => (b = true ∧ r = none ∧ w = []) ∨ (b = false ∧ ∃ n, r = some n ∧ LitG Tk.ident n w)) fun b t1 l1 => .ite (fun hb => ?_) fun hb => ?_).mono (Nat.le_refl _) (Nat.le_refl _) ?_
  · refine (Full.pure none t1 0).mono (by omega) (Nat.le_refl _) ?_
    rintro _ _ ⟨rfl, rfl⟩
    exact .inl ⟨hb, rfl, rfl⟩
  · refine ((Full.litOf (x := Tk.ident) (by decide) t1 0).seq fun i t3 _ => Full.pure (some i) t3 0).mono (by omega) (Nat.le_refl _) ?_
    rintro _ _ ⟨i, w, _, rfl, h1, rfl, rfl⟩
    exact .inr ⟨by simpa using hb, i, rfl, by simpa using h1⟩
  · rintro r w ⟨b, w1, w2, rfl, h1, ⟨rfl, rfl, rfl⟩ | ⟨rfl, n, rfl, ⟨⟩⟩⟩
    · cases h1; exact .all
    · cases h1; exact .name

theorem header_full (n : Nat) (t : TS) (h : t.rest.length ≤ n) (ht : t.tok = Tk.include_ ∨ t.tok = Tk.namespace_) :
    Full (fun o w => ∃ hd, o = some hd ∧ HeaderG hd w) 1 0 (header n) t := by
  unfold header
  refine .tok (.ite (fun hc => ?_) fun hc => .ite (fun hc => ?_) fun hc' => ?_)
  · refine ((Full.want (x := Tk.include_) (by decide) t 0).seq fun _ t1 _ => (Full.litOf (x := Tk.string) (by decide) t1 0).seq fun p t2 _ => Full.pure (some (Header.include p)) t2 0).mono (by omega) (Nat.le_refl _) ?_
    rintro b w ⟨_, w1, _, rfl, ⟨y1, rfl⟩, p, w2, _, rfl, ⟨⟩, rfl, rfl⟩
    exact ⟨_, rfl, .include⟩
  · obtain ⟨y, p, l, hr⟩ := rest_of_tok' (t := t) (by rw [hc]; decide)
    have hpos : 0 < t.rest.length := by rw [hr]; simp
    refine ((Full.want (x := Tk.namespace_) (by decide) t 0).seq fun _ t1 _ => (scope_full t1).seq fun sc t2 _ => (Full.litOf (x := Tk.ident) (by decide) t2 0).seq fun name t3 _ =>
      (annotations_full n t3 (by omega)).seq fun an t4 _ => Full.pure (some (Header.namespace sc name an)) t4 0).mono (by omega) (Nat.le_refl _) ?_
    rintro b w ⟨_, w1, _, rfl, ⟨y1, rfl⟩, sc, w2, _, rfl, h2, name, w3, _, rfl, ⟨⟩, an, w4, _, rfl, h4, rfl, rfl⟩
    simp only [List.cons_append, List.nil_append, List.append_nil]
    exact ⟨_, rfl, .namespace h2 h4⟩
  · rcases ht with ht | ht
    · exact absurd ht hc
    · exact absurd ht hc'

theorem headers_full (n : Nat) (t : TS) (h : t.rest.length < n) : Full (Many HeaderG) 0 0 (headers n) t := by
  induction n generalizing t with
  | zero => omega
  | succ n ih =>
    by_cases ht : t.tok = Tk.include_ ∨ t.tok = Tk.namespace_
    · unfold headers
      obtain ⟨y, p, l, hr⟩ := rest_of_tok' (t := t) (by rcases ht with ht | ht <;> rw [ht] <;> decide)
      have hpos : 0 < t.rest.length := by rw [hr]; simp
      refine ((header_full n t (by omega) ht).seq (k2 := 0) (H := fun o b w => ∀ hd, o = some hd → ∃ l, b = hd :: l ∧ Many HeaderG l w) fun o t1 l1 => ?_).mono (by omega) (Nat.le_refl _) ?_
      · cases o with
        | none => exact (Full.pure [] t1 0).mono (by omega) (Nat.le_refl _) fun _ _ _ hd h => nomatch h
        | some hd =>
          refine ((ih t1 (by omega)).seq fun l t2 _ => Full.pure (hd :: l) t2 0).mono (by omega) (Nat.le_refl _) ?_
          rintro b w ⟨l, w1, _, rfl, h1, rfl, rfl⟩ hd' he
          injection he with he
          subst he
          exact ⟨l, rfl, by simpa using h1⟩
      · rintro b w ⟨o, w1, w2, rfl, ⟨hd, rfl, h1⟩, h2⟩
        obtain ⟨l, rfl, h3⟩ := h2 hd rfl
        exact .cons h1 h3
    · refine .quiet (headers_good (n + 1) t h) ⟨[], [], .nil, .nil⟩ ?_
      unfold headers
      rw [first_bind (header_none n t ht)]
      have : (header n).first t = none := by
        unfold header
        show (if t.tok = Tk.include_ then _ else _ : PProg (Option Header)).first t = _
        rw [if_neg fun h => ht (.inl h)]
        show (if t.tok = Tk.namespace_ then _ else _ : PProg (Option Header)).first t = _
        rw [if_neg fun h => ht (.inr h)]
        rfl
      rw [this]
      rfl

theorem defs_full (n : Nat) (t : TS) (h : t.rest.length < n) : Full (Many DefG) 0 0 (defs n) t := by
  induction n generalizing t with
  | zero => omega
  | succ n ih =>
    by_cases ht : t.tok ≠ Tk.eof
    · obtain ⟨y, p, l, hr⟩ := rest_of_tok' ht
      have hpos : 0 < t.rest.length := by rw [hr]; simp
      have hfst : (defs (n + 1)).first t = (def_ (n + 1) >>= fun d => defs n >>= fun l => pure (d :: l)).first t := by
        rw [defs]
        show (if t.tok ≠ Tk.eof then _ else _ : PProg (List Def)).first t = _
        rw [if_pos ht]
      have := ((def_full (n + 1) t h ht).seq fun d t1 l1 => (ih t1 (by omega)).seq fun l t2 _ => Full.pure (d :: l) t2 0).mono (k' := 0) (G' := Many DefG) (by omega) (Nat.le_refl _) (by
        rintro b w ⟨d, w1, _, rfl, h1, l, w2, _, rfl, h2, rfl, rfl⟩
        rw [List.append_nil]
        exact .cons h1 h2)
      exact ⟨(defs_good (n + 1) t h).1, this.word, fun t1 w hf => this.first t1 w (by rw [← hfst]; exact hf)⟩
    · refine .quiet (defs_good (n + 1) t h).1 ⟨[], [], .nil, .nil⟩ ?_
      rw [defs]
      show (if t.tok ≠ Tk.eof then _ else _ : PProg (List Def)).first t = _
      rw [if_neg ht]
      rfl

theorem file_full (n : Nat) (t : TS) (h : t.rest.length < n) : Full FileG 0 0 (file_ n) t := by
  unfold file_
  refine ((headers_full n t h).seq fun hs t1 l1 => (defs_full n t1 (by omega)).seq fun ds t2 _ => Full.pure (⟨hs, ds⟩ : File) t2 0).mono (by omega) (Nat.le_refl _) ?_
  rintro b w ⟨hs, w1, _, rfl, h1, ds, w2, _, rfl, h2, rfl, rfl⟩
  rw [List.append_nil]
  exact .mk h1 h2

end GoThrift.Idl
