import Verif.Proof.ParseWork
import Verif.Spec.TreeSize

/-!
# What the parser makes of the tokens it consumes
-/

namespace GoThrift.Idl

open Spec

variable {α β : Type}

/-- If the program returns, the result has at most `c` nodes more than five for each token that it consumed, and its texts are `acc` and then some of the texts of these tokens. -/
def Gives (c : Int) (acc : List Bytes) (f : α → Nat) (g : α → List Bytes) (p : PProg α) (t : TS) : Prop :=
  ∀ r t', p.run tokSource t = .done (some r, t') → ∃ used l, t.rest = used ++ t'.rest ∧ g r = acc ++ l ∧ List.Sublist l (used.map fun x => x.2.1) ∧ (f r : Int) ≤ c + 5 * (used.length : Int)

variable {c : Int} {acc : List Bytes} {f : α → Nat} {g : α → List Bytes} {t : TS}

theorem Gives.mono {c' : Int} {p : PProg α} (h : Gives c acc f g p t) (hc : c ≤ c') : Gives c' acc f g p t := fun r t' hr => by
  obtain ⟨u, l, h1, h2, h3, h4⟩ := h r t' hr
  exact ⟨u, l, h1, h2, h3, by omega⟩

theorem Gives.bind' {p : PProg α} {q : α → PProg β} {f' : β → Nat} {g' : β → List Bytes} (c1 : Int) (hp : Gives c1 [] f g p t)
    (hq : ∀ a t', p.run tokSource t = .done (some a, t') → Gives (c - c1 + f a) (acc ++ g a) f' g' (q a) t') : Gives c acc f' g' (p >>= q) t := by
  intro r t' hr
  rw [run_bind] at hr
  cases hx : p.run tokSource t with
  | done x =>
    obtain ⟨a, t1⟩ := x
    rw [hx, Out.bind_done] at hr
    cases a with
    | none => cases hr
    | some a =>
      obtain ⟨u, l, h1, h2, h3, h4⟩ := hp a t1 hx
      obtain ⟨u', l', k1, k2, k3, k4⟩ := hq a t1 hx r t' hr
      rw [List.nil_append] at h2
      refine ⟨u ++ u', l ++ l', by rw [h1, k1, List.append_assoc], by rw [k2, h2, List.append_assoc], by rw [List.map_append]; exact h3.append k3, ?_⟩
      rw [List.length_append]
      push_cast
      omega
  | blocked => rw [hx] at hr; cases hr
  | diverged => rw [hx] at hr; cases hr
  | panicked => rw [hx] at hr; cases hr

theorem Gives.bind {p : PProg α} {q : α → PProg β} {f' : β → Nat} {g' : β → List Bytes} (c1 : Int) (hp : Gives c1 [] f g p t)
    (hq : ∀ a t', Gives (c - c1 + f a) (acc ++ g a) f' g' (q a) t') : Gives c acc f' g' (p >>= q) t :=
  .bind' c1 hp fun a t' _ => hq a t'

theorem Gives.pure (a : α) (hf : (f a : Int) ≤ c) (hg : g a = acc) : Gives c acc f g (pure a) t := fun r t' hr => by
  cases hr
  exact ⟨[], [], rfl, by rw [hg, List.append_nil], List.nil_sublist _, by simpa using hf⟩

theorem Gives.diverge : Gives c acc f g (.diverge : PProg α) t := fun r t' hr => by cases hr

theorem Gives.bad {x : What} : Gives c acc f g (errorExpected x >>= fun _ => (.bad : PProg α)) t := fun r t' hr => by cases hr

theorem Gives.ite {q : Prop} [Decidable q] {p p' : PProg α} (h : q → Gives c acc f g p t) (h' : ¬ q → Gives c acc f g p' t) : Gives c acc f g (if q then p else p') t := by
  by_cases hc : q
  · rw [if_pos hc]; exact h hc
  · rw [if_neg hc]; exact h' hc

theorem Gives.tok {q : Token → PProg α} (h : Gives c acc f g (q t.tok) t) : Gives c acc f g (tok >>= q) t := h

theorem Gives.posOf {q : Nat → PProg α} (h : Gives c acc f g (q t.pos) t) : Gives c acc f g (pos >>= q) t := h

theorem Gives.error {x : What} {q : Unit → PProg α} (h : Gives c acc f g (q ()) (t.expected x)) : Gives c acc f g (errorExpected x >>= q) t := h

/-- A token is consumed. -/
theorem Gives.next {q : Unit → PProg α} (ht : t.tok ≠ Tk.eof) (h : Gives (c + 5) acc f g (q ()) t.next) : Gives c acc f g (next >>= q) t := fun r t' hr => by
  obtain ⟨u, l, h1, h2, h3, h4⟩ := h r t' hr
  obtain ⟨y, p, m, hm⟩ := rest_of_tok' ht
  have h1' : t.rest.tail = u ++ t'.rest := h1
  rw [hm, List.tail_cons] at h1'
  refine ⟨(t.tok, y, p) :: u, l, by rw [hm, h1', List.cons_append], h2, h3.cons _, ?_⟩
  rw [List.length_cons]
  push_cast
  omega

/-- Or none, at the end. -/
theorem Gives.next' {q : Unit → PProg α} (h : Gives c acc f g (q ()) t.next) : Gives c acc f g (Idl.next >>= q) t := by
  by_cases ht : t.tok = Tk.eof
  · intro r t' hr
    obtain ⟨u, l, h1, h2, h3, h4⟩ := h r t' hr
    have h1' : t.rest.tail = u ++ t'.rest := h1
    cases hm : t.rest with
    | nil => exact ⟨u, l, by rw [← h1', hm]; rfl, h2, h3, h4⟩
    | cons x m =>
      rw [hm, List.tail_cons] at h1'
      refine ⟨x :: u, l, by rw [h1', List.cons_append], h2, h3.cons _, ?_⟩
      rw [List.length_cons]
      push_cast
      omega
  · exact .next ht (h.mono (by omega))

/-- Cases for `got`. -/
theorem Gives.got {x : Token} (hx : x ≠ Tk.eof) {q : Bool → PProg α} (h : t.tok = x → Gives (c + 5) acc f g (q true) t.next) (h' : t.tok ≠ x → Gives c acc f g (q false) t) :
    Gives c acc f g (got x >>= q) t := by
  have e : (Idl.got x >>= q) = Idl.tok >>= fun (y : Token) => if y = x then Idl.next >>= fun _ => q true else q false := by
    unfold Idl.got
    show PProg.call _ _ = PProg.call _ _
    refine congrArg (PProg.call _) (funext fun (y : Token) => ?_)
    show PProg.bind (if y = x then _ else _) q = (if y = x then _ else _)
    split <;> rfl
  rw [e]
  exact .tok (.ite (fun hy => .next (by rw [hy]; exact hx) (h hy)) h')

/-- `want` where a token is consumed, whichever it is. -/
theorem Gives.want {x : Token} (hx : x ≠ Tk.eof) {q : Unit → PProg α} (ht : t.tok ≠ Tk.eof) (h : ∀ t', Gives (c + 5) acc f g (q ()) t') : Gives c acc f g (want x >>= q) t := by
  rw [want_ite]
  exact .got hx (fun _ => h _) fun _ => .error (.next (t := t.expected _) ht (h _))

/-- `want` anywhere. -/
theorem Gives.want' {x : Token} (hx : x ≠ Tk.eof) {q : Unit → PProg α} (h : ∀ t', Gives c acc f g (q ()) t') : Gives c acc f g (Idl.want x >>= q) t := by
  rw [want_ite]
  exact .got hx (fun _ => (h _).mono (by omega)) fun _ => .error (.next' (h _))

/-- The text of the current token, which is consumed. -/
theorem gives_text (ht : t.tok ≠ Tk.eof) : Gives (-4) [] (fun _ => 1) word (Idl.lit >>= fun l => Idl.next >>= fun _ => Pure.pure l) t := fun r t' hr => by
  obtain ⟨y, p, m, hm⟩ := rest_of_tok' ht
  have e : (some t.lit, t.next) = (some r, t') := by
    have : (Out.done (some t.lit, t.next) : Out (Option Bytes × TS)) = .done (some r, t') := hr
    injection this
  injection e with e1 e2
  injection e1 with e1
  subst e1; subst e2
  refine ⟨[(t.tok, y, p)], word t.lit, ?_, rfl, ?_, by simp⟩
  · show _ = _ ++ t.rest.tail
    rw [hm]; rfl
  · have : t.lit = y := by unfold TS.lit; rw [hm]
    rw [this]
    unfold word
    split
    · exact List.nil_sublist _
    · exact List.Sublist.refl _

theorem word_nil : word [] = [] := rfl

theorem gives_litOf {x : Token} (hx : x ≠ Tk.eof) : Gives 1 [] (fun _ => 1) word (litOf x) t := by
  unfold Idl.litOf
  exact .tok (.ite (fun h => (gives_text (by rw [h]; exact hx)).mono (by omega)) fun h => .want' hx fun t' => .pure _ (by omega) rfl)

/-- `lit` where there is a token. -/
theorem gives_litOf_some {x : Token} (hx : x ≠ Tk.eof) (ht : t.tok ≠ Tk.eof) : Gives (-4) [] (fun _ => 1) word (litOf x) t := by
  unfold Idl.litOf
  exact .tok (.ite (fun h => gives_text ht) fun h => .want hx ht fun t' => .pure _ (by omega) rfl)

theorem gives_separator (n : Nat) : Gives 0 [] (fun _ => 0) (fun _ => []) (separator n) t := by
  induction n generalizing t with
  | zero => exact .diverge
  | succ n ih =>
    refine .tok (.ite (fun h => ?_) fun h => .pure _ (by omega) rfl)
    exact .next (by rcases h with h | h <;> rw [h] <;> decide) (ih.mono (by omega))

theorem gives_listLoop {close : Token} {p : PProg α} (n : Nat) (hp : ∀ t : TS, t.tok ≠ Tk.eof → Gives 0 [] f g p t) :
    Gives 0 [] (fun l => (l.map f).sum) (fun l => l.flatMap g) (listLoop close p n) t := by
  induction n generalizing t with
  | zero => exact .diverge
  | succ n ih =>
    refine .tok (.ite (fun h => ?_) fun h => .pure _ (by simp) rfl)
    refine .bind 0 (hp t h.1) fun x t1 => .bind 0 (gives_separator n) fun _ t2 => .bind 0 ih fun l t3 => .pure _ ?_ ?_
    · simp only [List.map_cons, List.sum_cons]; push_cast; omega
    · simp

/-- `list` where there is a token. -/
theorem gives_list_some {open_ close : Token} (ho : open_ ≠ Tk.eof) (hcl : close ≠ Tk.eof) {p : PProg α} (n : Nat) (hp : ∀ t : TS, t.tok ≠ Tk.eof → Gives 0 [] f g p t) (ht : t.tok ≠ Tk.eof) :
    Gives (-5) [] (fun l => (l.map f).sum) (fun l => l.flatMap g) (list n open_ close p) t := by
  unfold Idl.list
  exact .want ho ht fun t1 => .bind 0 (gives_listLoop n hp) fun l t2 => .want' hcl fun t3 => .pure _ (by omega) (by simp)

/-- `list` anywhere. -/
theorem gives_list {open_ close : Token} (ho : open_ ≠ Tk.eof) (hcl : close ≠ Tk.eof) {p : PProg α} (n : Nat) (hp : ∀ t : TS, t.tok ≠ Tk.eof → Gives 0 [] f g p t) :
    Gives 0 [] (fun l => (l.map f).sum) (fun l => l.flatMap g) (list n open_ close p) t := by
  unfold Idl.list
  exact .want' ho fun t1 => .bind 0 (gives_listLoop n hp) fun l t2 => .want' hcl fun t3 => .pure _ (by omega) (by simp)

theorem bind_assoc {γ δ ε : Type} (p : PProg γ) (q : γ → PProg δ) (k : δ → PProg ε) : ((p >>= q) >>= k) = p >>= fun a => q a >>= k := by
  show (p.bind q).bind k = p.bind fun b => (q b).bind k
  induction p with
  | ret a => rfl
  | bad => rfl
  | diverge => rfl
  | call o r ih => rw [PProg.bind, PProg.bind, PProg.bind]; congr 1; funext a; exact ih a

theorem gives_assigned {p : PProg α} (hp : ∀ t, Gives 5 [] f g p t) : Gives 0 [] (fun o => o.elim 0 f) (fun o => o.elim [] g) (assigned p) t := by
  have yes : ∀ t, Gives (0 + 5) [] (fun o => o.elim 0 f) (fun o => o.elim [] g) (p >>= fun v => Pure.pure (some v)) t := fun t =>
    .bind 5 (hp t) fun v t' => .pure _ (by show (f v : Int) ≤ _; omega) (by simp)
  unfold assigned gotAssign
  rw [bind_assoc]
  refine .got (by decide) (fun h => yes _) fun h => ?_
  show Gives _ _ _ _ ((tok >>= _) >>= _) t
  rw [bind_assoc]
  refine .tok ?_
  by_cases h : t.tok = Tk.eql
  · rw [if_pos h, bind_assoc]
    exact .want (by decide) (by rw [h]; decide) fun t' => yes _
  · rw [if_neg h]
    exact .pure _ (by simp) rfl

theorem gives_annotation (ht : t.tok ≠ Tk.eof) : Gives 0 [] Annotation.nodes Annotation.texts annotation t := by
  unfold annotation
  refine .bind (-4) (gives_litOf_some (by decide) ht) fun a t1 => .bind 0 (gives_assigned fun t => (gives_litOf (by decide)).mono (by omega)) fun v t2 => .pure _ ?_ ?_
  · unfold Annotation.nodes; dsimp only; push_cast; omega
  · simp [Annotation.texts]

theorem gives_annotations (n : Nat) : Gives 0 [] notesNodes notesTexts (annotations n) t := by
  unfold annotations
  refine .tok (.ite (fun h => .pure _ (by simp [notesNodes]) rfl) fun h => ?_)
  have h' : t.tok = Tk.lparen := by simpa using h
  refine .bind (-5) (gives_list_some (by decide) (by decide) n (fun t ht => gives_annotation ht) (by rw [h']; decide)) fun l t' => .pure _ ?_ ?_
  · show ((1 + (l.map Annotation.nodes).sum : Nat) : Int) ≤ _; push_cast; omega
  · simp [notesTexts]

/-- For each type: at least two tokens' worth is left over, after its nodes. -/
theorem gives_type (n : Nat) : Gives (-3) [] TypeNode.nodes TypeNode.texts (type_ n) t := by
  induction n generalizing t with
  | zero => exact .diverge
  | succ n ih =>
    unfold type_
    refine .tok (.ite (fun h => ?_) fun _ => .ite (fun h => ?_) fun _ => .ite (fun h => ?_) fun _ => .ite (fun h => ?_) fun _ => .bad)
    · refine .want (by decide) (by rw [h]; decide) fun t1 => .want' (by decide) fun t2 => .bind (-3) ih fun k t3 => .want' (by decide) fun t4 => .bind (-3) ih fun v t5 =>
        .want' (by decide) fun t6 => .bind 0 (gives_annotations n) fun a t7 => .pure _ ?_ ?_
      · rw [TypeNode.nodes]; push_cast; omega
      · simp [TypeNode.texts]
    · refine .want (by decide) (by rw [h]; decide) fun t1 => .want' (by decide) fun t2 => .bind (-3) ih fun k t3 =>
        .want' (by decide) fun t6 => .bind 0 (gives_annotations n) fun a t7 => .pure _ ?_ ?_
      · rw [TypeNode.nodes]; push_cast; omega
      · simp [TypeNode.texts]
    · refine .want (by decide) (by rw [h]; decide) fun t1 => .want' (by decide) fun t2 => .bind (-3) ih fun k t3 =>
        .want' (by decide) fun t6 => .bind 0 (gives_annotations n) fun a t7 => .pure _ ?_ ?_
      · rw [TypeNode.nodes]; push_cast; omega
      · simp [TypeNode.texts]
    · refine .bind (-4) (gives_litOf_some (by decide) (by rw [h]; decide)) fun a t1 => .bind 0 (gives_annotations n) fun b t7 => .pure _ ?_ ?_
      · rw [TypeNode.nodes]; push_cast; omega
      · simp [TypeNode.texts]

theorem valuesNodes_eq (l : List Value) : valuesNodes l = (l.map Value.nodes).sum := by
  induction l with
  | nil => rfl
  | cons a l ih => rw [valuesNodes, ih]; rfl
theorem valuesTexts_eq (l : List Value) : valuesTexts l = l.flatMap Value.texts := by
  induction l with
  | nil => rfl
  | cons a l ih => rw [valuesTexts, ih]; rfl
theorem pairsNodes_eq (l : List (Value × Value)) : pairsNodes l = (l.map fun x => 1 + x.1.nodes + x.2.nodes).sum := by
  induction l with
  | nil => rfl
  | cons a l ih => obtain ⟨a, b⟩ := a; rw [pairsNodes, ih]; rfl
theorem pairsTexts_eq (l : List (Value × Value)) : pairsTexts l = l.flatMap fun x => x.1.texts ++ x.2.texts := by
  induction l with
  | nil => rfl
  | cons a l ih => obtain ⟨a, b⟩ := a; rw [pairsTexts, ih]; rfl

theorem gives_value (n : Nat) : Gives (-4) [] Value.nodes Value.texts (value n) t := by
  induction n generalizing t with
  | zero => exact .diverge
  | succ n ih =>
    unfold value
    have leaf : ∀ {x : Token} {v : Bytes → Value}, x ≠ Tk.eof → (∀ b, (v b).nodes = 1) → (∀ b, (v b).texts = word b) → t.tok = x → Gives (-4) [] Value.nodes Value.texts (litOf x >>= fun b => pure (v b)) t :=
      fun hx h1 h2 h => .bind (-4) (gives_litOf_some hx (by rw [h]; exact hx)) fun a t1 => .pure _ (by rw [h1]; omega) (by rw [h2]; simp)
    refine .tok (.ite (leaf (by decide) (fun _ => by rw [Value.nodes]) (fun _ => by rw [Value.texts])) fun _ => .ite (leaf (by decide) (fun _ => by rw [Value.nodes]) (fun _ => by rw [Value.texts])) fun _ =>
      .ite (leaf (by decide) (fun _ => by rw [Value.nodes]) (fun _ => by rw [Value.texts])) fun _ => .ite (leaf (by decide) (fun _ => by rw [Value.nodes]) (fun _ => by rw [Value.texts])) fun _ =>
      .ite (fun h => ?_) fun _ => .ite (fun h => ?_) fun _ => .bad)
    · refine .bind (-5) (gives_list_some (by decide) (by decide) n (fun t ht => ih.mono (by omega)) (by rw [h]; decide)) fun l t' => .pure _ ?_ ?_
      · rw [Value.nodes, valuesNodes_eq]; push_cast; omega
      · rw [Value.texts, valuesTexts_eq]; simp
    · refine .bind (-5) (gives_list_some (f := fun x => 1 + x.1.nodes + x.2.nodes) (g := fun x => x.1.texts ++ x.2.texts) (by decide) (by decide) n (fun t ht => ?_) (by rw [h]; decide)) fun l t' => .pure _ ?_ ?_
      · refine .bind (-4) ih fun k t1 => .want' (by decide) fun t2 => .bind (-4) ih fun v t3 => .pure _ ?_ ?_
        · push_cast; omega
        · simp
      · rw [Value.nodes, pairsNodes_eq]; push_cast; omega
      · rw [Value.texts, pairsTexts_eq]; simp

theorem gives_enumValue (n : Nat) (ht : t.tok ≠ Tk.eof) : Gives 0 [] EnumValue.nodes EnumValue.texts (enumValue n) t := by
  unfold enumValue
  refine .bind (-4) (gives_litOf_some (by decide) ht) fun a t1 => .bind 0 (gives_assigned fun t => (gives_litOf (by decide)).mono (by omega)) fun v t2 =>
    .bind 0 (gives_annotations n) fun b t3 => .pure _ ?_ ?_
  · unfold EnumValue.nodes; dsimp only; push_cast; omega
  · simp [EnumValue.texts]

theorem gives_fieldName : Gives 1 [] (fun _ => 1) word fieldName t := by
  unfold fieldName
  refine .tok (.ite (fun h => (gives_text fun e => ?_).mono (by omega)) fun h => .want' (by decide) fun t' => .pure _ (by omega) rfl)
  rw [e] at h
  exact absurd h (by decide)

theorem gives_requiredness : Gives 0 [] (fun _ => 0) (fun _ => []) requiredness t := by
  unfold requiredness
  exact .got (by decide) (fun h => .pure _ (by omega) rfl) fun h => .got (by decide) (fun h => .pure _ (by omega) rfl) fun h => .pure _ (by omega) rfl

theorem gives_fieldId : Gives 0 [] (fun o => o.elim 0 fun _ => 1) (fun o => o.elim [] word) fieldId t := by
  unfold fieldId
  refine .tok (.ite (fun h => ?_) fun h => .pure _ (by simp) rfl)
  exact .bind (-4) (gives_litOf_some (by decide) (by rw [h]; decide)) fun a t1 => .want' (by decide) fun t' => .pure _ (by simp) (by simp)

theorem gives_got {x : Token} (hx : x ≠ Tk.eof) : Gives 0 [] (fun _ => 0) (fun _ => []) (got x) t := by
  have h : Gives 0 [] (fun _ => 0) (fun _ => []) (got x >>= fun b => Pure.pure b) t := .got hx (fun h => .pure _ (by omega) rfl) fun h => .pure _ (by omega) rfl
  have e : (got x >>= fun b => Pure.pure b) = got x := by
    unfold Idl.got
    show PProg.call _ _ = PProg.call _ _
    refine congrArg (PProg.call _) (funext fun (y : Token) => ?_)
    show PProg.bind (if y = x then _ else _) _ = (if y = x then _ else _)
    split <;> rfl
  rw [← e]; exact h

theorem gives_field (n : Nat) : Gives 0 [] Field.nodes Field.texts (field n) t := by
  unfold field
  refine .bind 0 gives_fieldId fun i t1 => .bind 0 gives_requiredness fun r t2 => .bind (-3) (gives_type n) fun ty t3 => .bind 0 (gives_got (by decide)) fun b t4 =>
    .bind 1 gives_fieldName fun name t5 => .bind 0 (gives_assigned fun t => (gives_value n).mono (by omega)) fun v t6 => .bind 0 (gives_annotations n) fun a t7 => .pure _ ?_ ?_
  · unfold Field.nodes; dsimp only; push_cast; omega
  · simp [Field.texts]

theorem gives_fields {open_ close : Token} (ho : open_ ≠ Tk.eof) (hcl : close ≠ Tk.eof) (n : Nat) : Gives 1 [] fieldsNodes fieldsTexts (fields n open_ close) t := fun r t' hr => by
  obtain ⟨u, l, h1, h2, h3, h4⟩ := gives_list ho hcl n (fun t _ => gives_field n) r t' hr
  refine ⟨u, l, h1, h2, h3, ?_⟩
  unfold fieldsNodes
  dsimp only at h4
  push_cast
  omega

theorem gives_returnType (n : Nat) : Gives (-3) [] (fun x => x.2.elim 0 TypeNode.nodes) (fun x => x.2.elim [] TypeNode.texts) (returnType n) t := by
  unfold returnType
  exact .got (by decide) (fun h => .pure _ (by simp) rfl) fun h => .bind (-3) (gives_type n) fun _ t3 => .pure _ (by simp) (by simp)

theorem gives_after {x : Token} (hx : x ≠ Tk.eof) {p : PProg α} (hp : ∀ t, Gives 5 [] f g p t) : Gives 0 [] (fun o => o.elim 0 f) (fun o => o.elim [] g) (after x p) t := by
  unfold after
  exact .got hx (fun h => .bind 5 (hp _) fun v t' => .pure _ (by show (f v : Int) ≤ _; omega) (by simp)) fun h => .pure _ (by simp) rfl

theorem gives_method (n : Nat) : Gives 0 [] Method.nodes Method.texts (method n) t := by
  unfold method
  refine .bind 0 (gives_got (by decide)) fun o t1 => .bind (-3) (gives_returnType n) fun r t2 => .bind 1 (gives_litOf (by decide)) fun name t3 => .bind 1 (gives_fields (by decide) (by decide) n) fun args t4 =>
    .bind 0 (gives_after (by decide) fun t => (gives_fields (by decide) (by decide) n).mono (by omega)) fun th t5 => .bind 0 (gives_annotations n) fun a t6 => .pure _ ?_ ?_
  · unfold Method.nodes; dsimp only; push_cast; omega
  · simp [Method.texts]

theorem gives_definition (n : Nat) : Gives 0 [] Def.nodes Def.texts (definition n) t := by
  unfold definition
  refine .tok (.ite (fun h => ?_) fun _ => .ite (fun h => ?_) fun _ => .ite (fun h => ?_) fun _ => .ite (fun h => ?_) fun _ => .ite (fun h => ?_) fun _ => .bad)
  · unfold const_
    refine .want (by decide) (by rw [h]; decide) fun t1 => .bind (-3) (gives_type n) fun ty t2 => .bind 1 (gives_litOf (by decide)) fun name t3 => .want' (by decide) fun t4 => .bind (-4) (gives_value n) fun v t5 =>
      .bind 0 (gives_separator n) fun _ t6 => .pure _ ?_ ?_
    · rw [Def.nodes]; push_cast; omega
    · simp [Def.texts]
  · unfold typedef
    refine .want (by decide) (by rw [h]; decide) fun t1 => .bind (-3) (gives_type n) fun ty t2 => .bind 1 (gives_litOf (by decide)) fun name t3 => .bind 0 (gives_annotations n) fun v t5 =>
      .bind 0 (gives_separator n) fun _ t6 => .pure _ ?_ ?_
    · rw [Def.nodes]; push_cast; omega
    · simp [Def.texts]
  · unfold enum
    refine .want (by decide) (by rw [h]; decide) fun t1 => .bind 1 (gives_litOf (by decide)) fun name t3 => .bind 0 (gives_list (by decide) (by decide) n fun t ht => gives_enumValue n ht) fun l t4 =>
      .bind 0 (gives_annotations n) fun v t5 => .pure _ ?_ ?_
    · rw [Def.nodes]; push_cast; omega
    · simp [Def.texts]
  · unfold struct_
    have hne : t.tok ≠ Tk.eof := by rcases h with h | h | h <;> rw [h] <;> decide
    refine .want hne hne fun t1 => .bind 1 (gives_litOf (by decide)) fun name t3 => .bind 1 (gives_fields (by decide) (by decide) n) fun l t4 =>
      .bind 0 (gives_annotations n) fun v t5 => .pure _ ?_ ?_
    · rw [Def.nodes]; push_cast; omega
    · simp [Def.texts]
  · unfold service
    refine .want (by decide) (by rw [h]; decide) fun t1 => .bind 1 (gives_litOf (by decide)) fun name t3 => .bind 0 (gives_after (by decide) fun t => (gives_litOf (by decide)).mono (by omega)) fun e t4 =>
      .bind 0 (gives_list (by decide) (by decide) n fun t _ => gives_method n) fun l t4 => .bind 0 (gives_annotations n) fun v t5 => .pure _ ?_ ?_
    · rw [Def.nodes]; push_cast; omega
    · simp [Def.texts]

theorem run_suffix (p : PProg α) {t t' : TS} {r : Option α} (hr : p.run tokSource t = .done (r, t')) : t'.rest <:+ t.rest := by
  induction p generalizing t with
  | ret a => cases hr; exact List.suffix_refl _
  | bad => cases hr; exact List.suffix_refl _
  | diverge => cases hr
  | call o q ih =>
    rw [PProg.run] at hr
    cases o with
    | tok => exact ih _ hr
    | pos => exact ih _ hr
    | lit => exact ih _ hr
    | next => exact (ih _ hr).trans (List.tail_suffix _)
    | expected x => exact ih () (t := t.expected x) hr

/-- A definition, or what is skipped in its place. -/
theorem gives_def (n : Nat) (hn : t.rest.length < n) (ht : t.tok ≠ Tk.eof) : Gives 0 [] Def.nodes Def.texts (def_ n) t := by
  intro r t' hr
  obtain ⟨⟨r', t1, g1, g2, g3, g4, g5, g6, g7⟩, _⟩ := def_good n t hn ht
  rw [hr] at g1
  injection g1 with g1
  injection g1 with e1 e2
  subst e1; subst e2
  have hlen := g6 (by simp)
  obtain ⟨y, p, m, hm⟩ := rest_of_tok' ht
  rw [run_def] at hr
  cases hx : (definition n).run tokSource t with
  | done x =>
    obtain ⟨a, t1⟩ := x
    rw [hx, Out.bind_done] at hr
    cases a with
    | some d =>
      have hr' : Out.done (some d, t1) = .done (some r, t') := hr
      injection hr' with hr'
      injection hr' with e1 e2
      injection e1 with e1
      subst e1; subst e2
      exact gives_definition n _ _ hx
    | none =>
      have hb : ∃ p q, r = .bad p q := by
        dsimp only at hr
        rw [run_bind] at hr
        cases hy : (resync n).run tokSource t1 with
        | done y =>
          obtain ⟨b, t2⟩ := y
          rw [hy, Out.bind_done] at hr
          cases b with
          | none => cases hr
          | some b =>
            have hr' : Out.done (some (Def.bad t.pos t2.pos), t2) = .done (some r, t') := hr
            injection hr' with hr'
            injection hr' with e1 e2
            injection e1 with e1
            exact ⟨_, _, e1.symm⟩
        | blocked => rw [hy] at hr; cases hr
        | diverged => rw [hy] at hr; cases hr
        | panicked => rw [hy] at hr; cases hr
      obtain ⟨p, q, rfl⟩ := hb
      obtain ⟨u, hu⟩ := g3
      refine ⟨u, [], hu.symm, rfl, List.nil_sublist _, ?_⟩
      have : t.rest.length = u.length + t'.rest.length := by rw [← hu, List.length_append]
      rw [hm, List.length_cons] at this hlen
      show ((1 : Nat) : Int) ≤ _
      omega
  | blocked => rw [hx] at hr; cases hr
  | diverged => rw [hx] at hr; cases hr
  | panicked => rw [hx] at hr; cases hr

theorem gives_scope : Gives 1 [] (fun o => o.elim 0 fun _ => 1) (fun o => o.elim [] word) scope t := by
  unfold scope
  exact .got (by decide) (fun h => .pure _ (by simp) rfl) fun h => .bind 1 (gives_litOf (by decide)) fun _ t2 => .pure _ (by simp) (by simp)

theorem gives_header (n : Nat) : Gives 0 [] (fun o => o.elim 0 Header.nodes) (fun o => o.elim [] Header.texts) (header n) t := by
  unfold header
  refine .tok (.ite (fun h => ?_) fun h1 => .ite (fun h => ?_) fun h2 => .pure _ (by simp) rfl)
  · refine .want (by decide) (by rw [h]; decide) fun t1 => .bind 1 (gives_litOf (by decide)) fun _ t2 => .pure _ ?_ ?_
    · show ((2 : Nat) : Int) ≤ _; omega
    · simp [Header.texts]
  · refine .want (by decide) (by rw [h]; decide) fun t1 => .bind 1 gives_scope fun s t2 => .bind 1 (gives_litOf (by decide)) fun _ t2 => .bind 0 (gives_annotations n) fun a t7 => .pure _ ?_ ?_
    · show ((2 + s.elim 0 (fun _ => 1) + notesNodes a : Nat) : Int) ≤ _; push_cast; omega
    · simp [Header.texts]

theorem gives_headers (n : Nat) : Gives 0 [] (fun l => (l.map Header.nodes).sum) (fun l => l.flatMap Header.texts) (headers n) t := by
  induction n generalizing t with
  | zero => exact .diverge
  | succ n ih =>
    unfold headers
    refine .bind 0 (gives_header n) fun a t1 => ?_
    cases a with
    | none => exact .pure _ (by simp) (by simp)
    | some a =>
      refine .bind 0 ih fun l t2 => .pure _ ?_ ?_
      · simp only [List.map_cons, List.sum_cons, Option.elim_some]; push_cast; omega
      · simp

theorem gives_defs (n : Nat) (hn : t.rest.length < n) : Gives 0 [] (fun l => (l.map Def.nodes).sum) (fun l => l.flatMap Def.texts) (defs n) t := by
  induction n generalizing t with
  | zero => exact .diverge
  | succ n ih =>
    unfold defs
    refine .tok (.ite (fun h => ?_) fun h => .pure _ (by simp) rfl)
    refine .bind' 0 (gives_def (n + 1) hn h) fun d t1 hd => .bind 0 (ih ?_) fun l t2 => .pure _ ?_ ?_
    · obtain ⟨⟨r', t1', g1, g2, g3, g4, g5, g6, g7⟩, _⟩ := def_good (n + 1) t hn h
      rw [hd] at g1
      injection g1 with g1
      injection g1 with e1 e2
      subst e1; subst e2
      have hlen := g6 (by simp)
      obtain ⟨y, p, m, hm⟩ := rest_of_tok' h
      rw [hm, List.length_cons] at hlen hn
      omega
    · simp only [List.map_cons, List.sum_cons]; push_cast; omega
    · simp

theorem gives_file (n : Nat) (hn : t.rest.length < n) : Gives 1 [] File.nodes File.texts (file_ n) t := by
  unfold file_
  refine .bind' 0 (gives_headers n) fun hs t1 h1 => .bind 0 (gives_defs n ?_) fun ds t2 => .pure _ ?_ ?_
  · have := (run_suffix _ h1).length_le
    omega
  · unfold File.nodes; dsimp only; push_cast; omega
  · simp [File.texts]

end GoThrift.Idl

/-! ## Nothing is left out of a tree without errors -/

namespace GoThrift.Idl

open Spec

/-- The texts of the identifiers and literals. -/
def lits (w : List Lx) : List Bytes := w.flatMap fun x => if isLiteral x.1 then word x.2 else []

theorem lits_append (a b : List Lx) : lits (a ++ b) = lits a ++ lits b := List.flatMap_append
theorem lits_nil : lits [] = [] := rfl
theorem lits_cons (x : Lx) (w : List Lx) : lits (x :: w) = (if isLiteral x.1 then word x.2 else []) ++ lits w := rfl

/-- A token that is no literal. -/
theorem lits_other {x : Token} {b : Bytes} (w : List Lx) (h : isLiteral x = false) : lits ((x, b) :: w) = lits w := by
  rw [lits_cons, h]; rfl
theorem lits_lit {x : Token} {b : Bytes} (w : List Lx) (h : isLiteral x = true) : lits ((x, b) :: w) = word b ++ lits w := by
  rw [lits_cons, h]; rfl

theorem lits_seps {w : List Lx} (h : Seps w) : lits w = [] := by
  induction w with
  | nil => rfl
  | cons x w ih =>
    obtain ⟨x, b⟩ := x
    rw [lits_other _ (by rcases h _ List.mem_cons_self with e | e <;> (have e : x = _ := e; rw [e]; decide))]
    exact ih fun y hy => h y (List.mem_cons_of_mem _ hy)

variable {α : Type} {R : α → List Lx → Prop} {g : α → List Bytes}

theorem lits_many {xs : List α} {w : List Lx} (h : Many R xs w) (hr : ∀ x w, R x w → List.Sublist (lits w) (g x)) : List.Sublist (lits w) (xs.flatMap g) := by
  induction h with
  | nil => exact List.nil_sublist _
  | cons h1 _ ih => rw [lits_append, List.flatMap_cons]; exact (hr _ _ h1).append ih

theorem lits_items {xs : List α} {w : List Lx} (h : Items R xs w) (hr : ∀ x w, R x w → List.Sublist (lits w) (g x)) : List.Sublist (lits w) (xs.flatMap g) := by
  induction h with
  | nil => exact List.nil_sublist _
  | cons h1 h2 _ ih => rw [lits_append, lits_append, lits_seps h2, List.nil_append, List.flatMap_cons]; exact (hr _ _ h1).append ih

theorem lits_bracketed {o c : Token} (ho : isLiteral o = false) (hc : isLiteral c = false) {xs : List α} {w : List Lx} (h : Bracketed o c R xs w)
    (hr : ∀ x w, R x w → List.Sublist (lits w) (g x)) : List.Sublist (lits w) (xs.flatMap g) := by
  cases h with
  | mk h => rw [lits_other _ ho, lits_append, lits_other _ hc, lits_nil, List.append_nil]; exact lits_items h hr

theorem lits_annotation : ∀ (a : Annotation) (w : List Lx), AnnotationG a w → List.Sublist (lits w) a.texts := by
  intro a w h
  cases h with
  | bare => exact List.Sublist.refl _
  | value => rw [lits_lit _ (by decide), lits_other _ (by decide), lits_lit _ (by decide), lits_nil, List.append_nil]; exact List.Sublist.refl _

theorem lits_annotations {a : Annotations} {w : List Lx} (h : AnnotationsG a w) : List.Sublist (lits w) (notesTexts a) := by
  cases h with
  | none => exact List.nil_sublist _
  | some h => exact lits_bracketed (by decide) (by decide) h lits_annotation

theorem lits_type {t : TypeNode} {w : List Lx} (h : TypeG t w) : List.Sublist (lits w) t.texts := by
  induction h with
  | map h1 h2 h3 i1 i2 =>
    rw [lits_other _ (by decide), lits_other _ (by decide), lits_append, lits_other _ (by decide), lits_append, lits_other _ (by decide), TypeNode.texts, List.append_assoc]
    exact i1.append (i2.append (lits_annotations h3))
  | set h1 h2 i =>
    rw [lits_other _ (by decide), lits_other _ (by decide), lits_append, lits_other _ (by decide), TypeNode.texts]
    exact i.append (lits_annotations h2)
  | list h1 h2 i =>
    rw [lits_other _ (by decide), lits_other _ (by decide), lits_append, lits_other _ (by decide), TypeNode.texts]
    exact i.append (lits_annotations h2)
  | ref h =>
    rw [lits_lit _ (by decide), TypeNode.texts]
    exact (List.Sublist.refl _).append (lits_annotations h)

mutual
theorem lits_value : ∀ (v : Value) (w : List Lx), ValueG v w → List.Sublist (lits w) v.texts
  | .ident _, _, h => by cases h; rw [lits_lit _ (by decide), lits_nil, List.append_nil, Value.texts]; exact List.Sublist.refl _
  | .int _, _, h => by cases h; rw [lits_lit _ (by decide), lits_nil, List.append_nil, Value.texts]; exact List.Sublist.refl _
  | .float _, _, h => by cases h; rw [lits_lit _ (by decide), lits_nil, List.append_nil, Value.texts]; exact List.Sublist.refl _
  | .string _, _, h => by cases h; rw [lits_lit _ (by decide), lits_nil, List.append_nil, Value.texts]; exact List.Sublist.refl _
  | .list l, w, h => by
    rw [Value.texts]
    have h' : Bracketed Tk.lbrack Tk.rbrack ValueG l w := by cases h; assumption
    cases h' with
    | mk k => rw [lits_other _ (by decide), lits_append, lits_other _ (by decide), lits_nil, List.append_nil]; exact lits_values l _ k
  | .pairs l, w, h => by
    rw [Value.texts]
    have h' : Bracketed Tk.lbrace Tk.rbrace (PairG ValueG) l w := by cases h; assumption
    cases h' with
    | mk k => rw [lits_other _ (by decide), lits_append, lits_other _ (by decide), lits_nil, List.append_nil]; exact lits_pairs l _ k
theorem lits_values : ∀ (l : List Value) (w : List Lx), Items ValueG l w → List.Sublist (lits w) (valuesTexts l)
  | [], _, h => by cases h; exact List.nil_sublist _
  | v :: l, _, h => by
    cases h with
    | cons h1 h2 h3 => rw [lits_append, lits_append, lits_seps h2, List.nil_append, valuesTexts]; exact (lits_value v _ h1).append (lits_values l _ h3)
theorem lits_pairs : ∀ (l : List (Value × Value)) (w : List Lx), Items (PairG ValueG) l w → List.Sublist (lits w) (pairsTexts l)
  | [], _, h => by cases h; exact List.nil_sublist _
  | (a, b) :: l, _, h => by
    cases h with
    | cons h1 h2 h3 =>
      cases h1 with
      | mk k1 k2 =>
        rw [lits_append, lits_append, lits_append, lits_other _ (by decide), lits_seps h2, List.nil_append, pairsTexts]
        exact ((lits_value a _ k1).append (lits_value b _ k2)).append (lits_pairs l _ h3)
end

theorem lits_assigned {o : Option α} {w : List Lx} (h : AssignedG R o w) (hr : ∀ x w, R x w → List.Sublist (lits w) (g x)) : List.Sublist (lits w) (o.elim [] g) := by
  cases h with
  | none => exact List.nil_sublist _
  | some h => rw [lits_other _ (by decide)]; exact hr _ _ h

theorem lits_flag {t : Token} (ht : isLiteral t = false) {b : Bool} {w : List Lx} (h : FlagG t b w) : lits w = [] := by
  cases h with
  | no => rfl
  | yes => rw [lits_other _ ht]; rfl

theorem lits_enumValue : ∀ (v : EnumValue) (w : List Lx), EnumValueG v w → List.Sublist (lits w) v.texts := by
  intro v w h
  cases h with
  | mk h1 h2 =>
    rw [lits_lit _ (by decide), lits_append, EnumValue.texts, List.append_assoc]
    refine (List.Sublist.refl _).append ((lits_assigned h1 fun x w h => ?_).append (lits_annotations h2))
    cases h
    rw [lits_lit _ (by decide), lits_nil, List.append_nil]
    exact List.Sublist.refl _

theorem lits_requiredness {a b : Bool} {w : List Lx} (h : RequirednessG a b w) : lits w = [] := by
  cases h with
  | none => rfl
  | required => rw [lits_other _ (by decide)]; rfl
  | optional => rw [lits_other _ (by decide)]; rfl

theorem reserved_literal : ∀ x ∈ reserved, isLiteral x.2 = false := by decide

theorem lits_field : ∀ (f : Field) (w : List Lx), FieldG f w → List.Sublist (lits w) f.texts := by
  intro f w h
  cases h with
  | mk h1 h2 h3 h4 h5 h6 h7 =>
    rw [lits_append, lits_append, lits_append, lits_append, lits_append, lits_append, lits_flag (by decide) h4, List.nil_append, Field.texts, List.append_assoc, List.append_assoc, List.append_assoc]
    rw [lits_requiredness h2, List.nil_append]
    refine List.Sublist.append ?_ ((lits_type h3).append (List.Sublist.append ?_ ((lits_assigned h6 lits_value).append (lits_annotations h7))))
    · cases h1 with
      | none => exact List.nil_sublist _
      | some => rw [lits_lit _ (by decide), lits_other _ (by decide), lits_nil, List.append_nil]; exact List.Sublist.refl _
    · cases h5 with
      | ident => rw [lits_lit _ (by decide), lits_nil, List.append_nil]; exact List.Sublist.refl _
      | word h => rw [lits_other _ (reserved_literal _ h)]; exact List.nil_sublist _

theorem lits_method : ∀ (m : Method) (w : List Lx), MethodG m w → List.Sublist (lits w) m.texts := by
  intro m w h
  cases h with
  | mk h1 h2 h3 h4 h5 =>
    rw [lits_append, lits_flag (by decide) h1, List.nil_append, lits_append, lits_lit _ (by decide), lits_append, lits_append, Method.texts, List.append_assoc, List.append_assoc, List.append_assoc]
    refine List.Sublist.append ?_ ((List.Sublist.refl _).append ((lits_bracketed (by decide) (by decide) h3 lits_field).append (List.Sublist.append ?_ (lits_annotations h5))))
    · cases h2 with
      | void => rw [lits_other _ (by decide)]; exact List.nil_sublist _
      | type h => exact lits_type h
    · cases h4 with
      | none => exact List.nil_sublist _
      | some h => rw [lits_other _ (by decide)]; exact lits_bracketed (by decide) (by decide) h lits_field

theorem lits_def : ∀ (d : Def) (w : List Lx), DefG d w → List.Sublist (lits w) d.texts := by
  intro d w h
  cases h with
  | const h1 h2 h3 =>
    rw [lits_other _ (by decide), lits_append, lits_lit _ (by decide), lits_other _ (by decide), lits_append, lits_seps h3, List.append_nil, Def.texts, List.append_assoc]
    exact (lits_type h1).append ((List.Sublist.refl _).append (lits_value _ _ h2))
  | typedef h1 h2 h3 =>
    rw [lits_other _ (by decide), lits_append, lits_lit _ (by decide), lits_append, lits_seps h3, List.append_nil, Def.texts, List.append_assoc]
    exact (lits_type h1).append ((List.Sublist.refl _).append (lits_annotations h2))
  | enum h1 h2 =>
    rw [lits_other _ (by decide), lits_lit _ (by decide), lits_append, Def.texts, List.append_assoc]
    exact (List.Sublist.refl _).append ((lits_bracketed (by decide) (by decide) h1 lits_enumValue).append (lits_annotations h2))
  | struct h1 h2 h3 =>
    rw [lits_other _ (by cases h1 <;> decide), lits_lit _ (by decide), lits_append, Def.texts, List.append_assoc]
    exact (List.Sublist.refl _).append ((lits_bracketed (by decide) (by decide) h2 lits_field).append (lits_annotations h3))
  | service h1 h2 h3 =>
    rw [lits_other _ (by decide), lits_lit _ (by decide), lits_append, lits_append, Def.texts, List.append_assoc, List.append_assoc]
    refine (List.Sublist.refl _).append (List.Sublist.append ?_ ((lits_bracketed (by decide) (by decide) h2 lits_method).append (lits_annotations h3)))
    cases h1 with
    | none => exact List.nil_sublist _
    | some => rw [lits_other _ (by decide), lits_lit _ (by decide), lits_nil, List.append_nil]; exact List.Sublist.refl _

theorem lits_header : ∀ (h : Header) (w : List Lx), HeaderG h w → List.Sublist (lits w) h.texts := by
  intro d w h
  cases h
  · rw [lits_other _ (by decide), lits_lit _ (by decide), lits_nil, List.append_nil]; exact List.Sublist.refl _
  · rename_i h1 h2
    rw [lits_other _ (by decide), lits_append, lits_lit _ (by decide), Header.texts, List.append_assoc]
    refine List.Sublist.append ?_ ((List.Sublist.refl _).append (lits_annotations h2))
    cases h1 with
    | all => rw [lits_other _ (by decide)]; exact List.nil_sublist _
    | name => rw [lits_lit _ (by decide), lits_nil, List.append_nil]; exact List.Sublist.refl _

theorem lits_file {f : File} {w : List Lx} (h : FileG f w) : List.Sublist (lits w) f.texts := by
  cases h with
  | mk h1 h2 => rw [lits_append]; exact (lits_many h1 lits_header).append (lits_many h2 lits_def)

end GoThrift.Idl
