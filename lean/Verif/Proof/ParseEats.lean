import Verif.Proof.ParseSound

/-!
# The parser accepts what is in the grammar
-/

namespace GoThrift.Idl

open Spec

/-- The first token of a sequence; EOF if there is none. -/
def hd (w : List Lx) : Token := match w with
  | [] => Tk.eof
  | x :: _ => x.1

/-- Before `rest`, the program consumes `w`, reports nothing and returns `a`. -/
def Eats {α : Type} (p : PProg α) (w : List Lx) (a : α) (rest : List Lx) : Prop :=
  ∀ t : TS, t.plain = w ++ rest → ∃ t', p.run tokSource t = .done (some a, t') ∧ t'.plain = rest ∧ t'.errs = t.errs ∧ t'.eof = t.eof

theorem TS.tok_hd (t : TS) : t.tok = hd t.plain := by
  unfold TS.tok TS.plain
  cases t.rest <;> rfl

theorem Eats.bind {α β : Type} {p : PProg α} {f : α → PProg β} {w1 w2 rest : List Lx} {a : α} {b : β} (h1 : Eats p w1 a (w2 ++ rest)) (h2 : Eats (f a) w2 b rest) :
    Eats (p >>= f) (w1 ++ w2) b rest := by
  intro t ht
  obtain ⟨t1, e1, e2, e3, e4⟩ := h1 t (by rw [ht, List.append_assoc])
  obtain ⟨t2, g1, g2, g3, g4⟩ := h2 t1 e2
  refine ⟨t2, ?_, g2, g3.trans e3, g4.trans e4⟩
  rw [run_bind, e1, Out.bind_done]
  exact g1

theorem Eats.pure {α : Type} (a : α) (rest : List Lx) : Eats (pure a) [] a rest := fun t ht => ⟨t, rfl, ht, rfl, rfl⟩

/-- The last step: return. -/
theorem Eats.map {α β : Type} {p : PProg α} {f : α → PProg β} {w rest : List Lx} {a : α} {b : β} (h1 : Eats p w a rest) (h2 : f a = .ret b) : Eats (p >>= f) w b rest := by
  have := Eats.bind (w2 := []) (f := f) (b := b) h1 (by rw [h2]; exact Eats.pure b rest)
  rwa [List.append_nil] at this

theorem Eats.tok {α : Type} {f : Token → PProg α} {w rest : List Lx} {a : α} (h : Eats (f (hd (w ++ rest))) w a rest) : Eats (tok >>= f) w a rest := by
  intro t ht
  obtain ⟨t', h1⟩ := h t ht
  refine ⟨t', ?_⟩
  show (f t.tok).run tokSource t = _ ∧ _
  rw [t.tok_hd, ht]
  exact h1

theorem Eats.lit {α : Type} {f : Bytes → PProg α} {x : Token} {y : Bytes} {w rest : List Lx} {a : α} (h : Eats (f y) ((x, y) :: w) a rest) : Eats (lit >>= f) ((x, y) :: w) a rest := by
  intro t ht
  obtain ⟨t', h1⟩ := h t ht
  refine ⟨t', ?_⟩
  show (f t.lit).run tokSource t = _ ∧ _
  have : t.lit = y := by
    unfold TS.plain at ht
    unfold TS.lit
    cases hr : t.rest with
    | nil => rw [hr] at ht; cases ht
    | cons z l =>
      rw [hr] at ht
      injection ht with ht
      exact congrArg Prod.snd ht
  rw [this]
  exact h1

theorem Eats.next (x : Lx) (rest : List Lx) : Eats next [x] () rest := by
  intro t ht
  refine ⟨t.next, rfl, ?_, rfl, rfl⟩
  show t.rest.tail.map _ = _
  unfold TS.plain at ht
  rw [List.map_tail, ht]
  rfl

theorem Eats.ite_pos {α : Type} {c : Prop} [Decidable c] {p q : PProg α} {w rest : List Lx} {a : α} (hc : c) (h : Eats p w a rest) : Eats (if c then p else q) w a rest := by
  rwa [if_pos hc]

theorem Eats.ite_neg {α : Type} {c : Prop} [Decidable c] {p q : PProg α} {w rest : List Lx} {a : α} (hc : ¬ c) (h : Eats q w a rest) : Eats (if c then p else q) w a rest := by
  rwa [if_neg hc]

theorem Eats.got_yes (x : Token) (y : Bytes) (rest : List Lx) : Eats (got x) [(x, y)] true rest :=
  .tok (.ite_pos rfl ((Eats.next (x, y) rest).map rfl))

theorem Eats.got_no {x : Token} {rest : List Lx} (h : hd rest ≠ x) : Eats (got x) [] false rest :=
  .tok (.ite_neg h (Eats.pure false rest))

theorem Eats.got {x : Token} {b : Bool} {w rest : List Lx} (hG : FlagG x b w) (h : hd rest ≠ x) : Eats (got x) w b rest := by
  cases hG with
  | no => exact .got_no h
  | yes => exact .got_yes _ _ _

theorem Eats.want (x : Token) (y : Bytes) (rest : List Lx) : Eats (want x) [(x, y)] () rest :=
  (Eats.got_yes x y rest).map rfl

theorem Eats.litOf (x : Token) (y : Bytes) (rest : List Lx) : Eats (litOf x) [(x, y)] y rest :=
  .tok (.ite_pos rfl (.lit ((Eats.next (x, y) rest).map rfl)))

theorem Eats.assigned {α : Type} {R : α → List Lx → Prop} {f : PProg α} {v : Option α} {w rest : List Lx} (hG : AssignedG R v w)
    (hf : ∀ a w', R a w' → w'.length ≤ w.length → Eats f w' a rest) (h1 : hd rest ≠ Tk.assign) (h2 : hd rest ≠ Tk.eql) : Eats (assigned f) w v rest := by
  cases hG with
  | none => exact Eats.map (a := false) (Eats.bind (w1 := []) (.got_no h1) (.ite_neg (by decide) (.tok (.ite_neg h2 (Eats.pure false _))))) rfl
  | @some x a w h =>
    refine Eats.bind (w1 := [(Tk.assign, a)]) (a := true) ((Eats.got_yes _ _ _).map rfl) ?_
    exact .ite_pos rfl ((hf x w h (by simp)).map rfl)

theorem Eats.separator {n : Nat} {w rest : List Lx} (hw : Seps w) (hn : (w ++ rest).length < n) (h : hd rest ≠ Tk.comma) (h' : hd rest ≠ Tk.semicolon) : Eats (separator n) w () rest := by
  induction w generalizing n with
  | nil =>
    cases n with
    | zero => omega
    | succ n =>
      refine .tok (.ite_neg ?_ (Eats.pure () _))
      rintro (h1 | h1)
      · exact h h1
      · exact h' h1
  | cons x w ih =>
    cases n with
    | zero => omega
    | succ n =>
      refine .tok (.ite_pos (hw x (by simp)) (Eats.bind (w1 := [x]) (.next _ _) (ih (fun y hy => hw y (by simp [hy])) ?_)))
      simp at hn ⊢
      omega

theorem hd_append {w rest : List Lx} (h : w ≠ []) : hd (w ++ rest) = hd w := by
  cases w with
  | nil => exact absurd rfl h
  | cons x w => rfl

/-- What a list of items begins with. -/
theorem hd_items {α : Type} {R : α → List Lx → Prop} {F : List Token} (hF : ∀ a w, R a w → w ≠ [] ∧ hd w ∈ F) {l : List α} {w : List Lx} (hG : Items R l w) (rest : List Lx) :
    hd (w ++ rest) ∈ F ∨ hd (w ++ rest) = hd rest := by
  cases hG with
  | nil => exact .inr rfl
  | cons h1 _ _ =>
    obtain ⟨h3, h4⟩ := hF _ _ h1
    refine .inl ?_
    rw [List.append_assoc, hd_append h3]
    exact h4

theorem Eats.listLoop {α : Type} {R : α → List Lx → Prop} {close : Token} {f : PProg α} {F : List Token} (N : Nat) (hF : ∀ a w, R a w → w ≠ [] ∧ hd w ∈ F)
    (hF' : ∀ x ∈ F, x ≠ Tk.eof ∧ x ≠ close ∧ x ≠ Tk.comma ∧ x ≠ Tk.semicolon) (hc : close ≠ Tk.comma) (hc' : close ≠ Tk.semicolon)
    (hf : ∀ a w rest, R a w → hd rest ∈ Tk.comma :: Tk.semicolon :: close :: F → (w ++ rest).length ≤ N → Eats f w a rest)
    {l : List α} {w rest : List Lx} (hG : Items R l w) (hrest : hd rest = close) {n : Nat} (hn : (w ++ rest).length < n) (hN : (w ++ rest).length ≤ N) : Eats (listLoop close f n) w l rest := by
  induction hG generalizing n with
  | nil =>
    cases n with
    | zero => omega
    | succ n =>
      refine .tok (.ite_neg ?_ (Eats.pure _ _))
      rintro ⟨_, h⟩
      exact h hrest
  | @cons x w s xs ws h1 h2 h3 ih =>
    cases n with
    | zero => omega
    | succ n =>
      obtain ⟨h4, h5⟩ := hF _ _ h1
      obtain ⟨h6, h7, _, _⟩ := hF' _ h5
      have hne : 0 < w.length := by
        cases w with
        | nil => exact absurd rfl h4
        | cons => simp
      have hws := hd_items hF h3 rest
      have hsep : hd (s ++ (ws ++ rest)) ∈ Tk.comma :: Tk.semicolon :: close :: F := by
        cases s with
        | cons y s =>
          rcases h2 y (by simp) with h | h <;> simp [hd, h]
        | nil =>
          rw [List.nil_append]
          rcases hws with h | h
          · simp [h]
          · rw [h, hrest]; simp
      have hlen : (w ++ (s ++ ws) ++ rest).length = w.length + (s.length + (ws.length + rest.length)) := by simp
      rw [hlen] at hn hN
      refine .tok (.ite_pos ⟨?_, ?_⟩ ?_)
      · rw [List.append_assoc, hd_append h4]; exact h6
      · rw [List.append_assoc, hd_append h4]; exact h7
      · refine Eats.bind (hf x w _ h1 (by rw [List.append_assoc]; exact hsep) (by simp; omega)) (Eats.bind (Eats.separator h2 (by simp; omega) ?_ ?_) ((ih (n := n) (by simp; omega) (by simp; omega)).map rfl))
        · rcases hws with h | h
          · exact (hF' _ h).2.2.1
          · rw [h, hrest]; exact hc
        · rcases hws with h | h
          · exact (hF' _ h).2.2.2
          · rw [h, hrest]; exact hc'

theorem Eats.list {α : Type} {R : α → List Lx → Prop} {open_ close : Token} {f : PProg α} (F : List Token) (hF : ∀ a w, R a w → w ≠ [] ∧ hd w ∈ F)
    (hF' : ∀ x ∈ F, x ≠ Tk.eof ∧ x ≠ close ∧ x ≠ Tk.comma ∧ x ≠ Tk.semicolon) (hc : close ≠ Tk.comma) (hc' : close ≠ Tk.semicolon)
    {l : List α} {w rest : List Lx} (hG : Bracketed open_ close R l w)
    (hf : ∀ a w' rest', R a w' → hd rest' ∈ Tk.comma :: Tk.semicolon :: close :: F → (w' ++ rest').length < (w ++ rest).length → Eats f w' a rest') {n : Nat} (hn : (w ++ rest).length ≤ n) : Eats (list n open_ close f) w l rest := by
  cases hG with
  | @mk _ a b w hG =>
    refine Eats.bind (w1 := [(open_, a)]) (.want _ _ _) (Eats.bind (w2 := [(close, b)]) (Eats.listLoop (n := n) (w.length + 1 + rest.length) hF hF' hc hc' (fun a w' rest' h1 h2 h3 => hf a w' rest' h1 h2 ?_) hG rfl ?_ ?_) ((Eats.want _ _ _).map rfl))
    · simp at h3 ⊢; omega
    · simp at hn ⊢; omega
    · simp; omega

/-! ## The functions of the parser -/

theorem Eats.annotation {a : Annotation} {w rest : List Lx} (hG : AnnotationG a w) (h1 : hd rest ≠ Tk.assign) (h2 : hd rest ≠ Tk.eql) : Eats annotation w a rest := by
  cases hG with
  | bare => exact Eats.bind (w1 := [_]) (.litOf _ _ _) (w2 := []) ((Eats.assigned (R := LitG Tk.string) (w := []) (v := none) .none (fun _ _ h _ => by cases h; exact .litOf _ _ _) h1 h2).map rfl)
  | value => exact Eats.bind (w1 := [_]) (.litOf _ _ _) ((Eats.assigned (R := LitG Tk.string) (.some .mk) (fun _ _ h _ => by cases h; exact .litOf _ _ _) h1 h2).map rfl)

theorem Eats.annotations {n : Nat} {a : Annotations} {w rest : List Lx} (hG : AnnotationsG a w) (h : hd rest ≠ Tk.lparen) (hn : (w ++ rest).length < n) : Eats (annotations n) w a rest := by
  cases hG with
  | none => exact .tok (.ite_pos h (Eats.pure _ _))
  | some hG =>
    refine .tok (.ite_neg ?_ (Eats.map (Eats.list [Tk.ident] (fun a w h => ?_) (by decide) (by decide) (by decide) hG (fun a w' rest' h1 h2 _ => ?_) (by omega)) rfl))
    · cases hG; exact fun h => h rfl
    · cases h <;> exact ⟨by simp, by simp [hd]⟩
    · have : ∀ x ∈ [Tk.comma, Tk.semicolon, Tk.rparen, Tk.ident], x ≠ Tk.assign ∧ x ≠ Tk.eql := by decide
      exact Eats.annotation h1 (this _ h2).1 (this _ h2).2

theorem Eats.type_ {n : Nat} {a : TypeNode} {w rest : List Lx} (hG : TypeG a w) (h : hd rest ≠ Tk.lparen) (hn : (w ++ rest).length < n) : Eats (type_ n) w a rest := by
  induction hG generalizing n rest with
  | @map k v an wk wv wa a b c d hk hv ha ihk ihv =>
    cases n with
    | zero => omega
    | succ n =>
      simp at hn
      refine .tok (.ite_pos rfl (Eats.bind (w1 := [_]) (.want _ _ _) (Eats.bind (w1 := [_]) (.want _ _ _) (Eats.bind (ihk ?_ ?_) (Eats.bind (w1 := [_]) (.want _ _ _) (Eats.bind (ihv ?_ ?_)
        (Eats.bind (w1 := [_]) (.want _ _ _) ((Eats.annotations ha h ?_).map rfl))))))))
      · show Tk.comma ≠ Tk.lparen; decide
      · simp; omega
      · show Tk.gtr ≠ Tk.lparen; decide
      · simp; omega
      · simp; omega
  | @set e an we wa a b c he ha ihe =>
    cases n with
    | zero => omega
    | succ n =>
      simp at hn
      refine .tok (.ite_neg (show Tk.set ≠ Tk.map by decide) (.ite_pos rfl (Eats.bind (w1 := [_]) (.want _ _ _) (Eats.bind (w1 := [_]) (.want _ _ _) (Eats.bind (ihe ?_ ?_)
        (Eats.bind (w1 := [_]) (.want _ _ _) ((Eats.annotations ha h ?_).map rfl)))))))
      · show Tk.gtr ≠ Tk.lparen; decide
      · simp; omega
      · simp; omega
  | @list e an we wa a b c he ha ihe =>
    cases n with
    | zero => omega
    | succ n =>
      simp at hn
      refine .tok (.ite_neg (show Tk.list ≠ Tk.map by decide) (.ite_neg (show Tk.list ≠ Tk.set by decide) (.ite_pos rfl (Eats.bind (w1 := [_]) (.want _ _ _) (Eats.bind (w1 := [_]) (.want _ _ _) (Eats.bind (ihe ?_ ?_)
        (Eats.bind (w1 := [_]) (.want _ _ _) ((Eats.annotations ha h ?_).map rfl))))))))
      · show Tk.gtr ≠ Tk.lparen; decide
      · simp; omega
      · simp; omega
  | @ref nm an wa ha =>
    cases n with
    | zero => omega
    | succ n =>
      simp at hn
      refine .tok (.ite_neg (show Tk.ident ≠ Tk.map by decide) (.ite_neg (show Tk.ident ≠ Tk.set by decide) (.ite_neg (show Tk.ident ≠ Tk.list by decide) (.ite_pos rfl (Eats.bind (w1 := [_]) (.litOf _ _ _)
        ((Eats.annotations ha h ?_).map rfl))))))
      simp; omega

/-- What a type begins with. -/
theorem hd_type {a : TypeNode} {w : List Lx} (hG : TypeG a w) : w ≠ [] ∧ hd w ∈ [Tk.map, Tk.set, Tk.list, Tk.ident] := by
  cases hG <;> exact ⟨by simp, by simp [hd]⟩

theorem hd_bracketed {α : Type} {R : α → List Lx → Prop} {open_ close : Token} {l : List α} {w : List Lx} (hG : Bracketed open_ close R l w) : w ≠ [] ∧ hd w = open_ := by
  cases hG
  exact ⟨by simp, rfl⟩

theorem hd_value {a : Value} {w : List Lx} (hG : ValueG a w) : w ≠ [] ∧ hd w ∈ [Tk.ident, Tk.int, Tk.float, Tk.string, Tk.lbrack, Tk.lbrace] := by
  cases hG with
  | list h => obtain ⟨h1, h2⟩ := hd_bracketed h; exact ⟨h1, by rw [h2]; decide⟩
  | pairs h => obtain ⟨h1, h2⟩ := hd_bracketed h; exact ⟨h1, by rw [h2]; decide⟩
  | _ => exact ⟨by simp, by simp [hd]⟩

theorem Eats.value {n : Nat} {a : Value} {w rest : List Lx} (hG : ValueG a w) (hn : (w ++ rest).length < n) : Eats (value n) w a rest := by
  induction n generalizing a w rest with
  | zero => omega
  | succ n ih =>
    cases hG with
    | ident => exact .tok (.ite_pos rfl ((Eats.litOf _ _ _).map rfl))
    | int => exact .tok (.ite_neg (show Tk.int ≠ Tk.ident by decide) (.ite_pos rfl ((Eats.litOf _ _ _).map rfl)))
    | float => exact .tok (.ite_neg (show Tk.float ≠ Tk.ident by decide) (.ite_neg (show Tk.float ≠ Tk.int by decide) (.ite_pos rfl ((Eats.litOf _ _ _).map rfl))))
    | string => exact .tok (.ite_neg (show Tk.string ≠ Tk.ident by decide) (.ite_neg (show Tk.string ≠ Tk.int by decide) (.ite_neg (show Tk.string ≠ Tk.float by decide) (.ite_pos rfl ((Eats.litOf _ _ _).map rfl)))))
    | list h =>
      obtain ⟨h1, h2⟩ := hd_bracketed h
      have h3 : hd (w ++ rest) = Tk.lbrack := by rw [hd_append h1, h2]
      refine .tok ?_
      rw [h3]
      refine .ite_neg (by decide) (.ite_neg (by decide) (.ite_neg (by decide) (.ite_neg (by decide) (.ite_pos rfl (Eats.map (Eats.list _ (fun a w h => hd_value h) (by decide) (by decide) (by decide) h (fun a w' rest' h4 _ h5 => ih h4 ?_) ?_) rfl)))))
      · omega
      · omega
    | pairs h =>
      obtain ⟨h1, h2⟩ := hd_bracketed h
      have h3 : hd (w ++ rest) = Tk.lbrace := by rw [hd_append h1, h2]
      refine .tok ?_
      rw [h3]
      refine .ite_neg (by decide) (.ite_neg (by decide) (.ite_neg (by decide) (.ite_neg (by decide) (.ite_neg (by decide) (.ite_pos rfl (Eats.map (Eats.list [Tk.ident, Tk.int, Tk.float, Tk.string, Tk.lbrack, Tk.lbrace]
        (fun a w h => ?_) (by decide) (by decide) (by decide) h (fun a w' rest' h4 _ h5 => ?_) ?_) rfl))))))
      · cases h with
        | mk h6 h7 =>
          obtain ⟨h8, h9⟩ := hd_value h6
          exact ⟨by simp, by rw [hd_append h8]; exact h9⟩
      · cases h4 with
        | mk h6 h7 =>
          simp at h5
          simp at hn
          exact Eats.bind (ih h6 (by simp; omega)) (Eats.bind (w1 := [_]) (.want _ _ _) ((ih h7 (by simp; omega)).map rfl))
      · omega

/-- What may follow an item of a list. -/
theorem Eats.enumValue {n : Nat} {a : EnumValue} {w rest : List Lx} (hG : EnumValueG a w) (h : hd rest ≠ Tk.assign ∧ hd rest ≠ Tk.eql ∧ hd rest ≠ Tk.lparen) (hn : (w ++ rest).length < n) :
    Eats (enumValue n) w a rest := by
  cases hG with
  | @mk nm v an wv wa h1 h2 =>
    simp at hn
    refine Eats.bind (w1 := [_]) (.litOf _ _ _) (Eats.bind (Eats.assigned h1 (fun _ _ h _ => by cases h; exact .litOf _ _ _) ?_ ?_) ((Eats.annotations h2 h.2.2 ?_).map rfl))
    · cases h2 with
      | none => exact h.1
      | some h2 => rw [hd_append (hd_bracketed h2).1, (hd_bracketed h2).2]; decide
    · cases h2 with
      | none => exact h.2.1
      | some h2 => rw [hd_append (hd_bracketed h2).1, (hd_bracketed h2).2]; decide
    · simp; omega

theorem Eats.fieldName {a : Bytes} {w rest : List Lx} (hG : FieldNameG a w) : Eats fieldName w a rest := by
  cases hG with
  | ident => exact .tok (.ite_pos (.inl rfl) (.lit ((Eats.next _ _).map rfl)))
  | word h => exact .tok (.ite_pos (.inr ((isKeyword_iff _).2 ⟨_, h, rfl⟩)) (.lit ((Eats.next _ _).map rfl)))

theorem Eats.requiredness {r o : Bool} {w rest : List Lx} (hG : RequirednessG r o w) (h1 : hd rest ≠ Tk.required) (h2 : hd rest ≠ Tk.optional) : Eats requiredness w (r, o) rest := by
  cases hG with
  | none => exact Eats.bind (w1 := []) (w2 := []) (.got_no h1) (.ite_neg (by decide) (Eats.bind (w1 := []) (w2 := []) (.got_no h2) (.ite_neg (by decide) (Eats.pure _ _))))
  | required => exact Eats.bind (w1 := [_]) (w2 := []) (.got_yes _ _ _) (.ite_pos rfl (Eats.pure _ _))
  | optional => exact Eats.bind (w1 := []) (w2 := [_]) (.got_no (show Tk.optional ≠ Tk.required by decide)) (.ite_neg (by decide) (Eats.bind (w1 := [_]) (w2 := []) (.got_yes _ _ _) (.ite_pos rfl (Eats.pure _ _))))

theorem Eats.fieldId {a : Option Bytes} {w rest : List Lx} (hG : FieldIdG a w) (h : hd rest ≠ Tk.int) : Eats fieldId w a rest := by
  cases hG with
  | none => exact .tok (.ite_neg h (Eats.pure _ _))
  | some => exact .tok (.ite_pos rfl (Eats.bind (w1 := [_]) (.litOf _ _ _) ((Eats.want _ _ _).map rfl)))

theorem reserved_ne {s : String} {x : Token} (h : (s, x) ∈ reserved) : x ≠ Tk.and ∧ x ≠ Tk.lparen := by
  have : ∀ p ∈ reserved, p.2 ≠ Tk.and ∧ p.2 ≠ Tk.lparen := by decide
  exact this _ h

theorem Eats.field {n : Nat} {a : Field} {w rest : List Lx} (hG : FieldG a w) (h : hd rest ≠ Tk.assign ∧ hd rest ≠ Tk.eql ∧ hd rest ≠ Tk.lparen) (hn : (w ++ rest).length < n) :
    Eats (field n) w a rest := by
  cases hG with
  | @mk id req opt ref t nm d an wi wr wt wf wn wd wa h1 h2 h3 h4 h5 h6 h7 =>
    simp at hn
    have ht := hd_type h3
    have htn : ∀ x ∈ [Tk.map, Tk.set, Tk.list, Tk.ident], x ≠ Tk.int ∧ x ≠ Tk.required ∧ x ≠ Tk.optional := by decide
    have e1 : ∀ l, hd (wt ++ l) = hd wt := fun l => hd_append ht.1
    have hnm : ∀ l, hd (wn ++ l) ≠ Tk.and ∧ hd (wn ++ l) ≠ Tk.lparen := by
      intro l
      cases h5 with
      | ident => exact ⟨by show Tk.ident ≠ _; decide, by show Tk.ident ≠ _; decide⟩
      | word h => exact reserved_ne h
    have ha : hd (wa ++ rest) ≠ Tk.assign ∧ hd (wa ++ rest) ≠ Tk.eql := by
      cases h7 with
      | none => exact ⟨h.1, h.2.1⟩
      | some h7 => rw [hd_append (hd_bracketed h7).1, (hd_bracketed h7).2]; decide
    refine Eats.bind (Eats.fieldId h1 ?_) (Eats.bind (Eats.requiredness h2 ?_ ?_) (Eats.bind (Eats.type_ h3 ?_ ?_) (Eats.bind (Eats.got h4 ?_) (Eats.bind (Eats.fieldName h5)
      (Eats.bind (Eats.assigned h6 (fun _ _ h hl => Eats.value h ?_) ?_ ?_) ((Eats.annotations h7 h.2.2 ?_).map rfl))))))
    · cases h2 with
      | none => simp only [List.nil_append, List.append_assoc]; rw [e1]; exact (htn _ ht.2).1
      | required => show Tk.required ≠ _; decide
      | optional => show Tk.optional ≠ _; decide
    · simp only [List.append_assoc]; rw [e1]; exact (htn _ ht.2).2.1
    · simp only [List.append_assoc]; rw [e1]; exact (htn _ ht.2).2.2
    · cases h4 with
      | no => simp only [List.nil_append, List.append_assoc]; exact (hnm _).2
      | yes => show Tk.and ≠ _; decide
    · simp; omega
    · simp only [List.append_assoc]; exact (hnm _).1
    · simp; omega
    · exact ha.1
    · exact ha.2
    · simp; omega

/-- What a field begins with. -/
def fieldFirst : List Token := [Tk.int, Tk.required, Tk.optional, Tk.map, Tk.set, Tk.list, Tk.ident]

theorem hd_field {a : Field} {w : List Lx} (hG : FieldG a w) : w ≠ [] ∧ hd w ∈ fieldFirst := by
  cases hG with
  | @mk id req opt ref t nm d an wi wr wt wf wn wd wa h1 h2 h3 h4 h5 h6 h7 =>
    have ht := hd_type h3
    have htn : ∀ x ∈ [Tk.map, Tk.set, Tk.list, Tk.ident], x ∈ fieldFirst := by decide
    cases h1 with
    | some => exact ⟨by simp, by simp [hd, fieldFirst]⟩
    | none =>
      cases h2 with
      | required => exact ⟨by simp, by simp [hd, fieldFirst]⟩
      | optional => exact ⟨by simp, by simp [hd, fieldFirst]⟩
      | none =>
        simp only [List.nil_append]
        exact ⟨by simp [ht.1], by rw [hd_append ht.1]; exact htn _ ht.2⟩

theorem Eats.fields {n : Nat} {open_ close : Token} (hc : close = Tk.rparen ∨ close = Tk.rbrace) {l : List Field} {w rest : List Lx} (hG : Bracketed open_ close FieldG l w) (hn : (w ++ rest).length ≤ n) :
    Eats (fields n open_ close) w l rest := by
  have h1 : ∀ close, close = Tk.rparen ∨ close = Tk.rbrace → ∀ x ∈ fieldFirst, x ≠ Tk.eof ∧ x ≠ close ∧ x ≠ Tk.comma ∧ x ≠ Tk.semicolon := by rintro _ (rfl | rfl) <;> decide
  have h2 : ∀ close, close = Tk.rparen ∨ close = Tk.rbrace → ∀ x ∈ Tk.comma :: Tk.semicolon :: close :: fieldFirst, x ≠ Tk.assign ∧ x ≠ Tk.eql ∧ x ≠ Tk.lparen := by rintro _ (rfl | rfl) <;> decide
  refine Eats.list fieldFirst (fun a w h => hd_field h) (h1 _ hc) (by rcases hc with rfl | rfl <;> decide) (by rcases hc with rfl | rfl <;> decide) hG (fun a w' rest' h3 h4 h5 => Eats.field h3 (h2 _ hc _ h4) (by omega)) hn

theorem Eats.after {α : Type} {x : Token} {f : PProg α} {v : Option α} {w rest : List Lx} (h : (v = none ∧ w = [] ∧ hd rest ≠ x) ∨ ∃ a y w', v = some a ∧ w = (x, y) :: w' ∧ Eats f w' a rest) :
    Eats (after x f) w v rest := by
  rcases h with ⟨rfl, rfl, h⟩ | ⟨a, y, w', rfl, rfl, h⟩
  · exact Eats.bind (w1 := []) (w2 := []) (.got_no h) (.ite_neg (by decide) (Eats.pure _ _))
  · exact Eats.bind (w1 := [_]) (.got_yes _ _ _) (.ite_pos rfl (h.map rfl))

theorem Eats.method {n : Nat} {a : Method} {w rest : List Lx} (hG : MethodG a w) (h : hd rest ≠ Tk.throws ∧ hd rest ≠ Tk.lparen) (hn : (w ++ rest).length < n) :
    Eats (method n) w a rest := by
  cases hG with
  | @mk one void ret nm args th an wo wr wf wt wa h1 h2 h3 h4 h5 =>
    simp at hn
    refine Eats.bind (Eats.got h1 ?_) (Eats.bind (a := (void, ret)) ?_ (Eats.bind (w1 := [_]) (.litOf _ _ _) (Eats.bind (Eats.fields (.inl rfl) h3 ?_) (Eats.bind (a := th) (Eats.after ?_) ((Eats.annotations h5 h.2 ?_).map rfl)))))
    · cases h2 with
      | void => show Tk.void ≠ _; decide
      | type h2 =>
        have ht := hd_type h2
        have htn : ∀ x ∈ [Tk.map, Tk.set, Tk.list, Tk.ident], x ≠ Tk.oneway := by decide
        rw [List.append_assoc, hd_append ht.1]
        exact htn _ ht.2
    · cases h2 with
      | void => exact Eats.bind (w1 := [_]) (w2 := []) (.got_yes _ _ _) (.ite_pos rfl (Eats.pure _ _))
      | type h2 =>
        have ht := hd_type h2
        have htn : ∀ x ∈ [Tk.map, Tk.set, Tk.list, Tk.ident], x ≠ Tk.void := by decide
        refine Eats.bind (w1 := []) (.got_no ?_) (.ite_neg (by decide) ((Eats.type_ h2 ?_ ?_).map rfl))
        · rw [hd_append ht.1]; exact htn _ ht.2
        · show Tk.ident ≠ _; decide
        · simp; omega
    · simp; omega
    · cases h4 with
      | none =>
        refine .inl ⟨rfl, rfl, ?_⟩
        cases h5 with
        | none => exact h.1
        | some h5 => rw [hd_append (hd_bracketed h5).1, (hd_bracketed h5).2]; decide
      | some h4 =>
        refine .inr ⟨_, _, _, rfl, rfl, Eats.fields (.inl rfl) h4 ?_⟩
        simp at hn ⊢; omega
    · simp; omega

/-- What a method begins with. -/
def methodFirst : List Token := [Tk.oneway, Tk.void, Tk.map, Tk.set, Tk.list, Tk.ident]

theorem hd_method {a : Method} {w : List Lx} (hG : MethodG a w) : w ≠ [] ∧ hd w ∈ methodFirst := by
  cases hG with
  | @mk one void ret nm args th an wo wr wf wt wa h1 h2 h3 h4 h5 =>
    cases h1 with
    | yes => exact ⟨by simp, by simp [hd, methodFirst]⟩
    | no =>
      cases h2 with
      | void => exact ⟨by simp, by simp [hd, methodFirst]⟩
      | type h2 =>
        have ht := hd_type h2
        have htn : ∀ x ∈ [Tk.map, Tk.set, Tk.list, Tk.ident], x ∈ methodFirst := by decide
        exact ⟨by simp, by rw [List.nil_append, hd_append ht.1]; exact htn _ ht.2⟩

theorem hd_def {a : Def} {w : List Lx} (hG : DefG a w) : w ≠ [] ∧ hd w ∈ defWords := by
  cases hG with
  | struct h => exact ⟨by simp, by cases h <;> simp [hd, defWords]⟩
  | _ => exact ⟨by simp, by simp [hd, defWords]⟩

theorem Eats.definition {n : Nat} {a : Def} {w rest : List Lx} (hG : DefG a w) (h : hd rest ≠ Tk.lparen ∧ hd rest ≠ Tk.comma ∧ hd rest ≠ Tk.semicolon) (hn : (w ++ rest).length < n) :
    Eats (definition n) w a rest := by
  cases hG with
  | @const t nm a b v wt wv s h1 h2 h3 =>
    simp at hn
    refine .tok (.ite_pos rfl (Eats.bind (w1 := [_]) (.want _ _ _) (Eats.bind (Eats.type_ h1 ?_ ?_) (Eats.bind (w1 := [_]) (.litOf _ _ _) (Eats.bind (w1 := [_]) (.want _ _ _) (Eats.bind (Eats.value h2 ?_)
      ((Eats.separator h3 ?_ h.2.1 h.2.2).map rfl)))))))
    · show Tk.ident ≠ _; decide
    all_goals simp; omega
  | @typedef t nm a an wt wa s h1 h2 h3 =>
    simp at hn
    refine .tok (.ite_neg (show Tk.typedef ≠ Tk.const by decide) (.ite_pos rfl (Eats.bind (w1 := [_]) (.want _ _ _) (Eats.bind (Eats.type_ h1 ?_ ?_) (Eats.bind (w1 := [_]) (.litOf _ _ _) (Eats.bind (Eats.annotations h2 ?_ ?_)
      ((Eats.separator h3 ?_ h.2.1 h.2.2).map rfl)))))))
    · show Tk.ident ≠ _; decide
    · simp; omega
    · cases s with
      | nil => exact h.1
      | cons y s =>
        rcases h3 y (by simp) with e | e
        · show y.1 ≠ _; rw [e]; decide
        · show y.1 ≠ _; rw [e]; decide
    all_goals simp; omega
  | @enum nm a l an wl wa h1 h2 =>
    simp at hn
    have hf : ∀ x ∈ [Tk.comma, Tk.semicolon, Tk.rbrace, Tk.ident], x ≠ Tk.assign ∧ x ≠ Tk.eql ∧ x ≠ Tk.lparen := by decide
    refine .tok (.ite_neg (show Tk.enum ≠ Tk.const by decide) (.ite_neg (show Tk.enum ≠ Tk.typedef by decide) (.ite_pos rfl (Eats.bind (w1 := [_]) (.want _ _ _) (Eats.bind (w1 := [_]) (.litOf _ _ _)
      (Eats.bind (Eats.list [Tk.ident] (fun a w h => ?_) (by decide) (by decide) (by decide) h1 (fun a w' rest' h3 h4 h5 => Eats.enumValue h3 (hf _ h4) ?_) ?_) ((Eats.annotations h2 h.1 ?_).map rfl)))))))
    · cases h; exact ⟨by simp, by simp [hd]⟩
    · simp at h5 ⊢; omega
    all_goals simp; omega
  | @struct un ex k nm a l an wl wa hk h1 h2 =>
    simp at hn
    have hk1 : k ≠ Tk.const ∧ k ≠ Tk.typedef ∧ k ≠ Tk.enum ∧ (k = Tk.struct ∨ k = Tk.union ∨ k = Tk.exception) := by cases hk <;> decide
    refine .tok (.ite_neg hk1.1 (.ite_neg hk1.2.1 (.ite_neg hk1.2.2.1 (.ite_pos hk1.2.2.2 (Eats.bind (w1 := [_]) (.want _ _ _) (Eats.bind (w1 := [_]) (.litOf _ _ _)
      (Eats.bind (Eats.fields (.inr rfl) h1 ?_) ((Eats.annotations h2 h.1 ?_).map ?_))))))))
    · simp; omega
    · simp; omega
    · cases hk <;> rfl
  | @service nm a e l an we wl wa h0 h1 h2 =>
    simp at hn
    have hf : ∀ x ∈ Tk.comma :: Tk.semicolon :: Tk.rbrace :: methodFirst, x ≠ Tk.throws ∧ x ≠ Tk.lparen := by decide
    refine .tok (.ite_neg (show Tk.service ≠ Tk.const by decide) (.ite_neg (show Tk.service ≠ Tk.typedef by decide) (.ite_neg (show Tk.service ≠ Tk.enum by decide)
      (.ite_neg (show ¬ (Tk.service = Tk.struct ∨ Tk.service = Tk.union ∨ Tk.service = Tk.exception) by decide) (.ite_pos rfl (Eats.bind (w1 := [_]) (.want _ _ _) (Eats.bind (w1 := [_]) (.litOf _ _ _)
      (Eats.bind (a := e) (Eats.after ?_) (Eats.bind (Eats.list methodFirst (fun a w h => hd_method h) (by decide) (by decide) (by decide) h1 (fun a w' rest' h3 h4 h5 => Eats.method h3 (hf _ h4) ?_) ?_) ((Eats.annotations h2 h.1 ?_).map rfl))))))))))
    · cases h0 with
      | none =>
        refine .inl ⟨rfl, rfl, ?_⟩
        rw [List.append_assoc, hd_append (hd_bracketed h1).1, (hd_bracketed h1).2]; decide
      | some => exact .inr ⟨_, _, _, rfl, rfl, .litOf _ _ _⟩
    · simp at h5 ⊢; omega
    · simp; omega
    · simp; omega

theorem Eats.def_ {n : Nat} {a : Def} {w rest : List Lx} (hG : DefG a w) (h : hd rest ≠ Tk.lparen ∧ hd rest ≠ Tk.comma ∧ hd rest ≠ Tk.semicolon) (hn : (w ++ rest).length < n) :
    Eats (def_ n) w a rest := by
  intro t ht
  obtain ⟨t', h1, h2⟩ := Eats.definition hG h hn t ht
  refine ⟨t', ?_, h2⟩
  rw [run_def, h1, Out.bind_done]

theorem hd_defs {l : List Def} {w : List Lx} (hG : Many DefG l w) : hd w ∈ Tk.eof :: defWords := by
  cases hG with
  | nil => exact List.mem_cons_self
  | cons h _ =>
    obtain ⟨h1, h2⟩ := hd_def h
    rw [hd_append h1]
    exact List.mem_cons_of_mem _ h2

theorem Eats.defs {n : Nat} {l : List Def} {w : List Lx} (hG : Many DefG l w) (hn : w.length < n) : Eats (defs n) w l [] := by
  induction hG generalizing n with
  | nil =>
    cases n with
    | zero => omega
    | succ n => exact .tok (.ite_neg (by show ¬ (Tk.eof ≠ Tk.eof); simp) (Eats.pure _ _))
  | @cons x w xs ws h1 h2 ih =>
    cases n with
    | zero => omega
    | succ n =>
      obtain ⟨h3, h4⟩ := hd_def h1
      have hf : ∀ x ∈ defWords, x ≠ Tk.eof := by decide
      have hg : ∀ x ∈ Tk.eof :: defWords, x ≠ Tk.lparen ∧ x ≠ Tk.comma ∧ x ≠ Tk.semicolon := by decide
      have hne : 0 < w.length := by
        cases w with
        | nil => exact absurd rfl h3
        | cons => simp
      simp at hn
      refine .tok (.ite_pos ?_ (Eats.bind (Eats.def_ h1 ?_ ?_) ((ih ?_).map rfl)))
      · rw [List.append_assoc, hd_append h3]; exact hf _ h4
      · rw [List.append_nil]; exact hg _ (hd_defs h2)
      · simp; omega
      · omega

theorem hd_header {a : Header} {w : List Lx} (hG : HeaderG a w) : w ≠ [] ∧ hd w ∈ [Tk.include_, Tk.namespace_] := by
  cases hG <;> exact ⟨by simp, by simp [hd]⟩

theorem hd_headers {l : List Header} {w : List Lx} (hG : Many HeaderG l w) (rest : List Lx) : hd (w ++ rest) ∈ [Tk.include_, Tk.namespace_] ∨ hd (w ++ rest) = hd rest := by
  cases hG with
  | nil => exact .inr rfl
  | cons h _ =>
    obtain ⟨h1, h2⟩ := hd_header h
    rw [List.append_assoc, hd_append h1]
    exact .inl h2

theorem Eats.header {n : Nat} {a : Header} {w rest : List Lx} (hG : HeaderG a w) (h : hd rest ≠ Tk.lparen) (hn : (w ++ rest).length ≤ n) : Eats (header n) w (some a) rest := by
  cases hG with
  | «include» => exact .tok (.ite_pos rfl (Eats.bind (w1 := [_]) (.want _ _ _) ((Eats.litOf _ _ _).map rfl)))
  | @«namespace» a nm sc an ws wa h1 h2 =>
    simp at hn
    refine .tok (.ite_neg (show Tk.namespace_ ≠ Tk.include_ by decide) (.ite_pos rfl (Eats.bind (w1 := [_]) (.want _ _ _) (Eats.bind (a := sc) ?_ (Eats.bind (w1 := [_]) (.litOf _ _ _) ((Eats.annotations h2 h ?_).map rfl))))))
    · cases h1 with
      | all => exact Eats.bind (w1 := [_]) (w2 := []) (.got_yes _ _ _) (.ite_pos rfl (Eats.pure _ _))
      | name => exact Eats.bind (w1 := []) (w2 := [_]) (.got_no (show Tk.ident ≠ Tk.mul by decide)) (.ite_neg (by decide) ((Eats.litOf _ _ _).map rfl))
    · simp; omega

theorem Eats.headers {n : Nat} {l : List Header} {w rest : List Lx} (hG : Many HeaderG l w) (hn : (w ++ rest).length < n) (hr : hd rest ∈ Tk.eof :: defWords) : Eats (headers n) w l rest := by
  have hf : ∀ x ∈ Tk.eof :: defWords, x ≠ Tk.include_ ∧ x ≠ Tk.namespace_ ∧ x ≠ Tk.lparen := by decide
  induction hG generalizing n with
  | nil =>
    cases n with
    | zero => omega
    | succ n => exact Eats.bind (w1 := []) (w2 := []) (a := none) (.tok (.ite_neg (hf _ hr).1 (.ite_neg (hf _ hr).2.1 (Eats.pure _ _)))) (Eats.pure _ _)
  | @cons x w xs ws h1 h2 ih =>
    cases n with
    | zero => omega
    | succ n =>
      obtain ⟨h3, h4⟩ := hd_header h1
      have hne : 0 < w.length := by
        cases w with
        | nil => exact absurd rfl h3
        | cons => simp
      simp at hn
      have hg : ∀ x ∈ [Tk.include_, Tk.namespace_], x ≠ Tk.lparen := by decide
      refine Eats.bind (a := some x) (Eats.header h1 ?_ ?_) ((ih ?_).map rfl)
      · rcases hd_headers h2 rest with h | h
        · exact hg _ h
        · rw [h]; exact (hf _ hr).2.2
      · simp; omega
      · simp; omega

theorem Eats.file {n : Nat} {f : File} {w : List Lx} (hG : FileG f w) (hn : w.length < n) : Eats (file_ n) w f [] := by
  cases hG with
  | @mk hs ds wh wd h1 h2 =>
    simp at hn
    exact Eats.bind (Eats.headers h1 (by simp; omega) (by rw [List.append_nil]; exact hd_defs h2)) ((Eats.defs h2 (by omega)).map rfl)

end GoThrift.Idl
