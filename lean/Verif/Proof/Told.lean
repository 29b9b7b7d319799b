import Verif.Proof.Strip

/-!
# A tree tells its tokens but for the separators
-/

namespace GoThrift.Spec

open Idl

/-- Tokens with only one text. -/
def fixedTokens : List Token := operators.map (·.2) ++ reserved.map (·.2)

section
variable {u : Unicode}

theorem runes_text {n m : Bytes} (hn : ∀ c ∈ chars n, c.Ok) (hm : ∀ c ∈ chars m, c.Ok) (h : runesOf (chars n) = runesOf (chars m)) : n = m := by
  have key : ∀ {k : Bytes}, (∀ c ∈ chars k, c.Ok) → k = (runesOf (chars k)).flatMap utf8 := by
    intro k hk
    have : ∀ l : List Chr, (∀ c ∈ l, c ∈ chars k) → bytesOf l = (runesOf l).flatMap utf8 := by
      intro l hl
      induction l with
      | nil => rfl
      | cons c l ih =>
        have hc := hl c (by simp)
        have e := ih fun d hd => hl d (List.mem_cons_of_mem _ hd)
        rw [bytesOf, List.flatMap_cons, (ok_utf8 hc (hk c hc)).2]
        rw [bytesOf] at e
        rw [e]
        rfl
    rw [← this _ fun c hc => hc, bytesOf_chars]
  rw [key hn, key hm, h]

theorem fixed_text {t : Token} {n m : Bytes} (ht : t ∈ fixedTokens) (hn : TextOf u t n) (hm : TextOf u t m) : n = m := by
  have key : ∀ {k : Bytes}, TextOf u t k → (∃ s, (s, t) ∈ reserved ∧ k = wordBytes s) ∨ (runesOf (chars k), t) ∈ operators := by
    rintro k ⟨_, hl⟩
    have hb := bytesOf_chars k
    generalize chars k = w at hl hb
    have h1 : ∀ t ∈ fixedTokens, t ∉ [Tk.ident, Tk.int, Tk.float, Tk.string, Tk.comment] := by decide +kernel
    have h1 := h1 t ht
    cases hl with
    | word _ _ h =>
      rcases h with ⟨s, hs, e⟩ | ⟨rfl, _⟩
      · exact .inl ⟨s, hs, by rw [← hb, e]⟩
      · exact absurd h1 (by decide)
    | operator h => exact .inr h
    | _ => exact absurd h1 (by decide)
  have h2 : ∀ p ∈ reserved, ∀ q ∈ operators, p.2 ≠ q.2 := by decide +kernel
  rcases key hn with ⟨s, hs, rfl⟩ | h3
  · rcases key hm with ⟨s', hs', rfl⟩ | h4
    · have h5 : ∀ p ∈ reserved, ∀ q ∈ reserved, p.2 = q.2 → wordBytes p.1 = wordBytes q.1 := by decide +kernel
      exact h5 _ hs _ hs' rfl
    · exact absurd rfl (h2 _ hs _ h4)
  · rcases key hm with ⟨s', hs', rfl⟩ | h4
    · exact absurd rfl (h2 _ hs' _ h3)
    · have h5 : ∀ p ∈ operators, ∀ q ∈ operators, p.2 = q.2 → p.1 = q.1 := by decide +kernel
      exact runes_text hn.1 hm.1 (h5 _ h3 _ h4 rfl)

/-- Equal words after the first token. -/
theorem told_cons {t : Token} {n m : Bytes} {w v : List Lx} (ht : t ∈ fixedTokens) (hw : Spoken u ((t, n) :: w)) (hv : Spoken u ((t, m) :: v)) (h : strip w = strip v) :
    strip ((t, n) :: w) = strip ((t, m) :: v) := by
  cases fixed_text ht hw.head hv.head
  show strip ([_] ++ w) = strip ([_] ++ v)
  rw [strip_append, strip_append, h]

theorem told_same {x : Lx} {w v : List Lx} (h : strip w = strip v) : strip (x :: w) = strip (x :: v) := by
  show strip ([_] ++ w) = strip ([_] ++ v)
  rw [strip_append, strip_append, h]

theorem told_append {w v w' v' : List Lx} (h : strip w = strip v) (h' : strip w' = strip v') : strip (w ++ w') = strip (v ++ v') := by
  rw [strip_append, strip_append, h, h']

/-- The tree tells the tokens but for the separators. -/
def Told {α : Type} (u : Unicode) (n : Nat) (R : α → List Lx → Prop) : Prop := ∀ x w v, w.length ≤ n → R x w → R x v → Spoken u w → Spoken u v → strip w = strip v

theorem Items.told {α : Type} {n : Nat} {R : α → List Lx → Prop} (hR : Told u n R) {xs : List α} {w : List Lx} (h : Items R xs w) : ∀ {v : List Lx}, w.length ≤ n → Items R xs v → Spoken u w → Spoken u v →
    strip w = strip v := by
  induction h with
  | nil => intro v _ h' _ _; cases h'; rfl
  | cons hr hs _ ih =>
    intro v hn h' hw hv
    cases h' with
    | cons hr' hs' hi' =>
      simp only [List.length_append] at hn
      exact told_append (hR _ _ _ (by omega) hr hr' hw.left hv.left) (told_append (by rw [hs.strip, hs'.strip]) (ih (by omega) hi' hw.right.right hv.right.right))

theorem Many.told {α : Type} {R : α → List Lx → Prop} (hR : ∀ n, Told u n R) {xs : List α} {w : List Lx} (h : Many R xs w) : ∀ {v : List Lx}, Many R xs v → Spoken u w → Spoken u v → strip w = strip v := by
  induction h with
  | nil => intro v h' _ _; cases h'; rfl
  | cons hr _ ih =>
    intro v h' hw hv
    cases h' with
    | cons hr' hi' => exact told_append (hR _ _ _ _ (Nat.le_refl _) hr hr' hw.left hv.left) (ih hi' hw.right hv.right)

theorem Bracketed.told {α : Type} {n : Nat} {R : α → List Lx → Prop} {o c : Token} (hR : Told u n R) (ho : o ∈ fixedTokens) (hc : c ∈ fixedTokens) : Told u (n + 2) (Bracketed o c R) := by
  rintro xs _ _ hn ⟨h⟩ ⟨h'⟩ hw hv
  simp only [List.length_cons, List.length_append, List.length_nil] at hn
  exact told_cons ho hw hv (told_append (h.told hR (by omega) h' hw.tail.left hv.tail.left) (told_cons hc hw.tail.right hv.tail.right rfl))

theorem Told.mono {α : Type} {m n : Nat} {R : α → List Lx → Prop} (h : Told u n R) (hm : m ≤ n) : Told u m R := fun x w v hn => h x w v (by omega)

theorem annotation_told (n : Nat) : Told u n AnnotationG := by
  rintro x _ _ _ ⟨⟩ h hw hv
  · cases h; rfl
  · cases h
    exact told_same (told_cons (by decide +kernel) hw.tail hv.tail rfl)

theorem annotations_told (n : Nat) : Told u n AnnotationsG := by
  rintro x _ _ hn h h' hw hv
  cases h with
  | none => cases h'; rfl
  | some h => cases h' with
    | some h' => exact (Bracketed.told (annotation_told n) (by decide +kernel) (by decide +kernel)) _ _ _ (by omega) h h' hw hv

theorem type_told (n : Nat) : Told u n TypeG := by
  intro x w v _ h
  induction h generalizing v with
  | ref ha =>
    intro h' hw hv
    cases h' with
    | ref ha' => exact told_same (annotations_told _ _ _ _ (Nat.le_refl _) ha ha' hw.tail hv.tail)
  | set _ ha ih =>
    intro h' hw hv
    cases h' with
    | set h' ha' =>
      refine told_cons (by decide +kernel) hw hv (told_cons (by decide +kernel) hw.tail hv.tail (told_append (ih _ ?_ h' hw.tail.tail.left hv.tail.tail.left) ?_))
      · simp_all; omega
      · exact told_cons (by decide +kernel) hw.tail.tail.right hv.tail.tail.right (annotations_told _ _ _ _ (Nat.le_refl _) ha ha' hw.tail.tail.right.tail hv.tail.tail.right.tail)
  | list _ ha ih =>
    intro h' hw hv
    cases h' with
    | list h' ha' =>
      refine told_cons (by decide +kernel) hw hv (told_cons (by decide +kernel) hw.tail hv.tail (told_append (ih _ ?_ h' hw.tail.tail.left hv.tail.tail.left) ?_))
      · simp_all; omega
      · exact told_cons (by decide +kernel) hw.tail.tail.right hv.tail.tail.right (annotations_told _ _ _ _ (Nat.le_refl _) ha ha' hw.tail.tail.right.tail hv.tail.tail.right.tail)
  | map _ _ ha ihk ihv =>
    intro h' hw hv
    cases h' with
    | map hk' hv' ha' =>
      refine told_cons (by decide +kernel) hw hv (told_cons (by decide +kernel) hw.tail hv.tail (told_append (ihk _ ?_ hk' hw.tail.tail.left hv.tail.tail.left) ?_))
      · simp_all; omega
      · have hw := hw.tail.tail.right; have hv := hv.tail.tail.right
        refine told_cons (by decide +kernel) hw hv (told_append (ihv _ ?_ hv' hw.tail.left hv.tail.left) ?_)
        · simp_all; omega
        · exact told_cons (by decide +kernel) hw.tail.right hv.tail.right (annotations_told _ _ _ _ (Nat.le_refl _) ha ha' hw.tail.right.tail hv.tail.right.tail)

theorem pair_told {n : Nat} (h : Told u n ValueG) : Told u n (PairG ValueG) := by
  rintro x _ _ hn ⟨hk, hv⟩ ⟨hk', hv'⟩ hw hw'
  simp only [List.length_append, List.length_cons] at hn
  exact told_append (h _ _ _ (by omega) hk hk' hw.left hw'.left) (told_cons (by decide +kernel) hw.right hw'.right (h _ _ _ (by omega) hv hv' hw.right.tail hw'.right.tail))

theorem value_told (n : Nat) : Told u n ValueG := by
  induction n with
  | zero =>
    intro x w v hn h
    cases h with
    | list h => cases h; simp at hn
    | pairs h => cases h; simp at hn
    | _ => simp at hn
  | succ n ih =>
    intro x w v hn h h' hw hv
    cases h with
    | list h =>
      cases h' with
      | list h' => exact (Bracketed.told ih (by decide +kernel) (by decide +kernel)) _ _ _ (by omega) h h' hw hv
    | pairs h =>
      cases h' with
      | pairs h' => exact (Bracketed.told (pair_told ih) (by decide +kernel) (by decide +kernel)) _ _ _ (by omega) h h' hw hv
    | _ => cases h'; rfl

theorem assigned_told {α : Type} {R : α → List Lx → Prop} (h : ∀ n, Told u n R) (n : Nat) : Told u n (AssignedG R) := by
  rintro x _ _ hn hx hy hw hv
  cases hx with
  | none => cases hy; rfl
  | some hx =>
    cases hy with
    | some hy => exact told_cons (by decide +kernel) hw hv (h _ _ _ _ (Nat.le_refl _) hx hy hw.tail hv.tail)

theorem lit_told {t : Token} (n : Nat) : Told u n (LitG t) := by
  rintro x _ _ hn ⟨⟩ ⟨⟩ _ _
  rfl

theorem flag_told {t : Token} (ht : t ∈ fixedTokens) (n : Nat) : Told u n (FlagG t) := by
  rintro x _ _ hn ⟨⟩ h hw hv
  · cases h; rfl
  · cases h
    exact told_cons ht hw hv rfl

theorem enumValue_told (n : Nat) : Told u n EnumValueG := by
  rintro x _ _ hn ⟨hv, ha⟩ ⟨hv', ha'⟩ hw hw'
  exact told_same (told_append (assigned_told lit_told _ _ _ _ (Nat.le_refl _) hv hv' hw.tail.left hw'.tail.left) (annotations_told _ _ _ _ (Nat.le_refl _) ha ha' hw.tail.right hw'.tail.right))

theorem field_told (n : Nat) : Told u n FieldG := by
  rintro x _ _ hn ⟨hi, hr, ht, hf, hm, hd, ha⟩ ⟨hi', hr', ht', hf', hm', hd', ha'⟩ hw hv
  refine told_append ?_ (told_append ?_ (told_append (type_told _ _ _ _ (Nat.le_refl _) ht ht' hw.right.right.left hv.right.right.left) ?_))
  · have hw := hw.left; have hv := hv.left
    cases hi with
    | none => cases hi'; rfl
    | some => cases hi'; exact told_same (told_cons (by decide +kernel) hw.tail hv.tail rfl)
  · have hw := hw.right.left; have hv := hv.right.left
    cases hr with
    | none => cases hr'; rfl
    | _ => cases hr'; exact told_cons (by decide +kernel) hw hv rfl
  · have hw := hw.right.right.right; have hv := hv.right.right.right
    refine told_append (flag_told (by decide +kernel) _ _ _ _ (Nat.le_refl _) hf hf' hw.left hv.left) (told_append ?_ (told_append
      (assigned_told value_told _ _ _ _ (Nat.le_refl _) hd hd' hw.right.right.left hv.right.right.left) (annotations_told _ _ _ _ (Nat.le_refl _) ha ha' hw.right.right.right hv.right.right.right)))
    have hw := hw.right.left; have hv := hv.right.left
    obtain ⟨t, _, _, rfl⟩ := fieldName_tok hm
    obtain ⟨t', _, _, rfl⟩ := fieldName_tok hm'
    cases hw.head.2.unique hv.head.2
    rfl

theorem fields_told (n : Nat) : Told u n (Bracketed Tk.lparen Tk.rparen FieldG) := (Bracketed.told (field_told n) (by decide +kernel) (by decide +kernel)).mono (by omega)

theorem method_told (n : Nat) : Told u n MethodG := by
  rintro x _ _ hn ⟨ho, hr, hf, ht, ha⟩ ⟨ho', hr', hf', ht', ha'⟩ hw hv
  refine told_append (flag_told (by decide +kernel) _ _ _ _ (Nat.le_refl _) ho ho' hw.left hv.left) (told_append ?_ (told_same (told_append
    (fields_told _ _ _ _ (Nat.le_refl _) hf hf' hw.right.right.tail.left hv.right.right.tail.left) (told_append ?_
      (annotations_told _ _ _ _ (Nat.le_refl _) ha ha' hw.right.right.tail.right.right hv.right.right.tail.right.right)))))
  · have hw := hw.right.left; have hv := hv.right.left
    cases hr with
    | void => cases hr'; exact told_cons (by decide +kernel) hw hv rfl
    | type h => cases hr' with
      | type h' => exact type_told _ _ _ _ (Nat.le_refl _) h h' hw hv
  · have hw := hw.right.right.tail.right.left; have hv := hv.right.right.tail.right.left
    cases ht with
    | none => cases ht'; rfl
    | some h => cases ht' with
      | some h' => exact told_cons (by decide +kernel) hw hv (fields_told _ _ _ _ (Nat.le_refl _) h h' hw.tail hv.tail)

theorem def_told (n : Nat) : Told u n DefG := by
  rintro x _ _ hn h h' hw hv
  cases h with
  | const ht hx hs =>
    cases h' with
    | const ht' hx' hs' =>
      exact told_cons (by decide +kernel) hw hv (told_append (type_told _ _ _ _ (Nat.le_refl _) ht ht' hw.tail.left hv.tail.left) (told_same (told_cons (by decide +kernel) hw.tail.right.tail hv.tail.right.tail
        (told_append (value_told _ _ _ _ (Nat.le_refl _) hx hx' hw.tail.right.tail.tail.left hv.tail.right.tail.tail.left) (by rw [hs.strip, hs'.strip])))))
  | typedef ht ha hs =>
    cases h' with
    | typedef ht' ha' hs' =>
      exact told_cons (by decide +kernel) hw hv (told_append (type_told _ _ _ _ (Nat.le_refl _) ht ht' hw.tail.left hv.tail.left) (told_same
        (told_append (annotations_told _ _ _ _ (Nat.le_refl _) ha ha' hw.tail.right.tail.left hv.tail.right.tail.left) (by rw [hs.strip, hs'.strip]))))
  | enum hl ha =>
    cases h' with
    | enum hl' ha' =>
      exact told_cons (by decide +kernel) hw hv (told_same (told_append ((Bracketed.told (enumValue_told _) (by decide +kernel) (by decide +kernel)) _ _ _ (Nat.le_add_right _ 2) hl hl' hw.tail.tail.left hv.tail.tail.left)
        (annotations_told _ _ _ _ (Nat.le_refl _) ha ha' hw.tail.tail.right hv.tail.tail.right)))
  | struct hk hl ha =>
    cases h' with
    | struct hk' hl' ha' =>
      have e := told_append ((Bracketed.told (field_told _) (by decide +kernel) (by decide +kernel)) _ _ _ (Nat.le_add_right _ 2) hl hl' hw.tail.tail.left hv.tail.tail.left)
        (annotations_told _ _ _ _ (Nat.le_refl _) ha ha' hw.tail.tail.right hv.tail.tail.right)
      cases hk <;> cases hk' <;> exact told_cons (by decide +kernel) hw hv (told_same e)
  | service he hl ha =>
    cases h' with
    | service he' hl' ha' =>
      refine told_cons (by decide +kernel) hw hv (told_same (told_append ?_ (told_append ((Bracketed.told (method_told _) (by decide +kernel) (by decide +kernel)) _ _ _ (Nat.le_add_right _ 2) hl hl'
        hw.tail.tail.right.left hv.tail.tail.right.left) (annotations_told _ _ _ _ (Nat.le_refl _) ha ha' hw.tail.tail.right.right hv.tail.tail.right.right))))
      have hw := hw.tail.tail.left; have hv := hv.tail.tail.left
      cases he with
      | none => cases he'; rfl
      | some => cases he'; exact told_cons (by decide +kernel) hw hv rfl

theorem header_told (n : Nat) : Told u n HeaderG := by
  rintro x _ _ hn h h' hw hv
  cases h with
  | «include» => cases h'; exact told_cons (by decide +kernel) hw hv rfl
  | «namespace» hs ha =>
    cases h' with
    | «namespace» hs' ha' =>
      refine told_cons (by decide +kernel) hw hv (told_append ?_ (told_same (annotations_told _ _ _ _ (Nat.le_refl _) ha ha' hw.tail.right.tail hv.tail.right.tail)))
      have hw := hw.tail.left; have hv := hv.tail.left
      cases hs with
      | all => cases hs'; exact told_cons (by decide +kernel) hw hv rfl
      | name => cases hs'; rfl

theorem FileG.told {f : File} {w v : List Lx} (h : FileG f w) (h' : FileG f v) (hw : Spoken u w) (hv : Spoken u v) : strip w = strip v := by
  cases h with
  | mk hh hd =>
    cases h' with
    | mk hh' hd' => exact told_append (hh.told header_told hh' hw.left hv.left) (hd.told def_told hd' hw.right hv.right)

end

end GoThrift.Spec
