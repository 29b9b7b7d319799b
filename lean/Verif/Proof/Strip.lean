import Verif.Spec.Strip
import Verif.Proof.Writable

/-!
# The grammar without separators is unambiguous
-/

namespace GoThrift.Spec

open Idl

theorem strip_append (v w : List Lx) : strip (v ++ w) = strip v ++ strip w := List.filter_append ..

theorem strip_nil : strip [] = [] := rfl

theorem strip_tok {t : Token} {n : Bytes} {w : List Lx} (h : isSeparator t = false) : strip ((t, n) :: w) = (t, n) :: strip w := by
  rw [strip, List.filter_cons, if_pos (by simp [h])]; rfl

theorem strip_comma {n : Bytes} {w : List Lx} : strip ((Tk.comma, n) :: w) = strip w := rfl

theorem Seps.strip {w : List Lx} (h : Seps w) : strip w = [] := by
  refine List.filter_eq_nil_iff.2 fun x hx => ?_
  rcases h x hx with h | h <;> rw [h] <;> decide

/-- It does not begin with one of these tokens. -/
def Avoids (F : List Token) (r : List Lx) : Prop := ∀ t n l, r = (t, n) :: l → t ∉ F

/-- If it begins with a token, then with one of these. -/
def Starts (A : List Token) (r : List Lx) : Prop := ∀ t n l, r = (t, n) :: l → t ∈ A

theorem Avoids.nil {F : List Token} : Avoids F [] := fun _ _ _ h => nomatch h

theorem Avoids.cons {F : List Token} {t : Token} {n : Bytes} {l : List Lx} (h : t ∉ F) : Avoids F ((t, n) :: l) := by
  rintro _ _ _ ⟨⟩
  exact h

theorem Avoids.none {r : List Lx} : Avoids [] r := fun _ _ _ _ h => nomatch h

theorem Avoids.append {F A : List Token} {w r : List Lx} (h1 : Starts A w) (h2 : ∀ t ∈ A, t ∉ F) (h3 : Avoids F r) : Avoids F (w ++ r) := by
  cases w with
  | nil => exact h3
  | cons x w =>
    rintro t n l e
    cases e
    exact h2 _ (h1 _ _ _ rfl)

theorem Avoids.front {F A : List Token} {w r : List Lx} (h1 : Starts A w) (h0 : w ≠ []) (h2 : ∀ t ∈ A, t ∉ F) : Avoids F (w ++ r) := by
  cases w with
  | nil => exact absurd rfl h0
  | cons x w =>
    rintro t n l e
    cases e
    exact h2 _ (h1 _ _ _ rfl)

theorem Starts.nil {A : List Token} : Starts A [] := fun _ _ _ h => nomatch h

theorem Starts.cons {A : List Token} {t : Token} {n : Bytes} {l : List Lx} (h : t ∈ A) : Starts A ((t, n) :: l) := by
  rintro _ _ _ ⟨⟩
  exact h

theorem Starts.append {A : List Token} {w r : List Lx} (h1 : Starts A w) (h2 : Starts A r) : Starts A (w ++ r) := by
  cases w with
  | nil => exact h2
  | cons x w =>
    rintro t n l e
    cases e
    exact h1 _ _ _ rfl

theorem Starts.mono {A B : List Token} {w : List Lx} (h : Starts A w) (hA : ∀ t ∈ A, t ∈ B) : Starts B w := fun t n l e => hA t (h t n l e)

/-- What the tokens stand for can be told without the separators, when what follows does not begin with one of `F`. -/
def Clear {α : Type} (n : Nat) (F : List Token) (R : α → List Lx → Prop) : Prop :=
  ∀ x y w v r r', w.length ≤ n → R x w → R y v → strip w ++ r = strip v ++ r' → Avoids F r → Avoids F r' → x = y ∧ r = r'

/-- The tokens are not only separators and begin with one of `A`. -/
def Fronts {α : Type} (A : List Token) (R : α → List Lx → Prop) : Prop := ∀ x w, R x w → strip w ≠ [] ∧ Starts A (strip w)

theorem Items.avoids {α : Type} {F A : List Token} {R : α → List Lx → Prop} {c : Token} {b : Bytes} (hA : Fronts A R) (hF : ∀ t ∈ c :: A, t ∉ F) {xs : List α} {w r : List Lx} (h : Items R xs w) :
    Avoids F (strip w ++ (c, b) :: r) := by
  cases h with
  | nil => exact .cons (hF c (by simp))
  | cons hr hs hi =>
    rw [strip_append, List.append_assoc]
    exact .front (hA _ _ hr).2 (hA _ _ hr).1 fun t ht => hF t (List.mem_cons_of_mem _ ht)

theorem Items.clear {α : Type} {n : Nat} {F A : List Token} {R : α → List Lx → Prop} {c : Token} (hR : Clear n F R) (hA : Fronts A R) (hF : ∀ t ∈ c :: A, t ∉ F) (hc : c ∉ A)
    {xs : List α} {w : List Lx} (h : Items R xs w) : ∀ {ys : List α} {v r r' : List Lx} {b b' : Bytes}, Items R ys v → w.length ≤ n → strip w ++ (c, b) :: r = strip v ++ (c, b') :: r' →
    xs = ys ∧ r = r' := by
  induction h with
  | nil =>
    intro ys v r r' b b' h' _ e
    cases h' with
    | nil => cases e; exact ⟨rfl, rfl⟩
    | cons hr _ _ =>
      obtain ⟨h0, h1⟩ := hA _ _ hr
      rw [strip_append, List.append_assoc] at e
      generalize strip _ = w at h0 h1 e
      cases w with
      | nil => exact absurd rfl h0
      | cons x w =>
        cases e
        exact absurd (h1 _ _ _ rfl) hc
  | cons hr hs hi ih =>
    intro ys v r r' b b' h' hn e
    cases h' with
    | nil =>
      obtain ⟨h0, h1⟩ := hA _ _ hr
      rw [strip_append, List.append_assoc] at e
      generalize strip _ = w at h0 h1 e
      cases w with
      | nil => exact absurd rfl h0
      | cons x w =>
        cases e
        exact absurd (h1 _ _ _ rfl) hc
    | cons hr' hs' hi' =>
      simp only [strip_append, hs.strip, hs'.strip, List.nil_append, List.append_assoc] at e
      simp only [List.length_append] at hn
      obtain ⟨rfl, e⟩ := hR _ _ _ _ _ _ (by omega) hr hr' e (hi.avoids hA hF) (hi'.avoids hA hF)
      obtain ⟨rfl, rfl⟩ := ih hi' (by omega) e
      exact ⟨rfl, rfl⟩

theorem Bracketed.clear {α : Type} {n : Nat} {F A : List Token} {R : α → List Lx → Prop} {o c : Token} (hR : Clear n F R) (hA : Fronts A R) (hF : ∀ t ∈ c :: A, t ∉ F) (hc : c ∉ A)
    (ho : isSeparator o = false) (hc' : isSeparator c = false) : Clear (n + 2) [] (Bracketed o c R) := by
  rintro x y _ _ r r' hn ⟨h⟩ ⟨h'⟩ e _ _
  simp only [strip_tok ho, strip_append, strip_tok hc', strip_nil, List.cons_append, List.append_assoc, List.nil_append, List.cons.injEq] at e
  simp only [List.length_cons, List.length_append, List.length_nil] at hn
  exact h.clear hR hA hF hc h' (by omega) e.2

theorem Bracketed.fronts {α : Type} {R : α → List Lx → Prop} {o c : Token} (ho : isSeparator o = false) : Fronts [o] (Bracketed o c R) := by
  rintro x _ ⟨h⟩
  rw [strip_tok ho]
  exact ⟨by simp, .cons (by simp)⟩

theorem Clear.mono {α : Type} {m n : Nat} {F G : List Token} {R : α → List Lx → Prop} (h : Clear n F R) (hm : m ≤ n) (hF : ∀ t ∈ F, t ∈ G) : Clear m G R :=
  fun x y w v r r' hl hx hy e h1 h2 => h x y w v r r' (by omega) hx hy e (fun t n l e hF' => h1 t n l e (hF t hF')) fun t n l e hF' => h2 t n l e (hF t hF')

/-- Simplify the tokens of two words. -/
syntax "tokens" "at" ident : tactic
macro_rules
  | `(tactic| tokens at $h:ident) => `(tactic| simp (config := { decide := true }) only [strip_tok, strip_comma, strip_append, strip_nil, List.cons_append, List.append_assoc, List.nil_append, List.append_nil,
      List.cons.injEq, Prod.mk.injEq, true_and, false_and, and_false, reduceCtorEq] at $h:ident)

theorem annotation_clear (n : Nat) : Clear n [Tk.assign] AnnotationG := by
  rintro x y _ _ r r' _ ⟨⟩ ⟨⟩ e h1 h2
  · tokens at e
    obtain ⟨rfl, rfl⟩ := e
    exact ⟨rfl, rfl⟩
  · tokens at e
    obtain ⟨rfl, rfl⟩ := e
    exact absurd (h1 _ _ _ rfl) (by simp)
  · tokens at e
    obtain ⟨rfl, rfl⟩ := e
    exact absurd (h2 _ _ _ rfl) (by simp)
  · tokens at e
    obtain ⟨rfl, rfl, rfl, rfl⟩ := e
    exact ⟨rfl, rfl⟩

theorem annotation_fronts : Fronts [Tk.ident] AnnotationG := by
  rintro x _ ⟨⟩ <;> exact ⟨nofun, .cons (by simp)⟩

theorem annotations_starts {an : Annotations} {w : List Lx} (h : AnnotationsG an w) : Starts [Tk.lparen] (strip w) := by
  cases h with
  | none => exact .nil
  | some h => exact (Bracketed.fronts (by decide) _ _ h).2

theorem annotations_clear (n : Nat) : Clear n [Tk.lparen] AnnotationsG := by
  have hb : ∀ n, Clear n [] (Bracketed Tk.lparen Tk.rparen AnnotationG) := fun n =>
    (Bracketed.clear (annotation_clear n) annotation_fronts (by decide) (by decide) (by decide) (by decide)).mono (by omega) (by simp)
  rintro x y _ _ r r' hn hx hy e h1 h2
  cases hx with
  | none =>
    cases hy with
    | none => exact ⟨rfl, e⟩
    | some h =>
      cases h
      tokens at e
      subst e
      exact absurd (h1 _ _ _ rfl) (by simp)
  | some h =>
    cases hy with
    | none =>
      cases h
      tokens at e
      subst e
      exact absurd (h2 _ _ _ rfl) (by simp)
    | some h' =>
      obtain ⟨rfl, rfl⟩ := hb n _ _ _ _ _ _ hn h h' e .none .none
      exact ⟨rfl, rfl⟩

/-- What types begin with. -/
def typeWords : List Token := [Tk.ident, Tk.map, Tk.set, Tk.list]

theorem type_fronts : Fronts typeWords TypeG := by
  rintro x _ ⟨⟩ <;> rw [strip_tok (by decide)] <;> exact ⟨nofun, .cons (by decide)⟩

theorem type_clear (n : Nat) : Clear n [Tk.lparen] TypeG := by
  rintro x y w v r r' hn hx
  induction hx generalizing y v r r' with
  | ref ha =>
    intro hy e h1 h2
    cases hy with
    | ref ha' =>
      tokens at e
      obtain ⟨rfl, e⟩ := e
      obtain ⟨rfl, rfl⟩ := annotations_clear _ _ _ _ _ _ _ (Nat.le_refl _) ha ha' e h1 h2
      exact ⟨rfl, rfl⟩
    | _ => tokens at e
  | set _ ha ih =>
    intro hy e h1 h2
    cases hy with
    | set h' ha' =>
      tokens at e
      obtain ⟨rfl, rfl, e⟩ := e
      simp only [List.length_append, List.length_cons] at hn
      obtain ⟨rfl, e3⟩ := ih _ _ _ _ (by omega) h' e (.cons (by decide)) (.cons (by decide))
      tokens at e3
      obtain ⟨rfl, rfl⟩ := annotations_clear _ _ _ _ _ _ _ (Nat.le_refl _) ha ha' e3.2 h1 h2
      exact ⟨rfl, rfl⟩
    | _ => tokens at e
  | list _ ha ih =>
    intro hy e h1 h2
    cases hy with
    | list h' ha' =>
      tokens at e
      obtain ⟨rfl, rfl, e⟩ := e
      simp only [List.length_append, List.length_cons] at hn
      obtain ⟨rfl, e3⟩ := ih _ _ _ _ (by omega) h' e (.cons (by decide)) (.cons (by decide))
      tokens at e3
      obtain ⟨rfl, rfl⟩ := annotations_clear _ _ _ _ _ _ _ (Nat.le_refl _) ha ha' e3.2 h1 h2
      exact ⟨rfl, rfl⟩
    | _ => tokens at e
  | map _ hv ha ihk ihv =>
    intro hy e h1 h2
    cases hy with
    | map h' hv' ha' =>
      tokens at e
      obtain ⟨rfl, rfl, e⟩ := e
      simp only [List.length_append, List.length_cons] at hn
      obtain ⟨rfl, e2⟩ := ihk _ _ _ _ (by omega) h' e (.front (type_fronts _ _ hv).2 (type_fronts _ _ hv).1 (by decide)) (.front (type_fronts _ _ hv').2 (type_fronts _ _ hv').1 (by decide))
      obtain ⟨rfl, e3⟩ := ihv _ _ _ _ (by omega) hv' e2 (.cons (by decide)) (.cons (by decide))
      tokens at e3
      obtain ⟨rfl, rfl⟩ := annotations_clear _ _ _ _ _ _ _ (Nat.le_refl _) ha ha' e3.2 h1 h2
      exact ⟨rfl, rfl⟩
    | _ => tokens at e

/-- What values begin with. -/
def valueWords : List Token := [Tk.ident, Tk.int, Tk.float, Tk.string, Tk.lbrack, Tk.lbrace]

theorem value_fronts : Fronts valueWords ValueG := by
  intro x w h
  cases h with
  | list h => obtain ⟨h0, h1⟩ := Bracketed.fronts (by decide) _ _ h; exact ⟨h0, h1.mono (by decide)⟩
  | pairs h => obtain ⟨h0, h1⟩ := Bracketed.fronts (by decide) _ _ h; exact ⟨h0, h1.mono (by decide)⟩
  | _ => exact ⟨nofun, .cons (by decide)⟩

theorem pair_fronts : Fronts valueWords (PairG ValueG) := by
  rintro x _ ⟨hk, hv⟩
  obtain ⟨h0, h1⟩ := value_fronts _ _ hk
  rw [strip_append]
  exact ⟨by simp [h0], fun t n l e => by
    generalize strip _ = w at h0 h1 e
    cases w with
    | nil => exact absurd rfl h0
    | cons x w =>
      cases e
      exact h1 _ _ _ rfl⟩

theorem pair_clear {n : Nat} (h : Clear n [] ValueG) : Clear n [] (PairG ValueG) := by
  rintro x y _ _ r r' hn ⟨hk, hv⟩ ⟨hk', hv'⟩ e _ _
  simp only [List.length_append, List.length_cons] at hn
  tokens at e
  obtain ⟨rfl, e2⟩ := h _ _ _ _ _ _ (by omega) hk hk' e .none .none
  tokens at e2
  obtain ⟨rfl, rfl⟩ := h _ _ _ _ _ _ (by omega) hv hv' e2.2 .none .none
  exact ⟨rfl, rfl⟩

theorem value_clear (n : Nat) : Clear n [] ValueG := by
  induction n with
  | zero =>
    intro x y w v r r' hn hx
    cases hx with
    | list h => cases h; simp at hn
    | pairs h => cases h; simp at hn
    | _ => simp at hn
  | succ n ih =>
    have hl : Clear (n + 1) [] (Bracketed Tk.lbrack Tk.rbrack ValueG) := (Bracketed.clear ih value_fronts (by decide) (by decide) (by decide) (by decide)).mono (by omega) (by simp)
    have hp : Clear (n + 1) [] (Bracketed Tk.lbrace Tk.rbrace (PairG ValueG)) :=
      (Bracketed.clear (pair_clear ih) pair_fronts (by decide) (by decide) (by decide) (by decide)).mono (by omega) (by simp)
    intro x y w v r r' hn hx hy e _ _
    cases hx with
    | list h =>
      cases hy with
      | list h' =>
        obtain ⟨rfl, rfl⟩ := hl _ _ _ _ _ _ hn h h' e .none .none
        exact ⟨rfl, rfl⟩
      | pairs h' => cases h; cases h'; tokens at e
      | _ => cases h; tokens at e
    | pairs h =>
      cases hy with
      | pairs h' =>
        obtain ⟨rfl, rfl⟩ := hp _ _ _ _ _ _ hn h h' e .none .none
        exact ⟨rfl, rfl⟩
      | list h' => cases h; cases h'; tokens at e
      | _ => cases h; tokens at e
    | ident =>
      cases hy with
      | ident => tokens at e; obtain ⟨rfl, rfl⟩ := e; exact ⟨rfl, rfl⟩
      | list h' => cases h'; tokens at e
      | pairs h' => cases h'; tokens at e
      | _ => tokens at e
    | int =>
      cases hy with
      | int => tokens at e; obtain ⟨rfl, rfl⟩ := e; exact ⟨rfl, rfl⟩
      | list h' => cases h'; tokens at e
      | pairs h' => cases h'; tokens at e
      | _ => tokens at e
    | float =>
      cases hy with
      | float => tokens at e; obtain ⟨rfl, rfl⟩ := e; exact ⟨rfl, rfl⟩
      | list h' => cases h'; tokens at e
      | pairs h' => cases h'; tokens at e
      | _ => tokens at e
    | string =>
      cases hy with
      | string => tokens at e; obtain ⟨rfl, rfl⟩ := e; exact ⟨rfl, rfl⟩
      | list h' => cases h'; tokens at e
      | pairs h' => cases h'; tokens at e
      | _ => tokens at e

theorem assigned_starts {α : Type} {R : α → List Lx → Prop} {o : Option α} {w : List Lx} (h : AssignedG R o w) : Starts [Tk.assign] (strip w) := by
  cases h with
  | none => exact .nil
  | some h => rw [strip_tok (by decide)]; exact .cons (by simp)

theorem assigned_clear {α : Type} {R : α → List Lx → Prop} (h : ∀ n, Clear n [] R) (n : Nat) : Clear n [Tk.assign] (AssignedG R) := by
  rintro x y w v r r' hn hx hy e h1 h2
  cases hx with
  | none =>
    cases hy with
    | none => exact ⟨rfl, e⟩
    | some h =>
      tokens at e
      subst e
      exact absurd (h1 _ _ _ rfl) (by simp)
  | some hx =>
    cases hy with
    | none =>
      tokens at e
      subst e
      exact absurd (h2 _ _ _ rfl) (by simp)
    | some hy =>
      tokens at e
      obtain ⟨rfl, rfl⟩ := h _ _ _ _ _ _ _ (Nat.le_refl _) hx hy e.2 .none .none
      exact ⟨rfl, rfl⟩

theorem lit_clear {t : Token} (ht : isSeparator t = false) (n : Nat) : Clear n [] (LitG t) := by
  rintro x y _ _ r r' hn ⟨⟩ ⟨⟩ e _ _
  rw [strip_tok ht, strip_tok ht] at e
  cases e
  exact ⟨rfl, rfl⟩

theorem flag_starts {t : Token} (ht : isSeparator t = false) {b : Bool} {w : List Lx} (h : FlagG t b w) : Starts [t] (strip w) := by
  cases h with
  | no => exact .nil
  | yes => rw [strip_tok ht]; exact .cons (by simp)

theorem flag_clear {t : Token} (ht : isSeparator t = false) (n : Nat) : Clear n [t] (FlagG t) := by
  rintro x y _ _ r r' hn ⟨⟩ ⟨⟩ e h1 h2
  · exact ⟨rfl, e⟩
  · rw [strip_tok ht] at e
    exact absurd (h1 _ _ _ e) (by simp)
  · rw [strip_tok ht] at e
    exact absurd (h2 _ _ _ e.symm) (by simp)
  · rw [strip_tok ht, strip_tok ht] at e
    cases e
    exact ⟨rfl, rfl⟩

theorem enumValue_fronts : Fronts [Tk.ident] EnumValueG := by
  rintro x _ ⟨_, _⟩
  rw [strip_tok (by decide)]
  exact ⟨nofun, .cons (by simp)⟩

theorem enumValue_clear (n : Nat) : Clear n [Tk.assign, Tk.lparen] EnumValueG := by
  rintro x y _ _ r r' hn ⟨hv, ha⟩ ⟨hv', ha'⟩ e h1 h2
  tokens at e
  obtain ⟨rfl, e⟩ := e
  have m1 := h1; have m2 := h2
  obtain ⟨rfl, e2⟩ := assigned_clear (lit_clear (by decide)) _ _ _ _ _ _ _ (Nat.le_refl _) hv hv' e (.append (annotations_starts ha) (by decide) fun t n l e h => h1 t n l e (by simp_all))
    (.append (annotations_starts ha') (by decide) fun t n l e h => h2 t n l e (by simp_all))
  obtain ⟨rfl, rfl⟩ := annotations_clear _ _ _ _ _ _ _ (Nat.le_refl _) ha ha' e2 (fun t n l e h => h1 t n l e (by simp_all)) (fun t n l e h => h2 t n l e (by simp_all))
  exact ⟨rfl, rfl⟩

theorem Avoids.sub {F G : List Token} {r : List Lx} (h : Avoids G r) (hF : ∀ t ∈ F, t ∈ G) : Avoids F r := fun t n l e ht => h t n l e (hF t ht)

theorem fieldId_starts {i : Option Bytes} {w : List Lx} (h : FieldIdG i w) : Starts [Tk.int] (strip w) := by
  cases h with
  | none => exact .nil
  | some => exact .cons (by simp)

theorem fieldId_clear (n : Nat) : Clear n [Tk.int] FieldIdG := by
  rintro x y _ _ r r' hn ⟨⟩ ⟨⟩ e h1 h2
  · exact ⟨rfl, e⟩
  · tokens at e
    exact absurd (h1 _ _ _ e) (by simp)
  · tokens at e
    exact absurd (h2 _ _ _ e.symm) (by simp)
  · tokens at e
    obtain ⟨rfl, rfl, rfl⟩ := e
    exact ⟨rfl, rfl⟩

theorem requiredness_starts {a b : Bool} {w : List Lx} (h : RequirednessG a b w) : Starts [Tk.required, Tk.optional] (strip w) := by
  cases h with
  | none => exact .nil
  | _ => exact .cons (by simp)

theorem requiredness_clear {a b a' b' : Bool} {w v r r' : List Lx} (h : RequirednessG a b w) (h' : RequirednessG a' b' v) (e : strip w ++ r = strip v ++ r') (h1 : Avoids [Tk.required, Tk.optional] r)
    (h2 : Avoids [Tk.required, Tk.optional] r') : a = a' ∧ b = b' ∧ r = r' := by
  cases h <;> cases h' <;> tokens at e
  · exact ⟨rfl, rfl, e⟩
  · exact absurd (h1 _ _ _ e) (by simp)
  · exact absurd (h1 _ _ _ e) (by simp)
  · exact absurd (h2 _ _ _ e.symm) (by simp)
  · exact ⟨rfl, rfl, e.2⟩
  · exact absurd (h2 _ _ _ e.symm) (by simp)
  · exact ⟨rfl, rfl, e.2⟩

/-- What names of fields begin with. -/
def nameWords : List Token := Tk.ident :: reserved.map (·.2)

theorem fieldName_tok {n : Bytes} {w : List Lx} (h : FieldNameG n w) : ∃ t, t ∈ nameWords ∧ isSeparator t = false ∧ w = [(t, n)] := by
  cases h with
  | ident => exact ⟨_, by simp [nameWords], by decide, rfl⟩
  | word hr =>
    refine ⟨_, List.mem_cons_of_mem _ (List.mem_map.2 ⟨_, hr, rfl⟩), ?_, rfl⟩
    have : ∀ p ∈ reserved, isSeparator p.2 = false := by decide +kernel
    exact this _ hr

/-- What fields begin with. -/
def fieldWords : List Token := Tk.int :: Tk.required :: Tk.optional :: typeWords

theorem field_fronts : Fronts fieldWords FieldG := by
  rintro x _ ⟨hi, hr, ht, _, _, _, _⟩
  simp only [strip_append]
  obtain ⟨h0, h1⟩ := type_fronts _ _ ht
  refine ⟨by simp [h0], ((fieldId_starts hi).mono (by decide)).append (((requiredness_starts hr).mono (by decide)).append ?_)⟩
  generalize strip _ = w at h0 h1
  cases w with
  | nil => exact absurd rfl h0
  | cons x w =>
    intro t n l e
    cases e
    exact List.mem_cons_of_mem _ (List.mem_cons_of_mem _ (List.mem_cons_of_mem _ (h1 _ _ _ rfl)))

theorem field_clear (n : Nat) : Clear n [Tk.assign, Tk.lparen] FieldG := by
  rintro x y _ _ r r' hn ⟨hi, hr, ht, hf, hm, hd, ha⟩ ⟨hi', hr', ht', hf', hm', hd', ha'⟩ e h1 h2
  obtain ⟨t, ht1, ht2, rfl⟩ := fieldName_tok hm
  obtain ⟨t', ht1', ht2', rfl⟩ := fieldName_tok hm'
  simp only [strip_append, List.append_assoc, strip_tok ht2, strip_tok ht2', strip_nil, List.cons_append, List.nil_append] at e
  have hw : ∀ t ∈ nameWords, t ∉ [Tk.lparen, Tk.and] := by decide +kernel
  have a1 := fun G (hG : ∀ t ∈ typeWords, t ∉ G) (r : List Lx) => Avoids.front (r := r) (type_fronts _ _ ht).2 (type_fronts _ _ ht).1 hG
  have a2 := fun G (hG : ∀ t ∈ typeWords, t ∉ G) (r : List Lx) => Avoids.front (r := r) (type_fronts _ _ ht').2 (type_fronts _ _ ht').1 hG
  obtain ⟨rfl, e2⟩ := fieldId_clear _ _ _ _ _ _ _ (Nat.le_refl _) hi hi' e (.append (requiredness_starts hr) (by decide) (a1 _ (by decide) _)) (.append (requiredness_starts hr') (by decide) (a2 _ (by decide) _))
  obtain ⟨rfl, rfl, e3⟩ := requiredness_clear hr hr' e2 (a1 _ (by decide) _) (a2 _ (by decide) _)
  obtain ⟨rfl, e4⟩ := type_clear _ _ _ _ _ _ _ (Nat.le_refl _) ht ht' e3 (.append (flag_starts (by decide) hf) (by decide) (.cons fun h => hw t ht1 (by simp_all)))
    (.append (flag_starts (by decide) hf') (by decide) (.cons fun h => hw t' ht1' (by simp_all)))
  obtain ⟨rfl, e5⟩ := flag_clear (by decide) _ _ _ _ _ _ _ (Nat.le_refl _) hf hf' e4 (.cons fun h => hw t ht1 (by simp_all)) (.cons fun h => hw t' ht1' (by simp_all))
  simp only [List.cons.injEq, Prod.mk.injEq] at e5
  obtain ⟨⟨rfl, rfl⟩, e5⟩ := e5
  obtain ⟨rfl, e6⟩ := assigned_clear value_clear _ _ _ _ _ _ _ (Nat.le_refl _) hd hd' e5 (.append (annotations_starts ha) (by decide) (h1.sub (by simp)))
    (.append (annotations_starts ha') (by decide) (h2.sub (by simp)))
  obtain ⟨rfl, rfl⟩ := annotations_clear _ _ _ _ _ _ _ (Nat.le_refl _) ha ha' e6 (h1.sub (by simp)) (h2.sub (by simp))
  exact ⟨rfl, rfl⟩

theorem fields_clear (n : Nat) : Clear n [] (Bracketed Tk.lparen Tk.rparen FieldG) :=
  (Bracketed.clear (field_clear n) field_fronts (by decide) (by decide) (by decide) (by decide)).mono (by omega) (by simp)

theorem fieldsBrace_clear (n : Nat) : Clear n [] (Bracketed Tk.lbrace Tk.rbrace FieldG) :=
  (Bracketed.clear (field_clear n) field_fronts (by decide) (by decide) (by decide) (by decide)).mono (by omega) (by simp)

theorem enumValues_clear (n : Nat) : Clear n [] (Bracketed Tk.lbrace Tk.rbrace EnumValueG) :=
  (Bracketed.clear (enumValue_clear n) enumValue_fronts (by decide) (by decide) (by decide) (by decide)).mono (by omega) (by simp)

theorem return_fronts {vd : Bool} {o : Option TypeNode} {w : List Lx} (h : ReturnG vd o w) : strip w ≠ [] ∧ Starts (Tk.void :: typeWords) (strip w) := by
  cases h with
  | void => exact ⟨nofun, .cons (by simp)⟩
  | type h => obtain ⟨h0, h1⟩ := type_fronts _ _ h; exact ⟨h0, h1.mono (by decide)⟩

theorem return_clear {a a' : Bool} {o o' : Option TypeNode} {w v r r' : List Lx} (h : ReturnG a o w) (h' : ReturnG a' o' v) (e : strip w ++ r = strip v ++ r') (h1 : Avoids [Tk.lparen] r)
    (h2 : Avoids [Tk.lparen] r') : a = a' ∧ o = o' ∧ r = r' := by
  cases h with
  | void =>
    cases h' with
    | void => tokens at e; exact ⟨rfl, rfl, e.2⟩
    | type h => cases h <;> tokens at e
  | type h =>
    cases h' with
    | void => cases h <;> tokens at e
    | type h' =>
      obtain ⟨rfl, rfl⟩ := type_clear _ _ _ _ _ _ _ (Nat.le_refl _) h h' e h1 h2
      exact ⟨rfl, rfl, rfl⟩

theorem throws_starts {o : Option (List Field)} {w : List Lx} (h : ThrowsG o w) : Starts [Tk.throws] (strip w) := by
  cases h with
  | none => exact .nil
  | some h => rw [strip_tok (by decide)]; exact .cons (by simp)

theorem throws_clear (n : Nat) : Clear n [Tk.throws] ThrowsG := by
  rintro x y _ _ r r' hn hx hy e h1 h2
  cases hx with
  | none =>
    cases hy with
    | none => exact ⟨rfl, e⟩
    | some h =>
      tokens at e
      exact absurd (h1 _ _ _ e) (by simp)
  | some hx =>
    cases hy with
    | none =>
      tokens at e
      exact absurd (h2 _ _ _ e.symm) (by simp)
    | some hy =>
      tokens at e
      obtain ⟨rfl, rfl⟩ := fields_clear _ _ _ _ _ _ _ (Nat.le_refl _) hx hy e.2 .none .none
      exact ⟨rfl, rfl⟩

/-- What methods begin with. -/
def methodWords : List Token := Tk.oneway :: Tk.void :: typeWords

theorem method_fronts : Fronts methodWords MethodG := by
  rintro x _ ⟨ho, hr, _, _, _⟩
  simp only [strip_append]
  obtain ⟨h0, h1⟩ := return_fronts hr
  refine ⟨by simp [h0], ((flag_starts (by decide) ho).mono (by decide)).append ?_⟩
  generalize strip _ = w at h0 h1
  cases w with
  | nil => exact absurd rfl h0
  | cons x w =>
    intro t n l e
    cases e
    exact List.mem_cons_of_mem _ (h1 _ _ _ rfl)

theorem method_clear (n : Nat) : Clear n [Tk.throws, Tk.lparen] MethodG := by
  rintro x y _ _ r r' hn ⟨ho, hr, hf, ht, ha⟩ ⟨ho', hr', hf', ht', ha'⟩ e h1 h2
  tokens at e
  obtain ⟨rfl, e2⟩ := flag_clear (by decide) _ _ _ _ _ _ _ (Nat.le_refl _) ho ho' e (.front (return_fronts hr).2 (return_fronts hr).1 (by decide)) (.front (return_fronts hr').2 (return_fronts hr').1 (by decide))
  obtain ⟨rfl, rfl, e3⟩ := return_clear hr hr' e2 (.cons (by decide)) (.cons (by decide))
  tokens at e3
  obtain ⟨rfl, e3⟩ := e3
  obtain ⟨rfl, e4⟩ := fields_clear _ _ _ _ _ _ _ (Nat.le_refl _) hf hf' e3 .none .none
  obtain ⟨rfl, e5⟩ := throws_clear _ _ _ _ _ _ _ (Nat.le_refl _) ht ht' e4 (.append (annotations_starts ha) (by decide) (h1.sub (by simp))) (.append (annotations_starts ha') (by decide) (h2.sub (by simp)))
  obtain ⟨rfl, rfl⟩ := annotations_clear _ _ _ _ _ _ _ (Nat.le_refl _) ha ha' e5 (h1.sub (by simp)) (h2.sub (by simp))
  exact ⟨rfl, rfl⟩

theorem methods_clear (n : Nat) : Clear n [] (Bracketed Tk.lbrace Tk.rbrace MethodG) :=
  (Bracketed.clear (method_clear n) method_fronts (by decide) (by decide) (by decide) (by decide)).mono (by omega) (by simp)

theorem extends_starts {o : Option Bytes} {w : List Lx} (h : ExtendsG o w) : Starts [Tk.extends_] (strip w) := by
  cases h with
  | none => exact .nil
  | some => rw [strip_tok (by decide)]; exact .cons (by simp)

theorem extends_clear (n : Nat) : Clear n [Tk.extends_] ExtendsG := by
  rintro x y _ _ r r' hn ⟨⟩ ⟨⟩ e h1 h2
  · exact ⟨rfl, e⟩
  · tokens at e
    exact absurd (h1 _ _ _ e) (by simp)
  · tokens at e
    exact absurd (h2 _ _ _ e.symm) (by simp)
  · tokens at e
    obtain ⟨rfl, rfl, rfl⟩ := e
    exact ⟨rfl, rfl⟩

theorem def_fronts : Fronts defWords DefG := by
  intro x w h
  cases h with
  | struct hk => cases hk <;> rw [strip_tok (by decide)] <;> exact ⟨nofun, .cons (by decide)⟩
  | _ => rw [strip_tok (by decide)]; exact ⟨nofun, .cons (by decide)⟩

theorem def_clear (n : Nat) : Clear n [Tk.lparen] DefG := by
  intro x y w v r r' hn hx hy e h1 h2
  cases hx with
  | const ht hv hs =>
    cases hy with
    | const ht' hv' hs' =>
      tokens at e
      simp only [hs.strip, hs'.strip, List.nil_append] at e
      obtain ⟨rfl, e2⟩ := type_clear _ _ _ _ _ _ _ (Nat.le_refl _) ht ht' e.2 (.cons (by decide)) (.cons (by decide))
      tokens at e2
      obtain ⟨rfl, e3⟩ := value_clear _ _ _ _ _ _ _ (Nat.le_refl _) hv hv' e2.2.2 .none .none
      obtain ⟨rfl, _⟩ := e2
      exact ⟨rfl, e3⟩
    | struct hk => cases hk <;> tokens at e
    | _ => tokens at e
  | typedef ht ha hs =>
    cases hy with
    | typedef ht' ha' hs' =>
      tokens at e
      simp only [hs.strip, hs'.strip, List.nil_append] at e
      obtain ⟨rfl, e2⟩ := type_clear _ _ _ _ _ _ _ (Nat.le_refl _) ht ht' e.2 (.cons (by decide)) (.cons (by decide))
      tokens at e2
      obtain ⟨rfl, e3⟩ := annotations_clear _ _ _ _ _ _ _ (Nat.le_refl _) ha ha' e2.2 h1 h2
      obtain ⟨rfl, _⟩ := e2
      exact ⟨rfl, e3⟩
    | struct hk => cases hk <;> tokens at e
    | _ => tokens at e
  | enum hl ha =>
    cases hy with
    | enum hl' ha' =>
      tokens at e
      obtain ⟨rfl, e2⟩ := enumValues_clear _ _ _ _ _ _ _ (Nat.le_refl _) hl hl' e.2.2 .none .none
      obtain ⟨rfl, e3⟩ := annotations_clear _ _ _ _ _ _ _ (Nat.le_refl _) ha ha' e2 h1 h2
      obtain ⟨_, rfl, _⟩ := e
      exact ⟨rfl, e3⟩
    | struct hk => cases hk <;> tokens at e
    | _ => tokens at e
  | struct hk hl ha =>
    cases hy with
    | struct hk' hl' ha' =>
      cases hk <;> cases hk' <;> tokens at e
      all_goals
        obtain ⟨rfl, e2⟩ := fieldsBrace_clear _ _ _ _ _ _ _ (Nat.le_refl _) hl hl' e.2.2 .none .none
        obtain ⟨rfl, e3⟩ := annotations_clear _ _ _ _ _ _ _ (Nat.le_refl _) ha ha' e2 h1 h2
        obtain ⟨_, rfl, _⟩ := e
        exact ⟨rfl, e3⟩
    | _ => cases hk <;> tokens at e
  | service he hl ha =>
    cases hy with
    | service he' hl' ha' =>
      tokens at e
      obtain ⟨rfl, e1⟩ := extends_clear _ _ _ _ _ _ _ (Nat.le_refl _) he he' e.2.2 (.front (Bracketed.fronts (by decide) _ _ hl).2 (Bracketed.fronts (by decide) _ _ hl).1 (by decide))
        (.front (Bracketed.fronts (by decide) _ _ hl').2 (Bracketed.fronts (by decide) _ _ hl').1 (by decide))
      obtain ⟨rfl, e2⟩ := methods_clear _ _ _ _ _ _ _ (Nat.le_refl _) hl hl' e1 .none .none
      obtain ⟨rfl, e3⟩ := annotations_clear _ _ _ _ _ _ _ (Nat.le_refl _) ha ha' e2 h1 h2
      obtain ⟨_, rfl, _⟩ := e
      exact ⟨rfl, e3⟩
    | struct hk => cases hk <;> tokens at e
    | _ => tokens at e

theorem header_fronts : Fronts [Tk.include_, Tk.namespace_] HeaderG := by
  intro x w h
  cases h <;> rw [strip_tok (by decide)] <;> exact ⟨nofun, .cons (by decide)⟩

theorem header_clear (n : Nat) : Clear n [Tk.lparen] HeaderG := by
  intro x y w v r r' hn hx hy e h1 h2
  cases hx with
  | «include» =>
    cases hy with
    | «include» => tokens at e; obtain ⟨rfl, rfl, rfl⟩ := e; exact ⟨rfl, rfl⟩
    | «namespace» => tokens at e
  | «namespace» hs ha =>
    cases hy with
    | «include» => tokens at e
    | «namespace» hs' ha' =>
      cases hs <;> cases hs' <;> tokens at e
      · obtain ⟨rfl, e3⟩ := annotations_clear _ _ _ _ _ _ _ (Nat.le_refl _) ha ha' e.2.2.2 h1 h2
        obtain ⟨_, _, rfl, _⟩ := e
        exact ⟨rfl, e3⟩
      · obtain ⟨rfl, e3⟩ := annotations_clear _ _ _ _ _ _ _ (Nat.le_refl _) ha ha' e.2.2.2 h1 h2
        obtain ⟨_, rfl, rfl, _⟩ := e
        exact ⟨rfl, e3⟩

theorem Many.clear {α : Type} {F A : List Token} {R : α → List Lx → Prop} (hR : ∀ n, Clear n F R) (hA : Fronts A R) (hF : ∀ t ∈ A, t ∉ F) {xs : List α} {w : List Lx} (h : Many R xs w) :
    ∀ {ys : List α} {v r r' : List Lx}, Many R ys v → strip w ++ r = strip v ++ r' → Avoids (F ++ A) r → Avoids (F ++ A) r' → xs = ys ∧ r = r' := by
  have hm : ∀ {xs : List α} {w r : List Lx}, Many R xs w → Avoids (F ++ A) r → Avoids F (strip w ++ r) := by
    intro xs w r h hr
    cases h with
    | nil => exact hr.sub (by simp +contextual)
    | cons h _ =>
      rw [strip_append, List.append_assoc]
      exact .front (hA _ _ h).2 (hA _ _ h).1 hF
  induction h with
  | nil =>
    intro ys v r r' h' e h1 h2
    cases h' with
    | nil => exact ⟨rfl, e⟩
    | cons hr _ =>
      obtain ⟨h0, h3⟩ := hA _ _ hr
      rw [strip_append, List.append_assoc] at e
      generalize strip _ = w at h0 h3 e
      cases w with
      | nil => exact absurd rfl h0
      | cons x w => exact absurd (h1 _ _ _ e) (by simp [h3 _ _ _ rfl])
  | cons hr hi ih =>
    intro ys v r r' h' e h1 h2
    cases h' with
    | nil =>
      obtain ⟨h0, h3⟩ := hA _ _ hr
      rw [strip_append, List.append_assoc] at e
      generalize strip _ = w at h0 h3 e
      cases w with
      | nil => exact absurd rfl h0
      | cons x w => exact absurd (h2 _ _ _ e.symm) (by simp [h3 _ _ _ rfl])
    | cons hr' hi' =>
      simp only [strip_append, List.append_assoc] at e
      obtain ⟨rfl, e⟩ := hR _ _ _ _ _ _ _ (Nat.le_refl _) hr hr' e (hm hi h1) (hm hi' h2)
      obtain ⟨rfl, rfl⟩ := ih hi' e h1 h2
      exact ⟨rfl, rfl⟩

theorem FileG.clear {f g : File} {w v : List Lx} (h : FileG f w) (h' : FileG g v) (e : strip w = strip v) : f = g := by
  have hd : ∀ {ds : List Def} {w : List Lx}, Many DefG ds w → Starts defWords (strip w) := by
    intro ds w h
    cases h with
    | nil => exact .nil
    | cons h _ =>
      obtain ⟨h0, h1⟩ := def_fronts _ _ h
      rw [strip_append]
      generalize strip _ = w at h0 h1
      cases w with
      | nil => exact absurd rfl h0
      | cons x w =>
        intro t n l e
        cases e
        exact h1 _ _ _ rfl
  obtain ⟨hh, hd1⟩ := h
  obtain ⟨hh', hd1'⟩ := h'
  rw [strip_append, strip_append] at e
  have av : ∀ {w : List Lx}, Starts defWords (strip w) → Avoids ([Tk.lparen] ++ [Tk.include_, Tk.namespace_]) (strip w) := fun h t n l e ht => by
    have : ∀ t ∈ defWords, t ∉ ([Tk.lparen] ++ [Tk.include_, Tk.namespace_]) := by decide
    exact this t (h t n l e) ht
  obtain ⟨rfl, e2⟩ := hh.clear header_clear header_fronts (by decide) hh' e (av (hd hd1)) (av (hd hd1'))
  obtain ⟨rfl, _⟩ := hd1.clear def_clear def_fronts (by decide) (r := []) (r' := []) hd1' (by rw [e2]) .nil .nil
  rfl

end GoThrift.Spec
