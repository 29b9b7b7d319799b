import Verif.Spec.Strip
import Verif.Proof.Writable

/-!
# No semicolon is needed
-/

namespace GoThrift.Spec

open Idl

theorem semi_append (v w : List Lx) : noSemicolons (v ++ w) = noSemicolons v ++ noSemicolons w := List.filter_append ..

theorem semi_nil : noSemicolons [] = [] := rfl

theorem semi_tok {t : Token} {n : Bytes} {w : List Lx} (h : t ≠ Tk.semicolon) : noSemicolons ((t, n) :: w) = (t, n) :: noSemicolons w := by
  rw [noSemicolons, List.filter_cons, if_pos (by simp [h])]; rfl

theorem Seps.semi {w : List Lx} (h : Seps w) : Seps (noSemicolons w) := fun t ht => h t (List.mem_filter.1 ht).1

/-- The tokens without semicolons are tokens of the same tree. -/
def Spared {α : Type} (n : Nat) (R : α → List Lx → Prop) : Prop := ∀ x w, w.length ≤ n → R x w → R x (noSemicolons w)

theorem Items.spared {α : Type} {n : Nat} {R : α → List Lx → Prop} (hR : Spared n R) {xs : List α} {w : List Lx} (h : Items R xs w) : w.length ≤ n → Items R xs (noSemicolons w) := by
  induction h with
  | nil => exact fun _ => .nil
  | cons hr hs _ ih =>
    intro hn
    simp only [List.length_append] at hn
    rw [semi_append, semi_append]
    exact .cons (hR _ _ (by omega) hr) hs.semi (ih (by omega))

theorem Many.spared {α : Type} {R : α → List Lx → Prop} (hR : ∀ n, Spared n R) {xs : List α} {w : List Lx} (h : Many R xs w) : Many R xs (noSemicolons w) := by
  induction h with
  | nil => exact .nil
  | cons hr _ ih =>
    rw [semi_append]
    exact .cons (hR _ _ _ (Nat.le_refl _) hr) ih

theorem Bracketed.spared {α : Type} {n : Nat} {R : α → List Lx → Prop} {o c : Token} (hR : Spared n R) (ho : o ≠ Tk.semicolon) (hc : c ≠ Tk.semicolon) : Spared (n + 1) (Bracketed o c R) := by
  rintro xs _ hn ⟨h⟩
  simp only [List.length_cons, List.length_append, List.length_nil] at hn
  rw [semi_tok ho, semi_append, semi_tok hc, semi_nil]
  exact .mk (h.spared hR (by omega))

theorem Spared.all {α : Type} {m n : Nat} {R : α → List Lx → Prop} (h : Spared n R) (hm : m ≤ n) : Spared m R := fun x w hn => h x w (by omega)

theorem annotation_spared (n : Nat) : Spared n AnnotationG := by
  rintro x _ _ ⟨⟩
  · exact .bare
  · exact .value

theorem annotations_spared {x : Annotations} {w : List Lx} (h : AnnotationsG x w) : AnnotationsG x (noSemicolons w) := by
  cases h with
  | none => exact .none
  | some h => exact .some ((Bracketed.spared (annotation_spared _) (by decide) (by decide)) _ _ (Nat.le_succ _) h)

theorem type_spared {x : TypeNode} {w : List Lx} (h : TypeG x w) : TypeG x (noSemicolons w) := by
  induction h with
  | ref ha => rw [semi_tok (by decide)]; exact .ref (annotations_spared ha)
  | set _ ha ih => rw [semi_tok (by decide), semi_tok (by decide), semi_append, semi_tok (by decide)]; exact .set ih (annotations_spared ha)
  | list _ ha ih => rw [semi_tok (by decide), semi_tok (by decide), semi_append, semi_tok (by decide)]; exact .list ih (annotations_spared ha)
  | map _ _ ha ihk ihv =>
    rw [semi_tok (by decide), semi_tok (by decide), semi_append, semi_tok (by decide), semi_append, semi_tok (by decide)]
    exact .map ihk ihv (annotations_spared ha)

theorem pair_spared {n : Nat} (h : Spared n ValueG) : Spared n (PairG ValueG) := by
  rintro x _ hn ⟨hk, hv⟩
  simp only [List.length_append, List.length_cons] at hn
  rw [semi_append, semi_tok (by decide)]
  exact .mk (h _ _ (by omega) hk) (h _ _ (by omega) hv)

theorem value_spared (n : Nat) : Spared n ValueG := by
  induction n with
  | zero =>
    intro x w hn h
    cases h with
    | list h => cases h; simp at hn
    | pairs h => cases h; simp at hn
    | _ => simp at hn
  | succ n ih =>
    intro x w hn h
    cases h with
    | list h => exact .list ((Bracketed.spared ih (by decide) (by decide)) _ _ hn h)
    | pairs h => exact .pairs ((Bracketed.spared (pair_spared ih) (by decide) (by decide)) _ _ hn h)
    | ident => exact .ident
    | int => exact .int
    | float => exact .float
    | string => exact .string

theorem assigned_spared {α : Type} {R : α → List Lx → Prop} (h : ∀ n, Spared n R) {x : Option α} {w : List Lx} (hx : AssignedG R x w) : AssignedG R x (noSemicolons w) := by
  cases hx with
  | none => exact .none
  | some hx => rw [semi_tok (by decide)]; exact .some (h _ _ _ (Nat.le_refl _) hx)

theorem lit_spared {t : Token} (ht : t ≠ Tk.semicolon) (n : Nat) : Spared n (LitG t) := by
  rintro x _ hn ⟨⟩
  rw [semi_tok ht]
  exact .mk

theorem flag_spared {t : Token} (ht : t ≠ Tk.semicolon) {b : Bool} {w : List Lx} (h : FlagG t b w) : FlagG t b (noSemicolons w) := by
  cases h with
  | no => exact .no
  | yes => rw [semi_tok ht]; exact .yes

theorem enumValue_spared (n : Nat) : Spared n EnumValueG := by
  rintro x _ hn ⟨hv, ha⟩
  rw [semi_tok (by decide), semi_append]
  exact .mk (assigned_spared (lit_spared (by decide)) hv) (annotations_spared ha)

theorem field_spared (n : Nat) : Spared n FieldG := by
  rintro x _ hn ⟨hi, hr, ht, hf, hm, hd, ha⟩
  simp only [semi_append]
  refine .mk ?_ ?_ (type_spared ht) (flag_spared (by decide) hf) ?_ (assigned_spared value_spared hd) (annotations_spared ha)
  · cases hi with
    | none => exact .none
    | some => exact .some
  · cases hr with
    | none => exact .none
    | required => exact .required
    | optional => exact .optional
  · cases hm with
    | ident => exact .ident
    | word hr =>
      have : ∀ p ∈ reserved, p.2 ≠ Tk.semicolon := by decide +kernel
      rw [semi_tok (this _ hr)]
      exact .word hr

theorem fields_spared {o c : Token} (ho : o ≠ Tk.semicolon) (hc : c ≠ Tk.semicolon) {l : List Field} {w : List Lx} (h : Bracketed o c FieldG l w) : Bracketed o c FieldG l (noSemicolons w) :=
  (Bracketed.spared (field_spared _) ho hc) _ _ (Nat.le_succ _) h

theorem method_spared (n : Nat) : Spared n MethodG := by
  rintro x _ hn ⟨ho, hr, hf, ht, ha⟩
  rw [semi_append, semi_append, semi_tok (by decide), semi_append, semi_append]
  refine .mk (flag_spared (by decide) ho) ?_ (fields_spared (by decide) (by decide) hf) ?_ (annotations_spared ha)
  · cases hr with
    | void => exact .void
    | type h => exact .type (type_spared h)
  · cases ht with
    | none => exact .none
    | some h => rw [semi_tok (by decide)]; exact .some (fields_spared (by decide) (by decide) h)

theorem def_spared (n : Nat) : Spared n DefG := by
  rintro x _ hn h
  cases h with
  | const ht hx hs =>
    rw [semi_tok (by decide), semi_append, semi_tok (by decide), semi_tok (by decide), semi_append]
    exact .const (type_spared ht) (value_spared _ _ _ (Nat.le_refl _) hx) hs.semi
  | typedef ht ha hs =>
    rw [semi_tok (by decide), semi_append, semi_tok (by decide), semi_append]
    exact .typedef (type_spared ht) (annotations_spared ha) hs.semi
  | enum hl ha =>
    rw [semi_tok (by decide), semi_tok (by decide), semi_append]
    exact .enum ((Bracketed.spared (enumValue_spared _) (by decide) (by decide)) _ _ (Nat.le_succ _) hl) (annotations_spared ha)
  | struct hk hl ha =>
    rw [semi_tok (by cases hk <;> decide), semi_tok (by decide), semi_append]
    exact .struct hk (fields_spared (by decide) (by decide) hl) (annotations_spared ha)
  | service he hl ha =>
    rw [semi_tok (by decide), semi_tok (by decide), semi_append, semi_append]
    refine .service ?_ ((Bracketed.spared (method_spared _) (by decide) (by decide)) _ _ (Nat.le_succ _) hl) (annotations_spared ha)
    cases he with
    | none => exact .none
    | some => exact .some

theorem header_spared (n : Nat) : Spared n HeaderG := by
  rintro x _ hn h
  cases h with
  | «include» => exact .include
  | «namespace» hs ha =>
    rw [semi_tok (by decide), semi_append, semi_tok (by decide)]
    refine .namespace ?_ (annotations_spared ha)
    cases hs with
    | all => exact .all
    | name => exact .name

theorem FileG.spared {f : File} {w : List Lx} (h : FileG f w) : FileG f (noSemicolons w) := by
  cases h with
  | mk hh hd =>
    rw [semi_append]
    exact .mk (hh.spared header_spared) (hd.spared def_spared)

end GoThrift.Spec
