import Verif.Proof.Tag
import Verif.Spec.Example

/-!
# Property C17: the grammar of struct tags
-/

namespace GoThrift

open Spec

theorem cutComma_tag (s : Bytes) (opts : List Bytes) (hs : (0x2c : Byte) ∉ s) : cutComma (s ++ optText opts) = (s, optText opts) :=
  cutComma_eq s _ hs (optText_head opts)

theorem decimalInt_no_comma {s : Bytes} {n : Int} (h : DecimalInt s n) : (0x2c : Byte) ∉ s := by
  obtain ⟨ds, _, hd, h⟩ := h
  have hds : (0x2c : Byte) ∉ ds := fun hm => absurd (hd _ hm) (by decide)
  rcases h with ⟨rfl, _⟩ | ⟨rfl, _⟩ | ⟨rfl, _⟩
  · exact hds
  · simp only [List.mem_cons, not_or]; exact ⟨by decide, hds⟩
  · simp only [List.mem_cons, not_or]; exact ⟨by decide, hds⟩

/-- **C17** (acceptance): an exported field whose tag is not `-` is accepted, with this id and this `required`, exactly if its tag is a decimal int16 of that
value followed by comma-separated options which are identifiers, pairwise different, none of them a misspelling of `required`, and `required` is set exactly if it
is one of them. -/
theorem C17_accepted (u : Unicode) (sf : FieldDecl) (he : sf.exported = true)
    (ht : sf.tag.getD [] ≠ [0x2d]) (id : BitVec 16) (name : Bytes) (required : Bool) :
    parseFieldOptions u sf = .done (⟨id, name, required⟩, false, none) ↔ name = sf.name ∧ TagDeclares u (sf.tag.getD []) id required := by
  have ht' : sf.tag.getD [] ≠ ascii "-" := ht
  rw [parseFieldOptions]
  dsimp only
  rw [if_neg ht', if_neg (by rw [he]; simp)]
  generalize sf.tag.getD [] = tag
  constructor
  · intro h
    cases hp : parseInt (cutComma tag).1 with
    | none => rw [hp] at h; cases h
    | some i =>
      rw [hp] at h
      dsimp only at h
      obtain ⟨req', err', h1, _⟩ := optionLoop_done u (cutComma tag).2.length (cutComma tag).2 false none [] (Nat.le_refl _)
      rw [h1, Out.bind_done] at h
      injection h with h
      injection h with h2 h3
      injection h3 with _ h3
      injection h2 with h4 h5 h6
      dsimp only at h3 h6
      subst h3 h4 h6
      rw [optionLoop_ok u _ _ _ _ (Nat.le_refl _)] at h1
      obtain ⟨opts, o1, o2, o3, _, o5⟩ := h1
      refine ⟨h5.symm, (cutComma tag).1, opts, ?_, (parseInt_spec _ _).1 hp, o2, o3, ?_⟩
      · rw [← show optText opts = (opts.map (0x2c :: ·)).flatten from rfl, ← o1, cutComma_append]
      · rw [o5]; simp
  · rintro ⟨rfl, s, opts, h1, h2, h3, h4, h5⟩
    have h1' : tag = s ++ optText opts := h1
    have hc := cutComma_tag s opts (decimalInt_no_comma h2)
    rw [← h1'] at hc
    rw [hc]
    dsimp only
    rw [(parseInt_spec _ _).2 h2]
    dsimp only
    have := (optionLoop_ok u (optText opts).length (optText opts) false [] (Nat.le_refl _) required).2
      ⟨opts, rfl, h3, h4, by simp, by cases required <;> simp_all⟩
    rw [this, Out.bind_done]

/-- **C17** (rejection): an exported field whose tag is not `-` and does not follow the grammar is an error. -/
theorem C17_rejected (u : Unicode) (sf : FieldDecl) (he : sf.exported = true)
    (ht : sf.tag.getD [] ≠ [0x2d]) (hno : ¬ ∃ id required, TagDeclares u (sf.tag.getD []) id required) :
    ∃ o ignored e, parseFieldOptions u sf = .done (o, ignored, some e) := by
  have hacc := C17_accepted u sf he ht
  have ht' : sf.tag.getD [] ≠ ascii "-" := ht
  rw [parseFieldOptions] at hacc ⊢
  dsimp only at hacc ⊢
  rw [if_neg ht', if_neg (by rw [he]; simp)] at hacc ⊢
  generalize sf.tag.getD [] = tag at *
  cases hp : parseInt (cutComma tag).1 with
  | none => exact ⟨_, _, _, rfl⟩
  | some i =>
    rw [hp] at hacc
    dsimp only at hacc ⊢
    obtain ⟨req', err', h1, _⟩ := optionLoop_done u (cutComma tag).2.length (cutComma tag).2 false none [] (Nat.le_refl _)
    rw [h1, Out.bind_done] at hacc ⊢
    cases err' with
    | none => exact absurd ⟨i, req', ((hacc i sf.name req').1 rfl).2⟩ hno
    | some e => exact ⟨_, _, _, rfl⟩

/-- **C17** (`-`): the field is ignored, whether exported or not. -/
theorem C17_dash (u : Unicode) (sf : FieldDecl) (ht : sf.tag = some [0x2d]) : ∃ o, parseFieldOptions u sf = .done (o, true, none) := by
  have : sf.tag.getD [] = ascii "-" := by rw [ht]; rfl
  exact ⟨_, by rw [parseFieldOptions]; dsimp only; rw [if_pos this]⟩

/-- **C17** (unexported): an unexported field is ignored without a tag and an error with any tag but `-`. -/
theorem C17_unexported (u : Unicode) (sf : FieldDecl) (he : sf.exported = false) :
    (sf.tag = none → ∃ o, parseFieldOptions u sf = .done (o, true, none)) ∧
    (∀ tag, sf.tag = some tag → tag ≠ [0x2d] → ∃ o e, parseFieldOptions u sf = .done (o, true, some e)) := by
  constructor
  · intro ht
    have : sf.tag.getD [] ≠ ascii "-" := by rw [ht]; decide
    exact ⟨_, by rw [parseFieldOptions]; dsimp only; rw [if_neg this, if_pos he, ht]; rfl⟩
  · intro tag ht hne
    have : sf.tag.getD [] ≠ ascii "-" := by rw [ht]; exact hne
    exact ⟨_, _, by rw [parseFieldOptions]; dsimp only; rw [if_neg this, if_pos he, ht]; rfl⟩

/-- **C17** (termination): parsing a tag returns, for every field and every `unicode` package. -/
theorem C17_terminates (u : Unicode) (sf : FieldDecl) : ∃ r, parseFieldOptions u sf = .done r := by
  rw [parseFieldOptions]
  dsimp only
  split
  · exact ⟨_, rfl⟩
  · split
    · exact ⟨_, rfl⟩
    · cases parseInt (cutComma (sf.tag.getD [])).1 with
      | none => exact ⟨_, rfl⟩
      | some i =>
        obtain ⟨req', err', h1, _⟩ := optionLoop_done u (cutComma (sf.tag.getD [])).2.length (cutComma (sf.tag.getD [])).2 false none [] (Nat.le_refl _)
        exact ⟨_, by dsimp only; rw [h1, Out.bind_done]⟩

/-- `-12,foo,required` -/
example : parseFieldOptions asciiUnicode ⟨ascii "F", true, some (ascii "-12,foo,required"), 0⟩ =
    .done (⟨-12, ascii "F", true⟩, false, none) := by decide +kernel
/-- the grammar's side of the same example -/
example : TagDeclares asciiUnicode (ascii "-12,foo,required") (-12) true :=
  ((C17_accepted asciiUnicode ⟨ascii "F", true, some (ascii "-12,foo,required"), 0⟩ rfl (by decide) (-12)
    (ascii "F") true).1 (by decide +kernel)).2
/-- out of range, trailing comma, doubled option, misspelt option: all are errors -/
example : ∀ t ∈ ["32768", "1,", "1,a,a", "1,Required", "", "1 ", "1,a b"],
    ∃ o i e, parseFieldOptions asciiUnicode ⟨ascii "F", true, some (ascii t), 0⟩ = .done (o, i, some e) := by
  intro t ht
  simp only [List.mem_cons, List.not_mem_nil, or_false] at ht
  rcases ht with rfl | rfl | rfl | rfl | rfl | rfl | rfl
  all_goals exact ⟨_, _, _, rfl⟩

end GoThrift
