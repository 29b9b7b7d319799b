import Verif.Model.ErrorText
import Verif.Spec.Arshal

/-!
# C55: the texts of errors
-/

namespace GoThrift

open Spec

/-- **C55** (prefix): the text of every SemanticError, and of the wrapper that names the failed method, begins with "thrift: ". -/
theorem C55_prefix (n : Texts) (phrases : Nat → Bool) (e : Err) (h : (∃ act, IsSemantic act e) ∨ ∃ action err, e = .wire action err) :
    "thrift: ".toList <+: (errorText n phrases e).toList := by
  have hs : ∀ b act tt t (s : String), "thrift: ".toList <+: (semanticText n b act tt t ++ s).toList := by
    intro b act tt t s
    simp only [semanticText]
    cases t <;> cases thriftTypeText tt <;> simp only [Option.isSome, if_true, if_false, Bool.false_eq_true, String.append_assoc, String.toList_append] <;> exact List.prefix_append _ _
  rcases h with ⟨act, h⟩ | ⟨action, err, rfl⟩
  · cases e with
    | semantic a tt t =>
      have := hs (phrases 0) a tt t ""
      rwa [String.append_empty] at this
    | semanticE a tt t err =>
      simp only [errorText, String.append_assoc]
      exact hs _ _ _ _ _
    | _ => exact h.elim
  · simp only [errorText, String.append_assoc, String.toList_append]
    exact List.prefix_append _ _

/-- **C55** (cause): the text of an error that wraps another ends with a text of that one, and so on down the chain. -/
theorem C55_cause (n : Texts) (e e' : Err) (h : Reaches e e') (phrases : Nat → Bool) : ∃ phrases', (errorText n phrases' e').toList <:+ (errorText n phrases e).toList := by
  induction h generalizing phrases with
  | refl e => exact ⟨phrases, List.suffix_refl _⟩
  | @step e e1 e' hu _ ih =>
    have : ∃ q, (errorText n q e1).toList <:+ (errorText n phrases e).toList := by
      cases e with
      | wire action err =>
        cases hu
        refine ⟨phrases, ?_⟩
        rw [errorText, String.toList_append]
        exact List.suffix_append _ _
      | semanticE a tt t err =>
        cases hu
        refine ⟨fun i => phrases (i + 1), ?_⟩
        rw [errorText, String.toList_append]
        exact List.suffix_append _ _
      | _ => cases hu
    obtain ⟨q, hq⟩ := this
    obtain ⟨q', hq'⟩ := ih q
    exact ⟨q', hq'.trans hq⟩

/-- **C55** (two renderings): a SemanticError that wraps no other SemanticError has only two texts, which differ in the phrase after the prefix. -/
theorem C55_two_renderings (n : Texts) (e : Err) (act : Action) (h : IsSemantic act e) (hn : ∀ e1 e2 act', unwrap e = some e1 → Reaches e1 e2 → ¬ IsSemantic act' e2) :
    ∃ rest, ∀ phrases, errorText n phrases e = "thrift: " ++ (if phrases 0 then "cannot" else "unable to") ++ rest := by
  have flat : ∀ e, (∀ e2 act', Reaches e e2 → ¬ IsSemantic act' e2) → ∀ p q, errorText n p e = errorText n q e := by
    intro e
    induction e with
    | wire action err ih =>
      intro h p q
      rw [errorText, errorText, ih (fun e2 act' hr => h e2 act' (.step rfl hr)) p q]
    | semantic a tt t => intro h; exact absurd rfl (h _ a (.refl _))
    | semanticE a tt t err => intro h; exact absurd rfl (h _ a (.refl _))
    | _ => intro _ p q; rfl
  have hs : ∀ act tt t, ∃ rest, ∀ b, semanticText n b act tt t = "thrift: " ++ (if b then "cannot" else "unable to") ++ rest := by
    intro act tt t
    simp only [semanticText]
    cases t <;> cases thriftTypeText tt <;> cases act <;> simp only [Option.isSome, if_true, if_false, Bool.false_eq_true, String.append_assoc] <;> exact ⟨_, fun b => rfl⟩
  cases e with
  | semantic a tt t =>
    obtain ⟨rest, hr⟩ := hs a tt t
    exact ⟨rest, fun p => hr (p 0)⟩
  | semanticE a tt t err =>
    obtain ⟨rest, hr⟩ := hs a tt t
    refine ⟨rest ++ (": " ++ errorText n (fun _ => true) err), fun p => ?_⟩
    rw [errorText, hr, flat err (fun e2 act' hr => hn err e2 act' rfl hr) _ (fun _ => true)]
    simp only [String.append_assoc]
  | _ => exact h.elim

/-- The twelve Thrift types of values. -/
def thriftTypes : List WType := [Ty.bool, Ty.byte, Ty.double, Ty.i16, Ty.i32, Ty.i64, Ty.string, Ty.struct, Ty.map, Ty.set, Ty.list, Ty.uuid]

/-- What comes before the Go type, by phrase, action and Thrift type. -/
def semanticHead (x : Bool × Action × WType) : List Char := (semanticText ⟨fun _ => "", fun _ => ""⟩ x.1 x.2.1 x.2.2 (some 0)).toList

/-- All of them. -/
def semanticHeads : List (Bool × Action × WType) := [true, false].flatMap fun p => [Action.marshal, .unmarshal].flatMap fun a => thriftTypes.map fun t => (p, a, t)

theorem semanticHead_nodup : (semanticHeads.map semanticHead).Nodup := by
  decide +kernel

/-- **C55** (informative): for one Go type and one cause, the text tells the action and the Thrift type. -/
theorem C55_informative (n : Texts) (p q : Nat → Bool) (a b : Action) (tt tt' : WType) (ht : tt ∈ thriftTypes) (ht' : tt' ∈ thriftTypes) (t : Nat)
    (h : errorText n p (.semantic a tt (some t)) = errorText n q (.semantic b tt' (some t))) : a = b ∧ tt = tt' := by
  have split : ∀ ph act tt, (semanticText n ph act tt (some t)).toList = semanticHead (ph, act, tt) ++ (n.goType t).toList := by
    intro ph act tt
    simp only [semanticHead, semanticText, String.toList_append, String.toList_empty, List.append_nil]
  rw [errorText, errorText] at h
  have h := congrArg String.toList h
  rw [split, split] at h
  have h := List.append_cancel_right h
  have hmem : ∀ (ph : Bool) (act : Action) (tt : WType), tt ∈ thriftTypes →
      (ph, act, tt) ∈ semanticHeads := by
    intro ph act tt htt
    simp only [semanticHeads, List.mem_flatMap, List.mem_map]
    exact ⟨ph, by cases ph <;> simp, act, by cases act <;> simp, tt, htt, rfl⟩
  obtain ⟨i, hi⟩ := List.mem_iff_getElem?.1 (hmem (p 0) a tt ht)
  obtain ⟨j, hj⟩ := List.mem_iff_getElem?.1 (hmem (q 0) b tt' ht')
  obtain ⟨li, ei⟩ := List.getElem?_eq_some_iff.1 hi
  obtain ⟨lj, ej⟩ := List.getElem?_eq_some_iff.1 hj
  have : i = j := (List.getElem_inj (i := i) (j := j) (h₀ := by simpa using li) (h₁ := by simpa using lj) semanticHead_nodup).1 (by rw [List.getElem_map, List.getElem_map, ei, ej]; exact h)
  subst this
  rw [hi] at hj
  have hj := Option.some.inj hj
  exact ⟨congrArg (·.2.1) hj, congrArg (·.2.2) hj⟩

/-- The names of the Thrift types, by their numbers in the protocols. -/
def thriftNames : List (WType × String) :=
  [(2, "bool"), (3, "byte"), (4, "double"), (6, "i16"), (8, "i32"), (10, "i64"), (11, "string"), (12, "struct"), (13, "map"), (14, "set"), (15, "list"), (16, "UUID")]

/-- **C55** (text): an error about a Thrift type and a Go type says what was to be made from or into what. -/
theorem C55_text (n : Texts) (phrases : Nat → Bool) (tt : WType) (name : String) (h : (tt, name) ∈ thriftNames) (t : Nat) :
    errorText n phrases (.semantic .marshal tt (some t)) = "thrift: " ++ (if phrases 0 then "cannot" else "unable to") ++ " marshal Thrift " ++ name ++ " from Go value of type " ++ n.goType t ∧
    errorText n phrases (.semantic .unmarshal tt (some t)) = "thrift: " ++ (if phrases 0 then "cannot" else "unable to") ++ " unmarshal Thrift " ++ name ++ " into Go value of type " ++ n.goType t := by
  have key : ∀ x ∈ thriftNames, thriftTypeText x.1 = some (" Thrift " ++ x.2) := by decide +kernel
  have h := key _ h
  have e1 : " from" ++ " Go value of type " = " from Go value of type " := by decide
  have e2 : " into" ++ " Go value of type " = " into Go value of type " := by decide
  have e3 : " marshal" ++ " Thrift " = " marshal Thrift " := by decide
  have e4 : " unmarshal" ++ " Thrift " = " unmarshal Thrift " := by decide
  rw [← e1, ← e2, ← e3, ← e4]
  simp only [errorText, semanticText, h, Option.isSome, if_true, String.append_assoc, and_self]

/-- **C55** (text): an error about a Go type only, as for a nil or non-pointer argument or an unsupported type, has no preposition. -/
theorem C55_text_untyped (n : Texts) (phrases : Nat → Bool) (tt : WType) (h : ∀ name, (tt, name) ∉ thriftNames) (t : Nat) :
    errorText n phrases (.semantic .marshal tt (some t)) = "thrift: " ++ (if phrases 0 then "cannot" else "unable to") ++ " marshal Go value of type " ++ n.goType t ∧
    errorText n phrases (.semantic .unmarshal tt (some t)) = "thrift: " ++ (if phrases 0 then "cannot" else "unable to") ++ " unmarshal Go value of type " ++ n.goType t := by
  have key : ∀ tt : WType, (thriftTypeText tt).isSome = true → tt ∈ thriftNames.map (·.1) := by decide +kernel
  have h : thriftTypeText tt = none := by
    cases hs : thriftTypeText tt with
    | none => rfl
    | some x =>
      obtain ⟨⟨tt', name⟩, hm, rfl⟩ := List.mem_map.1 (key tt (by rw [hs]; rfl))
      exact absurd hm (h name)
  have e1 : " marshal" ++ " Go value of type " = " marshal Go value of type " := by decide
  have e2 : " unmarshal" ++ " Go value of type " = " unmarshal Go value of type " := by decide
  rw [← e1, ← e2]
  simp only [errorText, semanticText, h, Option.isSome, Bool.false_eq_true, if_false, String.append_assoc, and_self]

/-- The hypotheses of both. -/
example : (Ty.set, "set") ∈ thriftNames ∧ ∀ name, ((0 : WType), name) ∉ thriftNames := ⟨by decide, fun name h => by simp [thriftNames] at h⟩

example : errorText ⟨fun _ => "chan int", fun _ => "EOF"⟩ (fun _ => true) (.semanticE .unmarshal Ty.i32 (some 9) (.wire "ReadI32" .eof)) =
    "thrift: cannot unmarshal Thrift i32 into Go value of type chan int: thrift: ReadI32: EOF" := by decide +kernel

end GoThrift
