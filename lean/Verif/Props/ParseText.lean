import Verif.Proof.Decimal
import Verif.Props.Parse

/-!
# C61: what the error of Parse says
-/

namespace GoThrift

open Spec Idl

/-- The name of the file and a colon, if it has a name. -/
def placed (file : Bytes) : Bytes := if file = [] then [] else file ++ text ":"

theorem ParseFile_inv {env : IdlEnv} {file src : Bytes} {f : File} {t : Option Bytes} (h : ParseFile env file src = .done (f, t)) :
    ∃ errs, Parse env src = .done (f, errs) ∧ t = (errorsErr errs).map (errorsText env file) := by
  obtain ⟨f', errs, hp⟩ := C39_total env src
  unfold ParseFile at h
  rw [hp, Out.bind_done] at h
  injection h with h
  injection h with e1 e2
  dsimp only at e1
  subst e1
  exact ⟨errs, hp, e2.symm⟩

/-- **C61** (nil): `Parse` always returns; the error is nil iff the source is a file of the grammar. -/
theorem C61_nil (env : IdlEnv) (ha : AsciiTables env.u) (file src : Bytes) :
    ∃ f t, ParseFile env file src = .done (f, t) ∧
      (t = none ↔ (∀ c ∈ sourceText src, Chr.Ok c) ∧ ∃ toks, Lex env.u (sourceText src) toks ∧ FileG f toks) := by
  obtain ⟨f, errs, hp⟩ := C39_total env src
  refine ⟨f, (errorsErr errs).map (errorsText env file), by rw [ParseFile, hp, Out.bind_done], ?_⟩
  rw [← C41_grammar env ha src f, hp]
  cases errs with
  | nil => simp [errorsErr]
  | cons e rest => simp [errorsErr]

example : AsciiTables exIdlEnv.u := exTables

/-- **C61** (text): if the error of `Parse` is not nil, its text is the name of the file, the line, the column and the message of an error `e`, and how many more errors there are. Nothing
is wrong before `e`: all other errors are behind it, or at the same place with a text that is not smaller. -/
theorem C61_text (env : IdlEnv) (file src : Bytes) {f : File} {t : Bytes} (h : ParseFile env file src = .done (f, some t)) :
    ∃ e rest line column, Parse env src = .done (f, e :: rest) ∧ e.offset ≤ src.length ∧
      Decimal (lineOf src e.offset) line ∧ Decimal (columnOf src e.offset) column ∧
      (∀ e' ∈ rest, e.offset < e'.offset ∨ (e.offset = e'.offset ∧ TextLE (e.msg.text env) (e'.msg.text env))) ∧
      ((rest = [] ∧ t = placed file ++ line ++ text ":" ++ column ++ text ": " ++ e.msg.text env) ∨
        (rest ≠ [] ∧ ∃ more, Decimal rest.length more ∧
          t = placed file ++ line ++ text ":" ++ column ++ text ": " ++ e.msg.text env ++ text " (and " ++ more ++ text " more errors)")) := by
  obtain ⟨errs, hp, ht⟩ := ParseFile_inv h
  cases errs with
  | nil => cases ht
  | cons e rest =>
    obtain ⟨ho, hl, hc⟩ := C57_parse env src hp e (by simp)
    have hs : (e :: rest).Pairwise (fun a b => a.offset < b.offset ∨ (a.offset = b.offset ∧ TextLE (a.msg.text env) (b.msg.text env))) := by
      obtain ⟨_, _, errs', _, hp', _, _, hs⟩ := C42_errors env src
      rw [hp] at hp'
      injection hp' with hp'
      rw [(Prod.mk.inj hp').2]
      exact hs
    have he : e.text env file = placed file ++ itoa (lineOf src e.offset) ++ text ":" ++ itoa (columnOf src e.offset) ++ text ": " ++ e.msg.text env := by
      rw [PosErr.text, hl, hc, positionText_eq file (lineOf_pos _ _) (columnOf_pos _ _)]
      rfl
    injection ht with ht
    refine ⟨e, rest, itoa _, itoa _, hp, ho, itoa_decimal _, itoa_decimal _, (List.pairwise_cons.1 hs).1, ?_⟩
    rw [← he]
    cases rest with
    | nil => exact .inl ⟨rfl, ht⟩
    | cons e2 rest => exact .inr ⟨by simp, _, itoa_decimal _, ht⟩

/-- `exBad` in the file `a.thrift`. -/
theorem exBad_text : ParseFile exIdlEnv (text "a.thrift") exBad =
    .done (⟨[], [.enum [] [] none]⟩, some (text "a.thrift:1:1: invalid character  (and 3 more errors)")) := by decide +kernel

example : ∃ f t, ParseFile exIdlEnv (text "a.thrift") exBad = .done (f, some t) := ⟨_, _, exBad_text⟩

/-- **C61** (located): the text of the error and the name of the file determine the line and the column: they are those of the first error in any source that `Parse` describes in this way. -/
theorem C61_located (env env' : IdlEnv) (file src src' : Bytes) {f f' : File} {t : Bytes} (h : ParseFile env file src = .done (f, some t)) (h' : ParseFile env' file src' = .done (f', some t)) :
    ∃ e rest e' rest', Parse env src = .done (f, e :: rest) ∧ Parse env' src' = .done (f', e' :: rest') ∧
      lineOf src e.offset = lineOf src' e'.offset ∧ columnOf src e.offset = columnOf src' e'.offset := by
  obtain ⟨e, rest, l, c, hp, _, hl, hc, _, ht⟩ := C61_text env file src h
  obtain ⟨e', rest', l', c', hp', _, hl', hc', _, ht'⟩ := C61_text env' file src' h'
  have hcol : text ":" = [0x3a] := by decide +kernel
  have hcol2 : text ": " = [0x3a, 0x20] := by decide +kernel
  have shape : ∃ r, t = placed file ++ (l ++ 0x3a :: (c ++ 0x3a :: r)) := by
    rcases ht with ⟨_, ht⟩ | ⟨_, m, _, ht⟩ <;> rw [ht, hcol, hcol2] <;> simp only [List.append_assoc, List.cons_append, List.nil_append] <;> exact ⟨_, rfl⟩
  have shape' : ∃ r, t = placed file ++ (l' ++ 0x3a :: (c' ++ 0x3a :: r)) := by
    rcases ht' with ⟨_, ht⟩ | ⟨_, m, _, ht⟩ <;> rw [ht, hcol, hcol2] <;> simp only [List.append_assoc, List.cons_append, List.nil_append] <;> exact ⟨_, rfl⟩
  obtain ⟨r, h1⟩ := shape
  obtain ⟨r', h2⟩ := shape'
  rw [h1] at h2
  obtain ⟨e1, e2⟩ := colon_split (decimal_no_colon hl) (decimal_no_colon hl') (List.append_cancel_left h2)
  obtain ⟨e3, _⟩ := colon_split (decimal_no_colon hc) (decimal_no_colon hc') e2
  subst e1
  subst e3
  exact ⟨e, rest, e', rest', hp, hp', hl.2.2.1.symm.trans hl'.2.2.1, hc.2.2.1.symm.trans hc'.2.2.1⟩

example : ∃ f t, ParseFile exIdlEnv (text "a.thrift") exBad = .done (f, some t) := ⟨_, _, exBad_text⟩

/-- What is wrong, as the documentation of the language would have it: ten kinds of errors. -/
def Spec.errorKind : Msg → String
  | .nul => "NUL in the source"
  | .utf8 => "not UTF-8"
  | .bom => "byte order mark inside the source"
  | .char _ => "character that begins no token"
  | .identBegin _ => "number followed by a letter"
  | .newline => "newline in a string"
  | .unterminatedString => "string without end"
  | .escape => "escape that does not exist"
  | .unterminatedComment => "comment without end"
  | .expected _ _ => "syntax error"

/-- How the text of each kind of error begins. -/
def errorHead : Msg → Bytes
  | .nul => text "illegal c"
  | .utf8 => text "illegal U"
  | .bom => text "illegal b"
  | .char _ => text "invalid c"
  | .identBegin _ => text "identifie"
  | .newline => text "newline i"
  | .unterminatedString => text "string no"
  | .escape => text "unknown e"
  | .unterminatedComment => text "comment n"
  | .expected _ _ => text "expected "

theorem errorHead_take (env : IdlEnv) (m : Msg) : (m.text env).take 9 = errorHead m := by
  cases m with
  | char ch => rw [Msg.text, List.take_append_of_le_length (by decide +kernel)]; simp only [errorHead]; decide +kernel
  | identBegin ch => rw [Msg.text, List.take_append_of_le_length (by decide +kernel)]; simp only [errorHead]; decide +kernel
  | expected w f => unfold Msg.text; dsimp only; rw [List.append_assoc, List.take_append_of_le_length (by decide +kernel)]; simp only [errorHead]; decide +kernel
  | _ => simp only [Msg.text, errorHead]; decide +kernel

/-- **C61** (kind): the text of a message tells which of the ten kinds of errors it is about, whatever `%#U` prints. -/
theorem C61_kind (env env' : IdlEnv) (m m' : Msg) (h : m.text env = m'.text env') : errorKind m = errorKind m' := by
  have h : errorHead m = errorHead m' := by rw [← errorHead_take env, ← errorHead_take env', h]
  cases m <;> cases m' <;> first | rfl | exact absurd h (by simp only [errorHead]; decide +kernel)

example : errorKind .newline ≠ errorKind .escape ∧ Msg.newline.text exIdlEnv ≠ Msg.escape.text exIdlEnv := by decide +kernel

end GoThrift
