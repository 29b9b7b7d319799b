import Verif.Spec.ZMemo

/-!
# zmemo.go, method by method
-/

namespace GoThrift.MemoGen

/-- The text of a method is that of these lines. -/
def Same (recv : Text) (body : Sig → Option (List Stmt)) (m : Sig) (ls : List Text) : Prop := (body m).map (fun b => squeeze (method recv m b)) = some (ls.flatMap squeeze)

instance : Decidable (Same recv body m ls) := inferInstanceAs (Decidable (_ = _))

def AllSame (recv : Text) (body : Sig → Option (List Stmt)) : List Sig → List (List Text) → Prop
  | [], [] => True
  | m :: l, p :: ps => Same recv body m p ∧ AllSame recv body l ps
  | _, _ => False

theorem squeeze_append (a b : Text) : squeeze (a ++ b) = squeeze a ++ squeeze b := by simp [squeeze, List.filter_append]

theorem methods_same {recv : Text} {body : Sig → Option (List Stmt)} : ∀ {l : List Sig} {ps : List (List Text)}, AllSame recv body l ps → (methods recv body l).map squeeze = some (ps.flatten.flatMap squeeze)
  | [], [], _ => rfl
  | [], _ :: _, h => h.elim
  | _ :: _, [], h => h.elim
  | m :: l, p :: ps, h => by
    obtain ⟨h1, h2⟩ := h
    have h2 := methods_same h2
    unfold Same at h1
    cases hb : body m with
    | none => rw [hb] at h1; simp at h1
    | some b =>
      rw [hb] at h1
      simp only [Option.map_some, Option.some.injEq] at h1
      cases ht : methods recv body l with
      | none => rw [ht] at h2; simp at h2
      | some t =>
        rw [ht] at h2
        simp only [Option.map_some, Option.some.injEq] at h2
        simp only [methods, hb, ht, Option.bind_some, Option.map_some, squeeze_append, h1, h2, List.flatten_cons, List.flatMap_append]

theorem reader_0 : Same (c! "m *memoReader") readerBody (readerSigs[0]'(by decide)) (zreader[0]'(by decide)) := by decide +kernel
theorem reader_1 : Same (c! "m *memoReader") readerBody (readerSigs[1]'(by decide)) (zreader[1]'(by decide)) := by decide +kernel
theorem reader_2 : Same (c! "m *memoReader") readerBody (readerSigs[2]'(by decide)) (zreader[2]'(by decide)) := by decide +kernel
theorem reader_3 : Same (c! "m *memoReader") readerBody (readerSigs[3]'(by decide)) (zreader[3]'(by decide)) := by decide +kernel
theorem reader_4 : Same (c! "m *memoReader") readerBody (readerSigs[4]'(by decide)) (zreader[4]'(by decide)) := by decide +kernel
theorem reader_5 : Same (c! "m *memoReader") readerBody (readerSigs[5]'(by decide)) (zreader[5]'(by decide)) := by decide +kernel
theorem reader_6 : Same (c! "m *memoReader") readerBody (readerSigs[6]'(by decide)) (zreader[6]'(by decide)) := by decide +kernel
theorem reader_7 : Same (c! "m *memoReader") readerBody (readerSigs[7]'(by decide)) (zreader[7]'(by decide)) := by decide +kernel
theorem reader_8 : Same (c! "m *memoReader") readerBody (readerSigs[8]'(by decide)) (zreader[8]'(by decide)) := by decide +kernel
theorem reader_9 : Same (c! "m *memoReader") readerBody (readerSigs[9]'(by decide)) (zreader[9]'(by decide)) := by decide +kernel
theorem reader_10 : Same (c! "m *memoReader") readerBody (readerSigs[10]'(by decide)) (zreader[10]'(by decide)) := by decide +kernel
theorem reader_11 : Same (c! "m *memoReader") readerBody (readerSigs[11]'(by decide)) (zreader[11]'(by decide)) := by decide +kernel
theorem reader_12 : Same (c! "m *memoReader") readerBody (readerSigs[12]'(by decide)) (zreader[12]'(by decide)) := by decide +kernel
theorem reader_13 : Same (c! "m *memoReader") readerBody (readerSigs[13]'(by decide)) (zreader[13]'(by decide)) := by decide +kernel
theorem reader_14 : Same (c! "m *memoReader") readerBody (readerSigs[14]'(by decide)) (zreader[14]'(by decide)) := by decide +kernel
theorem reader_15 : Same (c! "m *memoReader") readerBody (readerSigs[15]'(by decide)) (zreader[15]'(by decide)) := by decide +kernel
theorem reader_16 : Same (c! "m *memoReader") readerBody (readerSigs[16]'(by decide)) (zreader[16]'(by decide)) := by decide +kernel
theorem reader_17 : Same (c! "m *memoReader") readerBody (readerSigs[17]'(by decide)) (zreader[17]'(by decide)) := by decide +kernel
theorem reader_18 : Same (c! "m *memoReader") readerBody (readerSigs[18]'(by decide)) (zreader[18]'(by decide)) := by decide +kernel
theorem reader_19 : Same (c! "m *memoReader") readerBody (readerSigs[19]'(by decide)) (zreader[19]'(by decide)) := by decide +kernel
theorem reader_20 : Same (c! "m *memoReader") readerBody (readerSigs[20]'(by decide)) (zreader[20]'(by decide)) := by decide +kernel
theorem reader_21 : Same (c! "m *memoReader") readerBody (readerSigs[21]'(by decide)) (zreader[21]'(by decide)) := by decide +kernel
theorem reader_22 : Same (c! "m *memoReader") readerBody (readerSigs[22]'(by decide)) (zreader[22]'(by decide)) := by decide +kernel
theorem reader_23 : Same (c! "m *memoReader") readerBody (readerSigs[23]'(by decide)) (zreader[23]'(by decide)) := by decide +kernel

theorem reader_same : AllSame (c! "m *memoReader") readerBody readerSigs zreader :=
  ⟨reader_0, reader_1, reader_2, reader_3, reader_4, reader_5, reader_6, reader_7, reader_8, reader_9, reader_10, reader_11, reader_12, reader_13, reader_14, reader_15, reader_16, reader_17, reader_18, reader_19, reader_20, reader_21, reader_22, reader_23, trivial⟩

theorem writer_0 : Same (c! "m *memoWriter") writerBody (writerSigs[0]'(by decide)) (zwriter[0]'(by decide)) := by decide +kernel
theorem writer_1 : Same (c! "m *memoWriter") writerBody (writerSigs[1]'(by decide)) (zwriter[1]'(by decide)) := by decide +kernel
theorem writer_2 : Same (c! "m *memoWriter") writerBody (writerSigs[2]'(by decide)) (zwriter[2]'(by decide)) := by decide +kernel
theorem writer_3 : Same (c! "m *memoWriter") writerBody (writerSigs[3]'(by decide)) (zwriter[3]'(by decide)) := by decide +kernel
theorem writer_4 : Same (c! "m *memoWriter") writerBody (writerSigs[4]'(by decide)) (zwriter[4]'(by decide)) := by decide +kernel
theorem writer_5 : Same (c! "m *memoWriter") writerBody (writerSigs[5]'(by decide)) (zwriter[5]'(by decide)) := by decide +kernel
theorem writer_6 : Same (c! "m *memoWriter") writerBody (writerSigs[6]'(by decide)) (zwriter[6]'(by decide)) := by decide +kernel
theorem writer_7 : Same (c! "m *memoWriter") writerBody (writerSigs[7]'(by decide)) (zwriter[7]'(by decide)) := by decide +kernel
theorem writer_8 : Same (c! "m *memoWriter") writerBody (writerSigs[8]'(by decide)) (zwriter[8]'(by decide)) := by decide +kernel
theorem writer_9 : Same (c! "m *memoWriter") writerBody (writerSigs[9]'(by decide)) (zwriter[9]'(by decide)) := by decide +kernel
theorem writer_10 : Same (c! "m *memoWriter") writerBody (writerSigs[10]'(by decide)) (zwriter[10]'(by decide)) := by decide +kernel
theorem writer_11 : Same (c! "m *memoWriter") writerBody (writerSigs[11]'(by decide)) (zwriter[11]'(by decide)) := by decide +kernel
theorem writer_12 : Same (c! "m *memoWriter") writerBody (writerSigs[12]'(by decide)) (zwriter[12]'(by decide)) := by decide +kernel
theorem writer_13 : Same (c! "m *memoWriter") writerBody (writerSigs[13]'(by decide)) (zwriter[13]'(by decide)) := by decide +kernel
theorem writer_14 : Same (c! "m *memoWriter") writerBody (writerSigs[14]'(by decide)) (zwriter[14]'(by decide)) := by decide +kernel
theorem writer_15 : Same (c! "m *memoWriter") writerBody (writerSigs[15]'(by decide)) (zwriter[15]'(by decide)) := by decide +kernel
theorem writer_16 : Same (c! "m *memoWriter") writerBody (writerSigs[16]'(by decide)) (zwriter[16]'(by decide)) := by decide +kernel
theorem writer_17 : Same (c! "m *memoWriter") writerBody (writerSigs[17]'(by decide)) (zwriter[17]'(by decide)) := by decide +kernel
theorem writer_18 : Same (c! "m *memoWriter") writerBody (writerSigs[18]'(by decide)) (zwriter[18]'(by decide)) := by decide +kernel
theorem writer_19 : Same (c! "m *memoWriter") writerBody (writerSigs[19]'(by decide)) (zwriter[19]'(by decide)) := by decide +kernel
theorem writer_20 : Same (c! "m *memoWriter") writerBody (writerSigs[20]'(by decide)) (zwriter[20]'(by decide)) := by decide +kernel
theorem writer_21 : Same (c! "m *memoWriter") writerBody (writerSigs[21]'(by decide)) (zwriter[21]'(by decide)) := by decide +kernel
theorem writer_22 : Same (c! "m *memoWriter") writerBody (writerSigs[22]'(by decide)) (zwriter[22]'(by decide)) := by decide +kernel

theorem writer_same : AllSame (c! "m *memoWriter") writerBody writerSigs zwriter :=
  ⟨writer_0, writer_1, writer_2, writer_3, writer_4, writer_5, writer_6, writer_7, writer_8, writer_9, writer_10, writer_11, writer_12, writer_13, writer_14, writer_15, writer_16, writer_17, writer_18, writer_19, writer_20, writer_21, writer_22, trivial⟩

def head : Text := c! "// Code generated by " ++ quote (c! "go run tmemogen.go") ++ c! "; DO NOT EDIT.\n\n" ++ c! "package thriftmemo\n\n" ++ c! "import (\n" ++ quote (c! "io") ++ c! "\n" ++ c! "\n" ++
    quote (c! "github.com/itstarsun/go-thrift/encoding/thriftwire") ++ c! "\n" ++ c! ")\n\n"

theorem head_same : squeeze head = zhead.flatMap squeeze := by decide +kernel

theorem generate_same : (generate readerSigs writerSigs).map squeeze = some (zmemo.flatMap squeeze) := by
  have hr := methods_same reader_same
  have hw := methods_same writer_same
  have h0 := head_same
  unfold generate
  cases ht : methods (c! "m *memoReader") readerBody readerSigs with
  | none => rw [ht] at hr; simp at hr
  | some tr =>
    cases hu : methods (c! "m *memoWriter") writerBody writerSigs with
    | none => rw [hu] at hw; simp at hw
    | some tw =>
      rw [ht] at hr
      rw [hu] at hw
      simp only [Option.map_some, Option.some.injEq] at hr hw
      simp only [Option.bind_some, Option.map_some]
      rw [show ∀ a b : Text, squeeze (a ++ tr ++ b) = squeeze a ++ squeeze tr ++ squeeze b from fun a b => by simp only [squeeze_append], show zmemo.flatMap squeeze = zhead.flatMap squeeze ++ zreader.flatten.flatMap squeeze ++ zwriter.flatten.flatMap squeeze from by simp only [zmemo, List.flatMap_append], ← h0, hr, hw]
      rfl

end GoThrift.MemoGen
