import Verif.Spec.MemoGen

/-!
# The generator at interfaces yet to be written
-/

namespace GoThrift.MemoGen

theorem cutPrefix_append (p s : Text) : cutPrefix (p ++ s) p = some s := by
  simp [cutPrefix]

theorem cutPrefix_some {s p t : Text} (h : cutPrefix s p = some t) : s = p ++ t := by
  unfold cutPrefix at h
  split at h
  · rename_i hp
    cases h
    obtain ⟨u, rfl⟩ := List.isPrefixOf_iff_prefix.mp hp
    simp
  · cases h

theorem cutPrefix_none {s p : Text} : cutPrefix s p = none ↔ ¬ ∃ t, s = p ++ t := by
  refine ⟨fun h ⟨t, e⟩ => ?_, fun h => ?_⟩
  · rw [e, cutPrefix_append] at h
    cases h
  · cases hc : cutPrefix s p with
    | none => rfl
    | some t => exact (h ⟨t, cutPrefix_some hc⟩).elim

theorem advance_none {m : Sig} : advance m = none ↔ m.outs.getLast? ≠ some (c! "error") := by
  unfold advance
  split <;> simp_all

theorem advance_some {m : Sig} (h : m.outs.getLast? = some (c! "error")) : advance m = some (.advance (m.outs.length - 1)) := by
  unfold advance
  rw [if_pos h]

theorem methods_none {recv : Text} {body : Sig → Option (List Stmt)} : ∀ {l : List Sig}, methods recv body l = none ↔ ∃ m ∈ l, body m = none
  | [] => by simp [methods]
  | m :: l => by
    have ih := methods_none (recv := recv) (body := body) (l := l)
    simp only [methods]
    cases hb : body m with
    | none => simp [hb]
    | some b =>
      cases ht : methods recv body l with
      | none => simp [hb, ih.mp ht]
      | some t =>
        have : ¬ ∃ m ∈ l, body m = none := fun h => by rw [ih.mpr h] at ht; cases ht
        simp only [Option.bind_some, reduceCtorEq, false_iff]
        rintro ⟨m', hm, h⟩
        cases hm with
        | head => rw [hb] at h; cases h
        | tail _ hm => exact this ⟨m', hm, h⟩

theorem readerBody_none {m : Sig} : readerBody m = none ↔
    ((∃ s, m.name = c! "Read" ++ s) ∨ (∃ s, m.name = c! "Skip" ++ s)) ∧ m.outs.getLast? ≠ some (c! "error") ∨ (∃ s, m.name = c! "Skip" ++ s) ∧ m.name ≠ c! "SkipString" ∧ m.name ≠ c! "SkipUUID" := by
  unfold readerBody
  cases hr : cutPrefix m.name (c! "Read") with
  | some step =>
    have e := cutPrefix_some hr
    have hns : ¬ ∃ s, m.name = c! "Skip" ++ s := by rintro ⟨s, hs⟩; rw [e] at hs; simp at hs
    have hyes : ∃ s, m.name = c! "Read" ++ s := ⟨step, e⟩
    simp only [hyes, hns, true_and, false_and, or_false, ← advance_none]
    cases advance m with
    | none => simp
    | some a => simp; split <;> simp
  | none =>
    have hnr := cutPrefix_none.mp hr
    cases hs : cutPrefix m.name (c! "Skip") with
    | none =>
      have hns := cutPrefix_none.mp hs
      simp only [hns, hnr]
      simp
    | some step =>
      have e := cutPrefix_some hs
      have hyes : ∃ s, m.name = c! "Skip" ++ s := ⟨step, e⟩
      have e1 : m.name = c! "SkipString" ↔ step = c! "String" := by rw [e]; simp
      have e2 : m.name = c! "SkipUUID" ↔ step = c! "UUID" := by rw [e]; simp
      simp only [hyes, hnr, false_or, true_and, ← advance_none, ne_eq, e1, e2]
      cases advance m with
      | none => simp
      | some a =>
        simp only [Option.bind_some, reduceCtorEq, false_or]
        split
        · rename_i h; simp [h]
        · split
          · rename_i h; simp [h]
          · rename_i h1 h2; exact ⟨fun _ => ⟨h1, h2⟩, fun _ => rfl⟩

theorem writerBody_none {m : Sig} : writerBody m = none ↔ (∃ s, m.name = c! "Write" ++ s) ∧ m.outs.getLast? ≠ some (c! "error") := by
  unfold writerBody
  cases hr : cutPrefix m.name (c! "Write") with
  | some step =>
    have hyes : ∃ s, m.name = c! "Write" ++ s := ⟨step, cutPrefix_some hr⟩
    simp only [hyes, true_and, ← advance_none]
    cases advance m with
    | none => simp
    | some a => simp; split <;> (try split) <;> simp
  | none =>
    have hnr := cutPrefix_none.mp hr
    simp only [hnr]
    simp

theorem generate_none {r w : List Sig} : generate r w = none ↔ (∃ m ∈ r, readerBody m = none) ∨ ∃ m ∈ w, writerBody m = none := by
  have h1 := methods_none (recv := c! "m *memoReader") (body := readerBody) (l := r)
  have h2 := methods_none (recv := c! "m *memoWriter") (body := writerBody) (l := w)
  rw [← h1, ← h2]
  unfold generate
  cases methods (c! "m *memoReader") readerBody r <;> cases methods (c! "m *memoWriter") writerBody w <;> simp

/-! ## Writing and reading -/

theorem find_mem {body : Sig → Option (List Stmt)} {s : Sig} {b : List Stmt} : ∀ {l : List Sig}, (l.map Sig.name).Nodup → s ∈ l → body s = some b → find body l s.name = some (s, b)
  | x :: l, hd, hm, hb => by
    simp only [List.map_cons, List.nodup_cons] at hd
    unfold find
    by_cases hx : x.name = s.name
    · have : x = s := by
        cases hm with
        | head => rfl
        | tail _ hm => exact (hd.1 (hx ▸ List.mem_map_of_mem hm)).elim
      subst this
      simp [List.find?, hb]
    · have hm : s ∈ l := by
        cases hm with
        | head => exact (hx rfl).elim
        | tail _ hm => exact hm
      have ih := find_mem hd.2 hm hb
      unfold find at ih
      simpa [List.find?, hx] using ih

theorem getLast_error (l : List Text) : (l ++ [c! "error"]).getLast? = some (c! "error") := by simp

theorem writer_body {c : Call} (h : c.Ok) : writerBody c.writer = some [.advance 0, .write c.step ((List.range c.types.length).map .param), .ret] := by
  obtain ⟨_, h1, h2⟩ := h
  unfold writerBody
  rw [show c.writer.name = c! "Write" ++ c.step from rfl, cutPrefix_append, advance_some (show c.writer.outs.getLast? = _ from rfl)]
  simp only [Option.bind_some, if_neg h1, if_neg h2]
  rfl

theorem reader_body {c : Call} (h : c.Ok) : readerBody c.reader = some [.advance c.types.length, .read c.step ((List.range c.types.length).map .out), .ret] := by
  obtain ⟨_, h1, h2⟩ := h
  unfold readerBody
  rw [show c.reader.name = c! "Read" ++ c.step from rfl, cutPrefix_append, advance_some (show c.reader.outs.getLast? = _ from getLast_error _)]
  simp [if_neg h1, Call.reader]

theorem vals_length {c : Call} (h : c.Ok) : c.vals.length = c.types.length := by
  have := congrArg List.length h.1
  simpa using this

theorem params_value (vs : List MVal) : ∀ (k i : Nat), i + k = vs.length → ((List.range' i k).map Arg.param).mapM (Arg.value vs) = some (vs.drop i)
  | 0, i, h => by
    have : vs.drop i = [] := List.drop_eq_nil_of_le (by omega)
    simp [this]
  | k + 1, i, h => by
    have ih := params_value vs k (i + 1) (by omega)
    have hi : i < vs.length := by omega
    rw [List.range'_succ, List.map_cons, List.mapM_cons, ih, List.drop_eq_getElem_cons hi]
    simp [Arg.value, List.getElem?_eq_getElem hi]

theorem assign_out {c : Call} (h : c.Ok) (tmp : Text) (m : Memo) (hv : m.values[m.r - 1]? = some c.vals) : ∀ (k i : Nat), i + k = c.types.length →
    assign c.reader tmp m i ((List.range' i k).map Arg.out) = .done (c.vals.drop i)
  | 0, i, e => by
    have : c.vals.drop i = [] := List.drop_eq_nil_of_le (by have := vals_length h; omega)
    simp [this, assign]
  | k + 1, i, e => by
    have ih := assign_out h tmp m hv k (i + 1) (by omega)
    have hi : i < c.vals.length := by have := vals_length h; omega
    have ht : i < c.types.length := by omega
    have htype : typeString c.types[i] = typeOf c.vals[i] := by
      have := congrArg (fun l : List Text => l[i]?) h.1
      simpa [List.getElem?_eq_getElem hi, List.getElem?_eq_getElem ht] using this.symm
    rw [List.range'_succ, List.map_cons, List.drop_eq_getElem_cons hi]
    simp only [assign, hv, Option.bind_some, List.getElem?_eq_getElem hi]
    have htarget : (Arg.out i).target c.reader tmp = some (typeOf c.vals[i]) := by
      simp [Arg.target, Call.reader, List.getElem?_append_left ht, List.getElem?_eq_getElem ht, htype]
    rw [if_pos htarget, ih]
    simp

theorem writeAll_free {w : List Sig} (hw : (w.map Sig.name).Nodup) : ∀ (cs : List Call) (m : Memo), (∀ c ∈ cs, c.Ok ∧ c.writer ∈ w) → m.breakpoint = 0 →
    writeAll w cs m = .done (none, { m with w := m.w + cs.length, steps := m.steps ++ cs.map (fun c => String.ofList c.step), values := m.values ++ cs.map Call.vals })
  | [], m, _, _ => by simp [writeAll]
  | c :: cs, m, h, hb => by
    have hc := h c List.mem_cons_self
    have hf := find_mem hw hc.2 (writer_body hc.1)
    have hp := params_value c.vals c.types.length 0 (by have := vals_length hc.1; omega)
    rw [← List.range_eq_range', List.drop_zero] at hp
    have ha : m.advanceW = some { m with w := m.w + 1 } := by simp [Memo.advanceW, Memo.atBreak, hb]
    simp only [writeAll, callW, hf, execW, ha, hp, Out.bind_done]
    rw [writeAll_free hw cs _ (fun c' hc' => h c' (List.mem_cons_of_mem _ hc')) (by exact hb)]
    simp [Memo.write, Nat.add_assoc, Nat.add_comm 1]

theorem readAll_free {r : List Sig} (hr : (r.map Sig.name).Nodup) : ∀ (cs : List Call) (m : Memo) (pre post : List String) (pv : List (List MVal)), (∀ c ∈ cs, c.Ok ∧ c.reader ∈ r) → m.breakpoint = 0 →
    m.steps = pre ++ cs.map (fun c => String.ofList c.step) ++ post → m.values = pv ++ cs.map Call.vals → m.r = pre.length → m.r = pv.length →
    ∃ m', readAll r cs m = .done (.ok (cs.map Call.vals), m')
  | [], m, _, _, _, _, _, _, _, _, _ => ⟨m, rfl⟩
  | c :: cs, m, pre, post, pv, h, hb, hs, hv, hp, hq => by
    have hc := h c List.mem_cons_self
    have hf := find_mem hr hc.2 (reader_body hc.1)
    have ha : m.advanceR = some { m with r := m.r + 1 } := by simp [Memo.advanceR, Memo.atBreak, hb]
    let m1 : Memo := { m with r := m.r + 1, steps := m.steps ++ [String.ofList c.step] }
    have hchk : ({ m with r := m.r + 1 } : Memo).check (String.ofList c.step) = .done m1 := by
      simp only [Memo.check, Nat.add_sub_cancel, hs]
      rw [show (pre ++ List.map (fun c => String.ofList c.step) (c :: cs) ++ post ++ [String.ofList c.step])[m.r]? = some (String.ofList c.step) by rw [hp]; simp]
      simp [m1, hs]
    have hval : m1.values[m1.r - 1]? = some c.vals := by
      show m.values[m.r + 1 - 1]? = _
      rw [Nat.add_sub_cancel, hv, hq]
      simp
    have has := assign_out hc.1 [] m1 hval c.types.length 0 (by omega)
    rw [← List.range_eq_range', List.drop_zero] at has
    obtain ⟨m', hm'⟩ := readAll_free hr cs m1 (pre ++ [String.ofList c.step]) (post ++ [String.ofList c.step]) (pv ++ [c.vals]) (fun c' hc' => h c' (List.mem_cons_of_mem _ hc')) hb
      (by simp [m1, hs]) (by simp [m1, hv]) (by simp [m1, hp]) (by simp [m1, hq])
    refine ⟨m', ?_⟩
    simp only [readAll, callR, hf, execR, ha, hchk, has, Out.bind_done, List.nil_append, hm', Except.map, List.map_cons]

end GoThrift.MemoGen
