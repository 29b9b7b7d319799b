import Verif.Proof.ParseResync
import Verif.Props.Parse

/-!
# C44: an error in one definition and the other definitions
-/

namespace GoThrift

open Spec Idl

/-- **C44** (behind): where `Parse` gives up a definition at the bytes from `p` to `q`, an error is reported there; it goes on at the next word that begins a definition, or at the end. The well-formed
definitions that stand there, up to the end or to a further word that begins a definition, are returned as they are, and no error among them is reported except those of the scanner. -/
theorem C44_resume (env : IdlEnv) (src : Bytes) {f : File} {errs : List PosErr} {toks : List TokenAt} {sf : Scanner} (hP : Parse env src = .done (f, errs))
    (hT : scanAll env.u (src.length + 2) (Scanner.init src) = .done (toks, sf)) {ds1 ds2 : List Def} {p q : Nat} (hf : f.defs = ds1 ++ .bad p q :: ds2) :
    ∃ before after, code toks = before ++ after ∧ (∀ x ∈ before, x.from_ < q) ∧ (∀ x ∈ after, q ≤ x.from_) ∧ (∃ x ∈ before, x.from_ = p) ∧ (∃ e ∈ errs, p ≤ e.offset ∧ e.offset ≤ q) ∧
      (after = [] ∧ q = src.length ∨ ∃ x l, after = x :: l ∧ x.from_ = q ∧ x.tok ∈ defWords) ∧
      ∀ l1 l2 ds, after = l1 ++ l2 → Many DefG ds (l1.map fun x => (x.tok, x.text)) → (l2 = [] ∨ ∃ x l, l2 = x :: l ∧ x.tok ∈ defWords) →
        ∃ more, ds2 = ds ++ more ∧ (l2 = [] → more = []) ∧
          ∀ e ∈ errs, q < e.offset → (∀ x l, l2 = x :: l → e.offset < x.from_) → ∃ e' ∈ sf.errs, e'.offset = e.offset ∧ e'.msg = e.msg := by
  obtain ⟨toks', sf', l, K, f', t, errs', s1, s2, s3, h1, h2, h3, h4, h5, h6, h7, h8, h9, h10⟩ := Parse_run env src
  rw [hT] at s1
  injection s1 with s1
  injection s1 with e1 e2
  subst e1
  subst e2
  rw [hP] at h8
  injection h8 with h8
  injection h8 with e1 e2
  subst e1
  have hmem : ∀ e : PosErr, e ∈ errs ↔ e ∈ errs' := fun e => by rw [e2]; exact (env.sort_perm (less env) errs').mem_iff
  obtain ⟨t0, g1, g2⟩ := file_run h5
  have hs : TS.Sorted ⟨l, src.length, []⟩ := ⟨h3, fun x hx => (h2 x hx).2.2⟩
  have ha0 := run_adv _ hs g1
  rw [hf] at g2
  obtain ⟨t1, m, a1, a2, a3, a4, a5, a6, a7, x, hx, hxp⟩ := defs_bad (by
    have := ha0.rest.length_le
    show t0.rest.length < _
    change t0.rest.length ≤ l.length at this
    omega) (hs.adv ha0) g2
  have ha1 := ha0.trans a1
  have hs1 := hs.adv ha1
  have hrest : t1.rest <:+ (code toks).map TokenAt.seen := by
    have := ha1.rest
    rw [s2] at this
    exact this
  obtain ⟨before, after, hsplit, hafter⟩ := split_map hrest
  have hq : ∀ e ∈ t1.errs, e.1 ≤ q := fun e he => by
    obtain ⟨es, e1, e2⟩ := ha1.errs
    rw [e1] at he
    rw [a2]
    exact (e2 e he).2
  have hpos : after = [] ∧ q = src.length ∨ ∃ x l, after = x :: l ∧ x.from_ = q ∧ x.tok ∈ defWords := by
    cases after with
    | nil =>
      refine .inl ⟨rfl, ?_⟩
      rw [a2]
      unfold TS.pos
      rw [hafter]
      exact ha1.eof
    | cons y l' =>
      refine .inr ⟨y, l', rfl, ?_, ?_⟩
      · rw [a2]
        unfold TS.pos
        rw [hafter]
        rfl
      · have hy : t1.tok = y.tok := by
          unfold TS.tok
          rw [hafter]
          rfl
        rw [hafter, hy] at a5
        have hne : y.tok ≠ Tk.eof := by
          have := (h2 (TokenAt.seen y) (by rw [s2]; exact List.mem_map_of_mem (by rw [hsplit]; simp))).1
          exact this
        rcases a5 with a5 | a5 | a5
        · cases a5
        · exact (isDefinition_iff _).1 a5.2
        · exact absurd a5 hne
  have hsorted : (before ++ after).Pairwise (fun a b => a.from_ < b.from_) := by
    rw [← hsplit]
    rw [s2] at h3
    exact (List.pairwise_map (R := fun a b : Token × Bytes × Nat => a.2.2 < b.2.2)).1 h3
  have hlt : ∀ x ∈ code toks, x.from_ < src.length := fun x hx => by
    have := (h2 (TokenAt.seen x) (by rw [s2]; exact List.mem_map_of_mem hx)).2.2
    exact this
  have hbefore : ∀ x ∈ before, x.from_ < q := fun x hx => by
    rcases hpos with ⟨_, rfl⟩ | ⟨y, l', rfl, rfl, _⟩
    · exact hlt x (by rw [hsplit]; exact List.mem_append_left _ hx)
    · exact (List.pairwise_append.1 hsorted).2.2 x hx y (by simp)
  have hle : ∀ x ∈ after, q ≤ x.from_ := fun x hx => by
    rcases hpos with ⟨rfl, _⟩ | ⟨y, l', rfl, rfl, _⟩
    · cases hx
    · rcases List.mem_cons.1 hx with rfl | hx
      · exact Nat.le_refl _
      · exact Nat.le_of_lt ((List.pairwise_cons.1 (List.pairwise_append.1 hsorted).2.1).1 x hx)
  have hkey : ∀ e ∈ errs, (∃ e' ∈ sf.errs, e'.offset = e.offset ∧ e'.msg = e.msg) ∨ (e.offset, e.msg) ∈ t.errs := fun e he => by
    have := h9.mem_iff.1 (List.mem_map_of_mem (f := PosErr.key) ((hmem e).1 he))
    rcases List.mem_append.1 this with h | h
    · rw [s3] at h
      obtain ⟨e', h, hk⟩ := List.mem_map.1 h
      injection hk with hk1 hk2
      exact .inl ⟨e', h, hk1, hk2⟩
    · exact .inr h
  refine ⟨before, after, hsplit, hbefore, hle, ?_, ?_, hpos, fun l1 l2 ds hl hG hl2 => ?_⟩
  · have hx' : x ∈ (code toks).map TokenAt.seen := by
      have := ha0.rest.subset hx
      rw [s2] at this
      exact this
    obtain ⟨z, hz, rfl⟩ := List.mem_map.1 hx'
    refine ⟨z, ?_, hxp⟩
    rw [hsplit] at hz
    rcases List.mem_append.1 hz with hz | hz
    · exact hz
    · have := hle z hz
      change z.from_ = p at hxp
      omega
  · obtain ⟨e, he, hb⟩ := a4
    obtain ⟨es, e3, _⟩ := (run_adv _ hs1 a7).errs
    have : e ∈ errs'.map PosErr.key := h9.mem_iff.2 (List.mem_append_right _ (by rw [e3]; exact List.mem_append_left _ he))
    obtain ⟨e', h, rfl⟩ := List.mem_map.1 this
    exact ⟨e', (hmem e').2 h, hb⟩
  · obtain ⟨more, b1, b2, b3⟩ := defs_errors hG hl2 hs1 (by rw [hafter, hl]) a6 a7
    refine ⟨more, b1, b2, fun e he hqe hb => ?_⟩
    rcases hkey e he with h | h
    · exact h
    · rcases b3 _ h with h | ⟨y, l', rfl, hy⟩
      · exact absurd (hq _ h) (Nat.not_le.2 hqe)
      have := hb y l' rfl
      change y.from_ ≤ e.offset at hy
      omega

/-- **C44** (before): well-formed headers and definitions, up to the end or to a word that begins a definition, are returned as they are, whatever follows, and no error among them is reported except those
of the scanner. -/
theorem C44_before (env : IdlEnv) (src : Bytes) {f : File} {errs : List PosErr} {toks : List TokenAt} {sf : Scanner} (hP : Parse env src = .done (f, errs))
    (hT : scanAll env.u (src.length + 2) (Scanner.init src) = .done (toks, sf)) {l0 l1 l2 : List TokenAt} (hl : code toks = l0 ++ (l1 ++ l2)) {hs : List Header} {ds : List Def}
    (hH : Many HeaderG hs (l0.map fun x => (x.tok, x.text))) (hD : Many DefG ds (l1.map fun x => (x.tok, x.text))) (hl2 : l2 = [] ∨ ∃ x l, l2 = x :: l ∧ x.tok ∈ defWords) :
    f.headers = hs ∧ ∃ more, f.defs = ds ++ more ∧ (l2 = [] → more = []) ∧
      ∀ e ∈ errs, (∀ x l, l2 = x :: l → e.offset < x.from_) → ∃ e' ∈ sf.errs, e'.offset = e.offset ∧ e'.msg = e.msg := by
  obtain ⟨toks', sf', l, K, f', t, errs', s1, s2, s3, h1, h2, h3, h4, h5, h6, h7, h8, h9, h10⟩ := Parse_run env src
  rw [hT] at s1
  injection s1 with s1
  injection s1 with e1 e2
  subst e1
  subst e2
  rw [hP] at h8
  injection h8 with h8
  injection h8 with e1 e2
  subst e1
  have hmem : ∀ e : PosErr, e ∈ errs ↔ e ∈ errs' := fun e => by rw [e2]; exact (env.sort_perm (less env) errs').mem_iff
  have hsort : TS.Sorted ⟨l, src.length, []⟩ := ⟨h3, fun x hx => (h2 x hx).2.2⟩
  obtain ⟨t0, g1, g2⟩ := file_run h5
  have ha0 := run_adv _ hsort g1
  have hmap : ∀ l : List TokenAt, (l.map TokenAt.seen).map Scanner.plain = l.map fun x => (x.tok, x.text) := fun l => by rw [List.map_map]; rfl
  have hplain : l.map Scanner.plain = l0.map (fun x => (x.tok, x.text)) ++ (l1 ++ l2).map fun x => (x.tok, x.text) := by
    rw [s2, ← List.map_append, ← hl]
    exact hmap _
  obtain ⟨t0', b1, b2, b3, b4⟩ := Eats.headers (n := src.length + 1) hH (by
    rw [← hplain, List.length_map]
    omega) (by
    rw [List.map_append]
    cases h : l1.map fun x => (x.tok, x.text) with
    | nil =>
      rcases hl2 with rfl | ⟨x, l, rfl, hx⟩
      · exact List.mem_cons_self
      · exact List.mem_cons_of_mem _ hx
    | cons y ys =>
      rw [h] at hD
      have := hd_defs hD
      exact this) ⟨l, src.length, []⟩ hplain
  rw [g1] at b1
  injection b1 with b1
  injection b1 with b1 b5
  injection b1 with b1
  subst b5
  have hrest : t0.rest = (l1 ++ l2).map TokenAt.seen := by
    have hlen := congrArg List.length b2
    unfold TS.plain at hlen
    rw [List.length_map, List.length_map] at hlen
    obtain ⟨p, hp⟩ := ha0.rest
    change p ++ t0.rest = l at hp
    rw [s2, hl, List.map_append] at hp
    have := congrArg List.length hp
    simp at this hlen
    exact (List.append_inj hp (by rw [List.length_map]; omega)).2
  have herr : t0.errs = [] := b3
  have hlen0 : t0.rest.length < src.length + 1 := by
    have := ha0.rest.length_le
    change t0.rest.length ≤ l.length at this
    omega
  obtain ⟨more, c1, c2, c3⟩ := defs_errors hD hl2 (hsort.adv ha0) hrest hlen0 g2
  refine ⟨b1, more, c1, c2, fun e he hb => ?_⟩
  have := h9.mem_iff.1 (List.mem_map_of_mem (f := PosErr.key) ((hmem e).1 he))
  rcases List.mem_append.1 this with h | h
  · rw [s3] at h
    obtain ⟨e', h, hk⟩ := List.mem_map.1 h
    injection hk with hk1 hk2
    exact ⟨e', h, hk1, hk2⟩
  · rcases c3 _ h with h | ⟨y, l', rfl, hy⟩
    · rw [herr] at h
      cases h
    · have := hb y l' rfl
      change y.from_ ≤ e.offset at hy
      omega

/-- `enum A{} enum` -/
def exCut : Bytes := [0x65, 0x6e, 0x75, 0x6d, 0x20, 0x41, 0x7b, 0x7d, 0x20, 0x65, 0x6e, 0x75, 0x6d]

/-- A well-formed definition, and one that breaks off. -/
example : ∃ f errs toks sf l1 l2, Parse exIdlEnv exCut = .done (f, errs) ∧ errs ≠ [] ∧ scanAll exIdlEnv.u (exCut.length + 2) (Scanner.init exCut) = .done (toks, sf) ∧
    code toks = [] ++ (l1 ++ l2) ∧ Many DefG [.enum [0x41] [] none] (l1.map fun x => (x.tok, x.text)) ∧ ∃ x l, l2 = x :: l ∧ x.tok ∈ defWords := by
  obtain ⟨toks, sf, _, _, _, _, _, h, _⟩ := Parse_run exIdlEnv exCut
  have : (scanAll exIdlEnv.u (exCut.length + 2) (Scanner.init exCut)).bind (fun r => .done (code r.1)) = .done ([⟨Tk.enum, 0, 4, [0x65, 0x6e, 0x75, 0x6d]⟩,
    ⟨Tk.ident, 5, 6, [0x41]⟩, ⟨Tk.lbrace, 6, 7, [0x7b]⟩, ⟨Tk.rbrace, 7, 8, [0x7d]⟩] ++ [⟨Tk.enum, 9, 13, [0x65, 0x6e, 0x75, 0x6d]⟩]) := by decide +kernel
  have hp : Parse exIdlEnv exCut = .done (⟨[], [.enum [0x41] [] none, .enum [] [] none]⟩, [⟨13, 1, 14, .expected (.tok Tk.ident) (some (.tok Tk.eof))⟩,
    ⟨13, 1, 14, .expected (.tok Tk.lbrace) (some (.tok Tk.eof))⟩, ⟨13, 1, 14, .expected (.tok Tk.rbrace) (some (.tok Tk.eof))⟩]) := by decide +kernel
  rw [h, Out.bind_done] at this
  injection this with this
  refine ⟨_, _, toks, sf, [⟨Tk.enum, 0, 4, [0x65, 0x6e, 0x75, 0x6d]⟩, ⟨Tk.ident, 5, 6, [0x41]⟩, ⟨Tk.lbrace, 6, 7, [0x7b]⟩, ⟨Tk.rbrace, 7, 8, [0x7d]⟩], [⟨Tk.enum, 9, 13, [0x65, 0x6e, 0x75, 0x6d]⟩],
    hp, by simp, h, this, ?_, _, _, rfl, ?_⟩
  · exact .cons (w := [_, _, _, _]) (ws := []) (.enum (wl := [_, _]) (wa := []) (.mk (w := []) .nil) .none) .nil
  · decide

/-- `x enum A{} } enum B{}` -/
def exTwoBad : Bytes := [0x78, 0x20, 0x65, 0x6e, 0x75, 0x6d, 0x20, 0x41, 0x7b, 0x7d, 0x20, 0x7d, 0x20, 0x65, 0x6e, 0x75, 0x6d, 0x20, 0x42, 0x7b, 0x7d]

/-- Two definitions that are given up, and one behind each of them. -/
theorem exTwoBad_parse : Parse exIdlEnv exTwoBad = .done (⟨[], [.bad 0 2, .enum [0x41] [] none, .bad 11 13, .enum [0x42] [] none]⟩,
    [⟨0, 1, 1, .expected .definition (some (.lit [0x78]))⟩, ⟨11, 1, 12, .expected .definition (some (.tok Tk.rbrace))⟩]) := by decide +kernel

/-- Its tokens. -/
theorem exTwoBad_scan : ∃ toks sf, scanAll exIdlEnv.u (exTwoBad.length + 2) (Scanner.init exTwoBad) = .done (toks, sf) ∧ code toks = [⟨Tk.ident, 0, 1, [0x78]⟩, ⟨Tk.enum, 2, 6, [0x65, 0x6e, 0x75, 0x6d]⟩,
    ⟨Tk.ident, 7, 8, [0x41]⟩, ⟨Tk.lbrace, 8, 9, [0x7b]⟩, ⟨Tk.rbrace, 9, 10, [0x7d]⟩, ⟨Tk.rbrace, 11, 12, [0x7d]⟩, ⟨Tk.enum, 13, 17, [0x65, 0x6e, 0x75, 0x6d]⟩, ⟨Tk.ident, 18, 19, [0x42]⟩,
    ⟨Tk.lbrace, 19, 20, [0x7b]⟩, ⟨Tk.rbrace, 20, 21, [0x7d]⟩] := by
  obtain ⟨toks, sf, _, _, _, _, _, h, _⟩ := Parse_run exIdlEnv exTwoBad
  refine ⟨toks, sf, h, ?_⟩
  have : (scanAll exIdlEnv.u (exTwoBad.length + 2) (Scanner.init exTwoBad)).bind (fun r => .done (code r.1)) = .done [⟨Tk.ident, 0, 1, [0x78]⟩, ⟨Tk.enum, 2, 6, [0x65, 0x6e, 0x75, 0x6d]⟩,
    ⟨Tk.ident, 7, 8, [0x41]⟩, ⟨Tk.lbrace, 8, 9, [0x7b]⟩, ⟨Tk.rbrace, 9, 10, [0x7d]⟩, ⟨Tk.rbrace, 11, 12, [0x7d]⟩, ⟨Tk.enum, 13, 17, [0x65, 0x6e, 0x75, 0x6d]⟩, ⟨Tk.ident, 18, 19, [0x42]⟩,
    ⟨Tk.lbrace, 19, 20, [0x7b]⟩, ⟨Tk.rbrace, 20, 21, [0x7d]⟩] := by decide +kernel
  rw [h, Out.bind_done] at this
  injection this

/-- A definition that the parser gives up, with a well-formed one behind it, up to a further error. -/
example : ∃ f errs toks sf, Parse exIdlEnv exTwoBad = .done (f, errs) ∧ scanAll exIdlEnv.u (exTwoBad.length + 2) (Scanner.init exTwoBad) = .done (toks, sf) ∧
    (∃ ds1 ds2 p q, f.defs = ds1 ++ .bad p q :: ds2 ∧ ds2 ≠ []) ∧
    ∃ l1 l2, code toks = l1 ++ l2 ∧ Many DefG [.enum [0x42] [] none] (l2.map fun x => (x.tok, x.text)) := by
  obtain ⟨toks, sf, h1, h2⟩ := exTwoBad_scan
  exact ⟨_, _, toks, sf, exTwoBad_parse, h1, ⟨[], _, 0, 2, rfl, by simp⟩, [_, _, _, _, _, _], _, h2, .cons (w := [_, _, _, _]) (ws := []) (.enum (wl := [_, _]) (wa := []) (.mk (w := []) .nil) .none) .nil⟩

/-- `const i32 x struct B{}` -/
def exSwallow : Bytes := [0x63, 0x6f, 0x6e, 0x73, 0x74, 0x20, 0x69, 0x33, 0x32, 0x20, 0x78, 0x20, 0x73, 0x74, 0x72, 0x75, 0x63, 0x74, 0x20, 0x42, 0x7b, 0x7d]

theorem exSwallow_scan : ∃ toks sf, scanAll exIdlEnv.u (exSwallow.length + 2) (Scanner.init exSwallow) = .done (toks, sf) ∧ (code toks).drop 3 = [⟨Tk.struct, 12, 18, [0x73, 0x74, 0x72, 0x75, 0x63, 0x74]⟩,
    ⟨Tk.ident, 19, 20, [0x42]⟩, ⟨Tk.lbrace, 20, 21, [0x7b]⟩, ⟨Tk.rbrace, 21, 22, [0x7d]⟩] := by
  obtain ⟨toks, sf, _, _, _, _, _, h, _⟩ := Parse_run exIdlEnv exSwallow
  refine ⟨toks, sf, h, ?_⟩
  have : (scanAll exIdlEnv.u (exSwallow.length + 2) (Scanner.init exSwallow)).bind (fun r => .done ((code r.1).drop 3)) = .done [⟨Tk.struct, 12, 18, [0x73, 0x74, 0x72, 0x75, 0x63, 0x74]⟩,
    ⟨Tk.ident, 19, 20, [0x42]⟩, ⟨Tk.lbrace, 20, 21, [0x7b]⟩, ⟨Tk.rbrace, 21, 22, [0x7d]⟩] := by decide +kernel
  rw [h, Out.bind_done] at this
  injection this

/-- **C44** (a limit): a definition that begins where a token of another is missing is lost: `want` consumes the word that begins it. Here the source ends in the well-formed `struct B{}`, but no struct
is returned. -/
theorem C44_swallows : ∃ (env : IdlEnv) (src : Bytes) (f : File) (errs : List PosErr) (toks : List TokenAt) (sf : Scanner) (l1 l2 : List TokenAt), Parse env src = .done (f, errs) ∧
    scanAll env.u (src.length + 2) (Scanner.init src) = .done (toks, sf) ∧ sf.errs = [] ∧ code toks = l1 ++ l2 ∧ Many DefG [.struct false false [0x42] [] none] (l2.map fun x => (x.tok, x.text)) ∧
    ∀ d ∈ f.defs, ∀ un ex n l an, d ≠ .struct un ex n l an := by
  obtain ⟨toks, sf, h1, h2⟩ := exSwallow_scan
  have hp : Parse exIdlEnv exSwallow = .done (⟨[], [.const (.ref [0x69, 0x33, 0x32] none) [0x78] (.ident [0x42]), .bad 20 22]⟩,
      [⟨12, 1, 13, .expected (.tok Tk.assign) (some (.tok Tk.struct))⟩, ⟨20, 1, 21, .expected .definition (some (.tok Tk.lbrace))⟩]) := by decide +kernel
  have hsf : sf.errs = [] := by
    have : (scanAll exIdlEnv.u (exSwallow.length + 2) (Scanner.init exSwallow)).bind (fun r => .done r.2.errs) = .done [] := by decide +kernel
    rw [h1, Out.bind_done] at this
    injection this
  refine ⟨exIdlEnv, exSwallow, _, _, toks, sf, (code toks).take 3, (code toks).drop 3, hp, h1, hsf, (List.take_append_drop _ _).symm, ?_, ?_⟩
  · rw [h2]
    exact .cons (w := [_, _, _, _]) (ws := []) (.struct (wl := [_, _]) (wa := []) .struct (.mk (w := []) .nil) .none) .nil
  · intro d hd un ex n l an h
    subst h
    simp at hd

end GoThrift
