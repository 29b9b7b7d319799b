import Verif.Proof.ParseAll

/-!
# What follows a definition that the parser gives up
-/

namespace GoThrift.Idl

open Spec

/-- The positions increase. -/
def TS.Sorted (t : TS) : Prop := t.rest.Pairwise (fun a b => a.2.2 < b.2.2) ∧ ∀ x ∈ t.rest, x.2.2 < t.eof

/-- From `t` to `t'` the parser consumed tokens and reported errors at the positions between. -/
structure Adv (t t' : TS) : Prop where
  eof : t'.eof = t.eof
  rest : t'.rest <:+ t.rest
  pos : t.pos ≤ t'.pos
  errs : ∃ es, t'.errs = t.errs ++ es ∧ ∀ e ∈ es, t.pos ≤ e.1 ∧ e.1 ≤ t'.pos

theorem Adv.refl (t : TS) : Adv t t := ⟨rfl, List.suffix_refl _, Nat.le_refl _, [], by simp, by simp⟩

theorem Adv.trans {a b c : TS} (h : Adv a b) (h' : Adv b c) : Adv a c := by
  obtain ⟨es, h1, h2⟩ := h.errs
  obtain ⟨es', h3, h4⟩ := h'.errs
  refine ⟨h'.eof.trans h.eof, h'.rest.trans h.rest, Nat.le_trans h.pos h'.pos, es ++ es', by rw [h3, h1, List.append_assoc], fun e he => ?_⟩
  have hp := h.pos
  have hp' := h'.pos
  rcases List.mem_append.1 he with he | he
  · have := h2 e he; omega
  · have := h4 e he; omega

theorem TS.Sorted.adv {t t' : TS} (h : t.Sorted) (ha : Adv t t') : t'.Sorted := by
  refine ⟨h.1.sublist ha.rest.sublist, fun x hx => ?_⟩
  rw [ha.eof]
  exact h.2 x (ha.rest.subset hx)

theorem TS.Sorted.next_pos {t : TS} (h : t.Sorted) : t.pos ≤ t.next.pos ∧ (t.rest ≠ [] → t.pos < t.next.pos) := by
  obtain ⟨rest, eof, errs⟩ := t
  obtain ⟨h1, h2⟩ := h
  dsimp only at h1 h2
  cases rest with
  | nil => exact ⟨Nat.le_refl _, fun h => absurd rfl h⟩
  | cons x l =>
    cases l with
    | nil =>
      have := h2 x (by simp)
      exact ⟨Nat.le_of_lt this, fun _ => this⟩
    | cons y l =>
      have := (List.pairwise_cons.1 h1).1 y (by simp)
      exact ⟨Nat.le_of_lt this, fun _ => this⟩

theorem run_adv {α : Type} (p : PProg α) {t t' : TS} {r : Option α} (hs : t.Sorted) (h : p.run tokSource t = .done (r, t')) : Adv t t' := by
  induction p generalizing t with
  | ret a => injection h with h; injection h with _ h; subst h; exact .refl _
  | bad => injection h with h; injection h with _ h; subst h; exact .refl _
  | diverge => cases h
  | call o k ih =>
    cases o with
    | tok => exact ih _ hs h
    | pos => exact ih _ hs h
    | lit => exact ih _ hs h
    | next =>
      have ha : Adv t t.next := ⟨rfl, List.tail_suffix _, hs.next_pos.1, [], (List.append_nil _).symm, by simp⟩
      exact ha.trans (ih _ (hs.adv ha) h)
    | expected w =>
      have ha : Adv t (t.expected w) := ⟨rfl, List.suffix_refl _, Nat.le_refl _, [_], rfl, by
        intro e he
        rw [List.mem_singleton.1 he]
        exact ⟨Nat.le_refl _, Nat.le_refl _⟩⟩
      exact ha.trans (ih _ (hs.adv ha) h)

/-- All values that the program can return. -/
def PProg.Returns {α : Type} (Q : α → Prop) : PProg α → Prop
  | .ret a => Q a
  | .bad => True
  | .diverge => True
  | .call _ k => ∀ a, (k a).Returns Q

theorem PProg.Returns.bind {α β : Type} {Q : β → Prop} {p : PProg α} {f : α → PProg β} (hf : ∀ a, (f a).Returns Q) : (p >>= f).Returns Q := by
  show (p.bind f).Returns Q
  induction p with
  | ret a => exact hf a
  | bad => trivial
  | diverge => trivial
  | call o k ih => exact fun a => ih a

theorem PProg.Returns.ite {α : Type} {Q : α → Prop} {c : Prop} {_ : Decidable c} {p q : PProg α} (hp : p.Returns Q) (hq : q.Returns Q) : (if c then p else q).Returns Q := by
  split
  · exact hp
  · exact hq

theorem PProg.Returns.run {S α : Type} {Q : α → Prop} {r : Source S} {p : PProg α} (hp : p.Returns Q) {s s' : S} {a : α} (h : p.run r s = .done (some a, s')) : Q a := by
  induction p generalizing s with
  | ret a => injection h with h; injection h with h; injection h with h; subst h; exact hp
  | bad => injection h with h; injection h with h; cases h
  | diverge => cases h
  | call o k ih =>
    rw [PProg.run] at h
    cases ho : r.step o s with
    | done a =>
      rw [ho, Out.bind_done] at h
      exact ih a.1 (hp a.1) h
    | _ => rw [ho] at h; cases h

/-- The functions for definitions return no `BadDef`. -/
theorem definition_returns (n : Nat) : (definition n).Returns (fun d => ∀ p q, d ≠ .bad p q) := by
  have leaf : ∀ d : Def, (∀ p q, d ≠ .bad p q) → (pure d : PProg Def).Returns (fun d => ∀ p q, d ≠ .bad p q) := fun d h => h
  refine .bind fun t => .ite ?_ (.ite ?_ (.ite ?_ (.ite ?_ (.ite ?_ (.bind fun _ => trivial)))))
  · exact .bind fun _ => .bind fun _ => .bind fun _ => .bind fun _ => .bind fun _ => .bind fun _ => leaf _ fun _ _ h => nomatch h
  · exact .bind fun _ => .bind fun _ => .bind fun _ => .bind fun _ => .bind fun _ => leaf _ fun _ _ h => nomatch h
  · exact .bind fun _ => .bind fun _ => .bind fun _ => .bind fun _ => leaf _ fun _ _ h => nomatch h
  · exact .bind fun _ => .bind fun _ => .bind fun _ => .bind fun _ => leaf _ fun _ _ h => nomatch h
  · exact .bind fun _ => .bind fun _ => .bind fun _ => .bind fun _ => .bind fun _ => leaf _ fun _ _ h => nomatch h

/-- A definition that the parser gives up: where it goes on. -/
theorem def_bad {n : Nat} {t t1 : TS} {p q : Nat} (hn : t.rest.length < n) (h0 : t.tok ≠ Tk.eof) (hs : t.Sorted) (h : (def_ n).run tokSource t = .done (some (.bad p q), t1)) :
    p = t.pos ∧ q = t1.pos ∧ p < q ∧ (∃ e ∈ t1.errs, p ≤ e.1 ∧ e.1 ≤ q) ∧ (t1.rest = [] ∨ t1.tok ≠ Tk.eof ∧ isDefinition t1.tok = true ∨ t1.tok = Tk.eof) ∧ t1.rest.length < t.rest.length := by
  have hadv := run_adv _ hs h
  obtain ⟨hg, _⟩ := def_good n t hn h0
  have hlen : t1.rest.length < t.rest.length := by
    obtain ⟨r, t', g1, _, _, _, _, g6, _⟩ := hg
    rw [h] at g1
    injection g1 with g1
    injection g1 with g1 g2
    have := g6 (by rw [← g1]; simp)
    rw [← g2] at this
    obtain ⟨y, p', l, hr⟩ := rest_of_tok' h0
    have : 0 < t.rest.length := by rw [hr]; simp
    omega
  rw [run_def] at h
  obtain ⟨⟨r, t0, h1, h2, h3, h4, h5, h6, h7⟩, _⟩ := definition_good n t hn
  rw [h1, Out.bind_done] at h
  cases r with
  | some d =>
    injection h with h
    injection h with h _
    injection h with h
    exact absurd h ((definition_returns n).run h1 p q)
  | none =>
    have hadv0 := run_adv _ hs h1
    obtain ⟨t2, g1, g2, g3, g4⟩ := resync_good n t0 (by have := h3.length_le; omega)
    dsimp only at h
    rw [run_bind, g1, Out.bind_done] at h
    have h : Out.done (some (Def.bad t.pos t2.pos), t2) = Out.done (some (Def.bad p q), t1) := h
    injection h with h
    injection h with h e
    injection h with h
    injection h with e1 e2
    subst e
    refine ⟨e1.symm, e2.symm, ?_, ?_, ?_, hlen⟩
    · rw [← e1, ← e2]
      obtain ⟨y, p', l, hr⟩ := rest_of_tok' h0
      have hx : t2.rest <:+ t.next.rest := by
        have hsuf := hadv.rest
        rw [hr] at hsuf
        rcases List.suffix_cons_iff.1 hsuf with he | he
        · rw [he, hr] at hlen; omega
        · show t2.rest <:+ t.rest.tail
          rw [hr]; exact he
      have hlt := hs.next_pos.2 (by rw [hr]; simp)
      have hle : t.next.pos ≤ t2.pos := by
        have hsn : t.next.Sorted := ⟨hs.1.sublist (List.tail_sublist _), fun x hx => hs.2 x (List.mem_of_mem_tail hx)⟩
        obtain ⟨pre, hpre⟩ := hx
        have heof : t2.eof = t.next.eof := hadv.eof
        unfold TS.pos
        rw [TS.Sorted, ← hpre] at hsn
        rw [← hpre]
        cases pre with
        | nil =>
          rw [List.nil_append]
          cases t2.rest with
          | nil => rw [heof]; exact Nat.le_refl _
          | cons => exact Nat.le_refl _
        | cons x pre =>
          rw [List.cons_append]
          cases hr2 : t2.rest with
          | nil =>
            dsimp only
            have := hsn.2 x (by simp)
            rw [heof]
            omega
          | cons z l2 =>
            rw [hr2] at hsn
            have := (List.pairwise_cons.1 hsn.1).1 z (by simp)
            dsimp only
            omega
      omega
    · have hne := (h5 rfl).1
      obtain ⟨es, he, hb⟩ := hadv0.errs
      cases es with
      | nil => rw [List.append_nil] at he; exact absurd he hne
      | cons e es =>
        refine ⟨e, by rw [g4, he]; simp, ?_⟩
        have := hb e (by simp)
        rw [← e1, ← e2]
        have hs0 := hs.adv hadv0
        have hadv2 := run_adv _ hs0 g1
        have := hadv2.pos
        omega
    · cases hr : t2.rest with
      | nil => exact .inl rfl
      | cons z l2 =>
        right
        have htk : t2.tok = z.1 := by unfold TS.tok; rw [hr]
        have := List.head?_dropWhile_not (fun x : Token × Bytes × Nat => decide (x.1 ≠ Tk.eof ∧ ¬ isDefinition x.1 = true)) t0.rest
        rw [← g3, hr] at this
        rw [htk]
        by_cases hz : z.1 = Tk.eof
        · exact .inr hz
        · by_cases hd : isDefinition z.1 = true
          · exact .inl ⟨hz, hd⟩
          · simp [hz, hd] at this

theorem defs_step {n : Nat} {t : TS} (ht : t.tok ≠ Tk.eof) : (defs (n + 1)).run tokSource t = (def_ (n + 1) >>= fun d => defs n >>= fun l => pure (d :: l)).run tokSource t := by
  rw [defs]
  show (if t.tok ≠ Tk.eof then _ else _ : PProg (List Def)).run tokSource t = _
  rw [if_pos ht]

theorem defs_end {n : Nat} {t : TS} (ht : t.tok = Tk.eof) : (defs (n + 1)).run tokSource t = .done (some [], t) := by
  rw [defs]
  show (if t.tok ≠ Tk.eof then _ else _ : PProg (List Def)).run tokSource t = _
  rw [if_neg (by simpa using ht)]
  rfl

/-- Among the definitions: where the parser goes on behind one that it gives up, and with what. -/
theorem defs_bad {n : Nat} {t t' : TS} {ds1 ds2 : List Def} {p q : Nat} (hn : t.rest.length < n) (hs : t.Sorted) (h : (defs n).run tokSource t = .done (some (ds1 ++ .bad p q :: ds2), t')) :
    ∃ t1 m, Adv t t1 ∧ q = t1.pos ∧ p < q ∧ (∃ e ∈ t1.errs, p ≤ e.1 ∧ e.1 ≤ q) ∧ (t1.rest = [] ∨ t1.tok ≠ Tk.eof ∧ isDefinition t1.tok = true ∨ t1.tok = Tk.eof) ∧
      t1.rest.length < m ∧ (defs m).run tokSource t1 = .done (some ds2, t') ∧ (∃ x ∈ t.rest, x.2.2 = p) := by
  induction n generalizing t ds1 with
  | zero => omega
  | succ n ih =>
    by_cases ht : t.tok = Tk.eof
    · rw [defs_end ht] at h
      injection h with h
      injection h with h
      injection h with h
      exact absurd h.symm (by simp)
    · rw [defs_step ht, run_bind] at h
      obtain ⟨hg, d, t1, hd⟩ := def_good (n + 1) t hn ht
      have hadv := run_adv _ hs hd
      have hlen : t1.rest.length < t.rest.length := by
        obtain ⟨r, t2, g1, _, _, _, _, g6, _⟩ := hg
        rw [hd] at g1
        injection g1 with g1
        injection g1 with g1 g2
        have := g6 (by rw [← g1]; simp)
        rw [← g2] at this
        obtain ⟨y, p', l, hr⟩ := rest_of_tok' ht
        have : 0 < t.rest.length := by rw [hr]; simp
        omega
      rw [hd, Out.bind_done] at h
      dsimp only at h
      rw [run_bind] at h
      obtain ⟨_, l, t2, h2, _⟩ := defs_good n t1 (by omega)
      rw [h2, Out.bind_done] at h
      replace h : Out.done (some (d :: l), t2) = Out.done (some (ds1 ++ .bad p q :: ds2), t') := h
      injection h with h
      injection h with h e
      injection h with h
      subst e
      cases ds1 with
      | nil =>
        obtain ⟨h, e⟩ := List.cons.inj h
        subst h
        subst e
        obtain ⟨b1, b2, b3, b4, b5, _⟩ := def_bad hn ht hs hd
        refine ⟨t1, n, hadv, b2, b3, b4, b5, by omega, h2, ?_⟩
        obtain ⟨y, p', l, hr⟩ := rest_of_tok' ht
        refine ⟨_, by rw [hr]; exact List.mem_cons_self, ?_⟩
        rw [b1]
        unfold TS.pos
        rw [hr]
      | cons d' ds1 =>
        obtain ⟨_, h⟩ := List.cons.inj h
        subst h
        obtain ⟨t3, m, a1, a2, a3, a4, a5, a6, a7, x, hx, hxp⟩ := ih (by omega) (hs.adv hadv) h2
        exact ⟨t3, m, hadv.trans a1, a2, a3, a4, a5, a6, a7, x, hadv.rest.subset hx, hxp⟩

theorem isDefinition_iff (t : Token) : isDefinition t = true ↔ t ∈ defWords := by
  revert t
  decide +kernel

/-- Well-formed definitions before a word that begins a definition are returned, whatever follows. -/
theorem defs_prefix {n : Nat} {t : TS} {ds : List Def} {w rest : List Lx} (hG : Many DefG ds w) (hr : hd rest ∈ Tk.eof :: defWords) (hs : t.Sorted) (ht : t.plain = w ++ rest) (hn : t.rest.length < n) :
    ∃ t1 m more t', Adv t t1 ∧ t1.plain = rest ∧ t1.errs = t.errs ∧ t1.rest.length < m ∧ (defs m).run tokSource t1 = .done (some more, t') ∧
      (defs n).run tokSource t = .done (some (ds ++ more), t') := by
  induction hG generalizing n t with
  | nil =>
    obtain ⟨_, l, t', h, _⟩ := defs_good n t hn
    exact ⟨t, n, l, t', .refl t, ht, rfl, hn, h, h⟩
  | @cons x w xs ws h1 h2 ih =>
    cases n with
    | zero => omega
    | succ n =>
      obtain ⟨h3, h4⟩ := hd_def h1
      have hf : ∀ x ∈ defWords, x ≠ Tk.eof := by decide
      have hg : ∀ x ∈ Tk.eof :: defWords, x ≠ Tk.lparen ∧ x ≠ Tk.comma ∧ x ≠ Tk.semicolon := by decide
      have hne : 0 < w.length := by
        cases w with
        | nil => exact absurd rfl h3
        | cons => simp
      have htok : t.tok ≠ Tk.eof := by
        rw [t.tok_hd, ht, List.append_assoc, hd_append h3]
        exact hf _ h4
      have hlen : t.rest.length = (w ++ (ws ++ rest)).length := by
        rw [← List.append_assoc, ← ht]
        unfold TS.plain
        rw [List.length_map]
      have hh : hd (ws ++ rest) ∈ Tk.eof :: defWords := by
        cases ws with
        | nil => exact hr
        | cons y ws =>
          have := hd_defs h2
          exact this
      obtain ⟨t1, e1, e2, e3, e4⟩ := Eats.def_ (n := n + 1) h1 (hg _ hh) (by omega) t (by rw [ht, List.append_assoc])
      have hadv := run_adv _ hs e1
      have hlen1 : t1.rest.length = (ws ++ rest).length := by
        rw [← e2]
        unfold TS.plain
        rw [List.length_map]
      obtain ⟨t2, m, more, t', a1, a2, a3, a4, a5, a6⟩ := ih (n := n) (t := t1) (hs.adv hadv) e2 (by rw [List.length_append] at hlen; omega)
      refine ⟨t2, m, more, t', hadv.trans a1, a2, a3.trans e3, a4, a5, ?_⟩
      rw [defs_step htok, run_bind, e1, Out.bind_done]
      dsimp only
      rw [run_bind, a6, Out.bind_done]
      rfl

/-- What the parser sees of a token. -/
def TokenAt.seen (t : TokenAt) : Token × Bytes × Nat := (t.tok, t.text, t.from_)

theorem split_map {α β : Type} {f : α → β} {l : List α} {r : List β} (h : r <:+ l.map f) : ∃ a b, l = a ++ b ∧ r = b.map f := by
  obtain ⟨p, h⟩ := h
  obtain ⟨a, b, h1, _, h3⟩ := List.map_eq_append_iff.1 h.symm
  exact ⟨a, b, h1, h3.symm⟩

theorem file_run {n : Nat} {t t' : TS} {f : File} (h : (file_ n).run tokSource t = .done (some f, t')) :
    ∃ t1, (headers n).run tokSource t = .done (some f.headers, t1) ∧ (defs n).run tokSource t1 = .done (some f.defs, t') := by
  unfold file_ at h
  rw [run_bind] at h
  cases h1 : (headers n).run tokSource t with
  | done r =>
    obtain ⟨r, t1⟩ := r
    rw [h1, Out.bind_done] at h
    cases r with
    | none => injection h with h; injection h with h; cases h
    | some hs =>
      dsimp only at h
      rw [run_bind] at h
      cases h2 : (defs n).run tokSource t1 with
      | done r =>
        obtain ⟨r, t2⟩ := r
        rw [h2, Out.bind_done] at h
        cases r with
        | none => injection h with h; injection h with h; cases h
        | some ds =>
          injection h with h
          injection h with h e
          injection h with h
          subst h
          subst e
          exact ⟨t1, rfl, h2⟩
      | _ => rw [h2] at h; cases h
  | _ => rw [h1] at h; cases h

/-- The errors of the parser from `t` on, before the definitions that follow `w`. -/
theorem defs_errors {n : Nat} {t t' : TS} {ds ds' : List Def} {l1 l2 : List TokenAt} (hG : Many DefG ds (l1.map fun x => (x.tok, x.text))) (hl : l2 = [] ∨ ∃ x l, l2 = x :: l ∧ x.tok ∈ defWords) (hs : t.Sorted)
    (ht : t.rest = (l1 ++ l2).map TokenAt.seen) (hn : t.rest.length < n) (hrun : (defs n).run tokSource t = .done (some ds', t')) :
    ∃ more, ds' = ds ++ more ∧ (l2 = [] → more = []) ∧ ∀ e ∈ t'.errs, e ∈ t.errs ∨ ∃ x l, l2 = x :: l ∧ x.from_ ≤ e.1 := by
  have hmap : ∀ l : List TokenAt, (l.map TokenAt.seen).map Scanner.plain = l.map fun x => (x.tok, x.text) := fun l => by rw [List.map_map]; rfl
  obtain ⟨t1, m, more, t2, a1, a2, a3, a4, a5, a6⟩ := defs_prefix (n := n) (rest := l2.map fun x => (x.tok, x.text)) hG (by
    rcases hl with rfl | ⟨x, l, rfl, hx⟩
    · exact List.mem_cons_self
    · exact List.mem_cons_of_mem _ hx) hs (by unfold TS.plain; rw [ht, hmap, List.map_append]) hn
  rw [hrun] at a6
  injection a6 with a6
  injection a6 with a6 a7
  injection a6 with a6
  subst a7
  have hlen : t1.rest.length = l2.length := by
    have := congrArg List.length a2
    unfold TS.plain at this
    rwa [List.length_map, List.length_map] at this
  have hrest : t1.rest = l2.map TokenAt.seen := by
    obtain ⟨p, hp⟩ := a1.rest
    rw [ht, List.map_append] at hp
    have := congrArg List.length hp
    simp at this
    exact (List.append_inj hp (by rw [List.length_map]; omega)).2
  refine ⟨more, a6, fun hl2 => ?_, fun e he => ?_⟩
  · subst hl2
    cases m with
    | zero => omega
    | succ m =>
      rw [defs_end (by unfold TS.tok; rw [hrest]; rfl)] at a5
      injection a5 with a5
      injection a5 with a5
      injection a5 with a5
      exact a5.symm
  · obtain ⟨es, e1, e2⟩ := (run_adv _ (hs.adv a1) a5).errs
    rw [e1, a3] at he
    rcases List.mem_append.1 he with he | he
    · exact .inl he
    · rcases hl with rfl | ⟨x, l, rfl, hx⟩
      · cases m with
        | zero => omega
        | succ m =>
          rw [defs_end (by unfold TS.tok; rw [hrest]; rfl)] at a5
          injection a5 with a5
          injection a5 with _ a5
          rw [← a5] at e1
          rw [List.self_eq_append_right.1 e1] at he
          cases he
      · refine .inr ⟨x, l, rfl, ?_⟩
        have := (e2 e he).1
        unfold TS.pos at this
        rw [hrest] at this
        exact this

end GoThrift.Idl
