import Verif.Proof.HeapLeaf

/-!
# Unmarshal on memory without sharing: lists and sets
-/

namespace GoThrift

open Spec

theorem replace_nodup {A V B V1 : List Loc} {n : Nat} (hn : (A ++ (V ++ B)).Nodup) (h1 : V1.Nodup) (hs : ∀ l ∈ V1, l ∈ V ∨ n ≤ l) (ha : ∀ l ∈ A ++ (V ++ B), l < n) :
    (A ++ (V1 ++ B)).Nodup := by
  rw [List.nodup_append] at hn ⊢
  obtain ⟨nA, nVB, dA⟩ := hn
  rw [List.nodup_append] at nVB ⊢
  obtain ⟨nV, nB, dV⟩ := nVB
  refine ⟨nA, ⟨h1, nB, fun a ha1 b hb he => ?_⟩, fun a ha1 b hb he => ?_⟩
  · subst he
    rcases hs a ha1 with h | h
    · exact dV a h a hb rfl
    · have := ha a (by simp [hb]); omega
  · subst he
    rcases List.mem_append.1 hb with hb | hb
    · rcases hs a hb with h | h
      · exact dA a ha1 a (by simp [h]) rfl
      · have := ha a (by simp [ha1]); omega
    · exact dA a ha1 a (by simp [hb]) rfl

theorem orPanic_some {α β : Type} (a : α) (k : α → RProg β) : orPanic (some a) k = k a := rfl

section
variable {p q : Place} {h h0 h1 h2 : Heap} {v v0 v1 : GoVal} {x x0 x1 x2 y y1 : HVal} {F F0 F1 F2 G G1 A B : List Loc}

/-- A step at a place inside. -/
theorem Step.inner (c : Pre p h v x F) (s : Step q h G h1 y G1) (hq : q.loc ∈ F) (hG : ∀ l ∈ G, l ∈ F) (hs : ∀ l ∈ F1, l ∈ F ∨ (h.next ≤ l ∧ l < h1.next)) (hn : F1.Nodup) :
    Step p h F h1 x F1 :=
  .other c s.next hs hn fun l hl hF => by
    rw [s.frame l hl fun hm => hF (hG l hm)]
    exact set_mem_ne _ _ fun he => hF (he ▸ hq)

/-- The addresses of a part are replaced. -/
theorem Step.replace_sub {n : Nat} (hs : ∀ l ∈ G1, l ∈ G ∨ (h.next ≤ l ∧ l < n)) : ∀ l ∈ A ++ (G1 ++ B), l ∈ A ++ (G ++ B) ∨ (h.next ≤ l ∧ l < n) := by
  intro l hl
  simp only [List.mem_append] at hl ⊢
  rcases hl with hl | hl | hl
  · exact .inl (.inl hl)
  · rcases hs l hl with h | h
    · exact .inl (.inr (.inl h))
    · exact .inr h
  · exact .inl (.inr (.inr hl))

theorem owns_slice_inv {s : Option SliceRef} (o : Owns h v (.slice s) F) : (v = .sliceNil ∧ s = none) ∨ ∃ es sp r, v = .slice es sp ∧ s = some r := by
  cases v with
  | struct vs => rw [Owns] at o; obtain ⟨xs, hx, _⟩ := o; cases hx
  | map es => rw [Owns] at o; obtain ⟨_, _, _, hx, _⟩ := o; cases hx
  | slice es sp => rw [Owns] at o; obtain ⟨r, _, _, _, _, hx, _⟩ := o; cases hx; exact .inr ⟨es, sp, r, rfl, rfl⟩
  | ptr v => rw [Owns] at o; obtain ⟨_, _, _, hx, _⟩ := o; cases hx
  | bytes b => cases b with
    | none => cases o.1
    | some b => rw [Owns] at o; obtain ⟨_, _, hx, _⟩ := o; cases hx
  | sliceNil => cases o.1; exact .inl ⟨rfl, rfl⟩
  | _ => cases o.1

/-- The parts of a slice. -/
theorem owns_slice {es sp : List GoVal} (o : Owns h (.slice es sp) x F) : ∃ s xs G, x = .slice (some s) ∧ s.len = es.length ∧ s.cap = es.length + sp.length ∧ CellsAt h s.base xs ∧
    OwnsAll h (es ++ sp) xs G ∧ F = List.range' s.base s.cap ++ G := by
  rw [Owns] at o
  obtain ⟨s, xs, ys, G, H, rfl, h1, h2, hc, o1, o2, rfl⟩ := o
  exact ⟨s, xs ++ ys, G ++ H, rfl, h1.symm, h2.symm, hc, o1.append o2, rfl⟩

theorem owns_slice_mk {es sp : List GoVal} {s : SliceRef} {xs : List HVal} (h1 : s.len = es.length) (h2 : s.cap = es.length + sp.length) (hc : CellsAt h s.base xs) (o : OwnsAll h (es ++ sp) xs G) :
    Owns h (.slice es sp) (.slice (some s)) (List.range' s.base s.cap ++ G) := by
  obtain ⟨ys, ys', H, H', rfl, rfl, o1, o2⟩ := o.of_append
  rw [Owns]
  exact ⟨s, ys, ys', H, H', rfl, h1.symm, h2.symm, hc, o1, o2, rfl⟩

/-- `SetLen` -/
theorem Step.setLen {es sp es' sp' : List GoVal} (c : Pre p h (.slice es sp) x F) (he : es ++ sp = es' ++ sp') :
    ∃ h1 s1, h.setLen p es'.length = some h1 ∧ Step p h F h1 (.slice (some s1)) F ∧ Owns h1 (.slice es' sp') (.slice (some s1)) F := by
  obtain ⟨s, xs, G, rfl, hl, hc, hcell, o, rfl⟩ := owns_slice c.owns
  have hlen : es'.length + sp'.length = es.length + sp.length := by rw [← List.length_append, ← List.length_append, he]
  refine ⟨h.set p (.slice (some { s with len := es'.length })), _, ?_, (Step.refl c).assign c ?_⟩
  · unfold Heap.setLen
    rw [c.get]
    simp only
    rw [if_pos (by omega)]
  · rw [he] at o
    exact owns_slice_mk (s := { s with len := es'.length }) rfl (by simp only; omega) hcell o

theorem range'_mem {b n i : Nat} (h : i < n) : b + i ∈ List.range' b n := by rw [List.mem_range'_1]; omega

/-- One element of a slice, and the slice when it has been replaced. -/
theorem slice_elem {a b : List GoVal} (c : Pre p h (.slice (a ++ v :: b) []) x F) : ∃ s y G, x = .slice (some s) ∧ s.len = (a ++ v :: b).length ∧ s.cap = (a ++ v :: b).length ∧
    Pre ⟨s.base + a.length, []⟩ h v y G ∧
    ∀ h1 v1 y1 G1, Step ⟨s.base + a.length, []⟩ h G h1 y1 G1 → Owns h1 v1 y1 G1 → ∃ F1, Step p h F h1 x F1 ∧ Owns h1 (.slice (a ++ v1 :: b) []) x F1 := by
  obtain ⟨s, xs, GG, rfl, hl, hc, hcell, o, rfl⟩ := owns_slice c.owns
  rw [List.append_nil] at o
  obtain ⟨ys, zs, Ga, Gb, rfl, rfl, oa, ob⟩ := o.of_append
  rw [OwnsAll] at ob
  obtain ⟨y, zs, G, Gb, rfl, ov, ob, rfl⟩ := ob
  have hcap : s.cap = (a ++ v :: b).length := by rw [hc]; rfl
  have hlt : a.length < s.cap := by rw [hcap, List.length_append, List.length_cons]; omega
  have hya : ys.length = a.length := oa.length
  have hR : s.base + a.length ∈ List.range' s.base s.cap := range'_mem hlt
  have hF : List.range' s.base s.cap ++ (Ga ++ (G ++ Gb)) = (List.range' s.base s.cap ++ Ga) ++ (G ++ Gb) := by simp
  have nd := c.nodup
  have al := c.alloc
  rw [hF] at nd al
  have nd1 := List.nodup_append.1 nd
  have nd2 := List.nodup_append.1 nd1.2.1
  have hq : ∀ l ∈ G ++ Gb, l ≠ s.base + a.length := fun l hl he => nd1.2.2 (s.base + a.length) (by simp [hR]) l hl he.symm
  have hqa : ∀ l ∈ Ga, l ≠ s.base + a.length := fun l hl he => by
    have := (List.nodup_append.1 nd1.1).2.2 (s.base + a.length) hR l hl
    exact this he.symm
  refine ⟨s, y, G, rfl, hl, hcap, ?_, ?_⟩
  · exact {
      get := get_var.2 (hcell a.length y (by rw [← hya]; simp))
      owns := ov
      nodup := nd2.1
      notin := fun hm => hq _ (by simp [hm]) rfl
      lt := al _ (by simp [hR])
      alloc := fun l hl => al l (by simp [hl]) }
  · intro h1 v1 y1 G1 s1 o1
    have frame : ∀ l ∈ Ga ++ Gb, h1.mem l = h.mem l := by
      intro l hl
      have hlt : l < h.next := al l (by rcases List.mem_append.1 hl with hl | hl <;> simp [hl])
      have hne : l ≠ s.base + a.length := by
        rcases List.mem_append.1 hl with hl | hl
        · exact hqa l hl
        · exact hq l (by simp [hl])
      have hnG : l ∉ G := fun hm => by
        rcases List.mem_append.1 hl with hl | hl
        · exact nd1.2.2 l (by simp [hl]) l (by simp [hm]) rfl
        · exact nd2.2.2 l hm l hl rfl
      rw [s1.frame l hlt hnG]
      exact set_mem_ne _ _ hne
    refine ⟨List.range' s.base s.cap ++ (Ga ++ (G1 ++ Gb)), ?_, ?_⟩
    · have e1 : List.range' s.base s.cap ++ (Ga ++ (G1 ++ Gb)) = (List.range' s.base s.cap ++ Ga) ++ (G1 ++ Gb) := by simp
      rw [hF, e1]
      rw [hF] at c
      exact Step.inner c s1 (by simp [hR]) (fun l hl => by simp [hl]) (Step.replace_sub s1.sub)
        (replace_nodup nd s1.nodup (fun l hl => (s1.sub l hl).imp_right And.left) al)
    · refine owns_slice_mk (xs := ys ++ y1 :: zs) (by rw [hl]; simp) (by rw [hcap]; simp) ?_ ?_
      · intro i z hz
        by_cases hi : i = a.length
        · subst hi
          rw [← hya, List.getElem?_append_right (Nat.le_refl _), Nat.sub_self] at hz
          cases hz
          exact get_var.1 s1.get
        · have hz' : (ys ++ y :: zs)[i]? = some z := by
            rw [← hz, List.getElem?_append, List.getElem?_append]
            split
            · rfl
            · obtain ⟨j, hj⟩ : ∃ j, i - ys.length = j + 1 := ⟨i - ys.length - 1, by omega⟩
              rw [hj]; rfl
          have hilt := (List.getElem?_eq_some_iff.1 hz').1
          rw [List.length_append, List.length_cons, hya, ob.length] at hilt
          rw [List.length_append, List.length_cons] at hcap
          have hiR : s.base + i ∈ List.range' s.base s.cap := range'_mem (by omega)
          have hnG : s.base + i ∉ G := fun hm => nd1.2.2 _ (List.mem_append_left Ga hiR) _ (by simp [hm]) rfl
          rw [s1.frame _ (al _ (by simp [hiR])) hnG, set_mem_ne _ _ (by simp only; omega)]
          exact hcell i z hz'
      · rw [List.append_nil]
        exact (oa.congr fun l hl => frame l (by simp [hl])).append (.cons o1 (ob.congr fun l hl => frame l (by simp [hl])))

theorem ownsAll_zero (env : Env) (h : Heap) (t : TypeId) (n : Nat) : OwnsAll h (List.replicate n (env.zero t)) (List.replicate n (env.hzero t)) [] := by
  induction n with
  | zero => exact ⟨rfl, rfl⟩
  | succ n ih => rw [List.replicate_succ, List.replicate_succ]; exact .cons (owns_zero env h t) ih

/-- Growing a full slice. -/
theorem Step.grow (env : Env) (t et : TypeId) {es : List GoVal} (c : Pre p h v x F) (hv : (v = .sliceNil ∧ es = []) ∨ v = .slice es []) :
    ∃ h1 s1 F1, h.grow env t et p = some h1 ∧ Step p h F h1 (.slice (some s1)) F1 ∧
      Owns h1 (.slice (es ++ List.replicate (max 1 (env.grow t es.length - es.length)) (env.zero et)) []) (.slice (some s1)) F1 := by
  obtain ⟨xs, G, s, hx, hlen, hG, nG, hfull, hcells⟩ : ∃ xs G s, x = .slice s ∧ OwnsAll h es xs G ∧ (∀ l ∈ G, l ∈ F) ∧ G.Nodup ∧
      (∀ r, s = some r → r.len = r.cap ∧ h.cells r.base r.cap = some xs) ∧ (s = none → xs = []) := by
    rcases hv with ⟨rfl, rfl⟩ | rfl
    · exact ⟨[], [], none, c.owns.1, ⟨rfl, rfl⟩, by simp, by simp, fun r hr => (by cases hr), fun _ => rfl⟩
    · obtain ⟨s, xs, G, rfl, hl, hc, hcell, o, rfl⟩ := owns_slice c.owns
      rw [List.append_nil] at o
      refine ⟨xs, G, some s, rfl, o, fun l hl => by simp [hl], (List.nodup_append.1 c.nodup).2.1, fun r hr => ?_, fun hn => by cases hn⟩
      cases hr
      refine ⟨by rw [hl, hc]; simp, ?_⟩
      have := cells_of hcell
      rw [o.length] at this
      rwa [hc, List.length_nil, Nat.add_zero]
  subst hx
  have hxl := hlen.length
  let m := max 1 (env.grow t es.length - es.length)
  let ys := xs ++ List.replicate m (env.hzero et)
  let h' := (h.allocArray ys).1
  have hys : ys.length = es.length + m := by simp [ys, hxl]
  have hmem : ∀ l, l < h.next → h'.mem l = h.mem l := fun l hl => fill_mem_out h h.next ys (by rw [List.mem_range'_1]; omega)
  have hnext : h'.next = h.next + ys.length := rfl
  have s1 : Step p h F h' (.slice s) (List.range' h.next ys.length ++ G) := by
    refine .other c (by rw [hnext]; omega) (fun l hl => ?_) ?_ fun l hl _ => hmem l hl
    · rcases List.mem_append.1 hl with hl | hl
      · rw [List.mem_range'_1] at hl
        exact .inr (by rw [hnext]; omega)
      · exact .inl (hG l hl)
    · rw [List.nodup_append]
      refine ⟨List.nodup_range' _, nG, fun a ha b hb he => ?_⟩
      subst he
      rw [List.mem_range'_1] at ha
      have := c.alloc a (hG a hb)
      omega
  have o1 : Owns h' (.slice (es ++ List.replicate m (env.zero et)) []) (.slice (some ⟨h.next, ys.length, ys.length⟩)) (List.range' h.next ys.length ++ G) := by
    refine owns_slice_mk (s := ⟨h.next, ys.length, ys.length⟩) (xs := ys) ?_ ?_ (cellsAt_fill h h.next ys) ?_
    · rw [hys]; simp
    · rw [hys]; simp
    · rw [List.append_nil]
      have := (hlen.congr (h' := h') fun l hl => hmem l (c.alloc l (hG l hl))).append (ownsAll_zero env h' et m)
      rwa [List.append_nil] at this
  obtain ⟨s2, o2⟩ := s1.assign c o1
  refine ⟨_, _, _, ?_, s2, o2⟩
  unfold Heap.grow
  rw [c.get]
  cases s with
  | none =>
    have hz := hcells rfl
    have hxs : xs.length = es.length := hxl
    simp only
    simp only [h', ys, m, ← hxs]
    rw [hz]
    rfl
  | some r =>
    obtain ⟨he, hcl⟩ := hfull r rfl
    simp only
    rw [if_neg (by omega), hcl]
    simp only [Option.bind_some]
    rw [hxl]
    rfl

/-- What the element loop makes of a slice. -/
def AfterSeq (p : Place) (h : Heap) (F : List Loc) (r : (List GoVal × List GoVal) × Option Err) (r' : Heap × Option Err) : Prop := After p h F (.slice r.1.1 r.1.2, r.2) r'

theorem hseqLoop_rel (env : Env) (t et : TypeId) {u : GoVal → UProg GoVal} {hu : Place → Heap → UProg Heap} (hh : ∀ q h v x F, Pre q h v x F → Rel (After q h F) (u v) (hu q h)) (n : Nat)
    (done rest : List GoVal) (mz : Bool) (c : Pre p h v x F) (hv : (v = .sliceNil ∧ done = [] ∧ rest = [] ∧ n ≠ 0) ∨ v = .slice (done ++ rest) []) :
    Rel (AfterSeq p h F) (seqLoop u (env.zero et) (env.grow t) n done rest mz) (hseqLoop env t et p hu n done.length (done.length + rest.length) mz h) := by
  induction n generalizing done rest mz h v x F with
  | zero =>
    rcases hv with ⟨_, _, _, hn⟩ | rfl
    · exact absurd rfl hn
    · obtain ⟨h1, s1, he, st, o⟩ := Step.setLen c (List.append_nil _)
      rw [seqLoop, hseqLoop, he]
      exact After.done o st none
  | succ n ih =>
    rw [seqLoop, hseqLoop]
    -- one element
    have step : ∀ (h1 : Heap) (s1 : SliceRef) (F1 : List Loc) (w : GoVal) (rest1 : List GoVal) (mz1 : Bool) (cap : Nat), Step p h F h1 (.slice (some s1)) F1 →
        Owns h1 (.slice (done ++ w :: rest1) []) (.slice (some s1)) F1 → cap = done.length + (rest1.length + 1) →
        Rel (AfterSeq p h F) ((u (if mz1 = true then env.zero et else w)).andThen (fun v' => (done ++ [v'], rest1)) fun v' => seqLoop u (env.zero et) (env.grow t) n (done ++ [v']) rest1 mz1)
          ((hu ⟨s1.base + done.length, []⟩ (if mz1 = true then h1.set ⟨s1.base + done.length, []⟩ (env.hzero et) else h1)).bind fun r => match r.2 with
            | some e => orPanic (r.1.setLen p (done.length + 1)) fun h => .ret (h, some e)
            | none => hseqLoop env t et p hu n (done.length + 1) cap mz1 r.1) := by
      intro h1 s1 F1 w rest1 mz1 cap st o hcap
      have c1 := st.pre c o
      obtain ⟨s, y, G, hs, hl, hc, cq, hrep⟩ := slice_elem c1
      cases hs
      have inner : Rel (After ⟨s1.base + done.length, []⟩ h1 G) (u (if mz1 = true then env.zero et else w))
          (hu ⟨s1.base + done.length, []⟩ (if mz1 = true then h1.set ⟨s1.base + done.length, []⟩ (env.hzero et) else h1)) := by
        cases mz1 with
        | false => exact hh _ _ _ _ _ cq
        | true =>
          have s0 : Step ⟨s1.base + done.length, []⟩ h1 G (h1.set ⟨s1.base + done.length, []⟩ (env.hzero et)) (env.hzero et) [] := .set _ cq.get (by simp) (by simp)
          have c0 := s0.pre cq (owns_zero env _ et)
          have := hh _ _ _ _ _ c0
          exact Rel.mono (fun r r' a => a.trans s0) this
      refine inner.bind fun r r' a => ?_
      obtain ⟨w1, e⟩ := r
      obtain ⟨h2, e'⟩ := r'
      obtain ⟨he, w2, y2, G2, st2, o2, sc, hn⟩ := a
      dsimp only at he
      subst he
      obtain ⟨F2, st3, o3⟩ := hrep h2 w2 y2 G2 st2 o2
      have st4 := st.trans st3
      have c4 := st4.pre c o3
      cases e with
      | some e =>
        obtain ⟨h5, s5, hl5, st5, o5⟩ := Step.setLen (es' := done ++ [w2]) (sp' := rest1) c4 (by simp)
        simp only
        rw [List.length_append] at hl5
        have hl5 : h2.setLen p (done.length + 1) = some h5 := hl5
        rw [hl5]
        exact ⟨rfl, _, _, _, st4.trans st5, o5, .slice done [] rest1 w1 w2 sc, fun hn => by cases hn⟩
      | none =>
        obtain rfl : w2 = w1 := hn rfl
        have := ih (done ++ [w2]) rest1 mz1 c4 (.inr (by simp))
        rw [List.length_append] at this
        have e1 : done.length + [w2].length + rest1.length = cap := by rw [hcap, List.length_singleton]; omega
        rw [e1] at this
        exact Rel.mono (fun r r' a => a.trans st4) this
    cases rest with
    | nil =>
      have hv' : (v = .sliceNil ∧ done = []) ∨ v = .slice done [] := by
        rcases hv with ⟨h1, h2, _⟩ | h1
        · exact .inl ⟨h1, h2⟩
        · exact .inr (by rw [h1, List.append_nil])
      obtain ⟨h1, s1, F1, hg, st, o⟩ := Step.grow env t et c hv'
      obtain ⟨m, hm⟩ : ∃ m, max 1 (env.grow t done.length - done.length) = m + 1 := ⟨max 1 (env.grow t done.length - done.length) - 1, by omega⟩
      rw [hm, List.replicate_succ] at o
      obtain ⟨s, y, G, hs, hl, hc, _⟩ := slice_elem (st.pre c o)
      cases hs
      have hsl : h1.sliceAt p = some s1 := by unfold Heap.sliceAt; rw [st.get]
      simp only [List.isEmpty_nil, List.length_nil, Nat.add_zero, if_true, Bool.not_true, Bool.and_false, decide_true]
      rw [hg, hm, List.replicate_succ]
      simp only [orPanic_some, hsl]
      rw [List.length_append, List.length_cons] at hl hc
      have hlt : done.length < s1.len := by omega
      rw [if_pos hlt]
      exact step h1 s1 F1 (env.zero et) (List.replicate m (env.zero et)) false s1.cap st o hc
    | cons w rest =>
      obtain rfl : v = .slice (done ++ w :: rest) [] := by
        rcases hv with ⟨_, _, h, _⟩ | h
        · cases h
        · exact h
      obtain ⟨s, y, G, rfl, hl, hc, _⟩ := slice_elem c
      have hsl : h.sliceAt p = some s := by unfold Heap.sliceAt; rw [c.get]
      rw [List.length_append, List.length_cons] at hl hc
      have hne : ¬ (done.length = done.length + (w :: rest).length) := by rw [List.length_cons]; omega
      simp only [List.isEmpty_cons, Bool.false_eq_true, if_false, Bool.not_false, Bool.and_true, hne, decide_false]
      simp only [orPanic_some, hsl]
      have hlt : done.length < s.len := by omega
      rw [if_pos hlt]
      exact step h s F w rest mz _ (.refl c) c.owns rfl

theorem hseqBody_rel (env : Env) (t et : TypeId) {u : WType → GoVal → UProg GoVal} {hu : WType → Place → Heap → UProg Heap}
    (hh : ∀ wt q h v x F, Pre q h v x F → Rel (After q h F) (u wt v) (hu wt q h)) {s : Option SliceRef} (c : Pre p h v (.slice s) F) (hd : SetHeader) {fin : GoVal → UProg GoVal} {hfin : Heap → UProg Heap}
    (hf : ∀ h1 v1 x1 F1, Step p h F h1 x1 F1 → Owns h1 v1 x1 F1 → Rel (After p h F) (fin v1) (hfin h1)) :
    Rel (After p h F) (seqBody env t et u v hd fin) (hseqBody env t et hu p s h hd hfin) := by
  unfold seqBody hseqBody
  split
  · rename_i hpos
    have hn : loopCount hd.size ≠ 0 := by
      unfold loopCount
      omega
    have loop : ∀ (h1 : Heap) (v1 : GoVal) (x1 : HVal) (F1 : List Loc), Step p h F h1 x1 F1 → Owns h1 v1 x1 F1 →
        ((v1 = .sliceNil ∧ v.slots = []) ∨ v1 = .slice v.slots []) → ∀ cap, cap = v.slots.length →
        Rel (After p h F) ((seqLoop (u hd.element) (env.zero et) (env.grow t) (loopCount hd.size) [] v.slots true).andThen (fun p => .slice p.1 p.2) fun p => fin (.slice p.1 p.2))
          ((hseqLoop env t et p (hu hd.element) (loopCount hd.size) 0 cap true h1).andThen id hfin) := by
      intro h1 v1 x1 F1 st o hv cap hcap
      subst hcap
      have := hseqLoop_rel env t et (hh hd.element) (loopCount hd.size) [] v.slots true (st.pre c o) (hv.imp (fun h => ⟨h.1, rfl, h.2, hn⟩) id)
      rw [List.length_nil, Nat.zero_add] at this
      refine Rel.andThen (R := AfterSeq p h F) (fun x y a => a.eq) (Rel.mono (fun r r' a => a.trans st) this) (fun a b hr => ?_) fun a b e hr => hr
      obtain ⟨_, v2, x2, F2, st2, o2, _, hv2⟩ := hr
      rw [hv2 rfl] at o2
      exact hf _ _ _ _ st2 o2
    rcases owns_slice_inv c.owns with ⟨rfl, rfl⟩ | ⟨es, sp, r, rfl, rfl⟩
    · exact loop h _ _ _ (.refl c) c.owns (.inl ⟨rfl, rfl⟩) _ rfl
    · obtain ⟨s, xs, G, hs, hl, hc, _⟩ := owns_slice c.owns
      cases hs
      simp only
      by_cases hz : r.cap > 0
      · rw [if_pos hz]
        obtain ⟨h1, s1, he, st, o⟩ := Step.setLen (es' := es ++ sp) (sp' := []) c (by simp)
        rw [hc, ← List.length_append, he]
        exact loop h1 _ _ _ st o (.inr rfl) _ (by simp [GoVal.slots])
      · rw [if_neg hz]
        have hes : es = [] := List.eq_nil_of_length_eq_zero (by omega)
        have hsp : sp = [] := List.eq_nil_of_length_eq_zero (by omega)
        subst hes hsp
        exact loop h _ _ _ (.refl c) c.owns (.inr rfl) _ (by simpa [GoVal.slots] using hc)
  · rcases owns_slice_inv c.owns with ⟨rfl, rfl⟩ | ⟨es, sp, r, rfl, rfl⟩
    · have : h.setLen p 0 = some h := by unfold Heap.setLen; rw [c.get]; rfl
      rw [this]
      exact hf _ _ _ _ (.refl c) c.owns
    · obtain ⟨h1, s1, he, st, o⟩ := Step.setLen (es' := []) (sp' := es ++ sp) c (by simp)
      rw [List.length_nil] at he
      rw [he]
      exact hf _ _ _ _ st o

theorem hunmarshalSeq_rel (env : Env) (t : TypeId) (isSet : Bool) (et : TypeId) {u : WType → GoVal → UProg GoVal} {hu : WType → Place → Heap → UProg Heap}
    (hh : ∀ wt q h v x F, Pre q h v x F → Rel (After q h F) (u wt v) (hu wt q h)) (wt : WType) (c : Pre p h v x F) :
    Rel (After p h F) (unmarshalSeq env t isSet et u v wt) (hunmarshalSeq env t isSet et hu p wt h) := by
  have main : ∀ s, x = .slice s → Rel (After p h F) (unmarshalSeq env t isSet et u v wt) (hunmarshalSeq env t isSet et hu p wt h) := by
    rintro s rfl
    have he : v.elems?.isNone = false := by
      rcases owns_slice_inv c.owns with ⟨rfl, rfl⟩ | ⟨es, sp, r, rfl, rfl⟩ <;> rfl
    unfold unmarshalSeq hunmarshalSeq
    rw [c.get, he]
    simp only [Bool.false_eq_true, if_false]
    have fin : ∀ {o : ROp} (act : String) (tt : WType), ∀ h1 v1 x1 F1, Step p h F h1 x1 F1 → Owns h1 v1 x1 F1 →
        Rel (After p h F) (rcall act tt t o v1 fun _ => .ret (v1, none)) (rcall act tt t o h1 fun _ => .ret (h1, none)) :=
      fun _ _ h1 v1 x1 F1 st ow => rcall_rel (fun e => .done ow st _) fun _ => After.done ow st none
    cases isSet <;> simp only [Bool.false_eq_true, if_false, if_true] <;> split
    · exact After.keep c _
    · exact rcall_rel (fun e => .keep c _) fun hd => hseqBody_rel env t et hh c hd (fin _ _)
    · exact After.keep c _
    · exact rcall_rel (fun e => .keep c _) fun hd => hseqBody_rel env t et hh c hd (fin _ _)
  cases x with
  | slice s => exact main s rfl
  | _ =>
    have he : v.elems?.isNone = true := by
      cases v with
      | slice es sp => have := c.owns; rw [Owns] at this; obtain ⟨_, _, _, _, _, hx, _⟩ := this; cases hx
      | sliceNil => cases c.owns.1
      | _ => rfl
    unfold unmarshalSeq hunmarshalSeq
    rw [c.get, he]
    simp only [if_true]
    cases isSet <;> simp only [Bool.false_eq_true, if_false, if_true] <;> split <;> first | exact After.keep c _ | trivial

end

end GoThrift
