import Verif.Proof.HeapMap

/-!
# Unmarshal on memory without sharing does what it does on trees
-/

namespace GoThrift

open Spec

theorem bind_ret {α : Type} (p : RProg α) : p.bind .ret = p := by
  induction p with
  | call o k ih => simp only [RProg.bind]; congr 1; funext r; exact ih r
  | _ => rfl

section
variable {p q : Place} {h h0 h1 h2 : Heap} {v v0 v1 : GoVal} {x x0 x1 x2 y y1 : HVal} {F F0 F1 F2 G G1 A B : List Loc}

/-- One field of a struct, and the struct when it has been replaced. -/
theorem struct_field {vs : List GoVal} {i : Nat} (c : Pre p h (.struct vs) x F) (hi : vs[i]? = some v) : ∃ y G, h.get (p.field i) = some y ∧ Pre (p.field i) h v y G ∧
    (∃ a b, vs = a ++ v :: b ∧ ∀ w, vs.set i w = a ++ w :: b) ∧
    ∀ h1 v1 y1 G1, Step (p.field i) h G h1 y1 G1 → Owns h1 v1 y1 G1 → ∃ x1 F1, Step p h F h1 x1 F1 ∧ Owns h1 (.struct (vs.set i v1)) x1 F1 := by
  have o := c.owns
  rw [Owns] at o
  obtain ⟨xs, rfl, o⟩ := o
  have hlt := (List.getElem?_eq_some_iff.1 hi).1
  have hval := (List.getElem?_eq_some_iff.1 hi).2
  obtain ⟨a, b, rfl, ha⟩ : ∃ a b, vs = a ++ v :: b ∧ a.length = i := by
    refine ⟨vs.take i, vs.drop (i + 1), ?_, by rw [List.length_take]; omega⟩
    rw [← hval, List.getElem_cons_drop, List.take_append_drop]
  subst ha
  obtain ⟨ys, zs, Ga, Gb, rfl, rfl, oa, ob⟩ := o.of_append
  rw [OwnsAll] at ob
  obtain ⟨y, zs, G, Gb, rfl, ov, ob, rfl⟩ := ob
  have hya : ys.length = a.length := oa.length
  have hxi : (ys ++ y :: zs)[a.length]? = some y := by rw [← hya]; simp
  have hset : ∀ {α : Type} (a b : List α) (v w : α), (a ++ v :: b).set a.length w = a ++ w :: b := fun a b v w => by simp
  have nd1 := List.nodup_append.1 c.nodup
  have nd2 := List.nodup_append.1 nd1.2.1
  have hg : h.get (p.field a.length) = some y := by rw [get_field c.get, hxi]
  have cq : Pre (p.field a.length) h v y G := {
    get := hg
    owns := ov
    nodup := nd2.1
    notin := fun hm => c.notin (by show p.loc ∈ _; have : p.loc ∈ G := hm; simp [this])
    lt := c.lt
    alloc := fun l hl => c.alloc l (by simp [hl]) }
  refine ⟨y, G, hg, cq, ⟨a, b, rfl, fun w => hset a b v w⟩, fun h1 v1 y1 G1 s1 o1 => ?_⟩
  have hout : ∀ l ∈ Ga ++ Gb, l < h.next ∧ l ∉ G ∧ l ≠ p.loc := fun l hl => by
    have hlF : l ∈ Ga ++ (G ++ Gb) := by rcases List.mem_append.1 hl with hl | hl <;> simp [hl]
    refine ⟨c.alloc l hlF, fun hm => ?_, fun he => c.notin (he ▸ hlF)⟩
    rcases List.mem_append.1 hl with hl | hl
    · exact nd1.2.2 l hl l (by simp [hm]) rfl
    · exact nd2.2.2 l hm l hl rfl
  have frame : ∀ l ∈ Ga ++ Gb, h1.mem l = h.mem l := fun l hl => by
    rw [s1.frame l (hout l hl).1 (hout l hl).2.1]
    exact set_mem_ne h (p := p.field a.length) _ (hout l hl).2.2
  have hfr : ∀ l, l < h.next → l ∉ Ga ++ (G ++ Gb) → h1.mem l = (h.set p (.struct (ys ++ y1 :: zs))).mem l := fun l hl hF => by
    rw [s1.frame l hl fun hm => hF (by simp [hm]), set_field_mem c.get hxi, ← hya, hset]
  refine ⟨.struct (ys ++ y1 :: zs), Ga ++ (G1 ++ Gb), ?_, ?_⟩
  · exact {
      next := s1.next
      sub := Step.replace_sub s1.sub
      nodup := replace_nodup c.nodup s1.nodup (fun l hl => (s1.sub l hl).imp_right And.left) c.alloc
      get := by
        rw [get_congr (hfr p.loc c.lt c.notin)]
        exact get_set _ c.get
      frame := hfr }
  · rw [hset a b v v1, Owns]
    exact ⟨_, rfl, (oa.congr fun l hl => frame l (by simp [hl])).append (.cons o1 (ob.congr fun l hl => frame l (by simp [hl])))⟩

theorem After.inField {vs : List GoVal} {i : Nat} (c : Pre p h (.struct vs) x F) (hi : vs[i]? = some v) {e : Option Err} (a : After (p.field i) h G (v1, e) (h1, e))
    (hrep : ∀ h1 v1 y1 G1, Step (p.field i) h G h1 y1 G1 → Owns h1 v1 y1 G1 → ∃ x1 F1, Step p h F h1 x1 F1 ∧ Owns h1 (.struct (vs.set i v1)) x1 F1)
    (hset : ∃ a b, vs = a ++ v :: b ∧ ∀ w, vs.set i w = a ++ w :: b) : After p h F (.struct (vs.set i v1), e) (h1, e) := by
  obtain ⟨_, v2, y2, G2, s2, o2, sc, hn⟩ := a
  obtain ⟨x3, F3, s3, o3⟩ := hrep _ _ _ _ s2 o2
  obtain ⟨a, b, _, hset⟩ := hset
  refine ⟨rfl, _, x3, F3, s3, o3, ?_, fun he => ?_⟩
  · rw [hset, hset]; exact .struct a b v1 v2 sc
  · dsimp only at hn ⊢
    rw [hn he]

theorem hunmarshal_rel (env : Env) (sk : Nat) : ∀ fuel : Nat,
    (∀ a wt p h v x F, Pre p h v x F → Rel (After p h F) (unmarshal env sk fuel a v wt) (hunmarshal env sk fuel a p wt h)) ∧
    (∀ t fs p h vs x F, Pre p h (.struct vs) x F → Rel (After p h F) (unmarshalFields env sk fuel t fs vs) (hunmarshalFields env sk fuel t fs p h))
  | 0 => ⟨fun _ _ _ _ _ _ _ _ => by rw [unmarshal, hunmarshal]; trivial, fun _ _ _ _ _ _ _ _ => by rw [unmarshalFields, hunmarshalFields]; trivial⟩
  | fuel + 1 => by
    obtain ⟨ih, ihf⟩ := hunmarshal_rel env sk fuel
    refine ⟨fun a wt p h v x F c => ?_, fun t fs p h vs x F c => ?_⟩
    · rw [unmarshal.eq_def, hunmarshal.eq_def]
      cases a with
      | leaf t l => exact hleaf env t l wt c
      | struct t =>
        simp only
        cases makeStructFields env fuel t with
        | panicked => trivial
        | diverged => trivial
        | blocked => trivial
        | done r =>
          simp only [Out.elim]
          cases r with
          | error e => exact After.keep c _
          | ok fs =>
            simp only
            split
            · exact After.keep c _
            · rw [c.get]
              cases v with
              | struct vs =>
                have o := c.owns
                rw [Owns] at o
                obtain ⟨xs, rfl, _⟩ := o
                exact rcall_rel (fun e => .keep c _) fun _ => ihf t fs p h vs _ F c
              | _ =>
                simp only [GoVal.fields?]
                cases x with
                | struct xs => obtain ⟨vs, hv, _⟩ := owns_struct_inv c.owns; cases hv
                | _ => trivial
      | map t ka ea => exact hunmarshalMap_rel env t ka.typ ea.typ (fun wt p h v x F c => ih ka wt p h v x F c) (fun wt p h v x F c => ih ea wt p h v x F c) wt c
      | seq t isSet ea => exact hunmarshalSeq_rel env t isSet ea.typ (fun wt p h v x F c => ih ea wt p h v x F c) wt c
      | ptr t ea =>
        simp only
        rw [c.get]
        have main : ∀ (h1 : Heap) (v1 : GoVal) (l : Loc) (F1 : List Loc), Step p h F h1 (.ptr (some l)) F1 → Owns h1 (.ptr v1) (.ptr (some l)) F1 →
            Rel (After p h F) ((unmarshal env sk fuel ea v1 wt).andThen .ptr fun v => .ret (.ptr v, none)) (hunmarshal env sk fuel ea ⟨l, []⟩ wt h1) := by
          intro h1 v1 l F1 s o
          have c1 := s.pre c o
          rw [Owns] at o
          obtain ⟨l', y, G, hl, hm, oy, rfl⟩ := o
          cases hl
          have nd := List.nodup_cons.1 c1.nodup
          have cq : Pre ⟨l, []⟩ h1 v1 y G := {
            get := get_var.2 hm
            owns := oy
            nodup := nd.2
            notin := nd.1
            lt := c1.alloc l (by simp)
            alloc := fun l hl => c1.alloc l (by simp [hl]) }
          have hid : hunmarshal env sk fuel ea ⟨l, []⟩ wt h1 = (hunmarshal env sk fuel ea ⟨l, []⟩ wt h1).bind .ret := (bind_ret _).symm
          rw [hid]
          refine Rel.bind (ih ea wt _ _ _ _ _ cq) fun r r' a => ?_
          obtain ⟨w, e⟩ := r
          obtain ⟨h2, e'⟩ := r'
          obtain ⟨he, w2, y2, G2, s2, o2, sc, hn⟩ := a
          dsimp only at he
          subst he
          have s3 : Step p h1 (l :: G) h2 (.ptr (some l)) (l :: G2) := by
            have hG : l ∉ G2 := s2.notin (p := ⟨l, []⟩) nd.1 cq.lt
            refine Step.inner c1 s2 (by simp) (fun l hl => by simp [hl]) (fun m hm => ?_) (List.nodup_cons.2 ⟨hG, s2.nodup⟩)
            rcases List.mem_cons.1 hm with hm | hm
            · exact .inl (by simp [hm])
            · exact (s2.sub m hm).imp_left fun h => by simp [h]
          have o3 : Owns h2 (.ptr w2) (.ptr (some l)) (l :: G2) := by
            rw [Owns]
            exact ⟨l, y2, G2, rfl, get_var.1 s2.get, o2, rfl⟩
          have af : After p h F (.ptr w, e) (h2, e) := ⟨rfl, _, _, _, s.trans s3, o3, .ptr _ _ sc, fun he => by dsimp only at hn ⊢; rw [hn he]⟩
          cases e with
          | none => exact af
          | some e => exact af
        cases v with
        | ptrNil =>
          obtain ⟨rfl, rfl⟩ := c.owns
          simp only [GoVal.deref?]
          have s1 : Step p h [] (h.alloc (.cell (env.hzero ea.typ))).1 (.ptr none) [h.next] := .other c (Nat.le_succ _) (fun l hl => .inr (by
            obtain rfl : l = h.next := by simpa using hl
            exact ⟨Nat.le_refl _, Nat.lt_succ_self _⟩)) (by simp) fun l hl _ => alloc_mem_lt h _ hl
          have := s1.assign (v1 := .ptr (env.zero ea.typ)) (y := .ptr (some h.next)) c ⟨h.next, _, [], rfl, alloc_mem h _, owns_zero env _ _, rfl⟩
          exact main _ _ _ _ this.1 this.2
        | ptr w =>
          have o := c.owns
          rw [Owns] at o
          obtain ⟨l, y, G, rfl, _⟩ := o
          exact main _ _ _ _ (.refl c) c.owns
        | _ =>
          simp only [GoVal.deref?]
          cases x with
          | ptr m => rcases owns_ptr_inv c.owns with ⟨hv, _⟩ | ⟨_, _, _, _, hv, _⟩ <;> cases hv
          | _ => trivial
      | invalid t => exact After.keep c _
    · rw [unmarshalFields.eq_def, hunmarshalFields.eq_def]
      simp only
      refine rcall_rel (fun e => .keep c _) fun hd => ?_
      split
      · exact rcall_rel (fun e => .keep c _) fun _ => After.keep c _
      · have next : ∀ h1 vs1 x1 F1, Step p h F h1 x1 F1 → Owns h1 (.struct vs1) x1 F1 →
            Rel (After p h F) (rcall "ReadFieldEnd" Ty.struct t .fieldEnd (.struct vs1) fun _ => unmarshalFields env sk fuel t fs vs1)
              (rcall "ReadFieldEnd" Ty.struct t .fieldEnd h1 fun _ => hunmarshalFields env sk fuel t fs p h1) :=
          fun h1 vs1 x1 F1 s o => rcall_rel (fun e => .done o s _) fun _ => Rel.mono (fun r r' a => a.trans s) (ihf t fs p h1 vs1 x1 F1 (s.pre c o))
        cases byID fs hd.id with
        | none =>
          simp only
          refine Rel.bind (R := Eq) (.refl (fun _ => rfl) _) fun e e' he => ?_
          subst he
          cases e with
          | some e => exact After.keep c _
          | none => exact next _ _ _ _ (.refl c) c.owns
        | some f =>
          simp only
          cases hi : vs[f.index]? with
          | none =>
            have o := c.owns
            rw [Owns] at o
            obtain ⟨xs, rfl, o⟩ := o
            have : h.get (p.field f.index) = none := by
              rw [get_field c.get, List.getElem?_eq_none_iff, o.length]
              exact List.getElem?_eq_none_iff.1 hi
            rw [this]
            trivial
          | some w =>
            obtain ⟨y, G, hg, cq, hset, hrep⟩ := struct_field c hi
            rw [hg]
            refine Rel.andThen (R := After (p.field f.index) h G) (fun x y a => a.eq) (ih f.a hd.type _ _ _ _ _ cq) (fun w1 h1 a => ?_) fun w1 h1 e a => After.inField c hi a hrep hset
            obtain ⟨_, v2, x2, F2, s2, o2, _, hv⟩ := After.inField c hi a hrep hset
            rw [hv rfl] at o2
            exact next _ _ _ _ s2 o2

end

end GoThrift
