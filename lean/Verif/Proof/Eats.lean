import Verif.Proof.Load

/-!
# What the readers deliver, they take from the input
-/

namespace GoThrift

open Spec

variable {C α β : Type} {ψ : C → Nat}

/-- From reader state `c`, on an ending stream: what is left afterwards, with `d` of the answer, is not more than what was there, with `b`. -/
def Eats (ψ : C → Nat) (b : Nat) (d : α → Nat) (c : C) (m : RM C α) : Prop :=
  ∀ (size : Nat), 16 ≤ size → ∀ (bytes : Bytes) (e : Err) (x : Except Err α) (c' : C) (s' : Flat), m.run c ⟨size, bytes, .err e⟩ = .done ((x, c'), s') →
    ∃ rest, s' = ⟨size, rest, .err e⟩ ∧ rest.length + ψ c' ≤ bytes.length + ψ c + b ∧ ∀ a, x = .ok a → rest.length + ψ c' + d a ≤ bytes.length + ψ c + b

theorem Eats.ok (d : α → Nat) (a : α) (b : Nat) (h : d a ≤ b) (c : C) : Eats ψ b d c (RM.ok a) := by
  intro size hs bytes e x c' s' hr
  cases hr
  exact ⟨bytes, rfl, by omega, fun a' h' => by cases h'; omega⟩

theorem Eats.fail (d : α → Nat) (b : Nat) (err : Err) (c : C) : Eats ψ b d c (RM.fail err : RM C α) := by
  intro size hs bytes e x c' s' hr
  cases hr
  exact ⟨bytes, rfl, by omega, fun a' h' => by cases h'⟩

theorem Eats.lift {k : Nat} {p : BProg (Except Err α)} (h : TameB k p) (d : α → Nat) (b : Nat) (hd : ∀ a, d a ≤ k + b) (c : C) : Eats ψ b d c (RM.lift p) := by
  intro size hs bytes e x c' s' hr
  obtain ⟨r, used, rest, h1, h2, h3⟩ := h size hs bytes e
  rw [RM.run_lift, h2, Out.bind_done] at hr
  cases hr
  have hl : bytes.length = used.length + rest.length := by rw [h1, List.length_append]
  refine ⟨rest, rfl, by omega, fun a ha => ?_⟩
  have := (h3 a ha).1
  have := hd a
  omega

theorem Eats.bind {d1 : α → Nat} {d : β → Nat} {b : Nat} {c : C} {m : RM C α} {f : α → RM C β} (hm : Eats ψ b d1 c m) (hf : ∀ a c, Eats ψ (d1 a) d c (f a)) : Eats ψ b d c (m.bind f) := by
  intro size hs bytes e x c' s' hr
  rw [RM.run_bind] at hr
  cases h1 : m.run c ⟨size, bytes, .err e⟩ with
  | done y =>
    obtain ⟨⟨y, c1⟩, s1⟩ := y
    obtain ⟨rest, g1, g2, g3⟩ := hm size hs bytes e y c1 s1 h1
    subst g1
    rw [h1, Out.bind_done] at hr
    cases y with
    | error err =>
      cases hr
      exact ⟨rest, rfl, g2, fun a h => by cases h⟩
    | ok a =>
      obtain ⟨rest2, i1, i2, i3⟩ := hf a c1 size hs rest e x c' s' hr
      have := g3 a rfl
      exact ⟨rest2, i1, by omega, fun a' h' => by have := i3 a' h'; omega⟩
  | _ => rw [h1] at hr; cases hr

theorem Eats.get {d : β → Nat} {b : Nat} {c : C} {f : C → RM C β} (hf : Eats ψ b d c (f c)) : Eats ψ b d c (RM.get.bind f) := by
  intro size hs bytes e x c' s' hr
  rw [RM.run_bind, RM.run_get, Out.bind_done] at hr
  exact hf size hs bytes e x c' s' hr

theorem Eats.set {d : β → Nat} {b : Nat} {c c1 : C} {a : β} (h : ψ c1 + d a ≤ ψ c + b) : Eats ψ b d c ((RM.set c1).bind fun _ => RM.ok a) := by
  intro size hs bytes e x c' s' hr
  cases hr
  exact ⟨bytes, rfl, by omega, fun a' h' => by cases h'; omega⟩

theorem Eats.set' {d : Unit → Nat} {b : Nat} {c c1 : C} (h : ψ c1 + d () ≤ ψ c + b) : Eats ψ b d c (RM.set c1) := by
  intro size hs bytes e x c' s' hr
  cases hr
  exact ⟨bytes, rfl, by omega, fun a _ => by have : d a = d () := rfl; omega⟩

theorem Eats.of_tame {k : Nat} {m : RM C α} (hψ : ∀ c, ψ c = 0) (h : Tame (Jk k) m) (d : α → Nat) (hd : ∀ a, d a ≤ k) (c : C) : Eats ψ 0 d c m := by
  intro size hs bytes e x c' s' hr
  obtain ⟨r, c1, used, rest, h1, h2, h3⟩ := h size hs c bytes e
  rw [h2] at hr
  cases hr
  have hl : bytes.length = used.length + rest.length := by rw [h1, List.length_append]
  refine ⟨rest, rfl, by rw [hψ, hψ]; omega, fun a ha => ?_⟩
  have := (h3 a ha).1.2
  have := hd a
  rw [hψ, hψ]
  omega

theorem Eats.need {n : Nat} {buf : Bytes} {d : α → Nat} {b : Nat} {c : C} {m : RM C α} (h : Eats ψ b d c m) : Eats ψ b d c ((RM.need n buf).bind fun _ => m) := by
  intro size hs bytes e x c' s' hr
  by_cases hn : n ≤ buf.length
  · have : (RM.need n buf : RM C Unit) = RM.ok () := by funext c; exact if_neg (by omega)
    rw [this] at hr
    exact h size hs bytes e x c' s' hr
  · have : (RM.need n buf : RM C Unit) = fun _ => .panic := by funext c; exact if_pos (by omega)
    rw [this] at hr
    cases hr

theorem Eats.readString (n : Int) (d : Bytes → Nat) (b : Nat) (hd : ∀ a, d a ≤ a.length + b) (c : C) : Eats ψ b d c (RM.lift ((wireReadString n).bind fun r => .ret (toExcept r))) := by
  intro size hs bytes e x c' s' hr
  rw [RM.run_lift, BProg.run_bind] at hr
  by_cases h0 : n < 0
  · rw [wireReadString_neg _ _ h0] at hr
    cases hr
    exact ⟨bytes, rfl, by omega, fun a ha => by cases ha⟩
  · by_cases hl : n.toNat ≤ bytes.length
    · rw [wireReadString_ok _ _ (by omega) (by simp; omega) hl] at hr
      cases hr
      refine ⟨_, rfl, by rw [List.length_drop]; dsimp only; omega, fun a ha => ?_⟩
      cases ha
      have := hd (bytes.take n.toNat)
      rw [List.length_take] at this
      rw [List.length_drop]
      dsimp only at *
      omega
    · rw [wireReadString_short _ _ e (by simp; omega) (by simpa using hl) rfl] at hr
      cases hr
      exact ⟨[], rfl, by simp only [List.length_nil]; omega, fun a ha => by cases ha⟩

theorem Eats.readBytes (n : Int) (buf : Bytes) (d : Bytes → Nat) (b : Nat) (hd : ∀ a, d a ≤ a.length - buf.length + b) (c : C) :
    Eats ψ b d c (RM.lift ((wireReadBytes n buf).bind fun r => .ret (toExcept r))) := by
  intro size hs bytes e x c' s' hr
  rw [RM.run_lift, BProg.run_bind] at hr
  by_cases h0 : n < 0
  · rw [wireReadBytes_neg _ _ _ h0] at hr
    cases hr
    exact ⟨bytes, rfl, by omega, fun a ha => by cases ha⟩
  · by_cases hl : n.toNat ≤ bytes.length
    · rw [wireReadBytes_ok _ _ _ (by omega) (by simp; omega) hl] at hr
      cases hr
      refine ⟨_, rfl, by rw [List.length_drop]; dsimp only; omega, fun a ha => ?_⟩
      cases ha
      have := hd (buf ++ bytes.take n.toNat)
      rw [List.length_append, List.length_take] at this
      rw [List.length_drop]
      dsimp only at *
      omega
    · rw [wireReadBytes_short _ _ _ e (by simp; omega) (by simpa using hl) rfl] at hr
      cases hr
      exact ⟨[], rfl, by simp only [List.length_nil]; omega, fun a ha => by cases ha⟩

/-! ## Binary -/

theorem Binary.eats (strict : Bool) (o : ROp) (c : Unit) : Eats (fun _ => 0) 0 (delivered o) c (impl strict o) := by
  cases o
  case string => exact Eats.bind (d1 := fun _ => 1) (.of_tame (fun _ => rfl) tame_readSize _ (fun _ => by omega) c) fun n c => .readString _ _ _ (fun a => by simp [delivered]; omega) c
  case bytes buf => exact Eats.bind (d1 := fun _ => 1) (.of_tame (fun _ => rfl) tame_readSize _ (fun _ => by omega) c) fun n c => .readBytes _ _ _ _ (fun a => by simp [delivered]; omega) c
  case fieldBegin => exact .of_tame (fun _ => rfl) (tame strict .fieldBegin) _ (fun a => by simp only [delivered, ROp.least]; split <;> omega) c
  all_goals exact .of_tame (fun _ => rfl) (tame strict _) _ (fun a => by simp [delivered, ROp.least]) c

/-! ## Compact -/

namespace Compact

theorem eats_readByte (c : RState) (b : Nat) (d : Byte → Nat) (h : ∀ a, d a ≤ 1 + b) : Eats pending b d c readByte := .lift tameB_readByte d b h c

theorem eats_readI64 (c : RState) (b : Nat) (d : BitVec 64 → Nat) (h : ∀ a, d a ≤ 1 + b) : Eats pending b d c readI64 := .lift tameB_binReadVarint d b h c

theorem eats_size (c : RState) (b : Nat) (d : BitVec 64 → Nat) (h : ∀ a, d a ≤ 1 + b) : Eats pending b d c readSize := .lift tameB_binReadUvarint d b h c

theorem eats_stringSize (c : RState) (b : Nat) (d : BitVec 64 → Nat) (h : ∀ a, d a ≤ 1 + b) : Eats pending b d c readStringSize := .lift tameB_readUvarint d b h c

theorem eats_ofExcept {α : Type} (r : Except Err α) (c : RState) (b : Nat) (d : α → Nat) (h : ∀ a, d a ≤ b) : Eats pending b d c (ofExcept r) :=
  .lift (tameB_ret r) d b (fun a => by have := h a; omega) c

theorem eats_bool (c : RState) : Eats pending 0 (fun _ => 1) c readBool := by
  unfold readBool
  refine Eats.get ?_
  cases hb : c.boolField with
  | none => exact Eats.bind (d1 := fun _ => 1) (eats_readByte _ _ _ fun _ => by omega) fun _ _ => Eats.ok _ _ _ (by simp [delivered]) _
  | true => exact .set (by simp [pending, hb])
  | false => exact .set (by simp [pending, hb])

theorem eats_fieldBegin (c : RState) : Eats pending 0 (delivered .fieldBegin) c readFieldBegin := by
  unfold readFieldBegin
  refine Eats.bind (d1 := fun _ => 1) (eats_readByte _ _ _ fun _ => by omega) fun dt c => ?_
  refine Eats.bind (d1 := fun _ => 1) (eats_ofExcept _ _ _ _ fun _ => by omega) fun ty c => ?_
  split
  · rename_i hs
    exact .ok _ _ _ (by simp [delivered, hs]) _
  · rename_i hs
    have last : ∀ (id : BitVec 16) (c : RState), Eats pending 1 (delivered .fieldBegin) c
        (RM.get.bind fun c : RState => (RM.set { c with last := id, boolField := c.boolField.setBy (dt &&& 15) }).bind fun _ => RM.ok (⟨[], ty, id⟩ : FieldHeader)) := by
      intro id c
      refine Eats.get (.set ?_)
      have h1 : delivered .fieldBegin (⟨[], ty, id⟩ : FieldHeader) = 0 := by simp [delivered, hs]
      have h2 : ∀ c, pending c ≤ 1 := fun c => by unfold pending; split <;> omega
      have := h2 { c with last := id, boolField := c.boolField.setBy (dt &&& 15) }
      omega
    refine Eats.get ?_
    dsimp only
    split
    · refine Eats.bind (d1 := fun _ => 1) ?_ last
      exact Eats.bind (d1 := fun _ => 1) (eats_readI64 _ _ _ fun _ => by omega) fun _ _ => Eats.ok _ _ _ (by simp [delivered]) _
    · exact last _ c

theorem eats (o : ROp) (c : RState) : Eats pending 0 (delivered o) c (impl o) := by
  have one : ∀ a : Byte, (fun _ : Byte => 1) a ≤ 1 + 0 := fun _ => Nat.le_refl _
  cases o
  case messageBegin =>
    refine Eats.bind (d1 := fun _ => 1) (eats_readByte _ _ _ one) fun p c => ?_
    split
    · exact .fail _ _ _ _
    · refine Eats.bind (d1 := fun _ => 1) (eats_readByte _ _ _ fun _ => by omega) fun p c => ?_
      dsimp only
      split
      · exact .fail _ _ _ _
      · refine Eats.bind (d1 := fun _ => 1) (.lift tameB_readUvarint _ _ (fun _ => by omega) _) fun _ c => ?_
        refine Eats.bind (d1 := fun _ => 1) ?_ fun _ c => .ok _ _ _ (by simp [delivered]) _
        exact Eats.bind (d1 := fun _ => 1) (eats_stringSize _ _ _ fun _ => by omega) fun _ c => .lift (tameB_readString _) _ _ (fun _ => by omega) _
  case structBegin => exact .get (.set (by simp [delivered, pending]))
  case structEnd =>
    refine Eats.get (C := RState) (f := fun c : RState => match c.ids with
      | [] => RM.fail Err.readStructEndUnbalanced
      | id :: ids => RM.set { c with ids := ids, last := id }) ?_
    split
    · exact .fail _ _ _ _
    · exact .set' (by simp [delivered, pending])
  case fieldBegin => exact eats_fieldBegin c
  case mapBegin =>
    refine Eats.bind (d1 := fun _ => 1) (eats_size _ _ _ fun _ => by omega) fun p c => ?_
    split
    · exact .ok _ _ _ (by simp [delivered]) _
    · refine Eats.bind (d1 := fun _ => 1) (eats_readByte _ _ _ fun _ => by omega) fun p c => ?_
      refine Eats.bind (d1 := fun _ => 1) (eats_ofExcept _ _ _ _ fun _ => by omega) fun p c => ?_
      refine Eats.bind (d1 := fun _ => 1) (eats_ofExcept _ _ _ _ fun _ => by omega) fun p c => ?_
      exact .ok _ _ _ (by simp [delivered]) _
  case setBegin =>
    refine Eats.bind (d1 := fun _ => 1) (eats_readByte _ _ _ fun _ => by omega) fun p c => ?_
    refine Eats.bind (d1 := fun _ => 1) (eats_ofExcept _ _ _ _ fun _ => by omega) fun p c => ?_
    dsimp only
    split
    · exact Eats.bind (d1 := fun _ => 1) (eats_size _ _ _ fun _ => by omega) fun p c => .ok _ _ _ (by simp [delivered]) _
    · exact .ok _ _ _ (by simp [delivered]) _
  case listBegin =>
    refine Eats.bind (d1 := fun _ => 1) (eats_readByte _ _ _ fun _ => by omega) fun p c => ?_
    refine Eats.bind (d1 := fun _ => 1) (eats_ofExcept _ _ _ _ fun _ => by omega) fun p c => ?_
    dsimp only
    split
    · exact Eats.bind (d1 := fun _ => 1) (eats_size _ _ _ fun _ => by omega) fun p c => .ok _ _ _ (by simp [delivered]) _
    · exact .ok _ _ _ (by simp [delivered]) _
  case bool => exact eats_bool c
  case byte => exact eats_readByte _ _ _ fun _ => by simp [delivered]
  case double =>
    refine Eats.bind (d1 := fun _ => 1) (.lift (tameB_next 8 (by decide)) _ _ (fun _ => by omega) _) fun buf c => ?_
    exact .need (.ok _ _ _ (by simp [delivered]) _)
  case i16 => exact Eats.bind (d1 := fun _ => 1) (eats_readI64 _ _ _ fun _ => by omega) fun _ _ => Eats.ok _ _ _ (by simp [delivered]) _
  case i32 => exact Eats.bind (d1 := fun _ => 1) (eats_readI64 _ _ _ fun _ => by omega) fun _ _ => Eats.ok _ _ _ (by simp [delivered]) _
  case i64 => exact eats_readI64 _ _ _ fun _ => by simp [delivered]
  case string =>
    exact Eats.bind (d1 := fun _ => 1) (eats_stringSize _ _ _ fun _ => by omega) fun n c => .readString _ _ _ (fun a => by simp [delivered]; omega) c
  case bytes buf =>
    exact Eats.bind (d1 := fun _ => 1) (eats_stringSize _ _ _ fun _ => by omega) fun n c => .readBytes _ _ _ _ (fun a => by simp [delivered]; omega) c
  case uuid => exact .lift (tameB_readFull 16) _ _ (fun _ => by simp [delivered]) _
  case skipString =>
    exact Eats.bind (d1 := fun _ => 1) (eats_stringSize _ _ _ fun _ => by omega) fun n c => .lift (tameB_discard _) _ _ (fun _ => by simp [delivered]) _
  case skipUUID => exact .lift (tameB_discard 16) _ _ (fun _ => by simp [delivered]) _
  all_goals exact .ok _ _ _ (by simp [delivered]) _

end Compact

/-- From the methods to programs: on an ending stream. -/
theorem eats_run {Q : α → Nat → Prop} (impl : (o : ROp) → RM C o.Ans) (hr : ∀ o c, Eats ψ 0 (delivered o) c (impl o)) {p : RProg α} {g : Nat} (hp : Wp deliver Q p g) (c : C) (size : Nat)
    (hs : 16 ≤ size) (bytes : Bytes) (e : Err) (s' : C × Flat) (a : α) (h : p.run (mkReader impl) (c, ⟨size, bytes, .err e⟩) = .done (a, s')) :
    ∃ g', Q a g' ∧ g' + (s'.2.bytes.length + ψ s'.1) ≤ g + (bytes.length + ψ c) := by
  induction p generalizing c bytes g with
  | ret b => cases h; exact ⟨g, hp, Nat.le_refl _⟩
  | diverge => cases h
  | panic => cases h
  | call o k ih =>
    rw [RProg.run] at h
    change ((((impl o).run c ⟨size, bytes, .err e⟩).bind fun r => .done (r.1.1, (r.1.2, r.2))).bind _) = _ at h
    cases hm : (impl o).run c ⟨size, bytes, .err e⟩ with
    | done x =>
      obtain ⟨⟨x, c1⟩, s1⟩ := x
      rw [hm, Out.bind_done, Out.bind_done] at h
      obtain ⟨rest, h1, h2, h3⟩ := hr o c size hs bytes e x c1 s1 hm
      subst h1
      cases x with
      | error err =>
        obtain ⟨g', h4, h5⟩ := ih _ (hp.2.2 err) c1 rest h
        simp only [deliver] at h5
        exact ⟨g', h4, by omega⟩
      | ok b =>
        obtain ⟨g', h4, h5⟩ := ih _ (hp.2.1 b trivial) c1 rest h
        have := h3 b rfl
        simp only [deliver] at h5
        exact ⟨g', h4, by omega⟩
    | _ => rw [hm] at h; cases h

end GoThrift
