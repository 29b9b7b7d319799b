import Verif.Spec.Heap
import Verif.Proof.HeapOwn

/-!
# Unmarshal on memory with sharing changes nothing that cannot be reached
-/

namespace GoThrift

open Spec

/-! ## What holds however the calls end -/

/-- Whatever the answers, a result satisfies `P`. -/
def Always {α : Type} (P : α → Prop) : RProg α → Prop
  | .ret a => P a
  | .call _ k => ∀ r, Always P (k r)
  | _ => True

theorem Always.bind {α β : Type} {P : α → Prop} {Q : β → Prop} {p : RProg α} {f : α → RProg β} (h : Always P p) (hf : ∀ a, P a → Always Q (f a)) : Always Q (p.bind f) := by
  induction p with
  | ret a => exact hf a h
  | call o k ih => exact fun r => ih r (h r)
  | _ => trivial

theorem Always.andThen {α β : Type} {P : α × Option Err → Prop} {Q : β × Option Err → Prop} {p : UProg α} {fail : α → β} {f : α → UProg β} (h : Always P p) (hf : ∀ a, P (a, none) → Always Q (f a))
    (he : ∀ a e, P (a, some e) → Q (fail a, some e)) : Always Q (p.andThen fail f) :=
  h.bind fun r hr => by
    obtain ⟨a, e⟩ := r
    cases e with
    | none => exact hf a hr
    | some e => exact he a e hr

theorem Always.rcall {α : Type} {P : α × Option Err → Prop} {act : String} {tt : WType} {t : TypeId} {o : ROp} {a : α} {k : o.Ans → UProg α} (hf : ∀ e, P (a, some e)) (hk : ∀ x, Always P (k x)) :
    Always P (rcall act tt t o a k) := fun r => by
  cases r with
  | ok x => exact hk x
  | error e => exact hf _

theorem Always.orPanic {α β : Type} {P : β → Prop} {x : Option α} {k : α → RProg β} (h : ∀ a, x = some a → Always P (k a)) : Always P (orPanic x k) := by
  cases x with
  | none => trivial
  | some a => exact h a rfl

theorem Always.run {α S : Type} {P : α → Prop} {p : RProg α} (h : Always P p) (r : Rdr S) (s s' : S) (a : α) (hp : p.run r s = .done (a, s')) : P a := by
  induction p generalizing s with
  | ret b => cases hp; exact h
  | diverge => cases hp
  | panic => cases hp
  | call o k ih =>
    rw [RProg.run] at hp
    cases hs : r.step o s with
    | done x => rw [hs] at hp; exact ih x.1 (h x.1) x.2 hp
    | blocked => rw [hs] at hp; cases hp
    | diverged => rw [hs] at hp; cases hp
    | panicked => rw [hs] at hp; cases hp

theorem Always.any {α : Type} (p : RProg α) : Always (fun _ => True) p := by
  induction p with
  | call o k ih => exact ih
  | _ => trivial

/-! ## A part of memory that has no references to the rest -/

/-- Memory `h` is as `h0` outside `S`, and nothing in `S` refers to anything outside. -/
structure Fenced (S : Loc → Prop) (h0 h : Heap) : Prop where
  next : h0.next ≤ h.next
  fresh : ∀ l, h0.next ≤ l → S l
  frame : ∀ l, ¬ S l → h.mem l = h0.mem l
  closed : ∀ l, S l → l < h.next → ∀ r, MObj.Refers (h.mem l) r → S r ∧ r < h.next

/-- All that the value refers to is in `S`, and not free. -/
def Inside (S : Loc → Prop) (h : Heap) (x : HVal) : Prop := ∀ r, HVal.Refers x r → S r ∧ r < h.next

theorem refersAny_iff {fs : List HVal} {l : Loc} : HVal.RefersAny fs l ↔ ∃ x ∈ fs, HVal.Refers x l := by
  induction fs with
  | nil => rw [HVal.RefersAny]; simp
  | cons x fs ih => rw [HVal.RefersAny, ih]; simp

theorem refers_sub {x y : HVal} {is : List Nat} (h : x.sub is = some y) {l : Loc} (hr : HVal.Refers y l) : HVal.Refers x l := by
  induction is generalizing x with
  | nil => cases h; exact hr
  | cons i is ih =>
    cases x with
    | struct fs =>
      simp only [HVal.sub] at h
      obtain ⟨w, hw, hs⟩ := Option.bind_eq_some_iff.1 h
      rw [HVal.Refers, refersAny_iff]
      exact ⟨w, List.mem_of_getElem? hw, ih hs⟩
    | _ => cases h

theorem refers_put {x y : HVal} {is : List Nat} {l : Loc} (hr : HVal.Refers (x.put y is) l) : HVal.Refers x l ∨ HVal.Refers y l := by
  induction is generalizing x with
  | nil => exact .inr hr
  | cons i is ih =>
    cases x with
    | struct fs =>
      rw [HVal.put, HVal.Refers, refersAny_iff] at hr
      obtain ⟨w, hw, hr⟩ := hr
      obtain ⟨j, hj⟩ := List.mem_iff_getElem?.1 hw
      rw [List.getElem?_modify] at hj
      rw [HVal.Refers, refersAny_iff]
      cases hf : fs[j]? with
      | none => rw [hf] at hj; cases hj
      | some z =>
        rw [hf] at hj
        have hz := List.mem_of_getElem? hf
        by_cases hij : i = j
        · simp only [hij, if_true, Option.map_eq_map, Option.map_some, Option.some.injEq] at hj
          subst hj
          rcases ih hr with h | h
          · exact .inl ⟨z, hz, h⟩
          · exact .inr h
        · simp only [hij, if_false, Option.map_eq_map, Option.map_some, Option.some.injEq, id] at hj
          subst hj
          exact .inl ⟨z, hz, hr⟩
    | _ => exact .inl hr

mutual
theorem refers_ofZero : ∀ (v : GoVal) (l : Loc), ¬ HVal.Refers (.ofZero v) l
  | .struct vs, l => by rw [HVal.ofZero, HVal.Refers]; exact refers_ofZeros vs l
  | .mapNil, l => by rw [HVal.ofZero, HVal.Refers]; simp
  | .bytes none, l => by rw [HVal.ofZero, HVal.Refers]; simp
  | .sliceNil, l => by rw [HVal.ofZero, HVal.Refers]; simp
  | .ptrNil, l => by rw [HVal.ofZero, HVal.Refers]; simp
  | .bytes (some _), _ => id
  | .map _, _ => id
  | .slice _ _, _ => id
  | .ptr _, _ => id
  | .bool _, _ => id
  | .i8 _, _ => id
  | .i16 _, _ => id
  | .i32 _, _ => id
  | .i64 _, _ => id
  | .f32 _, _ => id
  | .f64 _, _ => id
  | .str _, _ => id
  | .uuid _, _ => id
  | .other _, _ => id
theorem refers_ofZeros : ∀ (vs : List GoVal) (l : Loc), ¬ HVal.RefersAny (HVal.ofZeros vs) l
  | [], _ => id
  | v :: vs, l => by
    rw [HVal.ofZeros, HVal.RefersAny]
    exact fun h => h.elim (refers_ofZero v l) (refers_ofZeros vs l)
end

section
variable {S : Loc → Prop} {h0 h h1 : Heap} {p : Place} {x y : HVal} {l : Loc}

theorem inside_lit (v : GoVal) : Inside S h (.lit v) := fun _ hr => by rw [HVal.Refers] at hr; exact hr.elim

theorem inside_zero (env : Env) (t : TypeId) : Inside S h (env.hzero t) := fun r hr => (refers_ofZero _ r hr).elim

theorem Inside.mono (hx : Inside S h x) (hn : h.next ≤ h1.next) : Inside S h1 x := fun r hr => ⟨(hx r hr).1, Nat.lt_of_lt_of_le (hx r hr).2 hn⟩

theorem Fenced.get (w : Fenced S h0 h) (hp : S p.loc ∧ p.loc < h.next) (hg : h.get p = some x) : Inside S h x := by
  obtain ⟨z, hm, hs⟩ := get_cell hg
  intro r hr
  refine w.closed p.loc hp.1 hp.2 r ?_
  rw [hm]
  exact refers_sub hs hr

theorem Fenced.table (w : Fenced S h0 h) (hl : S l ∧ l < h.next) {es : List (HVal × HVal)} (ht : h.table l = some es) : ∀ e ∈ es, Inside S h e.1 ∧ Inside S h e.2 := by
  unfold Heap.table at ht
  split at ht
  · cases ht
  · rename_i es' hm
    cases ht
    have := w.closed l hl.1 hl.2
    rw [hm] at this
    exact fun e he => ⟨fun r hr => this r ⟨e, he, .inl hr⟩, fun r hr => this r ⟨e, he, .inr hr⟩⟩

theorem Fenced.write (w : Fenced S h0 h) (hl : S l) {o : MObj} (ho : ∀ r, MObj.Refers o r → S r ∧ r < h.next) : Fenced S h0 (h.write l o) where
  next := w.next
  fresh := w.fresh
  frame m hm := (write_mem_ne _ _ fun (he : m = l) => hm (he ▸ hl)).trans (w.frame m hm)
  closed m hm hlt r hr := by
    by_cases he : m = l
    · subst he
      rw [write_mem] at hr
      exact ho r hr
    · rw [write_mem_ne _ _ he] at hr
      exact w.closed m hm hlt r hr

theorem Fenced.set (w : Fenced S h0 h) (hp : S p.loc ∧ p.loc < h.next) (hy : Inside S h y) : Fenced S h0 (h.set p y) := by
  unfold Heap.set
  split
  · rename_i z hm
    refine w.write hp.1 fun r hr => ?_
    rcases refers_put hr with hr | hr
    · exact w.closed p.loc hp.1 hp.2 r (by rw [hm]; exact hr)
    · exact hy r hr
  · exact w

theorem Fenced.used (w : Fenced S h0 h) (n : Nat) : Fenced S h0 (h.used n) := ⟨w.next, w.fresh, w.frame, w.closed⟩

theorem Fenced.more (w : Fenced S h0 h) {n : Nat} (hn : h.next ≤ n) (hc : ∀ l, h.next ≤ l → l < n → ∀ r, MObj.Refers (h.mem l) r → S r ∧ r < n) : Fenced S h0 { h with next := n } where
  next := Nat.le_trans w.next hn
  fresh := w.fresh
  frame := w.frame
  closed l hl hlt r hr := by
    by_cases h1 : l < h.next
    · have := w.closed l hl h1 r hr
      exact ⟨this.1, Nat.lt_of_lt_of_le this.2 hn⟩
    · exact hc l (Nat.le_of_not_lt h1) hlt r hr

theorem Fenced.fill (w : Fenced S h0 h) {base : Loc} {xs : List HVal} (hb : ∀ l, base ≤ l → l < base + xs.length → S l) (hx : ∀ x ∈ xs, Inside S h x) : Fenced S h0 (h.fill base xs) where
  next := w.next
  fresh := w.fresh
  frame m hm := (fill_mem_out _ _ _ fun hr => hm (by rw [List.mem_range'_1] at hr; exact hb m hr.1 hr.2)).trans (w.frame m hm)
  closed m hm hlt r hr := by
    by_cases hr' : m ∈ List.range' base xs.length
    · rw [List.mem_range'_1] at hr'
      obtain ⟨i, rfl⟩ : ∃ i, m = base + i := ⟨m - base, by omega⟩
      have hi : i < xs.length := by omega
      rw [fill_mem_in _ _ (List.getElem?_eq_getElem hi)] at hr
      exact hx _ (List.getElem_mem hi) r hr
    · rw [fill_mem_out _ _ _ hr'] at hr
      exact w.closed m hm hlt r hr

theorem Fenced.alloc (w : Fenced S h0 h) {o : MObj} (ho : ∀ r, MObj.Refers o r → S r ∧ r < h.next) : Fenced S h0 (h.alloc o).1 ∧ (S (h.alloc o).2 ∧ (h.alloc o).2 < (h.alloc o).1.next) ∧ h.next ≤ (h.alloc o).1.next := by
  refine ⟨(w.write (w.fresh h.next w.next) ho).more (Nat.le_succ _) fun l hl hlt r hr => ?_, ⟨w.fresh _ w.next, Nat.lt_succ_self _⟩, Nat.le_succ _⟩
  obtain rfl : l = h.next := by
    have : h.next ≤ l := hl
    omega
  rw [write_mem] at hr
  have := ho r hr
  exact ⟨this.1, Nat.lt_succ_of_lt this.2⟩

theorem Fenced.allocArray (w : Fenced S h0 h) {xs : List HVal} (hx : ∀ x ∈ xs, Inside S h x) : Fenced S h0 (h.allocArray xs).1 ∧ h.next ≤ (h.allocArray xs).1.next ∧
    ∀ r, h.next ≤ r → r < h.next + xs.length → S r ∧ r < (h.allocArray xs).1.next := by
  refine ⟨(w.fill (base := h.next) (fun l hl _ => w.fresh l (Nat.le_trans w.next hl)) hx).more (Nat.le_add_right _ _) fun l hl hlt r hr => ?_, Nat.le_add_right _ _, fun r h1 h2 => ⟨w.fresh r (Nat.le_trans w.next h1), h2⟩⟩
  obtain ⟨i, rfl⟩ : ∃ i, l = h.next + i := ⟨l - h.next, by have : h.next ≤ l := hl; omega⟩
  have hi : i < xs.length := by omega
  rw [fill_mem_in _ _ (List.getElem?_eq_getElem hi)] at hr
  have := hx _ (List.getElem_mem hi) r hr
  exact ⟨this.1, by omega⟩

theorem byteCells_inside (b : Bytes) : ∀ x ∈ Heap.byteCells b, Inside S h x := fun x hx => by
  obtain ⟨c, _, rfl⟩ := List.mem_map.1 hx
  exact inside_lit _

theorem Fenced.scribble (w : Fenced S h0 h) {s : Option SliceRef} (hs : Inside S h (.bytes s)) : Fenced S h0 (h.scribble s) := by
  cases s with
  | none => exact w
  | some s =>
    refine (w.fill (fun l h1 h2 => (hs l ?_).1) (byteCells_inside _)).used _
    rw [HVal.Refers]
    refine ⟨s, rfl, h1, .inr ?_⟩
    have : (Heap.byteCells (h.junk s.cap)).length = s.cap := by simp [Heap.byteCells, Heap.junk]
    omega

theorem scribble_next (h : Heap) (s : Option SliceRef) : (h.scribble s).next = h.next := by cases s <;> rfl

theorem Fenced.newBytes (w : Fenced S h0 h) (v : Bytes) : Fenced S h0 (h.newBytes v).1 ∧ h.next ≤ (h.newBytes v).1.next ∧ Inside S (h.newBytes v).1 (.bytes (h.newBytes v).2) := by
  obtain ⟨w1, hn, hr⟩ := ((w.used 1).used (h.oracle 0)).allocArray (byteCells_inside (v ++ (h.used 1).junk (h.oracle 0)))
  refine ⟨w1, hn, fun r hr' => ?_⟩
  rw [HVal.Refers] at hr'
  obtain ⟨s, hs, h1, h2⟩ := hr'
  cases hs
  have hl : (Heap.byteCells (v ++ (h.used 1).junk (h.oracle 0))).length = v.length + h.oracle 0 := by simp [Heap.byteCells, Heap.junk]
  refine hr r h1 ?_
  rw [hl]
  show r < h.next + _
  have h2 : r < h.next + v.length ∨ r < h.next + (v.length + h.oracle 0) := h2
  omega

theorem Fenced.appendBytes (w : Fenced S h0 h) {s : Option SliceRef} (hs : Inside S h (.bytes s)) (v : Bytes) :
    Fenced S h0 (h.appendBytes s v).1 ∧ h.next ≤ (h.appendBytes s v).1.next ∧ Inside S (h.appendBytes s v).1 (.bytes (h.appendBytes s v).2) := by
  unfold Heap.appendBytes
  cases s with
  | none =>
    simp only
    split
    · exact ⟨w, Nat.le_refl _, hs⟩
    · exact w.newBytes v
  | some s =>
    simp only
    split
    · rename_i hle
      refine ⟨(w.scribble hs).fill (fun l h1 h2 => (hs l ?_).1) (byteCells_inside _), Nat.le_refl _, fun r hr => hs r ?_⟩
      · rw [HVal.Refers]
        have : (Heap.byteCells v).length = v.length := by simp [Heap.byteCells]
        exact ⟨s, rfl, h1, .inr (by omega)⟩
      · rw [HVal.Refers] at hr ⊢
        obtain ⟨s', hs', h1, h2⟩ := hr
        cases hs'
        dsimp only at h1 h2
        exact ⟨s, rfl, h1, .inr (by omega)⟩
    · have := (w.scribble hs).newBytes v
      rwa [scribble_next] at this

/-- Memory after a step: still within `S`, and no address has been freed. -/
def Later (S : Loc → Prop) (h0 h : Heap) (r : Heap × Option Err) : Prop := Fenced S h0 r.1 ∧ h.next ≤ r.1.next

theorem Later.keep (w : Fenced S h0 h) (e : Option Err) : Later S h0 h (h, e) := ⟨w, Nat.le_refl _⟩

theorem Later.trans {r : Heap × Option Err} (hn : h.next ≤ h1.next) (l : Later S h0 h1 r) : Later S h0 h r := ⟨l.1, Nat.le_trans hn l.2⟩

theorem Always.mono {α : Type} {P Q : α → Prop} (hPQ : ∀ a, P a → Q a) {p : RProg α} (h : Always P p) : Always Q p := by
  induction p with
  | ret a => exact hPQ a h
  | call o k ih => exact fun r => ih r (h r)
  | _ => trivial

theorem Later.set (w : Fenced S h0 h) (hp : S p.loc ∧ p.loc < h.next) (hy : Inside S h y) (e : Option Err) : Later S h0 h (h.set p y, e) :=
  ⟨w.set hp hy, Nat.le_of_eq (set_next h p y).symm⟩

theorem hleaf_frame (env : Env) (t : TypeId) (lf : Leaf) (wt : WType) (w : Fenced S h0 h) (hp : S p.loc ∧ p.loc < h.next) : Always (Later S h0 h) (hunmarshalLeaf env t lf p wt h) := by
  unfold hunmarshalLeaf
  split
  · exact Later.keep w _
  · cases lf with
    | bool => exact .rcall (fun e => .keep w _) fun a => Later.set w hp (inside_lit _) _
    | f32 => exact .rcall (fun e => .keep w _) fun a => Later.set w hp (inside_lit _) _
    | f64 => exact .rcall (fun e => .keep w _) fun a => Later.set w hp (inside_lit _) _
    | i8 => exact .rcall (fun e => .keep w _) fun a => Later.set w hp (inside_lit _) _
    | i16 => exact .rcall (fun e => .keep w _) fun a => Later.set w hp (inside_lit _) _
    | i32 => exact .rcall (fun e => .keep w _) fun a => Later.set w hp (inside_lit _) _
    | i64 => exact .rcall (fun e => .keep w _) fun a => Later.set w hp (inside_lit _) _
    | string => exact .rcall (fun e => .keep w _) fun a => Later.set w hp (inside_lit _) _
    | uuid =>
      refine .rcall (fun e => ?_) fun a => Later.set w hp (inside_lit _) _
      unfold Heap.scribbleUUID
      split
      · have := Later.set w hp (inside_lit (.uuid (h.junk 16))) none
        exact ⟨this.1.used _, this.2⟩
      · exact .keep w _
    | bytes =>
      simp only
      split
      · rename_i s hg
        have hs := w.get hp hg
        refine .rcall (fun e => ⟨w.scribble hs, Nat.le_of_eq (scribble_next h s).symm⟩) fun v => ?_
        obtain ⟨w1, hn, hi⟩ := w.appendBytes hs v
        exact (Later.set w1 ⟨hp.1, Nat.lt_of_lt_of_le hp.2 hn⟩ hi none).trans hn
      · trivial

theorem Fenced.setLen {n : Nat} (w : Fenced S h0 h) (hp : S p.loc ∧ p.loc < h.next) (hs : h.setLen p n = some h1) : Fenced S h0 h1 ∧ h1.next = h.next := by
  unfold Heap.setLen at hs
  split at hs
  · split at hs
    · cases hs; exact ⟨w, rfl⟩
    · cases hs
  · rename_i s hg
    split at hs
    · cases hs
      refine ⟨w.set hp fun r hr => w.get hp hg r ?_, set_next _ _ _⟩
      rw [HVal.Refers] at hr ⊢
      obtain ⟨s', hs', h1, h2⟩ := hr
      cases hs'
      dsimp only at h1 h2
      exact ⟨s, rfl, h1, .inr (by omega)⟩
    · cases hs
  · cases hs

theorem cells_inside {base : Loc} {n : Nat} (w : Fenced S h0 h) (hb : ∀ l, base ≤ l → l < base + n → S l ∧ l < h.next) {xs : List HVal} (hc : h.cells base n = some xs) : ∀ x ∈ xs, Inside S h x := by
  induction n generalizing base xs with
  | zero => cases hc; simp
  | succ n ih =>
    rw [Heap.cells] at hc
    split at hc
    · rename_i x ys hm hy
      cases hc
      intro z hz
      rcases List.mem_cons.1 hz with rfl | hz
      · have hbb := hb base (Nat.le_refl _) (by omega)
        have := w.closed base hbb.1 hbb.2
        rw [hm] at this
        exact this
      · exact ih (fun l h1 h2 => hb l (by omega) (by omega)) hy z hz
    · cases hc

theorem Fenced.grow (env : Env) (t et : TypeId) (w : Fenced S h0 h) (hp : S p.loc ∧ p.loc < h.next) (hs : h.grow env t et p = some h1) : Fenced S h0 h1 ∧ h.next ≤ h1.next := by
  have full : ∀ xs : List HVal, (∀ x ∈ xs, Inside S h x) → ∀ ys, ys = xs ++ List.replicate (max 1 (env.grow t xs.length - xs.length)) (env.hzero et) →
      Fenced S h0 ((h.allocArray ys).1.set p (.slice (some ⟨h.next, ys.length, ys.length⟩))) ∧ h.next ≤ ((h.allocArray ys).1.set p (.slice (some ⟨h.next, ys.length, ys.length⟩))).next := by
    rintro xs hx ys rfl
    obtain ⟨w1, hn, hr⟩ := w.allocArray (xs := xs ++ List.replicate (max 1 (env.grow t xs.length - xs.length)) (env.hzero et)) fun x hx' => by
      rcases List.mem_append.1 hx' with hx' | hx'
      · exact hx x hx'
      · rw [List.eq_of_mem_replicate hx']; exact inside_zero env et
    have := Later.set (e := none) (y := .slice (some ⟨h.next, (xs ++ List.replicate (max 1 (env.grow t xs.length - xs.length)) (env.hzero et)).length, (xs ++ List.replicate (max 1 (env.grow t xs.length - xs.length)) (env.hzero et)).length⟩)) w1 ⟨hp.1, Nat.lt_of_lt_of_le hp.2 hn⟩ fun r hr' => by
      rw [HVal.Refers] at hr'
      obtain ⟨s', hs', h1, h2⟩ := hr'
      cases hs'
      dsimp only at h1 h2
      exact hr r h1 (by omega)
    exact ⟨this.1, Nat.le_trans hn this.2⟩
  unfold Heap.grow at hs
  simp only at hs
  split at hs
  · cases hs
    exact full [] (by simp) _ rfl
  · rename_i s hg
    split at hs
    · obtain ⟨w1, hn⟩ := w.setLen hp hs
      exact ⟨w1, Nat.le_of_eq hn.symm⟩
    · obtain ⟨xs, hc, he⟩ := Option.bind_eq_some_iff.1 hs
      cases he
      refine full xs (cells_inside w (fun l h1 h2 => w.get hp hg l ?_) hc) _ rfl
      rw [HVal.Refers]
      exact ⟨s, rfl, h1, .inr h2⟩
  · cases hs

theorem Fenced.sliceAt {s : SliceRef} (w : Fenced S h0 h) (hp : S p.loc ∧ p.loc < h.next) (hs : h.sliceAt p = some s) {i : Nat} (hi : i < s.len) : S (s.base + i) ∧ s.base + i < h.next := by
  unfold Heap.sliceAt at hs
  split at hs
  · rename_i s' hg
    subst hs
    refine w.get hp hg _ ?_
    rw [HVal.Refers]
    exact ⟨s, rfl, Nat.le_add_right _ _, .inl (by omega)⟩
  · cases hs

theorem hseqLoop_frame (env : Env) (t et : TypeId) {u : Place → Heap → UProg Heap} (hu : ∀ q h, Fenced S h0 h → S q.loc ∧ q.loc < h.next → Always (Later S h0 h) (u q h)) (n i cap : Nat) (mz : Bool)
    (w : Fenced S h0 h) (hp : S p.loc ∧ p.loc < h.next) : Always (Later S h0 h) (hseqLoop env t et p u n i cap mz h) := by
  induction n generalizing i cap mz h with
  | zero =>
    rw [hseqLoop]
    refine .orPanic fun h1 he => ?_
    obtain ⟨w1, hn⟩ := w.setLen hp he
    exact ⟨w1, Nat.le_of_eq hn.symm⟩
  | succ n ih =>
    rw [hseqLoop]
    refine .orPanic fun h1 he => .orPanic fun s hs => ?_
    have hw : Fenced S h0 h1 ∧ h.next ≤ h1.next := by
      split at he
      · exact w.grow env t et hp he
      · cases he; exact ⟨w, Nat.le_refl _⟩
    have hp1 : S p.loc ∧ p.loc < h1.next := ⟨hp.1, Nat.lt_of_lt_of_le hp.2 hw.2⟩
    split
    · rename_i hlt
      have hq := hw.1.sliceAt hp1 hs hlt
      have hz : ∀ b : Bool, Fenced S h0 (if b = true then h1.set ⟨s.base + i, []⟩ (env.hzero et) else h1) ∧ h1.next = (if b = true then h1.set ⟨s.base + i, []⟩ (env.hzero et) else h1).next := by
        intro b
        cases b with
        | false => exact ⟨hw.1, rfl⟩
        | true => exact ⟨hw.1.set (p := ⟨s.base + i, []⟩) hq (inside_zero env et), (set_next _ _ _).symm⟩
      refine (hu _ _ (hz _).1 ⟨hq.1, (hz _).2 ▸ hq.2⟩).bind fun r hr => ?_
      obtain ⟨h2, e⟩ := r
      have hn2 : h1.next ≤ h2.next := by rw [(hz _).2]; exact hr.2
      have hp2 : S p.loc ∧ p.loc < h2.next := ⟨hp.1, Nat.lt_of_lt_of_le hp1.2 hn2⟩
      cases e with
      | some e =>
        refine .orPanic fun h3 he => ?_
        obtain ⟨w3, hn⟩ := hr.1.setLen hp2 he
        exact ⟨w3, by rw [hn]; exact Nat.le_trans hw.2 hn2⟩
      | none => exact (ih _ _ _ hr.1 hp2).mono fun r l => l.trans (Nat.le_trans hw.2 hn2)
    · trivial

theorem hseqBody_frame (env : Env) (t et : TypeId) {u : WType → Place → Heap → UProg Heap} (hu : ∀ wt q h, Fenced S h0 h → S q.loc ∧ q.loc < h.next → Always (Later S h0 h) (u wt q h))
    (s : Option SliceRef) (hd : SetHeader) {fin : Heap → UProg Heap} (w : Fenced S h0 h) (hp : S p.loc ∧ p.loc < h.next) (hf : ∀ h1, Fenced S h0 h1 → h.next ≤ h1.next → Always (Later S h0 h) (fin h1)) :
    Always (Later S h0 h) (hseqBody env t et u p s h hd fin) := by
  unfold hseqBody
  split
  · simp only
    refine .orPanic fun h1 he => ?_
    have hw : Fenced S h0 h1 ∧ h1.next = h.next := by
      cases s with
      | none => cases he; exact ⟨w, rfl⟩
      | some s =>
        simp only at he
        by_cases hc : s.cap > 0
        · rw [if_pos hc] at he; exact w.setLen hp he
        · rw [if_neg hc] at he; cases he; exact ⟨w, rfl⟩
    refine (hseqLoop_frame env t et (hu hd.element) _ _ _ _ hw.1 ⟨hp.1, hw.2 ▸ hp.2⟩).andThen (fun h2 l => hf h2 l.1 (hw.2 ▸ l.2)) fun h2 e l => ⟨l.1, hw.2 ▸ l.2⟩
  · refine .orPanic fun h1 he => ?_
    obtain ⟨w1, hn⟩ := w.setLen hp he
    exact hf h1 w1 (Nat.le_of_eq hn.symm)

theorem hunmarshalSeq_frame (env : Env) (t : TypeId) (isSet : Bool) (et : TypeId) {u : WType → Place → Heap → UProg Heap}
    (hu : ∀ wt q h, Fenced S h0 h → S q.loc ∧ q.loc < h.next → Always (Later S h0 h) (u wt q h)) (wt : WType) (w : Fenced S h0 h) (hp : S p.loc ∧ p.loc < h.next) :
    Always (Later S h0 h) (hunmarshalSeq env t isSet et u p wt h) := by
  unfold hunmarshalSeq
  by_cases hwt : wt ≠ (if isSet = true then Ty.set else Ty.list)
  · simp only [if_pos hwt]
    exact Later.keep w _
  · simp only [if_neg hwt]
    split
    · have fin : ∀ {o : ROp} (act : String) (tt : WType), ∀ h1, Fenced S h0 h1 → h.next ≤ h1.next → Always (Later S h0 h) (rcall act tt t o h1 fun _ => .ret (h1, none)) :=
        fun _ _ h1 w1 hn => .rcall (fun e => ⟨w1, hn⟩) fun _ => ⟨w1, hn⟩
      cases isSet
      · exact .rcall (fun e => .keep w _) fun hd => hseqBody_frame env t et hu _ hd w hp fun h1 w1 hn => fin _ _ h1 w1 hn
      · exact .rcall (fun e => .keep w _) fun hd => hseqBody_frame env t et hu _ hd w hp fun h1 w1 hn => fin _ _ h1 w1 hn
    · trivial

theorem Fenced.entriesAt {es : List (HVal × HVal)} (w : Fenced S h0 h) (hp : S p.loc ∧ p.loc < h.next) (he : h.entriesAt p = some es) : ∀ e ∈ es, Inside S h e.1 ∧ Inside S h e.2 := by
  unfold Heap.entriesAt at he
  split at he
  · cases he; simp
  · rename_i l hg
    refine w.table (w.get hp hg l ?_) he
    rw [HVal.Refers]
  · cases he

theorem hmapIndex_mem {k v : HVal} {es : List (HVal × HVal)} (h : hmapIndex k es = some v) : ∃ e ∈ es, e.2 = v := by
  induction es with
  | nil => cases h
  | cons e es ih =>
    obtain ⟨k', v'⟩ := e
    rw [hmapIndex] at h
    split at h
    · cases h; exact ⟨(k', v), by simp, rfl⟩
    · obtain ⟨e, he, hv⟩ := ih h
      exact ⟨e, by simp [he], hv⟩

theorem hsetMapIndex_mem {k v : HVal} {es : List (HVal × HVal)} : ∀ e ∈ hsetMapIndex k v es, e = (k, v) ∨ e ∈ es := by
  induction es with
  | nil => intro e he; rw [hsetMapIndex] at he; exact .inl (by simpa using he)
  | cons a es ih =>
    intro e he
    obtain ⟨k', v'⟩ := a
    rw [hsetMapIndex] at he
    split at he
    · rcases List.mem_cons.1 he with he | he
      · exact .inl he
      · exact .inr (by simp [he])
    · rcases List.mem_cons.1 he with he | he
      · exact .inr (by simp [he])
      · rcases ih e he with h | h
        · exact .inl h
        · exact .inr (by simp [h])

theorem Fenced.setMapIndex {k v : HVal} (w : Fenced S h0 h) (hp : S p.loc ∧ p.loc < h.next) (hk : Inside S h k) (hv : Inside S h v) (he : h.setMapIndex p k v = some h1) : Fenced S h0 h1 ∧ h1.next = h.next := by
  unfold Heap.setMapIndex at he
  split at he
  · rename_i l hg
    obtain ⟨es, ht, rfl⟩ := Option.map_eq_some_iff.1 he
    have hl : S l ∧ l < h.next := w.get hp hg l (by rw [HVal.Refers])
    refine ⟨w.write hl.1 fun r hr => ?_, rfl⟩
    obtain ⟨e, he, hr⟩ := hr
    rcases hsetMapIndex_mem e he with rfl | he
    · exact hr.elim (hk r) (hv r)
    · have := w.table hl ht e he
      exact hr.elim (this.1 r) (this.2 r)
  · cases he

theorem hmapLoop_frame (env : Env) (kt et : TypeId) {uk uv : Place → Heap → UProg Heap} (huk : ∀ q h, Fenced S h0 h → S q.loc ∧ q.loc < h.next → Always (Later S h0 h) (uk q h))
    (huv : ∀ q h, Fenced S h0 h → S q.loc ∧ q.loc < h.next → Always (Later S h0 h) (uv q h)) {k v : Loc} (n : Nat) (w : Fenced S h0 h) (hp : S p.loc ∧ p.loc < h.next) (hk : S k ∧ k < h.next)
    (hv : S v ∧ v < h.next) : Always (Later S h0 h) (hmapLoop env kt et p k v uk uv n h) := by
  induction n generalizing h with
  | zero => exact Later.keep w _
  | succ n ih =>
    rw [hmapLoop]
    have up : ∀ {l : Loc} {h h1 : Heap}, S l ∧ l < h.next → h.next ≤ h1.next → S l ∧ l < h1.next := fun hl hn => ⟨hl.1, Nat.lt_of_lt_of_le hl.2 hn⟩
    have w1 := w.set (p := ⟨k, []⟩) hk (inside_zero env kt)
    refine (huk ⟨k, []⟩ _ w1 (by rw [set_next]; exact hk)).andThen (fun h2 l2 => ?_) fun h2 e l2 => ⟨l2.1, by have := l2.2; rwa [set_next] at this⟩
    have hn2 : h.next ≤ h2.next := by have := l2.2; rwa [set_next] at this
    have w2 := l2.1
    refine .orPanic fun kv hkv => .orPanic fun es hes => ?_
    have hin : Inside S h2 ((hmapIndex kv es).getD (env.hzero et)) := by
      cases hm : hmapIndex kv es with
      | none => exact inside_zero env et
      | some x =>
        obtain ⟨e, he, hx⟩ := hmapIndex_mem hm
        subst hx
        exact (w2.entriesAt (up hp hn2) hes e he).2
    have w3 := w2.set (p := ⟨v, []⟩) (up hv hn2) hin
    refine (huv ⟨v, []⟩ _ w3 (by rw [set_next]; exact up hv hn2)).bind fun r l4 => ?_
    obtain ⟨h4, e⟩ := r
    have hn4 : h2.next ≤ h4.next := by have := l4.2; rwa [set_next] at this
    have hn : h.next ≤ h4.next := Nat.le_trans hn2 hn4
    have w4 := l4.1
    dsimp only at w4
    refine .orPanic fun kv hkv => .orPanic fun vv hvv => .orPanic fun h5 h5e => ?_
    obtain ⟨w5, hn5⟩ := w4.setMapIndex (up hp hn) (w4.get (p := ⟨k, []⟩) (up hk hn) hkv) (w4.get (p := ⟨v, []⟩) (up hv hn) hvv) h5e
    have hn' : h.next ≤ h5.next := by rw [hn5]; exact hn
    cases e with
    | some e => exact ⟨w5, hn'⟩
    | none => exact (ih w5 (up hp hn') (up hk hn') (up hv hn')).mono fun r l => l.trans hn'

theorem Fenced.makeMap {m : Option Loc} (w : Fenced S h0 h) (hp : S p.loc ∧ p.loc < h.next) : Fenced S h0 (h.makeMap p m) ∧ h.next ≤ (h.makeMap p m).next := by
  cases m with
  | some l => exact ⟨w, Nat.le_refl _⟩
  | none =>
    obtain ⟨w1, hl, hn⟩ := w.alloc (o := .table []) fun r hr => by
      obtain ⟨e, he, _⟩ := hr
      cases he
    have := Later.set (e := none) (y := .map (some (h.alloc (.table [])).2)) w1 ⟨hp.1, Nat.lt_of_lt_of_le hp.2 hn⟩ fun r hr => by
      rw [HVal.Refers] at hr
      cases hr
      exact hl
    exact ⟨this.1, Nat.le_trans hn this.2⟩

theorem hunmarshalMap_frame (env : Env) (t kt et : TypeId) {uk uv : WType → Place → Heap → UProg Heap} (huk : ∀ wt q h, Fenced S h0 h → S q.loc ∧ q.loc < h.next → Always (Later S h0 h) (uk wt q h))
    (huv : ∀ wt q h, Fenced S h0 h → S q.loc ∧ q.loc < h.next → Always (Later S h0 h) (uv wt q h)) (wt : WType) (w : Fenced S h0 h) (hp : S p.loc ∧ p.loc < h.next) :
    Always (Later S h0 h) (hunmarshalMap env t kt et uk uv p wt h) := by
  unfold hunmarshalMap
  split
  · exact Later.keep w _
  · split
    · rename_i m hg
      refine .rcall (fun e => .keep w _) fun hd => ?_
      have fin : ∀ h1, Fenced S h0 h1 → h.next ≤ h1.next → Always (Later S h0 h) (rcall "ReadMapEnd" Ty.map t .mapEnd h1 fun _ => .ret (h1, none)) :=
        fun h1 w1 hn => .rcall (fun e => ⟨w1, hn⟩) fun _ => ⟨w1, hn⟩
      simp only
      split
      · obtain ⟨w1, n1⟩ := w.makeMap (m := m) hp
        obtain ⟨w2, l2, n2⟩ := w1.alloc (o := .cell (env.hzero kt)) (inside_zero env kt)
        obtain ⟨w3, l3, n3⟩ := w2.alloc (o := .cell (env.hzero et)) (inside_zero env et)
        have hn : h.next ≤ _ := Nat.le_trans n1 (Nat.le_trans n2 n3)
        exact (hmapLoop_frame env kt et (huk hd.key) (huv hd.value) _ w3 ⟨hp.1, Nat.lt_of_lt_of_le hp.2 hn⟩ ⟨l2.1, Nat.lt_of_lt_of_le l2.2 n3⟩ l3).andThen
          (fun h4 l4 => fin h4 l4.1 (Nat.le_trans hn l4.2)) fun h4 e l4 => ⟨l4.1, Nat.le_trans hn l4.2⟩
      · exact fin h w (Nat.le_refl _)
    · trivial

theorem hunmarshal_frame (env : Env) (sk : Nat) (S : Loc → Prop) (h0 : Heap) : ∀ fuel : Nat,
    (∀ a wt p h, Fenced S h0 h → S p.loc ∧ p.loc < h.next → Always (Later S h0 h) (hunmarshal env sk fuel a p wt h)) ∧
    (∀ t fs p h, Fenced S h0 h → S p.loc ∧ p.loc < h.next → Always (Later S h0 h) (hunmarshalFields env sk fuel t fs p h))
  | 0 => ⟨fun _ _ _ _ _ _ => by rw [hunmarshal]; trivial, fun _ _ _ _ _ _ => by rw [hunmarshalFields]; trivial⟩
  | fuel + 1 => by
    obtain ⟨ih, ihf⟩ := hunmarshal_frame env sk S h0 fuel
    refine ⟨fun a wt p h w hp => ?_, fun t fs p h w hp => ?_⟩
    · rw [hunmarshal.eq_def]
      cases a with
      | leaf t l => exact hleaf_frame env t l wt w hp
      | struct t =>
        simp only
        cases makeStructFields env fuel t with
        | panicked => trivial
        | diverged => trivial
        | blocked => trivial
        | done r =>
          simp only [Out.elim]
          cases r with
          | error e => exact Later.keep w _
          | ok fs =>
            simp only
            split
            · exact Later.keep w _
            · split
              · exact .rcall (fun e => .keep w _) fun _ => ihf t fs p h w hp
              · trivial
      | map t ka ea => exact hunmarshalMap_frame env t ka.typ ea.typ (fun wt q h w hq => ih ka wt q h w hq) (fun wt q h w hq => ih ea wt q h w hq) wt w hp
      | seq t isSet ea => exact hunmarshalSeq_frame env t isSet ea.typ (fun wt q h w hq => ih ea wt q h w hq) wt w hp
      | ptr t ea =>
        simp only
        split
        · rename_i l hg
          exact ih ea wt ⟨l, []⟩ h w (w.get hp hg l (by rw [HVal.Refers]))
        · obtain ⟨w1, l1, n1⟩ := w.alloc (o := .cell (env.hzero ea.typ)) (inside_zero env _)
          have s := Later.set (e := none) (y := .ptr (some (h.alloc (.cell (env.hzero ea.typ))).2)) w1 ⟨hp.1, Nat.lt_of_lt_of_le hp.2 n1⟩ fun r hr => by
            rw [HVal.Refers] at hr
            cases hr
            exact l1
          exact (ih ea wt _ _ s.1 ⟨l1.1, Nat.lt_of_lt_of_le l1.2 s.2⟩).mono fun r l => l.trans (Nat.le_trans n1 s.2)
        · trivial
      | invalid t => exact Later.keep w _
    · rw [hunmarshalFields.eq_def]
      simp only
      refine .rcall (fun e => .keep w _) fun hd => ?_
      split
      · exact .rcall (fun e => .keep w _) fun _ => Later.keep w _
      · have next : ∀ h1, Fenced S h0 h1 → h.next ≤ h1.next → Always (Later S h0 h) (rcall "ReadFieldEnd" Ty.struct t .fieldEnd h1 fun _ => hunmarshalFields env sk fuel t fs p h1) :=
          fun h1 w1 hn => .rcall (fun e => ⟨w1, hn⟩) fun _ => (ihf t fs p h1 w1 ⟨hp.1, Nat.lt_of_lt_of_le hp.2 hn⟩).mono fun r l => l.trans hn
        split
        · refine (Always.any _).bind fun e _ => ?_
          cases e with
          | some e => exact Later.keep w _
          | none => exact next h w (Nat.le_refl _)
        · split
          · trivial
          · exact (ih _ hd.type (p.field _) h w hp).andThen (fun h1 l => next h1 l.1 l.2) fun h1 e l => l

end

end GoThrift
