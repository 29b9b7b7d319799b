import Verif.Spec.Heap
import Verif.Proof.SameCalls
import Verif.Proof.Canon

/-!
# Memory that holds a tree: steps and what they leave alone
-/

namespace GoThrift

open Spec

/-! ## Reading and writing a place -/

theorem put_put (x y z : HVal) (is : List Nat) : (x.put y is).put z is = x.put z is := by
  induction is generalizing x with
  | nil => rfl
  | cons i is ih =>
    cases x with
    | struct fs =>
      simp only [HVal.put]
      rw [List.modify_modify_eq]
      congr 2
      funext x
      exact ih x
    | _ => rfl

theorem sub_put {x y z : HVal} {is : List Nat} (h : x.sub is = some y) : (x.put z is).sub is = some z := by
  induction is generalizing x with
  | nil => rfl
  | cons i is ih =>
    cases x with
    | struct fs =>
      simp only [HVal.sub] at h
      obtain ⟨w, hw, hs⟩ := Option.bind_eq_some_iff.1 h
      simp only [HVal.put, HVal.sub, List.getElem?_modify_eq, hw, Option.map_some, Option.bind_some]
      exact ih hs
    | _ => cases h

theorem modify_eq_set {α : Type} {l : List α} {i : Nat} {a : α} (f : α → α) (h : l[i]? = some a) : l.modify i f = l.set i (f a) := by
  induction l generalizing i with
  | nil => cases h
  | cons b l ih =>
    cases i with
    | zero => cases h; rfl
    | succ i => simp only [List.modify_succ_cons, List.set_cons_succ]; rw [ih h]

theorem set_getElem?_self {α : Type} {l : List α} {i : Nat} {a : α} (h : l[i]? = some a) : l.set i a = l := by
  induction l generalizing i with
  | nil => rfl
  | cons b l ih =>
    cases i with
    | zero => cases h; rfl
    | succ i => simp only [List.set_cons_succ]; rw [ih h]

theorem put_sub {x y : HVal} {is : List Nat} (h : x.sub is = some y) : x.put y is = x := by
  induction is generalizing x with
  | nil => cases h; rfl
  | cons i is ih =>
    cases x with
    | struct fs =>
      simp only [HVal.sub] at h
      obtain ⟨w, hw, hs⟩ := Option.bind_eq_some_iff.1 h
      simp only [HVal.put]
      rw [modify_eq_set _ hw, ih hs, set_getElem?_self hw]
    | _ => cases h

theorem sub_append (x : HVal) (is js : List Nat) : x.sub (is ++ js) = (x.sub is).bind (HVal.sub js) := by
  induction is generalizing x with
  | nil => rfl
  | cons i is ih =>
    cases x with
    | struct fs =>
      simp only [List.cons_append, HVal.sub]
      cases fs[i]? with
      | none => rfl
      | some w => exact ih w
    | _ => rfl

theorem put_append {x y z : HVal} {is js : List Nat} (h : x.sub is = some y) : x.put z (is ++ js) = x.put (y.put z js) is := by
  induction is generalizing x with
  | nil => cases h; rfl
  | cons i is ih =>
    cases x with
    | struct fs =>
      simp only [HVal.sub] at h
      obtain ⟨w, hw, hs⟩ := Option.bind_eq_some_iff.1 h
      simp only [List.cons_append, HVal.put]
      rw [modify_eq_set _ hw, modify_eq_set _ hw, ih hs]
    | _ => cases h

theorem write_mem (h : Heap) (l : Loc) (o : MObj) : (h.write l o).mem l = o := if_pos rfl

theorem write_mem_ne (h : Heap) {l l' : Loc} (o : MObj) (hl : l' ≠ l) : (h.write l o).mem l' = h.mem l' := if_neg hl

theorem set_next (h : Heap) (p : Place) (y : HVal) : (h.set p y).next = h.next := by
  unfold Heap.set; split <;> rfl

theorem set_mem_ne (h : Heap) {p : Place} (y : HVal) {l : Loc} (hl : l ≠ p.loc) : (h.set p y).mem l = h.mem l := by
  unfold Heap.set; split
  · exact write_mem_ne _ _ hl
  · rfl

theorem set_mem_congr {h h' : Heap} {p : Place} (y : HVal) {l : Loc} (hl : h.mem l = h'.mem l) : (h.set p y).mem l = (h'.set p y).mem l := by
  by_cases hp : l = p.loc
  · subst hp
    unfold Heap.set
    rw [hl]
    split
    · rw [write_mem, write_mem]
    · exact hl
  · rw [set_mem_ne h y hp, set_mem_ne h' y hp, hl]

theorem get_congr {h h' : Heap} {p : Place} (hl : h.mem p.loc = h'.mem p.loc) : h.get p = h'.get p := by
  unfold Heap.get; rw [hl]

theorem get_cell {h : Heap} {p : Place} {x : HVal} (hg : h.get p = some x) : ∃ y, h.mem p.loc = .cell y ∧ y.sub p.path = some x := by
  unfold Heap.get at hg
  split at hg
  · exact ⟨_, by assumption, hg⟩
  · cases hg

theorem get_var {h : Heap} {l : Loc} {x : HVal} : h.get ⟨l, []⟩ = some x ↔ h.mem l = .cell x := by
  constructor
  · intro hg
    obtain ⟨y, hy, hs⟩ := get_cell hg
    cases hs
    exact hy
  · intro hm
    show (match h.mem l with | .cell x => x.sub [] | .table _ => none) = some x
    rw [hm]; rfl

theorem set_var {h : Heap} {l : Loc} {x : HVal} (y : HVal) (hm : h.mem l = .cell x) : (h.set ⟨l, []⟩ y).mem l = .cell y := by
  show (match h.mem l with | .cell x => h.write l (.cell (x.put y [])) | .table _ => h).mem l = _
  rw [hm]; exact write_mem _ _ _

theorem get_set {h : Heap} {p : Place} {x : HVal} (y : HVal) (hg : h.get p = some x) : (h.set p y).get p = some y := by
  obtain ⟨z, hm, hs⟩ := get_cell hg
  unfold Heap.set
  rw [hm]
  unfold Heap.get
  simp only [write_mem]
  exact sub_put hs

theorem set_set_mem {h : Heap} {p : Place} (x y : HVal) (l : Loc) : ((h.set p x).set p y).mem l = (h.set p y).mem l := by
  by_cases hp : l = p.loc
  · subst hp
    cases hm : h.mem p.loc with
    | cell z =>
      have h1 : (h.set p x).mem p.loc = .cell (z.put x p.path) := by
        unfold Heap.set; rw [hm]; exact write_mem _ _ _
      unfold Heap.set
      rw [hm]
      simp only [write_mem]
      rw [put_put]
    | table es =>
      have : h.set p x = h := by unfold Heap.set; rw [hm]
      rw [this]
  · rw [set_mem_ne _ y hp, set_mem_ne _ x hp, set_mem_ne _ y hp]

theorem set_get_mem {h : Heap} {p : Place} {x : HVal} (hg : h.get p = some x) (l : Loc) : (h.set p x).mem l = h.mem l := by
  by_cases hp : l = p.loc
  · subst hp
    obtain ⟨z, hm, hs⟩ := get_cell hg
    unfold Heap.set
    rw [hm]
    simp only [write_mem]
    rw [put_sub hs]
  · exact set_mem_ne _ _ hp

theorem get_field {h : Heap} {p : Place} {xs : List HVal} (hg : h.get p = some (.struct xs)) (i : Nat) : h.get (p.field i) = xs[i]? := by
  obtain ⟨z, hm, hs⟩ := get_cell hg
  unfold Heap.get Place.field
  simp only [hm]
  rw [sub_append, hs]
  simp only [Option.bind_some, HVal.sub]
  cases xs[i]? <;> rfl

theorem set_field_mem {h : Heap} {p : Place} {xs : List HVal} {i : Nat} {x : HVal} (hg : h.get p = some (.struct xs)) (hi : xs[i]? = some x) (y : HVal) (l : Loc) :
    (h.set (p.field i) y).mem l = (h.set p (.struct (xs.set i y))).mem l := by
  by_cases hp : l = p.loc
  · subst hp
    obtain ⟨z, hm, hs⟩ := get_cell hg
    unfold Heap.set Place.field
    simp only [hm]
    rw [write_mem, write_mem, put_append hs]
    simp only [HVal.put]
    rw [modify_eq_set _ hi]
  · rw [set_mem_ne _ _ hp, set_mem_ne h (p := p.field i) _ hp]

theorem fill_mem_out (h : Heap) (base : Loc) (xs : List HVal) {l : Loc} (hl : l ∉ List.range' base xs.length) : (h.fill base xs).mem l = h.mem l := by
  unfold Heap.fill
  simp only
  have : (if base ≤ l then xs[l - base]? else none) = none := by
    split
    · rename_i hb
      rw [List.getElem?_eq_none_iff]
      rw [List.mem_range'_1] at hl
      omega
    · rfl
  rw [this]

theorem fill_mem_in (h : Heap) (base : Loc) {xs : List HVal} {i : Nat} {x : HVal} (hi : xs[i]? = some x) : (h.fill base xs).mem (base + i) = .cell x := by
  unfold Heap.fill
  simp only [Nat.le_add_right, if_true, Nat.add_sub_cancel_left, hi]

theorem cells_of {h : Heap} {base : Loc} {xs : List HVal} (hc : CellsAt h base xs) : h.cells base xs.length = some xs := by
  induction xs generalizing base with
  | nil => rfl
  | cons x xs ih =>
    have h0 : h.mem base = .cell x := hc 0 x rfl
    have h1 : h.cells (base + 1) xs.length = some xs := ih fun i y hy => by
      have := hc (i + 1) y hy
      rw [Nat.add_assoc, Nat.add_comm 1 i]
      exact this
    simp only [List.length_cons, Heap.cells, h0, h1]

/-! ## Representations and the memory they depend on -/

theorem Spec.CellsAt.congr {h h' : Heap} {base : Loc} {xs : List HVal} (hc : CellsAt h base xs) (hm : ∀ l ∈ List.range' base xs.length, h'.mem l = h.mem l) : CellsAt h' base xs := by
  intro i x hx
  rw [hm]
  · exact hc i x hx
  · rw [List.mem_range'_1]
    have := (List.getElem?_eq_some_iff.1 hx).1
    omega

theorem Spec.OwnsAll.length {h : Heap} {vs : List GoVal} {xs : List HVal} {F : List Loc} (ho : OwnsAll h vs xs F) : xs.length = vs.length := by
  induction vs generalizing xs F with
  | nil => rw [OwnsAll] at ho; rw [ho.1]; rfl
  | cons v vs ih =>
    rw [OwnsAll] at ho
    obtain ⟨y, ys, G, H, rfl, _, h2, _⟩ := ho
    simp [ih h2]

mutual
theorem Spec.Owns.congr {h h' : Heap} : ∀ {v : GoVal} {x : HVal} {F : List Loc}, Owns h v x F → (∀ l ∈ F, h'.mem l = h.mem l) → Owns h' v x F
  | .struct vs, x, F, ho, hm => by
    rw [Owns] at ho ⊢
    obtain ⟨xs, hx, ho⟩ := ho
    exact ⟨xs, hx, OwnsAll.congr ho hm⟩
  | .map es, x, F, ho, hm => by
    rw [Owns] at ho ⊢
    obtain ⟨l, xes, G, hx, hl, ho, rfl⟩ := ho
    exact ⟨l, xes, G, hx, (hm l (by simp)).trans hl, OwnsEntries.congr ho fun l hl => hm l (by simp [hl]), rfl⟩
  | .bytes (some b), x, F, ho, hm => by
    rw [Owns] at ho ⊢
    obtain ⟨s, spare, hx, h1, h2, hc, rfl⟩ := ho
    refine ⟨s, spare, hx, h1, h2, CellsAt.congr hc fun l hl => hm l ?_, rfl⟩
    rwa [Heap.byteCells, List.length_map, h2] at hl
  | .slice es sp, x, F, ho, hm => by
    rw [Owns] at ho ⊢
    obtain ⟨s, xs, ys, G, H, hx, h1, h2, hc, o1, o2, rfl⟩ := ho
    refine ⟨s, xs, ys, G, H, hx, h1, h2, CellsAt.congr hc fun l hl => hm l ?_, OwnsAll.congr o1 fun l hl => hm l (by simp [hl]), OwnsAll.congr o2 fun l hl => hm l (by simp [hl]), rfl⟩
    rw [List.length_append, o1.length, o2.length, h2] at hl
    simp [hl]
  | .ptr v, x, F, ho, hm => by
    rw [Owns] at ho ⊢
    obtain ⟨l, y, G, hx, hl, ho, rfl⟩ := ho
    exact ⟨l, y, G, hx, (hm l (by simp)).trans hl, Owns.congr ho fun l hl => hm l (by simp [hl]), rfl⟩
  | .mapNil, _, _, ho, _ => ho
  | .bytes none, _, _, ho, _ => ho
  | .sliceNil, _, _, ho, _ => ho
  | .ptrNil, _, _, ho, _ => ho
  | .bool _, _, _, ho, _ => ho
  | .i8 _, _, _, ho, _ => ho
  | .i16 _, _, _, ho, _ => ho
  | .i32 _, _, _, ho, _ => ho
  | .i64 _, _, _, ho, _ => ho
  | .f32 _, _, _, ho, _ => ho
  | .f64 _, _, _, ho, _ => ho
  | .str _, _, _, ho, _ => ho
  | .uuid _, _, _, ho, _ => ho
  | .other _, _, _, ho, _ => ho
theorem Spec.OwnsAll.congr {h h' : Heap} : ∀ {vs : List GoVal} {xs : List HVal} {F : List Loc}, OwnsAll h vs xs F → (∀ l ∈ F, h'.mem l = h.mem l) → OwnsAll h' vs xs F
  | [], _, _, ho, _ => ho
  | v :: vs, _, _, ho, hm => by
    rw [OwnsAll] at ho ⊢
    obtain ⟨y, ys, G, H, hx, o1, o2, rfl⟩ := ho
    exact ⟨y, ys, G, H, hx, Owns.congr o1 fun l hl => hm l (by simp [hl]), OwnsAll.congr o2 fun l hl => hm l (by simp [hl]), rfl⟩
theorem Spec.OwnsEntries.congr {h h' : Heap} : ∀ {es : List (GoVal × GoVal)} {xs : List (HVal × HVal)} {F : List Loc}, OwnsEntries h es xs F → (∀ l ∈ F, h'.mem l = h.mem l) → OwnsEntries h' es xs F
  | [], _, _, ho, _ => ho
  | (k, v) :: es, _, _, ho, hm => by
    rw [OwnsEntries] at ho ⊢
    obtain ⟨y, z, ys, G, G', H, hx, o1, o2, o3, rfl⟩ := ho
    exact ⟨y, z, ys, G, G', H, hx, Owns.congr o1 fun l hl => hm l (by simp [hl]), Owns.congr o2 fun l hl => hm l (by simp [hl]), OwnsEntries.congr o3 fun l hl => hm l (by simp [hl]), rfl⟩
end

theorem Spec.OwnsAll.append {h : Heap} {vs vs' : List GoVal} {xs xs' : List HVal} {F F' : List Loc} (ho : OwnsAll h vs xs F) (ho' : OwnsAll h vs' xs' F') : OwnsAll h (vs ++ vs') (xs ++ xs') (F ++ F') := by
  induction vs generalizing xs F with
  | nil => rw [OwnsAll] at ho; rw [ho.1, ho.2]; exact ho'
  | cons v vs ih =>
    rw [OwnsAll] at ho
    obtain ⟨y, ys, G, H, rfl, o1, o2, rfl⟩ := ho
    rw [List.cons_append, OwnsAll]
    exact ⟨y, ys ++ xs', G, H ++ F', rfl, o1, ih o2, by simp⟩

theorem Spec.OwnsAll.of_append {h : Heap} {vs vs' : List GoVal} {xs : List HVal} {F : List Loc} (ho : OwnsAll h (vs ++ vs') xs F) :
    ∃ ys ys' G G', xs = ys ++ ys' ∧ F = G ++ G' ∧ OwnsAll h vs ys G ∧ OwnsAll h vs' ys' G' := by
  induction vs generalizing xs F with
  | nil => exact ⟨[], xs, [], F, rfl, rfl, ⟨rfl, rfl⟩, ho⟩
  | cons v vs ih =>
    rw [List.cons_append, OwnsAll] at ho
    obtain ⟨y, ys, G, H, rfl, o1, o2, rfl⟩ := ho
    obtain ⟨zs, zs', K, K', rfl, rfl, p1, p2⟩ := ih o2
    exact ⟨y :: zs, zs', G ++ K, K', rfl, by simp, ⟨y, zs, G, K, rfl, o1, p1, rfl⟩, p2⟩

theorem Spec.OwnsAll.cons {h : Heap} {v : GoVal} {vs : List GoVal} {y : HVal} {ys : List HVal} {F F' : List Loc} (ho : Owns h v y F) (ho' : OwnsAll h vs ys F') : OwnsAll h (v :: vs) (y :: ys) (F ++ F') := by
  rw [OwnsAll]; exact ⟨y, ys, F, F', rfl, ho, ho', rfl⟩

theorem Spec.OwnsEntries.append {h : Heap} {vs vs' : List (GoVal × GoVal)} {xs xs' : List (HVal × HVal)} {F F' : List Loc} (ho : OwnsEntries h vs xs F) (ho' : OwnsEntries h vs' xs' F') :
    OwnsEntries h (vs ++ vs') (xs ++ xs') (F ++ F') := by
  induction vs generalizing xs F with
  | nil => rw [OwnsEntries] at ho; rw [ho.1, ho.2]; exact ho'
  | cons v vs ih =>
    obtain ⟨k, v⟩ := v
    rw [OwnsEntries] at ho
    obtain ⟨y, z, ys, G, G', H, rfl, o1, o2, o3, rfl⟩ := ho
    rw [List.cons_append, OwnsEntries]
    exact ⟨y, z, ys ++ xs', G, G', H ++ F', rfl, o1, o2, ih o3, by simp⟩

theorem Spec.OwnsEntries.cons {h : Heap} {k v : GoVal} {vs : List (GoVal × GoVal)} {y z : HVal} {ys : List (HVal × HVal)} {F F' H : List Loc} (ho : Owns h k y F) (ho' : Owns h v z F')
    (hs : OwnsEntries h vs ys H) : OwnsEntries h ((k, v) :: vs) ((y, z) :: ys) ((F ++ F') ++ H) := by
  rw [OwnsEntries]; exact ⟨y, z, ys, F, F', H, rfl, ho, ho', hs, rfl⟩

/-! ## Zero values -/

mutual
/-- A value without references. -/
def flatZero : GoVal → Prop
  | .struct vs => flatZeros vs
  | .map _ => False
  | .bytes (some _) => False
  | .slice _ _ => False
  | .ptr _ => False
  | _ => True
def flatZeros : List GoVal → Prop
  | [] => True
  | v :: vs => flatZero v ∧ flatZeros vs
end

mutual
theorem owns_ofZero (h : Heap) : ∀ v : GoVal, flatZero v → Owns h v (.ofZero v) []
  | .struct vs, hz => by
    rw [Owns, HVal.ofZero]
    exact ⟨_, rfl, owns_ofZeros h vs (by rw [flatZero] at hz; exact hz)⟩
  | .map _, hz => by rw [flatZero] at hz; exact hz.elim
  | .bytes (some _), hz => by rw [flatZero] at hz; exact hz.elim
  | .slice _ _, hz => by rw [flatZero] at hz; exact hz.elim
  | .ptr _, hz => by rw [flatZero] at hz; exact hz.elim
  | .mapNil, _ => ⟨rfl, rfl⟩
  | .bytes none, _ => ⟨rfl, rfl⟩
  | .sliceNil, _ => ⟨rfl, rfl⟩
  | .ptrNil, _ => ⟨rfl, rfl⟩
  | .bool _, _ => ⟨rfl, rfl⟩
  | .i8 _, _ => ⟨rfl, rfl⟩
  | .i16 _, _ => ⟨rfl, rfl⟩
  | .i32 _, _ => ⟨rfl, rfl⟩
  | .i64 _, _ => ⟨rfl, rfl⟩
  | .f32 _, _ => ⟨rfl, rfl⟩
  | .f64 _, _ => ⟨rfl, rfl⟩
  | .str _, _ => ⟨rfl, rfl⟩
  | .uuid _, _ => ⟨rfl, rfl⟩
  | .other _, _ => ⟨rfl, rfl⟩
theorem owns_ofZeros (h : Heap) : ∀ vs : List GoVal, flatZeros vs → OwnsAll h vs (HVal.ofZeros vs) []
  | [], _ => ⟨rfl, rfl⟩
  | v :: vs, hz => by
    rw [flatZeros] at hz
    rw [HVal.ofZeros]
    exact OwnsAll.cons (owns_ofZero h v hz.1) (owns_ofZeros h vs hz.2)
end

theorem flatZeros_of {vs : List GoVal} (h : ∀ v ∈ vs, flatZero v) : flatZeros vs := by
  induction vs with
  | nil => trivial
  | cons v vs ih => rw [flatZeros]; exact ⟨h v (by simp), ih fun v hv => h v (by simp [hv])⟩

theorem flatZero_zero (env : Env) : ∀ (v : GoVal) (t : TypeId), env.zero t = v → flatZero v
  | .struct vs, t, ht => by
    rw [flatZero]
    rcases zero_cases env t with ⟨fs, h⟩ | h
    · refine flatZeros_of fun v hv => ?_
      rw [h] at ht
      cases ht
      obtain ⟨f, hf, rfl⟩ := List.mem_map.1 hv
      have : sizeOf (env.zero f.typ) < 1 + sizeOf (fs.map fun f => env.zero f.typ) := by
        have := List.sizeOf_lt_of_mem hv
        omega
      exact flatZero_zero env _ f.typ rfl
    · exact absurd ht (h.2.2.2 _)
  | .map es, t, ht => by
    rcases zero_cases env t with ⟨fs, h⟩ | h
    · rw [h] at ht; cases ht
    · exact absurd ht (h.2.2.1 _)
  | .bytes (some b), t, ht => by
    rw [env.zero_eq] at ht
    cases hk : (env.type t).kind with
    | slice e => rw [hk, Kind.zero] at ht; split at ht <;> cases ht
    | _ => rw [hk] at ht; cases ht
  | .slice es sp, t, ht => by
    rcases zero_cases env t with ⟨fs, h⟩ | h
    · rw [h] at ht; cases ht
    · exact absurd ht (h.2.1 _ _)
  | .ptr v, t, ht => by
    rcases zero_cases env t with ⟨fs, h⟩ | h
    · rw [h] at ht; cases ht
    · exact absurd ht (h.1 _)
  | .mapNil, _, _ => trivial
  | .bytes none, _, _ => trivial
  | .sliceNil, _, _ => trivial
  | .ptrNil, _, _ => trivial
  | .bool _, _, _ => trivial
  | .i8 _, _, _ => trivial
  | .i16 _, _, _ => trivial
  | .i32 _, _, _ => trivial
  | .i64 _, _, _ => trivial
  | .f32 _, _, _ => trivial
  | .f64 _, _, _ => trivial
  | .str _, _, _ => trivial
  | .uuid _, _, _ => trivial
  | .other _, _, _ => trivial
termination_by v => sizeOf v
decreasing_by
  subst_vars
  simp only [GoVal.struct.sizeOf_spec]
  have := this
  simp_all

/-- A new variable with a zero value holds no references. -/
theorem owns_zero (env : Env) (h : Heap) (t : TypeId) : Owns h (env.zero t) (env.hzero t) [] := owns_ofZero h _ (flatZero_zero env _ t rfl)

/-! ## Steps -/

/-- From memory `h`, in which the place `p` held a value with the addresses `F`, to memory `h1`, in which it holds `x1` with the addresses `F1`. -/
structure Step (p : Place) (h : Heap) (F : List Loc) (h1 : Heap) (x1 : HVal) (F1 : List Loc) : Prop where
  next : h.next ≤ h1.next
  sub : ∀ l ∈ F1, l ∈ F ∨ (h.next ≤ l ∧ l < h1.next)
  nodup : F1.Nodup
  get : h1.get p = some x1
  frame : ∀ l, l < h.next → l ∉ F → h1.mem l = (h.set p x1).mem l

/-- The place `p` holds the tree `v`. -/
structure Pre (p : Place) (h : Heap) (v : GoVal) (x : HVal) (F : List Loc) : Prop where
  get : h.get p = some x
  owns : Owns h v x F
  nodup : F.Nodup
  notin : p.loc ∉ F
  lt : p.loc < h.next
  alloc : ∀ l ∈ F, l < h.next

/-- What Unmarshal makes of the tree at `p`. -/
def After (p : Place) (h : Heap) (F : List Loc) (r : GoVal × Option Err) (r' : Heap × Option Err) : Prop :=
  r.2 = r'.2 ∧ ∃ v x F1, Step p h F r'.1 x F1 ∧ Owns r'.1 v x F1 ∧ Scribbled r.1 v ∧ (r.2 = none → v = r.1)

section
variable {p : Place} {h h1 h2 : Heap} {v v1 : GoVal} {x x1 x2 : HVal} {F F1 F2 : List Loc}

theorem Step.notin (s : Step p h F h1 x1 F1) (hn : p.loc ∉ F) (hl : p.loc < h.next) : p.loc ∉ F1 := fun hm => by
  rcases s.sub _ hm with h | h
  · exact hn h
  · omega

theorem Step.pre (s : Step p h F h1 x1 F1) (c : Pre p h v x F) (o : Owns h1 v1 x1 F1) : Pre p h1 v1 x1 F1 where
  get := s.get
  owns := o
  nodup := s.nodup
  notin := s.notin c.notin c.lt
  lt := Nat.lt_of_lt_of_le c.lt s.next
  alloc l hl := by
    rcases s.sub l hl with h | h
    · exact Nat.lt_of_lt_of_le (c.alloc l h) s.next
    · exact h.2

theorem Step.trans (s : Step p h F h1 x1 F1) (s' : Step p h1 F1 h2 x2 F2) : Step p h F h2 x2 F2 where
  next := Nat.le_trans s.next s'.next
  sub l hl := by
    rcases s'.sub l hl with h | h
    · rcases s.sub l h with h | h
      · exact .inl h
      · exact .inr ⟨h.1, Nat.lt_of_lt_of_le h.2 s'.next⟩
    · exact .inr ⟨Nat.le_trans s.next h.1, h.2⟩
  nodup := s'.nodup
  get := s'.get
  frame l hl hF := by
    have hF1 : l ∉ F1 := fun hm => by
      rcases s.sub l hm with h | h
      · exact hF h
      · omega
    rw [s'.frame l (Nat.lt_of_lt_of_le hl s.next) hF1, ← set_set_mem (h := h) x1 x2 l]
    exact set_mem_congr x2 (s.frame l hl hF)

/-- Assigning to the place. -/
theorem Step.set (y : HVal) (hg : h.get p = some x) (hs : ∀ l ∈ F1, l ∈ F) (hn : F1.Nodup) : Step p h F (h.set p y) y F1 where
  next := Nat.le_of_eq (set_next h p y).symm
  sub l hl := .inl (hs l hl)
  nodup := hn
  get := get_set y hg
  frame _ _ _ := rfl

/-- A change elsewhere. -/
theorem Step.other (c : Pre p h v x F) (hx : h.next ≤ h1.next) (hs : ∀ l ∈ F1, l ∈ F ∨ (h.next ≤ l ∧ l < h1.next)) (hn : F1.Nodup)
    (hm : ∀ l, l < h.next → l ∉ F → h1.mem l = h.mem l) : Step p h F h1 x F1 where
  next := hx
  sub := hs
  nodup := hn
  get := (get_congr (hm p.loc c.lt c.notin)).trans c.get
  frame l hl hF := (hm l hl hF).trans (set_get_mem c.get l).symm

theorem Step.refl (c : Pre p h v x F) : Step p h F h x F := .other c (Nat.le_refl _) (fun _ hl => .inl hl) c.nodup fun _ _ _ => rfl

theorem After.done (o : Owns h1 v x1 F1) (s : Step p h F h1 x1 F1) (e : Option Err) : After p h F (v, e) (h1, e) := ⟨rfl, v, x1, F1, s, o, .refl v, fun _ => rfl⟩

theorem After.keep (c : Pre p h v x F) (e : Option Err) : After p h F (v, e) (h, e) := .done c.owns (.refl c) e

theorem After.trans {r : GoVal × Option Err} {r' : Heap × Option Err} (s : Step p h F h1 x1 F1) (a : After p h1 F1 r r') : After p h F r r' := by
  obtain ⟨he, v, x, F2, s2, o, hs⟩ := a
  exact ⟨he, v, x, F2, .trans s s2, o, hs⟩

theorem After.eq {r : GoVal × Option Err} {r' : Heap × Option Err} (a : After p h F r r') : r.2 = r'.2 := a.1

end

end GoThrift
