import Verif.Proof.HeapOwn

/-!
# Unmarshal on memory without sharing: bools, numbers, strings, byte slices, UUIDs
-/

namespace GoThrift

open Spec

section
variable {p : Place} {h h1 h2 : Heap} {v v1 : GoVal} {x x1 x2 y : HVal} {F F1 F2 : List Loc}

theorem Step.assign (c : Pre p h v x F) (s : Step p h F h1 x1 F1) (o : Owns h1 v1 y F1) : Step p h F (h1.set p y) y F1 ∧ Owns (h1.set p y) v1 y F1 :=
  ⟨s.trans (.set y s.get (fun _ hl => hl) s.nodup), o.congr fun l hl => set_mem_ne _ _ fun he => s.notin c.notin c.lt (he ▸ hl)⟩

theorem Step.of_mem (s : Step p h F h1 x1 F1) (hn : h2.next = h1.next) (hm : h2.mem = h1.mem) : Step p h F h2 x1 F1 where
  next := hn ▸ s.next
  sub := hn ▸ s.sub
  nodup := s.nodup
  get := (get_congr (by rw [hm])).trans s.get
  frame := hm ▸ s.frame

theorem owns_lit {w : GoVal} (o : Owns h v (.lit w) F) : v = w ∧ F = [] := by
  cases v with
  | struct vs => rw [Owns] at o; obtain ⟨xs, hx, _⟩ := o; cases hx
  | map es => rw [Owns] at o; obtain ⟨_, _, _, hx, _⟩ := o; cases hx
  | slice es sp => rw [Owns] at o; obtain ⟨_, _, _, _, _, hx, _⟩ := o; cases hx
  | ptr v => rw [Owns] at o; obtain ⟨_, _, _, hx, _⟩ := o; cases hx
  | bytes b => cases b with
    | none => cases o.1
    | some b => rw [Owns] at o; obtain ⟨_, _, hx, _⟩ := o; cases hx
  | mapNil => cases o.1
  | sliceNil => cases o.1
  | ptrNil => cases o.1
  | _ => obtain ⟨hx, hF⟩ := o; cases hx; exact ⟨rfl, hF⟩

theorem owns_bytes_inv {s : Option SliceRef} (o : Owns h v (.bytes s) F) : ∃ b, v = .bytes b := by
  cases v with
  | struct vs => rw [Owns] at o; obtain ⟨xs, hx, _⟩ := o; cases hx
  | map es => rw [Owns] at o; obtain ⟨_, _, _, hx, _⟩ := o; cases hx
  | slice es sp => rw [Owns] at o; obtain ⟨_, _, _, _, _, hx, _⟩ := o; cases hx
  | ptr v => rw [Owns] at o; obtain ⟨_, _, _, hx, _⟩ := o; cases hx
  | bytes b => exact ⟨b, rfl⟩
  | _ => cases o.1

theorem owns_bytes {b : Option Bytes} (o : Owns h (.bytes b) x F) : ∃ s, x = .bytes s ∧ (b = none ∧ s = none ∧ F = [] ∨ ∃ b' s' spare, b = some b' ∧ s = some s' ∧
    b'.length = s'.len ∧ (b' ++ spare).length = s'.cap ∧ CellsAt h s'.base (Heap.byteCells (b' ++ spare)) ∧ F = List.range' s'.base s'.cap) := by
  cases b with
  | none => exact ⟨none, o.1, .inl ⟨rfl, rfl, o.2⟩⟩
  | some b =>
    rw [Owns] at o
    obtain ⟨s, spare, rfl, h1, h2, h3, h4⟩ := o
    exact ⟨some s, rfl, .inr ⟨b, s, spare, rfl, rfl, h1, h2, h3, h4⟩⟩

theorem byteCells_length (b : Bytes) : (Heap.byteCells b).length = b.length := List.length_map _

theorem junk_length (h : Heap) (n : Nat) : (h.junk n).length = n := by simp [Heap.junk]

theorem cellsAt_fill (h : Heap) (base : Loc) (xs : List HVal) : CellsAt (h.fill base xs) base xs := fun _ _ hi => fill_mem_in h base hi

/-- The array of a byte slice has been overwritten. -/
theorem Step.scribble {b : Option Bytes} {s : Option SliceRef} (c : Pre p h (.bytes b) (.bytes s) F) :
    Step p h F (h.scribble s) (.bytes s) F ∧ ∃ b', Owns (h.scribble s) (.bytes b') (.bytes s) F ∧ Scribbled (.bytes b) (.bytes b') := by
  obtain ⟨s', hs, ⟨rfl, rfl, rfl⟩ | ⟨b', r, spare, rfl, rfl, h1, h2, h3, rfl⟩⟩ := owns_bytes c.owns <;> cases hs
  · exact ⟨.refl c, none, c.owns, .refl _⟩
  · have hl : (Heap.byteCells (h.junk r.cap)).length = r.cap := by rw [byteCells_length, junk_length]
    refine ⟨.other c (Nat.le_refl _) (fun l hl => .inl hl) c.nodup fun l _ hn => fill_mem_out _ _ _ (by rwa [hl]), some ((h.junk r.cap).take r.len), ?_, ?_⟩
    · rw [Owns]
      have hle : r.len ≤ r.cap := by rw [← h2, ← h1, List.length_append]; omega
      refine ⟨r, (h.junk r.cap).drop r.len, rfl, ?_, ?_, ?_, rfl⟩
      · rw [List.length_take, junk_length]; omega
      · rw [List.take_append_drop, junk_length]
      · rw [List.take_append_drop]; exact cellsAt_fill h r.base _
    · refine .bytes _ _ ?_
      rw [List.length_take, junk_length, h1]
      have hle : r.len ≤ r.cap := by rw [← h2, ← h1, List.length_append]; omega
      omega

/-- A new byte slice. -/
theorem newBytes_spec (h : Heap) (b : Bytes) : ∃ n s, (h.newBytes b).2 = some s ∧ (h.newBytes b).1.next = h.next + n ∧ Owns (h.newBytes b).1 (.bytes (some b)) (.bytes (some s)) (List.range' h.next n) ∧
    ∀ l, l < h.next → (h.newBytes b).1.mem l = h.mem l := by
  have hlen : (Heap.byteCells (b ++ (h.used 1).junk (h.oracle 0))).length = b.length + h.oracle 0 := by rw [byteCells_length, List.length_append, junk_length]
  refine ⟨b.length + h.oracle 0, ⟨h.next, b.length, b.length + h.oracle 0⟩, rfl, ?_, ?_, ?_⟩
  · show _ + _ = _
    rw [hlen]; rfl
  · rw [Owns]
    refine ⟨_, (h.used 1).junk (h.oracle 0), rfl, rfl, ?_, ?_, rfl⟩
    · rw [List.length_append, junk_length]
    · exact cellsAt_fill ((h.used 1).used (h.oracle 0)) h.next _
  · intro l hl
    refine fill_mem_out ((h.used 1).used (h.oracle 0)) h.next _ ?_
    rw [List.mem_range'_1]
    omega

theorem Step.newBytes (c : Pre p h v x F) (b : Bytes) (s : Step p h F h1 x F1) : ∃ r F2, (h1.newBytes b).2 = some r ∧ Step p h F (h1.newBytes b).1 x F2 ∧ Owns (h1.newBytes b).1 (.bytes (some b)) (.bytes (some r)) F2 := by
  obtain ⟨n, r, hr, hnext, o, hm⟩ := newBytes_spec h1 b
  refine ⟨r, List.range' h1.next n, hr, ?_, o⟩
  have hlt : p.loc < h1.next := Nat.lt_of_lt_of_le c.lt s.next
  exact {
    next := by rw [hnext]; have := s.next; omega
    sub := fun l hl => by
      rw [List.mem_range'_1] at hl
      rw [hnext]
      have := s.next
      exact .inr (by omega)
    nodup := List.nodup_range' _
    get := (get_congr (hm _ hlt)).trans s.get
    frame := fun l hl hF => (hm l (Nat.lt_of_lt_of_le hl s.next)).trans (s.frame l hl hF) }

theorem Step.appendBytes {b : Option Bytes} {s : Option SliceRef} (c : Pre p h (.bytes b) (.bytes s) F) (w : Bytes) : ∃ F1, Step p h F (h.appendBytes s w).1 (.bytes s) F1 ∧
    Owns (h.appendBytes s w).1 (.bytes (if b.isNone && w.isEmpty then none else some w)) (.bytes (h.appendBytes s w).2) F1 := by
  obtain ⟨s', hs, ⟨rfl, rfl, rfl⟩ | ⟨b', r, spare, rfl, rfl, h1, h2, h3, rfl⟩⟩ := owns_bytes c.owns <;> cases hs
  · cases w with
    | nil => exact ⟨[], .refl c, c.owns⟩
    | cons a w =>
      obtain ⟨r, F2, hr, s2, o2⟩ := Step.newBytes c (a :: w) (.refl c)
      refine ⟨F2, s2, ?_⟩
      show Owns (h.newBytes (a :: w)).1 _ (.bytes (h.newBytes (a :: w)).2) F2
      rw [hr]; exact o2
  · simp only [Option.isNone_some, Bool.false_and, Bool.false_eq_true, if_false, Heap.appendBytes]
    have hs := Step.scribble c
    split
    · rename_i hle
      refine ⟨List.range' r.base r.cap, ?_, ?_⟩
      · refine .other c (Nat.le_refl _) (fun l hl => .inl hl) c.nodup fun l _ hn => ?_
        rw [fill_mem_out]
        · refine fill_mem_out _ _ _ ?_
          rwa [byteCells_length, junk_length]
        · rw [byteCells_length]
          rw [List.mem_range'_1] at hn ⊢
          omega
      · rw [Owns]
        refine ⟨_, (h.junk r.cap).drop w.length, rfl, rfl, ?_, ?_, rfl⟩
        · rw [List.length_append, List.length_drop, junk_length]; simp only; omega
        · intro i z hz
          simp only
          rw [Heap.byteCells, List.map_append, List.getElem?_append] at hz
          split at hz
          · exact fill_mem_in _ _ hz
          · rename_i hi
            rw [fill_mem_out]
            · refine fill_mem_in _ _ ?_
              rw [List.length_map] at hz hi
              rw [List.map_drop, List.getElem?_drop] at hz
              rw [show w.length + (i - w.length) = i by omega] at hz
              exact hz
            · rw [List.length_map] at hi
              rw [byteCells_length, List.mem_range'_1]
              omega
    · obtain ⟨r', F2, hr, s2, o2⟩ := Step.newBytes c w hs.1
      refine ⟨F2, s2, ?_⟩
      rw [hr]; exact o2

theorem hleaf (env : Env) (t : TypeId) (l : Leaf) (wt : WType) (c : Pre p h v x F) : Rel (After p h F) (unmarshalLeaf env t l v wt) (hunmarshalLeaf env t l p wt h) := by
  have lit : ∀ w : GoVal, Owns (h.set p (.lit w)) w (.lit w) [] → After p h F (w, none) (h.set p (.lit w), none) :=
    fun w o => .done o (.set _ c.get (by simp) (by simp)) none
  unfold unmarshalLeaf hunmarshalLeaf
  split
  · exact After.keep c _
  · cases l with
    | bool => exact rcall_rel (fun e => .keep c _) fun a => lit _ ⟨rfl, rfl⟩
    | f32 => exact rcall_rel (fun e => .keep c _) fun a => lit _ ⟨rfl, rfl⟩
    | f64 => exact rcall_rel (fun e => .keep c _) fun a => lit _ ⟨rfl, rfl⟩
    | i8 => exact rcall_rel (fun e => .keep c _) fun a => lit _ ⟨rfl, rfl⟩
    | i16 => exact rcall_rel (fun e => .keep c _) fun a => lit _ ⟨rfl, rfl⟩
    | i32 => exact rcall_rel (fun e => .keep c _) fun a => lit _ ⟨rfl, rfl⟩
    | i64 => exact rcall_rel (fun e => .keep c _) fun a => lit _ ⟨rfl, rfl⟩
    | string => exact rcall_rel (fun e => .keep c _) fun a => lit _ ⟨rfl, rfl⟩
    | uuid =>
      refine rcall_rel (fun e => ?_) fun a => lit _ ⟨rfl, rfl⟩
      unfold Heap.scribbleUUID
      split
      · rename_i b hg
        rw [c.get] at hg
        cases hg
        obtain ⟨rfl, rfl⟩ := owns_lit c.owns
        exact ⟨rfl, .uuid (h.junk 16), _, [], (Step.set (.lit (.uuid (h.junk 16))) c.get (by simp) (by simp)).of_mem rfl rfl, ⟨rfl, rfl⟩, .uuid _ _ (junk_length h 16), fun hn => by cases hn⟩
      · exact .keep c _
    | bytes =>
      simp only
      split
      · rename_i b
        obtain ⟨s, rfl, _⟩ := owns_bytes c.owns
        rw [c.get]
        refine rcall_rel (fun e => ?_) fun w => ?_
        · obtain ⟨s1, b', o, hs⟩ := Step.scribble c
          exact ⟨rfl, _, _, F, s1, o, hs, fun hn => by cases hn⟩
        · obtain ⟨F1, s1, o⟩ := Step.appendBytes c w
          obtain ⟨s2, o2⟩ := s1.assign c o
          exact After.done o2 s2 none
      · rename_i hb
        split
        · rename_i s hg
          rw [c.get] at hg
          cases hg
          obtain ⟨b, rfl⟩ := owns_bytes_inv c.owns
          exact absurd rfl (hb b)
        · trivial

end

end GoThrift
