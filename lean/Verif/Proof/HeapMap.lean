import Verif.Proof.HeapSeq

/-!
# Unmarshal on memory without sharing: maps
-/

namespace GoThrift

open Spec

section
variable {p q : Place} {h h0 h1 h2 : Heap} {v v0 v1 : GoVal} {x x0 x1 x2 y y1 : HVal} {F F0 F1 F2 G G1 A B : List Loc}

/-! ## Keys -/

theorem owns_struct_inv {xs : List HVal} (o : Owns h v (.struct xs) F) : ∃ vs, v = .struct vs ∧ OwnsAll h vs xs F := by
  cases v with
  | struct vs => rw [Owns] at o; obtain ⟨xs, hx, o⟩ := o; cases hx; exact ⟨vs, rfl, o⟩
  | map es => rw [Owns] at o; obtain ⟨_, _, _, hx, _⟩ := o; cases hx
  | slice es sp => rw [Owns] at o; obtain ⟨r, _, _, _, _, hx, _⟩ := o; cases hx
  | ptr v => rw [Owns] at o; obtain ⟨_, _, _, hx, _⟩ := o; cases hx
  | bytes b => cases b with
    | none => cases o.1
    | some b => rw [Owns] at o; obtain ⟨_, _, hx, _⟩ := o; cases hx
  | _ => cases o.1

theorem owns_ptr_inv {m : Option Loc} (o : Owns h v (.ptr m) F) : (v = .ptrNil ∧ m = none ∧ F = []) ∨ ∃ w l y G, v = .ptr w ∧ m = some l ∧ h.mem l = .cell y ∧ Owns h w y G ∧ F = l :: G := by
  cases v with
  | struct vs => rw [Owns] at o; obtain ⟨xs, hx, _⟩ := o; cases hx
  | map es => rw [Owns] at o; obtain ⟨_, _, _, hx, _⟩ := o; cases hx
  | slice es sp => rw [Owns] at o; obtain ⟨r, _, _, _, _, hx, _⟩ := o; cases hx
  | ptr w => rw [Owns] at o; obtain ⟨l, y, G, hx, o⟩ := o; cases hx; exact .inr ⟨w, l, y, G, rfl, rfl, o⟩
  | bytes b => cases b with
    | none => cases o.1
    | some b => rw [Owns] at o; obtain ⟨_, _, hx, _⟩ := o; cases hx
  | ptrNil => obtain ⟨hx, hF⟩ := o; cases hx; exact .inl ⟨rfl, rfl, hF⟩
  | _ => cases o.1

theorem owns_map_inv {m : Option Loc} (o : Owns h v (.map m) F) : (v = .mapNil ∧ m = none ∧ F = []) ∨ ∃ es l xes G, v = .map es ∧ m = some l ∧ h.mem l = .table xes ∧ OwnsEntries h es xes G ∧ F = l :: G := by
  cases v with
  | struct vs => rw [Owns] at o; obtain ⟨xs, hx, _⟩ := o; cases hx
  | map es => rw [Owns] at o; obtain ⟨l, y, G, hx, o⟩ := o; cases hx; exact .inr ⟨es, l, y, G, rfl, rfl, o⟩
  | slice es sp => rw [Owns] at o; obtain ⟨r, _, _, _, _, hx, _⟩ := o; cases hx
  | ptr v => rw [Owns] at o; obtain ⟨_, _, _, hx, _⟩ := o; cases hx
  | bytes b => cases b with
    | none => cases o.1
    | some b => rw [Owns] at o; obtain ⟨_, _, hx, _⟩ := o; cases hx
  | mapNil => obtain ⟨hx, hF⟩ := o; cases hx; exact .inl ⟨rfl, rfl, hF⟩
  | _ => cases o.1

/-- The values that are held as they are. -/
def GoVal.isLit : GoVal → Bool
  | .bool _ | .f32 _ | .f64 _ | .i8 _ | .i16 _ | .i32 _ | .i64 _ | .str _ | .uuid _ | .other _ => true
  | _ => false

theorem owns_isLit {w : GoVal} (o : Owns h v (.lit w) F) : w.isLit = true := by
  obtain ⟨rfl, rfl⟩ := owns_lit o
  cases v with
  | struct vs => rw [Owns] at o; obtain ⟨xs, hx, _⟩ := o; cases hx
  | map es => rw [Owns] at o; obtain ⟨_, _, _, hx, _⟩ := o; cases hx
  | slice es sp => rw [Owns] at o; obtain ⟨_, _, _, _, _, hx, _⟩ := o; cases hx
  | ptr v => rw [Owns] at o; obtain ⟨_, _, _, hx, _⟩ := o; cases hx
  | bytes b => cases b with
    | none => cases o.1
    | some b => rw [Owns] at o; obtain ⟨_, _, hx, _⟩ := o; cases hx
  | mapNil => cases o.1
  | sliceNil => cases o.1
  | ptrNil => cases o.1
  | _ => rfl

theorem keyEq_lit_left {a b : GoVal} (ha : a.isLit = true) (hb : b.isLit = false) : a.keyEq b = false := by
  cases a <;> cases ha <;> cases b <;> first | rfl | cases hb

theorem keyEq_lit_right {a b : GoVal} (ha : a.isLit = false) (hb : b.isLit = true) : a.keyEq b = false := by
  cases b <;> cases hb <;> cases a <;> first | rfl | cases ha

mutual
/-- Keys that share no memory are equal in memory if they are equal as trees. -/
theorem keyEq_owns {h h' : Heap} {k k' : GoVal} {G G' : List Loc} : ∀ {y y' : HVal}, Owns h k y G → Owns h' k' y' G' → (∀ l ∈ G, l ∉ G') → y.keyEq y' = k.keyEq k'
  | .lit a, .lit b, o, o', _ => by
    obtain ⟨rfl, _⟩ := owns_lit o
    obtain ⟨rfl, _⟩ := owns_lit o'
    rw [HVal.keyEq]
  | .struct xs, .struct xs', o, o', hd => by
    obtain ⟨vs, rfl, p⟩ := owns_struct_inv o
    obtain ⟨vs', rfl, p'⟩ := owns_struct_inv o'
    rw [HVal.keyEq, GoVal.keyEq]
    exact keysEq_owns p p' hd
  | .ptr m, .ptr m', o, o', hd => by
    rw [HVal.keyEq]
    rcases owns_ptr_inv o with ⟨rfl, rfl, rfl⟩ | ⟨w, l, y, G, rfl, rfl, _, _, rfl⟩ <;> rcases owns_ptr_inv o' with ⟨rfl, rfl, rfl⟩ | ⟨w', l', y', G', rfl, rfl, _, _, rfl⟩
    · rfl
    · rfl
    · rfl
    · have : l ≠ l' := fun he => hd l (by simp) (by simp [he])
      rw [beq_eq_false_iff_ne.2 (fun he => this (Option.some.inj he))]
      rfl
  | .map m, y', o, o', _ => by
    rw [HVal.keyEq]
    · rcases owns_map_inv o with ⟨rfl, _⟩ | ⟨_, _, _, _, rfl, _⟩ <;> cases k' <;> rfl
    all_goals intros; simp_all
  | .bytes m, y', o, o', _ => by
    rw [HVal.keyEq]
    · obtain ⟨b, rfl⟩ := owns_bytes_inv o; cases k' <;> rfl
    all_goals intros; simp_all
  | .slice m, y', o, o', _ => by
    rw [HVal.keyEq]
    · rcases owns_slice_inv o with ⟨rfl, _⟩ | ⟨_, _, _, rfl, _⟩ <;> cases k' <;> rfl
    all_goals intros; simp_all
  | .lit a, .struct _, o, o', _ => by
    obtain ⟨rfl, _⟩ := owns_lit o
    obtain ⟨vs, rfl, _⟩ := owns_struct_inv o'
    rw [keyEq_lit_left (owns_isLit o) rfl]; rfl
  | .lit a, .ptr _, o, o', _ => by
    obtain ⟨rfl, _⟩ := owns_lit o
    rcases owns_ptr_inv o' with ⟨rfl, _⟩ | ⟨_, _, _, _, rfl, _⟩ <;> rw [keyEq_lit_left (owns_isLit o) rfl] <;> rfl
  | .lit a, .map _, o, o', _ => by
    obtain ⟨rfl, _⟩ := owns_lit o
    rcases owns_map_inv o' with ⟨rfl, _⟩ | ⟨_, _, _, _, rfl, _⟩ <;> rw [keyEq_lit_left (owns_isLit o) rfl] <;> rfl
  | .lit a, .bytes _, o, o', _ => by
    obtain ⟨rfl, _⟩ := owns_lit o
    obtain ⟨b, rfl⟩ := owns_bytes_inv o'
    rw [keyEq_lit_left (owns_isLit o) rfl]; rfl
  | .lit a, .slice _, o, o', _ => by
    obtain ⟨rfl, _⟩ := owns_lit o
    rcases owns_slice_inv o' with ⟨rfl, _⟩ | ⟨_, _, _, rfl, _⟩ <;> rw [keyEq_lit_left (owns_isLit o) rfl] <;> rfl
  | .struct _, .lit b, o, o', _ => by
    obtain ⟨vs, rfl, _⟩ := owns_struct_inv o
    obtain ⟨rfl, _⟩ := owns_lit o'
    rw [keyEq_lit_right rfl (owns_isLit o')]; rfl
  | .struct _, .ptr _, o, o', _ => by
    obtain ⟨vs, rfl, _⟩ := owns_struct_inv o
    rcases owns_ptr_inv o' with ⟨rfl, _⟩ | ⟨_, _, _, _, rfl, _⟩ <;> rfl
  | .struct _, .map _, o, o', _ => by
    obtain ⟨vs, rfl, _⟩ := owns_struct_inv o
    rcases owns_map_inv o' with ⟨rfl, _⟩ | ⟨_, _, _, _, rfl, _⟩ <;> rfl
  | .struct _, .bytes _, o, o', _ => by
    obtain ⟨vs, rfl, _⟩ := owns_struct_inv o
    obtain ⟨b, rfl⟩ := owns_bytes_inv o'
    rfl
  | .struct _, .slice _, o, o', _ => by
    obtain ⟨vs, rfl, _⟩ := owns_struct_inv o
    rcases owns_slice_inv o' with ⟨rfl, _⟩ | ⟨_, _, _, rfl, _⟩ <;> rfl
  | .ptr _, .lit b, o, o', _ => by
    obtain ⟨rfl, _⟩ := owns_lit o'
    rcases owns_ptr_inv o with ⟨rfl, _⟩ | ⟨_, _, _, _, rfl, _⟩ <;> rw [keyEq_lit_right rfl (owns_isLit o')] <;> rfl
  | .ptr _, .struct _, o, o', _ => by
    obtain ⟨vs, rfl, _⟩ := owns_struct_inv o'
    rcases owns_ptr_inv o with ⟨rfl, _⟩ | ⟨_, _, _, _, rfl, _⟩ <;> rfl
  | .ptr _, .map _, o, o', _ => by
    rcases owns_ptr_inv o with ⟨rfl, _⟩ | ⟨_, _, _, _, rfl, _⟩ <;> rcases owns_map_inv o' with ⟨rfl, _⟩ | ⟨_, _, _, _, rfl, _⟩ <;> rfl
  | .ptr _, .bytes _, o, o', _ => by
    obtain ⟨b, rfl⟩ := owns_bytes_inv o'
    rcases owns_ptr_inv o with ⟨rfl, _⟩ | ⟨_, _, _, _, rfl, _⟩ <;> rfl
  | .ptr _, .slice _, o, o', _ => by
    rcases owns_ptr_inv o with ⟨rfl, _⟩ | ⟨_, _, _, _, rfl, _⟩ <;> rcases owns_slice_inv o' with ⟨rfl, _⟩ | ⟨_, _, _, rfl, _⟩ <;> rfl
theorem keysEq_owns {h h' : Heap} {k k' : List GoVal} {G G' : List Loc} : ∀ {y y' : List HVal}, OwnsAll h k y G → OwnsAll h' k' y' G' → (∀ l ∈ G, l ∉ G') → HVal.keysEq y y' = GoVal.keysEq k k'
  | [], [], o, o', _ => by
    cases k with
    | nil => cases k' with
      | nil => rfl
      | cons => have := o'.length; cases this
    | cons => have := o.length; cases this
  | [], _ :: _, o, o', _ => by
    cases k with
    | nil => cases k' with
      | nil => have := o'.length; cases this
      | cons => rfl
    | cons => have := o.length; cases this
  | _ :: _, [], o, o', _ => by
    cases k with
    | nil => have := o.length; cases this
    | cons => cases k' with
      | nil => rfl
      | cons => have := o'.length; cases this
  | y :: ys, y' :: ys', o, o', hd => by
    cases k with
    | nil => have := o.length; cases this
    | cons a as => cases k' with
      | nil => have := o'.length; cases this
      | cons b bs =>
        rw [OwnsAll] at o o'
        obtain ⟨_, _, G1, G2, hx, o1, o2, rfl⟩ := o
        cases hx
        obtain ⟨_, _, G1', G2', hx, o1', o2', rfl⟩ := o'
        cases hx
        rw [HVal.keysEq, GoVal.keysEq, keyEq_owns o1 o1' fun l hl hl' => hd l (by simp [hl]) (by simp [hl']), keysEq_owns o2 o2' fun l hl hl' => hd l (by simp [hl]) (by simp [hl'])]
end

/-- Looking up a key, and overwriting its entry or adding one. -/
theorem entries_cases (env : Env) (et : TypeId) {es : List (GoVal × GoVal)} {xes : List (HVal × HVal)} {k : GoVal} {K : List Loc} (o : OwnsEntries h es xes G) (ok : Owns h k y K) (hd : ∀ l ∈ K, l ∉ G) :
    ∃ vold w Gk Gv a b xa xb A B, (mapIndex k es).getD (env.zero et) = vold ∧ (hmapIndex y xes).getD (env.hzero et) = w ∧ Owns h vold w Gv ∧ G = A ++ ((Gk ++ Gv) ++ B) ∧
      OwnsEntries h a xa A ∧ OwnsEntries h b xb B ∧ (∀ v, setMapIndex k v es = a ++ (k, v) :: b) ∧ ∀ z, hsetMapIndex y z xes = xa ++ (y, z) :: xb := by
  induction es generalizing xes G with
  | nil =>
    obtain ⟨rfl, rfl⟩ := o
    exact ⟨_, _, [], [], [], [], [], [], [], [], rfl, rfl, owns_zero env h et, rfl, ⟨rfl, rfl⟩, ⟨rfl, rfl⟩, fun _ => rfl, fun _ => rfl⟩
  | cons e es ih =>
    obtain ⟨k', v'⟩ := e
    rw [OwnsEntries] at o
    obtain ⟨y', z', ys, Gk, Gv, H, rfl, o1, o2, o3, rfl⟩ := o
    have hk := keyEq_owns ok o1 fun l hl hl' => hd l hl (by simp [hl'])
    cases hb : k.keyEq k' with
    | true =>
      rw [hb] at hk
      refine ⟨v', z', Gk, Gv, [], es, [], ys, [], H, by rw [mapIndex, if_pos hb]; rfl, by rw [hmapIndex, if_pos hk]; rfl, o2, rfl, ⟨rfl, rfl⟩, o3, fun v => ?_, fun z => ?_⟩
      · rw [setMapIndex, if_pos hb]; rfl
      · rw [hsetMapIndex, if_pos hk]; rfl
    | false =>
      rw [hb] at hk
      obtain ⟨vold, w, Gk', Gv', a, b, xa, xb, A, B, e1, e2, ov, rfl, oa, ob, e3, e4⟩ := ih o3 fun l hl hl' => hd l hl (by simp only [List.mem_append] at hl' ⊢; exact .inr hl')
      have hb' : ¬ k.keyEq k' = true := by rw [hb]; simp
      have hk' : ¬ y.keyEq y' = true := by rw [hk]; simp
      refine ⟨vold, w, Gk', Gv', (k', v') :: a, b, (y', z') :: xa, xb, (Gk ++ Gv) ++ A, B, by rw [mapIndex, if_neg hb']; exact e1, by rw [hmapIndex, if_neg hk']; exact e2, ov, by simp,
        .cons o1 o2 oa, ob, fun v => ?_, fun z => ?_⟩
      · rw [setMapIndex, if_neg hb', e3]; rfl
      · rw [hsetMapIndex, if_neg hk', e4]; rfl

/-! ## The loop -/

/-- A change outside, at addresses that were free at the start. -/
theorem Step.extra {T : List Loc} (c : Pre p h0 v0 x0 F0) (s : Step p h0 F0 h x F) (hT : ∀ l ∈ T, h0.next ≤ l) (hn : h.next ≤ h1.next) (hm : ∀ l, l < h.next → l ∉ T → h1.mem l = h.mem l) :
    Step p h0 F0 h1 x F where
  next := Nat.le_trans s.next hn
  sub l hl := (s.sub l hl).imp_right fun h => ⟨h.1, Nat.lt_of_lt_of_le h.2 hn⟩
  nodup := s.nodup
  get := (get_congr (hm _ (Nat.lt_of_lt_of_le c.lt s.next) fun hl => Nat.lt_irrefl _ (Nat.lt_of_lt_of_le c.lt (hT _ hl)))).trans s.get
  frame l hl hF := (hm l (Nat.lt_of_lt_of_le hl s.next) fun hl' => Nat.lt_irrefl _ (Nat.lt_of_lt_of_le hl (hT _ hl'))).trans (s.frame l hl hF)

/-- What the entry loop makes of a map. -/
def AfterMap (p : Place) (h : Heap) (F : List Loc) (r : List (GoVal × GoVal) × Option Err) (r' : Heap × Option Err) : Prop := After p h F (.map r.1, r.2) r'

theorem hmapLoop_rel (env : Env) (kt et : TypeId) {uk uv : GoVal → UProg GoVal} {huk huv : Place → Heap → UProg Heap} (hk : ∀ q h v x F, Pre q h v x F → Rel (After q h F) (uk v) (huk q h))
    (hv : ∀ q h v x F, Pre q h v x F → Rel (After q h F) (uv v) (huv q h)) {k v l : Loc} (c : Pre p h0 v0 x0 F0) (k0 : h0.next ≤ k) (v0 : h0.next ≤ v) (hkv : k ≠ v) (n : Nat)
    (es : List (GoVal × GoVal)) (s : Step p h0 F0 h (.map (some l)) F) (o : Owns h (.map es) (.map (some l)) F) (kn : k < h.next) (vn : v < h.next) (kF : k ∉ F) (vF : v ∉ F)
    (kc : ∃ a, h.mem k = .cell a) (vc : ∃ a, h.mem v = .cell a) :
    Rel (AfterMap p h0 F0) (mapLoop (uk (env.zero kt)) uv (env.zero et) n es) (hmapLoop env kt et p k v huk huv n h) := by
  induction n generalizing es h F with
  | zero => exact After.done o s none
  | succ n ih =>
    rw [mapLoop, hmapLoop]
    obtain ⟨ka, hka⟩ := kc
    obtain ⟨va, hva⟩ := vc
    have hFlt : ∀ m ∈ F, m < h.next := (s.pre c o).alloc
    have ca : Pre ⟨k, []⟩ (h.set ⟨k, []⟩ (env.hzero kt)) (env.zero kt) (env.hzero kt) [] := {
      get := get_set _ (get_var.2 hka)
      owns := owns_zero env _ kt
      nodup := by simp
      notin := by simp
      lt := by rw [set_next]; exact kn
      alloc := by simp }
    refine Rel.andThen (R := After ⟨k, []⟩ (h.set ⟨k, []⟩ (env.hzero kt)) []) (fun x y a => a.eq) (hk _ _ _ _ _ ca) (fun k1 h1 a => ?_) fun k1 h1 e a => ?_
    · -- the key is there
      obtain ⟨_, k2, y, K, sk, ok, _, he⟩ := a
      obtain rfl : k2 = k1 := he rfl
      dsimp only at sk ok
      have hm1 : ∀ m, m < h.next → m ∉ [k] → h1.mem m = h.mem m := fun m hm hk => by
        have hk : m ≠ k := by simpa using hk
        rw [sk.frame m (by rw [set_next]; exact hm) (by simp), set_mem_ne (p := ⟨k, []⟩) _ _ hk, set_mem_ne (p := ⟨k, []⟩) _ _ hk]
      have hn1 : h.next ≤ h1.next := by have := sk.next; rwa [set_next] at this
      have s1 := s.extra (T := [k]) c (by simpa using k0) hn1 hm1
      have o1 : Owns h1 (.map es) (.map (some l)) F := o.congr fun m hm => hm1 m (hFlt m hm) (by simp only [List.mem_singleton]; exact fun he => kF (he ▸ hm))
      have hK : ∀ m ∈ K, h.next ≤ m ∧ m < h1.next := fun m hm => by
        rcases sk.sub m hm with h | h
        · cases h
        · rw [set_next] at h; exact h
      obtain hx | ⟨_, _, xes, G, hx, hl, hl1, oe, rfl⟩ := owns_map_inv o1
      · cases hx.1
      cases hx
      cases hl
      have hent : h1.entriesAt p = some xes := by
        unfold Heap.entriesAt
        rw [s1.get]
        simp only [Heap.table, hl1]
      have hgk : h1.get ⟨k, []⟩ = some y := sk.get
      rw [hgk, orPanic_some, hent, orPanic_some]
      obtain ⟨vold, w, Gk, Gv, a, b, xa, xb, A, B, e1, e2, ov, hG, oa, ob, e3, e4⟩ := entries_cases env et oe ok fun m hm hm' => by
        have := (hK m hm).1
        have := hFlt m (by simp [hm'])
        omega
      rw [e1, e2]
      subst hG
      have nd : ((l :: A) ++ ((Gk ++ Gv) ++ B)).Nodup := s1.nodup
      have nd1 := List.nodup_append.1 nd
      have nd2 := List.nodup_append.1 nd1.2.1
      have nd3 := List.nodup_append.1 nd2.1
      have hGvF : ∀ m ∈ Gv, m ∈ l :: (A ++ ((Gk ++ Gv) ++ B)) := fun m hm => by simp [hm]
      have hvc : h1.mem v = .cell va := (hm1 v vn (by simp; exact hkv.symm)).trans hva
      have cb : Pre ⟨v, []⟩ (h1.set ⟨v, []⟩ w) vold w Gv := {
        get := get_set _ (get_var.2 hvc)
        owns := ov.congr fun m hm => set_mem_ne _ _ fun (he : m = v) => vF (he ▸ hGvF m hm)
        nodup := nd3.2.1
        notin := fun hm => vF (hGvF _ hm)
        lt := by rw [set_next]; exact Nat.lt_of_lt_of_le vn hn1
        alloc := fun m hm => by rw [set_next]; exact Nat.lt_of_lt_of_le (hFlt m (hGvF m hm)) hn1 }
      refine Rel.bind (hv _ _ _ _ _ cb) fun r r' a => ?_
      obtain ⟨v1, e⟩ := r
      obtain ⟨h2, e'⟩ := r'
      obtain ⟨he, v2, z2, V, sv, ovv, sc, hev⟩ := a
      dsimp only at he sv ovv sc hev
      subst he
      have hn2 : h1.next ≤ h2.next := by have := sv.next; rwa [set_next] at this
      have hm2 : ∀ m, m < h1.next → m ≠ v → m ∉ Gv → h2.mem m = h1.mem m := fun m hm hne hG => by
        rw [sv.frame m (by rw [set_next]; exact hm) hG, set_mem_ne (p := ⟨v, []⟩) _ _ hne, set_mem_ne (p := ⟨v, []⟩) _ _ hne]
      have hV : ∀ m ∈ V, m ∈ Gv ∨ (h1.next ≤ m ∧ m < h2.next) := fun m hm => by
        have := sv.sub m hm
        rwa [set_next] at this
      have lF : l ∈ l :: (A ++ ((Gk ++ Gv) ++ B)) := by simp
      have hlne : l ≠ v := fun he => vF (he ▸ lF)
      have hlnk : l ≠ k := fun he => kF (he ▸ lF)
      have hlGv : l ∉ Gv := fun hm => nd1.2.2 l (by simp) l (by simp [hm]) rfl
      have hll : l < h1.next := Nat.lt_of_lt_of_le (hFlt l lF) hn1
      have hl2 : h2.mem l = .table xes := (hm2 l hll hlne hlGv).trans hl1
      have hk2 : h2.mem k = .cell y := (hm2 k (Nat.lt_of_lt_of_le kn hn1) hkv fun hm => kF (hGvF _ hm)).trans (get_var.1 hgk)
      have hgk2 : h2.get ⟨k, []⟩ = some y := get_var.2 hk2
      have hgv2 : h2.get ⟨v, []⟩ = some z2 := sv.get
      have hpl : p.loc < h1.next := Nat.lt_of_lt_of_le c.lt s1.next
      have hp2 : h2.get p = some (.map (some l)) := by
        rw [← s1.get]
        refine get_congr (hm2 _ hpl (fun he => ?_) fun hm => s1.notin c.notin c.lt (hGvF _ hm))
        have := c.lt
        omega
      have hset : h2.setMapIndex p y z2 = some (h2.write l (.table (xa ++ (y, z2) :: xb))) := by
        unfold Heap.setMapIndex
        rw [hp2]
        simp only [Heap.table, hl2, Option.map_some, e4]
      simp only [hgk2, hgv2, orPanic_some, hset]
      -- the map with the new entry
      have hKlt : ∀ m ∈ K, m ∉ Gv := fun m hm hm' => by
        have := (hK m hm).1
        have := hFlt m (hGvF m hm')
        omega
      have hK2 : ∀ m ∈ K, h2.mem m = h1.mem m := fun m hm => hm2 m (hK m hm).2 (fun he => by have := (hK m hm).1; omega) (hKlt m hm)
      have okk : Owns h2 k2 y K := ok.congr hK2
      have nKV : (K ++ V).Nodup := by
        rw [List.nodup_append]
        refine ⟨sk.nodup, sv.nodup, fun m hm m' hm' he => ?_⟩
        subst he
        rcases hV m hm' with h | h
        · exact hKlt m hm h
        · have := (hK m hm).2; omega
      have hKV : ∀ m ∈ K ++ V, m ∈ Gk ++ Gv ∨ h.next ≤ m := fun m hm => by
        rcases List.mem_append.1 hm with hm | hm
        · exact .inr (hK m hm).1
        · rcases hV m hm with h | h
          · exact .inl (by simp [h])
          · exact .inr (by omega)
      have nd3 : ((l :: A) ++ ((K ++ V) ++ B)).Nodup := replace_nodup nd nKV hKV fun m hm => hFlt m (by simpa using hm)
      have hlKV : ∀ m ∈ A ++ ((K ++ V) ++ B), m ≠ l := fun m hm he => by
        rw [List.cons_append, List.nodup_cons] at nd3
        exact nd3.1 (he ▸ hm)
      have hAB : ∀ m, m ∈ A ∨ m ∈ B → (h2.write l (.table (xa ++ (y, z2) :: xb))).mem m = h1.mem m := fun m hm => by
        have hmF : m ∈ l :: (A ++ ((Gk ++ Gv) ++ B)) := by rcases hm with hm | hm <;> simp [hm]
        rw [write_mem_ne _ _ (hlKV m (by rcases hm with hm | hm <;> simp [hm])), hm2 m (Nat.lt_of_lt_of_le (hFlt m hmF) hn1) (fun he => vF (he ▸ hmF))]
        intro hg
        rcases hm with hm | hm
        · exact nd1.2.2 m (by simp [hm]) m (by simp [hg]) rfl
        · exact nd2.2.2 m (by simp [hg]) m hm rfl
      have o3 : Owns (h2.write l (.table (xa ++ (y, z2) :: xb))) (.map (a ++ (k2, v2) :: b)) (.map (some l)) ((l :: A) ++ ((K ++ V) ++ B)) := by
        rw [Owns]
        refine ⟨l, _, A ++ ((K ++ V) ++ B), rfl, write_mem _ _ _, ?_, rfl⟩
        refine (oa.congr fun m hm => hAB m (.inl hm)).append (.cons (okk.congr fun m hm => write_mem_ne _ _ (hlKV m (by simp [hm]))) (ovv.congr fun m hm => write_mem_ne _ _ (hlKV m (by simp [hm])))
          (ob.congr fun m hm => hAB m (.inr hm)))
      have hF3 : ∀ m ∈ (l :: A) ++ ((K ++ V) ++ B), m ∈ l :: (A ++ ((Gk ++ Gv) ++ B)) ∨ (h.next ≤ m ∧ m < h2.next) := fun m hm => by
        have hm : m = l ∨ m ∈ A ∨ m ∈ K ∨ m ∈ V ∨ m ∈ B := by simpa [or_assoc] using hm
        rcases hm with hm | hm | hm | hm | hm
        · exact .inl (by simp [hm])
        · exact .inl (by simp [hm])
        · have := hK m hm; exact .inr (by omega)
        · rcases hV m hm with h | h
          · exact .inl (by simp [h])
          · exact .inr (by omega)
        · exact .inl (by simp [hm])
      have s3 : Step p h0 F0 (h2.write l (.table (xa ++ (y, z2) :: xb))) (.map (some l)) ((l :: A) ++ ((K ++ V) ++ B)) := {
        next := Nat.le_trans s1.next hn2
        sub := fun m hm => by
          rcases hF3 m hm with h | h
          · rcases s1.sub m h with h | h
            · exact .inl h
            · exact .inr ⟨h.1, Nat.lt_of_lt_of_le h.2 hn2⟩
          · exact .inr ⟨Nat.le_trans s.next h.1, h.2⟩
        nodup := nd3
        get := by
          rw [← hp2]
          exact get_congr (write_mem_ne _ _ fun he => s1.notin c.notin c.lt (he ▸ lF))
        frame := fun m hm hmF => by
          have hmF1 : m ∉ l :: (A ++ ((Gk ++ Gv) ++ B)) := fun hm' => by
            rcases s1.sub m hm' with h | h
            · exact hmF h
            · omega
          rw [write_mem_ne _ _ (fun (he : m = l) => hmF1 (he ▸ lF)), hm2 m (Nat.lt_of_lt_of_le hm s1.next) (fun he => by omega) fun hg => hmF1 (hGvF m hg)]
          exact s1.frame m hm hmF }
      cases e with
      | some e =>
        refine ⟨rfl, _, _, _, s3, o3, ?_, fun hn => by cases hn⟩
        rw [e3]
        exact .map a b k2 v1 v2 sc
      | none =>
        obtain rfl : v2 = v1 := hev rfl
        simp only
        rw [e3]
        have hnew : ∀ m, m < h.next → m ∉ l :: (A ++ ((Gk ++ Gv) ++ B)) → m ∉ (l :: A) ++ ((K ++ V) ++ B) := fun m hm hF hm' => by
          rcases hF3 m hm' with h | h
          · exact hF h
          · omega
        exact ih _ s3 o3 (Nat.lt_of_lt_of_le kn (Nat.le_trans hn1 hn2)) (Nat.lt_of_lt_of_le vn (Nat.le_trans hn1 hn2)) (hnew k kn kF) (hnew v vn vF)
          ⟨y, (write_mem_ne _ _ hlnk.symm).trans hk2⟩ ⟨z2, (write_mem_ne _ _ hlne.symm).trans (get_var.1 hgv2)⟩
    · -- the key could not be read
      obtain ⟨_, k2, y, K, sk, ok, _, he⟩ := a
      dsimp only at sk ok
      have hm1 : ∀ m, m < h.next → m ∉ [k] → h1.mem m = h.mem m := fun m hm hk => by
        have hk : m ≠ k := by simpa using hk
        rw [sk.frame m (by rw [set_next]; exact hm) (by simp), set_mem_ne (p := ⟨k, []⟩) _ _ hk, set_mem_ne (p := ⟨k, []⟩) _ _ hk]
      have hn1 : h.next ≤ h1.next := by have := sk.next; rwa [set_next] at this
      have s1 := s.extra (T := [k]) c (by simpa using k0) hn1 hm1
      exact After.done (o.congr fun m hm => hm1 m (hFlt m hm) (by simp only [List.mem_singleton]; exact fun he => kF (he ▸ hm))) s1 _

theorem alloc_next (h : Heap) (ob : MObj) : (h.alloc ob).1.next = h.next + 1 := rfl

theorem alloc_mem (h : Heap) (ob : MObj) : (h.alloc ob).1.mem h.next = ob := write_mem _ _ _

theorem alloc_mem_lt (h : Heap) (ob : MObj) {l : Loc} (hl : l < h.next) : (h.alloc ob).1.mem l = h.mem l := write_mem_ne _ _ (Nat.ne_of_lt hl)

theorem Step.alloc (c : Pre p h0 v0 x0 F0) (s : Step p h0 F0 h x F) (o : Owns h v x F) (ob : MObj) : Step p h0 F0 (h.alloc ob).1 x F ∧ Owns (h.alloc ob).1 v x F :=
  ⟨s.extra (T := []) c (by simp) (Nat.le_succ _) fun _ hl _ => alloc_mem_lt h ob hl, o.congr fun l hl => alloc_mem_lt h ob ((s.pre c o).alloc l hl)⟩

/-- A map that is not nil. -/
theorem Step.makeMap {es : List (GoVal × GoVal)} {m : Option Loc} (c : Pre p h v (.map m) F) (he : v.entries? = some es) :
    ∃ l F1, Step p h F (h.makeMap p m) (.map (some l)) F1 ∧ Owns (h.makeMap p m) (.map es) (.map (some l)) F1 := by
  rcases owns_map_inv c.owns with ⟨rfl, rfl, rfl⟩ | ⟨es', l, xes, G, rfl, rfl, hl, oe, rfl⟩
  · cases he
    have s1 : Step p h [] (h.alloc (.table [])).1 (.map none) [h.next] := .other c (Nat.le_succ _) (fun l hl => .inr (by
      obtain rfl : l = h.next := by simpa using hl
      exact ⟨Nat.le_refl _, Nat.lt_succ_self _⟩)) (by simp) fun l hl _ => alloc_mem_lt h _ hl
    have := s1.assign (v1 := .map []) (y := .map (some h.next)) c ⟨h.next, [], [], rfl, alloc_mem h _, ⟨rfl, rfl⟩, rfl⟩
    exact ⟨_, _, this⟩
  · cases he
    exact ⟨l, _, .refl c, c.owns⟩

theorem hunmarshalMap_rel (env : Env) (t kt et : TypeId) {uk uv : WType → GoVal → UProg GoVal} {huk huv : WType → Place → Heap → UProg Heap}
    (hk : ∀ wt q h v x F, Pre q h v x F → Rel (After q h F) (uk wt v) (huk wt q h)) (hv : ∀ wt q h v x F, Pre q h v x F → Rel (After q h F) (uv wt v) (huv wt q h)) (wt : WType)
    (c : Pre p h v x F) : Rel (After p h F) (unmarshalMap env t kt et uk uv v wt) (hunmarshalMap env t kt et huk huv p wt h) := by
  have fin : ∀ h1 v1 x1 F1, Step p h F h1 x1 F1 → Owns h1 v1 x1 F1 →
      Rel (After p h F) (rcall "ReadMapEnd" Ty.map t .mapEnd v1 fun _ => .ret (v1, none)) (rcall "ReadMapEnd" Ty.map t .mapEnd h1 fun _ => .ret (h1, none)) :=
    fun h1 v1 x1 F1 st ow => rcall_rel (fun e => .done ow st _) fun _ => After.done ow st none
  unfold unmarshalMap hunmarshalMap
  split
  · exact After.keep c _
  · rw [c.get]
    cases he : v.entries? with
    | none =>
      cases x with
      | map m => rcases owns_map_inv c.owns with ⟨rfl, _⟩ | ⟨_, _, _, _, rfl, _⟩ <;> cases he
      | _ => trivial
    | some es =>
      obtain ⟨m, rfl⟩ : ∃ m, x = .map m := by
        cases v with
        | mapNil => exact ⟨_, c.owns.1⟩
        | map es => have := c.owns; rw [Owns] at this; obtain ⟨_, _, _, hx, _⟩ := this; exact ⟨_, hx⟩
        | _ => cases he
      refine rcall_rel (fun e => .keep c _) fun hd => ?_
      simp only
      split
      · obtain ⟨l, F1, s1, o1⟩ := Step.makeMap c he
        obtain ⟨s2, o2⟩ := s1.alloc c o1 (.cell (env.hzero kt))
        obtain ⟨s3, o3⟩ := s2.alloc c o2 (.cell (env.hzero et))
        have c1 := s1.pre c o1
        have hlt : ∀ l ∈ F1, l < (h.makeMap p m).next := c1.alloc
        refine Rel.andThen (R := AfterMap p h F) (fun x y a => a.eq)
          (hmapLoop_rel env kt et (hk hd.key) (hv hd.value) c s1.next (Nat.le_trans s1.next (Nat.le_succ _)) (Nat.ne_of_lt (Nat.lt_succ_self _)) _ es s3 o3
            (Nat.lt_succ_of_lt (Nat.lt_succ_self _)) (Nat.lt_succ_self _) (fun hm => Nat.lt_irrefl _ (hlt _ hm)) (fun hm => Nat.lt_irrefl _ (Nat.lt_of_succ_lt (hlt _ hm)))
            ⟨env.hzero kt, (alloc_mem_lt _ _ (Nat.lt_succ_self _)).trans (alloc_mem _ _)⟩ ⟨env.hzero et, alloc_mem _ _⟩)
          (fun a b hr => ?_) fun a b e hr => hr
        obtain ⟨_, v2, x2, F2, st2, ow2, _, hv2⟩ := hr
        rw [hv2 rfl] at ow2
        exact fin _ _ _ _ st2 ow2
      · exact fin _ _ _ _ (.refl c) c.owns

end

end GoThrift
