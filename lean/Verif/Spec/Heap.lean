import Verif.Model.Heap

/-!
# What a memory holds
-/

namespace GoThrift.Spec

/-! ## References -/

mutual
/-- The value has a reference to `l`: a pointer to it, a map that is there, or a slice with an element, or spare capacity, there. -/
def HVal.Refers : HVal → Loc → Prop
  | .lit _, _ => False
  | .struct fs, l => HVal.RefersAny fs l
  | .map m, l => m = some l
  | .bytes s, l => ∃ r, s = some r ∧ r.base ≤ l ∧ (l < r.base + r.len ∨ l < r.base + r.cap)
  | .slice s, l => ∃ r, s = some r ∧ r.base ≤ l ∧ (l < r.base + r.len ∨ l < r.base + r.cap)
  | .ptr p, l => p = some l
/-- One of the values has. -/
def HVal.RefersAny : List HVal → Loc → Prop
  | [], _ => False
  | x :: xs, l => HVal.Refers x l ∨ HVal.RefersAny xs l
end

/-- What is at an address has a reference to `l`. -/
def MObj.Refers : MObj → Loc → Prop
  | .cell x, l => HVal.Refers x l
  | .table es, l => ∃ e ∈ es, HVal.Refers e.1 l ∨ HVal.Refers e.2 l

/-- From `a` one gets to `l` by following references. -/
inductive LeadsTo (h : Heap) (a : Loc) : Loc → Prop where
  | here : LeadsTo h a a
  | step {l l' : Loc} : LeadsTo h a l → MObj.Refers (h.mem l) l' → LeadsTo h a l'

/-! ## Memory that holds a tree -/

/-- The variables from `base` on hold these values. -/
def CellsAt (h : Heap) (base : Loc) (xs : List HVal) : Prop := ∀ (i : Nat) x, xs[i]? = some x → h.mem (base + i) = .cell x

mutual
/-- `x` is the value `v` in memory `h`, and `F` lists the addresses it consists of, each as often as it is reached. -/
def Owns (h : Heap) : GoVal → HVal → List Loc → Prop
  | .struct vs, x, F => ∃ xs, x = .struct xs ∧ OwnsAll h vs xs F
  | .mapNil, x, F => x = .map none ∧ F = []
  | .map es, x, F => ∃ l xes G, x = .map (some l) ∧ h.mem l = .table xes ∧ OwnsEntries h es xes G ∧ F = l :: G
  | .bytes none, x, F => x = .bytes none ∧ F = []
  | .bytes (some b), x, F => ∃ s spare, x = .bytes (some s) ∧ b.length = s.len ∧ (b ++ spare).length = s.cap ∧ CellsAt h s.base (Heap.byteCells (b ++ spare)) ∧ F = List.range' s.base s.cap
  | .sliceNil, x, F => x = .slice none ∧ F = []
  | .slice es sp, x, F => ∃ s xs ys G H, x = .slice (some s) ∧ es.length = s.len ∧ es.length + sp.length = s.cap ∧ CellsAt h s.base (xs ++ ys) ∧
      OwnsAll h es xs G ∧ OwnsAll h sp ys H ∧ F = List.range' s.base s.cap ++ (G ++ H)
  | .ptrNil, x, F => x = .ptr none ∧ F = []
  | .ptr v, x, F => ∃ l y G, x = .ptr (some l) ∧ h.mem l = .cell y ∧ Owns h v y G ∧ F = l :: G
  | v, x, F => x = .lit v ∧ F = []
/-- See `Owns`. -/
def OwnsAll (h : Heap) : List GoVal → List HVal → List Loc → Prop
  | [], xs, F => xs = [] ∧ F = []
  | v :: vs, xs, F => ∃ y ys G H, xs = y :: ys ∧ Owns h v y G ∧ OwnsAll h vs ys H ∧ F = G ++ H
/-- See `Owns`. -/
def OwnsEntries (h : Heap) : List (GoVal × GoVal) → List (HVal × HVal) → List Loc → Prop
  | [], xs, F => xs = [] ∧ F = []
  | (k, v) :: es, xs, F => ∃ y z ys G G' H, xs = (y, z) :: ys ∧ Owns h k y G ∧ Owns h v z G' ∧ OwnsEntries h es ys H ∧ F = (G ++ G') ++ H
end

/-- The variable at `l` holds the value `v`, and no two parts of it share memory: neither two pointers, nor two slices, nor two maps. `F` lists the addresses of the parts. -/
structure HoldsTree (h : Heap) (l : Loc) (v : GoVal) (F : List Loc) : Prop where
  var : ∃ x, h.mem l = .cell x ∧ Owns h v x F
  nodup : (l :: F).Nodup
  allocated : ∀ l' ∈ l :: F, l' < h.next

/-- `v'` is `v`, but one byte slice may have other bytes, as many as before, or one UUID may be another. -/
inductive Scribbled : GoVal → GoVal → Prop where
  | refl (v : GoVal) : Scribbled v v
  | bytes (b b' : Bytes) : b'.length = b.length → Scribbled (.bytes (some b)) (.bytes (some b'))
  | uuid (b b' : Bytes) : b'.length = 16 → Scribbled (.uuid b) (.uuid b')
  | struct (a b : List GoVal) (v v' : GoVal) : Scribbled v v' → Scribbled (.struct (a ++ v :: b)) (.struct (a ++ v' :: b))
  | slice (a b sp : List GoVal) (v v' : GoVal) : Scribbled v v' → Scribbled (.slice (a ++ v :: b) sp) (.slice (a ++ v' :: b) sp)
  | map (a b : List (GoVal × GoVal)) (k v v' : GoVal) : Scribbled v v' → Scribbled (.map (a ++ (k, v) :: b)) (.map (a ++ (k, v') :: b))
  | ptr (v v' : GoVal) : Scribbled v v' → Scribbled (.ptr v) (.ptr v')

/-- From memory `h`, in which the variable at `l` held a tree with the parts `F`, a call that returned `e` got to memory `h'`, in which the variable holds the tree `v`. If there was an error,
one byte slice or UUID in it may have been overwritten. No memory was touched but that of the tree and new memory. -/
def BecomesTree (h : Heap) (l : Loc) (F : List Loc) (v : GoVal) (e : Option Err) (h' : Heap) : Prop :=
  (∃ v' F', HoldsTree h' l v' F' ∧ Scribbled v v' ∧ (e = none → v' = v) ∧ ∀ l' ∈ F', l' ∈ F ∨ h.next ≤ l') ∧
  h.next ≤ h'.next ∧ ∀ l', l' < h.next → l' ∉ l :: F → h'.mem l' = h.mem l'

/-- `Unmarshal(r, x)` with memory `h` and the reader in state `s` returns `e`; the memory is then `h'` and the reader in state `s'`. -/
def HUnmarshalReturns {S : Type} (env : Env) (r : Rdr S) (x : HAny) (h : Heap) (s : S) (e : Option Err) (h' : Heap) (s' : S) : Prop :=
  ∃ n, ∀ fuel, n ≤ fuel → (HUnmarshal env fuel x h).run r s = .done ((h', e), s')

/-- `Marshal(w, x)` with memory `h` and the writer in state `s` returns `e` and leaves the writer in state `s'`. -/
def HMarshalReturns {S : Type} (env : Env) (hz : HMethods) (w : Wtr S) (x : HAny) (h : Heap) (s : S) (e : Option Err) (s' : S) : Prop :=
  ∃ n, ∀ fuel, n ≤ fuel → (HMarshal env hz fuel x h).run w s = .done (e, s')

/-- The `IsZero` methods answer according to the value, however it lies in memory. -/
def MethodsAgree (env : Env) (hz : HMethods) : Prop := ∀ t, match env.isZero t, hz t with
  | none, none => True
  | some m, some m' => ∀ h v x F, Owns h v x F → m' h x = m v
  | _, _ => False

end GoThrift.Spec
