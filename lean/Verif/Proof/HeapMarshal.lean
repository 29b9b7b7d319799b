import Verif.Proof.HeapOwn

/-!
# Marshal in memory
-/

namespace GoThrift

open Spec

variable {env : Env} {hz : HMethods} {h : Heap}

mutual
theorem isZero_owns (neg : Bool) : ∀ {v : GoVal} {x : HVal} {F : List Loc}, Owns h v x F → x.isZero neg = v.isZero neg
  | .struct vs, x, F, ho => by
    obtain ⟨xs, rfl, ho⟩ := ho
    rw [HVal.isZero, GoVal.isZero]
    exact allZero_owns neg ho
  | .mapNil, x, F, ho | .sliceNil, x, F, ho | .ptrNil, x, F, ho => by obtain ⟨rfl, _⟩ := ho; rfl
  | .bytes none, x, F, ho => by obtain ⟨rfl, _⟩ := ho; rfl
  | .bytes (some b), x, F, ho => by obtain ⟨s, sp, rfl, _⟩ := ho; rfl
  | .map es, x, F, ho => by obtain ⟨l, xes, G, rfl, _⟩ := ho; rfl
  | .slice es sp, x, F, ho => by obtain ⟨s, xs, ys, G, H, rfl, _⟩ := ho; rfl
  | .ptr v, x, F, ho => by obtain ⟨l, y, G, rfl, _⟩ := ho; rfl
  | .bool _, x, F, ho | .f32 _, x, F, ho | .f64 _, x, F, ho | .i8 _, x, F, ho | .i16 _, x, F, ho | .i32 _, x, F, ho | .i64 _, x, F, ho | .str _, x, F, ho | .uuid _, x, F, ho
  | .other _, x, F, ho => by obtain ⟨rfl, _⟩ := ho; rfl
theorem allZero_owns (neg : Bool) : ∀ {vs : List GoVal} {xs : List HVal} {F : List Loc}, OwnsAll h vs xs F → HVal.allZero neg xs = GoVal.allZero neg vs
  | [], xs, F, ho => by obtain ⟨rfl, _⟩ := ho; rfl
  | v :: vs, xs, F, ho => by
    obtain ⟨y, ys, G, H, rfl, h1, h2, _⟩ := ho
    rw [HVal.allZero, GoVal.allZero, isZero_owns neg h1, allZero_owns neg h2]
end

theorem reportsZero_owns (hm : MethodsAgree env hz) (t : TypeId) {v : GoVal} {x : HVal} {F : List Loc} (ho : Owns h v x F) : hreportsZero env hz t h x = reportsZero env t v := by
  have hm := hm t
  unfold hreportsZero reportsZero
  cases he : env.isZero t with
  | none =>
    cases hh : hz t with
    | none => exact isZero_owns _ ho
    | some m => rw [he, hh] at hm; exact hm.elim
  | some m =>
    cases hh : hz t with
    | none => rw [he, hh] at hm; exact hm.elim
    | some m' =>
      rw [he, hh] at hm
      have := hm h v x F ho
      dsimp only
      cases hk : (env.type t).kind <;> try exact this
      cases v <;> try (obtain ⟨rfl, _⟩ := ho; first | rfl | exact this)
      case struct vs => obtain ⟨xs, rfl, ho⟩ := ho; exact this
      case bytes b => cases b with
        | none => obtain ⟨rfl, _⟩ := ho; exact this
        | some b => obtain ⟨s, sp, rfl, _⟩ := ho; exact this
      case map es => obtain ⟨l, xes, G, rfl, _⟩ := ho; exact this
      case slice es sp => obtain ⟨s, xs, ys, G, H, rfl, _⟩ := ho; exact this
      case ptr v => obtain ⟨l, y, G, rfl, _⟩ := ho; exact this

theorem mapM_byteCells (b : Bytes) : (Heap.byteCells b).mapM HVal.byte? = some b := by
  induction b with
  | nil => rfl
  | cons a b ih =>
    rw [show Heap.byteCells (a :: b) = .lit (.i8 a) :: Heap.byteCells b from rfl, List.mapM_cons, ih]
    rfl

theorem cells_prefix {base : Loc} {xs ys : List HVal} (hc : CellsAt h base (xs ++ ys)) : h.cells base xs.length = some xs := by
  refine cells_of fun i x hi => hc i x ?_
  rw [List.getElem?_append_left (List.getElem?_eq_some_iff.1 hi).1]
  exact hi

theorem hmarshalLeaf_eq (t : TypeId) (l : Leaf) {v : GoVal} {x : HVal} {F : List Loc} (ho : Owns h v x F) : hmarshalLeaf env t h l x = marshalLeaf env t l v := by
  cases v <;> try (obtain ⟨rfl, _⟩ := ho; cases l <;> rfl)
  case struct vs => obtain ⟨xs, rfl, ho⟩ := ho; cases l <;> rfl
  case bytes b => cases b with
    | none => obtain ⟨rfl, _⟩ := ho; cases l <;> rfl
    | some b =>
      obtain ⟨s, sp, rfl, hl, _, hc, _⟩ := ho
      have : h.bytesOf (some s) = some b := by
        rw [Heap.byteCells, List.map_append] at hc
        have := cells_prefix hc
        rw [List.length_map, hl] at this
        rw [Heap.bytesOf, this]
        exact mapM_byteCells b
      cases l <;> try rfl
      rw [hmarshalLeaf, this]; rfl
  case map es => obtain ⟨_, xes, G, rfl, _⟩ := ho; cases l <;> rfl
  case slice es sp => obtain ⟨s, xs, ys, G, H, rfl, _⟩ := ho; cases l <;> rfl
  case ptr v => obtain ⟨_, y, G, rfl, _⟩ := ho; cases l <;> rfl

theorem hmarshalElems_eq {m : HVal → WProg} {m' : GoVal → WProg} (hm : ∀ v x F, Owns h v x F → m x = m' v) (k : WProg) {vs : List GoVal} {xs : List HVal} {F : List Loc}
    (ho : OwnsAll h vs xs F) : hmarshalElems m k xs = marshalElems m' k vs := by
  induction vs generalizing xs F with
  | nil => obtain ⟨rfl, _⟩ := ho; rfl
  | cons v vs ih =>
    obtain ⟨y, ys, G, H, rfl, h1, h2, _⟩ := ho
    rw [hmarshalElems, marshalElems, hm _ _ _ h1, ih h2]

theorem hmarshalEntries_eq {mk mv : HVal → WProg} {mk' mv' : GoVal → WProg} (hk : ∀ v x F, Owns h v x F → mk x = mk' v) (hv : ∀ v x F, Owns h v x F → mv x = mv' v) (k : WProg)
    {es : List (GoVal × GoVal)} {xs : List (HVal × HVal)} {F : List Loc} (ho : OwnsEntries h es xs F) : hmarshalEntries mk mv k xs = marshalEntries mk' mv' k es := by
  induction es generalizing xs F with
  | nil => obtain ⟨rfl, _⟩ := ho; rfl
  | cons e es ih =>
    obtain ⟨a, b⟩ := e
    obtain ⟨y, z, ys, G, G', H, rfl, h1, h2, h3, _⟩ := ho
    rw [hmarshalEntries, marshalEntries, hk _ _ _ h1, hv _ _ _ h2, ih h3]

theorem entries_length {es : List (GoVal × GoVal)} {xs : List (HVal × HVal)} {F : List Loc} (ho : OwnsEntries h es xs F) : xs.length = es.length := by
  induction es generalizing xs F with
  | nil => obtain ⟨rfl, _⟩ := ho; rfl
  | cons e es ih =>
    obtain ⟨a, b⟩ := e
    obtain ⟨y, z, ys, G, G', H, rfl, h1, h2, h3, _⟩ := ho
    rw [List.length_cons, List.length_cons, ih h3]

theorem ownsAll_get {vs : List GoVal} {xs : List HVal} {F : List Loc} (ho : OwnsAll h vs xs F) (i : Nat) :
    (vs[i]? = none ∧ xs[i]? = none) ∨ ∃ v x G, vs[i]? = some v ∧ xs[i]? = some x ∧ Owns h v x G := by
  induction vs generalizing xs F i with
  | nil => obtain ⟨rfl, _⟩ := ho; exact .inl ⟨rfl, rfl⟩
  | cons v vs ih =>
    obtain ⟨y, ys, G, H, rfl, h1, h2, _⟩ := ho
    cases i with
    | zero => exact .inr ⟨v, y, G, rfl, rfl, h1⟩
    | succ i => exact ih h2 i

theorem hmarshalFields_eq (hz' : MethodsAgree env hz) {m : Arsh → HVal → WProg} {m' : Arsh → GoVal → WProg} (hm : ∀ a v x F, Owns h v x F → m a x = m' a v) (t : TypeId) (k : WProg)
    {vs : List GoVal} {xs : List HVal} {F : List Loc} (ho : OwnsAll h vs xs F) (fs : List SField) : hmarshalFields env hz h m t xs k fs = marshalFields env m' t vs k fs := by
  induction fs with
  | nil => rfl
  | cons f fs ih =>
    rw [hmarshalFields, marshalFields, ih]
    rcases ownsAll_get ho f.index with ⟨h1, h2⟩ | ⟨v, x, G, h1, h2, h3⟩
    · rw [h1, h2]
    · rw [h1, h2]
      dsimp only
      rw [reportsZero_owns hz' f.typ h3, hm _ _ _ _ h3]

theorem hmarshal_eq (hz' : MethodsAgree env hz) (fuel : Nat) : ∀ (a : Arsh) (v : GoVal) (x : HVal) (F : List Loc), Owns h v x F → hmarshal env hz h fuel a x = marshal env fuel a v := by
  induction fuel with
  | zero => intro a v x F _; rfl
  | succ fuel ih =>
    intro a v x F ho
    cases a with
    | leaf t l => exact hmarshalLeaf_eq t l ho
    | struct t =>
      unfold hmarshal marshal
      try dsimp only
      refine congrArg (Out.elim _ _ _) (funext fun r => ?_)
      cases r with
      | error e => rfl
      | ok fs =>
        dsimp only
        cases v <;> try (obtain ⟨rfl, _⟩ := ho; rfl)
        case struct vs =>
          obtain ⟨xs, rfl, ho⟩ := ho
          dsimp only [GoVal.fields?]
          rw [hmarshalFields_eq hz' ih t _ ho]
        case bytes b => cases b with
          | none => obtain ⟨rfl, _⟩ := ho; rfl
          | some b => obtain ⟨s, sp, rfl, _⟩ := ho; rfl
        case map es => obtain ⟨l, xes, G, rfl, _⟩ := ho; rfl
        case slice es sp => obtain ⟨s, xs, ys, G, H, rfl, _⟩ := ho; rfl
        case ptr v => obtain ⟨l, y, G, rfl, _⟩ := ho; rfl
    | map t ka ea =>
      unfold hmarshal marshal
      try dsimp only
      split
      · rfl
      · cases v <;> try (obtain ⟨rfl, _⟩ := ho; rfl)
        case struct vs => obtain ⟨xs, rfl, ho⟩ := ho; rfl
        case bytes b => cases b with
          | none => obtain ⟨rfl, _⟩ := ho; rfl
          | some b => obtain ⟨s, sp, rfl, _⟩ := ho; rfl
        case map es =>
          obtain ⟨l, xes, G, rfl, hm, he, _⟩ := ho
          have : h.entriesOf (some l) = some xes := by rw [Heap.entriesOf, Heap.table, hm]
          dsimp only [GoVal.entries?]
          rw [this]
          dsimp only
          rw [hmarshalEntries_eq (ih ka) (ih ea) _ he, entries_length he]
        case slice es sp => obtain ⟨s, xs, ys, G, H, rfl, _⟩ := ho; rfl
        case ptr v => obtain ⟨l, y, G, rfl, _⟩ := ho; rfl
    | seq t isSet ea =>
      unfold hmarshal marshal
      try dsimp only
      split
      · rfl
      · cases v <;> try (obtain ⟨rfl, _⟩ := ho; rfl)
        case struct vs => obtain ⟨xs, rfl, ho⟩ := ho; rfl
        case bytes b => cases b with
          | none => obtain ⟨rfl, _⟩ := ho; rfl
          | some b => obtain ⟨s, sp, rfl, _⟩ := ho; rfl
        case map es => obtain ⟨l, xes, G, rfl, _⟩ := ho; rfl
        case slice es sp =>
          obtain ⟨s, xs, ys, G, H, rfl, hl, _, hc, h1, _⟩ := ho
          have : h.elemsOf (some s) = some xs := by
            rw [Heap.elemsOf, ← hl, ← h1.length]
            exact cells_prefix hc
          dsimp only [GoVal.elems?]
          rw [this]
          dsimp only
          rw [hmarshalSeq, marshalSeq, hmarshalElems_eq (ih ea) _ h1, hmarshalElems_eq (ih ea) _ h1, h1.length]
        case ptr v => obtain ⟨l, y, G, rfl, _⟩ := ho; rfl
    | ptr t ea =>
      unfold hmarshal marshal
      try dsimp only
      cases v <;> try (obtain ⟨rfl, _⟩ := ho; rfl)
      case struct vs => obtain ⟨xs, rfl, ho⟩ := ho; rfl
      case bytes b => cases b with
        | none => obtain ⟨rfl, _⟩ := ho; rfl
        | some b => obtain ⟨s, sp, rfl, _⟩ := ho; rfl
      case map es => obtain ⟨l, xes, G, rfl, _⟩ := ho; rfl
      case slice es sp => obtain ⟨s, xs, ys, G, H, rfl, _⟩ := ho; rfl
      case ptrNil =>
        obtain ⟨rfl, _⟩ := ho
        exact ih _ _ _ _ (owns_zero env h ea.typ)
      case ptr v =>
        obtain ⟨l, y, G, rfl, hm, ho, _⟩ := ho
        dsimp only [GoVal.deref?]
        rw [get_var.2 hm]
        exact ih _ _ _ _ ho
    | invalid t => rfl

theorem HMarshal_eq (hz' : MethodsAgree env hz) (fuel : Nat) (t : TypeId) {v : GoVal} {x : HVal} {F : List Loc} (ho : Owns h v x F) :
    HMarshal env hz fuel (.val t x) h = Marshal env fuel (.val t v) := by
  rw [HMarshal, Marshal]
  cases env.elem? t with
  | none =>
    dsimp only
    exact congrArg (Out.elim _ _ _) (funext fun a => hmarshal_eq hz' fuel a _ _ _ ho)
  | some e =>
    dsimp only
    cases v <;> try (obtain ⟨rfl, _⟩ := ho; rfl)
    case struct vs => obtain ⟨xs, rfl, ho⟩ := ho; rfl
    case bytes b => cases b with
      | none => obtain ⟨rfl, _⟩ := ho; rfl
      | some b => obtain ⟨s, sp, rfl, _⟩ := ho; rfl
    case map es => obtain ⟨l, xes, G, rfl, _⟩ := ho; rfl
    case slice es sp => obtain ⟨s, xs, ys, G, H, rfl, _⟩ := ho; rfl
    case ptr v =>
      obtain ⟨l, y, G, rfl, hm, ho, _⟩ := ho
      dsimp only [GoVal.pointee?]
      rw [get_var.2 hm]
      exact congrArg (Out.elim _ _ _) (funext fun a => hmarshal_eq hz' fuel a _ _ _ ho)

end GoThrift
