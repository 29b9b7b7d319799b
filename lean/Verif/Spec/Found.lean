import Verif.Spec.Partial

/-!
# Which wire type comes next
-/

namespace GoThrift.Spec

/-- After these calls, and whatever was before, a value of this wire type comes next: of a field whose header was read last, or as element, key or value announced by the header of a set, list or map, of which
fewer have been read than there are. -/
inductive Awaits : List Ev → WType → Prop where
  | field (before : List Ev) (h : FieldHeader) : h.type ≠ Ty.stop → Awaits (before ++ [⟨.fieldBegin, h⟩]) h.type
  | set (before : List Ev) (h : SetHeader) {tvs : List TVal} {evs : List Ev} : ReadsElems h.element tvs evs → tvs.length < loopCount h.size → Awaits (before ++ ⟨.setBegin, h⟩ :: evs) h.element
  | list (before : List Ev) (h : SetHeader) {tvs : List TVal} {evs : List Ev} : ReadsElems h.element tvs evs → tvs.length < loopCount h.size → Awaits (before ++ ⟨.listBegin, h⟩ :: evs) h.element
  | key (before : List Ev) (h : MapHeader) {tes : List (TVal × TVal)} {evs : List Ev} : ReadsEntries h.key h.value tes evs → tes.length < loopCount h.size →
      Awaits (before ++ ⟨.mapBegin, h⟩ :: evs) h.key
  | value (before : List Ev) (h : MapHeader) {tes : List (TVal × TVal)} {k : TVal} {evs evs' : List Ev} : ReadsEntries h.key h.value tes evs → tes.length < loopCount h.size → k.ty = h.key →
      Reads k evs' → Awaits (before ++ ⟨.mapBegin, h⟩ :: (evs ++ evs')) h.value

/-- The error says that the wire type `found` is not expected or does not exist. -/
def Names (e : Err) (found : WType) : Prop := e = .invalidType found ∨ ∃ t, e = .semantic .unmarshal found t

end GoThrift.Spec
