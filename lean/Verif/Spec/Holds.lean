import Verif.Spec.TVal

/-!
# "The stream holds a value", "these calls were written"

`Holds r t s s'`: reader `r` in state `s` is positioned at wire value `t`, and reading it leaves `r` in state `s'`.
Stated by the answers the Reader methods give, for any Reader.
-/

namespace GoThrift

open Spec Spec.TVal

/-- A Reader call succeeds with answer `a` and takes state `s` to `s'`. -/
def Gives {S : Type} (r : Rdr S) (o : ROp) (s : S) (a : o.Ans) (s' : S) : Prop := r.step o s = .done (.ok a, s')

mutual
/-- See the head of this file. Strings can be read with ReadString, appended with ReadBytes, or skipped. -/
def Holds {S : Type} (r : Rdr S) : TVal → S → S → Prop
  | .bool v, s, s' => Gives r .bool s v s'
  | .byte v, s, s' => Gives r .byte s v s'
  | .double v, s, s' => Gives r .double s v s'
  | .i16 v, s, s' => Gives r .i16 s v s'
  | .i32 v, s, s' => Gives r .i32 s v s'
  | .i64 v, s, s' => Gives r .i64 s v s'
  | .str _ v, s, s' => Gives r .string s v s' ∧ (∀ buf, Gives r (.bytes buf) s (buf ++ v) s') ∧ Gives r .skipString s () s'
  | .uuid v, s, s' => Gives r .uuid s v s' ∧ Gives r .skipUUID s () s'
  | .struct _ fs, s, s' => ∃ n s1 s2, Gives r .structBegin s n s1 ∧ HoldsFields r fs s1 s2 ∧ Gives r .structEnd s2 () s'
  | .map kt vt es, s, s' => ∃ h s1 s2, Gives r .mapBegin s h s1 ∧ loopCount h.size = es.length ∧
      (es ≠ [] → h.key = kt ∧ h.value = vt) ∧ HoldsEntries r kt vt es s1 s2 ∧ Gives r .mapEnd s2 () s'
  | .set et es, s, s' => ∃ h s1 s2, Gives r .setBegin s h s1 ∧ loopCount h.size = es.length ∧
      h.element = et ∧ HoldsElems r et es s1 s2 ∧ Gives r .setEnd s2 () s'
  | .list et es, s, s' => ∃ h s1 s2, Gives r .listBegin s h s1 ∧ loopCount h.size = es.length ∧
      h.element = et ∧ HoldsElems r et es s1 s2 ∧ Gives r .listEnd s2 () s'
/-- The fields and the stop header. -/
def HoldsFields {S : Type} (r : Rdr S) : List (Bytes × BitVec 16 × TVal) → S → S → Prop
  | [], s, s' => ∃ h, Gives r .fieldBegin s h s' ∧ h.type = Ty.stop
  | (_, id, v) :: fs, s, s' => ∃ n s1 s2 s3, Gives r .fieldBegin s ⟨n, v.ty, id⟩ s1 ∧ Holds r v s1 s2 ∧
      Gives r .fieldEnd s2 () s3 ∧ HoldsFields r fs s3 s'
/-- Map entries. -/
def HoldsEntries {S : Type} (r : Rdr S) (kt vt : WType) : List (TVal × TVal) → S → S → Prop
  | [], s, s' => s' = s
  | (k, v) :: es, s, s' => k.ty = kt ∧ v.ty = vt ∧ ∃ s1 s2, Holds r k s s1 ∧ Holds r v s1 s2 ∧ HoldsEntries r kt vt es s2 s'
/-- List and set elements. -/
def HoldsElems {S : Type} (r : Rdr S) (et : WType) : List TVal → S → S → Prop
  | [], s, s' => s' = s
  | v :: es, s, s' => v.ty = et ∧ ∃ s1, Holds r v s s1 ∧ HoldsElems r et es s1 s'
end

/-- `thriftwire.Skip(r, t)` called in state `s` returns `e` and leaves the reader in state `s'`. (The model of Skip carries a bound
on its recursion depth; "returns" means: with every large enough bound.) -/
def SkipReturns {S : Type} (r : Rdr S) (t : WType) (s : S) (e : Option Err) (s' : S) : Prop :=
  ∃ n, ∀ fuel, n ≤ fuel → (skip fuel t).run r s = .done (e, s')

/-- A sequence of Writer calls succeeds and takes the writer from state `s` to `s'`. -/
def Writes {S : Type} (w : Wtr S) (l : List WOp) (s s' : S) : Prop := (WProg.ofCalls l).run w s = .done (none, s')

/-- A message or a value in a stream. -/
inductive Item where
  | message (h : MessageHeader)
  | value (t : TVal)

/-- The reader answers with these items in order. -/
def HoldsItems {S : Type} (r : Rdr S) : List Item → S → S → Prop
  | [], s, s' => s' = s
  | .message h :: is, s, s' => ∃ s1, Gives r .messageBegin s h s1 ∧ HoldsItems r is s1 s'
  | .value t :: is, s, s' => ∃ s1, Holds r t s s1 ∧ HoldsItems r is s1 s'

/-- The Writer calls for a sequence of items. -/
def itemCalls : List Item → List WOp
  | [] => []
  | .message h :: is => .messageBegin h :: itemCalls is
  | .value t :: is => calls t ++ itemCalls is

end GoThrift
