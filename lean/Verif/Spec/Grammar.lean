import Verif.Spec.Lex
import Verif.Model.Syntax

/-!
# The grammar of .thrift files

Independent of the parser: which sequences of tokens, with their texts, are which trees.
-/

namespace GoThrift.Spec

open Idl

/-- A token with its text. -/
abbrev Lx := Token × Bytes

/-- Separators: commas and semicolons. -/
def Seps (w : List Lx) : Prop := ∀ t ∈ w, t.1 = Tk.comma ∨ t.1 = Tk.semicolon

/-- Items one after the other. -/
inductive Many {α : Type} (R : α → List Lx → Prop) : List α → List Lx → Prop
  | nil : Many R [] []
  | cons {x : α} {w : List Lx} {xs : List α} {ws : List Lx} : R x w → Many R xs ws → Many R (x :: xs) (w ++ ws)

/-- Items, each followed by separators or none. -/
inductive Items {α : Type} (R : α → List Lx → Prop) : List α → List Lx → Prop
  | nil : Items R [] []
  | cons {x : α} {w s : List Lx} {xs : List α} {ws : List Lx} : R x w → Seps s → Items R xs ws → Items R (x :: xs) (w ++ (s ++ ws))

set_option inductive.autoPromoteIndices false in
/-- A list in brackets. -/
inductive Bracketed {α : Type} (open_ close : Token) (R : α → List Lx → Prop) : List α → List Lx → Prop
  | mk {xs : List α} {a b : Bytes} {w : List Lx} : Items R xs w → Bracketed open_ close R xs ((open_, a) :: (w ++ [(close, b)]))

/-- `name` or `name = "text"` -/
inductive AnnotationG : Annotation → List Lx → Prop
  | bare {n : Bytes} : AnnotationG ⟨n, none⟩ [(Tk.ident, n)]
  | value {n a v : Bytes} : AnnotationG ⟨n, some v⟩ [(Tk.ident, n), (Tk.assign, a), (Tk.string, v)]

/-- Annotations in parentheses, or nothing. -/
inductive AnnotationsG : Annotations → List Lx → Prop
  | none : AnnotationsG none []
  | some {l : List Annotation} {w : List Lx} : Bracketed Tk.lparen Tk.rparen AnnotationG l w → AnnotationsG (some l) w

/-- Types. -/
inductive TypeG : TypeNode → List Lx → Prop
  | map {k v : TypeNode} {an : Annotations} {wk wv wa : List Lx} {a b c d : Bytes} : TypeG k wk → TypeG v wv → AnnotationsG an wa →
      TypeG (.map k v an) ((Tk.map, a) :: (Tk.lss, b) :: (wk ++ (Tk.comma, c) :: (wv ++ (Tk.gtr, d) :: wa)))
  | set {e : TypeNode} {an : Annotations} {we wa : List Lx} {a b c : Bytes} : TypeG e we → AnnotationsG an wa →
      TypeG (.set e an) ((Tk.set, a) :: (Tk.lss, b) :: (we ++ (Tk.gtr, c) :: wa))
  | list {e : TypeNode} {an : Annotations} {we wa : List Lx} {a b c : Bytes} : TypeG e we → AnnotationsG an wa →
      TypeG (.list e an) ((Tk.list, a) :: (Tk.lss, b) :: (we ++ (Tk.gtr, c) :: wa))
  | ref {n : Bytes} {an : Annotations} {wa : List Lx} : AnnotationsG an wa → TypeG (.ref n an) ((Tk.ident, n) :: wa)

/-- `key : value`, over the grammar of values. -/
inductive PairG (V : Value → List Lx → Prop) : Value × Value → List Lx → Prop
  | mk {k v : Value} {wk wv : List Lx} {c : Bytes} : V k wk → V v wv → PairG V (k, v) (wk ++ (Tk.colon, c) :: wv)

/-- Constant values. -/
inductive ValueG : Value → List Lx → Prop
  | ident {x : Bytes} : ValueG (.ident x) [(Tk.ident, x)]
  | int {x : Bytes} : ValueG (.int x) [(Tk.int, x)]
  | float {x : Bytes} : ValueG (.float x) [(Tk.float, x)]
  | string {x : Bytes} : ValueG (.string x) [(Tk.string, x)]
  | list {l : List Value} {w : List Lx} : Bracketed Tk.lbrack Tk.rbrack ValueG l w → ValueG (.list l) w
  | pairs {l : List (Value × Value)} {w : List Lx} :
      Bracketed Tk.lbrace Tk.rbrace (PairG ValueG) l w → ValueG (.pairs l) w

/-- `= value`, or nothing. -/
inductive AssignedG {α : Type} (R : α → List Lx → Prop) : Option α → List Lx → Prop
  | none : AssignedG R none []
  | some {x : α} {a : Bytes} {w : List Lx} : R x w → AssignedG R (some x) ((Tk.assign, a) :: w)

/-- A token and its text. -/
inductive LitG (t : Token) : Bytes → List Lx → Prop
  | mk {x : Bytes} : LitG t x [(t, x)]

/-- A token that may be left out. -/
inductive FlagG (t : Token) : Bool → List Lx → Prop
  | no : FlagG t false []
  | yes {a : Bytes} : FlagG t true [(t, a)]

/-- `name` or `name = 1`, with annotations. -/
inductive EnumValueG : EnumValue → List Lx → Prop
  | mk {n : Bytes} {v : Option Bytes} {an : Annotations} {wv wa : List Lx} : AssignedG (LitG Tk.int) v wv → AnnotationsG an wa →
      EnumValueG ⟨n, v, an⟩ ((Tk.ident, n) :: (wv ++ wa))

/-- `1:`, or nothing. -/
inductive FieldIdG : Option Bytes → List Lx → Prop
  | none : FieldIdG none []
  | some {i c : Bytes} : FieldIdG (some i) [(Tk.int, i), (Tk.colon, c)]

/-- `required`, `optional`, or nothing. -/
inductive RequirednessG : Bool → Bool → List Lx → Prop
  | none : RequirednessG false false []
  | required {a : Bytes} : RequirednessG true false [(Tk.required, a)]
  | optional {a : Bytes} : RequirednessG false true [(Tk.optional, a)]

/-- The name of a field: an identifier or any reserved word. -/
inductive FieldNameG : Bytes → List Lx → Prop
  | ident {n : Bytes} : FieldNameG n [(Tk.ident, n)]
  | word {n : Bytes} {s : String} {t : Token} : (s, t) ∈ reserved → FieldNameG n [(t, n)]

/-- `1: required type & name = value (annotations)` -/
inductive FieldG : Field → List Lx → Prop
  | mk {id : Option Bytes} {req opt ref : Bool} {t : TypeNode} {n : Bytes} {d : Option Value} {an : Annotations} {wi wr wt wf wn wd wa : List Lx} :
      FieldIdG id wi → RequirednessG req opt wr → TypeG t wt → FlagG Tk.and ref wf → FieldNameG n wn → AssignedG ValueG d wd → AnnotationsG an wa →
      FieldG ⟨id, req, opt, t, ref, n, d, an⟩ (wi ++ (wr ++ (wt ++ (wf ++ (wn ++ (wd ++ wa))))))

/-- `void` or a type. -/
inductive ReturnG : Bool → Option TypeNode → List Lx → Prop
  | void {a : Bytes} : ReturnG true none [(Tk.void, a)]
  | type {t : TypeNode} {w : List Lx} : TypeG t w → ReturnG false (some t) w

/-- `throws (fields)`, or nothing. -/
inductive ThrowsG : Option (List Field) → List Lx → Prop
  | none : ThrowsG none []
  | some {l : List Field} {a : Bytes} {w : List Lx} : Bracketed Tk.lparen Tk.rparen FieldG l w → ThrowsG (some l) ((Tk.throws, a) :: w)

/-- `oneway type name (fields) throws (fields) (annotations)` -/
inductive MethodG : Method → List Lx → Prop
  | mk {one void : Bool} {ret : Option TypeNode} {n : Bytes} {args : List Field} {th : Option (List Field)} {an : Annotations} {wo wr wf wt wa : List Lx} :
      FlagG Tk.oneway one wo → ReturnG void ret wr → Bracketed Tk.lparen Tk.rparen FieldG args wf → ThrowsG th wt → AnnotationsG an wa →
      MethodG ⟨one, void, ret, n, args, th, an⟩ (wo ++ (wr ++ (Tk.ident, n) :: (wf ++ (wt ++ wa))))

/-- `extends name`, or nothing. -/
inductive ExtendsG : Option Bytes → List Lx → Prop
  | none : ExtendsG none []
  | some {a n : Bytes} : ExtendsG (some n) [(Tk.extends_, a), (Tk.ident, n)]

/-- `struct`, `union` or `exception`: whether it is a union and whether it is an exception. -/
inductive StructKindG : Bool → Bool → Token → Prop
  | struct : StructKindG false false Tk.struct
  | union : StructKindG true false Tk.union
  | exception : StructKindG false true Tk.exception

/-- Definitions. -/
inductive DefG : Def → List Lx → Prop
  | const {t : TypeNode} {n a b : Bytes} {v : Value} {wt wv s : List Lx} : TypeG t wt → ValueG v wv → Seps s →
      DefG (.const t n v) ((Tk.const, a) :: (wt ++ (Tk.ident, n) :: (Tk.assign, b) :: (wv ++ s)))
  | typedef {t : TypeNode} {n a : Bytes} {an : Annotations} {wt wa s : List Lx} : TypeG t wt → AnnotationsG an wa → Seps s →
      DefG (.typedef t n an) ((Tk.typedef, a) :: (wt ++ (Tk.ident, n) :: (wa ++ s)))
  | enum {n a : Bytes} {l : List EnumValue} {an : Annotations} {wl wa : List Lx} : Bracketed Tk.lbrace Tk.rbrace EnumValueG l wl → AnnotationsG an wa →
      DefG (.enum n l an) ((Tk.enum, a) :: (Tk.ident, n) :: (wl ++ wa))
  | struct {un ex : Bool} {k : Token} {n a : Bytes} {l : List Field} {an : Annotations} {wl wa : List Lx} : StructKindG un ex k →
      Bracketed Tk.lbrace Tk.rbrace FieldG l wl → AnnotationsG an wa → DefG (.struct un ex n l an) ((k, a) :: (Tk.ident, n) :: (wl ++ wa))
  | service {n a : Bytes} {e : Option Bytes} {l : List Method} {an : Annotations} {we wl wa : List Lx} : ExtendsG e we →
      Bracketed Tk.lbrace Tk.rbrace MethodG l wl → AnnotationsG an wa → DefG (.service n e l an) ((Tk.service, a) :: (Tk.ident, n) :: (we ++ (wl ++ wa)))

/-- The tokens that a definition begins with. -/
def defWords : List Token := [Tk.const, Tk.typedef, Tk.enum, Tk.struct, Tk.union, Tk.exception, Tk.service]

/-- The scope of a namespace: `*` or a name. -/
inductive ScopeG : Option Bytes → List Lx → Prop
  | all {a : Bytes} : ScopeG none [(Tk.mul, a)]
  | name {n : Bytes} : ScopeG (some n) [(Tk.ident, n)]

/-- Headers. -/
inductive HeaderG : Header → List Lx → Prop
  | include {a p : Bytes} : HeaderG (.include p) [(Tk.include_, a), (Tk.string, p)]
  | namespace {a n : Bytes} {sc : Option Bytes} {an : Annotations} {ws wa : List Lx} : ScopeG sc ws → AnnotationsG an wa →
      HeaderG (.namespace sc n an) ((Tk.namespace_, a) :: (ws ++ (Tk.ident, n) :: wa))

/-- Files: headers and then definitions. -/
inductive FileG : File → List Lx → Prop
  | mk {hs : List Header} {ds : List Def} {wh wd : List Lx} : Many HeaderG hs wh → Many DefG ds wd → FileG ⟨hs, ds⟩ (wh ++ wd)

/-- A definition without the positions of what was given up. -/
def _root_.GoThrift.Idl.Def.erase : Def → Def
  | .bad _ _ => .bad 0 0
  | d => d

end GoThrift.Spec
