import Verif.Spec.Split
/-
Specification for C97: character data and attribute values replaced by others that the schema does not tell apart.
-/
namespace Verif.Reword
variable {D V : Type}

/-- `l`, a value, datatype or list pattern, stands somewhere in `p`, at any depth, exceptions included, references followed -/
inductive Asks (env : Env D V) : Pattern D V → Pattern D V → Prop
  | value {v} : Asks env (.datatypeValue v) (.datatypeValue v)
  | data {d} : Asks env (.datatypeName d) (.datatypeName d)
  | dataOf {d e} : Asks env (.datatypeNameExcept d e) (.datatypeName d)
  | except {d e l} : Asks env e l → Asks env (.datatypeNameExcept d e) l
  | list {p} : Asks env (.list p) (.list p)
  | inList {p l} : Asks env p l → Asks env (.list p) l
  | element {nc p l} : Asks env p l → Asks env (.element nc p) l
  | attr {nc p l} : Asks env p l → Asks env (.attr nc p) l
  | choice {p ps l} : p ∈ ps → Asks env p l → Asks env (.choice ps) l
  | group {p ps l} : p ∈ ps → Asks env p l → Asks env (.group ps) l
  | interleave {p ps l} : p ∈ ps → Asks env p l → Asks env (.interleave ps) l
  | mixed {p l} : Asks env p l → Asks env (.mixed p) l
  | optional {p l} : Asks env p l → Asks env (.optional p) l
  | zeroOrMore {p l} : Asks env p l → Asks env (.zeroOrMore p) l
  | oneOrMore {p l} : Asks env p l → Asks env (.oneOrMore p) l
  | ref {n p l} : env[n]? = some p → Asks env p l → Asks env (.ref n) l

/-- a value or datatype says the same of `s` and `t`; to a list they consist of the same words -/
def Agree (L : Lib D V) : Pattern D V → Str → Str → Prop
  | .datatypeValue v, s, t => L.validV v s = L.validV v t
  | .datatypeName d, s, t => L.validD d s = L.validD d t
  | .list _, s, t => ∀ ws, Words s ws ↔ Words t ws
  | _, _, _ => True

/-- the schema does not tell `s` and `t` apart: no value, datatype or list in it does, and if one is white space so is the other -/
def Alike (L : Lib D V) (env : Env D V) (start : Pattern D V) (s t : Str) : Prop :=
  (∀ l, Asks env start l → Agree L l s t) ∧ (WsText s ↔ WsText t)

/-- attribute values have been replaced -/
inductive Values (R : Str → Str → Prop) : List Attr → List Attr → Prop
  | nil : Values R [] []
  | same {a as as'} : Values R as as' → Values R (a :: as) (a :: as')
  | value {nm s t as as'} : R s t → Values R as as' → Values R (⟨nm, s⟩ :: as) (⟨nm, t⟩ :: as')

/-- character data and attribute values have been replaced, at any depth -/
inductive Reworded (R : Str → Str → Prop) : List Node → List Node → Prop
  | nil : Reworded R [] []
  | same {n c c'} : Reworded R c c' → Reworded R (n :: c) (n :: c')
  | text {s t c c'} : R s t → Reworded R c c' → Reworded R (.text s :: c) (.text t :: c')
  | elem {nm as as' k k' c c'} : Values R as as' → Reworded R k k' → Reworded R c c' →
      Reworded R (.elem nm as k :: c) (.elem nm as' k' :: c')

end Verif.Reword
