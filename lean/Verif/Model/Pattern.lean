import Verif.Model.NameClass
/-
The compiled schema: relaxng-model/src/model.rs `Pattern`, `DefineRule`, `PatRef`.
-/
namespace Verif

/-- model.rs `Pattern`.  A `Ref(span, name, PatRef)` is the number of the definition cell it points
to; `DatatypeName{except}` is split in two constructors. -/
inductive Pattern (D V : Type) where
  | choice (ps : List (Pattern D V))
  | interleave (ps : List (Pattern D V))
  | group (ps : List (Pattern D V))
  | mixed (p : Pattern D V)
  | empty
  | text
  | notAllowed
  | optional (p : Pattern D V)
  | zeroOrMore (p : Pattern D V)
  | oneOrMore (p : Pattern D V)
  | attr (nc : NameClass) (p : Pattern D V)
  | element (nc : NameClass) (p : Pattern D V)
  | ref (n : Nat)
  | datatypeValue (v : V)
  | datatypeName (d : D)
  | datatypeNameExcept (d : D) (ex : Pattern D V)
  | list (p : Pattern D V)

/-- All definitions a schema's references point to: cell number ↦ `DefineRule::pattern()`.  A number
out of range is a cell still holding `None`. -/
abbrev Env (D V : Type) := List (Pattern D V)

end Verif
