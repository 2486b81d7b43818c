import Verif.Basic
/-
Names and name classes: relaxng-model/src/model.rs `NameClass`, relaxng-validator/src/lib.rs
`contains`, `is_ns_match`.
-/
namespace Verif

/-- model.rs `NameClass`.  `NsName{except}` and `AnyName{except}` with an optional exception are
each split in two constructors (with and without the exception). -/
inductive NameClass where
  | named (ns name : Str)
  | nsName (ns : Str)
  | nsNameExcept (ns : Str) (ex : NameClass)
  | anyName
  | anyNameExcept (ex : NameClass)
  | alt (a b : NameClass)
  deriving DecidableEq, Repr

/-- V:509-513 `QualifiedName`. -/
structure QName where
  ns : Option Str
  loc : Str
  deriving DecidableEq, Repr

/-- V:515-520 `Attr` (source span dropped). -/
structure Attr where
  name : QName
  value : Str
  deriving DecidableEq, Repr

/-- V:467-473 `is_ns_match`. -/
def isNsMatch (uri : Str) (target : Option Str) : Bool :=
  match target with
  | some t => t == uri
  | none => uri.isEmpty

/-- V:474-507 `contains`. -/
def contains : NameClass → QName → Bool
  | .named uri name, t =>
    match t.ns with
    | some tns => tns == uri && t.loc == name
    | none => uri.isEmpty && t.loc == name
  | .nsName uri, t => if isNsMatch uri t.ns then true else false
  | .nsNameExcept uri ex, t => if isNsMatch uri t.ns then !contains ex t else false
  | .anyName, _ => true
  | .anyNameExcept ex, t => !contains ex t
  | .alt a b, t => contains a t || contains b t

end Verif
