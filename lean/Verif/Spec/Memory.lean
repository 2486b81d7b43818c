import Verif.Spec.Document
import Verif.Spec.Framing
import Verif.Spec.Grammar
/-
Specification for C78: repetitions, places in a document that look alike, and a schema with ever longer documents.
-/
namespace Verif.Mem
open Verif
variable {D V : Type}

/-- the number of patterns the validator keeps -/
def patterns (s : VState D V) : Nat := s.store.pats.length

/-- the same items again and again -/
def times (k : Nat) (es : List Event) : List Event := (List.replicate k es).flatten

/-- at both places the same is expected, and prefixes and entities mean the same -/
structure SamePlace (s s2 : VState D V) : Prop where
  expected : s2.cur = s.cur
  prefixes : ∀ pre, lookupNs s2.stack pre = lookupNs s.stack pre
  entities : ∀ name, s2.entities.lookup name = s.entities.lookup name

/-- the start tags among the items -/
def starts : List Event → Nat
  | [] => 0
  | some (.elementStart _ _) :: es => starts es + 1
  | _ :: es => starts es

/-! ### `start = element r { element a { empty }*, element a { empty }* }` -/

/-- `element a { empty }` -/
def childPat : Pattern D V := .element (.named [] ['a']) .empty
/-- `element r { element a { empty }*, element a { empty }* }` -/
def twice : Pattern D V := .element (.named [] ['r']) (.group [.zeroOrMore childPat, .zeroOrMore childPat])

/-- `<r><a/><a/>...</r>` with `m` children -/
def longDoc (m : Nat) : XDoc := ⟨[], [], ['r'], [], false, List.replicate m (.elem [] ['a'] [] true []), []⟩

/-- what it means -/
def longNode (m : Nat) : Node := .elem ⟨none, ['r']⟩ [] (List.replicate m (.elem ⟨none, ['a']⟩ [] []))

end Verif.Mem
