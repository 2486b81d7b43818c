import Verif.Model.Tool
import Verif.Spec.Spans
/-
Specification: what happens to the documents given to the command line tool.
-/
namespace Verif.Tool
open Verif Loc

section
variable {D V : Type} [DecidableEq D] [DecidableEq V] (L : Lib D V)

/-- every item is accepted -/
def Accepts (n : Nat) (s0 : Loc.State D V) (items : List Loc.Event) : Prop :=
  ∃ s, Loc.runEvents L n items s0 = .ok (List.replicate items.length (.ok ()), s)

/-- the items are accepted up to the item `x`, which comes after `before` and for which the error `e` is reported; this leaves the
validator in the state `s` -/
def RefusesAt (n : Nat) (s0 : Loc.State D V) (items before : List Loc.Event) (x : Loc.Event) (e : Err) (s : Loc.State D V) : Prop :=
  (∃ after, items = before ++ x :: after) ∧
    Loc.runEvents L n (before ++ [x]) s0 = .ok (List.replicate before.length (.ok ()) ++ [.error e], s)

/-- the file can be read, and every item is accepted by a new validator -/
def AcceptsFile (fuel n : Nat) (env : Env D V) (start : Pattern D V) : XmlFile → Prop
  | .unreadable => False
  | .doc _ items => ∃ s0, Loc.newValidator env fuel start = .ok s0 ∧ Accepts L n s0 items
end

/-- The assumption about the emitter of codemap_diagnostic: it prints (does not panic) if the ranges are ranges of whole characters. -/
def Prints (emits : Str → List Diag → Bool) : Prop :=
  ∀ text ds, (∀ d ∈ ds, ∀ b k, d.span = some (b, k) → ∃ l m r, Shows text b k l m r) → emits text ds = true

end Verif.Tool
