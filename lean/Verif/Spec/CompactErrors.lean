import Verif.Spec.SchemaDiag
/-
Specification: texts that begin like a schema in the compact syntax.
-/
namespace Verif.Rnc
open Verif

/-- `u` is the beginning of (the text of) a schema: it can be continued so that the grammar derives it. -/
def BeginsSchema (u : Str) : Prop := ∃ v s, Schema False s (u ++ v)

/-- the text up to the offset `k`, which is between two characters or at an end, is the beginning of a schema -/
def RightUpTo (t : Str) (k : Nat) : Prop := ∃ u rest, t = u ++ rest ∧ byteLen u = k ∧ BeginsSchema u

end Verif.Rnc

namespace Verif.At
open Verif

/-- What the first label of a syntax error shows: a text that begins between two characters of the file and goes on to its end, and before
it there is the beginning of a schema. -/
def FaultInside (text : Str → Option Str) (s : Span) : Prop :=
  ∃ t u w, text s.file = some t ∧ t = u ++ w ∧ s.lo = byteLen u ∧ s.hi = byteLen t ∧ Rnc.BeginsSchema u

end Verif.At
