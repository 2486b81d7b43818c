import Verif.Spec.WellFormed
/-
How many patterns a schema has, counted as the validator keeps them.
-/
namespace Verif.Size
variable {D V : Type}

mutual
/-- the patterns written, where `p?` counts for `p | empty`, `p*` for `p+ | empty`, `mixed { p }` for `p & text`, and a choice, group or
interleave of `n` patterns for `n` more than these have; a reference counts nothing -/
def weight : Pattern D V → Nat
  | .choice ps => weightL ps
  | .group ps => weightL ps
  | .interleave ps => weightL ps
  | .mixed p => weight p + 2
  | .optional p => weight p + 2
  | .zeroOrMore p => weight p + 3
  | .oneOrMore p => weight p + 1
  | .attr _ p => weight p + 1
  | .element _ p => weight p + 1
  | .list p => weight p + 1
  | .datatypeNameExcept _ e => weight e + 1
  | .ref _ => 0
  | _ => 1
def weightL : List (Pattern D V) → Nat
  | [] => 0
  | p :: ps => weight p + 1 + weightL ps
end

/-- the patterns of all definitions; each definition counts for one more -/
def weights : Env D V → Nat
  | [] => 0
  | p :: ps => weight p + 1 + weights ps

mutual
/-- the names (on the left) of the elements and (on the right) of the attributes written in a pattern; references are not followed -/
def named : Pattern D V → List (NameClass ⊕ NameClass)
  | .element nc p => .inl nc :: named p
  | .attr nc p => .inr nc :: named p
  | .choice ps => namedL ps
  | .group ps => namedL ps
  | .interleave ps => namedL ps
  | .mixed p => named p
  | .optional p => named p
  | .zeroOrMore p => named p
  | .oneOrMore p => named p
  | .list p => named p
  | .datatypeNameExcept _ e => named e
  | _ => []
def namedL : List (Pattern D V) → List (NameClass ⊕ NameClass)
  | [] => []
  | p :: ps => named p ++ namedL ps
end

/-- an element or attribute of that name is written in `start` or in a definition it uses -/
def Mentions (env : Env D V) (start : Pattern D V) (x : NameClass ⊕ NameClass) : Prop :=
  x ∈ named start ∨ ∃ n q, Uses env start n ∧ env[n]? = some q ∧ x ∈ named q

end Verif.Size
