import Verif.Spec.Check
import Verif.Model.Datatype
/-
Which datatypes and values a schema asks for, and which of them the datatype libraries answer for.
-/
namespace Verif.Sure
variable {D V : Type}

mutual
/-- the datatypes and values mentioned in a pattern (references are not followed) -/
def asks : Pattern D V → List (D ⊕ V)
  | .datatypeName d => [.inl d]
  | .datatypeNameExcept d e => .inl d :: asks e
  | .datatypeValue v => [.inr v]
  | .choice ps => asksL ps
  | .group ps => asksL ps
  | .interleave ps => asksL ps
  | .mixed p => asks p
  | .optional p => asks p
  | .zeroOrMore p => asks p
  | .oneOrMore p => asks p
  | .attr _ p => asks p
  | .element _ p => asks p
  | .list p => asks p
  | _ => []
def asksL : List (Pattern D V) → List (D ⊕ V)
  | [] => []
  | p :: ps => asks p ++ asksL ps
end

/-- the library answers yes or no, whatever the string -/
def Answers (L : Lib D V) : D ⊕ V → Prop
  | .inl d => ∀ s, L.validD d s ≠ none
  | .inr v => ∀ s, L.validV v s ≠ none

/-- the library answers for all that `start` asks for, itself or in the definitions it uses -/
def Answered (L : Lib D V) (env : Env D V) (start : Pattern D V) : Prop :=
  (∀ a ∈ asks start, Answers L a) ∧ ∀ n, Uses env start n → ∀ q, env[n]? = some q → ∀ a ∈ asks q, Answers L a

/-- all but xsd:NMTOKEN, xsd:NMTOKENS, xsd:token and values of xsd:QName -/
def written : Datatypes ⊕ DatatypeValues → Bool
  | .inl (.xsd (.nmToken _)) => false
  | .inl (.xsd (.nmTokens _)) => false
  | .inl (.xsd (.token _)) => false
  | .inr (.xsd (.qname _)) => false
  | _ => true

/-- the test for that, references followed to the depth `k` -/
def allWritten (env : Env Datatypes DatatypeValues) (k : Nat) (start : Pattern Datatypes DatatypeValues) : Bool :=
  Check.closed env (Check.reach env k start.refs) start && (asks start).all written &&
    (Check.reach env k start.refs).all fun n => match env[n]? with
      | none => true
      | some q => (asks q).all written

end Verif.Sure
