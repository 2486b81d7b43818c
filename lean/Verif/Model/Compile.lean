import Verif.Model.Store
import Verif.Model.Pattern
/-
`Validator::compile` V:556-615: from `model::Pattern` to the pattern store.
-/
namespace Verif
variable {D V : Type} [DecidableEq D] [DecidableEq V]

omit [DecidableEq D] [DecidableEq V] in
/-- V:558-566 (and 567-575, 576-584): the vector is walked from its last element; `unwrap` panics on
an empty vector. -/
def compileVec (c : Pattern D V → SM D V Nat) (op : Nat → Nat → SM D V Nat) :
    List (Pattern D V) → SM D V Nat
  | [] => ST.fault .unwrapNone
  | [p] => c p
  | p :: q :: ps => do
    let right ← compileVec c op (q :: ps)
    let left ← c p
    op left right

/-- V:556-615 `Validator::compile`. -/
def compile (env : Env D V) : Nat → Pattern D V → SM D V Nat
  | 0, _ => ST.fault .fuel
  | n + 1, p =>
    match p with
    | .choice v => compileVec (compile env n) choice v
    | .interleave v => compileVec (compile env n) interleave v
    | .group v => compileVec (compile env n) group v
    | .mixed p => do
      let i ← compile env n p
      mixed i
    | .empty => mkEmpty
    | .text => mkText
    | .notAllowed => notAllowed
    | .optional p => do
      let i ← compile env n p
      let e ← mkEmpty
      choice i e
    | .zeroOrMore p => do
      let i ← compile env n p
      let o ← oneOrMore i
      let e ← mkEmpty
      choice o e
    | .oneOrMore p => do
      let i ← compile env n p
      oneOrMore i
    | .attr nc p => do
      let i ← compile env n p
      mkAttribute nc i
    | .element nc p => do
      let i ← compile env n p
      mkElement nc i
    | .ref r => do
      match ← getRef r with
      | some id => pure id
      | none => do
        let ph ← refPlaceholder r
        match env[r]? with
        | some thing => do
          let id ← compile env n thing
          resolveRef ph id
          pure ph
        | none => ST.fault .missingDef
    | .datatypeValue v => datatypeValue v
    | .datatypeName d => datatypeName d none
    | .datatypeNameExcept d ex => do
      let e ← compile env n ex
      datatypeName d (some e)
    | .list p => do
      let i ← compile env n p
      mkList i

end Verif
