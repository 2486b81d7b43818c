import Verif.Model.Validate
/-
Specification for C20: the attribute derivative with the cache taken out.
-/
namespace Verif
variable {D V : Type} [DecidableEq D] [DecidableEq V] (L : Lib D V)

/-- `att_deriv` (V:1084-1137) with its cache removed: every recursive call starts afresh, nothing is
looked up and nothing is remembered. -/
def attPlain : Nat → Nat → Attr → SM D V Nat
  | 0, _, _ => ST.fault .fuel
  | n + 1, pid, att => do
    let pat ← patt pid
    match pat with
    | .after p1 p2 => do
      let d ← attPlain n p1 att
      after d p2
    | .choice p1 p2 _ => do
      let c1 ← attPlain n p1 att
      let c2 ← attPlain n p2 att
      choice c1 c2
    | .group p1 p2 _ => do
      let d1 ← attPlain n p1 att
      let s1 ← group d1 p2
      let d2 ← attPlain n p2 att
      let s2 ← group p1 d2
      choice s1 s2
    | .interleave p1 p2 _ => do
      let d1 ← attPlain n p1 att
      let i1 ← interleave d1 p2
      let d2 ← attPlain n p2 att
      let i2 ← interleave p1 d2
      choice i1 i2
    | .oneOrMore p _ => do
      let s1 ← attPlain n p att
      let e ← mkEmpty
      let s2 ← choice pid e
      group s1 s2
    | .attr nc p => do
      let attPat ← patt p
      if contains nc att.name then do
        let b ← valueMatch L n attPat att.value
        emptyIf b
      else notAllowed
    | _ => notAllowed

/-- the attributes of a start tag, one after the other, up to the first that is not allowed -/
def attsPlain (n : Nat) : Nat → List Attr → SM D V (Except VErr Nat)
  | pid, [] => pure (.ok pid)
  | pid, att :: rest => do
    let d ← attPlain L n pid att
    let p ← patt d
    if p.isNotAllowed then pure (.error (.notAllowed (.attribute (att.name.ns.getD []) att.name.loc att.value)))
    else attsPlain n d rest

end Verif
