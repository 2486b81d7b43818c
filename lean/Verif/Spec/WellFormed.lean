import Verif.Spec.Grammar
/-
Specification: which compiled schemas the validation theorems are about.  These are the RELAX NG
restrictions (section 7 of the standard) the derivative algorithm depends on, plus one condition
(`Fresh`) that excludes the one construct for which the implementation's nullability flags go stale.
-/
namespace Verif
variable {D V : Type}

mutual
/-- every reference occurring in a pattern, at any depth -/
def Pattern.refs : Pattern D V → List Nat
  | .choice ps => refsL ps
  | .interleave ps => refsL ps
  | .group ps => refsL ps
  | .mixed p => p.refs
  | .optional p => p.refs
  | .zeroOrMore p => p.refs
  | .oneOrMore p => p.refs
  | .attr _ p => p.refs
  | .element _ p => p.refs
  | .ref n => [n]
  | .datatypeNameExcept _ p => p.refs
  | .list p => p.refs
  | .empty => []
  | .text => []
  | .notAllowed => []
  | .datatypeValue _ => []
  | .datatypeName _ => []
/-- every reference occurring in a list of patterns -/
def refsL : List (Pattern D V) → List Nat
  | [] => []
  | p :: ps => p.refs ++ refsL ps
end

mutual
/-- never simplifies to `notAllowed` or to a bare reference -/
def Pattern.firm : Pattern D V → Bool
  | .choice ps => firmAny ps
  | .group ps => firmAll ps
  | .interleave ps => firmAll ps
  | .mixed p => p.firm
  | .ref _ => false
  | .notAllowed => false
  | _ => true
def firmAny : List (Pattern D V) → Bool
  | [] => false
  | p :: ps => p.firm || firmAny ps
def firmAll : List (Pattern D V) → Bool
  | [] => true
  | p :: ps => p.firm && firmAll ps
end

mutual
/-- never simplifies to `empty` or to a bare reference -/
def Pattern.bulky : Pattern D V → Bool
  | .choice ps => bulkyFirm ps
  | .group ps => bulkyAny ps
  | .interleave ps => bulkyAny ps
  | .optional p => p.firm && p.bulky
  | .ref _ => false
  | .empty => false
  | _ => true
def bulkyFirm : List (Pattern D V) → Bool
  | [] => false
  | p :: ps => (p.firm && p.bulky) || bulkyFirm ps
def bulkyAny : List (Pattern D V) → Bool
  | [] => false
  | p :: ps => p.bulky || bulkyAny ps
end

mutual
/-- the references a pattern may turn out to be nothing but another name for: `n` itself, a choice
whose other branches may all be `notAllowed`, a group whose other members may all be `empty` -/
def Pattern.aliases : Pattern D V → List Nat
  | .ref n => [n]
  | .choice ps => if firmAny ps then [] else aliasesL ps
  | .group ps => if bulkyAny ps then [] else aliasesL ps
  | .interleave ps => if bulkyAny ps then [] else aliasesL ps
  | _ => []
def aliasesL : List (Pattern D V) → List Nat
  | [] => []
  | p :: ps => p.aliases ++ aliasesL ps
end

section
variable (L : Lib D V) (env : Env D V)

/-- `p` mentions definition `n`, directly or through other definitions -/
inductive Uses : Pattern D V → Nat → Prop
  | here {p n} : n ∈ p.refs → Uses p n
  | there {p m q n} : m ∈ p.refs → env[m]? = some q → Uses q n → Uses p n

/-- definition `n` is recursive -/
def Recursive (n : Nat) : Prop := ∃ q, env[n]? = some q ∧ Uses env q n

/-- definition `n` is not just another name for a definition that uses `n` -/
def NotAlias (n : Nat) : Prop :=
  ∀ q m b, env[n]? = some q → m ∈ q.aliases → env[m]? = some b → ¬ Uses env b n

/-- no definition reachable from `start` is just another name for a definition that uses it
(the validator aborts on such schemas) -/
def NoAlias (start : Pattern D V) : Prop := ∀ n, Uses env start n → NotAlias env n

/-- exceptions are choices of values and datatypes -/
inductive ExOK : Pattern D V → Prop
  | value {v} : ExOK (.datatypeValue v)
  | data {d} : ExOK (.datatypeName d)
  | dataExcept {d e} : ExOK e → ExOK (.datatypeNameExcept d e)
  | notAllowed : ExOK .notAllowed
  | choice {ps} : ps ≠ [] → (∀ p ∈ ps, ExOK p) → ExOK (.choice ps)
  | ref {n p} : env[n]? = some p → ExOK p → ExOK (.ref n)

/-- no `list` outside the attributes and child elements of `p` -/
inductive ListFree : Pattern D V → Prop
  | empty : ListFree .empty
  | text : ListFree .text
  | notAllowed : ListFree .notAllowed
  | choice {ps} : (∀ p ∈ ps, ListFree p) → ListFree (.choice ps)
  | group {ps} : (∀ p ∈ ps, ListFree p) → ListFree (.group ps)
  | interleave {ps} : (∀ p ∈ ps, ListFree p) → ListFree (.interleave ps)
  | mixed {p} : ListFree p → ListFree (.mixed p)
  | optional {p} : ListFree p → ListFree (.optional p)
  | zeroOrMore {p} : ListFree p → ListFree (.zeroOrMore p)
  | oneOrMore {p} : ListFree p → ListFree (.oneOrMore p)
  | attr {nc p} : ListFree (.attr nc p)
  | element {nc p} : ListFree (.element nc p)
  | value {v} : ListFree (.datatypeValue v)
  | data {d} : ListFree (.datatypeName d)
  | dataExcept {d e} : ListFree (.datatypeNameExcept d e)
  | ref {n p} : env[n]? = some p → ListFree p → ListFree (.ref n)

/-- no attribute outside the child elements of `p` -/
inductive AttrFree : Pattern D V → Prop
  | empty : AttrFree .empty
  | text : AttrFree .text
  | notAllowed : AttrFree .notAllowed
  | choice {ps} : (∀ p ∈ ps, AttrFree p) → AttrFree (.choice ps)
  | group {ps} : (∀ p ∈ ps, AttrFree p) → AttrFree (.group ps)
  | interleave {ps} : (∀ p ∈ ps, AttrFree p) → AttrFree (.interleave ps)
  | mixed {p} : AttrFree p → AttrFree (.mixed p)
  | optional {p} : AttrFree p → AttrFree (.optional p)
  | zeroOrMore {p} : AttrFree p → AttrFree (.zeroOrMore p)
  | oneOrMore {p} : AttrFree p → AttrFree (.oneOrMore p)
  | element {nc p} : AttrFree (.element nc p)
  | value {v} : AttrFree (.datatypeValue v)
  | data {d} : AttrFree (.datatypeName d)
  | dataExcept {d e} : AttrFree (.datatypeNameExcept d e)
  | list {p} : AttrFree (.list p)
  | ref {n p} : env[n]? = some p → AttrFree p → AttrFree (.ref n)

/-- attributes inside a repeated pattern are not grouped or interleaved with anything
(RELAX NG 7.1.2) -/
inductive RepeatOK : Pattern D V → Prop
  | free {p} : AttrFree env p → RepeatOK p
  | attr {nc p} : RepeatOK (.attr nc p)
  | choice {ps} : (∀ p ∈ ps, RepeatOK p) → RepeatOK (.choice ps)
  | optional {p} : RepeatOK p → RepeatOK (.optional p)
  | zeroOrMore {p} : RepeatOK p → RepeatOK (.zeroOrMore p)
  | oneOrMore {p} : RepeatOK p → RepeatOK (.oneOrMore p)
  | ref {n p} : env[n]? = some p → RepeatOK p → RepeatOK (.ref n)

/-- a reference to definition `n` may stand inside a repetition, attribute or list: `n` is not both
recursive and able to match nothing -/
def Fresh (n : Nat) : Prop := Recursive env n → ¬ Match L env (.ref n) [] []

/-- What a pattern has to satisfy down to (not into) its elements; `Q` is what element contents have
to satisfy.  `c`: also ask for what only completeness needs; `s`: this position is inside a
repetition, an attribute or a list; `l`: `list` may occur here. -/
inductive WF (Q : Pattern D V → Prop) (c : Bool) : Bool → Bool → Pattern D V → Prop
  | empty {s l} : WF Q c s l .empty
  | text {s l} : WF Q c s l .text
  | notAllowed {s l} : WF Q c s l .notAllowed
  | choice {s l ps} : ps ≠ [] → (∀ p ∈ ps, WF Q c s l p) → WF Q c s l (.choice ps)
  | group {s l ps} : ps ≠ [] → (∀ p ∈ ps, WF Q c s l p) → WF Q c s l (.group ps)
  | interleave {s l ps} : ps ≠ [] → (∀ p ∈ ps, WF Q c s l p) → (∀ p ∈ ps, ListFree env p) →
      WF Q c s l (.interleave ps)
  | mixed {s l p} : WF Q c s l p → ListFree env p → WF Q c s l (.mixed p)
  | optional {s l p} : WF Q c s l p → WF Q c s l (.optional p)
  | zeroOrMore {s l p} : WF Q c true l p → (c = true → RepeatOK env p) → WF Q c s l (.zeroOrMore p)
  | oneOrMore {s l p} : WF Q c true l p → (c = true → RepeatOK env p) → WF Q c s l (.oneOrMore p)
  | attr {s l nc p} : WF Q c true true p → WF Q c s l (.attr nc p)
  | element {s l nc p} : Q p → WF Q c s l (.element nc p)
  | ref {s l n p} : env[n]? = some p → WF Q c s l p → (c = true → s = true → Fresh L env n) →
      WF Q c s l (.ref n)
  | value {s l v} : WF Q c s l (.datatypeValue v)
  | data {s l d} : WF Q c s l (.datatypeName d)
  | dataExcept {s l d e} : ExOK env e → WF Q c s l (.datatypeNameExcept d e)
  | list {s p} : WF Q c true false p → WF Q c s true (.list p)

/-- the start pattern is a choice of elements (RELAX NG 7.1.5) -/
inductive StartOK : Pattern D V → Prop
  | element {nc p} : StartOK (.element nc p)
  | notAllowed : StartOK .notAllowed
  | choice {ps} : ps ≠ [] → (∀ p ∈ ps, StartOK p) → StartOK (.choice ps)
  | ref {n p} : env[n]? = some p → StartOK p → StartOK (.ref n)

/-- A well-formed schema: `start` and every element content satisfy `WF`. -/
def SchemaOK (start : Pattern D V) (c : Bool) : Prop :=
  ∃ Q : Pattern D V → Prop, (∀ p, Q p → WF L env Q c false true p) ∧ WF L env Q c false true start

end
end Verif
