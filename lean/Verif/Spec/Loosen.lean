import Verif.Spec.Grammar
import Verif.Spec.WellFormed
/-
Specification for C92: ways to loosen a schema.
-/
namespace Verif.Loosen
variable {D V : Type}

/-- optional members of a sequence -/
inductive MayBeLeftOut : Pattern D V → Prop
  | optional {p} : MayBeLeftOut (.optional p)
  | zeroOrMore {p} : MayBeLeftOut (.zeroOrMore p)

/-- `q` is `p`, or has come from `p` by loosening it as a whole -/
inductive Wider (env : Env D V) (p : Pattern D V) : Pattern D V → Prop
  | refl : Wider env p p
  /-- an alternative is added -/
  | choice {q qs} : Wider env p q → q ∈ qs → Wider env p (.choice qs)
  /-- it is made optional, or repeatable -/
  | optional {q} : Wider env p q → Wider env p (.optional q)
  | oneOrMore {q} : Wider env p q → Wider env p (.oneOrMore q)
  | zeroOrMore {q} : Wider env p q → Wider env p (.zeroOrMore q)
  | repeatable {q} : Wider env p (.optional q) → Wider env p (.zeroOrMore q)
  | omissible {q} : Wider env p (.oneOrMore q) → Wider env p (.zeroOrMore q)
  /-- nothing at all: something that may be left out -/
  | leftOut {q} : Wider env p .empty → MayBeLeftOut q → Wider env p q
  /-- text may stand between its parts -/
  | mixed {q} : Wider env p q → Wider env p (.mixed q)
  /-- it is given a name -/
  | ref {n q} : Wider env p q → env[n]? = some q → Wider env p (.ref n)
  /-- it becomes a sequence, to which members are added that may be left out -/
  | group {q} : Wider env p q → Wider env p (.group [q])
  | member {as bs q} : Wider env p (.group (as ++ bs)) → MayBeLeftOut q → Wider env p (.group (as ++ q :: bs))
  | interleave {q} : Wider env p q → Wider env p (.interleave [q])
  | strand {as bs q} : Wider env p (.interleave (as ++ bs)) → MayBeLeftOut q → Wider env p (.interleave (as ++ q :: bs))
  /-- exceptions are dropped -/
  | noExcept {d e} : Wider env p (.datatypeNameExcept d e) → Wider env p (.datatypeName d)
  /-- instead of something particular, any text -/
  | textEmpty : Wider env p .empty → Wider env p .text
  | textData {d} : Wider env p (.datatypeName d) → Wider env p .text
  | textValue {v} : Wider env p (.datatypeValue v) → Wider env p .text
  | textList {q} : Wider env p (.list q) → Wider env p .text

/-- `q`, in a schema with the definitions `env'`, has come from `p`, in one with the definitions `env`, by loosening parts of it;
definition `n` has become definition `ρ n` -/
inductive Looser (env env' : Env D V) (ρ : Nat → Nat) : Pattern D V → Pattern D V → Prop
  | empty {r} : Wider env' .empty r → Looser env env' ρ .empty r
  | text {r} : Wider env' .text r → Looser env env' ρ .text r
  | notAllowed {r} : Looser env env' ρ .notAllowed r
  | value {v r} : Wider env' (.datatypeValue v) r → Looser env env' ρ (.datatypeValue v) r
  | data {d r} : Wider env' (.datatypeName d) r → Looser env env' ρ (.datatypeName d) r
  | dataExcept {d e r} : e.refs = [] → Wider env' (.datatypeNameExcept d e) r → Looser env env' ρ (.datatypeNameExcept d e) r
  | choice {ps r} : (∀ p ∈ ps, Looser env env' ρ p r) → Looser env env' ρ (.choice ps) r
  | group {ps qs r} : ps.length = qs.length → (∀ (i : Nat) p q, ps[i]? = some p → qs[i]? = some q → Looser env env' ρ p q) →
      Wider env' (.group qs) r → Looser env env' ρ (.group ps) r
  | interleave {ps qs r} : ps.length = qs.length → (∀ (i : Nat) p q, ps[i]? = some p → qs[i]? = some q → Looser env env' ρ p q) →
      Wider env' (.interleave qs) r → Looser env env' ρ (.interleave ps) r
  | mixed {p q r} : Looser env env' ρ p q → Wider env' (.mixed q) r → Looser env env' ρ (.mixed p) r
  | optional {p q r} : Looser env env' ρ p q → Wider env' (.optional q) r → Looser env env' ρ (.optional p) r
  | zeroOrMore {p q r} : Looser env env' ρ p q → Wider env' (.zeroOrMore q) r → Looser env env' ρ (.zeroOrMore p) r
  | oneOrMore {p q r} : Looser env env' ρ p q → Wider env' (.oneOrMore q) r → Looser env env' ρ (.oneOrMore p) r
  | list {p q r} : Looser env env' ρ p q → Wider env' (.list q) r → Looser env env' ρ (.list p) r
  | attr {nc nc' p q r} : (∀ x, nc.Has x → nc'.Has x) → Looser env env' ρ p q → Wider env' (.attr nc' q) r → Looser env env' ρ (.attr nc p) r
  | element {nc nc' p q r} : (∀ x, nc.Has x → nc'.Has x) → Looser env env' ρ p q → Wider env' (.element nc' q) r → Looser env env' ρ (.element nc p) r
  | ref {n r} : Wider env' (.ref (ρ n)) r → Looser env env' ρ (.ref n) r
  | inline {n p r} : env[n]? = some p → Looser env env' ρ p r → Looser env env' ρ (.ref n) r

/-- the schema with the start pattern `start'` and the definitions `env'` is a loosened version of that with `start` and `env` -/
structure Loosened (env env' : Env D V) (start start' : Pattern D V) (ρ : Nat → Nat) : Prop where
  start : Looser env env' ρ start start'
  defs : ∀ n p, env[n]? = some p → ∃ q, env'[ρ n]? = some q ∧ Looser env env' ρ p q

end Verif.Loosen
