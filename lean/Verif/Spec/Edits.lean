import Verif.Spec.Document
import Verif.Spec.WellFormed
/-
Specification: ways of rewriting a document or a schema that should not change the verdict.
-/
namespace Verif

/-- the same content, attributes possibly in another order, at any depth -/
inductive AttrOrder : List XNode → List XNode → Prop
  | nil : AttrOrder [] []
  | same {x xs ys} : AttrOrder xs ys → AttrOrder (x :: xs) (x :: ys)
  | elem {pre loc atts atts' sc kids kids' xs ys} : atts.Perm atts' → AttrOrder kids kids' → AttrOrder xs ys →
      AttrOrder (.elem pre loc atts sc kids :: xs) (.elem pre loc atts' sc kids' :: ys)

/-- `WsInsert xs ys`: `ys` is `xs` with whitespace-only character data inserted in element content, at
any depth (an empty-element tag gets an end tag when it gets content) -/
inductive WsInsert : List XNode → List XNode → Prop
  | nil : WsInsert [] []
  | same {x xs ys} : WsInsert xs ys → WsInsert (x :: xs) (x :: ys)
  | ins {s xs ys} : WsText s → WsInsert xs ys → WsInsert xs (.text s :: ys)
  | elem {pre loc atts sc sc' kids kids' xs ys} : WsInsert kids kids' → (sc' = true → kids' = []) → WsInsert xs ys →
      WsInsert (.elem pre loc atts sc kids :: xs) (.elem pre loc atts sc' kids' :: ys)

/-- the documents differ in the order of attributes only -/
def XDoc.SameButAttrOrder (d d' : XDoc) : Prop :=
  d'.prolog = d.prolog ∧ AttrOrder [d.root] [d'.root]

/-- `d'` is `d` with whitespace inserted between the tags of its root element -/
def XDoc.WsInserted (d d' : XDoc) : Prop :=
  d'.prolog = d.prolog ∧ d'.pre = d.pre ∧ d'.loc = d.loc ∧ d'.atts = d.atts ∧
    WsInsert d.kids d'.kids ∧ (d'.selfClose = true → d'.kids = [])

variable {D V : Type}

mutual
/-- no `data`, `value` or `list` outside attributes -/
def Pattern.noData : Pattern D V → Bool
  | .choice ps => noDataL ps
  | .interleave ps => noDataL ps
  | .group ps => noDataL ps
  | .mixed p => p.noData
  | .optional p => p.noData
  | .zeroOrMore p => p.noData
  | .oneOrMore p => p.noData
  | .attr _ _ => true
  | .element _ p => p.noData
  | .ref _ => true
  | .datatypeNameExcept _ _ => false
  | .list _ => false
  | .empty => true
  | .text => true
  | .notAllowed => true
  | .datatypeValue _ => false
  | .datatypeName _ => false
def noDataL : List (Pattern D V) → Bool
  | [] => true
  | p :: ps => p.noData && noDataL ps
end

/-- `p` and `q` match the same attributes and content, in every grammar -/
def MatchEq (p q : Pattern D V) : Prop := ∀ L env a c, Match L env p a c ↔ Match L env q a c

/-- … pairwise -/
inductive MatchEqL : List (Pattern D V) → List (Pattern D V) → Prop
  | nil : MatchEqL [] []
  | cons {p q ps qs} : MatchEq p q → MatchEqL ps qs → MatchEqL (p :: ps) (q :: qs)

/-- `p` and `q` are the same as exceptions, in every grammar -/
def ExEq (p q : Pattern D V) : Prop := ∀ L env s b, ExMatch L env p s b ↔ ExMatch L env q s b

mutual
/-- no references inside exceptions -/
def Pattern.plainEx : Pattern D V → Bool
  | .choice ps => plainExL ps
  | .interleave ps => plainExL ps
  | .group ps => plainExL ps
  | .mixed p => p.plainEx
  | .optional p => p.plainEx
  | .zeroOrMore p => p.plainEx
  | .oneOrMore p => p.plainEx
  | .attr _ p => p.plainEx
  | .element _ p => p.plainEx
  | .list p => p.plainEx
  | .datatypeNameExcept _ e => e.refs.isEmpty
  | .ref _ => true
  | .empty => true
  | .text => true
  | .notAllowed => true
  | .datatypeValue _ => true
  | .datatypeName _ => true
def plainExL : List (Pattern D V) → Bool
  | [] => true
  | p :: ps => p.plainEx && plainExL ps
end

/-- grammars with pairwise equivalent definitions -/
def EnvEq (env env' : Env D V) : Prop :=
  env.length = env'.length ∧ ∀ (n : Nat) p q, env[n]? = some p → env'[n]? = some q → MatchEq p q

mutual
/-- `q` is `p` with some references replaced by their definitions in `env` -/
inductive Unfolds (env : Env D V) : Pattern D V → Pattern D V → Prop
  | unfold {n q} : env[n]? = some q → Unfolds env (.ref n) q
  | ref {n} : Unfolds env (.ref n) (.ref n)
  | empty : Unfolds env .empty .empty
  | text : Unfolds env .text .text
  | notAllowed : Unfolds env .notAllowed .notAllowed
  | value {v} : Unfolds env (.datatypeValue v) (.datatypeValue v)
  | data {d} : Unfolds env (.datatypeName d) (.datatypeName d)
  | dataExcept {d e e'} : Unfolds env e e' → Unfolds env (.datatypeNameExcept d e) (.datatypeNameExcept d e')
  | choice {ps qs} : UnfoldsL env ps qs → Unfolds env (.choice ps) (.choice qs)
  | group {ps qs} : UnfoldsL env ps qs → Unfolds env (.group ps) (.group qs)
  | interleave {ps qs} : UnfoldsL env ps qs → Unfolds env (.interleave ps) (.interleave qs)
  | mixed {p q} : Unfolds env p q → Unfolds env (.mixed p) (.mixed q)
  | optional {p q} : Unfolds env p q → Unfolds env (.optional p) (.optional q)
  | zeroOrMore {p q} : Unfolds env p q → Unfolds env (.zeroOrMore p) (.zeroOrMore q)
  | oneOrMore {p q} : Unfolds env p q → Unfolds env (.oneOrMore p) (.oneOrMore q)
  | attr {nc p q} : Unfolds env p q → Unfolds env (.attr nc p) (.attr nc q)
  | element {nc p q} : Unfolds env p q → Unfolds env (.element nc p) (.element nc q)
  | list {p q} : Unfolds env p q → Unfolds env (.list p) (.list q)
inductive UnfoldsL (env : Env D V) : List (Pattern D V) → List (Pattern D V) → Prop
  | nil : UnfoldsL env [] []
  | cons {p q ps qs} : Unfolds env p q → UnfoldsL env ps qs → UnfoldsL env (p :: ps) (q :: qs)
end

/-- the grammar `env'` is `env` with some references in its definitions unfolded -/
def UnfoldsEnv (env env' : Env D V) : Prop := UnfoldsL env env env'

end Verif
