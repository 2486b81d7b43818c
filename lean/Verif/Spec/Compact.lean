import Verif.Model.Source
import Verif.Spec.Datatype
/-
Specification: the compact schema syntax, as a grammar (relations between trees and texts).  It follows the grammar of
the RELAX NG compact syntax, with the readings of this program: a quoted identifier keeps its backslash, operators
associate to the right and do not bind more or less tightly than each other, the pattern after `-` extends as far as
possible, and a name that begins with `string` or `token` cannot be used as a reference (or as a datatype prefix).
Nothing here mentions parsers.

The parameter `strict` excludes three kinds of text.  As `-` is a name character, a datatype name and a `-` need something
between them; if not `strict`, this holds for names with prefix only.  Where nothing but white space can come between two literals, that white
space may be left out; if `strict`, it may not.  (An empty literal and a quote after it look like the beginning of a literal
in triple quotes.)  Finally, if `strict`, a schema that consists of a pattern does not begin like an annotation.  (What looks like
an annotation is read as the first entry of a grammar, see `Ex.C58_case_annotated_name`.)
-/
namespace Verif.Rnc
open Verif

/-- white space and comments, possibly none; a comment ends with its line -/
inductive Gap : Str → Prop
  | nil : Gap []
  | space {c s} : c = ' ' ∨ c = '\t' ∨ c = '\r' ∨ c = '\n' → Gap s → Gap (c :: s)
  | comment {body s} : (∀ c ∈ body, c ≠ '\r' ∧ c ≠ '\n') → Gap s → Gap ('#' :: (body ++ '\n' :: s))
  | commentCr {body s} : (∀ c ∈ body, c ≠ '\r' ∧ c ≠ '\n') → Gap s → Gap ('#' :: (body ++ '\r' :: '\n' :: s))

/-- at least one space or comment -/
def Sep (s : Str) : Prop := Gap s ∧ s ≠ []

/-- the keywords -/
def Keyword (s : Str) : Prop :=
  s ∈ ["attribute", "default", "datatypes", "div", "element", "empty", "external", "grammar", "include", "inherit", "list",
    "mixed", "namespace", "notAllowed", "parent", "start", "string", "text", "token"].map String.toList

/-- identifiers: names that are no keywords, and keywords after a backslash -/
inductive Ident : Str → Prop
  | plain {s} : NCName s → ¬ Keyword s → Ident s
  | quoted {s} : Keyword s → Ident ('\\' :: s)

/-- identifiers and keywords -/
inductive AnyIdent : Str → Prop
  | ident {s} : Ident s → AnyIdent s
  | keyword {s} : Keyword s → AnyIdent s

/-- names that can be used as references and as datatype prefixes -/
def Referable (s : Str) : Prop := ¬ "string".toList <+: s ∧ ¬ "token".toList <+: s

/-- the body of a literal in triple quotes `q`: no three of them in a row, none at the end -/
inductive Body3 (q : Char) : Str → Prop
  | nil : Body3 q []
  | zero {c s} : c ≠ q → Body3 q s → Body3 q (c :: s)
  | one {c s} : c ≠ q → Body3 q s → Body3 q (q :: c :: s)
  | two {c s} : c ≠ q → Body3 q s → Body3 q (q :: q :: c :: s)

/-- one piece of a literal; the first argument is its value -/
inductive Segment : Str → Str → Prop
  | single {q body} : q = '"' ∨ q = '\'' → (∀ c ∈ body, c ≠ q ∧ c ≠ '\n') → Segment body (q :: (body ++ [q]))
  | triple {q body} : q = '"' ∨ q = '\'' → Body3 q body → Segment body (q :: q :: q :: (body ++ [q, q, q]))

/-- literals: pieces joined by `~` -/
inductive Literal : Str → Str → Prop
  | one {v s} : Segment v s → Literal v s
  | more {v s g g' w t} : Segment v s → Gap g → Gap g' → Literal w t → Literal (v ++ w) (s ++ g ++ '~' :: g' ++ t)

/-- a list of things separated by white space -/
inductive SepBy {α : Type} (R : α → Str → Prop) : List α → Str → Prop
  | nil : SepBy R [] []
  | one {a s} : R a s → SepBy R [a] s
  | cons {a s g b as t} : R a s → Sep g → SepBy R (b :: as) t → SepBy R (a :: b :: as) (s ++ g ++ t)

/-! ### annotations -/

/-- names of annotations, elements and attributes -/
inductive Name : SNameClass → Str → Prop
  | ident {s} : AnyIdent s → Name (.ident s) s
  | cname {p l} : NCName p → NCName l → Name (.cname p l) (p ++ ':' :: l)

/-- `name = "value"` -/
inductive AnnAttr : Unit → Str → Prop
  | mk {n s g g' v t} : Name n s → Gap g → Gap g' → Literal v t → AnnAttr () (s ++ g ++ '=' :: g' ++ t)

/-- a literal may not be followed by a quote if `strict` -/
def Apart (strict : Prop) (g u : Str) : Prop := strict → g = [] → ∀ q cs, u = q :: cs → q ≠ '"' ∧ q ≠ '\''

section
variable (strict : Prop)

mutual
/-- `name [ attributes, then elements and literals ]` -/
inductive AnnElem : Unit → Str → Prop
  | mk {n s g1 g2 as t1 g3 es t2 g4} : Name n s → Gap g1 → Gap g2 → SepBy AnnAttr as t1 → Gap g3 → SepBy AnnPart es t2 → Gap g4 →
      as = [] ∨ Apart strict g3 t2 → AnnElem () (s ++ g1 ++ '[' :: g2 ++ t1 ++ g3 ++ t2 ++ g4 ++ [']'])
/-- what an annotation element contains -/
inductive AnnPart : Unit → Str → Prop
  | elem {s} : AnnElem () s → AnnPart () s
  | literal {v s} : Literal v s → AnnPart () s
end

/-- `[ attributes, then elements ]` -/
inductive Initial : Str → Prop
  | mk {g1 as t1 g2 es t2 g3} : Gap g1 → SepBy AnnAttr as t1 → Gap g2 → SepBy (AnnElem strict) es t2 → Gap g3 →
      Initial ('[' :: g1 ++ t1 ++ g2 ++ t2 ++ g3 ++ [']'])

/-- an optional initial annotation -/
inductive Init : Str → Prop
  | none : Init []
  | some {s g} : Initial strict s → Gap g → Init (s ++ g)

/-- any number of `>> element` -/
inductive Follow : Str → Prop
  | nil : Follow []
  | cons {g g' s t} : Gap g → Gap g' → AnnElem strict () s → Follow t → Follow (g ++ '>' :: '>' :: g' ++ s ++ t)

/-! ### name classes -/

mutual
/-- name classes; only with an initial annotation may other annotations follow -/
inductive Nc : SNameClass → Str → Prop
  | base {i a s f} : Init strict i → NcBase a s → Follow strict f → i ≠ [] ∨ f = [] → Nc a (i ++ s ++ f)
  | alt {i a s f g g' b t} : Init strict i → NcBase a s → Follow strict f → i ≠ [] ∨ f = [] → Gap g → Gap g' → Nc b t →
      Nc (.alt a b) (i ++ s ++ f ++ g ++ '|' :: g' ++ t)
  | anyExcept {i g g' e t} : Init strict i → Gap g → Gap g' → Nc e t → Nc (.anyNameExcept e) (i ++ '*' :: g ++ '-' :: g' ++ t)
  | nsExcept {i p g g' e t} : Init strict i → NCName p → Gap g → Gap g' → Nc e t →
      Nc (.nsNameExcept (.pre p) e) (i ++ p ++ ':' :: '*' :: g ++ '-' :: g' ++ t)
/-- name classes that are complete in themselves -/
inductive NcBase : SNameClass → Str → Prop
  | name {a s} : Name a s → NcBase a s
  | anyName : NcBase .anyName ['*']
  | nsName {p} : NCName p → NcBase (.nsName (.pre p)) (p ++ [':', '*'])
  | paren {g a s g'} : Gap g → Nc a s → Gap g' → NcBase (.paren a) ('(' :: g ++ s ++ g' ++ [')'])
end

/-! ### patterns and grammars -/

/-- `inherit = prefix`, optional -/
inductive Inherit : Option Str → Str → Prop
  | none : Inherit none []
  | some {g g1 g2 p} : Sep g → Gap g1 → Gap g2 → AnyIdent p → Inherit (some p) (g ++ "inherit".toList ++ g1 ++ '=' :: g2 ++ p)

/-- datatype names -/
inductive DtName : SDtName → Str → Prop
  | string : DtName .string "string".toList
  | token : DtName .token "token".toList
  | cname {p n} : NCName p → Referable p → NCName n → DtName (.cname p n) (p ++ ':' :: n)

/-- `name = "value"` -/
inductive Par : Param → Str → Prop
  | mk {i n g1 g2 v t} : Init strict i → AnyIdent n → Gap g1 → Gap g2 → Literal v t → Par ⟨n, v⟩ (i ++ n ++ g1 ++ '=' :: g2 ++ t)

/-- the parameters of a datatype, optional -/
inductive Pars : List Param → Str → Prop
  | none : Pars [] []
  | some {g1 g2 ps t g3} : Gap g1 → Gap g2 → SepBy (Par strict) ps t → Gap g3 → Pars ps (g1 ++ '{' :: g2 ++ t ++ g3 ++ ['}'])

/-- `=`, `|=`, `&=` -/
inductive Assign : AssignMethod → Str → Prop
  | assign : Assign .assign ['=']
  | choice : Assign .choice ['|', '=']
  | interleave : Assign .interleave ['&', '=']

mutual
/-- patterns.  `Pat p b t`: `b` tells whether `p` ends with `?`, `*` or `+`, so that an annotation that follows it is not its own. -/
inductive Pat : SPattern → Bool → Str → Prop
  | mk {i p s f q b t} : Init strict i → Prim p s → Follow strict f → Tail p false q b t → Pat q b (i ++ s ++ f ++ t)
  | dataExcept {i d s ps u g g' e c t} : Init strict i → DtName d s → Pars strict ps u → Gap g → Gap g' → (u ++ g = [] → ¬ strict ∧ ∀ p n, d ≠ .cname p n) → Pat e c t →
      Pat (.dataExcept d ps e) false (i ++ s ++ u ++ g ++ '-' :: g' ++ t)
  | dataExceptFollowed {i d s ps u g g' e t f q b v} : Init strict i → DtName d s → Pars strict ps u → Gap g → Gap g' →
      (u ++ g = [] → ¬ strict ∧ ∀ p n, d ≠ .cname p n) → Pat e true t → Follow strict f → f ≠ [] → Tail (.dataExcept d ps e) false q b v →
      Pat q b (i ++ s ++ u ++ g ++ '-' :: g' ++ t ++ f ++ v)
/-- patterns without operators -/
inductive Prim : SPattern → Str → Prop
  | element {g c s b p t} : Sep g → Nc strict c s → Braced p t → b = "element".toList ++ g ++ s ++ t → Prim (.element c p) b
  | attribute {g c s b p t} : Sep g → Nc strict c s → Braced p t → b = "attribute".toList ++ g ++ s ++ t → Prim (.attribute c p) b
  | list {p t} : Braced p t → Prim (.list p) ("list".toList ++ t)
  | mixed {p t} : Braced p t → Prim (.mixed p) ("mixed".toList ++ t)
  | value {v t} : Literal v t → Prim (.value none v) t
  | typedValue {d s g v t} : DtName d s → Gap g → Literal v t → Prim (.value (some d) v) (s ++ g ++ t)
  | data {d s ps u} : DtName d s → Pars strict ps u → Prim (.data d ps) (s ++ u)
  | ident {s} : Ident s → Referable s → Prim (.ident s) s
  | parent {g s} : Sep g → Ident s → Prim (.parent s) ("parent".toList ++ g ++ s)
  | empty : Prim .empty "empty".toList
  | text : Prim .text "text".toList
  | notAllowed : Prim .notAllowed "notAllowed".toList
  | external {g v t h u} : Sep g → Literal v t → Inherit h u → Prim (.external v h) ("external".toList ++ g ++ t ++ u)
  | grammar {g g' is t g''} : Gap g → Gap g' → SepBy Item is t → Gap g'' →
      Prim (.grammar is) ("grammar".toList ++ g ++ '{' :: g' ++ t ++ g'' ++ ['}'])
  | paren {g p b s g'} : Gap g → Pat p b s → Gap g' → Prim (.paren p) ('(' :: g ++ s ++ g' ++ [')'])
/-- `{ pattern }` -/
inductive Braced : SPattern → Str → Prop
  | mk {g1 g2 p b s g3} : Gap g1 → Gap g2 → Pat p b s → Gap g3 → Braced p (g1 ++ '{' :: g2 ++ s ++ g3 ++ ['}'])
/-- `Tail p a q b t`: the operators `t` after the pattern `p` make it the pattern `q`; `a` and `b` tell whether `p` and `q`
end with `?`, `*` or `+` -/
inductive Tail : SPattern → Bool → SPattern → Bool → Str → Prop
  | done {p a} : Tail p a p a []
  | optional {p a q b g t} : Gap g → Tail (.optional p) true q b t → Tail p a q b (g ++ '?' :: t)
  | zeroOrMore {p a q b g t} : Gap g → Tail (.zeroOrMore p) true q b t → Tail p a q b (g ++ '*' :: t)
  | oneOrMore {p a q b g t} : Gap g → Tail (.oneOrMore p) true q b t → Tail p a q b (g ++ '+' :: t)
  | seq {p a g g' q b t} : Gap g → Gap g' → Pat q b t → Tail p a (.seq p q) b (g ++ ',' :: g' ++ t)
  | inter {p a g g' q b t} : Gap g → Gap g' → Pat q b t → Tail p a (.inter p q) b (g ++ '&' :: g' ++ t)
  | choice {p a g g' q b t} : Gap g → Gap g' → Pat q b t → Tail p a (.choice p q) b (g ++ '|' :: g' ++ t)
/-- the entries of a grammar -/
inductive Item : SItem → Str → Prop
  | start {g a u g' p b s} : Gap g → Assign a u → Gap g' → Pat p b s → Item (.define "start".toList a p) ("start".toList ++ g ++ u ++ g' ++ s)
  | define {id g a u g' p b s} : Ident id → Gap g → Assign a u → Gap g' → Pat p b s → Item (.define id a p) (id ++ g ++ u ++ g' ++ s)
  | div {g g' is t g''} : Gap g → Gap g' → SepBy Item is t → Gap g'' → Item (.div is) ("div".toList ++ g ++ '{' :: g' ++ t ++ g'' ++ ['}'])
  | include {g v t h u os w} : Sep g → Literal v t → Inherit h u → Overrides os w →
      Item (.include v h os) ("include".toList ++ g ++ t ++ u ++ w)
  | annotation {s} : AnnElem strict () s → Item .annotation s
/-- the overrides of an include, optional -/
inductive Overrides : List SOverride → Str → Prop
  | none : Overrides [] []
  | some {g g' os t g''} : Gap g → Gap g' → SepBy Override os t → Gap g'' → Overrides os (g ++ '{' :: g' ++ t ++ g'' ++ ['}'])
/-- one override; the model keeps nothing of a `div` -/
inductive Override : SOverride → Str → Prop
  | start {i g a u g' p b s} : Init strict i → Gap g → Assign a u → Gap g' → Pat p b s →
      Override (.define "start".toList a p) (i ++ "start".toList ++ g ++ u ++ g' ++ s)
  | define {i id g a u g' p b s} : Init strict i → Ident id → Gap g → Assign a u → Gap g' → Pat p b s →
      Override (.define id a p) (i ++ id ++ g ++ u ++ g' ++ s)
  | div {i g g' os t g''} : Init strict i → Gap g → Gap g' → SepBy Override os t → Gap g'' →
      Override .div (i ++ "div".toList ++ g ++ '{' :: g' ++ t ++ g'' ++ ['}'])
  | annotation {i s} : Init strict i → AnnElem strict () s → Override .annotation (i ++ s)
end

end

/-- `inherit` or a literal -/
inductive NsUri : Option Str → Str → Prop
  | inherit : NsUri none "inherit".toList
  | uri {v t} : Literal v t → NsUri (some v) t

/-- declarations -/
inductive Decl : SDecl → Str → Prop
  | namespace {g p g1 g2 u t} : Sep g → AnyIdent p → Gap g1 → Gap g2 → NsUri u t →
      Decl (.namespace p u) ("namespace".toList ++ g ++ p ++ g1 ++ '=' :: g2 ++ t)
  | default {g g' g2 u t} : Sep g → Sep g' → Gap g2 → NsUri u t →
      Decl (.defaultNamespace none u) ("default".toList ++ g ++ "namespace".toList ++ g' ++ '=' :: g2 ++ t)
  | defaultPrefix {g g' p g1 g2 u t} : Sep g → Sep g' → AnyIdent p → Gap g1 → Gap g2 → NsUri u t →
      Decl (.defaultNamespace (some p) u) ("default".toList ++ g ++ "namespace".toList ++ g' ++ p ++ g1 ++ '=' :: g2 ++ t)
  | datatypes {g p g1 g2 v t} : Sep g → AnyIdent p → Gap g1 → Gap g2 → Literal v t →
      Decl (.datatypes p v) ("datatypes".toList ++ g ++ p ++ g1 ++ '=' :: g2 ++ t)

section
variable (strict : Prop)

/-- begins like an annotation named `element` or `attribute` -/
def LikeAnnotation (t : Str) : Prop := ∃ k g u, (k = "element".toList ∨ k = "attribute".toList) ∧ Gap g ∧ t = k ++ g ++ '[' :: u

/-- the text after the declarations -/
inductive Body : SBody → Str → Prop
  | grammar {i is t} : SepBy (Item strict) (i :: is) t → Body (.grammar (i :: is)) t
  | pattern {p b t} : Pat strict p b t → (strict → ¬ LikeAnnotation t) → Body (.pattern p) t

/-- `Schema s t`: the text `t` is a way of writing the schema `s` -/
inductive Schema : SSchema → Str → Prop
  | mk {g ds t g' b u g''} : Gap g → SepBy Decl ds t → Gap g' → Body strict b u → Gap g'' → ds = [] ∨ Apart strict g' u →
      Schema ⟨ds, b⟩ (g ++ t ++ g' ++ u ++ g'')
end

end Verif.Rnc
