import Verif.Spec.Faults
/-
Specification: two collections of schema files that differ only in the order in which things are written: the entries of
any grammar (also of grammars inside patterns and of included files), however they are grouped by `div`, the overrides of an include, the
alternatives of a choice and the parts of an interleave, at any depth and in any of the files; and in the way choices,
interleaves and sequences are grouped and put into parentheses, and in annotations between the entries of a grammar.
-/
namespace Verif.Order
open Verif

/-- two name classes that contain the same names, whatever the prefixes stand for, and mention the same prefixes (for
example `a | b` and `b | a`) -/
def SameNames (a b : SNameClass) : Prop := (∀ e n, a.Has e n ↔ b.Has e n) ∧ ∀ p, p ∈ a.prefixes ↔ p ∈ b.prefixes

mutual
/-- an entry of a grammar: the entries in it if it is a `div`, nothing if it is an annotation -/
def flatItem : SItem → List SItem
  | .div is => flat is
  | .annotation => []
  | .define id how p => [.define id how p]
  | .include path inherit os => [.include path inherit os]
/-- the entries of a grammar, with `div` dissolved and annotations left out -/
def flat : List SItem → List SItem
  | [] => []
  | i :: is => flatItem i ++ flat is
end

/-- a piece of a schema; `items` are entries of a grammar as written, `entries` are entries as `flat` gives them -/
inductive Piece where
  | pat (p : SPattern)
  | item (i : SItem)
  | items (is : List SItem)
  | entries (is : List SItem)
  | override (o : SOverride)
  | overrides (os : List SOverride)

/-- `Same a b`: the pieces `a` and `b` differ only in the order and grouping in which things are written. -/
inductive Same : Piece → Piece → Prop
  | element {a b p q} : SameNames a b → Same (.pat p) (.pat q) → Same (.pat (.element a p)) (.pat (.element b q))
  | attribute {a b p q} : SameNames a b → Same (.pat p) (.pat q) → Same (.pat (.attribute a p)) (.pat (.attribute b q))
  | list {p q} : Same (.pat p) (.pat q) → Same (.pat (.list p)) (.pat (.list q))
  | mixed {p q} : Same (.pat p) (.pat q) → Same (.pat (.mixed p)) (.pat (.mixed q))
  | ident {id} : Same (.pat (.ident id)) (.pat (.ident id))
  | parent {id} : Same (.pat (.parent id)) (.pat (.parent id))
  | empty : Same (.pat .empty) (.pat .empty)
  | text : Same (.pat .text) (.pat .text)
  | notAllowed : Same (.pat .notAllowed) (.pat .notAllowed)
  | external {path i} : Same (.pat (.external path i)) (.pat (.external path i))
  | grammar {is js} : Same (.items is) (.items js) → Same (.pat (.grammar is)) (.pat (.grammar js))
  | parenLeft {p q} : Same (.pat p) (.pat q) → Same (.pat (.paren p)) (.pat q)
  | parenRight {p q} : Same (.pat p) (.pat q) → Same (.pat p) (.pat (.paren q))
  | seq {p p' q q'} : Same (.pat p) (.pat p') → Same (.pat q) (.pat q') → Same (.pat (.seq p q)) (.pat (.seq p' q'))
  | seqLeft {p p' q q' r r'} : Same (.pat p) (.pat p') → Same (.pat q) (.pat q') → Same (.pat r) (.pat r') →
      Same (.pat (.seq (.seq p q) r)) (.pat (.seq p' (.seq q' r')))
  | seqRight {p p' q q' r r'} : Same (.pat p) (.pat p') → Same (.pat q) (.pat q') → Same (.pat r) (.pat r') →
      Same (.pat (.seq p (.seq q r))) (.pat (.seq (.seq p' q') r'))
  | inter {p p' q q'} : Same (.pat p) (.pat p') → Same (.pat q) (.pat q') → Same (.pat (.inter p q)) (.pat (.inter p' q'))
  | interSwap {p p' q q'} : Same (.pat p) (.pat p') → Same (.pat q) (.pat q') → Same (.pat (.inter p q)) (.pat (.inter q' p'))
  | interLeft {p p' q q' r r'} : Same (.pat p) (.pat p') → Same (.pat q) (.pat q') → Same (.pat r) (.pat r') →
      Same (.pat (.inter (.inter p q) r)) (.pat (.inter p' (.inter q' r')))
  | interRight {p p' q q' r r'} : Same (.pat p) (.pat p') → Same (.pat q) (.pat q') → Same (.pat r) (.pat r') →
      Same (.pat (.inter p (.inter q r))) (.pat (.inter (.inter p' q') r'))
  | choice {p p' q q'} : Same (.pat p) (.pat p') → Same (.pat q) (.pat q') → Same (.pat (.choice p q)) (.pat (.choice p' q'))
  | choiceSwap {p p' q q'} : Same (.pat p) (.pat p') → Same (.pat q) (.pat q') → Same (.pat (.choice p q)) (.pat (.choice q' p'))
  | choiceLeft {p p' q q' r r'} : Same (.pat p) (.pat p') → Same (.pat q) (.pat q') → Same (.pat r) (.pat r') →
      Same (.pat (.choice (.choice p q) r)) (.pat (.choice p' (.choice q' r')))
  | choiceRight {p p' q q' r r'} : Same (.pat p) (.pat p') → Same (.pat q) (.pat q') → Same (.pat r) (.pat r') →
      Same (.pat (.choice p (.choice q r))) (.pat (.choice (.choice p' q') r'))
  | optional {p q} : Same (.pat p) (.pat q) → Same (.pat (.optional p)) (.pat (.optional q))
  | zeroOrMore {p q} : Same (.pat p) (.pat q) → Same (.pat (.zeroOrMore p)) (.pat (.zeroOrMore q))
  | oneOrMore {p q} : Same (.pat p) (.pat q) → Same (.pat (.oneOrMore p)) (.pat (.oneOrMore q))
  | value {ty lit} : Same (.pat (.value ty lit)) (.pat (.value ty lit))
  | data {ty ps} : Same (.pat (.data ty ps)) (.pat (.data ty ps))
  | dataExcept {ty ps p q} : Same (.pat p) (.pat q) → Same (.pat (.dataExcept ty ps p)) (.pat (.dataExcept ty ps q))
  -- entries of a grammar
  | define {id how p q} : Same (.pat p) (.pat q) → Same (.item (.define id how p)) (.item (.define id how q))
  | includes {path i os os'} : Same (.overrides os) (.overrides os') → Same (.item (.include path i os)) (.item (.include path i os'))
  -- the entries in any order: the first entry on the left is somewhere on the right
  | items {is js} : Same (.entries (flat is)) (.entries (flat js)) → Same (.items is) (.items js)
  | noEntries : Same (.entries []) (.entries [])
  | entries {i j is l r} : Same (.item i) (.item j) → Same (.entries is) (.entries (l ++ r)) →
      Same (.entries (i :: is)) (.entries (l ++ j :: r))
  -- overrides, likewise
  | overrideDefine {id how p q} : Same (.pat p) (.pat q) → Same (.override (.define id how p)) (.override (.define id how q))
  | overrideDiv : Same (.override .div) (.override .div)
  | overrideAnnotation : Same (.override .annotation) (.override .annotation)
  | noOverrides : Same (.overrides []) (.overrides [])
  | overrides {i j is l r} : Same (.override i) (.override j) → Same (.overrides is) (.overrides (l ++ r)) →
      Same (.overrides (i :: is)) (.overrides (l ++ j :: r))

/-- Two schema files with the same declarations.  A file that is one grammar in parentheses cannot be included, so these
parentheses may not be put or taken away. -/
inductive SameSchema : SSchema → SSchema → Prop
  | pattern {ds p q} : Same (.pat p) (.pat q) → ((∃ is, p = .grammar is) ↔ ∃ js, q = .grammar js) → SameSchema ⟨ds, .pattern p⟩ ⟨ds, .pattern q⟩
  | grammar {ds is js} : Same (.items is) (.items js) → SameSchema ⟨ds, .grammar is⟩ ⟨ds, .grammar js⟩

/-- the results of loading a file: the same failure, or schemas that differ only in order and grouping -/
inductive SameLoad : Except LoadErr SSchema → Except LoadErr SSchema → Prop
  | error {e} : SameLoad (.error e) (.error e)
  | ok {s s'} : SameSchema s s' → SameLoad (.ok s) (.ok s')

/-- `Reordered F F'`: the files `F` and `F'` differ only in the order and grouping in which things are written. -/
structure Reordered (F F' : Files) : Prop where
  join : ∀ f path, F.join f path = F'.join f path
  load : ∀ f, SameLoad (F.load f) (F'.load f)

/-- any number of such changes, one after the other -/
inductive Rearranged : Files → Files → Prop
  | refl {F} : Rearranged F F
  | step {F F' F''} : Reordered F F' → Rearranged F' F'' → Rearranged F F''

end Verif.Order
