import Verif.Spec.CompactSpans
import Verif.Model.SchemaDiag
/-
Specification: what the diagnostic of a schema says, and what its labels show in the texts of the schema.
-/
namespace Verif.At
open Verif

/-- the error without the chain of includes that led to it -/
def LErr.innermost : LErr → LErr
  | .inInclude _ e => e.innermost
  | e => e

/-- the positions of the includes that led to the error, outermost first -/
def LErr.chain : LErr → List Span
  | .inInclude s e => s :: e.chain
  | _ => []

/-- the errors there is no message for; with them, what is in truth a panic of the parser -/
inductive Speechless : LErr → Prop
  | datatypePrefix {pre} : Speechless (.datatypePrefixAlreadyDefined pre)
  | conflictingFacet {s} : Speechless (.datatype s (.xsd (.facet .conflicting)))
  | parser {f} : Speechless (.load f .panic)

section
variable (text : Str → Option Str) (join : Str → Str → Option Str) (name : Str) (x : Ext) (syntaxAt : Str → Nat)

/-- the label is at the name of a definition of `id`: it shows `id`, or is just before the word `start`, or is the beginning of the
schema, if that is a pattern without definitions -/
inductive AtDefinition : Str → Span → Prop
  | name {id s} : Quotes text s id → AtDefinition id s
  | start {f k k'} : Quotes text ⟨f, k, k'⟩ "start".toList → AtDefinition "start".toList ⟨f, k, k⟩
  | pattern : (∃ t, text name = some t) → AtDefinition "start".toList ⟨name, 0, 0⟩

/-- the label shows a whole file -/
def WholeFile (f : Str) (s : Span) : Prop := ∃ t, text f = some t ∧ s = ⟨f, 0, byteLen t⟩

/-- the label shows a literal for `path` -/
def ShowsLiteral (path : Str) (s : Span) : Prop := ∃ w, Rnc.Literal path w ∧ Quotes text s w

/-- the label shows the part `m` of a pattern with a datatype: the prefix that names the library, the name of the type, a parameter -/
def ShowsPart (m : Mark) (s : Span) : Prop :=
  ∃ t txt, LOccurs (LCompact.compactFiles text join) name ⟨s.file, s.file, t⟩ ∧ t.Has m ⟨s.lo, s.hi⟩ ∧ text s.file = some txt ∧
    Reads txt t m ⟨s.lo, s.hi⟩

/-- the beginning of a file -/
def Beginning (f : Str) (s : Span) : Prop := (∃ t, text f = some t) ∧ s = ⟨f, 0, 0⟩

/-- `Explains g d`: the diagnostic `d` of an error met in the file `g` points with its labels at what it is about.  (Which of two
definitions is the earlier one is not said: the program gets that wrong, see `C68_case_duplicate_swapped`.) -/
inductive Explains : Str → SDiag → Prop
  | unreadable {g} : text g = none → Explains g ⟨"Problem loading {}: {}", some g, []⟩
  | syntaxError {g t} : text g = some t → (∀ s, LCompact.readCompact t ≠ .ok s) →
      Explains g ⟨"Parse error", none, [⟨⟨g, syntaxAt g, byteLen t⟩, .primary, none⟩]⟩
  /-- the error is in the file that the literal names, and there is another label for the literal -/
  | included {g h path s d style} : s.file = g → ShowsLiteral text path s → join g path = some h → Explains h d →
      (style = .primary ↔ d.labels = []) →
      Explains g ⟨d.message, d.about, d.labels ++ [⟨s, style, some "as included here"⟩]⟩
  /-- the error is in an override -/
  | override {g path s d style} : s.file = g → ShowsLiteral text path s → Explains g d → (style = .primary ↔ d.labels = []) →
      Explains g ⟨d.message, d.about, d.labels ++ [⟨s, style, some "as included here"⟩]⟩
  | undefined {g s id} : Quotes text s id →
      Explains g ⟨"Undefined: {}", some id, [⟨s, .primary, some "name is referenced here, but is not defined"⟩]⟩
  /-- **not** where the name is referenced -/
  | undefinedSomewhere {g s id} : Beginning text g s →
      Explains g ⟨"Undefined: {}", some id, [⟨s, .primary, some "name is referenced here, but is not defined"⟩]⟩
  | noParent {g s id} : Quotes text s id → Rnc.Ident id →
      Explains g ⟨"parent is not available in this context", none, [⟨s, .primary, some "No parent context in which to look-up this name"⟩]⟩
  | nsPrefix {g s pre} : s.file = g → Quotes text s pre → Explains g ⟨"Undefined namespace prefix {}", some pre, [⟨s, .primary, none⟩]⟩
  | dtPrefix {g s pre} : s.file = g → Quotes text s pre →
      Explains g ⟨"The datatype prefix {} is not defined", some pre, [⟨s, .primary, some "undefined"⟩]⟩
  | library {g s} : s.file = g → ShowsPart text join name .library s →
      Explains g ⟨"Unsupported datatype library namespace {}", none, [⟨s, .primary, none⟩]⟩
  /-- **not** where the prefix is -/
  | librarySomewhere {g s} : Beginning text g s → Explains g ⟨"Unsupported datatype library namespace {}", none, [⟨s, .primary, none⟩]⟩
  | paramNotAllowed {g s q} : s.file = g → ShowsPart text join name (.param [] q) s →
      Explains g ⟨"relaxng built-in datatype supports no parameters", none, [⟨s, .primary, some "remove this parameter"⟩]⟩
  | nameUnknown {g s} : s.file = g → ShowsPart text join name .typeName s →
      Explains g ⟨"The relaxng build-in datatype bibrary does not support the type {}", none,
        [⟨s, .primary, some "Only 'string' and 'token' supported"⟩]⟩
  | unsupported {g s} : s.file = g → ShowsPart text join name .typeName s →
      Explains g ⟨"Unsupported datatype {} for XML Schema datatype library", none, [⟨s, .primary, none⟩]⟩
  | invalidValue {g s} : s.file = g → ShowsPart text join name .typeName s →
      Explains g ⟨"Invalid value of type {}", none, [⟨s, .primary, none⟩]⟩
  /-- the first parameter that the type cannot take -/
  | facet {g s e words before q} : s.file = g → DtMark x (.xsd (.facet e)) (.param before q) → ShowsPart text join name (.param before q) s →
      (e, words) ∈ [(FacetErr.invalidInt, "Invalid integer value: {}"), (.invalidFloat, "Invalid floating-point value: {}"),
        (.invalidPattern, "Invalid pattern value: {}"), (.invalidFacet, "Invalid facet for type: {}")] →
      Explains g ⟨"Problematic facet for {} type", none, [⟨s, .primary, some words⟩]⟩
  | recursive {g id s s'} : Quotes text s id → s'.file = s.file → AtDefinition text name id s' →
      Explains g ⟨"Recursive reference to {}", some id, [⟨s, .primary, none⟩, ⟨s', .secondary, some "Definition is here"⟩]⟩
  | duplicate {g id s s'} : AtDefinition text name id s → AtDefinition text name id s' →
      Explains g ⟨"Duplicate definition of {}", some id, [⟨s, .primary, some "Duplicated here"⟩, ⟨s', .secondary, some "First seen here"⟩]⟩
  | mixes {g id s s'} : AtDefinition text name id s → AtDefinition text name id s' →
      Explains g ⟨"Definition mixes 'combine' and 'interleave' combine-rules", none,
        [⟨s, .primary, some "Defined here with one define-rule"⟩, ⟨s', .secondary, some "Previously defined here with a different combine-rule"⟩]⟩
  | noStart {g f s} : WholeFile text f s → (f = name ∨ ∃ path, join g path = some f) →
      Explains g ⟨"Grammar is missing a start rule", none, [⟨s, .primary, some "needs a 'start' rule"⟩]⟩
  | noStartGrammar {g s is w} : s.file = g → Rnc.Prim False (.grammar is) w → Quotes text s w →
      Explains g ⟨"Grammar is missing a start rule", none, [⟨s, .primary, some "needs a 'start' rule"⟩]⟩
  | elementInAttribute {g s s' c p w c' p' w'} : s.file = g → Rnc.Prim False (.element c p) w → Quotes text s w →
      Rnc.Prim False (.attribute c' p') w' → Quotes text s' w' →
      Explains g ⟨"An Element may not appear within an attribute definition", none,
        [⟨s, .primary, some "Remove this element"⟩, ⟨s', .secondary, some "In this attribute's body"⟩]⟩
  | recursiveInclude {g f path s} : s.file = g → ShowsLiteral text path s → join g path = some f →
      Explains g ⟨"The resource {} refers to itself recursively", some f, [⟨s, .primary, some "Remove recursive include reference"⟩]⟩
  | notGrammar {g s} : Beginning text g s →
      Explains g ⟨"Included files must use a top-level 'grammar', not any other pattern element", none,
        [⟨s, .primary, some "Add a 'grammar' declaration at the top level"⟩]⟩
  | overrideMissing {g id s path f s'} : AtDefinition text name id s → join g path = some f → WholeFile text f s' →
      Explains g ⟨"Override {} has no corresponding definition in included grammar", some id,
        [⟨s, .primary, some "Either remove this override..."⟩, ⟨s', .secondary, some "...or add a definition for {} to this grammar"⟩]⟩

/-- what is assumed of the parser of nom: it gives up on a text at one of its characters, or at the end -/
def GivesUpInside : Prop := ∀ f t, text f = some t → ∃ w, Cut t ⟨syntaxAt f, byteLen t⟩ w

/-- the assumption about the emitter of codemap_diagnostic: it prints (does not panic) if every label is a range of whole characters of
its file -/
def PrintsSchema (dump : SDiag → Bool) : Prop := ∀ d, (∀ l ∈ d.labels, ∃ w, Quotes text l.span w) → dump d = true

end
end Verif.At
