import Verif.Spec.XmlSpans
import Verif.Spec.SchemaDiag
/-
Specification: what the diagnostic of a schema in the XML syntax says, and what its labels show in the texts of the schema.
-/
namespace Verif.RngAt
open Verif Verif.At Verif.LXml Verif.Rng

/-- the message for a fault of a document -/
def headOf : XErr → String
  | .expected _ _ => "Expected: {}"
  | .unexpected _ _ => "Unexpected {}"

section
variable (uri : Str → UriKind) (text : Str → Option (Str × LDoc)) (name : Str) (x : Ext)

/-- the text of the file shows `m` at the position, see `Shows` -/
def ShowsAt (m : Mark) (s : Span) : Prop := ∃ t d, text s.file = some (t, d) ∧ Shows t m ⟨s.lo, s.hi⟩

/-- the label is at a definition of `id`: the attribute value or the name of the tag `start`; or it is the beginning of the schema, if
that is a pattern without definitions -/
inductive AtXmlDefinition : Str → Span → Prop
  | shown {id s} : ShowsAt text (.define id) s → AtXmlDefinition id s
  | pattern {t d} : text name = some (t, d) → AtXmlDefinition "start".toList ⟨name, 0, 0⟩

/-- the label shows a whole file -/
def WholeXml (f : Str) (s : Span) : Prop := ∃ t d, text f = some (t, d) ∧ s = ⟨f, 0, byteLen t⟩

/-- the beginning of a file -/
def XmlBeginning (f : Str) (s : Span) : Prop := (∃ t d, text f = some (t, d)) ∧ s = ⟨f, 0, 0⟩

/-- the label shows the `href` for `path` -/
def ShowsHref (path : Str) (s : Span) : Prop := ShowsAt text (.include path) s ∨ ShowsAt text (.external path) s

/-- `XExplains g d`: the diagnostic `d` of an error met in the file `g` points with its labels at what it is about.  (Prefixes are the
exception: `Shows` puts them at the `<` of the element.) -/
inductive XExplains : Str → SDiag → Prop
  | unreadable {g} : text g = none → XExplains g ⟨"Problem loading {}: {}", some g, []⟩
  /-- the document has the fault that the message names, where the label is -/
  | refused {g t root e} : text g = some (t, .tree root) → RngAt.Fault uri root e →
      XExplains g ⟨headOf e, some (msgOf e).toList, [⟨⟨g, e.at_.lo, e.at_.hi⟩, .primary, none⟩]⟩
  | included {g h path s d style} : s.file = g → ShowsHref text path s → XS.joinPath g path = some h → XExplains h d →
      (style = .primary ↔ d.labels = []) →
      XExplains g ⟨d.message, d.about, d.labels ++ [⟨s, style, some "as included here"⟩]⟩
  | override {g path s d style} : s.file = g → ShowsHref text path s → XExplains g d → (style = .primary ↔ d.labels = []) →
      XExplains g ⟨d.message, d.about, d.labels ++ [⟨s, style, some "as included here"⟩]⟩
  | undefined {g s id} : ShowsAt text (.ref id) s ∨ ShowsAt text (.parent id) s →
      XExplains g ⟨"Undefined: {}", some id, [⟨s, .primary, some "name is referenced here, but is not defined"⟩]⟩
  /-- **not** where the name is referenced -/
  | undefinedSomewhere {g s id} : XmlBeginning text g s →
      XExplains g ⟨"Undefined: {}", some id, [⟨s, .primary, some "name is referenced here, but is not defined"⟩]⟩
  | noParent {g s id} : ShowsAt text (.parent id) s →
      XExplains g ⟨"parent is not available in this context", none, [⟨s, .primary, some "No parent context in which to look-up this name"⟩]⟩
  | nsPrefix {g s pre} : s.file = g → ShowsAt text (.nsPrefix pre) s →
      XExplains g ⟨"Undefined namespace prefix {}", some pre, [⟨s, .primary, none⟩]⟩
  | library {g s} : s.file = g → ShowsAt text .library s →
      XExplains g ⟨"Unsupported datatype library namespace {}", none, [⟨s, .primary, none⟩]⟩
  | librarySomewhere {g s} : XmlBeginning text g s →
      XExplains g ⟨"Unsupported datatype library namespace {}", none, [⟨s, .primary, none⟩]⟩
  | paramNotAllowed {g s q} : s.file = g → ShowsAt text (.param [] q) s →
      XExplains g ⟨"relaxng built-in datatype supports no parameters", none, [⟨s, .primary, some "remove this parameter"⟩]⟩
  | nameUnknown {g s} : s.file = g → ShowsAt text .typeName s →
      XExplains g ⟨"The relaxng build-in datatype bibrary does not support the type {}", none,
        [⟨s, .primary, some "Only 'string' and 'token' supported"⟩]⟩
  | unsupported {g s} : s.file = g → ShowsAt text .typeName s →
      XExplains g ⟨"Unsupported datatype {} for XML Schema datatype library", none, [⟨s, .primary, none⟩]⟩
  | invalidValue {g s} : s.file = g → ShowsAt text .typeName s →
      XExplains g ⟨"Invalid value of type {}", none, [⟨s, .primary, none⟩]⟩
  /-- the first parameter that the type cannot take -/
  | facet {g s e words before q} : s.file = g → DtMark x (.xsd (.facet e)) (.param before q) → ShowsAt text (.param before q) s →
      (e, words) ∈ [(FacetErr.invalidInt, "Invalid integer value: {}"), (.invalidFloat, "Invalid floating-point value: {}"),
        (.invalidPattern, "Invalid pattern value: {}"), (.invalidFacet, "Invalid facet for type: {}")] →
      XExplains g ⟨"Problematic facet for {} type", none, [⟨s, .primary, some words⟩]⟩
  | recursive {g id s s'} : ShowsAt text (.ref id) s ∨ ShowsAt text (.parent id) s → s'.file = s.file → ShowsAt text (.define id) s' →
      XExplains g ⟨"Recursive reference to {}", some id, [⟨s, .primary, none⟩, ⟨s', .secondary, some "Definition is here"⟩]⟩
  | duplicate {g id s s'} : AtXmlDefinition text name id s → AtXmlDefinition text name id s' →
      XExplains g ⟨"Duplicate definition of {}", some id, [⟨s, .primary, some "Duplicated here"⟩, ⟨s', .secondary, some "First seen here"⟩]⟩
  | mixes {g id s s'} : AtXmlDefinition text name id s → AtXmlDefinition text name id s' →
      XExplains g ⟨"Definition mixes 'combine' and 'interleave' combine-rules", none,
        [⟨s, .primary, some "Defined here with one define-rule"⟩, ⟨s', .secondary, some "Previously defined here with a different combine-rule"⟩]⟩
  | noStart {g f s} : WholeXml text f s → (f = name ∨ ∃ path, XS.joinPath g path = some f) →
      XExplains g ⟨"Grammar is missing a start rule", none, [⟨s, .primary, some "needs a 'start' rule"⟩]⟩
  | noStartGrammar {g s} : s.file = g → ShowsAt text .grammar s →
      XExplains g ⟨"Grammar is missing a start rule", none, [⟨s, .primary, some "needs a 'start' rule"⟩]⟩
  | elementInAttribute {g s s'} : s.file = g → ShowsAt text .element s → ShowsAt text .attribute s' →
      XExplains g ⟨"An Element may not appear within an attribute definition", none,
        [⟨s, .primary, some "Remove this element"⟩, ⟨s', .secondary, some "In this attribute's body"⟩]⟩
  | recursiveInclude {g f path s} : s.file = g → ShowsHref text path s → XS.joinPath g path = some f →
      XExplains g ⟨"The resource {} refers to itself recursively", some f, [⟨s, .primary, some "Remove recursive include reference"⟩]⟩
  | notGrammar {g s} : XmlBeginning text g s →
      XExplains g ⟨"Included files must use a top-level 'grammar', not any other pattern element", none,
        [⟨s, .primary, some "Add a 'grammar' declaration at the top level"⟩]⟩
  | overrideMissing {g id s path f s'} : ShowsAt text (.define id) s → XS.joinPath g path = some f → WholeXml text f s' →
      XExplains g ⟨"Override {} has no corresponding definition in included grammar", some id,
        [⟨s, .primary, some "Either remove this override..."⟩, ⟨s', .secondary, some "...or add a definition for {} to this grammar"⟩]⟩

end
end Verif.RngAt
