import Verif.Model.SchemaSpans
import Verif.Model.CompactSpans
import Verif.Model.Tool
/-
The diagnostics of the schema compiler, M:763-1177 (relaxng-model/src/lib.rs), and the command line tool once more, with them.
-/
namespace Verif.At
open Verif

/-- codemap_diagnostic `SpanStyle` -/
inductive Style where
  | primary
  | secondary
  deriving DecidableEq, Repr

/-- codemap_diagnostic `SpanLabel`.  `words` is the format string; its arguments are left out. -/
structure Label where
  span : Span
  style : Style
  words : Option String
  deriving DecidableEq, Repr

/-- codemap_diagnostic `Diagnostic` (level and code are always the same).  `message` is the format string, `about` the name that is put
in (names of datatypes, which the errors of `Model/SchemaSpans` do not carry, are left out). -/
structure SDiag where
  message : String
  about : Option Str
  labels : List Label
  deriving DecidableEq, Repr

def Label.prim (s : Span) (words : Option String) : Label := ⟨s, .primary, words⟩
def Label.sec (s : Span) (words : Option String) : Label := ⟨s, .secondary, words⟩

/-- M:921-965 the facet errors.  `none`: M:925-927 `unimplemented!`. -/
def facetDiagnostic (s : Span) : FacetErr → Option SDiag
  | .conflicting => none
  | .invalidInt => some ⟨"Problematic facet for {} type", none, [.prim s (some "Invalid integer value: {}")]⟩
  | .invalidFloat => some ⟨"Problematic facet for {} type", none, [.prim s (some "Invalid floating-point value: {}")]⟩
  | .invalidPattern => some ⟨"Problematic facet for {} type", none, [.prim s (some "Invalid pattern value: {}")]⟩
  | .invalidFacet => some ⟨"Problematic facet for {} type", none, [.prim s (some "Invalid facet for type: {}")]⟩

/-- M:876-994 the errors of datatypes -/
def datatypeDiagnostic (s : Span) : DtErr → Option SDiag
  | .unsupportedLibrary => some ⟨"Unsupported datatype library namespace {}", none, [.prim s none]⟩
  | .relax .paramNotAllowed => some ⟨"relaxng built-in datatype supports no parameters", none, [.prim s (some "remove this parameter")]⟩
  | .relax .nameUnknown =>
    some ⟨"The relaxng build-in datatype bibrary does not support the type {}", none, [.prim s (some "Only 'string' and 'token' supported")]⟩
  | .xsd (.facet e) => facetDiagnostic s e
  | .xsd .unsupported => some ⟨"Unsupported datatype {} for XML Schema datatype library", none, [.prim s none]⟩
  | .xsd .invalidValue => some ⟨"Invalid value of type {}", none, [.prim s none]⟩

/-- M:773-1177 `Compiler::diagnostic`, for schemas in the compact syntax.  `none`: it panics (M:926, M:1175).  `syntaxAt f` is the offset at
which the parser gives up on the file `f` (M:65-83): how nom finds it is left out.  `.load _ .panic` is no error of the program, see
`LoadErr`. -/
def diagnostic (F : LFiles) (syntaxAt : Str → Nat) : LErr → Option SDiag
  | .inInclude s e =>
    match diagnostic F syntaxAt e with
    | none => none
    | some d =>
      let style := if d.labels.isEmpty then .primary else .secondary
      some { d with labels := d.labels ++ [⟨s, style, some "as included here"⟩] }
  | .load f .io => some ⟨"Problem loading {}: {}", some f, []⟩
  | .load f .parse => some ⟨"Parse error", none, [.prim ⟨f, syntaxAt f, F.size f⟩ none]⟩
  | .load _ .panic => none
  | .undefinedReference s id => some ⟨"Undefined: {}", some id, [.prim s (some "name is referenced here, but is not defined")]⟩
  | .noParentAvailable s =>
    some ⟨"parent is not available in this context", none, [.prim s (some "No parent context in which to look-up this name")]⟩
  | .undefinedNamespacePrefix s pre => some ⟨"Undefined namespace prefix {}", some pre, [.prim s none]⟩
  | .datatype (some s) e => datatypeDiagnostic s e
  | .datatype none _ => none
  | .recursiveReference id s s' => some ⟨"Recursive reference to {}", some id, [.prim s none, .sec s' (some "Definition is here")]⟩
  | .undefinedDatatypePrefix s pre => some ⟨"The datatype prefix {} is not defined", some pre, [.prim s (some "undefined")]⟩
  | .duplicateDefinition id dup orig =>
    some ⟨"Duplicate definition of {}", some id, [.prim dup (some "Duplicated here"), .sec orig (some "First seen here")]⟩
  | .mixesChoiceAndInterleave this that =>
    some ⟨"Definition mixes 'combine' and 'interleave' combine-rules", none,
      [.prim this (some "Defined here with one define-rule"), .sec that (some "Previously defined here with a different combine-rule")]⟩
  | .startRuleNotDefined s => some ⟨"Grammar is missing a start rule", none, [.prim s (some "needs a 'start' rule")]⟩
  | .elementAsChildOfAttribute attr elem =>
    some ⟨"An Element may not appear within an attribute definition", none,
      [.prim elem (some "Remove this element"), .sec attr (some "In this attribute's body")]⟩
  | .recursiveInclude f s => some ⟨"The resource {} refers to itself recursively", some f, [.prim s (some "Remove recursive include reference")]⟩
  | .includedFileMustBeGrammar s =>
    some ⟨"Included files must use a top-level 'grammar', not any other pattern element", none,
      [.prim s (some "Add a 'grammar' declaration at the top level")]⟩
  | .overrideMissingFromInclude id s inc =>
    some ⟨"Override {} has no corresponding definition in included grammar", some id,
      [.prim s (some "Either remove this override..."), .sec inc (some "...or add a definition for {} to this grammar")]⟩
  | .datatypePrefixAlreadyDefined _ => none

/-- main.rs:22-59 `validate`, with positions.  `dump` says whether the emitter of codemap_diagnostic prints the diagnostic of a schema
(M:763-770), `emits` the same for the diagnostics of a document. -/
def runTool (F : LFiles) (x : Ext) (syntaxAt : Str → Nat) (dump : SDiag → Bool)
    (order : List (Pat Datatypes DatatypeValues) → List (Pat Datatypes DatatypeValues))
    (emits : Str → List Loc.Diag → Bool) (fuel n : Nat) (schema : Str) (xmls : List Tool.XmlFile) : Tool.Outcome :=
  match compileFile F x fuel fuel schema (.fresh []) with
  | .error .fuel => .fuel
  | .error (.panic _) => .panic
  | .error (.subspan _) => .panic
  | .error (.err e) =>
    match diagnostic F syntaxAt e with
    | none => .panic
    | some d => if dump d then .exit 1 else .panic
  | .ok (k, st) =>
    match st.plain.cell k with
    | none => .panic
    | some r => Tool.documents (stdLib x) order emits fuel n st.plain.env r.pattern xmls

end Verif.At
