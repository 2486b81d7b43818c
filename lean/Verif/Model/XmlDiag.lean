import Verif.Model.XmlSpans
import Verif.Model.SchemaDiag
/-
The diagnostics of the schema compiler for schemas in the XML syntax: M:773-1177 (relaxng-model/src/lib.rs).
-/
namespace Verif.LXml
open Verif Verif.At

section
variable (uri : Str → UriKind) (text : Str → Option (Str × LDoc))

/-- M:49-64: the error with which the parser refuses a file; that of an ill-formed document (`Error::Xml`) is `Sum.inr`. -/
def refusal (f : Str) : Option (XErr ⊕ Rg) :=
  match text f with
  | none => none
  | some (t, d) =>
    match readXml uri t d with
    | .ok _ => none
    | .panic => none
    | .error e => some (.inl e)
    | .xmlError r => some (.inr r)

/-- M:822-862 the diagnostics for what the parser refuses; the words of roxmltree are left out -/
def refusalDiagnostic (f : Str) : XErr ⊕ Rg → SDiag
  | .inl (.expected r msg) => ⟨"Expected: {}", some msg.toList, [.prim ⟨f, r.lo, r.hi⟩ none]⟩
  | .inl (.unexpected r msg) => ⟨"Unexpected {}", some msg.toList, [.prim ⟨f, r.lo, r.hi⟩ none]⟩
  | .inr r => ⟨"XML parsing error: {}", none, [.prim ⟨f, r.lo, r.hi⟩ none]⟩

/-- M:773-1177 `Compiler::diagnostic`, for schemas in the XML syntax: `none`: it panics.  Errors that are not of the parser are treated
alike in both syntaxes (`At.diagnostic`). -/
def xmlDiagnostic : LErr → Option SDiag
  | .inInclude s e =>
    match xmlDiagnostic e with
    | none => none
    | some d =>
      let style := if d.labels.isEmpty then .primary else .secondary
      some { d with labels := d.labels ++ [⟨s, style, some "as included here"⟩] }
  | .load f .parse => (refusal uri text f).map (refusalDiagnostic f)
  | e => diagnostic (xmlFiles uri text) (fun _ => 0) e

end
end Verif.LXml
