import Verif.Model.Diagnostic
import Verif.Model.Schema
/-
The command line tool: relaxng-tool/src/main.rs, and M:763-1177 `dump_diagnostic`, `diagnostic`.
-/
namespace Verif.Tool
open Verif Loc

/-- M:773-1177 `Compiler::diagnostic`: whether there is a message for an error (otherwise it panics: M:862, M:923, M:1175).  How the
messages read is left out. -/
def diagnosable : SErr → Bool
  | .inInclude e => diagnosable e
  | .load _ => true
  | .undefinedReference _ => true
  | .noParentAvailable => true
  | .undefinedNamespacePrefix _ => true
  | .datatype .unsupportedLibrary => true
  | .datatype (.relax _) => true
  | .datatype (.xsd (.facet .conflicting)) => false
  | .datatype (.xsd (.facet .invalidInt)) => true
  | .datatype (.xsd (.facet .invalidFloat)) => true
  | .datatype (.xsd (.facet .invalidPattern)) => true
  | .datatype (.xsd (.facet .invalidFacet)) => true
  | .datatype (.xsd .unsupported) => true
  | .datatype (.xsd .invalidValue) => true
  | .recursiveReference _ => true
  | .undefinedDatatypePrefix _ => true
  | .duplicateDefinition _ => true
  | .mixesChoiceAndInterleave => true
  | .startRuleNotDefined => true
  | .elementAsChildOfAttribute => true
  | .recursiveInclude _ => true
  | .includedFileMustBeGrammar => true
  | .overrideMissingFromInclude _ => true
  | .datatypePrefixAlreadyDefined _ => false

/-- the error is in truth a panic of the parser, see `LoadErr` -/
def panicked : SErr → Bool
  | .inInclude e => panicked e
  | .load .panic => true
  | _ => false

/-- how a process ends; `fuel`: the model's recursion budget ran out -/
inductive Outcome where
  | exit (code : Nat)
  | panic
  | fuel
  deriving DecidableEq, Repr

/-- a file given on the command line: it cannot be read (as UTF-8), or it has a text, and the tokenizer makes some items of it -/
inductive XmlFile where
  | unreadable
  | doc (text : Str) (items : List Loc.Event)

section
variable {D V : Type} [DecidableEq D] [DecidableEq V] (L : Lib D V)

/-- main.rs:41-57 the loop over the items of a document: the first error, if any. -/
def itemLoop (n : Nat) : List Loc.Event → ST (Loc.State D V) (Option Err)
  | [] => pure none
  | e :: es => do
    match ← Loc.validateEvent L n e with
    | .ok () => itemLoop n es
    | .error err => pure (some err)

/-- main.rs:31-58 the loop over the documents.  `order` is the order in which a hash set is iterated, `emits` says whether the
emitter of codemap_diagnostic prints the diagnostics (or panics). -/
def documents (order : List (Pat D V) → List (Pat D V)) (emits : Str → List Diag → Bool) (fuel n : Nat) (env : Env D V)
    (start : Pattern D V) : List XmlFile → Outcome
  | [] => .exit 0
  | .unreadable :: _ => .panic
  | .doc text items :: rest =>
    match Loc.newValidator env fuel start with
    | .error .fuel => .fuel
    | .error _ => .panic
    | .ok s0 =>
      match itemLoop L n items s0 with
      | .error .fuel => .fuel
      | .error _ => .panic
      | .ok (none, _) => documents order emits fuel n env start rest
      | .ok (some err, s) =>
        match Loc.diagnostic order n text err s with
        | .error .fuel => .fuel
        | .error _ => .panic
        | .ok (none, _) => .panic
        | .ok (some ds, _) => if emits text ds then .exit 2 else .panic
end

/-- main.rs:22-59 `validate`.  The emitter of codemap_diagnostic is taken not to panic on the diagnostics of a schema. -/
def run (F : Files) (x : Ext) (order : List (Pat Datatypes DatatypeValues) → List (Pat Datatypes DatatypeValues))
    (emits : Str → List Diag → Bool) (fuel n : Nat) (schema : Str) (xmls : List XmlFile) : Outcome :=
  match compileFile F x fuel fuel schema CState.init with
  | .error .fuel => .fuel
  | .error (.panic _) => .panic
  | .error (.err e) => if panicked e then .panic else if diagnosable e then .exit 1 else .panic
  | .ok (k, st) =>
    match st.cell k with
    | none => .panic
    | some r => documents (stdLib x) order emits fuel n st.env r.pattern xmls

end Verif.Tool
