import Verif.Props.SchemaSpanCases
import Verif.Props.ToolSpans
/-
Concrete cases for C70.
-/
namespace Verif.At.Ex
open Verif Verif.At
open Verif.Ex (str ext)

/-- the diagnostic for `main` -/
def message (fs : List (String × String)) : Option SDiag :=
  match failure fs with
  | some (.err e) => diagnostic (dir fs) (fun _ => 0) e
  | _ => none

/-- **C70**: an undefined prefix in an included file -/
theorem C70_case_prefix : message prefixed = some ⟨"Undefined namespace prefix {}", some (str "p"),
    [⟨⟨str "x", 12, 13⟩, .primary, none⟩, ⟨⟨str "main", 18, 21⟩, .secondary, some "as included here"⟩]⟩ := by decide +kernel

/-- **C70**: a parameter that the type cannot take -/
theorem C70_case_facet : message [("main", "start = a\ninclude \"x\""), ("x", "a = xsd:int { minLength = \"3\" }")] =
    some ⟨"Problematic facet for {} type", none,
      [⟨⟨str "x", 14, 29⟩, .primary, some "Invalid facet for type: {}"⟩, ⟨⟨str "main", 18, 21⟩, .secondary, some "as included here"⟩]⟩ := by
  decide +kernel

/-- **C70**: a file that cannot be read: the include has the primary label -/
theorem C70_case_unreadable : message [("main", "include \"x\"")] =
    some ⟨"Problem loading {}: {}", some (str "x"), [⟨⟨str "main", 8, 11⟩, .primary, some "as included here"⟩]⟩ ∧
    message [] = some ⟨"Problem loading {}: {}", some (str "main"), []⟩ := by decide +kernel

/-- **C70**: an override of something that is not there shows the whole included file -/
theorem C70_case_override : message [("main", "include \"x\" { a = empty }"), ("x", "start = element a { empty }")] =
    some ⟨"Override {} has no corresponding definition in included grammar", some (str "a"),
      [⟨⟨str "main", 14, 15⟩, .primary, some "Either remove this override..."⟩,
       ⟨⟨str "x", 0, 27⟩, .secondary, some "...or add a definition for {} to this grammar"⟩]⟩ := by decide +kernel

/-- **C70**, what goes wrong: the labels of a duplicate definition are swapped -/
theorem C70_case_duplicate : message twice = some ⟨"Duplicate definition of {}", some (str "a"),
    [⟨⟨str "main", 10, 11⟩, .primary, some "Duplicated here"⟩, ⟨⟨str "main", 20, 21⟩, .secondary, some "First seen here"⟩]⟩ := by decide +kernel

def conflict : List (String × String) :=
  [("main", "start = a\ninclude \"x\""), ("x", "a = xsd:int { minExclusive = \"5\" maxInclusive = \"4\" }")]

/-- **C70**, the panics: there is no message for contradicting parameters, nor for a datatype prefix that is declared twice. -/
theorem C70_case_speechless :
    (failure conflict = some (.err (.inInclude ⟨str "main", 18, 21⟩ (.datatype none (.xsd (.facet .conflicting))))) ∧ message conflict = none) ∧
    failure [("main", "datatypes xsd = \"u\" start = empty")] = some (.err (.datatypePrefixAlreadyDefined (str "xsd"))) ∧
    message [("main", "datatypes xsd = \"u\" start = empty")] = none := by decide +kernel

/-- the hypotheses of `C70_panics_iff` are met -/
theorem C70_case_panics : Speechless (LErr.inInclude ⟨str "main", 18, 21⟩ (.datatype none (.xsd (.facet .conflicting)))).innermost :=
  (C70_panics_iff (F := dir conflict) (x := ext) (n := 30) (m := 30) (name := str "main") (sa := fun _ => 0) faithful_nil
    (failure_eq C70_case_speechless.1.1)).1 rfl

def broken : List (String × String) := [("main", "# 1234567890 é\nstart = external \"x\""), ("x", "start=element p:a {empty}")]

/-- **C70**, what goes wrong with an external grammar: the label is in the middle of a character of the file that uses the grammar, so
printing it is not covered by the assumption about the emitter. -/
theorem C70_case_broken_character :
    message broken = some ⟨"Undefined namespace prefix {}", some (str "p"), [⟨⟨str "main", 14, 15⟩, .primary, none⟩]⟩ ∧
      ¬ ∃ w, Quotes (texts broken) ⟨str "main", 14, 15⟩ w := by
  refine ⟨by decide +kernel, ?_⟩
  rintro ⟨w, txt, ht, pre, post, h1, h2, _⟩
  have e : txt = str "# 1234567890 é\nstart = external \"x\"" := by cases ht; rfl
  subst e
  have h : ∀ pre : Str, pre <+: str "# 1234567890 é\nstart = external \"x\"" → byteLen pre ≠ 14 := by
    have : ∀ k < 100, byteLen ((str "# 1234567890 é\nstart = external \"x\"").take k) ≠ 14 := by decide +kernel
    intro pre hp
    rw [List.prefix_iff_eq_take.1 hp]
    refine this _ (Nat.lt_of_le_of_lt hp.length_le ?_)
    decide
  exact h pre ⟨w ++ post, by rw [← List.append_assoc]; exact h1.symm⟩ h2.symm

/-- **C70**: the hypotheses of the general theorem are met -/
theorem C70_case_explains : Explains (texts badPrefix) (fun _ lit => some lit) (str "main") ext (fun _ => 0) (str "main")
    ⟨"Undefined namespace prefix {}", some (str "p"), [⟨⟨str "main", 16, 17⟩, .primary, none⟩]⟩ :=
  C70_diagnostics_point_at_the_fault (n := 30) (m := 30) (e := .undefinedNamespacePrefix ⟨str "main", 16, 17⟩ (str "p")) badPrefix_own badPrefix_parents
    (failure_eq (fs := badPrefix) (by decide +kernel)) rfl

theorem badPrefix_fails : compileFile (dir badPrefix) ext 30 30 (str "main") (.fresh []) =
    .error (.err (.undefinedNamespacePrefix ⟨str "main", 16, 17⟩ (str "p"))) := failure_eq (by decide +kernel)

/-- the schema without positions -/
theorem badPrefix_plain : Verif.compileFile (Verif.compactFiles (texts badPrefix) fun _ lit => some lit) ext 30 30 (str "main") CState.init =
    .error (.err (.undefinedNamespacePrefix (str "p"))) :=
  plain_error (e := .undefinedNamespacePrefix ⟨str "main", 16, 17⟩ (str "p")) badPrefix_fails nofun

/-- **C70**, C45: with an emitter that prints what it can, the tool ends as the one without positions. -/
theorem C70_case_tool {dump : SDiag → Bool} (h : PrintsSchema (texts badPrefix) dump) {order emits} {xmls : List Tool.XmlFile} :
    runTool (LCompact.compactFiles (texts badPrefix) fun _ lit => some lit) ext (fun _ => 0) dump order emits 30 30 (str "main") xmls = .exit 1 :=
  (C70_tool_exact badPrefix_own badPrefix_parents (fun _ t _ => ⟨t, [], [], by simp, rfl, by simp [byteLen]⟩) h).trans
    (C45_exit_one_iff.2 ⟨_, badPrefix_plain, rfl, rfl⟩)

end Verif.At.Ex
