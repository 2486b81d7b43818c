import Verif.Props.Alike
import Verif.Props.CompactCases
import Verif.Props.XmlCases
/-
Concrete schemas in both syntaxes: cases for C61, and where the syntaxes differ.
-/
namespace Verif.Ex
open Verif XS

/-! ### a compact schema and its translation -/

/-- the schema of `C58_case` -/
def schema61 : SSchema :=
  ⟨[.namespace ['x'] (some ['u'])], .grammar [.define "start".toList .assign (.element (.cname ['x'] ['a']) (.zeroOrMore (ref "c"))),
    .define ['c'] .choice .text]⟩

def text61 : Str := "namespace x = \"u\"\n\nstart = element x:a { c* } # the root\nc |= text\n".toList

theorem C61_case_written : Written (fun f => if f = str "main" then some text61 else none) (fun f => if f = str "main" then .ok schema61 else .error .io) := by
  intro f
  by_cases h : f = str "main"
  · exact .inr ⟨_, _, if_pos h, if_pos h, C58_case⟩
  · exact .inl ⟨if_neg h, if_neg h⟩

/-- the hypothesis of `C61_translation_says_the_same` -/
theorem C61_case_translatable : ToXml.SchemaOk (fun v => anyLib v = true) (str "main") schema61 where
  decls := ⟨fun d hd => by
      have : d = .namespace ['x'] (some ['u']) := List.mem_singleton.1 hd
      subst this
      exact ⟨fun _ h => (nomatch h), fun _ h => (nomatch h)⟩, by decide⟩
  body := ⟨⟨xmlNcname_iff.1 rfl, ⟨rfl, xmlNcname_iff.1 rfl⟩, nameC⟩, ⟨nameC, True.intro⟩, True.intro⟩

/-- its translation -/
theorem C61_case_translation : ToXml.schema (str "main") schema61 =
    rng "grammar" []
      [rng "start" [] [rng "element" [] [rng "name" [at' "ns" "u"] [txt "a"], rng "zeroOrMore" [] [rng "ref" [at' "name" "c"] []]]],
       rng "define" [at' "name" "c", at' "combine" "choice"] [rng "text" [] []]] := rfl

/-- the hypotheses of `C61_texts_compile_like_their_translation`, and its result -/
theorem C61_case : ∃ N, ∀ n', N ≤ n' →
    outcomeOf (compileFile (xmlFiles anyLib (translated fun f => if f = str "main" then .ok schema61 else .error .io)) ext n' 5 (str "main") (.fresh [])) =
    .ok (1, [some (.combineOnly .choice (.choice [.text])), some (.assignCombine none (.element (.named ['u'] ['a']) (.zeroOrMore (.ref 0))))]) := by
  refine C61_texts_compile_like_their_translation (n := 30) C61_case_written (fun f s h => ?_) ?_ (fun h => nomatch h)
  · by_cases hf : f = str "main"
    · rw [if_pos hf] at h; cases h; subst hf; exact C61_case_translatable
    · rw [if_neg hf] at h; cases h
  · rw [C58_texts_compile_as_schemas C61_case_written]; rfl

/-! ### a document of its own -/

/-- ```
<element name="r" ns="u">
  <element name="a"><text/></element>
  <attribute name="b" ns=""/>
  <ref name="c"/>
</element>
``` in a `start`: three children without a `group` -/
def doc61 : TNode :=
  rng "grammar" []
    [rng "start" [] [rng "element" [at' "name" "r", at' "ns" "u"] [rng "element" [at' "name" "a"] [rng "text" [] []], rng "attribute" [at' "name" "b", at' "ns" ""] [],
      rng "ref" [at' "name" "c"] []]],
     rng "define" [at' "name" "c"] [rng "empty" [] []]]

def read61 : SSchema :=
  ⟨[], .grammar [.define (str "start") .assign (.element (.namespaced (str "u") (str "r"))
      (.seq (.seq (.element (.namespaced (str "u") (str "a")) .text) (.attribute (.namespaced [] (str "b")) .text)) (.ident (str "c")))),
    .define (str "c") .assign .empty]⟩

/-- `namespace x = "u"  start = element x:r { element x:a { text }, (attribute b { text }, c) }  c = empty` -/
def compact61 : SSchema :=
  ⟨[.namespace (str "x") (some (str "u"))], .grammar [.define (str "start") .assign (.element (.cname (str "x") (str "r"))
      (.seq (.element (.cname (str "x") (str "a")) .text) (.paren (.seq (.attribute (.ident (str "b")) .text) (.ident (str "c")))))),
    .annotation, .define (str "c") .assign .empty]⟩

set_option maxRecDepth 100000 in
theorem C61_case_read : parseXml anyLib doc61 = some read61 := rfl

set_option maxRecDepth 100000 in
theorem C61_case_parsed :
    rnc "namespace x = \"u\" start = element x:r { element x:a { text }, (attribute b { text }, c) } x:note [ ] c = empty" = .ok compact61 := rfl

/-- they say the same -/
theorem C61_case_alike : AlikeSchema (str "main") compact61 read61 := by
  refine ⟨⟨fun d hd => ?_, by decide⟩, ⟨nofun, by decide⟩, .grammar (.cons (.define (.element ⟨_, rfl, rfl⟩ ?_)) (.annotationLeft (.cons (.define .empty) .nil)))⟩
  · have : d = .namespace (str "x") (some (str "u")) := List.mem_singleton.1 hd
    subst this
    exact ⟨fun _ h => (nomatch h), fun _ h => (nomatch h)⟩
  · exact .op (o := .seq) (.op .one (.paren (.op .one .one))) (.op (.op .one .one) .one) (by decide)
      (.cons (.element ⟨_, rfl, rfl⟩ .text) (.cons (.attribute ⟨_, rfl, rfl⟩ .text) (.cons .ident .nil)))

/-- the hypothesis of `C61_alike_files_agree`, and its result -/
theorem C61_case_agree : outcome [(str "main", compact61)] = outcome [(str "main", read61)] := by
  have h : AlikeFiles (dir [(str "main", compact61)]) (dir [(str "main", read61)]) := by
    refine ⟨rfl, fun f => ?_⟩
    simp only [dir, List.lookup]
    by_cases hf : f = str "main"
    · subst hf; rw [show (str "main" == str "main") = true from rfl]; exact .ok C61_case_alike
    · rw [show (f == str "main") = false from by simpa using hf]; exact .error
  have e := C61_alike_files_agree (x := ext) h (n := 30) (n' := 30) (m := 30) (name := str "main") (fun h => nomatch h) (fun h => nomatch h)
  unfold outcome
  revert e
  cases compileFile (dir [(str "main", compact61)]) ext 30 30 (str "main") (.fresh []) <;>
    cases compileFile (dir [(str "main", read61)]) ext 30 30 (str "main") (.fresh []) <;> intro e <;>
    simp_all [outcomeOf]

/-! ### where they differ -/

/-- **C61**, a difference: the element `grammar` is read as the grammar of the file, `grammar { .. }` in a compact file as a pattern.
An additional rule, without contents, is the result here ... -/
theorem C61_grammar_keyword :
    rnc "grammar { start = element a { empty } }" = .ok ⟨[], .pattern (.grammar [def' "start" (el "a" .empty)])⟩ ∧
    outcome [(str "main", ⟨[], .pattern (.grammar [def' "start" (el "a" .empty)])⟩)] =
      .ok [none, some (.assignCombine none (.element (.named [] (str "a")) .empty))] ∧
    outcome [(str "main", ⟨[], .grammar [def' "start" (el "a" .empty)]⟩)] = .ok [some (.assignCombine none (.element (.named [] (str "a")) .empty))] :=
  ⟨rfl, rfl, rfl⟩

/-- ... and another error here. -/
theorem C61_grammar_keyword_parent :
    rnc "grammar { start = element a { parent b } }" = .ok ⟨[], .pattern (.grammar [def' "start" (el "a" (.parent (str "b")))])⟩ ∧
    outcome [(str "main", ⟨[], .pattern (.grammar [def' "start" (el "a" (.parent (str "b")))])⟩)] = .error (.err (.undefinedReference (str "b"))) ∧
    outcome [(str "main", ⟨[], .grammar [def' "start" (el "a" (.parent (str "b")))]⟩)] = .error (.err .noParentAvailable) :=
  ⟨rfl, rfl, rfl⟩

end Verif.Ex
