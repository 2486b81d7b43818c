import Verif.Proof.OrderFaults
import Verif.Props.SchemaExact
import Verif.Props.SchemaMeaning
/-
C81: the order and grouping in which a schema is written does not matter, neither for whether it compiles nor for what it
describes.
-/
namespace Verif.Order
open Verif
variable {F F' : Files} {x : Ext} {f : Str} {l l' : List (Str × SSchema)}

theorem compiled_expands (hl : Faithful F l) {n m k : Nat} {st : CState} (h : compileFile F x n m f (.fresh l) = .ok (k, st)) :
    ∀ a, FilePlace F f a → AllE F a :=
  fun a ha _ _ hi => (compileFile_passed (good_fresh hl) h _ ⟨a, ha, hi⟩).expands

theorem compiles_of_reordered (hF : Reordered F F') (hl : Faithful F l) (hl' : Faithful F' l') :
    (∃ n m k st, compileFile F x n m f (.fresh l) = .ok (k, st)) → ∃ n m k st, compileFile F' x n m f (.fresh l') = .ok (k, st) := by
  rintro ⟨n, m, k, st, h⟩
  obtain ⟨h1, h2⟩ := (C57_compiles_iff_faultless hl).mp ⟨n, m, k, st, h⟩
  refine (C57_compiles_iff_faultless hl').mpr ⟨fun e he => ?_, fun he => h2 (endless_sim hF.symm he)⟩
  exact h1 e (schemaFault_sim hF.symm (compiled_expands hl h) he)

theorem faithful_nil (F : Files) : Faithful F [] := fun _ _ h => nomatch h

/-- **C81**: a schema compiles if and only if it compiles with its definitions, alternatives and interleaved parts in any
other order and grouping, whatever has been loaded before. -/
theorem C81_compiles_in_any_order (h : Rearranged F F') (hl : Faithful F l) (hl' : Faithful F' l') :
    (∃ n m k st, compileFile F x n m f (.fresh l) = .ok (k, st)) ↔ ∃ n m k st, compileFile F' x n m f (.fresh l') = .ok (k, st) := by
  induction h generalizing l with
  | refl => exact ⟨compiles_of_reordered ⟨fun _ _ => rfl, fun f => sameLoad_refl _⟩ hl hl', compiles_of_reordered ⟨fun _ _ => rfl, fun f => sameLoad_refl _⟩ hl' hl⟩
  | step h1 _ ih =>
    refine Iff.trans ?_ (ih (l := []) (faithful_nil _) hl')
    exact ⟨compiles_of_reordered h1 hl (faithful_nil _), compiles_of_reordered h1.symm (faithful_nil _) hl⟩

/-- **C81**: and it describes the same documents. -/
theorem C81_same_meaning_in_any_order (h : Rearranged F F') (node : Node) : SchemaMatches F x f node ↔ SchemaMatches F' x f node := by
  induction h with
  | refl => exact Iff.rfl
  | step h1 _ ih => exact Iff.trans ⟨schema_same h1, schema_same h1.symm⟩ ih

/-- **C81**, end to end: if the schemas are well-formed, every document is accepted by both validators or rejected by both. -/
theorem C81_validators_agree (h : Rearranged F F') (hl : Faithful F l) (hl' : Faithful F' l') {n n' m m' k k' : Nat} {st st' : CState}
    (hc : compileFile F x n m f (.fresh l) = .ok (k, st)) (hc' : compileFile F' x n' m' f (.fresh l') = .ok (k', st'))
    {r r' : DefineRule} (hr : st.cell k = some r) (hr' : st'.cell k' = some r')
    (hs : SchemaOK (stdLib x) st.env r.pattern true) (h0 : StartOK st.env r.pattern)
    (hs' : SchemaOK (stdLib x) st'.env r'.pattern true) (h0' : StartOK st'.env r'.pattern)
    {d : XDoc} {node : Node} (ht : d.Tame) (hm : d.Means node) {fuel fuel' b b' : Nat} {v0 v v0' v' : VState Datatypes DatatypeValues}
    {res res' : Except VErr Unit} (hnew : newValidator st.env fuel r.pattern = .ok v0) (hrun : runToks (stdLib x) b d.toks v0 = .ok (res, v))
    (hnew' : newValidator st'.env fuel' r'.pattern = .ok v0') (hrun' : runToks (stdLib x) b' d.toks v0' = .ok (res', v')) :
    res = .ok () ↔ res' = .ok () := by
  constructor
  · rintro rfl
    have := C53_accepted_documents_match_source hl hc hr hs.relax h0 ht hm hnew hrun
    exact C53_matching_documents_accepted hl' hc' hr' hs' h0' ht hm hnew' hrun' ((C81_same_meaning_in_any_order h node).mp this)
  · rintro rfl
    have := C53_accepted_documents_match_source hl' hc' hr' hs'.relax h0' ht hm hnew' hrun'
    exact C53_matching_documents_accepted hl hc hr hs h0 ht hm hnew hrun ((C81_same_meaning_in_any_order h node).mpr this)

/-- **C81**: an endless schema is endless in any order. -/
theorem C81_endless_in_any_order (h : Rearranged F F') : Endless F f ↔ Endless F' f := by
  induction h with
  | refl => exact Iff.rfl
  | step h1 _ ih => exact Iff.trans ⟨endless_sim h1, endless_sim h1.symm⟩ ih

/-- **C81**: if in both orders the definitions of every grammar can be brought together (all includes can be followed, and
override only what is there), both have exactly the same faults; which one is reported may depend on the order. -/
theorem C81_same_faults (hF : Reordered F F')
    (h : ∀ w is, Occurs F f (.items w is) → ∃ ds, Expands F w.env is ds)
    (h' : ∀ w is, Occurs F' f (.items w is) → ∃ ds, Expands F' w.env is ds) (e : CFault) : SchemaFault F x f e ↔ SchemaFault F' x f e :=
  ⟨schemaFault_sim hF fun a ha _ _ hi => h' _ _ ⟨a, ha, hi⟩, schemaFault_sim hF.symm fun a ha _ _ hi => h _ _ ⟨a, ha, hi⟩⟩

/-! ### concrete cases

one:    namespace p = "urn:p"
        include "inc" { b = text }
        start = element p:r { a, grammar { start = element (q | s) { parent b } } }
inc:    a |= element x { b }
        a |= b | (element y { b } | element z { b })
        b = empty

two:    namespace p = "urn:p"
        div { start = element p:r { a, (grammar { [..] start = element (s | q) { parent b } }) } }
        include "inc" { b = text }
inc:    b = empty
        div { a |= element z { b } | b | element y { b }  a |= element x { b } }
-/
namespace Ex
open Verif.Ex (dir str el def' outcome)

def b : SPattern := .ident (str "b")

def oneFiles : List (Str × SSchema) :=
  [(str "main", ⟨[.namespace (str "p") (some (str "urn:p"))], .grammar [
      .include (str "inc") none [.define (str "b") .assign .text],
      def' "start" (.element (.cname (str "p") (str "r")) (.seq (.ident (str "a")) (.grammar [
        def' "start" (.element (.alt (.ident (str "q")) (.ident (str "s"))) (.parent (str "b")))])))]⟩),
   (str "inc", ⟨[], .grammar [.define (str "a") .choice (el "x" b),
      .define (str "a") .choice (.choice b (.paren (.choice (el "y" b) (el "z" b)))), def' "b" .empty]⟩)]

def twoMain : SSchema := ⟨[.namespace (str "p") (some (str "urn:p"))], .grammar [
  .div [def' "start" (.element (.cname (str "p") (str "r")) (.seq (.ident (str "a")) (.paren (.grammar [.annotation,
    def' "start" (.element (.alt (.ident (str "s")) (.ident (str "q"))) (.parent (str "b")))]))))],
  .include (str "inc") none [.define (str "b") .assign .text]]⟩

def twoInc (p : SPattern) : SSchema := ⟨[], .grammar [def' "b" .empty, .div [.define (str "a") .choice p, .define (str "a") .choice (el "x" b)]]⟩

def twoFiles : List (Str × SSchema) := [(str "main", twoMain), (str "inc", twoInc (.choice (el "z" b) (.choice b (el "y" b))))]

theorem dir_reordered {ms ms' is is' : SSchema} (hm : SameSchema ms ms') (hi : SameSchema is is') :
    Reordered (dir [(str "main", ms), (str "inc", is)]) (dir [(str "main", ms'), (str "inc", is')]) := by
  refine ⟨fun _ _ => rfl, fun f => ?_⟩
  simp only [dir, List.lookup_cons, List.lookup_nil]
  cases f == str "main" with
  | true => exact .ok hm
  | false =>
    cases f == str "inc" with
    | true => exact .ok hi
    | false => exact .error

theorem swapped_names : SameNames (.alt (.ident (str "q")) (.ident (str "s"))) (.alt (.ident (str "s")) (.ident (str "q"))) :=
  ⟨fun _ _ => Or.comm, fun _ => by simp [SNameClass.prefixes]⟩

theorem twoInc_same {p q : SPattern} (h : SameP p q) : SameSchema (twoInc p) (twoInc q) :=
  .grammar (.items (.entries (l := []) (.define .empty) (.entries (l := []) (.define h) (.entries (l := []) (.define (sameP_refl _)) .noEntries))))

/-- the two versions differ only in order and grouping -/
theorem C81_case : Rearranged (dir oneFiles) (dir twoFiles) := by
  refine .step (F' := dir [(str "main", twoMain), (str "inc", twoInc (.choice b (.choice (el "y" b) (el "z" b))))]) (dir_reordered ?_ ?_)
    (.step (F' := dir [(str "main", twoMain), (str "inc", twoInc (.choice (.choice b (el "y" b)) (el "z" b)))]) (dir_reordered ?_ (twoInc_same ?_))
    (.step (dir_reordered ?_ (twoInc_same ?_)) .refl))
  · refine .grammar (.items (.entries (l := [_]) (r := []) (.includes (same_overrides_refl _)) (.entries (l := []) ?_ .noEntries)))
    refine .define (.element .refl (.seq .ident (.parenRight (.grammar (.items (.entries (l := []) (.define ?_) .noEntries))))))
    exact .element swapped_names .parent
  · refine .grammar (.items (.entries (l := [_, _]) (r := []) (.define (sameP_refl _)) (.entries (l := [_]) (r := []) ?_
      (.entries (l := []) (.define .empty) .noEntries))))
    exact .define (.choice (sameP_refl _) (.parenLeft (sameP_refl _)))
  · exact .grammar (.items (matched_entries (same_items_refl _)))
  · exact .choiceRight (sameP_refl _) (sameP_refl _) (sameP_refl _)
  · exact .grammar (.items (matched_entries (same_items_refl _)))
  · exact .choiceSwap (sameP_refl _) (sameP_refl _)

/-- and both compile -/
theorem C81_case_compiles : Verif.Ex.compiles oneFiles = true ∧ Verif.Ex.compiles twoFiles = true := by decide +kernel

/-- they can therefore be used in `C81_same_faults` -/
theorem C81_case_faults (e : CFault) : ¬ SchemaFault (dir oneFiles) Verif.Ex.ext (str "main") e ∧ ¬ SchemaFault (dir twoFiles) Verif.Ex.ext (str "main") e :=
  ⟨Verif.Ex.compiles_faultless _ C81_case_compiles.1 e, Verif.Ex.compiles_faultless _ C81_case_compiles.2 e⟩

def faulty (is : List SItem) : List (Str × SSchema) := [(str "main", ⟨[], .grammar is⟩)]

def f1 : SItem := .include (str "nowhere") none []
def f2 : SItem := def' "a" (.ident (str "a"))

/-- **C81**, what does depend on the order: which of several faults is reported, here of `include "nowhere"` and `a = a`. -/
theorem C81_reported_fault_depends_on_order :
    outcome (faulty [f1, f2]) = .error (.err (.inInclude (.load .io))) ∧ outcome (faulty [f2, f1]) = .error (.err (.recursiveReference (str "a"))) := ⟨rfl, rfl⟩

def withInc (p : SPattern) : List (Str × SSchema) :=
  [(str "main", ⟨[], .grammar [.include (str "inc") none [], def' "start" (el "r" .empty)]⟩), (str "inc", ⟨[], .pattern p⟩)]

/-- **C81**, why the parentheses around a whole file are left alone: a file that is one grammar in parentheses cannot be
included, without them it can. -/
theorem C81_parenthesized_grammar_not_included :
    outcome (withInc (.paren (.grammar []))) = .error (.err (.inInclude .includedFileMustBeGrammar)) ∧
    ∃ cells, outcome (withInc (.grammar [])) = .ok cells := ⟨rfl, _, rfl⟩

end Ex
end Verif.Order
