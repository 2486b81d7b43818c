import Verif.Proof.CheckText
import Verif.Props.Needed
import Verif.Props.Panics
/-
C88: a mechanical test of schemas (Spec/Check).  For every schema that passes it and every document, the validator's verdict is
whether the document matches, and nothing panics but for the pattern limit and the datatypes.
-/
namespace Verif
open XS
section
variable {D V : Type} {L : Lib D V} {env : Env D V} {start : Pattern D V} {k : Nat}

/-- C88.  A schema that passes the test meets the conditions of C01, C02 and all that follows from them. -/
theorem C88_checked_schemas_are_well_formed (h : Check.schema env k start = true) : SchemaOK L env start true ∧ StartOK env start :=
  Check.schema_sound h

/-- C88.  For schemas that pass the tests, building a validator and validating any items a tokenizer can produce aborts only with the
pattern limit or because a datatype aborts. -/
theorem C88_checked_schemas_never_panic [DecidableEq D] [DecidableEq V] (h : Check.schema env k start = true)
    (ha : Check.noAlias env k start = true) (fuel : Nat) :
    (∀ e, newValidator env fuel start = .error e → e = .fuel ∨ e = .capacity) ∧
    ∀ s0, newValidator env fuel start = .ok s0 → ∀ es : List Event, Framed es → ∀ n e,
      runEvents L n es s0 = .error e → e = .fuel ∨ e = .capacity ∨ (e = .unimplemented ∧ ¬ L.Total) :=
  C06_no_internal_panic (Check.schema_sound h).1.relax (Check.noAlias_sound ha) fuel
end

section
variable {D V : Type} [DecidableEq D] [DecidableEq V] {L : Lib D V} {env : Env D V} {start : Pattern D V}

/-- C88.  The test decides: a schema passes, with references followed as far as the number of definitions
and references in them says, if and only if it meets the conditions of C01 and C02. -/
theorem C88_test_decides :
    Check.schema env (4 * env.length + (refsL env).length + 2) start = true ↔ SchemaOK L env start true ∧ StartOK env start :=
  Check.schema_decides

omit [DecidableEq D] [DecidableEq V] in
/-- C88.  So does the test for definitions that are just other names. -/
theorem C88_alias_test_decides :
    Check.noAlias env (4 * env.length + (refsL env).length + 2) start = true ↔ NoAlias env start :=
  Check.noAlias_decides

/-- C88.  And the test for data: a well-formed schema passes if and only if no element in it asks for anything but text as its character
data. -/
theorem C88_text_test_decides {c : Bool} (hs : SchemaOK L env start c) :
    Check.textSchema env (4 * env.length + (refsL env).length + 2) start = true ↔ ∀ nc q, ElemIn env start nc q → OnlyText env q :=
  Check.textSchema_decides hs

omit [DecidableEq D] [DecidableEq V] in
/-- C88.  Following references further changes no answer. -/
theorem C88_no_need_to_look_further {k : Nat} (hk : 4 * env.length + (refsL env).length + 2 ≤ k) :
    Check.schema env k start = Check.schema env (4 * env.length + (refsL env).length + 2) start ∧
    Check.noAlias env k start = Check.noAlias env (4 * env.length + (refsL env).length + 2) start ∧
    Check.textSchema env k start = Check.textSchema env (4 * env.length + (refsL env).length + 2) start :=
  ⟨Check.schema_settles hk start, Check.noAlias_settles hk start, Check.textSchema_settles hk start⟩
end

section
variable {x : Ext} {fuel n m m' k j : Nat} {name : Str} {F : Files} {st : CState} {rule : DefineRule}
  {s0 s' : VState Datatypes DatatypeValues} {r : Except VErr Unit} {d : XDoc}

/-- C88.  If the compiled schema passes the test, and either no element of it asks for data or character data in the document is
nowhere interrupted, then the document is accepted if and only if, as it is read, it matches the schema as its files say. -/
theorem C88_accepted_iff (hc : compileFile F x fuel m name (.fresh []) = .ok (k, st)) (hk : st.cell k = some rule)
    (hs : Check.schema st.env j rule.pattern = true) (hb : (Check.textSchema st.env j rule.pattern || Check.whole d.root) = true) (hg : d.Proper)
    (hnew : newValidator st.env n rule.pattern = .ok s0) (hrun : runToks (stdLib x) m' d.toks s0 = .ok (r, s')) :
    r = .ok () ↔ ReadMatches F x name d := by
  obtain ⟨h1, h2⟩ := Check.schema_sound (L := stdLib x) hs
  refine C86_accepted_iff hc hk h1 h2 hg ?_ hnew hrun
  rcases Bool.or_eq_true _ _ ▸ hb with h | h
  · exact Check.textSchema_sound h d
  · exact Check.whole_breaks h

/-- C88.  The same for schemas written in the compact syntax. -/
theorem C88_accepted_iff_compact {text : Str → Option Str} {sch : Str → Except LoadErr SSchema} {join : Str → Str → Option Str}
    (hw : Written text sch) (hc : compileFile (compactFiles text join) x fuel m name (.fresh []) = .ok (k, st)) (hk : st.cell k = some rule)
    (hs : Check.schema st.env j rule.pattern = true) (hb : (Check.textSchema st.env j rule.pattern || Check.whole d.root) = true) (hg : d.Proper)
    (hnew : newValidator st.env n rule.pattern = .ok s0) (hrun : runToks (stdLib x) m' d.toks s0 = .ok (r, s')) :
    r = .ok () ↔ ReadMatches ⟨sch, join⟩ x name d := by
  rw [C58_texts_compile_as_schemas hw] at hc
  exact C88_accepted_iff hc hk hs hb hg hnew hrun

/-- C88.  The same for schemas written in the XML syntax. -/
theorem C88_accepted_iff_xml {ok : Str → Bool} {text : Str → Option (Str × SchemaDoc)} {sch : Str → Except LoadErr SSchema}
    (hw : WrittenXml ok text sch) (hc : compileFile (xmlFiles ok text) x fuel m name (.fresh []) = .ok (k, st)) (hk : st.cell k = some rule)
    (hs : Check.schema st.env j rule.pattern = true) (hb : (Check.textSchema st.env j rule.pattern || Check.whole d.root) = true) (hg : d.Proper)
    (hnew : newValidator st.env n rule.pattern = .ok s0) (hrun : runToks (stdLib x) m' d.toks s0 = .ok (r, s')) :
    r = .ok () ↔ ReadMatches ⟨sch, joinPath⟩ x name d := by
  rw [C59_documents_compile_as_schemas hw] at hc
  exact C88_accepted_iff hc hk hs hb hg hnew hrun
end

/-! ### cases -/
namespace CheckEx
open Needed

/-- `start = doc`, `doc = element p:doc { attribute id { text }, mixed { item* } }`, `item = element p:item { attribute k { "a" }, item* }`
passes the tests -/
theorem C88_case : Check.schema Ex.env 10 Ex.start = true ∧ Check.noAlias Ex.env 10 Ex.start = true ∧ Check.whole Ex.doc.root = true := by
  refine ⟨?_, ?_, ?_⟩ <;> decide

/-- the tests decide it at the depth given, which is 12 -/
theorem C88_case_decided : 4 * Ex.env.length + (refsL Ex.env).length + 2 = 12 ∧
    SchemaOK Ex.lib Ex.env Ex.start true ∧ StartOK Ex.env Ex.start ∧ NoAlias Ex.env Ex.start :=
  ⟨rfl, (C88_test_decides.1 (by decide)).1, ((C88_test_decides (L := Ex.lib)).1 (by decide)).2,
    C88_alias_test_decides.1 (by decide)⟩

/-- no element of that schema asks for data (only an attribute does), but one of `element r { list { "a", "b" } }` does -/
theorem C88_case_text : (∀ nc q, ElemIn Ex.env Ex.start nc q → OnlyText Ex.env q) ∧
    ¬ ∀ nc q, ElemIn [] (mel 'r' (.list (.group [token 'a', token 'b']))) nc q → OnlyText [] q :=
  ⟨(C88_text_test_decides C88_case_decided.2.1).1 (by decide), fun h => by
    have := (C88_text_test_decides (C88_checked_schemas_are_well_formed (L := stdLib Ex.ext) (k := 2) (by decide)).1).2 h
    revert this
    decide⟩

/-- the schemas of C87 that are misjudged do not pass the test -/
theorem C88_misjudged_schemas_refused :
    Check.schema (D := Datatypes) (V := DatatypeValues) [] 10 (.group [mel 'a' .empty, mel 'b' .empty]) = false ∧
    Check.schema [] 10 (mel 'r' repeatedBody) = false ∧
    Check.schema [] 10 (mel 'r' (.interleave [.list (.group [token 'a', token 'b']), mel 'x' .empty])) = false ∧
    Check.schema [] 10 (mel 'r' (.list (.list (.group [token 'a', token 'b'])))) = false ∧
    Check.schema [aRule, dRule] 10 dRule = false := by
  refine ⟨?_, ?_, ?_, ?_, ?_⟩ <;> decide

/-- the theorem applied: `element r { element a { empty } }` (with namespace `u`), as an XML document, and `<p:r xmlns:p="u"><q:a/></p:r>` -/
theorem C88_case_applied (q : Str) {n m : Nat} {s0 s' : VState Datatypes DatatypeValues} {r : Except VErr Unit}
    (hnew : newValidator [SeenSourceEx.pattern] n SeenSourceEx.pattern = .ok s0)
    (hrun : runToks (stdLib Ex.ext) m (SeenSourceEx.doc q).toks s0 = .ok (r, s')) :
    r = .ok () ↔ ReadMatches ⟨SeenSourceEx.said, joinPath⟩ Ex.ext "s".toList (SeenSourceEx.doc q) := by
  obtain ⟨st, hc, hcells⟩ := SeenSourceEx.compiled
  have hk : st.cell 0 = some (.assignCombine none SeenSourceEx.pattern) := by simp only [CState.cell, hcells]; rfl
  have he : st.env = [SeenSourceEx.pattern] := by simp [CState.env, hcells, DefineRule.pattern]
  refine C88_accepted_iff_xml (j := 10) SeenSourceEx.written hc hk ?_ ?_ (SeenSourceEx.proper q) (he ▸ hnew) hrun
  · rw [he]; decide
  · rw [he, Bool.or_eq_true]; exact .inl (by decide)

end CheckEx
end Verif
