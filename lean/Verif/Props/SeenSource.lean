import Verif.Props.SeenTool
import Verif.Props.XmlCases
/-
C86: the library from end to end: schemas as texts of either syntax, and any documents.
-/
namespace Verif
open XS
section
variable {x : Ext} {fuel n m m' k : Nat} {name : Str} {F : Files} {st : CState} {rule : DefineRule}
  {s0 s' : VState Datatypes DatatypeValues} {r : Except VErr Unit} {d : XDoc}

/-- C86.  A document is accepted by a validator for a compiled schema if and only if, as it is read, it matches the schema as its
files say. -/
theorem C86_accepted_iff (hc : compileFile F x fuel m name (.fresh []) = .ok (k, st)) (hk : st.cell k = some rule)
    (hs : SchemaOK (stdLib x) st.env rule.pattern true) (h0 : StartOK st.env rule.pattern)
    (hg : d.Proper) (hb : d.SeenBreaksOnlyText st.env rule.pattern)
    (hnew : newValidator st.env n rule.pattern = .ok s0) (hrun : runToks (stdLib x) m' d.toks s0 = .ok (r, s')) :
    r = .ok () ↔ ReadMatches F x name d := by
  obtain ⟨r', hr', hiff⟩ := C53_compiled_schema_means_its_source (l := []) (fun _ _ h => by cases h) hc
  rw [hk] at hr'; cases hr'
  rw [C83_accepted_iff hs h0 hg hb hnew hrun]
  exact exists_congr fun node => and_congr_right fun _ => hiff node

/-- C86.  The same for schemas written in the compact syntax. -/
theorem C86_accepted_iff_compact {text : Str → Option Str} {sch : Str → Except LoadErr SSchema} {join : Str → Str → Option Str}
    (hw : Written text sch) (hc : compileFile (compactFiles text join) x fuel m name (.fresh []) = .ok (k, st)) (hk : st.cell k = some rule)
    (hs : SchemaOK (stdLib x) st.env rule.pattern true) (h0 : StartOK st.env rule.pattern)
    (hg : d.Proper) (hb : d.SeenBreaksOnlyText st.env rule.pattern)
    (hnew : newValidator st.env n rule.pattern = .ok s0) (hrun : runToks (stdLib x) m' d.toks s0 = .ok (r, s')) :
    r = .ok () ↔ ReadMatches ⟨sch, join⟩ x name d := by
  rw [C58_texts_compile_as_schemas hw] at hc
  exact C86_accepted_iff hc hk hs h0 hg hb hnew hrun

/-- C86.  The same for schemas written in the XML syntax. -/
theorem C86_accepted_iff_xml {ok : Str → Bool} {text : Str → Option (Str × SchemaDoc)} {sch : Str → Except LoadErr SSchema}
    (hw : WrittenXml ok text sch) (hc : compileFile (xmlFiles ok text) x fuel m name (.fresh []) = .ok (k, st)) (hk : st.cell k = some rule)
    (hs : SchemaOK (stdLib x) st.env rule.pattern true) (h0 : StartOK st.env rule.pattern)
    (hg : d.Proper) (hb : d.SeenBreaksOnlyText st.env rule.pattern)
    (hnew : newValidator st.env n rule.pattern = .ok s0) (hrun : runToks (stdLib x) m' d.toks s0 = .ok (r, s')) :
    r = .ok () ↔ ReadMatches ⟨sch, joinPath⟩ x name d := by
  rw [C59_documents_compile_as_schemas hw] at hc
  exact C86_accepted_iff hc hk hs h0 hg hb hnew hrun
end

/-! ### a case: `<element name="r" ns="u"><element name="a"><empty/></element></element>` -/
namespace SeenSourceEx
open Ex Rng

def schemaDoc : TNode := rng "element" [at' "name" "r", at' "ns" "u"] [rng "element" [at' "name" "a"] [rng "empty" [] []]]

def texts : Str → Option (Str × SchemaDoc) := fun f => if f = "s".toList then some ([], .tree schemaDoc) else none

def said : Str → Except LoadErr SSchema := fun f => if f = "s".toList then
  .ok ⟨[], .pattern (.element (.namespaced ['u'] ['r']) (.element (.namespaced ['u'] ['a']) .empty))⟩ else .error .io

theorem written : WrittenXml anyLib texts said := by
  intro f
  by_cases hf : f = "s".toList
  · refine .inr ⟨_, schemaDoc, _, if_pos hf, if_pos hf, ?_⟩
    refine .pattern (by decide) (.mk (anyLib_ok _) (.element (noAttsExcept_iff.1 rfl) (has "name" "r" _)
      (.plain (xmlNcname_iff.1 rfl) (.here (has2 "name" "r" "ns" "u" [] (by decide)))) (.cons (.mk (anyLib_ok _) ?_) .nil) .one))
    exact .element (noAttsExcept_iff.1 rfl) (has "name" "a" _)
      (.plain (xmlNcname_iff.1 rfl) (.up (hasNot rfl) (.here (has2 "name" "r" "ns" "u" [] (by decide)))))
      (.cons (.mk (anyLib_ok _) (.empty nofun nofun)) .nil) .one
  · exact .inl ⟨if_neg hf, if_neg hf⟩

def pattern : MPattern := .element (.named ['u'] ['r']) (.element (.named ['u'] ['a']) .empty)

theorem compiled : ∃ st, compileFile (xmlFiles anyLib texts) ext 30 30 "s".toList (.fresh []) = .ok (0, st) ∧
    st.cells = [some (.assignCombine none pattern)] := by
  rw [C59_documents_compile_as_schemas written]
  exact ⟨_, rfl, rfl⟩

theorem ok {env : Env Datatypes DatatypeValues} {x : Ext} : SchemaOK (stdLib x) env pattern true ∧ StartOK env pattern ∧
    ∀ d : XDoc, d.SeenBreaksOnlyText env pattern := by
  refine ⟨⟨fun p => p = .element (.named ['u'] ['a']) .empty ∨ p = .empty, ?_, .element (.inl rfl)⟩, .element, fun d nm nc q _ he _ => ?_⟩
  · rintro p (rfl | rfl)
    · exact .element (.inr rfl)
    · exact .empty
  · cases he with
    | here => exact .element
    | element h =>
      cases h with
      | here => exact .empty
      | element h => cases h

/-- `<p:r xmlns:p="u"><q:a/></p:r>`, with a prefix `q` -/
def doc (q : Str) : XDoc := ⟨[], ['p'], ['r'], [⟨"xmlns".toList, ['p'], ['u']⟩], false, [.elem q ['a'] [] true []], []⟩

theorem proper (q : Str) : (doc q).Proper := by simp [XDoc.Proper, XDoc.root, doc, properL, XNode.proper]

/-- the theorem applied: the verdict on `<p:r xmlns:p="u"><q:a/></p:r>` for any prefix `q` -/
theorem C86_case (q : Str) {n m : Nat} {env : Env Datatypes DatatypeValues} {s0 s' : VState Datatypes DatatypeValues} {r : Except VErr Unit}
    (henv : env = [pattern]) (hnew : newValidator env n pattern = .ok s0) (hrun : runToks (stdLib ext) m (doc q).toks s0 = .ok (r, s')) :
    r = .ok () ↔ ReadMatches ⟨said, joinPath⟩ ext "s".toList (doc q) := by
  obtain ⟨st, hc, hcells⟩ := compiled
  have hk : st.cell 0 = some (.assignCombine none pattern) := by simp only [CState.cell, hcells]; rfl
  have he : st.env = env := by rw [henv]; simp [CState.env, hcells, DefineRule.pattern]
  rw [← he] at hnew
  exact C86_accepted_iff_xml written hc hk (ok (x := ext)).1 (ok (x := ext)).2.1 (proper q) ((ok (x := ext)).2.2 _) hnew hrun

def v0 : VState Datatypes DatatypeValues :=
  match newValidator [pattern] 30 pattern with
  | .ok s => s
  | .error _ => ⟨Store.init, 0, false, [], []⟩

theorem new_ok : newValidator [pattern] 30 pattern = .ok v0 := by
  have : (match newValidator [pattern] 30 pattern with | .ok _ => true | .error _ => false) = true := by decide +kernel
  unfold v0
  split at this
  · rename_i h; rw [h]
  · cases this

/-- for the prefix `p` it matches, for an undeclared one or none it does not -/
theorem C86_case_both : ReadMatches ⟨said, joinPath⟩ ext "s".toList (doc ['p']) ∧ ¬ ReadMatches ⟨said, joinPath⟩ ext "s".toList (doc ['q']) ∧
    ¬ ReadMatches ⟨said, joinPath⟩ ext "s".toList (doc []) := by
  have run (q : Str) (b : Bool) (h : (match runToks (stdLib ext) 30 (doc q).toks v0 with
      | .ok (.ok (), _) => some true | .ok (.error _, _) => some false | .error _ => none) = some b) :
      (b = true ↔ ReadMatches ⟨said, joinPath⟩ ext "s".toList (doc q)) := by
    split at h
    · rename_i hr; cases h; rw [← C86_case q rfl new_ok hr]; simp
    · rename_i hr; cases h; rw [← C86_case q rfl new_ok hr]; simp
    · cases h
  refine ⟨(run ['p'] true (by decide +kernel)).1 rfl, fun h => ?_, fun h => ?_⟩
  · exact absurd ((run ['q'] false (by decide +kernel)).2 h) (by decide)
  · exact absurd ((run [] false (by decide +kernel)).2 h) (by decide)

end SeenSourceEx
end Verif
