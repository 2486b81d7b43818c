import Verif.Props.Seen
import Verif.Props.Tool
import Verif.Props.Compact
import Verif.Props.ToolCases
/-
C84: the exit status of the tool, end to end: from the texts of the schema and the tokens of any documents.
-/
namespace Verif
open Loc Tool
section
variable {text : Str → Option Str} {sch : Str → Except LoadErr SSchema} {join : Str → Str → Option Str} {x : Ext}
  {order : List (Pat Datatypes DatatypeValues) → List (Pat Datatypes DatatypeValues)}
  {emits : Str → List Diag → Bool} {fuel n : Nat} {schema : Str} {xmls : List XmlFile} {F : Files}

/-- the document, as it is read, matches the schema as written -/
def ReadMatches (F : Files) (x : Ext) (schema : Str) (d : XDoc) : Prop := ∃ node, d.Seen node ∧ SchemaMatches F x schema node

/-- the items of the file are the tokens of the document -/
def FileIs (f : XmlFile) (d : XDoc) : Prop := IsDocument f d ∧ d.Proper

/-- the conditions on the schema and the documents: if it compiles, the schema is well-formed, and where character data in one of
the documents is interrupted it asks for nothing but text -/
def Covered (F : Files) (x : Ext) (c : Bool) (fuel : Nat) (schema : Str) (xmls : List XmlFile) : Prop :=
  ∀ k st r, compileFile F x fuel fuel schema CState.init = .ok (k, st) → st.cell k = some r →
    SchemaOK (stdLib x) st.env r.pattern c ∧ StartOK st.env r.pattern ∧
    ∀ f ∈ xmls, ∀ d, FileIs f d → d.SeenBreaksOnlyText st.env r.pattern

theorem accepts_seen (hok : Covered F x false fuel schema xmls) {k st r}
    (hc : compileFile F x fuel fuel schema CState.init = .ok (k, st)) (hr : st.cell k = some r) {f} (hf : f ∈ xmls) {d : XDoc}
    (hd : FileIs f d) (h : AcceptsFile (stdLib x) fuel n st.env r.pattern f) : ReadMatches F x schema d := by
  obtain ⟨hs, h0, hall⟩ := hok k st r hc hr
  have hb := hall f hf d hd
  obtain ⟨⟨txt, items, rfl, hi⟩, hg⟩ := hd
  obtain ⟨s0, hnew, s, hrun⟩ := h
  have hp := itemLoop_plain (L := stdLib x) (n := n) (s := s0) hi
  rw [itemLoop_none.2 hrun] at hp
  have hnew' : Verif.newValidator st.env fuel r.pattern = .ok s0.plain := by rw [newValidator_plain, hnew]; rfl
  obtain ⟨node, h1, h2⟩ := C83_accepted_documents_match hs h0 hg hb hnew' hp
  obtain ⟨r', hr', hiff⟩ := C53_compiled_schema_means_its_source (l := []) (fun _ _ h => by cases h) hc
  rw [hr] at hr'; cases hr'
  exact ⟨node, h1, (hiff node).mp h2⟩

theorem refuses_seen (hok : Covered F x true fuel schema xmls) {k st r}
    (hc : compileFile F x fuel fuel schema CState.init = .ok (k, st)) (hr : st.cell k = some r) {txt items before i e s0 s}
    (hf : XmlFile.doc txt items ∈ xmls) {d : XDoc} (hd : FileIs (.doc txt items) d)
    (hnew : Loc.newValidator st.env fuel r.pattern = .ok s0) (href : RefusesAt (stdLib x) n s0 items before i e s) :
    ¬ ReadMatches F x schema d := by
  rintro ⟨node, h1, h2⟩
  obtain ⟨hs, h0, hall⟩ := hok k st r hc hr
  have hb := hall _ hf d hd
  obtain ⟨⟨txt', items', heq, hi⟩, hg⟩ := hd
  cases heq
  have hp := itemLoop_plain (L := stdLib x) (n := n) (s := s0) hi
  rw [itemLoop_some.2 ⟨before, i, href⟩] at hp
  have hnew' : Verif.newValidator st.env fuel r.pattern = .ok s0.plain := by rw [newValidator_plain, hnew]; rfl
  obtain ⟨r', hr', hiff⟩ := C53_compiled_schema_means_its_source (l := []) (fun _ _ h => by cases h) hc
  rw [hr] at hr'; cases hr'
  have := C83_documents_matching_as_read_accepted hs h0 hg hb h1 hnew' hp ((hiff node).mpr h2)
  cases this

/-- C84.  Exit status 0: the schema has no fault, and every document, as it is read, matches the schema as its files say. -/
theorem C84_exit_zero_means (h : Tool.run F x order emits fuel n schema xmls = .exit 0) (hok : Covered F x false fuel schema xmls) :
    (¬ ∃ e, SchemaFault F x schema e) ∧ ∀ f ∈ xmls, ∀ d, FileIs f d → ReadMatches F x schema d := by
  obtain ⟨k, st, r, hc, hr, hall⟩ := C45_exit_zero_iff.1 h
  refine ⟨?_, fun f hf d hd => accepts_seen hok hc hr hf hd (hall f hf)⟩
  rintro ⟨e, he⟩
  rcases (C45_exit_code_and_schema_faults (order := order) (emits := emits) (n := n) (xmls := xmls) (fuel := fuel) (F := F) (by rw [h]; nofun)).2 e he with h' | h' <;>
    rw [h] at h' <;> cases h'

/-- C84.  Exit status 2: some document, as it is read, does not match the schema (and all before it in the command line do). -/
theorem C84_exit_two_means (h : Tool.run F x order emits fuel n schema xmls = .exit 2) (hok : Covered F x true fuel schema xmls)
    (hdocs : ∀ f ∈ xmls, ∃ d, FileIs f d) :
    (¬ ∃ e, SchemaFault F x schema e) ∧ ∃ pre f rest, xmls = pre ++ f :: rest ∧
      (∀ g ∈ pre, ∀ d, FileIs g d → ReadMatches F x schema d) ∧
      (∃ d, FileIs f d) ∧ ∀ d, FileIs f d → ¬ ReadMatches F x schema d := by
  constructor
  · rintro ⟨e, he⟩
    rcases (C45_exit_code_and_schema_faults (order := order) (emits := emits) (n := n) (xmls := xmls) (fuel := fuel) (F := F) (by rw [h]; nofun)).2 e he with h' | h' <;>
      rw [h] at h' <;> cases h'
  obtain ⟨k, st, r, pre, txt, items, rest, s0, before, i, e, s, ds, s', hc, hr, rfl, hpre, hnew, href, _⟩ := C45_exit_two_iff.1 h
  have hok' : Covered F x false fuel schema (pre ++ .doc txt items :: rest) := fun k st r h1 h2 => by
    obtain ⟨a, b, c⟩ := hok k st r h1 h2
    exact ⟨a.relax, b, c⟩
  exact ⟨pre, _, rest, rfl, fun g hg d' hd' => accepts_seen hok' hc hr (by simp [hg]) hd' (hpre g hg), hdocs _ (by simp),
    fun d hd => refuses_seen hok hc hr (by simp) hd hnew href⟩

/-- C84.  If the tool exits with a status at all: it is 1 exactly if the schema has a fault, otherwise 0 or 2, and 0 exactly if
every document, as it is read, matches the schema as written. -/
theorem C84_exit_status {c : Nat} (h : Tool.run F x order emits fuel n schema xmls = .exit c) (hok : Covered F x true fuel schema xmls)
    (hdocs : ∀ f ∈ xmls, ∃ d, FileIs f d) :
    (c = 1 ↔ ∃ e, SchemaFault F x schema e) ∧
    (c = 0 ↔ (¬ ∃ e, SchemaFault F x schema e) ∧ ∀ f ∈ xmls, ∀ d, FileIs f d → ReadMatches F x schema d) ∧
    (c = 2 ↔ (¬ ∃ e, SchemaFault F x schema e) ∧ ∃ f ∈ xmls, ∃ d, FileIs f d ∧ ¬ ReadMatches F x schema d) := by
  have hok' : Covered F x false fuel schema xmls := fun k st r h1 h2 => by
    obtain ⟨a, b, c⟩ := hok k st r h1 h2
    exact ⟨a.relax, b, c⟩
  have e0 : c = 0 → (¬ ∃ e, SchemaFault F x schema e) ∧ ∀ f ∈ xmls, ∀ d, FileIs f d → ReadMatches F x schema d := by
    rintro rfl; exact C84_exit_zero_means h hok'
  have e2 : c = 2 → (¬ ∃ e, SchemaFault F x schema e) ∧ ∃ f ∈ xmls, ∃ d, FileIs f d ∧ ¬ ReadMatches F x schema d := by
    rintro rfl
    obtain ⟨a, pre, f, rest, rfl, _, ⟨d, b⟩, c⟩ := C84_exit_two_means h hok hdocs
    exact ⟨a, f, by simp, d, b, c d b⟩
  have e1 : c = 1 → ∃ e, SchemaFault F x schema e := by
    rintro rfl
    exact (C45_exit_code_and_schema_faults (by rw [h]; nofun)).1 h
  refine ⟨⟨e1, fun hf => ?_⟩, ⟨e0, fun hf => ?_⟩, ⟨e2, fun hf => ?_⟩⟩
  · rcases C45_exit_codes h with rfl | rfl | rfl
    · exact absurd hf (e0 rfl).1
    · rfl
    · exact absurd hf (e2 rfl).1
  · rcases C45_exit_codes h with rfl | rfl | rfl
    · rfl
    · exact absurd (e1 rfl) hf.1
    · obtain ⟨_, f, h1, d, h2, h3⟩ := e2 rfl
      exact absurd (hf.2 f h1 d h2) h3
  · rcases C45_exit_codes h with rfl | rfl | rfl
    · obtain ⟨_, f, h1, d, h2, h3⟩ := hf
      exact absurd ((e0 rfl).2 f h1 d h2) h3
    · exact absurd (e1 rfl) hf.1
    · rfl

/-- C84.  The same from the texts of the schema's files: `sch` is what the texts say. -/
theorem C84_exit_status_texts {c : Nat} (hw : Written text sch)
    (h : Tool.run (compactFiles text join) x order emits fuel n schema xmls = .exit c) (hok : Covered ⟨sch, join⟩ x true fuel schema xmls)
    (hdocs : ∀ f ∈ xmls, ∃ d, FileIs f d) :
    (c = 1 ↔ ∃ e, SchemaFault ⟨sch, join⟩ x schema e) ∧
    (c = 0 ↔ (¬ ∃ e, SchemaFault ⟨sch, join⟩ x schema e) ∧ ∀ f ∈ xmls, ∀ d, FileIs f d → ReadMatches ⟨sch, join⟩ x schema d) ∧
    (c = 2 ↔ (¬ ∃ e, SchemaFault ⟨sch, join⟩ x schema e) ∧ ∃ f ∈ xmls, ∃ d, FileIs f d ∧ ¬ ReadMatches ⟨sch, join⟩ x schema d) := by
  rw [C58_texts_compile_as_schemas hw] at h
  exact C84_exit_status h hok hdocs
end

/-! ### a case: the schema `element r { element a { empty } }` -/
namespace SeenToolEx
open Verif.Ex

/-- the conditions are met by any documents at all, for this schema asks for no data -/
theorem covered {c : Bool} {fuel : Nat} {xmls : List XmlFile} : Covered (one' ra) ext c fuel "s".toList xmls := by
  intro k st r hc hr
  rw [ra_hok hc hr]
  refine ⟨(ra_ok c).1, (ra_ok (x := ext) c).2.1, fun f _ d _ nm nc q _ he _ => ?_⟩
  cases he with
  | here => exact .element
  | element h =>
    cases h with
    | here => exact .empty
    | element h => cases h

theorem covered_texts {c : Bool} {fuel : Nat} {xmls : List XmlFile} : Covered raFiles ext c fuel "s".toList xmls := ra_files ▸ covered

theorem isFile (c : Char) (hc : c = 'a' ∨ c = 'b') : FileIs (rDoc c) (rX c) :=
  ⟨(rX_ok hc).1, by simp [XDoc.Proper, XDoc.root, rX, properL, XNode.proper]⟩

/-- what the text of the schema says -/
theorem written : Written (fun f => if f = "s".toList then some ra.toList else none) raFiles.load := by
  intro f
  by_cases hf : f = "s".toList
  · refine .inr ⟨_, _, if_pos hf, if_pos hf, ?_⟩
    have hin : Rnc.Pat True (.element (.ident ['a']) .empty) false _ :=
      .mk .none (.element noSep (.base .none (.name (.ident (.ident (plainIdent 'a' [] rfl (by decide) rfl (by decide))))) .nil (.inr rfl))
        (.mk noGap1 noGap1 (.mk .none .empty .nil .done) noGap1) rfl) .nil .done
    exact element_spelling (w := ['r']) (.ident (.ident (plainIdent 'r' [] rfl (by decide) rfl (by decide)))) hin
  · exact .inl ⟨if_neg hf, if_neg hf⟩

/-- C84.  The tool with this schema, as a text, and any number of documents `<r><a/></r>` and `<r><b/></r>`, in any order: if it
exits, it is with 0 if all of them are `<r><a/></r>` (and these match), otherwise with 2 (the others do not match). -/
theorem C84_case {order emits} {fuel n c : Nat} {cs : List Char} (hcs : ∀ c ∈ cs, c = 'a' ∨ c = 'b')
    (h : Tool.run (one' ra) ext order emits fuel n "s".toList (cs.map rDoc) = .exit c) :
    (c = 0 ↔ ∀ f ∈ cs.map rDoc, ∀ d, FileIs f d → ReadMatches raFiles ext "s".toList d) ∧
    (c = 2 ↔ ∃ f ∈ cs.map rDoc, ∃ d, FileIs f d ∧ ¬ ReadMatches raFiles ext "s".toList d) ∧
    (c = 0 ∨ c = 2) := by
  have hdocs : ∀ f ∈ cs.map rDoc, ∃ d, FileIs f d := fun f hf => by
    obtain ⟨c, hc, rfl⟩ := List.mem_map.1 hf
    exact ⟨_, isFile c (hcs c hc)⟩
  obtain ⟨h1, h0, h2⟩ := C84_exit_status_texts (c := c) written h covered_texts hdocs
  have hn : ¬ ∃ e, SchemaFault raFiles ext "s".toList e :=
    (C84_exit_zero_means (F := raFiles) (xmls := []) (by have := C45_case_documents.2.1; rw [tool, ra_files] at this; exact this) covered_texts).1
  refine ⟨h0.trans ⟨fun h => h.2, fun h => ⟨hn, h⟩⟩, h2.trans ⟨fun h => h.2, fun h => ⟨hn, h⟩⟩, ?_⟩
  rcases C45_exit_codes h with rfl | rfl | rfl
  · exact .inl rfl
  · exact absurd (h1.1 rfl) hn
  · exact .inr rfl

set_option maxRecDepth 100000 in
/-- both happen -/
theorem C84_case_both : ReadMatches raFiles ext "s".toList (rX 'a') ∧ ¬ ReadMatches raFiles ext "s".toList (rX 'b') := by
  constructor
  · exact ((C84_case (cs := ['a', 'a']) (by simp) C45_case_documents.1).1.1 rfl) _ (by simp) _ (isFile 'a' (.inl rfl))
  · have h : Tool.run raFiles ext id (fun _ _ => true) 30 30 "s".toList [rDoc 'b'] = .exit 2 := ra_files ▸ (by decide +kernel)
    obtain ⟨_, pre, f, rest, e, _, _, hn⟩ := C84_exit_two_means h covered_texts (fun f hf => by
      cases List.mem_singleton.1 hf; exact ⟨_, isFile 'b' (.inr rfl)⟩)
    cases pre with
    | nil => injection e with e _; subst e; exact hn _ (isFile 'b' (.inr rfl))
    | cons _ pre => cases pre <;> simp at e

end SeenToolEx
end Verif
