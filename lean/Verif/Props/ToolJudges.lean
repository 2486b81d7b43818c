import Verif.Props.Sure
import Verif.Props.SeenTool
/-
C90: the tool, from beginning to end, for schemas that pass the tests: it ends, and says of every document whether it matches, unless the
pattern limit is hit, or a malformed character reference is to be shown, or the schema has a fault for which there is no message.
-/
namespace Verif
open Loc Tool Sure
section
variable {x : Ext} {order : List (Pat Datatypes DatatypeValues) → List (Pat Datatypes DatatypeValues)}
  {emits : Str → List Diag → Bool} {schema : Str} {xmls : List XmlFile} {F : Files}

/-- if the schema compiles, then it passes the tests, and where character data in one of the documents is interrupted it asks for nothing
but text -/
def Passes (F : Files) (x : Ext) (schema : Str) (xmls : List XmlFile) : Prop :=
  ∀ fuel k st r, compileFile F x fuel fuel schema CState.init = .ok (k, st) → st.cell k = some r →
    ∃ j, Check.schema st.env j r.pattern = true ∧ Check.noAlias st.env j r.pattern = true ∧ allWritten st.env j r.pattern = true ∧
      ∀ f ∈ xmls, ∀ d, FileIs f d → (Check.textSchema st.env j r.pattern || Check.whole d.root) = true

/-- what may hinder the judgement of a document -/
inductive Hindrance (L : Lib Datatypes DatatypeValues) (n : Nat) (env : Env Datatypes DatatypeValues) (start : Pattern Datatypes DatatypeValues) : XmlFile → Prop
  /-- the schema has too many patterns -/
  | schemaLimit {text items} : Loc.newValidator env n start = .error .capacity → Hindrance L n env start (.doc text items)
  /-- too many patterns come up during validation -/
  | limit {text items s0} : Loc.newValidator env n start = .ok s0 → Loc.runEvents L n items s0 = .error .capacity → Hindrance L n env start (.doc text items)
  /-- it has a malformed character reference -/
  | number {text items s0 before i e s} : Loc.newValidator env n start = .ok s0 → RefusesAt L n s0 items before i e s → BadNumber i e →
      Hindrance L n env start (.doc text items)

/-- C90.  The tool comes to an end, with an outcome that does not depend on the model's budgets: status 1, and the schema has a fault;
status 0, and every document matches the schema; status 2, and some document does not; or a panic, and there is a fault in the
schema for which there is no message, or a hindrance with some document. -/
theorem C90_tool_judges (hne : ¬ Endless F schema) (hp : Passes F x schema xmls) (horder : ∀ l, (order l).Perm l) (hprints : Prints emits)
    (hdocs : ∀ f ∈ xmls, ∃ d, FileIs f d) (hin : ∀ text items, .doc text items ∈ xmls → TokensIn text items) :
    ∃ N out, (∀ fuel, N ≤ fuel → ∀ n, N ≤ n → Tool.run F x order emits fuel n schema xmls = out) ∧
      (out = .exit 1 ∧ (∃ e, SchemaFault F x schema e) ∨
       out = .exit 0 ∧ (¬ ∃ e, SchemaFault F x schema e) ∧ (∀ f ∈ xmls, ∀ d, FileIs f d → ReadMatches F x schema d) ∨
       out = .exit 2 ∧ (¬ ∃ e, SchemaFault F x schema e) ∧ (∃ f ∈ xmls, ∃ d, FileIs f d ∧ ¬ ReadMatches F x schema d) ∨
       out = .panic ∧ ((∃ e, compileFile F x N N schema CState.init = .error e ∧ SchemaFault F x schema e.core ∧
         ∀ err, e = .err err → panicked err = true ∨ diagnosable err = false) ∨ ∃ k st r f, compileFile F x N N schema CState.init = .ok (k, st) ∧ st.cell k = some r ∧
         f ∈ xmls ∧ Hindrance (stdLib x) N st.env r.pattern f)) := by
  have hf : ∀ f ∈ xmls, FramedFile f := fun f hf => by
    obtain ⟨d, ⟨txt, items, rfl, hi⟩, _⟩ := hdocs f hf
    show Framed _
    rw [hi]; exact d.framed
  obtain ⟨N, out, h1, h2⟩ := C45_tool_terminates (order := order) (emits := emits) (xmls := xmls) hne (fun fuel k st r hc hr => by
    obtain ⟨j, a, _⟩ := hp fuel k st r hc hr
    exact (Check.schema_sound a).1.relax) hf
  refine ⟨N, out, h2, ?_⟩
  have hrun := h2 N (Nat.le_refl _) N (Nat.le_refl _)
  have hcov : Covered F x true N schema xmls := fun k st r hc hr => by
    obtain ⟨j, a, _, _, b⟩ := hp N k st r hc hr
    obtain ⟨a1, a2⟩ := Check.schema_sound (L := stdLib x) a
    refine ⟨a1, a2, fun f hf d hd => ?_⟩
    rcases Bool.or_eq_true _ _ ▸ b f hf d hd with h | h
    · exact Check.textSchema_sound h d
    · exact Check.whole_breaks h
  cases out with
  | fuel => exact absurd rfl h1
  | exit c =>
    obtain ⟨e1, e0, e2⟩ := C84_exit_status hrun hcov hdocs
    rcases C45_exit_codes hrun with rfl | rfl | rfl
    · exact .inr (.inl ⟨rfl, e0.1 rfl⟩)
    · exact .inl ⟨rfl, e1.1 rfl⟩
    · exact .inr (.inr (.inl ⟨rfl, e2.1 rfl⟩))
  | panic =>
    refine .inr (.inr (.inr ⟨rfl, ?_⟩))
    rcases C45_panics_explained hrun (fun k st r hc hr => by
      obtain ⟨j, a, b, _⟩ := hp N k st r hc hr
      exact ⟨(Check.schema_sound a).1.relax, Check.noAlias_sound b⟩) horder hprints hf hin with ⟨e, he, hfu, hm⟩ | ⟨k, st, r, pre, f, rest, hc, hr, hx, _, ht⟩
    · rcases C54_errors_are_explained (l := []) (fun _ _ h => by cases h) he with h | h
      · exact absurd h hfu
      · exact .inl ⟨e, he, h, hm⟩
    · have hmem : f ∈ xmls := by rw [hx]; simp
      obtain ⟨j, _, _, hw, _⟩ := hp N k st r hc hr
      refine .inr ⟨k, st, r, f, hc, hr, hmem, ?_⟩
      obtain ⟨d, ⟨txt, its, heq, hi⟩, _⟩ := hdocs f hmem
      cases ht with
      | unreadable => cases heq
      | schemaLimit h => exact .schemaLimit h
      | @limit _ items s0 _ hn hrun' h =>
        rcases h with rfl | ⟨rfl, _⟩
        · exact .limit hn hrun'
        · exfalso
          refine events_sure (m := N) (allWritten_sound x hw) (n := N) (s0 := s0.plain) (by rw [newValidator_plain, hn]; rfl) (items.map (·.plain)) ?_
          rw [runEvents_plain, hrun']; rfl
      | «syntax» hn href =>
        exfalso
        rename_i items s0 before i s row col
        cases heq
        obtain ⟨⟨after, rfl⟩, hr'⟩ := href
        have hb := C64_errors_are_about_their_item (before := before) (x := i) (after := []) (e := .xml row col) hn hr' rfl (by simp)
        have : i.plain ∈ d.toks.map some := hi ▸ (by simp)
        obtain ⟨t, _, ht⟩ := List.mem_map.1 this
        cases hb
        cases ht
      | number hn href hb => exact .number hn href hb

/-- C90.  The same for schemas given as texts in the compact syntax, which is what the tool reads. -/
theorem C90_tool_judges_texts {text : Str → Option Str} {sch : Str → Except LoadErr SSchema} {join : Str → Str → Option Str} (hw : Written text sch)
    (hne : ¬ Endless ⟨sch, join⟩ schema) (hp : Passes ⟨sch, join⟩ x schema xmls) (horder : ∀ l, (order l).Perm l) (hprints : Prints emits)
    (hdocs : ∀ f ∈ xmls, ∃ d, FileIs f d) (hin : ∀ text items, .doc text items ∈ xmls → TokensIn text items) :
    ∃ N out, (∀ fuel, N ≤ fuel → ∀ n, N ≤ n → Tool.run (compactFiles text join) x order emits fuel n schema xmls = out) ∧
      (out = .exit 1 ∧ (∃ e, SchemaFault ⟨sch, join⟩ x schema e) ∨
       out = .exit 0 ∧ (¬ ∃ e, SchemaFault ⟨sch, join⟩ x schema e) ∧ (∀ f ∈ xmls, ∀ d, FileIs f d → ReadMatches ⟨sch, join⟩ x schema d) ∨
       out = .exit 2 ∧ (¬ ∃ e, SchemaFault ⟨sch, join⟩ x schema e) ∧ (∃ f ∈ xmls, ∃ d, FileIs f d ∧ ¬ ReadMatches ⟨sch, join⟩ x schema d) ∨
       out = .panic ∧ ((∃ e, compileFile ⟨sch, join⟩ x N N schema CState.init = .error e ∧ SchemaFault ⟨sch, join⟩ x schema e.core ∧
         ∀ err, e = .err err → panicked err = true ∨ diagnosable err = false) ∨ ∃ k st r f, compileFile ⟨sch, join⟩ x N N schema CState.init = .ok (k, st) ∧
         st.cell k = some r ∧ f ∈ xmls ∧ Hindrance (stdLib x) N st.env r.pattern f)) := by
  rw [C58_texts_compile_as_schemas hw]
  exact C90_tool_judges hne hp horder hprints hdocs hin
end

/-! ### a case: the schema `element r { element a { empty } }` and documents `<r><a/></r>`, `<r><b/></r>` -/
namespace ToolJudgesEx
open Verif.Ex

theorem ra_env {x : Ext} {n k : Nat} {st : CState} (h : compileFile (one' ra) x n n "s".toList CState.init = .ok (k, st)) : st.env = [raPattern] := by
  have : st.cells = [some (.assignCombine none raPattern)] := by
    by_cases hn : n < 6
    · exact (ra_small x n hn k st h).2
    · obtain ⟨n, rfl⟩ := Nat.exists_eq_add_of_le' (Nat.le_of_not_lt hn)
      obtain ⟨st', h1, h2⟩ := ra_compiled x n n
      rw [h1] at h
      cases h
      exact h2
  simp [CState.env, this, DefineRule.pattern]

theorem ra_passes {x : Ext} {xmls : List XmlFile} : Passes (one' ra) x "s".toList xmls := by
  intro fuel k st r hc hr
  rw [ra_hok hc hr, ra_env hc]
  have ht : Check.textSchema [raPattern] 8 raPattern = true := by decide
  exact ⟨8, by decide, by decide, by decide, fun _ _ _ _ => by rw [ht]; rfl⟩

theorem ra_not_endless : ¬ Endless (one' ra) "s".toList := by
  refine C38_finite_schemas_are_not_endless (U := ["s".toList]) (fun f s h => ?_) (fun w path i f s is _ _ h => ?_)
  · rw [ra_files] at h
    simp only [raFiles] at h
    split at h
    · rename_i hf; rw [hf]; exact .head _
    · cases h
  · rw [ra_files] at h
    simp only [raFiles] at h
    split at h
    · cases h; nofun
    · cases h

/-- the theorem applied: whatever the documents, the tool ends, with status 0 or 2 as they match or not, or because of a hindrance -/
theorem C90_case {order emits} (horder : ∀ l, (order l).Perm l) (hprints : Prints emits) {cs : List Char} (hcs : ∀ c ∈ cs, c = 'a' ∨ c = 'b') :
    ∃ N out, (∀ fuel, N ≤ fuel → ∀ n, N ≤ n → Tool.run (one' ra) ext order emits fuel n "s".toList (cs.map rDoc) = out) ∧
      (out = .exit 0 ∧ (∀ f ∈ cs.map rDoc, ∀ d, FileIs f d → ReadMatches (one' ra) ext "s".toList d) ∨
       out = .exit 2 ∧ (∃ f ∈ cs.map rDoc, ∃ d, FileIs f d ∧ ¬ ReadMatches (one' ra) ext "s".toList d) ∨
       out = .panic ∧ ∃ k st r f, compileFile (one' ra) ext N N "s".toList CState.init = .ok (k, st) ∧ st.cell k = some r ∧
         f ∈ cs.map rDoc ∧ Hindrance (stdLib ext) N st.env r.pattern f) := by
  obtain ⟨N, out, h1, h2⟩ := C90_tool_judges (xmls := cs.map rDoc) (x := ext) ra_not_endless ra_passes horder hprints
    (fun f hf => by obtain ⟨c, hc, rfl⟩ := List.mem_map.1 hf; exact ⟨_, SeenToolEx.isFile c (hcs c hc)⟩)
    (fun text items hf => by obtain ⟨c, _, h⟩ := List.mem_map.1 hf; cases h; exact rDoc_in c)
  have hn : ¬ ∃ e, SchemaFault (one' ra) ext "s".toList e :=
    (C84_exit_zero_means (F := one' ra) (xmls := []) C45_case_documents.2.1 SeenToolEx.covered).1
  refine ⟨N, out, h1, ?_⟩
  rcases h2 with ⟨_, h⟩ | ⟨h, _, h'⟩ | ⟨h, _, h'⟩ | ⟨h, ⟨_, _, h', _⟩ | h'⟩
  · exact absurd h hn
  · exact .inl ⟨h, h'⟩
  · exact .inr (.inl ⟨h, h'⟩)
  · exact absurd ⟨_, h'⟩ hn
  · exact .inr (.inr ⟨h, h'⟩)

end ToolJudgesEx
end Verif
