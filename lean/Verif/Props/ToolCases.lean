import Verif.Props.ToolTotal
import Verif.Props.DiagCases
import Verif.Props.Compact
import Verif.Model.XmlSyntax
/-
Concrete runs of the command line tool: cases for C45, and what it does instead of reporting a fault.
-/
namespace Verif.Ex
open Verif Verif.Tool XS

/-- a directory with this schema in the file `s` -/
def one' (schema : String) : Files := compactFiles (fun f => if f = "s".toList then some schema.toList else none) joinPath

/-- what the tool does with a schema in the compact syntax -/
def tool (schema : String) (xmls : List XmlFile) : Outcome := Tool.run (one' schema) ext id (fun _ _ => true) 30 30 "s".toList xmls

/-- `<r><c/></r>` -/
def rDoc (c : Char) : XmlFile := .doc (rText c ++ "</r>".toList)
  (rItems c ++ [.token (.elementEnd (.close ⟨8 + byteLen [c], []⟩ ⟨8 + byteLen [c], ['r']⟩) ⟨6 + byteLen [c], "</r>".toList⟩)])

/-- a document of one line with an error in it, as the tokenizer reports it: rows count from one -/
def brokenDoc : XmlFile := .doc "<r<".toList [.error 1 3]

/-- the same with another line after it -/
def brokenDoc2 : XmlFile := .doc "<r<\na".toList [.error 1 3]

def ra : String := "element r { element a { empty } }"

set_option maxRecDepth 100000 in
/-- a schema that compiles: exit 0 if there is nothing to complain about, exit 2 for the first document that is refused -/
theorem C45_case_documents : tool ra [rDoc 'a', rDoc 'a'] = .exit 0 ∧ tool ra [] = .exit 0 ∧
    tool ra [rDoc 'a', rDoc 'b', .unreadable] = .exit 2 := by
  refine ⟨?_, ?_, ?_⟩ <;> decide +kernel

set_option maxRecDepth 100000 in
/-- a schema with a fault: exit 1, whatever the documents -/
theorem C45_case_schema : tool "element r { a }" [.unreadable] = .exit 1 ∧ tool "element r { " [rDoc 'a'] = .exit 1 := by
  refine ⟨?_, ?_⟩ <;> decide +kernel

set_option maxRecDepth 100000 in
/-- **C45**, negative: faults that are not reported.  The tool panics for a schema that declares a prefix for datatypes twice, or has a
facet twice. -/
theorem C45_case_schema_panics : tool "datatypes d = \"\" datatypes d = \"\" element r { empty }" [rDoc 'a'] = .panic ∧
    tool "element r { xsd:string { length = \"1\" length = \"2\" } }" [rDoc 'a'] = .panic := by
  refine ⟨?_, ?_⟩ <;> decide +kernel

set_option maxRecDepth 100000 in
/-- **C45**, negative: the tool panics for files that cannot be read, and for a syntax error in the last line (if the error is in
another line, it exits with 2). -/
theorem C45_case_document_panics : tool ra [.unreadable] = .panic ∧ tool ra [brokenDoc] = .panic ∧ tool ra [brokenDoc2] = .exit 2 := by
  refine ⟨?_, ?_, ?_⟩ <;> decide +kernel

/-! the hypotheses of the theorems -/

def raPattern : MPattern := .element (.named [] ['r']) (.element (.named [] ['a']) .empty)

theorem ra_ok {env : Env Datatypes DatatypeValues} {x : Ext} (c : Bool) :
    SchemaOK (stdLib x) env raPattern c ∧ StartOK env raPattern ∧ NoAlias env raPattern := by
  refine ⟨⟨fun p => p = .element (.named [] ['a']) .empty ∨ p = .empty, ?_, .element (.inl rfl)⟩, .element, ?_⟩
  · rintro p (rfl | rfl)
    · exact .element (.inr rfl)
    · exact .empty
  · intro n h
    cases h with
    | here h => simp [raPattern, Pattern.refs] at h
    | there h => simp [raPattern, Pattern.refs] at h

/-- what the schema says -/
def raFiles : Files := ⟨fun f => if f = "s".toList then .ok ⟨[], .pattern (.element (.ident ['r']) (.element (.ident ['a']) .empty))⟩ else .error .io, joinPath⟩

set_option maxRecDepth 100000 in
theorem ra_files : one' ra = raFiles := by
  have h : readCompact ra.toList = .ok ⟨[], .pattern (.element (.ident ['r']) (.element (.ident ['a']) .empty))⟩ := rfl
  unfold one' compactFiles raFiles
  congr 1
  funext f
  split
  · rw [if_neg] <;> grind
  · rename_i t ht
    by_cases hf : f = "s".toList
    · have ht : (if f = "s".toList then some ra.toList else none) = some t := ht
      rw [if_pos hf] at ht ⊢
      cases ht
      rw [h]
    · have ht : (if f = "s".toList then some ra.toList else none) = some t := ht
      rw [if_neg hf] at ht; cases ht

theorem ra_compiled (x : Ext) (n m : Nat) : ∃ st, compileFile (one' ra) x (n + 6) (m + 6) "s".toList CState.init = .ok (0, st) ∧
    st.cells = [some (.assignCombine none raPattern)] := by
  rw [ra_files]
  exact ⟨_, rfl, rfl⟩

theorem ra_small (x : Ext) : ∀ n, n < 6 → ∀ k st, compileFile (one' ra) x n n "s".toList CState.init = .ok (k, st) →
    k = 0 ∧ st.cells = [some (.assignCombine none raPattern)] := by
  rw [ra_files]
  intro n hn
  match n with
  | 0 => exact fun k st h => by cases h
  | 1 => exact fun k st h => by cases h
  | 2 => exact fun k st h => by cases h
  | 3 => exact fun k st h => by cases h; exact ⟨rfl, rfl⟩
  | 4 => exact fun k st h => by cases h; exact ⟨rfl, rfl⟩
  | 5 => exact fun k st h => by cases h; exact ⟨rfl, rfl⟩
  | n + 6 => omega

theorem ra_hok {x : Ext} {n k : Nat} {st : CState} {r : DefineRule} (h : compileFile (one' ra) x n n "s".toList CState.init = .ok (k, st))
    (hr : st.cell k = some r) : r.pattern = raPattern := by
  have : k = 0 ∧ st.cells = [some (.assignCombine none raPattern)] := by
    by_cases hn : n < 6
    · exact ra_small x n hn k st h
    · obtain ⟨n, rfl⟩ := Nat.exists_eq_add_of_le' (Nat.le_of_not_lt hn)
      obtain ⟨st', h1, h2⟩ := ra_compiled x n n
      rw [h1] at h
      cases h
      exact ⟨rfl, h2⟩
  obtain ⟨rfl, h2⟩ := this
  simp only [CState.cell, h2] at hr
  cases hr
  rfl

/-- the document `<r><c/></r>` -/
def rX (c : Char) : XDoc := ⟨[], [], ['r'], [], false, [.elem [] [c] [] true []], []⟩

theorem rX_ok {c : Char} (hc : c = 'a' ∨ c = 'b') : IsDocument (rDoc c) (rX c) ∧ (rX c).Tame ∧ (rX c).Means (.elem ⟨none, ['r']⟩ [] [.elem ⟨none, [c]⟩ [] []]) := by
  rcases hc with rfl | rfl
  all_goals
    refine ⟨⟨_, _, rfl, rfl⟩, ⟨⟨by decide, by decide, by decide, ?_, ?_⟩, by decide⟩, ?_⟩
    · simp [XDoc.root, rX, allTextsL, XNode.allTexts]
    · simp [XDoc.root, rX, unsplitL]
    · exact Resolves.elem (kns := [.elem _ [] []]) (by decide) .nil (.elem (kns := []) (by rfl) .nil .nil (fun _ => rfl) .nil) (fun h => by cases h) .nil

/-- the theorem about exit status 0, applied -/
theorem C45_case_match : SchemaMatches (one' ra) ext "s".toList (.elem ⟨none, ['r']⟩ [] [.elem ⟨none, ['a']⟩ [] []]) := by
  obtain ⟨h1, h2, h3⟩ := rX_ok (c := 'a') (.inl rfl)
  refine C45_exit_zero_documents_match C45_case_documents.1 (fun k st r hc hr => ?_) (f := rDoc 'a') (by simp) h1 h2 h3
  rw [ra_hok hc hr]
  exact ⟨(ra_ok _).1, (ra_ok (x := ext) false).2.1⟩

set_option maxRecDepth 100000 in
/-- the theorem about exit status 2, applied -/
theorem C45_case_no_match : ∃ f ∈ [rDoc 'b'], ∃ d node, IsDocument f d ∧ d.Tame ∧ d.Means node ∧ ¬ SchemaMatches (one' ra) ext "s".toList node := by
  refine C45_exit_two_some_document_does_not_match (order := id) (emits := fun _ _ => true) (fuel := 30) (n := 30) (by decide +kernel) (fun k st r hc hr => ?_)
    (fun f hf => ?_)
  · rw [ra_hok hc hr]
    exact ⟨(ra_ok _).1, (ra_ok (x := ext) false).2.1⟩
  · cases List.mem_singleton.1 hf
    exact ⟨_, _, rX_ok (.inr rfl)⟩

theorem rDoc_in (c : Char) : Loc.TokensIn (rText c ++ "</r>".toList) (rItems c ++
    [.token (.elementEnd (.close ⟨8 + byteLen [c], []⟩ ⟨8 + byteLen [c], ['r']⟩) ⟨6 + byteLen [c], "</r>".toList⟩)]) := by
  intro t ht p hp
  rcases List.mem_append.1 ht with ht | ht
  · obtain ⟨l, r, h1, h2⟩ := rItems_in c t ht p hp
    exact ⟨l, r ++ "</r>".toList, by rw [h1]; simp, h2⟩
  · simp only [List.mem_singleton, Loc.Event.token.injEq] at ht
    subst ht
    simp only [Loc.Token.spans, Loc.End.spans, List.mem_cons, List.not_mem_nil, or_false] at hp
    have hb : byteLen (rText c) = 6 + byteLen [c] := by
      unfold rText
      rw [byteLen_append, byteLen_append]
      show 4 + _ + 2 = _
      omega
    have hb2 : byteLen (rText c ++ "</".toList) = 8 + byteLen [c] := by
      rw [byteLen_append, hb]
      show _ + 2 = _
      omega
    rcases hp with rfl | rfl | rfl
    · exact ⟨rText c, [], rfl, hb.symm⟩
    · exact ⟨rText c ++ "</".toList, "r>".toList, rfl, hb2.symm⟩
    · exact ⟨rText c ++ "</".toList, ">".toList, rfl, hb2.symm⟩

theorem rDoc_framed (c : Char) : FramedFile (rDoc c) := by
  show Framed _
  intro before t after h ht
  simp only [rItems, List.map_cons, List.map_nil, List.cons_append, List.nil_append, Loc.Event.plain, Loc.Token.plain, Loc.End.plain] at h
  cases before with
  | nil =>
    simp only [List.nil_append, List.cons.injEq, Option.some.injEq] at h
    rw [← h.1] at ht
    cases ht
  | cons b bs =>
    simp only [List.cons_append, List.cons.injEq] at h
    exact ⟨[], ['r'], by rw [← h.1]; exact .head _⟩

/-- the theorem about termination, applied -/
theorem C45_case_terminates {order emits} {x : Ext} (cs : List Char) :
    ∃ N out, out ≠ .fuel ∧ ∀ fuel, N ≤ fuel → ∀ n, N ≤ n → Tool.run (one' ra) x order emits fuel n "s".toList (cs.map rDoc) = out := by
  refine C45_tool_terminates (C38_finite_schemas_are_not_endless (U := ["s".toList]) (fun f s h => ?_) (fun w path i f s is _ _ h => ?_))
    (fun fuel k st r hc hr => by rw [ra_hok hc hr]; exact (ra_ok _).1) (fun f hf => ?_)
  · rw [ra_files] at h
    simp only [raFiles] at h
    split at h
    · rename_i hf; rw [hf]; exact .head _
    · cases h
  · rw [ra_files] at h
    simp only [raFiles] at h
    split at h
    · cases h; nofun
    · cases h
  · obtain ⟨c, _, rfl⟩ := List.mem_map.1 hf
    exact rDoc_framed c

set_option maxRecDepth 100000 in
/-- the theorem about panics, applied -/
theorem C45_case_panic_explained : ∃ k st r pre f rest, compileFile (one' ra) ext 30 30 "s".toList CState.init = .ok (k, st) ∧ st.cell k = some r ∧
    [rDoc 'a', brokenDoc] = pre ++ f :: rest ∧
      (∀ f ∈ pre, AcceptsFile (stdLib ext) 30 30 st.env r.pattern f) ∧ Trouble (stdLib ext) 30 30 st.env r.pattern f := by
  have h : Tool.run (one' ra) ext id (fun _ _ => true) 30 30 "s".toList [rDoc 'a', brokenDoc] = .panic := by decide +kernel
  have hf : ∀ f ∈ [rDoc 'a', brokenDoc], FramedFile f := by
    intro f hf
    simp only [List.mem_cons, List.not_mem_nil, or_false] at hf
    rcases hf with rfl | rfl
    · exact rDoc_framed 'a'
    · intro before t after h
      have : some t ∈ [(none : Option Verif.Token)] := by
        have h : [(none : Option Verif.Token)] = before ++ some t :: after := h
        rw [h]; simp
      simp at this
  have hin : ∀ text items, XmlFile.doc text items ∈ [rDoc 'a', brokenDoc] → Loc.TokensIn text items := by
    intro text items hf
    simp only [List.mem_cons, List.not_mem_nil, or_false] at hf
    rcases hf with hf | hf
    · cases hf
      exact rDoc_in 'a'
    · cases hf
      intro t ht
      simp at ht
  rcases C45_panics_explained h (fun k st r hc hr => by rw [ra_hok hc hr]; exact ⟨(ra_ok _).1, (ra_ok (x := ext) false).2.2⟩)
    (fun l => .refl l) (fun _ _ _ => rfl) hf hin with ⟨e, he, _⟩ | h'
  · obtain ⟨st, h1, _⟩ := ra_compiled ext 24 24
    rw [h1] at he; cases he
  · exact h'

/-- the theorem about refused documents, applied -/
theorem C45_case_refused : ∃ N, ∀ m, N ≤ m → Tool.run (one' ra) ext id (fun _ _ => true) 30 m "s".toList [rDoc 'b'] = .exit 2 := by
  obtain ⟨k, st, r, pre, text, items, rest, s0, before, i, e, s, ds, s', hc, hr, hx, hpre, hnew, href, hd, he⟩ :=
    C45_exit_two_iff.1 (show Tool.run (one' ra) ext id (fun _ _ => true) 30 30 "s".toList [rDoc 'b'] = .exit 2 by decide +kernel)
  obtain ⟨rfl, rfl, rfl, rfl⟩ : pre = [] ∧ rest = [] ∧ text = rText 'b' ++ "</r>".toList ∧ items = rItems 'b' ++
      [.token (.elementEnd (.close ⟨8 + byteLen ['b'], []⟩ ⟨8 + byteLen ['b'], ['r']⟩) ⟨6 + byteLen ['b'], "</r>".toList⟩)] := by
    cases pre with
    | nil => cases hx; exact ⟨rfl, rfl, rfl, rfl⟩
    | cons a pre => cases pre <;> cases hx
  obtain ⟨⟨after, hi⟩, hrun⟩ := href
  have hmem : i ∈ rItems 'b' ++ [.token (.elementEnd (.close ⟨8 + byteLen ['b'], []⟩ ⟨8 + byteLen ['b'], ['r']⟩) ⟨6 + byteLen ['b'], "</r>".toList⟩)] := by
    rw [hi]; simp
  have hin : Loc.TokensIn (rText 'b' ++ "</r>".toList) (before ++ [i]) := fun t ht => rDoc_in 'b' t (by
    rw [hi]
    rcases List.mem_append.1 ht with ht | ht
    · exact List.mem_append_left _ ht
    · cases List.mem_singleton.1 ht; simp)
  have hb : ¬ Loc.BadNumber i e ∧ ∀ row col, i ≠ .error row col := by
    simp only [rItems, List.cons_append, List.nil_append, List.mem_cons, List.not_mem_nil, or_false] at hmem
    rcases hmem with rfl | rfl | rfl | rfl | rfl <;> exact ⟨id, nofun⟩
  rcases C64_ranges_show_the_fault (before := before) (x := i) (after := []) hnew hrun rfl hin (e := e) (by simp) with ⟨row, col, h, _⟩ | h | ⟨b, c, hr', l, m, r', _, h⟩
  · exact absurd h (hb.2 row col)
  · exact absurd h hb.1
  · refine C45_refused_document_exits_two (pre := []) (rest := []) hc hr (by rw [ra_hok hc hr]; exact (ra_ok false).1) (fun l => .refl l) (fun _ _ _ => rfl) rfl
      nofun hnew ⟨⟨after, hi⟩, hrun⟩ (rDoc_in 'b') (fun row col he => ?_) hb.1
    subst he
    exact h
end Verif.Ex
