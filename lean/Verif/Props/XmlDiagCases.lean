import Verif.Props.XmlDiag
import Verif.Props.XmlSpanCases
/-
Concrete cases for C73.
-/
namespace Verif.RngAt.Ex
open Verif Verif.At Verif.LXml Verif.Rng
open Verif.Ex (str ext)

def includerText : Str := str "<grammar xmlns=\"http://relaxng.org/ns/structure/1.0\"><include href=\"x\"/></grammar>"
def includer : LNode :=
  .element ⟨0, 82⟩ (some rngNs) (str "grammar") [(none, rngNs)] [] [.element ⟨53, 72⟩ (some rngNs) (str "include") [(none, rngNs)] [⟨⟨62, 70⟩, ⟨68, 69⟩, none, str "href", str "x"⟩] []]

/-- a datatype library that is not there -/
def libraryText : Str := str "<element xmlns=\"http://relaxng.org/ns/structure/1.0\" name=\"a\" datatypeLibrary=\"u:v\"><data type=\"t\"/></element>"
def library : LNode :=
  .element ⟨0, 110⟩ (some rngNs) (str "element") [(none, rngNs)] [⟨⟨53, 61⟩, ⟨59, 60⟩, none, str "name", str "a"⟩, ⟨⟨62, 83⟩, ⟨79, 82⟩, none, str "datatypeLibrary", str "u:v"⟩] [.element ⟨84, 100⟩ (some rngNs) (str "data") [(none, rngNs)] [⟨⟨90, 98⟩, ⟨96, 97⟩, none, str "type", str "t"⟩] []]

/-- the files of a schema whose main document includes `x` -/
def two (t : Str) (n : LNode) : Str → Option (Str × LDoc) := fun f =>
  if f = str "main" then some (includerText, .tree includer) else if f = str "x" then some (t, .tree n) else none

theorem two_cases {t : Str} {n : LNode} {P : Str → LNode → Prop} (h1 : P includerText includer) (h2 : P t n) :
    ∀ f t' root, two t n f = some (t', .tree root) → P t' root := by
  intro f t' root hf
  unfold two at hf
  split at hf
  · cases hf; exact h1
  · split at hf
    · cases hf; exact h2
    · cases hf

/-- the error and its diagnostic -/
def report (text : Str → Option (Str × LDoc)) : Option (LFault × Option SDiag) :=
  match At.compileFile (LXml.xmlFiles uri text) ext 30 30 (str "main") (.fresh []) with
  | .ok _ => none
  | .error (.err e) => some (.err e, xmlDiagnostic uri text e)
  | .error e => some (e, none)

theorem report_eq {text : Str → Option (Str × LDoc)} {e : LErr} {d : Option SDiag} (h : report text = some (.err e, d)) :
    At.compileFile (LXml.xmlFiles uri text) ext 30 30 (str "main") (.fresh []) = .error (.err e) ∧ xmlDiagnostic uri text e = d := by
  unfold report at h
  split at h
  · cases h
  · next e' he => cases h; exact ⟨he, rfl⟩
  · next e' hne he => cases h; exact (hne e rfl).elim

theorem includer_depicted : Depicts includerText includer := depictsB_ok (by decide +kernel)

/-- **C73**: a fault in an included document: the label shows the second pattern, another the `href`. -/
theorem C73_case_refused : report (two twoInStartText twoInStart) = some (.err (.inInclude ⟨str "main", 68, 69⟩ (.load (str "x") .parse)),
    some ⟨"Unexpected {}", some (str "Unexpected element"),
      [⟨⟨str "x", 79, 86⟩, .primary, none⟩, ⟨⟨str "main", 68, 69⟩, .secondary, some "as included here"⟩]⟩) := by decide +kernel

theorem home_two : Home (LXml.xmlFiles uri (two twoInStartText twoInStart)) := by
  intro f s hs
  obtain ⟨t', root, ht, hp⟩ := load_xml hs
  have key := two_cases (t := twoInStartText) (n := twoInStart) (P := fun _ n => homeDoc n = true) (by decide +kernel) (by decide +kernel) _ _ _ ht
  unfold homeDoc at key
  rw [hp] at key
  exact key

theorem two_formed {t : Str} {n : LNode} (f t' : Str) (row col : Nat) (h : two t n f = some (t', .illFormed row col)) : 1 ≤ col := by
  unfold two at h
  split at h
  · cases h
  · split at h <;> cases h

/-- the hypotheses of the general theorem are met -/
theorem C73_case_explains : XExplains uri (two twoInStartText twoInStart) (str "main") ext (str "main")
    ⟨"Unexpected {}", some (str "Unexpected element"),
      [⟨⟨str "x", 79, 86⟩, .primary, none⟩, ⟨⟨str "main", 68, 69⟩, .secondary, some "as included here"⟩]⟩ :=
  C73_diagnostics_point_at_the_fault (two_cases includer_depicted twoInStart_depicted)
    (two_cases (noPrefixB_ok (by decide +kernel)) (noPrefixB_ok (by decide +kernel))) home_two.noExternal
    two_formed home_two.parents
    (report_eq C73_case_refused).1 (report_eq C73_case_refused).2

/-- **C73**: messages for the errors of the compiler: the datatype library is shown as the value of the attribute; and what goes wrong: a
declared prefix that the compiler does not know is shown as `<`. -/
theorem C73_case_messages :
    report (one libraryText library) = some (.err (.datatype (some ⟨str "main", 79, 82⟩) .unsupportedLibrary),
      some ⟨"Unsupported datatype library namespace {}", none, [⟨⟨str "main", 79, 82⟩, .primary, none⟩]⟩) ∧
    cutOf libraryText ⟨79, 82⟩ = some (str "u:v") ∧
    report (one prefixNameText prefixName) = some (.err (.undefinedNamespacePrefix ⟨str "main", 65, 66⟩ (str "p")),
      some ⟨"Undefined namespace prefix {}", some (str "p"), [⟨⟨str "main", 65, 66⟩, .primary, none⟩]⟩) ∧
    report (one wrongCharText wrongChar) = some (.err (.load (str "main") .parse),
      some ⟨"Unexpected {}", some (str "Unexpected character within identifier"), [⟨⟨str "main", 56, 57⟩, .primary, none⟩]⟩) := by decide +kernel

end Verif.RngAt.Ex
