import Verif.Props.CompactSpans
import Verif.Props.SchemaFindings
/-
Concrete cases for C67, C68 and C69: directories of texts, read by the compact parser and compiled.
-/
namespace Verif.At.Ex
open Verif Verif.At
open Verif.Ex (str ext)

/-- the texts of a directory -/
def texts (l : List (String × String)) (f : Str) : Option Str := List.lookup f (l.map fun f => (f.1.toList, f.2.toList))

/-- a directory of texts; `join` ignores the including file -/
def dir (l : List (String × String)) : LFiles := LCompact.compactFiles (texts l) fun _ lit => some lit

/-- how compiling `main` fails -/
def failure (fs : List (String × String)) : Option LFault :=
  match compileFile (dir fs) ext 30 30 (str "main") (.fresh []) with
  | .ok _ => none
  | .error e => some e

/-- does `main` compile without positions? -/
def plainOk (fs : List (String × String)) : Bool :=
  match Verif.compileFile (dir fs).plain ext 30 30 (str "main") (.fresh []) with
  | .ok _ => true
  | .error _ => false

theorem faithful_nil {F : LFiles} : LFaithful F [] := nofun

theorem failure_eq {fs : List (String × String)} {e : LFault} (h : failure fs = some e) :
    compileFile (dir fs) ext 30 30 (str "main") (.fresh []) = .error e := by
  unfold failure at h
  split at h
  · cases h
  · next e' he => cases h; exact he

theorem plainOk_eq {fs : List (String × String)} (h : plainOk fs = true) :
    ∃ k st, Verif.compileFile (dir fs).plain ext 30 30 (str "main") (.fresh []) = .ok (k, st) := by
  unfold plainOk at h
  split at h
  · next r he => exact ⟨r.1, r.2, he⟩
  · cases h

/-! ### the tree of a text -/

/-- **C69**: the positions of a small schema.  The range of an element goes from its keyword to its closing brace; positions count
bytes (`é` has two); the position of `start` is empty. -/
theorem C69_case_positions :
    (match LCompact.readCompact (str "# é\nstart = element p:a { b* }\nb = attribute c { text }, parent d") with
      | .ok s => some s
      | _ => none) =
    some ⟨[], .grammar [
      .define ⟨5, 5⟩ (str "start") .assign
        (.element ⟨13, 31⟩ (.cname ⟨21, 22⟩ (str "p") (str "a")) (.zeroOrMore (.ident ⟨27, 28⟩ (str "b")))),
      .define ⟨32, 33⟩ (str "b") .assign
        (.seq (.attribute ⟨36, 56⟩ (.ident (str "c")) .text) (.parent ⟨65, 66⟩ (str "d")))]⟩ := by rfl

def readBack : LSchema := ⟨[], .grammar [.define ⟨0, 1⟩ (str "a") .assign (.ident ⟨4, 5⟩ (str "b"))]⟩

theorem readBack_eq : LCompact.readCompact (str "a = b") = .ok readBack := by rfl

/-- from the general theorem: what stands at byte 4 is the name `b` -/
theorem C69_case_reads : Reads (str "a = b") (.pat (.ident ⟨4, 5⟩ (str "b"))) (.ref (str "b")) ⟨4, 5⟩ :=
  C69_positions_show_the_source readBack_eq (.step (.define (.head _)) .refl) .ref

/-! ### the panic -/

def longer : List (String × String) := [("main", "start=external \"x\""), ("x", "# a comment\nstart = element a { empty }")]

/-- **C67**, the panic: nothing is wrong with this schema, but the grammar is longer than the file that uses it. -/
theorem C67_case_external_grammar : plainOk longer = true ∧ failure longer = some (.subspan false) := by decide +kernel

def longerMain : LSchema := ⟨[], .grammar [.define ⟨0, 0⟩ (str "start") .assign (.external ⟨15, 18⟩ (str "x") none)]⟩
def longerX : LSchema := ⟨[], .grammar [.define ⟨12, 12⟩ (str "start") .assign (.element ⟨20, 39⟩ (.ident (str "a")) .empty)]⟩

theorem longer_load : (dir longer).load (str "main") = .ok longerMain ∧ (dir longer).load (str "x") = .ok longerX := ⟨rfl, rfl⟩

/-- The same from the general theorem, whose hypotheses this schema meets. -/
theorem C67_case_panics : ∃ b, compileFile (dir longer) ext 30 30 (str "main") (.fresh []) = .error (.subspan b) :=
  C67_external_grammar_panics (t := .pat (.element ⟨20, 39⟩ (.ident (str "a")) .empty)) (src := str "x") (f := str "main") (mk := .element) (r := ⟨20, 39⟩)
    faithful_nil (plainOk_eq C67_case_external_grammar.1)
    (.inside (.inside (.inside (.grammar longer_load.1 rfl) (.define (.head _)))
      (.externalGrammar (h := str "x") (s := longerX) rfl longer_load.2 rfl))
      (.define (.head _)))
    .element .element (by decide)

/-! ### where errors point -/

def prefixed : List (String × String) := [("main", "start = a\ninclude \"x\""), ("x", "a = element p:b { empty }")]

/-- **C68**: the error is at the prefix in `x`, within the error at the include in `main`. -/
theorem C68_case_prefix : failure prefixed = some (.err (.inInclude ⟨str "main", 18, 21⟩ (.undefinedNamespacePrefix ⟨str "x", 12, 13⟩ (str "p")))) := by
  decide +kernel

theorem C68_case_blames : Blames (dir prefixed) ext (str "main") (str "main")
    (.inInclude ⟨str "main", 18, 21⟩ (.undefinedNamespacePrefix ⟨str "x", 12, 13⟩ (str "p"))) :=
  C68_errors_point_at_the_fault faithful_nil (failure_eq C68_case_prefix)

def twice : List (String × String) := [("main", "start = a\na = empty\na = text")]

/-- **C68**, what goes wrong: the second definition is reported as the original, the first one as its duplicate. -/
theorem C68_case_duplicate_swapped : failure twice = some (.err (.duplicateDefinition (str "a") ⟨str "main", 10, 11⟩ ⟨str "main", 20, 21⟩)) := by
  decide +kernel

def undefd : List (String × String) := [("main", "start = a")]

/-- **C68**, what goes wrong: a name that is not defined is reported at the beginning of the file, not where it is used. -/
theorem C68_case_undefined : failure undefd = some (.err (.undefinedReference ⟨str "main", 0, 0⟩ (str "a"))) := by decide +kernel

def wrongFile : List (String × String) := [("main", "# some comment here\nstart = external \"x\""), ("x", "start = element p:b { empty }")]

/-- **C69**, what goes wrong with an external grammar: the prefix stands in `x`, but is looked for in `main`, where there is something
else. -/
theorem C69_case_wrong_file :
    failure wrongFile = some (.err (.undefinedNamespacePrefix ⟨str "main", 16, 17⟩ (str "p"))) ∧
      ¬ Quotes (texts wrongFile) ⟨str "main", 16, 17⟩ (str "p") := by
  refine ⟨by decide +kernel, ?_⟩
  rintro ⟨txt, ht, hc⟩
  have e : txt = str "# some comment here\nstart = external \"x\"" := by cases ht; rfl
  subst e
  have : Cut (str "# some comment here\nstart = external \"x\"") ⟨16, 17⟩ (str "e") :=
    ⟨str "# some comment h", str "re\nstart = external \"x\"", rfl, rfl, rfl⟩
  exact absurd (hc.unique this) (by decide)

/-- without the external grammar nothing of this happens: the hypotheses of `C67_positions_do_not_matter` are met -/
theorem C67_case_own : OwnPlaced (dir undefd) (str "main") ∧ NoExternalGrammar (dir undefd) (str "main") ∧ ParentsAtHome (dir undefd) (str "main") := by
  have hs : ∀ s, (dir undefd).load (str "main") = .ok s →
      s = ⟨[], .grammar [.define ⟨0, 0⟩ (str "start") .assign (.ident ⟨8, 9⟩ (str "a"))]⟩ := by
    intro s h
    have : (dir undefd).load (str "main") = .ok ⟨[], .grammar [.define ⟨0, 0⟩ (str "start") .assign (.ident ⟨8, 9⟩ (str "a"))]⟩ := rfl
    rw [this] at h; cases h; rfl
  have key : ∀ a, LOccurs (dir undefd) (str "main") a →
      a = ⟨str "main", str "main", .items [.define ⟨0, 0⟩ (str "start") .assign (.ident ⟨8, 9⟩ (str "a"))]⟩ ∨
      a = ⟨str "main", str "main", .pat (.ident ⟨8, 9⟩ (str "a"))⟩ := by
    intro a h
    induction h with
    | pattern hl hb => rw [hs _ hl] at hb; cases hb
    | grammar hl hb => rw [hs _ hl] at hb; cases hb; exact .inl rfl
    | inside ho hw ih =>
      rcases ih with rfl | rfl
      · cases hw with
        | define h => cases h with
          | head => exact .inr rfl
          | tail _ h => cases h
        | div h => cases h with | tail _ h => cases h
        | included h => cases h with | tail _ h => cases h
        | override h => cases h with | tail _ h => cases h
      · cases hw
  refine ⟨?_, ?_, ?_⟩
  · intro f src t m r ho hh
    rcases key _ ho with he | he
    · cases he
      cases hh with
      | define h => cases h with
        | head => exact ⟨by decide, by decide⟩
        | tail _ h => cases h
      | «include» h => cases h with | tail _ h => cases h
      | inherit h => cases h with | tail _ h => cases h
      | override h => cases h with | tail _ h => cases h
    · cases he
      cases hh
      exact ⟨by decide, by decide⟩
  · intro f src r path i h s is ho
    rcases key _ ho with he | he <;> cases he
  · intro f src r id ho
    rcases key _ ho with he | he <;> cases he


/-! ### the positions of errors, from the general theorems -/

def badPrefix : List (String × String) := [("main", "start = element p:b { empty }")]

def badPrefixMain : LSchema :=
  ⟨[], .grammar [.define ⟨0, 0⟩ (str "start") .assign (.element ⟨8, 29⟩ (.cname ⟨16, 17⟩ (str "p") (str "b")) .empty)]⟩

theorem badPrefix_load : (dir badPrefix).load (str "main") = .ok badPrefixMain := rfl

theorem badPrefix_places : ∀ a, LOccurs (dir badPrefix) (str "main") a →
    a = ⟨str "main", str "main", .items [.define ⟨0, 0⟩ (str "start") .assign (.element ⟨8, 29⟩ (.cname ⟨16, 17⟩ (str "p") (str "b")) .empty)]⟩ ∨
    a = ⟨str "main", str "main", .pat (.element ⟨8, 29⟩ (.cname ⟨16, 17⟩ (str "p") (str "b")) .empty)⟩ ∨
    a = ⟨str "main", str "main", .pat .empty⟩ := by
  have hs : ∀ s, (dir badPrefix).load (str "main") = .ok s → s = badPrefixMain := by
    intro s h; rw [badPrefix_load] at h; cases h; rfl
  intro a h
  induction h with
  | pattern hl hb => rw [hs _ hl] at hb; cases hb
  | grammar hl hb => rw [hs _ hl] at hb; cases hb; exact .inl rfl
  | inside ho hw ih =>
    rcases ih with rfl | rfl | rfl
    · cases hw with
      | define h => cases h with
        | head => exact .inr (.inl rfl)
        | tail _ h => cases h
      | div h => cases h with | tail _ h => cases h
      | included h => cases h with | tail _ h => cases h
      | override h => cases h with | tail _ h => cases h
    · cases hw; exact .inr (.inr rfl)
    · cases hw

theorem badPrefix_own : NoExternalGrammar (dir badPrefix) (str "main") := by
  intro f src r path i h s is ho
  rcases badPrefix_places _ ho with he | he | he <;> cases he

theorem badPrefix_parents : ParentsAtHome (dir badPrefix) (str "main") := by
  intro f src r id ho
  rcases badPrefix_places _ ho with he | he | he <;> cases he

/-- **C69**: the hypotheses of `C69_undefined_prefix_is_quoted` are met. -/
theorem C69_case_quoted : Quotes (texts badPrefix) ⟨str "main", 16, 17⟩ (str "p") :=
  (C69_undefined_prefix_is_quoted (join := fun _ lit => some lit) badPrefix_own
    (failure_eq (fs := badPrefix) (by decide +kernel))).2

/-- **C69**: the other errors whose positions are quoted do occur. -/
theorem C69_case_recursion :
    failure [("main", "start = a\na = empty | a")] = some (.err (.recursiveReference (str "a") ⟨str "main", 22, 23⟩ ⟨str "main", 10, 11⟩)) ∧
    failure [("main", "start = attribute a { element b { empty } }")] =
      some (.err (.elementAsChildOfAttribute ⟨str "main", 8, 43⟩ ⟨str "main", 22, 41⟩)) := by
  decide +kernel

end Verif.At.Ex
