import Verif.Props.CompactErrors
import Verif.Props.SchemaDiagCases
/-
Concrete cases for C72.
-/
namespace Verif.ECompact.Ex
open Verif Verif.At Verif.At.Ex Rnc
open Verif.Ex (str ext)

/-- the place of the error, if there is one -/
def errorAt (t : Str) : Option Nat :=
  match ECompact.readCompact t with
  | .error k => some k
  | _ => none

theorem errorAt_eq {t : Str} {k : Nat} (h : errorAt t = some k) : ECompact.readCompact t = .error k := by
  unfold errorAt at h
  cases e : ECompact.readCompact t with
  | error k' => rw [e] at h; cases h; rfl
  | _ => rw [e] at h; cases h

/-- is the text read? -/
def reads (t : Str) : Bool :=
  match Verif.readCompact t with
  | .ok _ => true
  | _ => false

theorem begins {u : Str} (v : Str) (h : reads (u ++ v) = true) : BeginsSchema u := by
  unfold reads at h
  cases e : Verif.readCompact (u ++ v) with
  | ok s => exact ⟨v, s, C58_what_is_read_is_a_spelling e⟩
  | _ => rw [e] at h; cases h

/-- **C72**: a brace that is missing is missed at the end of the text; what comes after a schema is reported where it begins; offsets count bytes. -/
theorem C72_case_places :
    errorAt (str "element a { empty ") = some 18 ∧ errorAt (str "element a { empty } }") = some 20 ∧
    errorAt (str "start = a\nb == empty") = some 13 ∧ errorAt (str "element a { \"é\", 5 }") = some 18 ∧
    errorAt (str "start = a\nb = element c { text\nd = empty") = some 31 ∧ errorAt (str "start = (a, (b | 5))") = some 17 ∧
    errorAt (str "start = a") = none := by decide +kernel

/-- **C72**: the place can be before the fault.  In this text the `5` is wrong, but the place is that of the word `element` before it, as all
that comes before the `5` is the beginning of a schema. -/
theorem C72_case_earlier : errorAt (str "element a { element 5 {} }") = some 12 ∧ BeginsSchema (str "element a { element ") :=
  ⟨by decide +kernel, begins (str "b { empty } }") (by decide +kernel)⟩

/-- **C72**: the hypotheses of the general theorems are met -/
theorem C72_case_right : RightUpTo (str "element a { \"é\", 5 }") 18 ∧ ∀ s, ¬ Schema True s (str "element a { \"é\", 5 }") :=
  C72_right_up_to_the_error (errorAt_eq C72_case_places.2.2.2.1)

/-- the body of a schema does not begin with `}` -/
theorem body_head {b : SBody} {u : Str} (h : Rnc.Body False b u) : ∃ c cs, u = c :: cs ∧ c ≠ '}' := by
  have hne : ∀ {c : Char}, (Verif.ncNameStartChar c = true ∨ c = '\\' ∨ c = '"' ∨ c = '\'' ∨ c = '(') → c ≠ '}' := by
    rintro c h rfl
    revert h
    decide
  cases h with
  | grammar h =>
    obtain ⟨s, t', hi, rfl⟩ := Compact.sepBy_first h
    obtain ⟨c, cs, rfl, hc⟩ := hi.head
    exact ⟨c, cs ++ t', rfl, hne (hc.elim .inl fun h => .inr (.inl h))⟩
  | pattern h _ =>
    have key : ∀ {i s r : Str}, Init False i → Compact.PatHead s → ∃ c cs, i ++ s ++ r = c :: cs ∧ c ≠ '}' := by
      intro i s r hi hs
      rcases hi.first with rfl | ⟨cs, rfl⟩
      · obtain ⟨c, cs, rfl, hc⟩ := hs
        exact ⟨c, cs ++ r, rfl, hne hc⟩
      · exact ⟨'[', cs ++ s ++ r, by simp, by decide⟩
    cases h with
    | mk hi hp _ _ => simpa using key (r := _) hi hp.head
    | dataExcept hi hd _ _ _ _ _ => simpa using key (r := _) hi hd.patHead
    | dataExceptFollowed hi hd _ _ _ _ _ _ _ _ => simpa using key (r := _) hi hd.patHead

/-- no schema begins with `}` -/
theorem no_schema_begins_with_brace : ¬ BeginsSchema ['}'] := by
  rintro ⟨v, s, h⟩
  generalize e : ['}'] ++ v = w at h
  cases h with
  | @mk g ds t g' b u g'' hg ht hg' hb _ _ =>
    obtain ⟨c, cs, rfl, hc⟩ := body_head hb
    have h1 : ∀ d ds, g' ++ (c :: cs ++ g'') = d :: ds → d ≠ '}' :=
      hg'.ne (by decide) fun d ds h => by cases h; exact hc
    have h2 : ∀ d ds, t ++ (g' ++ (c :: cs ++ g'')) = d :: ds → d ≠ '}' := by
      cases ds with
      | nil => cases ht; simpa using h1
      | cons x xs =>
        obtain ⟨s, t', hd, rfl⟩ := Compact.sepBy_first ht
        obtain ⟨d, ds, rfl, hd'⟩ := hd.head
        intro d' ds' h
        have : d' = d := by simpa using congrArg List.head? h.symm
        subst this
        rcases hd' with rfl | rfl <;> decide
    exact hg.ne (by decide) h2 '}' v (by rw [← List.append_assoc, ← List.append_assoc, ← List.append_assoc]; exact e.symm) rfl

/-- **C72**: the fault is not before the place -/
theorem C72_case_fault : ∀ k, ECompact.readCompact (str "} start = a") = .error k → k = 0 := by
  intro k h
  have := C72_fault_is_not_before h (u := ['}']) (rest := str " start = a") rfl no_schema_begins_with_brace
  have e : byteLen ['}'] = 1 := by decide
  omega

def incomplete : List (String × String) := [("main", "start = a\ninclude \"x\""), ("x", "a = element b { text ")]

theorem incomplete_fails : failure incomplete = some (.err (.inInclude ⟨str "main", 18, 21⟩ (.load (str "x") .parse))) := by decide +kernel

/-- **C72**: the diagnostic for an included file that ends too early -/
theorem C72_case_diagnostic : diagnostic (dir incomplete) (syntaxAt (texts incomplete)) (.inInclude ⟨str "main", 18, 21⟩ (.load (str "x") .parse)) =
    some ⟨"Parse error", none, [⟨⟨str "x", 21, 21⟩, .primary, none⟩, ⟨⟨str "main", 18, 21⟩, .secondary, some "as included here"⟩]⟩ := by decide +kernel

/-- **C72**: the hypotheses of `C72_syntax_diagnostic` are met -/
theorem C72_case_syntax_diagnostic : FaultInside (texts incomplete) ⟨str "x", 21, 21⟩ := by
  obtain ⟨_, s, ls, h, _, h'⟩ := C72_syntax_diagnostic (n := 30) (m := 30) (x := ext) faithful_nil (failure_eq incomplete_fails) rfl C72_case_diagnostic
  cases h
  exact h'

end Verif.ECompact.Ex
