import Verif.Props.Compact
/-
Concrete schemas in the compact syntax: cases for C42, C43 and C58, and what is read differently from the RELAX NG compact syntax.
-/
namespace Verif.Ex
open Verif Compact Rnc

/-- the outcome of reading a text -/
def rnc (s : String) : ParseOutcome := readCompact s.toList

def ref (s : String) : SPattern := .ident s.toList

theorem C42_case : Literal "ab'\n\"c".toList "\"ab'\" ~ \"\"\"\n\"c\"\"\"".toList :=
  .more (v := "ab'".toList) (s := "\"ab'\"".toList) (g := [' ']) (g' := [' ']) (.single (q := '"') (.inl rfl) (by decide)) noGap1 noGap1
    (.one (.triple (q := '"') (.inl rfl) (.zero (by decide) (.one (by decide) .nil))))

/-- the literal above is read -/
theorem C42_case_read : literal "\"ab'\" ~ \"\"\"\n\"c\"\"\" }".toList = .ok " }".toList "ab'\n\"c".toList := rfl

/-- an empty literal followed by a quote is an empty literal only if it cannot be the beginning of a literal in triple quotes -/
theorem C42_case_quote : literal "\"\"\"x\" ]".toList = .ok "\"x\" ]".toList [] ∧ literal "\"\"\"x\" \"\"\" ]".toList = .ok " ]".toList "x\" ".toList := ⟨rfl, rfl⟩

/-- names that begin with a keyword, or contain one, are identifiers -/
theorem C43_case : Ident "listing".toList ∧ Ident "a-list.b".toList ∧ Ident "\\list".toList ∧ ¬ Ident "list".toList := by
  refine ⟨plainIdent 'l' "isting".toList rfl (by decide) (by decide) (by decide), plainIdent 'a' "-list.b".toList rfl (by decide) (by decide) (by decide),
    .quoted (s := "list".toList) (by unfold Keyword; decide), fun h => ?_⟩
  generalize e : "list".toList = w at h
  cases h with
  | plain _ hk => subst e; exact hk (by unfold Keyword; decide)
  | quoted _ => injection e with e _; exact absurd e (by decide)

set_option maxRecDepth 100000 in
/-- a schema with annotations, comments, operators and literals -/
theorem C58_case_read : rnc "namespace x = \"u\" # a comment\nstart |= element x:a { attribute b { string { length = \"3\" } } , (c | \"v\" ~ 'w')* }\nc = text >> d [ e = \"f\" ]\n" =
    .ok ⟨[.namespace ['x'] (some ['u'])], .grammar [.define "start".toList .choice (.element (.cname ['x'] ['a'])
      (.seq (.attribute (.ident ['b']) (.data .string [⟨"length".toList, ['3']⟩])) (.zeroOrMore (.paren (.choice (.ident ['c']) (.value none ['v', 'w'])))))),
      .define ['c'] .assign .text]⟩ := rfl

theorem nl : Sep ['\n'] := ⟨.space (.inr (.inr (.inr rfl))) .nil, by simp⟩

set_option maxRecDepth 100000 in
/-- the hypothesis of `C58_every_spelling_is_read` -/
theorem C58_case : Schema True ⟨[.namespace ['x'] (some ['u'])], .grammar [.define "start".toList .assign (.element (.cname ['x'] ['a']) (.zeroOrMore (ref "c"))),
      .define ['c'] .choice .text]⟩ "namespace x = \"u\"\n\nstart = element x:a { c* } # the root\nc |= text\n".toList := by
  have hc : NCName ['c'] := ⟨'c', [], rfl, (ncNameStartChar_iff _).mp (by decide), nofun⟩
  have hx : NCName ['x'] := ⟨'x', [], rfl, (ncNameStartChar_iff _).mp (by decide), nofun⟩
  have ha : NCName ['a'] := ⟨'a', [], rfl, (ncNameStartChar_iff _).mp (by decide), nofun⟩
  have ic : Ident ['c'] := plainIdent 'c' [] rfl (by decide) rfl (by decide)
  have ix : Ident ['x'] := plainIdent 'x' [] rfl (by decide) rfl (by decide)
  have pc : Rnc.Pat True (.zeroOrMore (ref "c")) true _ := .mk .none (.ident ic (by unfold Referable; decide)) .nil (.zeroOrMore .nil .done)
  have pe : Rnc.Pat True (.element (.cname ['x'] ['a']) (.zeroOrMore (ref "c"))) false _ :=
    .mk .none (.element noSep (.base .none (.name (.cname hx ha)) .nil (.inr rfl)) (.mk noGap1 noGap1 pc noGap1) rfl) .nil .done
  have pt : Rnc.Pat True .text false _ := .mk .none .text .nil .done
  have hsep : Sep " # the root\n".toList := ⟨.space (.inl rfl) (.comment (body := " the root".toList) (by decide) .nil), by decide⟩
  have items := SepBy.cons (Item.start noGap1 .assign noGap1 pe) hsep (.one (Item.define ic noGap1 .choice noGap1 pt))
  have hd : Decl (.namespace ['x'] (some ['u'])) _ := .namespace noSep (.ident ix) noGap1 noGap1 (.uri (.one (.single (q := '"') (.inl rfl) (by decide))))
  have gg : Gap "\n\n".toList := .space (.inr (.inr (.inr rfl))) nl.1
  exact Schema.mk .nil (.one hd) gg (.grammar items) nl.1 (.inr (fun _ h => absurd h (by decide)))

/-- the hypotheses of `C58_no_panic` -/
theorem C58_case_no_panic : (∀ a s, "empty # x\n".toList = a ++ '#' :: s → '\n' ∈ s) ∧ ∀ a s, "empty # x\n".toList ≠ a ++ '>' :: '>' :: s := by
  have key : ∀ (l : Str) (p : Str → Bool), (∀ k ≤ l.length, p (l.drop k) = true) → ∀ a s, l = a ++ s → p s = true := by
    intro l p h a s e
    have := h a.length (by rw [e]; simp)
    rw [e, List.drop_left] at this
    exact this
  constructor
  · intro a s e
    have := key _ (fun s => match s with | '#' :: s => s.contains '\n' | _ => true) (by decide) _ _ e
    simpa using this
  · intro a s e
    have := key _ (fun s => match s with | '>' :: '>' :: _ => false | _ => true) (by decide) _ _ e
    simp at this

/-! ### deviations -/

/-- a comment without a line feed at the end of a file: a panic -/
theorem C58_case_comment_at_end : rnc "empty # done" = .panic := rfl

/-- an annotation after a name without one before it: a panic -/
theorem C58_case_follow_annotation : rnc "element a >> b [] { empty }" = .panic := rfl

/-- a reference to a definition whose name begins with `string`: refused -/
theorem C58_case_reference : rnc "start = strings strings = text" = .error := rfl

/-- `string-x` is the datatype `string` without `x`, not the name `string-x` -/
theorem C58_case_string_minus : rnc "string-x" = .ok ⟨[], .pattern (.dataExcept .string [] (ref "x"))⟩ := rfl

/-- different operators side by side are accepted, and grouped to the right -/
theorem C58_case_operators : rnc "a | b, c & d" = .ok ⟨[], .pattern (.choice (ref "a") (.seq (ref "b") (.inter (ref "c") (ref "d"))))⟩ := rfl

/-- the pattern after `-` takes in all that follows: `string - "a" | "b"` -/
theorem C58_case_except : rnc "string - \"a\" | \"b\"" = .ok ⟨[], .pattern (.dataExcept .string [] (.choice (.value none ['a']) (.value none ['b'])))⟩ := rfl

/-- a file without definitions (an empty grammar in RELAX NG): refused -/
theorem C58_case_empty_file : rnc "" = .error ∧ rnc "namespace x = \"u\"" = .error := ⟨rfl, rfl⟩

/-- an annotated definition: refused -/
theorem C58_case_annotated_definition : rnc "[a = \"x\"] start = text" = .error := rfl

/-- a schema that begins with an annotated name is taken for a grammar that begins with an annotation, and refused; not so with
parentheses -/
theorem C58_case_annotated_name : rnc "element [a = \"x\"] b { empty }" = .error ∧
    rnc "(element [a = \"x\"] b { empty })" = .ok ⟨[], .pattern (.paren (.element (.ident ['b']) .empty))⟩ := ⟨rfl, rfl⟩

/-- a missing space is not noticed -/
theorem C58_case_missing_space : rnc "namespace a = inheritfoo = text" = .ok ⟨[.namespace ['a'] none], .grammar [.define "foo".toList .assign .text]⟩ := rfl

/-- what `Schema True` leaves out may still be read -/
theorem C58_case_loose : Schema False ⟨[], .pattern (.dataExcept .string [] (ref "x"))⟩ "string-x".toList := C58_what_is_read_is_a_spelling (n := "string-x".toList.length + 2) C58_case_string_minus

end Verif.Ex
