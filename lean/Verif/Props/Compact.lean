import Verif.Proof.CompactTop
import Verif.Proof.CompactTerm
import Verif.Proof.CompactSound3
import Verif.Proof.CompactCalm
import Verif.Props.SchemaMeaning
/-
C42 (literals), C43 (identifiers and keywords) and C58 (reading schemas in the compact syntax).
-/
namespace Verif
open Compact Rnc

/-- a recursion budget that is enough, see `C58_parser_terminates` and `C58_budget_is_irrelevant` -/
def readCompact (t : Str) : ParseOutcome := parseCompact (t.length + 2) t

/-! ### C58 -/

/-- **C58**: every way of writing a schema is read, as that schema. -/
theorem C58_every_spelling_is_read {s : SSchema} {t : Str} (h : Schema True s t) : readCompact t = .ok s := parse_complete h (Nat.le_refl _)

/-- **C58**: what is read is a way of writing the schema that results. -/
theorem C58_what_is_read_is_a_spelling {s : SSchema} {t : Str} {n : Nat} (h : parseCompact n t = .ok s) : Schema False s t := parse_sound h

/-- **C58**: the syntax is unambiguous. -/
theorem C58_unambiguous {s s' : SSchema} {t : Str} (h : Schema True s t) (h' : Schema True s' t) : s = s' := by
  have e := (C58_every_spelling_is_read h).symm.trans (C58_every_spelling_is_read h')
  cases e; rfl

/-- **C58**: reading a schema comes to an end. -/
theorem C58_parser_terminates (t : Str) : readCompact t ≠ .fuel := parse_terminates (Nat.le_refl _)

/-- **C58**: the outcome does not depend on the model's budget. -/
theorem C58_budget_is_irrelevant {t : Str} {n : Nat} (hn : t.length + 2 ≤ n) : parseCompact n t = readCompact t := parse_fuel hn

/-- **C58**: reading a schema does not panic if each comment ends with a line feed and there are no annotations with `>>`. -/
theorem C58_no_panic {t : Str} (h1 : ∀ a s, t = a ++ '#' :: s → '\n' ∈ s) (h2 : ∀ a s, t ≠ a ++ '>' :: '>' :: s) :
    (∃ s, readCompact t = .ok s) ∨ readCompact t = .error := by
  have h3 : readCompact t ≠ .panic := parse_calm ⟨fun s ⟨a, e⟩ => h1 a s e.symm, fun s ⟨a, e⟩ => h2 a s e.symm⟩
  have h4 := C58_parser_terminates t
  cases e : readCompact t with
  | ok s => exact .inl ⟨s, rfl⟩
  | error => exact .inr rfl
  | panic => exact absurd e h3
  | fuel => exact absurd e h4

/-- The files of a schema in the compact syntax: M:647-663 `Files::load`, M:65-86 `Syntax::parse`. -/
def compactFiles (text : Str → Option Str) (join : Str → Str → Option Str) : Files where
  load f := match text f with
    | none => .error .io
    | some t => match readCompact t with
      | .ok s => .ok s
      | .panic => .error .panic
      | _ => .error .parse
  join := join

/-- the texts are ways of writing the schemas -/
def Written (text : Str → Option Str) (sch : Str → Except LoadErr SSchema) : Prop :=
  ∀ f, (text f = none ∧ sch f = .error .io) ∨ ∃ t s, text f = some t ∧ sch f = .ok s ∧ Schema True s t

/-- **C58**: compiling the texts is compiling what they say. -/
theorem C58_texts_compile_as_schemas {text : Str → Option Str} {sch : Str → Except LoadErr SSchema} {join : Str → Str → Option Str} (h : Written text sch) :
    compactFiles text join = ⟨sch, join⟩ := by
  unfold compactFiles
  congr
  funext f
  rcases h f with ⟨h1, h2⟩ | ⟨t, s, h1, h2, h3⟩
  · rw [h1, h2]
  · rw [h1, h2]
    dsimp only
    rw [C58_every_spelling_is_read h3]

/-- **C58**, C53: the schema compiled from texts means what the texts say. -/
theorem C58_compiled_texts_mean_what_they_say {text : Str → Option Str} {sch : Str → Except LoadErr SSchema} {join : Str → Str → Option Str} {x : Ext} {n m k : Nat}
    {st : CState} {name : Str} (h : Written text sch) (hc : compileFile (compactFiles text join) x n m name (.fresh []) = .ok (k, st)) :
    ∃ r, st.cell k = some r ∧ ∀ node, Match (stdLib x) st.env r.pattern [] [node] ↔ SchemaMatches ⟨sch, join⟩ x name node := by
  rw [C58_texts_compile_as_schemas h] at hc
  exact C53_compiled_schema_means_its_source (l := []) (fun _ _ h => by cases h) hc

/-! ### C42 -/

/-- **C42**: a literal is read in full, up to a text that does not continue it, and has the value it denotes. -/
theorem C42_literals_are_read {v t g r : Str} {c : Char} (h : Literal v t) (hg : Gap g) (hc : c ∉ [' ', '\t', '\r', '\n', '#', '~', '"', '\'']) :
    literal (t ++ (g ++ c :: r)) = .ok (g ++ c :: r) v := by
  simp only [List.mem_cons, List.not_mem_nil, or_false, not_or] at hc
  refine literal_ok h (LitFol.char hg ⟨⟨?_, hc.2.2.2.2.1⟩, ?_⟩)
  · simp only [isMultispace, Bool.or_eq_false_iff, beq_eq_false_iff_ne]
    exact ⟨⟨⟨hc.1, hc.2.1⟩, hc.2.2.1⟩, hc.2.2.2.1⟩
  · simp only [List.mem_cons, List.not_mem_nil, or_false, not_or]
    exact hc.2.2.2.2.2

/-- **C42**: what is read as a literal is one, and its value is what it denotes. -/
theorem C42_what_is_read_is_a_literal {i r v : Str} (h : literal i = .ok r v) : ∃ t, i = t ++ r ∧ Literal v t := literal_inv h

/-- **C42**: each string can be written as a literal. -/
theorem C42_every_string_has_a_literal (v : Str) : ∃ t, Literal v t := by
  have one : ∀ c : Char, ∃ t, Segment [c] t := by
    intro c
    by_cases h : c = '"'
    · subst h
      exact ⟨_, .single (.inr rfl) (fun c hc => by simp at hc; subst hc; decide)⟩
    · exact ⟨_, .triple (.inl rfl) (.zero h .nil)⟩
  induction v with
  | nil => exact ⟨_, .one (.single (.inl rfl) nofun)⟩
  | cons c cs ih =>
    obtain ⟨t, ht⟩ := ih
    obtain ⟨s, hs⟩ := one c
    exact ⟨_, .more hs .nil .nil ht⟩

theorem noSep : Sep [' '] := ⟨.space (.inl rfl) .nil, by simp⟩
theorem noGap1 : Gap [' '] := .space (.inl rfl) .nil

theorem plainIdent {w : Str} (c : Char) (cs : Str) (e : w = c :: cs) (h : ncNameStartChar c = true) (h' : cs.all ncNameChar = true) (hk : keywords.contains w = false) : Ident w := by
  subst e
  refine .plain ⟨c, cs, rfl, (ncNameStartChar_iff c).mp h, fun d hd => (ncNameChar_iff d).mp (List.all_eq_true.mp h' d hd)⟩ fun hk' => ?_
  rw [keyword_mem] at hk'
  rw [List.contains_eq_mem] at hk
  simp [hk'] at hk

theorem not_bracket {c : Char} {x g y : Str} (hc : ncNameStartChar c = true ∨ c = '\\') (hg : Gap g) : [' '] ++ (c :: x) ≠ g ++ '[' :: y := by
  intro e
  cases hg with
  | nil => injection e with e _; exact absurd e (by decide)
  | space h hg =>
    rename_i d s
    injection e with e1 e2
    cases s with
    | nil => injection e2 with e2 _; subst e2; revert hc; decide
    | cons d ds =>
      injection e2 with e2 _
      have := hg.head rfl
      subst e2
      have := noGap_idHead hc
      simp_all
  | comment _ _ => injection e with e _; exact absurd e (by decide)
  | commentCr _ _ => injection e with e _; exact absurd e (by decide)

/-- `element NAME { PATTERN }` -/
theorem element_spelling {a : SNameClass} {w t : Str} {p : SPattern} {b : Bool} (hw : Name a w) (hp : Rnc.Pat True p b t) :
    Schema True ⟨[], .pattern (.element a p)⟩ ("element ".toList ++ w ++ " { ".toList ++ t ++ " }".toList) := by
  have hb : Braced True p ([' '] ++ '{' :: [' '] ++ t ++ [' '] ++ ['}']) := .mk noGap1 noGap1 hp noGap1
  have hpat : Rnc.Pat True (.element a p) false _ := .mk .none (.element noSep (.base .none (.name hw) .nil (.inr rfl)) hb rfl) .nil .done
  have e : ("element ".toList ++ w ++ " { ".toList ++ t ++ " }".toList) =
      [] ++ [] ++ [] ++ ([] ++ ("element".toList ++ [' '] ++ ([] ++ w ++ []) ++ ([' '] ++ '{' :: [' '] ++ t ++ [' '] ++ ['}'])) ++ [] ++ []) ++ [] := by
    have e1 : "element ".toList = "element".toList ++ [' '] := rfl
    have e2 : " { ".toList = [' ', '{', ' '] := rfl
    have e3 : " }".toList = [' ', '}'] := rfl
    rw [e1, e2, e3]; simp
  rw [e]
  refine Schema.mk .nil .nil .nil (.pattern hpat fun _ => ?_) .nil (.inl rfl)
  rintro ⟨k, g, u, hk, hg, e⟩
  obtain ⟨c, cs, rfl, hc⟩ : ∃ c cs, w = c :: cs ∧ (ncNameStartChar c = true ∨ c = '\\') := by
    cases hw with
    | ident h => exact h.head
    | cname h _ =>
      obtain ⟨c, cs, e, h, _⟩ := h
      exact ⟨c, cs ++ ':' :: _, by rw [e]; rfl, .inl ((ncNameStartChar_iff c).mpr h)⟩
  have key := fun x y => not_bracket (x := x) (y := y) hc hg
  rcases hk with rfl | rfl
  · have : "element".toList ++ ([' '] ++ c :: (cs ++ ([' '] ++ '{' :: [' '] ++ t ++ [' '] ++ ['}']))) = "element".toList ++ (g ++ '[' :: u) := by simpa using e
    exact key _ _ (List.append_cancel_left this)
  · cases e

/-- **C42**: a literal as the content of an element demands that the content is the literal's value. -/
theorem C42_value_pattern {v t : Str} (h : Literal v t) :
    readCompact ("element a { ".toList ++ t ++ " }".toList) = .ok ⟨[], .pattern (.element (.ident ['a']) (.value none v))⟩ := by
  have := C58_every_spelling_is_read (element_spelling (w := ['a']) (.ident (.ident (plainIdent 'a' [] rfl (by decide) rfl (by decide))))
    (.mk .none (.value h) .nil .done))
  simpa using this

/-! ### C43 -/

/-- **C43**: an NCName that is not a keyword is read as an identifier, in full; so is a keyword after a backslash. -/
theorem C43_identifiers_are_read {w r : Str} (h : Ident w) (hr : ∀ c cs, r = c :: cs → ¬ NameChar c) : identifier (w ++ r) = .ok r w := by
  refine identifier_ok h fun c cs e => ?_
  have := hr c cs e
  cases hc : ncNameChar c with
  | false => rfl
  | true => exact absurd ((ncNameChar_iff c).mp hc) this

/-- **C43**: what is read as an identifier is one, and no part of a longer name. -/
theorem C43_what_is_read_is_an_identifier {i r w : Str} (h : identifier i = .ok r w) : i = w ++ r ∧ Ident w ∧ ∀ c cs, r = c :: cs → ¬ NameChar c := by
  obtain ⟨e, hw, hr⟩ := identifier_inv h
  refine ⟨e, hw, fun c cs e hc => ?_⟩
  have := hr c cs e
  rw [(ncNameChar_iff c).mpr hc] at this
  cases this

/-- **C43**: a keyword is no identifier. -/
theorem C43_keywords_are_no_identifiers {k r : Str} (hk : Keyword k) (hr : ∀ c cs, r = c :: cs → ¬ NameChar c) : identifier (k ++ r) = .err := by
  refine identifier_keyword hk fun c cs e => ?_
  have := hr c cs e
  cases hc : ncNameChar c with
  | false => rfl
  | true => exact absurd ((ncNameChar_iff c).mp hc) this

/-- **C43**: names of elements may be keywords. -/
theorem C43_element_names {w : Str} (h : AnyIdent w) :
    readCompact ("element ".toList ++ w ++ " { empty }".toList) = .ok ⟨[], .pattern (.element (.ident w) .empty)⟩ := by
  have := C58_every_spelling_is_read (element_spelling (.ident h) (.mk .none .empty .nil .done))
  have e : "element ".toList ++ w ++ " { empty }".toList = "element ".toList ++ w ++ " { ".toList ++ ([] ++ "empty".toList ++ [] ++ []) ++ " }".toList := by
    have e1 : " { empty }".toList = " { ".toList ++ ([] ++ "empty".toList ++ [] ++ []) ++ " }".toList := rfl
    rw [e1]; simp
  rw [e]; exact this

/-- **C43**, deviation: the backslash before a keyword stays part of the name.  `element \list { empty }` is an element whose name
begins with a backslash: no XML element has it. -/
theorem C43_quoted_names_keep_the_backslash {k : Str} (h : Keyword k) :
    readCompact ("element ".toList ++ ('\\' :: k) ++ " { empty }".toList) = .ok ⟨[], .pattern (.element (.ident ('\\' :: k)) .empty)⟩ :=
  C43_element_names (.ident (.quoted h))

theorem tail_ident {strict : Prop} {w : Str} : ∀ (n : Nat) {p : SPattern} {a b : Bool} {t : Str}, t.length ≤ n → Tail strict p a (.ident w) b t → p = .ident w ∧ t = []
  | _, _, _, _, _, _, .done => ⟨rfl, rfl⟩
  | 0, _, _, _, _, hn, .optional _ _ => absurd hn (by simp)
  | 0, _, _, _, _, hn, .zeroOrMore _ _ => absurd hn (by simp)
  | 0, _, _, _, _, hn, .oneOrMore _ _ => absurd hn (by simp)
  | n + 1, _, _, _, _, hn, .optional _ h => by cases (tail_ident n (by simp at hn; omega) h).1
  | n + 1, _, _, _, _, hn, .zeroOrMore _ h => by cases (tail_ident n (by simp at hn; omega) h).1
  | n + 1, _, _, _, _, hn, .oneOrMore _ h => by cases (tail_ident n (by simp at hn; omega) h).1

/-- **C43**, deviation: no schema refers to a definition whose name begins with `string` or `token`. -/
theorem C43_no_reference_begins_with_string {t w : Str} {n : Nat} {ds : List SDecl} (h : parseCompact n t = .ok ⟨ds, .pattern (.ident w)⟩) :
    ¬ "string".toList <+: w ∧ ¬ "token".toList <+: w := by
  have h := C58_what_is_read_is_a_spelling h
  cases h with
  | mk _ _ _ hb _ _ =>
    cases hb with
    | pattern hp _ =>
      cases hp with
      | mk _ hp _ ht =>
        obtain ⟨rfl, _⟩ := tail_ident _ (Nat.le_refl _) ht
        cases hp
        assumption
      | dataExceptFollowed _ _ _ _ _ _ _ _ _ ht => cases (tail_ident _ (Nat.le_refl _) ht).1

end Verif
