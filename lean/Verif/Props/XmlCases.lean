import Verif.Props.XmlSyntax
import Verif.Props.SchemaFindings
/-
Concrete schema documents: cases for C44, C59, C60 and C62, and (C63) what is read differently from the RELAX NG specification.
-/
namespace Verif.Ex
open Verif XS Rng

/-- an unprefixed attribute -/
def at' (k v : String) : TAttr := ⟨none, k.toList, v.toList⟩
/-- a RELAX NG element without prefix declarations -/
def rng (n : String) (as : List TAttr) (kids : List TNode) : TNode := Rng.el n.toList [] as kids
def txt (s : String) : TNode := .text s.toList
/-- every library is acceptable -/
def anyLib : Str → Bool := fun _ => true

theorem has (k v : String) (as : List TAttr) : HasAttr k.toList (at' k v :: as) v.toList := ⟨[], as, rfl, nofun⟩

theorem has2 (k v k' v' : String) (as : List TAttr) (h : k.toList ≠ k'.toList) : HasAttr k'.toList (at' k v :: at' k' v' :: as) v'.toList :=
  ⟨[at' k v], as, rfl, fun a ha _ => by simp only [List.mem_singleton] at ha; subst ha; exact h⟩

theorem hasNot {k : Str} {as : List TAttr} (h : att k as = none) : NoAttr k as := att_none.1 h

/-- a schema document:
```
<grammar ns="u">
  <start><element name="a"><zeroOrMore><ref name="c"/></zeroOrMore></element></start>
  <define name="c" combine="choice"><text/></define>
  <include href="x.rng" xml:base="d/e"/>
</grammar>
```
-/
def doc59 : TNode :=
  rng "grammar" [at' "ns" "u"]
    [txt "\n  ",
     rng "start" [] [rng "element" [at' "name" " a "] [rng "zeroOrMore" [] [rng "ref" [at' "name" "c"] []]]],
     rng "define" [at' "name" "c", at' "combine" "choice"] [rng "text" [] []],
     rng "include" [at' "href" "x.rng", ⟨some "http://www.w3.org/XML/1998/namespace".toList, "base".toList, "d/e".toList⟩] []]

/-- what it says -/
def schema59 : SSchema :=
  ⟨[], .grammar [.define (str "start") .assign (.element (.namespaced (str "u") (str "a")) (.zeroOrMore (.ident (str "c")))),
    .define (str "c") .choice .text, .include (str "d/x.rng") none []]⟩

set_option maxRecDepth 100000 in
theorem C59_case_read : parseXml anyLib doc59 = some schema59 := rfl

theorem nameA : NameIn " a ".toList "a".toList := xmlNcname_iff.1 rfl
theorem nameC : NameIn "c".toList "c".toList := xmlNcname_iff.1 rfl

theorem dirD : Dir "d/".toList := .step (d := []) (c := ['d']) .none (by decide) (by decide) (by decide)

theorem anyLib_ok (as : List TAttr) : LibOk (fun v => anyLib v = true) as := fun _ _ => .inr rfl

/-- the hypothesis of `C59_every_spelling_is_read` -/
theorem C59_case : Schema (fun v => anyLib v = true) Href doc59 schema59 := by
  have href : Rng.Pats (fun v => anyLib v = true) Href [[], [at' "name" " a "], [], [at' "ns" "u"]] [rng "ref" [at' "name" "c"] []] [.ident (str "c")] :=
    .cons (.mk (anyLib_ok _) (.ref (.mk (has "name" "c" []) nameC nofun))) .nil
  have hzero : Rng.Pats (fun v => anyLib v = true) Href [[at' "name" " a "], [], [at' "ns" "u"]] [rng "zeroOrMore" [] [rng "ref" [at' "name" "c"] []]]
      [.zeroOrMore (.ident (str "c"))] := .cons (.mk (anyLib_ok _) (.zeroOrMore href .one)) .nil
  have hns : Nearest "ns".toList [[at' "name" " a "], [], [at' "ns" "u"]] "u".toList :=
    .up (hasNot rfl) (.up (hasNot rfl) (.here (has "ns" "u" [])))
  have hel : Rng.Pats (fun v => anyLib v = true) Href [[], [at' "ns" "u"]]
      [rng "element" [at' "name" " a "] [rng "zeroOrMore" [] [rng "ref" [at' "name" "c"] []]]]
      [.element (.namespaced (str "u") (str "a")) (.zeroOrMore (.ident (str "c")))] :=
    .cons (.mk (anyLib_ok _) (.element (noAttsExcept_iff.1 rfl) (has "name" " a " []) (.plain nameA hns) hzero .one)) .nil
  have htext : Rng.Pats (fun v => anyLib v = true) Href [[at' "name" "c", at' "combine" "choice"], [at' "ns" "u"]] [rng "text" [] []] [.text] :=
    .cons (.mk (anyLib_ok _) (.text nofun nofun)) .nil
  refine .grammar (.skip ?_ (.cons (.start (.none (hasNot rfl)) nofun hel) (.cons (.define (.choice (has2 "name" "c" "combine" "choice" [] (by decide))
    (trim_iff.1 rfl)) (has "name" "c" _) nameC htext .one) (.cons (.include (has "href" "x.rng" _) ?_ .nil) .nil))))
  · rintro ⟨_, _, _, _, h⟩; cases h
  · refine .relative (b := "d/e".toList) (r := "d/x.rng".toList) (.first ⟨[at' "href" "x.rng"], [], rfl, ?_⟩ (.inherit ?_ .none)) ?_ ?_
    · intro a ha; simp only [List.mem_singleton] at ha; subst ha; exact nofun
    · intro a ha; simp only [List.mem_singleton] at ha; subst ha; exact nofun
    · rintro ⟨_, h⟩; injection h with h _; revert h; decide
    · exact Merged.mk (dir := "d/".toList) (last := "e".toList) (ref := "x.rng".toList) dirD (by decide) (by decide)

/-- the path it includes from the file `schemas/main.rng` -/
theorem C44_case : joinPath "schemas/main.rng".toList "d/x.rng".toList = some "schemas/d/x.rng".toList :=
  C44_relative_path (dir := "schemas/".toList) (last := "main.rng".toList) (.step (d := []) (c := "schemas".toList) .none (by decide) (by decide) (by decide))
    (by decide) (by decide) (by decide) (by rintro ⟨_, h⟩; injection h with h _; revert h; decide)

theorem notRng_text (s : Str) : ¬ IsRng (.text s) := by rintro ⟨_, _, _, _, h⟩; cases h
theorem notRng_comment (s : Str) : ¬ IsRng (.comment s) := by rintro ⟨_, _, _, _, h⟩; cases h
theorem notRng_pi (t s : Str) : ¬ IsRng (.pi t s) := by rintro ⟨_, _, _, _, h⟩; cases h
theorem notRng_foreign {u n : Str} {sc as kids} (hu : u ≠ "http://relaxng.org/ns/structure/1.0".toList) : ¬ IsRng (.element (some u) n sc as kids) := by
  rintro ⟨_, _, _, _, h⟩; injection h with h; injection h with h; exact hu h

/-- the hypothesis of `C60_noise_is_ignored`: `<element name="a"><text/></element>` and the same with a comment, a documentation
element, a processing instruction, white space, and a foreign attribute before the name -/
theorem C60_case : SameBut [rng "element" [at' "name" "a"] [rng "text" [] []]]
    [rng "element" [⟨some "urn:x".toList, "id".toList, "i".toList⟩, at' "name" "a"]
      [txt "\n ", .comment " c ".toList, .element (some "urn:doc".toList) "p".toList [] [] [txt "doc"], rng "text" [] [], .pi "t".toList "".toList]] := by
  have ht : ¬ TextOnly "element".toList := by unfold TextOnly; decide
  have ht' : ¬ TextOnly "text".toList := by unfold TextOnly; decide
  have hs : SameAttrs [] [] := ⟨.nil, .nil, fun _ _ => Iff.rfl⟩
  have hs' : SameAttrs [at' "name" "a"] [⟨some "urn:x".toList, "id".toList, "i".toList⟩, at' "name" "a"] := by
    refine ⟨.cons nofun .nil, .cons (fun b hb => ?_) (.cons nofun .nil), fun a ha => ⟨fun h => .tail _ h, fun h => ?_⟩⟩
    · simp only [List.mem_singleton] at hb; subst hb; rintro ⟨h, _⟩; cases h
    · rcases List.mem_cons.1 h with h | h
      · subst h
        rcases ha with ha | ha | ⟨_, ha⟩
        · cases ha
        · injection ha with ha; revert ha; decide
        · revert ha; decide
      · exact h
  exact .element ht hs' (fun _ _ _ _ _ => Iff.rfl) (.right (notRng_text _) (.right (notRng_comment _) (.right (notRng_foreign (by decide))
    (.element ht' hs (fun _ _ _ _ _ => Iff.rfl) .nil (.right (notRng_pi _ _) .nil))))) .nil

/-- the result: both are read as the same schema -/
theorem C60_case_read : parseXml anyLib (rng "element" [⟨some "urn:x".toList, "id".toList, "i".toList⟩, at' "name" "a"]
      [txt "\n ", .comment " c ".toList, .element (some "urn:doc".toList) "p".toList [] [] [txt "doc"], rng "text" [] [], .pi "t".toList "".toList]) =
    some ⟨[], .pattern (.element (.namespaced [] (str "a")) .text)⟩ := by
  rw [← C60_noise_is_ignored C60_case]; rfl

/-- `<element name="a"></b>`: the error is at row 1, column 19 -/
theorem C62_case : readXml anyLib "<element name=\"a\"></b>\n".toList (.illFormed 1 19) = .panic := rfl

/-! ### C63: deviations from the specification -/

/-- **C63**: a prefixed name in a `name` element is not resolved: `<element xmlns:p="u"><name>p:x</name><empty/></element>` ... -/
theorem C63_name_element_prefix : parseXml anyLib (Rng.el "element".toList [(some ['p'], ['u'])] [] [rng "name" [] [txt "p:x"], rng "empty" [] []]) =
    some ⟨[], .pattern (.element (.cname ['p'] ['x']) .empty)⟩ := rfl

/-- ... and is refused later, although the prefix is declared; in a `name` attribute the same name works. -/
theorem C63_name_element_prefix_refused : outcome [(str "main", ⟨[], .pattern (.element (.cname ['p'] ['x']) .empty)⟩)] = .error (.err (.undefinedNamespacePrefix ['p'])) ∧
    parseXml anyLib (Rng.el "element".toList [(some ['p'], ['u'])] [at' "name" "p:x"] [rng "empty" [] []]) =
      some ⟨[], .pattern (.element (.namespaced ['u'] ['x']) .empty)⟩ := ⟨rfl, rfl⟩

/-- **C63**: the `name` attribute of an `attribute` element takes the namespace of an ancestor (the specification: none, unless the
element itself has an `ns` attribute). -/
theorem C63_attribute_inherits_namespace : parseXml anyLib (rng "element" [at' "name" "a", at' "ns" "u"] [rng "attribute" [at' "name" "b"] []]) =
    some ⟨[], .pattern (.element (.namespaced ['u'] ['a']) (.attribute (.namespaced ['u'] ['b']) .text))⟩ := rfl

/-- **C63**: a comment at the beginning of a `value` is the value, and what follows is dropped: `<value><!--c-->v</value>`. -/
theorem C63_comment_in_value : parseXml anyLib (rng "element" [at' "name" "a"] [rng "value" [] [.comment "c".toList, txt "v"]]) =
    some ⟨[], .pattern (.element (.namespaced [] ['a']) (.value none ['c']))⟩ := rfl

/-- **C63**: a comment within a `value` cuts it short: `<value>v<!--c-->w</value>`. -/
theorem C63_comment_splits_value : parseXml anyLib (rng "element" [at' "name" "a"] [rng "value" [] [txt "v", .comment "c".toList, txt "w"]]) =
    some ⟨[], .pattern (.element (.namespaced [] ['a']) (.value none ['v']))⟩ := rfl

/-- **C63**: the type `token` is the built-in one whatever the library in force; `string` is not. -/
theorem C63_token_ignores_library : parseXml anyLib (rng "element" [at' "name" "a", at' "datatypeLibrary" "u:l"] [rng "data" [at' "type" "token"] []]) =
      some ⟨[], .pattern (.element (.namespaced [] ['a']) (.data .token []))⟩ ∧
    parseXml anyLib (rng "element" [at' "name" "a", at' "datatypeLibrary" "u:l"] [rng "data" [at' "type" "string"] []]) =
      some ⟨[], .pattern (.element (.namespaced [] ['a']) (.data (.namespaced "u:l".toList "string".toList) []))⟩ := ⟨rfl, rfl⟩

/-- **C63**: attributes the specification allows everywhere are refused on `start`, `empty`, `text` and `notAllowed`, and `ns` on
`data`. -/
theorem C63_common_attributes_refused (v : Str) :
    parseXml anyLib (rng "grammar" [] [rng "start" [⟨none, "ns".toList, v⟩] [rng "text" [] []]]) = none ∧
    parseXml anyLib (rng "grammar" [] [rng "start" [⟨none, "datatypeLibrary".toList, v⟩] [rng "text" [] []]]) = none ∧
    parseXml anyLib (rng "element" [at' "name" "a"] [rng "empty" [⟨none, "ns".toList, v⟩] []]) = none ∧
    parseXml anyLib (rng "element" [at' "name" "a"] [rng "text" [⟨none, "ns".toList, v⟩] []]) = none ∧
    parseXml anyLib (rng "element" [at' "name" "a"] [rng "notAllowed" [⟨none, "ns".toList, v⟩] []]) = none ∧
    parseXml anyLib (rng "element" [at' "name" "a"] [rng "data" [at' "type" "token", ⟨none, "ns".toList, v⟩] []]) = none := ⟨rfl, rfl, rfl, rfl, rfl, rfl⟩

/-- **C63**: an empty parameter is refused: `<data type="token"><param name="pattern"></param></data>`. -/
theorem C63_empty_parameter_refused : parseXml anyLib (rng "element" [at' "name" "a"] [rng "data" [at' "type" "token"] [rng "param" [at' "name" "pattern"] []]]) = none := rfl

/-- **C63**: attributes the specification forbids are accepted on most elements: `<group name="x" href="y">`. -/
theorem C63_wrong_attributes_accepted : parseXml anyLib (rng "group" [at' "name" "x", at' "href" "y"] [rng "text" [] []]) =
    some ⟨[], .pattern (.paren .text)⟩ := rfl

/-- **C63**: `anyName` within the `except` of an `nsName` within the `except` of an `anyName`, forbidden by 4.16, is found only as a
direct child; `nsName` within the `except` of an `nsName` is not found at all. -/
theorem C63_nested_except : parseXml anyLib (rng "element" [] [rng "nsName" [] [rng "except" [] [rng "nsName" [] []]], rng "empty" [] []]) =
      some ⟨[], .pattern (.element (.nsNameExcept (.uri []) (.nsName (.uri []))) .empty)⟩ ∧
    parseXml anyLib (rng "element" [] [rng "anyName" [] [rng "except" [] [rng "anyName" [] []]], rng "empty" [] []]) = none := ⟨rfl, rfl⟩

/-- **C44**, deviation: a base that ends in `.` is resolved against its parent, not against itself: `a/.` and `b` make `b`. -/
theorem C44_base_dot : rebasePath [[⟨some "http://www.w3.org/XML/1998/namespace".toList, "base".toList, "a/.".toList⟩]] "b".toList = "b".toList := rfl

/-- **C44**, deviation: URLs are taken as relative paths. -/
theorem C44_url : rebasePath [[⟨some "http://www.w3.org/XML/1998/namespace".toList, "base".toList, "d/e".toList⟩]] "http://h/x.rng".toList =
    "d/http://h/x.rng".toList := rfl

end Verif.Ex
