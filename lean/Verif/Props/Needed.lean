import Verif.Props.SeenSource
import Verif.Props.Content
/-
C87: neither the compiler nor the validator refuses schemas outside the restrictions of RELAX NG (section 7) that C01 and C02
ask for, and their verdicts on such schemas can be wrong, in both directions; and there is a schema within all restrictions of
RELAX NG for which the verdict is wrong.
-/
namespace Verif.Needed
open Verif.Ex XS

/-- one schema file called `s` -/
def files (s : SSchema) : Files := ⟨fun f => if f = "s".toList then .ok s else .error .io, joinPath⟩

/-- The schema `s` compiles, a validator for it reads the whole document `d`, an ordinary one that means `node`, and its verdict
(`accepted`) is the opposite of whether `node` matches the schema as written. -/
def Misjudges (s : SSchema) (d : XDoc) (node : Node) (accepted : Bool) : Prop :=
  d.Tame ∧ d.Means node ∧ (SchemaMatches (files s) ext "s".toList node ↔ accepted = false) ∧
  ∃ fuel k st rule s0 r s', compileFile (files s) ext fuel fuel "s".toList (.fresh []) = .ok (k, st) ∧ st.cell k = some rule ∧
    newValidator st.env fuel rule.pattern = .ok s0 ∧ runToks (stdLib ext) fuel d.toks s0 = .ok (r, s') ∧ (r = .ok () ↔ accepted = true)

def verdict (fuel : Nat) (env : Env Datatypes DatatypeValues) (p : MPattern) (d : XDoc) : Option Bool :=
  match newValidator env fuel p with
  | .error _ => none
  | .ok s0 => match runToks (stdLib ext) fuel d.toks s0 with
    | .ok (.ok (), _) => some true
    | .ok (.error _, _) => some false
    | .error _ => none

theorem misjudges {s : SSchema} {d : XDoc} {node : Node} {b : Bool} {k : Nat} {cells : List (Option DefineRule)} {env : Env Datatypes DatatypeValues}
    {rule : DefineRule} (hc : ∃ st, compileFile (files s) ext 40 40 "s".toList (.fresh []) = .ok (k, st) ∧ st.cells = cells)
    (hk : cells[k]? = some (some rule)) (he : ∀ st : CState, st.cells = cells → st.env = env)
    (ht : d.Tame) (hm : d.Means node) (hv : verdict 40 env rule.pattern d = some b) (hn : Match (stdLib ext) env rule.pattern [] [node] ↔ b = false) :
    Misjudges s d node b := by
  obtain ⟨st, hc, hcells⟩ := hc
  have hr : st.cell k = some rule := by simp only [CState.cell, hcells, List.getD_eq_getElem?_getD, hk, Option.getD_some]
  have he := he st hcells
  obtain ⟨r', hr', hiff⟩ := C53_compiled_schema_means_its_source (l := []) (fun _ _ h => by cases h) hc
  rw [hr] at hr'; cases hr'
  rw [he] at hiff
  refine ⟨ht, hm, (hiff node).symm.trans hn, 40, k, st, rule, ?_⟩
  rw [he]
  unfold verdict at hv
  cases hnew : newValidator env 40 rule.pattern with
  | error e => rw [hnew] at hv; cases hv
  | ok s0 =>
    rw [hnew] at hv
    dsimp only at hv
    cases hrun : runToks (stdLib ext) 40 d.toks s0 with
    | error e => rw [hrun] at hv; cases hv
    | ok p =>
      obtain ⟨r, s'⟩ := p
      rw [hrun] at hv
      refine ⟨s0, r, s', hc, hr, rfl, hrun, ?_⟩
      cases r with
      | ok u => cases hv; simp
      | error e => cases hv; simp


def el (c : Char) (p : SPattern) : SPattern := .element (.ident [c]) p
def val (c : Char) : SPattern := .value none [c]
def xel (c : Char) (k : List XNode) : XNode := .elem [] [c] [] false k
def doc (c : Char) (a : List RawAttr) (k : List XNode) : XDoc := ⟨[], [], [c], a, false, k, []⟩
def nel (c : Char) (k : List Node) : Node := .elem ⟨none, [c]⟩ [] k
def mel (c : Char) (p : MPattern) : MPattern := .element (.named [] [c]) p

theorem weakRefl (c : List Node) : Weak c c := by induction c with | nil => exact .nil | cons _ _ ih => exact .keep ih

section
variable {D V : Type} {L : Lib D V} {env : Env D V} {a : List Attr} {c : List Node}

theorem element_one {nc p} (h : Match L env (.element nc p) a c) : c.length = 1 := by cases h; rfl
theorem list_one {p} (h : Match L env (.list p) a c) : c.length = 1 := by cases h; rfl
theorem shuffle_length {α : Type} {a b c : List α} (h : Shuffle a b c) : c.length = a.length + b.length := by
  induction h with
  | nil => rfl
  | left _ ih => simp only [List.length_cons, ih]; omega
  | right _ ih => simp only [List.length_cons, ih]; omega
theorem inside {nc p nm kids} (h : Match L env (.element nc p) [] [.elem nm a kids]) : ∃ c, Weak kids c ∧ Match L env p a c := by
  cases h with | element _ h1 h2 => exact ⟨_, h1, h2⟩
end

/-! ### the start pattern is no choice of elements (RELAX NG 7.1.5)

`element a { empty }, element b { empty }` and the document `<a></a>` -/
def twoRoots : SSchema := ⟨[], .pattern (.seq (el 'a' .empty) (el 'b' .empty))⟩

/-- C87.  Wrongly accepted. -/
theorem C87_start_no_choice_of_elements : Misjudges twoRoots (doc 'a' [] []) (nel 'a' []) true := by
  refine misjudges (k := 0) (cells := [some (.assignCombine none (.group [mel 'a' .empty, mel 'b' .empty]))]) ⟨_, rfl, rfl⟩ rfl
    (fun st h => by simp [CState.env, h, DefineRule.pattern]; rfl) ?_ ?_ (by decide +kernel) ?_
  · refine ⟨⟨by decide, by decide, by decide, ?_, ?_⟩, by decide⟩
    · simp [XDoc.root, doc, allTextsL, XNode.allTexts]
    · simp [XDoc.root, doc, unsplitL]
  · exact Resolves.elem (kns := []) (by decide) .nil .nil (fun h => by cases h) .nil
  · refine ⟨fun h => ?_, nofun⟩
    generalize hk : [nel 'a' []] = k at h
    cases h with
    | groupCons h1 h2 _ =>
      cases h2 with
      | groupCons h3 h4 _ =>
        have e := congrArg List.length hk
        have l1 := element_one h1
        have l2 := element_one h3
        simp only [List.length_append, List.length_cons, List.length_nil] at e
        omega

/-- All other conditions are met. -/
theorem C87_start_only {env : Env Datatypes DatatypeValues} : SchemaOK (stdLib ext) env (.group [mel 'a' .empty, mel 'b' .empty]) true ∧
    ¬ StartOK env (.group [mel 'a' .empty, mel 'b' .empty]) := by
  refine ⟨⟨fun p => p = .empty, fun p h => by subst h; exact .empty, .group (by simp) fun p hp => ?_⟩, fun h => by cases h⟩
  simp only [List.mem_cons, List.not_mem_nil, or_false] at hp
  rcases hp with rfl | rfl
  · exact .element rfl
  · exact .element rfl

/-! ### an attribute grouped with something, in a repetition (RELAX NG 7.1.2)

`element r { ((attribute a { text }, element y { empty }) | element x { empty })+ }` and `<r a="1"><x></x><y></y></r>` -/
def repeated : SSchema :=
  ⟨[], .pattern (el 'r' (.oneOrMore (.choice (.seq (.attribute (.ident ['a']) .text) (el 'y' .empty)) (el 'x' .empty))))⟩
def repeatedBody : MPattern := .oneOrMore (.choice [.group [.attr (.named [] ['a']) .text, mel 'y' .empty], mel 'x' .empty])
def repeatedAtt : Attr := ⟨⟨none, ['a']⟩, ['1']⟩

/-- C87.  Wrongly rejected. -/
theorem C87_attribute_in_repeated_group : Misjudges repeated (doc 'r' [⟨[], ['a'], ['1']⟩] [xel 'x' [], xel 'y' []])
    (.elem ⟨none, ['r']⟩ [repeatedAtt] [nel 'x' [], nel 'y' []]) false := by
  refine misjudges (k := 0) (cells := [some (.assignCombine none (mel 'r' repeatedBody))]) ⟨_, rfl, rfl⟩ rfl
    (fun st h => by simp [CState.env, h, DefineRule.pattern]; rfl) ?_ ?_ (by decide +kernel) ?_
  · refine ⟨⟨by decide, by decide, by decide, ?_, ?_⟩, by decide⟩
    · simp [XDoc.root, doc, xel, allTextsL, XNode.allTexts]
    · simp [XDoc.root, doc, xel, unsplitL]
  · exact Resolves.elem (kns := [nel 'x' [], nel 'y' []]) (by decide) (.cons (by simp [attrName]) (plainDec (by decide)) .nil)
      (.elem (kns := []) (by decide) .nil .nil (fun h => by cases h) (.elem (kns := []) (by decide) .nil .nil (fun h => by cases h) .nil))
      (fun h => by cases h) .nil
  · refine ⟨fun _ => rfl, fun _ => .element rfl (weakRefl _) ?_⟩
    have hx : Match (stdLib ext) [mel 'r' repeatedBody] (mel 'x' .empty) [] [nel 'x' []] := .element rfl .nil .empty
    have hy : Match (stdLib ext) [mel 'r' repeatedBody] (mel 'y' .empty) [] [nel 'y' []] := .element rfl .nil .empty
    have ha : Match (stdLib ext) [mel 'r' repeatedBody] (.attr (.named [] ['a']) .text) [repeatedAtt] [] :=
      .attr rfl (weakRefl _) (.text (by simp))
    have hg : Match (stdLib ext) [mel 'r' repeatedBody] (.group [.attr (.named [] ['a']) .text, mel 'y' .empty]) [repeatedAtt] ([] ++ ([nel 'y' []] ++ [])) :=
      .groupCons ha (.groupCons hy .groupNil (.refl _)) (.refl _)
    have hz : Match (stdLib ext) [mel 'r' repeatedBody]
        (.zeroOrMore (.choice [.group [.attr (.named [] ['a']) .text, mel 'y' .empty], mel 'x' .empty])) [repeatedAtt] ([nel 'y' []] ++ []) :=
      .zeroOrMoreCons (.choice (by simp) hg) .zeroOrMoreNil (.refl _)
    exact .oneOrMore (c1 := [nel 'x' []]) (.choice (by simp) hx) hz (.refl _)

/-- All other conditions are met: those for soundness, and there are no references. -/
theorem C87_repeated_only {env : Env Datatypes DatatypeValues} : SchemaOK (stdLib ext) env (mel 'r' repeatedBody) false ∧
    StartOK env (mel 'r' repeatedBody) ∧ (mel 'r' repeatedBody).refs = [] := by
  refine ⟨⟨fun p => p = .empty ∨ p = repeatedBody, ?_, .element (.inr rfl)⟩, .element, rfl⟩
  rintro p (rfl | rfl)
  · exact .empty
  · refine .oneOrMore (.choice (by simp) fun p hp => ?_) (fun h => by cases h)
    simp only [List.mem_cons, List.not_mem_nil, or_false] at hp
    rcases hp with rfl | rfl
    · refine .group (by simp) fun p hp => ?_
      simp only [List.mem_cons, List.not_mem_nil, or_false] at hp
      rcases hp with rfl | rfl
      · exact .attr .text
      · exact .element (.inl rfl)
    · exact .element (.inl rfl)

/-! ### a list that is interleaved (RELAX NG 7.2)

`element r { list { "a", "b" } & element x { empty } }` and `<r>a<x></x>b</r>` -/
def interleaved : SSchema := ⟨[], .pattern (el 'r' (.inter (.list (.seq (val 'a') (val 'b'))) (el 'x' .empty)))⟩

def token (c : Char) : MPattern := .datatypeValue (.relax (.token [c]))

/-- C87.  Wrongly accepted. -/
theorem C87_interleaved_list : Misjudges interleaved (doc 'r' [] [.text ['a'], xel 'x' [], .text ['b']])
    (nel 'r' [.text ['a'], nel 'x' [], .text ['b']]) true := by
  refine misjudges (k := 0) (cells := [some (.assignCombine none (mel 'r' (.interleave [.list (.group [token 'a', token 'b']), mel 'x' .empty])))])
    ⟨_, rfl, rfl⟩ rfl (fun st h => by simp [CState.env, h, DefineRule.pattern]; rfl) ?_ ?_ (by decide +kernel) ?_
  · refine ⟨⟨by decide, by decide, by decide, ?_, ?_⟩, by decide⟩
    · simp [XDoc.root, doc, xel, allTextsL, XNode.allTexts, TextOK]
    · simp [XDoc.root, doc, xel, unsplitL]
  · exact Resolves.elem (kns := [.text ['a'], nel 'x' [], .text ['b']]) (by decide) .nil
      (.text (plainDec (by decide)) (.elem (kns := []) (by decide) .nil .nil (fun h => by cases h) (.text (plainDec (by decide)) .nil)))
      (fun h => by cases h) .nil
  · refine ⟨fun h => ?_, nofun⟩
    obtain ⟨c, hw, h⟩ := inside h
    have hc : c.length = 3 := by
      cases hw with
      | drop h _ => exact absurd (h 'a' (by simp)) (by decide)
      | keep hw =>
        cases hw with
        | keep hw =>
          cases hw with
          | drop h _ => exact absurd (h 'b' (by simp)) (by decide)
          | keep hw => cases hw; rfl
    cases h with
    | interleaveCons h1 h2 _ hs =>
      cases h2 with
      | interleaveCons h3 h4 _ hs' =>
        cases h4
        have l1 := list_one h1
        have l2 := element_one h3
        have e1 := shuffle_length hs
        have e2 := shuffle_length hs'
        simp only [List.length_nil] at e2
        omega

/-! ### a list in a list (RELAX NG 7.1.3)

`element r { list { list { "a", "b" } } }` and `<r>a b</r>` -/
def nested : SSchema := ⟨[], .pattern (el 'r' (.list (.list (.seq (val 'a') (val 'b')))))⟩

/-- C87.  Wrongly accepted. -/
theorem C87_list_in_list : Misjudges nested (doc 'r' [] [.text ['a', ' ', 'b']]) (nel 'r' [.text ['a', ' ', 'b']]) true := by
  refine misjudges (k := 0) (cells := [some (.assignCombine none (mel 'r' (.list (.list (.group [token 'a', token 'b'])))))])
    ⟨_, rfl, rfl⟩ rfl (fun st h => by simp [CState.env, h, DefineRule.pattern]; rfl) ?_ ?_ (by decide +kernel) ?_
  · refine ⟨⟨by decide, by decide, by decide, ?_, ?_⟩, by decide⟩
    · simp [XDoc.root, doc, allTextsL, XNode.allTexts, TextOK]
    · simp [XDoc.root, doc, unsplitL]
  · exact Resolves.elem (kns := [.text ['a', ' ', 'b']]) (by decide) .nil (.text (plainDec (by decide)) .nil) (fun h => by cases h) .nil
  · refine ⟨fun h => ?_, nofun⟩
    obtain ⟨c, hw, h⟩ := inside h
    have hc : c = [.text ['a', ' ', 'b']] := by
      cases hw with
      | drop h _ => exact absurd (h 'a' (by simp)) (by decide)
      | keep hw => cases hw; rfl
    subst hc
    cases h with
    | @list _ _ ws h1 h2 =>
      have l1 := list_one h2
      obtain ⟨ws', _, hu⟩ := C48_words_exist_unique ['a', ' ', 'b']
      have : Words (([] ++ ['a']) ++ [' ', 'b']) [['a'], ['b']] :=
        .cons (by simp) (by simp) (by decide) (.inr ⟨' ', ['b'], rfl, by decide⟩)
          (.cons (pre := [' ']) (w := ['b']) (rest := []) (by decide) (by simp) (by decide) (.inl rfl) (.nil (by simp)))
      rw [hu _ h1, ← hu _ this] at l1
      simp at l1

/-! ### the one schema within all restrictions of RELAX NG: a recursive definition that may be empty, in a repetition in a repetition

`start = element d { a }`, `a = element r { (a+)+ }?` and `<d><r></r></d>` -/
def recursive : SSchema := ⟨[], .grammar [.define "start".toList .assign (el 'd' (.ident ['a'])),
  .define ['a'] .assign (.optional (el 'r' (.oneOrMore (.oneOrMore (.ident ['a'])))))]⟩
def aRule : MPattern := .optional (mel 'r' (.oneOrMore (.oneOrMore (.ref 0))))
def dRule : MPattern := mel 'd' (.ref 0)

/-- C87.  Wrongly rejected. -/
theorem C87_recursive_repetition : Misjudges recursive (doc 'd' [] [xel 'r' []]) (nel 'd' [nel 'r' []]) false := by
  refine misjudges (k := 1) (cells := [some (.assignCombine none aRule), some (.assignCombine none dRule)]) ⟨_, rfl, rfl⟩ rfl
    (fun st h => by simp [CState.env, h, DefineRule.pattern]; rfl) ?_ ?_ (by decide +kernel) ?_
  · refine ⟨⟨by decide, by decide, by decide, ?_, ?_⟩, by decide⟩
    · simp [XDoc.root, doc, xel, allTextsL, XNode.allTexts]
    · simp [XDoc.root, doc, xel, unsplitL]
  · exact Resolves.elem (kns := [nel 'r' []]) (by decide) .nil (.elem (kns := []) (by decide) .nil .nil (fun h => by cases h) .nil)
      (fun h => by cases h) .nil
  · refine ⟨fun _ => rfl, fun _ => .element rfl (weakRefl _) (.ref (p := aRule) rfl (.optionalSome (.element rfl .nil ?_)))⟩
    have h0 : Match (stdLib ext) [aRule, dRule] (.ref 0) [] [] := .ref (p := aRule) rfl .optionalNone
    have h1 : Match (stdLib ext) [aRule, dRule] (.oneOrMore (.ref 0)) [] ([] ++ []) := .oneOrMore h0 .zeroOrMoreNil (.refl _)
    exact .oneOrMore h1 .zeroOrMoreNil (.refl _)

/-- The restrictions of RELAX NG are met: those that soundness asks for, and those on attributes, for there are none. -/
theorem C87_recursive_repetition_is_legal : SchemaOK (stdLib ext) [aRule, dRule] dRule false ∧ StartOK [aRule, dRule] dRule ∧
    RepeatOK [aRule, dRule] (.ref 0) ∧ RepeatOK [aRule, dRule] (.oneOrMore (.ref 0)) := by
  have ha : AttrFree [aRule, dRule] (.ref 0) := .ref (p := aRule) rfl (.optional .element)
  have hr : ∀ {Q : MPattern → Prop} {s l}, Q (.oneOrMore (.oneOrMore (.ref 0))) → WF (stdLib ext) [aRule, dRule] Q false s l (.ref 0) :=
    fun h => .ref (p := aRule) rfl (.optional (.element h)) (fun h => by cases h)
  refine ⟨⟨fun p => p = .ref 0 ∨ p = .oneOrMore (.oneOrMore (.ref 0)), ?_, .element (.inl rfl)⟩, .element, .free ha, .free (.oneOrMore ha)⟩
  rintro p (rfl | rfl)
  · exact hr (.inr rfl)
  · exact .oneOrMore (.oneOrMore (hr (.inr rfl)) (fun h => by cases h)) (fun h => by cases h)

end Verif.Needed
