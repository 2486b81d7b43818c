import Verif.Proof.Doc
import Verif.Proof.Relax
/-
A concrete recursive schema and document, used beside the theorems to show that their hypotheses can
be met.  In compact syntax:

  namespace p = "u"
  start = doc
  doc  = element p:doc  { attribute id { text }, mixed { item* } }
  item = element p:item { attribute k { "a" }, item* }
-/
namespace Verif.Ex
open Verif

/-- a toy datatype library: one datatype accepting non-empty strings, values compared literally -/
def lib : Lib Unit Str where
  validD _ s := some (s != [])
  validV v s := some (v == s)

def docName : NameClass := .named ['u'] ['d', 'o', 'c']
def itemName : NameClass := .named ['u'] ['i', 't', 'e', 'm']
def docBody : Pattern Unit Str :=
  .group [.attr (.named [] ['i', 'd']) .text, .mixed (.zeroOrMore (.ref 1))]
def itemBody : Pattern Unit Str :=
  .group [.attr (.named [] ['k']) (.datatypeValue ['a']), .zeroOrMore (.ref 1)]
def env : Env Unit Str := [.element docName docBody, .element itemName itemBody]
def start : Pattern Unit Str := .ref 0

theorem noMatchEl {nc p} : ¬ Match lib env (.element nc p) [] [] := by
  intro h
  generalize hc : ([] : List Node) = c at h
  cases h with
  | element => cases hc

theorem fresh1 : Fresh lib env 1 := by
  intro _ h
  cases h with
  | ref h1 h2 =>
    simp [env] at h1
    subst h1
    exact noMatchEl h2

theorem startOK : StartOK env start := .ref (p := .element docName docBody) rfl .element

theorem itemsWF {Q : Pattern Unit Str → Prop} (h : Q itemBody) :
    ∀ s l, WF lib env Q true s l (.zeroOrMore (.ref 1)) := fun _ _ =>
  .zeroOrMore (.ref (p := .element itemName itemBody) rfl (.element h) fun _ _ => fresh1)
    fun _ => .ref (p := .element itemName itemBody) rfl (.free .element)

theorem schemaOK : SchemaOK lib env start true := by
  refine ⟨fun p => p = docBody ∨ p = itemBody, ?_, ?_⟩
  · rintro p (rfl | rfl)
    · refine .group (by simp) ?_
      intro p hp
      simp at hp
      rcases hp with rfl | rfl
      · exact .attr .text
      · exact .mixed (itemsWF (Or.inr rfl) _ _)
          (.zeroOrMore (.ref (p := .element itemName itemBody) rfl .element))
    · refine .group (by simp) ?_
      intro p hp
      simp at hp
      rcases hp with rfl | rfl
      · exact .attr .value
      · exact itemsWF (Or.inr rfl) _ _
  · exact .ref (p := .element docName docBody) rfl (.element (Or.inl rfl)) (by simp)

/-- `<p:item k="a">..</p:item>` -/
def item (sc : Bool) (kids : List XNode) : XNode :=
  .elem ['p'] ['i', 't', 'e', 'm'] [⟨[], ['k'], ['a']⟩] sc kids

/-- the document
`<!DOCTYPE .. [<!ENTITY e "z">]><p:doc id="7" xmlns:p="u"><p:item k="a"/><!-- --><p:item
k="a"><p:item k="a"></p:item></p:item><![CDATA[&x]]></p:doc>` and a trailing comment -/
def doc : XDoc where
  prolog := [.declaration, .dtdStart, .entity ['e'] ['z'], .dtdEnd]
  pre := ['p']
  loc := ['d', 'o', 'c']
  atts := [⟨[], ['i', 'd'], ['7']⟩, ⟨xmlnsStr, ['p'], ['u']⟩]
  selfClose := false
  kids := [item true [], .comment, item false [item false []], .cdata ['&', 'x']]
  epilog := [true]

def itemNode (kids : List Node) : Node :=
  .elem ⟨some ['u'], ['i', 't', 'e', 'm']⟩ [⟨⟨none, ['k']⟩, ['a']⟩] kids

def node : Node :=
  .elem ⟨some ['u'], ['d', 'o', 'c']⟩ [⟨⟨none, ['i', 'd']⟩, ['7']⟩]
    [itemNode [], itemNode [itemNode []], .text ['&', 'x']]

theorem plainDec {f : Str → Option Str} : ∀ {s : Str}, '&' ∉ s → Decodes f s s
  | [], _ => .nil
  | c :: s, h => by
    simp only [List.mem_cons, not_or] at h
    exact .char (fun e => h.1 e.symm) (plainDec h.2)

theorem itemMeans {f sc kids kns xs ns} {scope : List (Str × Str)} (hs : scope.lookup ['p'] = some ['u'])
    (hk : Resolves f scope kids kns) (hj : joinText kns = kns) (hsc : sc = true → kids = [])
    (h : Resolves f scope xs ns) :
    Resolves f scope (item sc kids :: xs) (itemNode kns :: ns) := by
  unfold item itemNode
  rw [← hj]
  refine .elem (by simp [elemName, nsDecls, xmlnsStr, hs]) ?_ hk hsc h
  exact .cons (by simp [attrName]) (plainDec (by decide)) .nil

theorem means : doc.Means node := by
  refine Resolves.elem (kns := [itemNode [], itemNode [itemNode []], .text ['&', 'x']])
    (by decide) (.cons (by simp [attrName]) (plainDec (by decide)) .nil) ?_ (by simp [doc]) .nil
  have hs : (nsDecls doc.atts ++ [("xml".toList, xmlUri)]).lookup ['p'] = some ['u'] := by decide
  refine itemMeans hs .nil rfl (by simp) (.comment (itemMeans hs ?_ rfl (by simp) (.cdata .nil)))
  exact itemMeans hs .nil rfl (by simp) .nil

theorem tame : doc.Tame := by
  refine ⟨⟨?_, ?_, ?_, ?_, ?_⟩, by decide⟩
  · decide
  · decide
  · decide
  · simp [XDoc.root, doc, allTextsL, XNode.allTexts, item]
  · simp [XDoc.root, doc, unsplitL, item]

/-- a document in which two elements declare the same prefix differently: `<r><p:a xmlns:p="u" p:k=""/><p:a xmlns:p="v"><p:b/></p:a></r>` -/
def redeclared : XDoc := ⟨[], [], ['r'], [], false,
  [.elem ['p'] ['a'] [⟨xmlnsStr, ['p'], ['u']⟩, ⟨['p'], ['k'], []⟩] true [],
   .elem ['p'] ['a'] [⟨xmlnsStr, ['p'], ['v']⟩] false [.elem ['p'] ['b'] [] true []]], []⟩

/-- it is treated faithfully, so that C01, C02 and the others speak about it -/
theorem redeclared_ok : redeclared.Tame ∧ redeclared.Means (.elem ⟨none, ['r']⟩ [] [.elem ⟨some ['u'], ['a']⟩ [⟨⟨some ['u'], ['k']⟩, []⟩] [],
    .elem ⟨some ['v'], ['a']⟩ [] [.elem ⟨some ['v'], ['b']⟩ [] []]]) := by
  refine ⟨⟨⟨by decide, by decide, by decide, ?_, ?_⟩, by decide⟩, ?_⟩
  · simp [XDoc.root, redeclared, allTextsL, XNode.allTexts]
  · simp [XDoc.root, redeclared, unsplitL]
  · refine Resolves.elem (ents := redeclared.entities) (scope := [("xml".toList, xmlUri)]) (pre := []) (loc := ['r']) (atts := []) (sc := false)
      (kns := [.elem ⟨some ['u'], ['a']⟩ [⟨⟨some ['u'], ['k']⟩, []⟩] [], .elem ⟨some ['v'], ['a']⟩ [] [.elem ⟨some ['v'], ['b']⟩ [] []]])
      (by decide) .nil ?_ (fun h => by cases h) .nil
    refine .elem (kns := []) (by decide) (.cons (by decide) .nil .nil) .nil (fun _ => rfl) ?_
    refine .elem (kns := [.elem ⟨some ['v'], ['b']⟩ [] []]) (by decide) .nil ?_ (fun h => by cases h) .nil
    exact .elem (kns := []) (by decide) .nil .nil (fun _ => rfl) .nil

/-- but not when a prefix is used after another declaration of it in an element that has been closed:
`<p:r xmlns:p="u"><p:a xmlns:p="v"/><p:b/></p:r>` -/
theorem leaking_not_tame : ¬ (⟨[], ['p'], ['r'], [⟨xmlnsStr, ['p'], ['u']⟩], false,
    [.elem ['p'] ['a'] [⟨xmlnsStr, ['p'], ['v']⟩] true [], .elem ['p'] ['b'] [] true []], []⟩ : XDoc).Tame := by
  intro h
  have := h.body.inScope
  revert this
  decide

/-- the validator for the schema (recursion budget 50) -/
def v0 : VState Unit Str :=
  match newValidator env 50 start with
  | .ok s => s
  | .error _ => ⟨Store.init, 0, false, [], []⟩

theorem new_ok : newValidator env 50 start = .ok v0 := by
  have : (match newValidator env 50 start with | .ok _ => true | .error _ => false) = true := by decide +kernel
  unfold v0
  split at this
  · rename_i h; rw [h]
  · cases this

/-- the document is accepted -/
theorem accepted : ∃ s, runToks lib 50 doc.toks v0 = .ok (.ok (), s) := by
  have : (match runToks lib 50 doc.toks v0 with | .ok (.ok (), _) => true | _ => false) = true := by
    decide +kernel
  split at this
  · rename_i h; exact ⟨_, h⟩
  · cases this

end Verif.Ex
