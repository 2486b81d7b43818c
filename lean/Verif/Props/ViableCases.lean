import Verif.Props.Viable
/-
C77: cases, and schemas whose parts are not all usable, where the statement fails.
-/
namespace Verif.ExV
open Verif Verif.Viable Verif.Ex

/-! ### the recursive example schema -/

theorem items {Q : NameClass → Pattern Unit Str → Prop} {a} (h : Q itemName itemBody) : Usable lib Ex.env Q a 1 (.zeroOrMore (.ref 1)) :=
  .zeroOrMore (.ref (p := .element itemName itemBody) rfl (.element (Nat.le_refl _) h))

theorem attText {name v} {env : Env Unit Str} : Match lib env (.attr (.named [] name) .text) [⟨⟨none, name⟩, v⟩] [] :=
  .attr rfl (.keep .nil) (.text fun x hx => ⟨v, by simpa using hx⟩)

/-- every part of the example schema is usable -/
theorem usable : SchemaUsable lib Ex.env Ex.start := by
  refine ⟨fun nc p => (nc = docName ∧ p = docBody) ∨ (nc = itemName ∧ p = itemBody), ?_, ?_⟩
  · rintro nc p (⟨rfl, rfl⟩ | ⟨rfl, rfl⟩)
    · refine ⟨.group ?_, .elem ⟨some ['u'], ['d', 'o', 'c']⟩ [⟨⟨none, ['i', 'd']⟩, ['7']⟩] [], ?_, ?_⟩
      · intro p hp
        simp at hp
        rcases hp with rfl | rfl
        · exact .attr
        · exact .mixed (Nat.le_refl _) (items (.inr ⟨rfl, rfl⟩))
      · simp [Proper, ProperL, NameOK, xmlnsStr]
      · refine .element rfl .nil ?_
        refine .groupCons (a2 := []) (c1 := []) (c2 := []) attText (.groupCons (a1 := []) (a2 := []) (c1 := []) (c2 := []) ?_ .groupNil (.refl _)) (.refl _)
        exact .mixed (c1 := []) (c2 := []) .zeroOrMoreNil (by simp) .nil
    · refine ⟨.group ?_, itemNode [], ?_, ?_⟩
      · intro p hp
        simp at hp
        rcases hp with rfl | rfl
        · exact .attr
        · exact items (.inr ⟨rfl, rfl⟩)
      · simp [itemNode, Proper, ProperL, NameOK, xmlnsStr]
      · refine .element rfl .nil ?_
        refine .groupCons (a2 := []) (c1 := []) (c2 := []) (.attr (name := ⟨none, ['k']⟩) (v := ['a']) rfl (.keep .nil) (.value rfl))
          (.groupCons (a1 := []) (a2 := []) (c1 := []) (c2 := []) .zeroOrMoreNil .groupNil (.refl _)) (.refl _)
  · exact .ref (p := .element docName docBody) rfl (.element (Nat.le_refl _) (.inl ⟨rfl, rfl⟩))

/-- the run over the first `k` tokens -/
def okRun (x : Except Fault (Except VErr Unit × VState Unit Str)) : Bool := match x with | .ok (.ok (), _) => true | _ => false

theorem okRun_ok {x} (h : okRun x = true) : ∃ s, x = .ok (.ok (), s) := by
  unfold okRun at h
  split at h
  · exact ⟨_, rfl⟩
  · cases h

/-- the beginning `<!DOCTYPE ..><p:doc id=".." xmlns:p="u"><p:item k="a"/><!-- --><p:item k="a"><p:item k="a">` (three elements
open) can be completed -/
example : ∃ (d' : XDoc) (node' : Node) (more : List Token), d'.toks = doc.toks.take 17 ++ [.elementEnd .open] ++ more ∧ d'.Tame ∧
    d'.Means node' ∧ Match lib Ex.env Ex.start [] [node'] := by
  obtain ⟨s, hr⟩ : ∃ s, runToks lib 50 (doc.toks.take 17 ++ [.elementEnd .open]) v0 = .ok (.ok (), s) := okRun_ok (by decide +kernel)
  obtain ⟨d', node', more, h1, h2, h3, h4, _⟩ := C77_accepted_beginnings_can_be_completed (rest := doc.toks.drop 18) Ex.schemaOK.relax
    Ex.startOK usable tame means (by decide +kernel) new_ok hr
  exact ⟨d', node', more, h1, h2, h3, h4⟩

/-! ### `element o { element a { empty }, element b { "x" } }` -/

def aPat : Pattern Unit Str := .element (.named [] ['a']) .empty
def bPat : Pattern Unit Str := .element (.named [] ['b']) (.datatypeValue ['x'])
def oBody : Pattern Unit Str := .group [aPat, bPat]
def oStart : Pattern Unit Str := .element (.named [] ['o']) oBody

theorem o_ok : SchemaOK lib [] oStart true := by
  refine ⟨fun p => p = oBody ∨ p = .empty ∨ p = .datatypeValue ['x'], ?_, .element (.inl rfl)⟩
  rintro p (rfl | rfl | rfl)
  · refine .group (by simp) fun p hp => ?_
    simp at hp
    rcases hp with rfl | rfl
    · exact .element (.inr (.inl rfl))
    · exact .element (.inr (.inr rfl))
  · exact .empty
  · exact .value

def aNode : Node := .elem ⟨none, ['a']⟩ [] []
def bNode : Node := .elem ⟨none, ['b']⟩ [] [.text ['x']]

theorem a_matches : Match lib [] aPat [] [aNode] := .element rfl .nil .empty
theorem b_matches : Match lib [] bPat [] [bNode] := .element rfl (.keep .nil) (.value rfl)

theorem o_usable : SchemaUsable lib [] oStart := by
  refine ⟨fun nc p => .element nc p = oStart ∨ .element nc p = aPat ∨ .element nc p = bPat, ?_, .element (Nat.le_refl _) (.inl rfl)⟩
  rintro nc p (h | h | h)
  · cases h
    refine ⟨.group fun p hp => ?_, .elem ⟨none, ['o']⟩ [] [aNode, bNode], by simp [Proper, ProperL, NameOK, aNode, bNode], .element rfl (.keep (.keep .nil)) ?_⟩
    · simp at hp
      rcases hp with rfl | rfl
      · exact .element (by decide) (.inr (.inl rfl))
      · exact .element (by decide) (.inr (.inr rfl))
    · exact .groupCons (a1 := []) (a2 := []) (c1 := [_]) a_matches (.groupCons (a1 := []) (a2 := []) (c1 := [_]) (c2 := []) b_matches .groupNil (.refl _)) (.refl _)
  · cases h
    exact ⟨.empty, aNode, by simp [Proper, ProperL, NameOK, aNode], a_matches⟩
  · cases h
    exact ⟨.string (s := ['x']) trivial (by simp) (.value rfl), bNode, by simp [Proper, ProperL, NameOK, bNode], b_matches⟩

/-- `<o><a/><a/></o>` -/
def oDoc : XDoc := ⟨[], [], ['o'], [], false, [.elem [] ['a'] [] true [], .elem [] ['a'] [] true []], []⟩
def oNode : Node := .elem ⟨none, ['o']⟩ [] [aNode, aNode]

theorem oDoc_tame : oDoc.Tame := by
  refine ⟨⟨by decide, by decide, by decide, ?_, ?_⟩, by decide⟩
  · simp [XDoc.root, oDoc, allTextsL, XNode.allTexts]
  · simp [XDoc.root, oDoc, unsplitL]

theorem oDoc_means : oDoc.Means oNode :=
  Resolves.elem (kns := [aNode, aNode]) (by decide) .nil (.elem (kns := []) (by decide) .nil .nil (by simp)
    (.elem (kns := []) (by decide) .nil .nil (by simp) .nil)) (by simp [oDoc]) .nil

def o0 : VState Unit Str := match newValidator [] 50 oStart with | .ok s => s | .error _ => ⟨Store.init, 0, false, [], []⟩

theorem o_new : newValidator [] 50 oStart = .ok o0 := by
  have : (match newValidator [] 50 oStart with | .ok _ => true | .error _ => false) = true := by decide +kernel
  unfold o0
  split at this
  · rename_i h; rw [h]
  · cases this

/-- `<o><a/>` is accepted: it can be completed (with a `b`, though the given document has none) -/
example : ∃ (d' : XDoc) (node' : Node) (more : List Token),
    d'.toks = [.elementStart [] ['o'], .elementEnd .open, .elementStart [] ['a']] ++ [.elementEnd .empty] ++ more ∧ d'.Tame ∧ d'.Means node' ∧
    Match lib [] oStart [] [node'] ∧ Written d'.root := by
  obtain ⟨s, hr⟩ : ∃ s, runToks lib 50 ([.elementStart [] ['o'], .elementEnd .open, .elementStart [] ['a']] ++ [.elementEnd .empty]) o0 = .ok (.ok (), s) :=
    okRun_ok (by decide +kernel)
  obtain ⟨d', node', more, h1, h2, h3, h4, h5, _⟩ := C77_accepted_beginnings_can_be_completed (rest := oDoc.toks.drop 4) (d := oDoc) o_ok.relax
    .element o_usable oDoc_tame oDoc_means (by decide +kernel) o_new hr
  exact ⟨d', node', more, h1, h2, h3, h4, h5 (by simp [XDoc.root, oDoc, Written, WrittenL])⟩

/-- `<o><a/><a/>` is not accepted: it cannot be completed -/
example : ¬ ∃ (d' : XDoc) (node' : Node) (more : List Token),
    d'.toks = oDoc.toks.take 5 ++ [.elementEnd .empty] ++ more ∧ d'.Tame ∧ d'.Means node' ∧ Match lib [] oStart [] [node'] := by
  obtain ⟨e, s, hr⟩ : ∃ e s, runToks lib 50 (oDoc.toks.take 5 ++ [.elementEnd .empty]) o0 = .ok (.error e, s) := by
    have : (match runToks lib 50 (oDoc.toks.take 5 ++ [.elementEnd .empty]) o0 with | .ok (.error _, _) => true | _ => false) = true := by decide +kernel
    split at this
    · rename_i h; exact ⟨_, _, h⟩
    · cases this
  intro hc
  have := (C77_error_iff_not_completable (rest := oDoc.toks.drop 6) (d := oDoc) o_ok .element o_usable oDoc_tame oDoc_means (by decide +kernel) o_new hr).mpr hc
  cases this

/-! ### where it fails: schemas with parts that cannot be used -/

/-- `element a { attribute * { text }+ }` -/
def plusStart : Pattern Unit Str := .element (.named [] ['a']) (.oneOrMore (.attr .anyName .text))

theorem plus_ok : SchemaOK lib [] plusStart true := by
  refine ⟨fun p => p = .oneOrMore (.attr .anyName .text), ?_, .element rfl⟩
  rintro p rfl
  exact .oneOrMore (.attr .text) fun _ => .attr

def voidStart : Pattern Unit Str := .element (.named [] ['a']) (.element (.named [] ['b']) .notAllowed)

theorem void_ok : SchemaOK lib [] voidStart true := by
  refine ⟨fun p => p = .element (.named [] ['b']) .notAllowed ∨ p = .notAllowed, ?_, .element (.inl rfl)⟩
  rintro p (rfl | rfl)
  · exact .element (.inr rfl)
  · exact .notAllowed

/-- a document beginning `<a>`: its root element has no attributes -/
theorem a_open {d' : XDoc} {node' more} (h : d'.toks = [.elementStart [] ['a']] ++ [.elementEnd .open] ++ more) (hm : d'.Means node') :
    ∃ nm kids, node' = .elem nm [] kids := by
  have hp : d'.prolog = [] := by
    cases hpl : d'.prolog with
    | nil => rfl
    | cons p ps =>
      simp only [XDoc.toks, hpl, List.map_cons, List.cons_append, List.nil_append, List.cons.injEq] at h
      cases p <;> cases h.1
  have ha : d'.atts = [] := by
    simp only [XDoc.toks, hp, List.map_nil, List.nil_append, XDoc.root] at h
    cases hat : d'.atts with
    | nil => rfl
    | cons a as =>
      rw [hat] at h
      cases hsc : d'.selfClose <;> (rw [hsc] at h; simp [XNode.toks, RawAttr.tok] at h)
  unfold XDoc.Means XDoc.root at hm
  generalize hxs : [XNode.elem d'.pre d'.loc d'.atts d'.selfClose d'.kids] = xs at hm
  generalize hns : [node'] = ns at hm
  cases hm with
  | elem h1 h2 =>
    cases hns
    cases hxs
    rw [ha] at h2
    simp only [plainAtts] at h2
    cases h2
    exact ⟨_, _, rfl⟩
  | _ => cases hxs

/-- With repeated attributes the start tag `<a>` is accepted although no document beginning with `<a>` matches: the missing
attributes are noticed only at the end tag. -/
theorem C77_repeated_attributes_fail : ∃ s, (newValidator [] 50 plusStart >>= fun v => runToks lib 50 ([.elementStart [] ['a']] ++ [.elementEnd .open]) v)
      = .ok (.ok (), s) ∧
    ¬ ∃ (d' : XDoc) (node' : Node) (more : List Token), d'.toks = [.elementStart [] ['a']] ++ [.elementEnd .open] ++ more ∧ d'.Means node' ∧
      Match lib [] plusStart [] [node'] := by
  obtain ⟨s, hr⟩ : ∃ s, (newValidator [] 50 plusStart >>= fun v => runToks lib 50 ([.elementStart [] ['a']] ++ [.elementEnd .open]) v) = .ok (.ok (), s) :=
    okRun_ok (by decide +kernel)
  refine ⟨s, hr, ?_⟩
  rintro ⟨d', node', more, h1, h2, h3⟩
  obtain ⟨nm, kids, rfl⟩ := a_open h1 h2
  cases h3 with
  | element _ _ h =>
    generalize ha : ([] : List Attr) = a at h
    cases h with
    | oneOrMore h1 h2 hp =>
      subst ha
      cases h1
      have := hp.length_eq
      simp at this

/-- With a part that nothing matches (`element a { element b { notAllowed } }`) the start tag `<a>` is accepted although no
document at all matches. -/
theorem C77_void_element_fails : ∃ s, (newValidator [] 50 voidStart >>= fun v => runToks lib 50 ([.elementStart [] ['a']] ++ [.elementEnd .open]) v)
      = .ok (.ok (), s) ∧ ∀ node', ¬ Match lib [] voidStart [] [node'] := by
  obtain ⟨s, hr⟩ : ∃ s, (newValidator [] 50 voidStart >>= fun v => runToks lib 50 ([.elementStart [] ['a']] ++ [.elementEnd .open]) v) = .ok (.ok (), s) :=
    okRun_ok (by decide +kernel)
  refine ⟨s, hr, fun node' h3 => ?_⟩
  cases h3 with
  | element _ _ h =>
    cases h with
    | element _ _ h => cases h

end Verif.ExV
