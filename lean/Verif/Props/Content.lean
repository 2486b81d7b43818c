import Verif.Props.Edits
import Verif.Spec.Content
/-
C13, C21, C48, C49: name classes, attributes, lists and exceptions, as seen through the verdict.
-/
namespace Verif
variable {D V : Type} [DecidableEq D] [DecidableEq V] {L : Lib D V} {env : Env D V}
  {start : Pattern D V} {fuel n : Nat} {s0 s1 : VState D V} {d : XDoc} {node : Node} {r : Except VErr Unit}

/-! ### inversion of `Match` -/

section
omit [DecidableEq D] [DecidableEq V]

theorem Weak.nil_inv {c} (h : Weak [] c) : c = [] := by cases h; rfl
theorem Weak.one_inv {s c} (h : Weak [.text s] c) : c = [.text s] ∨ (c = [] ∧ WsText s) := by
  cases h with
  | keep h => cases h; exact Or.inl rfl
  | drop hs h => cases h; exact Or.inr ⟨rfl, hs⟩

theorem Match.element_iff {nc : NameClass} {p : Pattern D V} {nm a kids} :
    Match L env (.element nc p) [] [.elem nm a kids] ↔
      nc.Has nm.expanded ∧ ∃ c, Weak kids c ∧ Match L env p a c := by
  constructor
  · intro h; cases h with | element h1 h2 h3 => exact ⟨h1, _, h2, h3⟩
  · rintro ⟨h1, c, h2, h3⟩; exact .element h1 h2 h3

theorem Match.attr_iff {nc : NameClass} {p : Pattern D V} {a c} :
    Match L env (.attr nc p) a c ↔ ∃ x, a = [x] ∧ c = [] ∧ x.Fits L env nc p := by
  constructor
  · intro h; cases h with | attr h1 h2 h3 => exact ⟨_, rfl, rfl, h1, _, h2, h3⟩
  · rintro ⟨x, rfl, rfl, h1, c, h2, h3⟩; exact .attr h1 h2 h3

theorem Match.list_iff {p : Pattern D V} {s} :
    Match L env (.list p) [] [.text s] ↔ ∃ ws, Words s ws ∧ Match L env p [] (ws.map .text) := by
  constructor
  · intro h; cases h with | list h1 h2 => exact ⟨_, h1, h2⟩
  · rintro ⟨ws, h1, h2⟩; exact .list h1 h2

theorem Match.list_nil {p : Pattern D V} {a} : ¬ Match L env (.list p) a [] := nofun
theorem Match.except_nil {d : D} {e : Pattern D V} {a} : ¬ Match L env (.datatypeNameExcept d e) a [] := nofun

theorem Match.except_iff {d : D} {e : Pattern D V} {s} :
    Match L env (.datatypeNameExcept d e) [] [.text s] ↔ L.validD d s = some true ∧ ExMatch L env e s false := by
  constructor
  · intro h; cases h with | dataExcept h1 h2 => exact ⟨h1, h2⟩
  · rintro ⟨h1, h2⟩; exact .dataExcept h1 h2
end

/-! ### C13 -/

/-- C13.  The code's test accepts exactly the names of the set the name class stands for. -/
theorem C13_name_classes_are_sets (nc : NameClass) (t : QName) : contains nc t = true ↔ nc.Has t.expanded :=
  contains_iff nc t

omit [DecidableEq D] [DecidableEq V] in
theorem schemaOK_element {nc : NameClass} {p : Pattern D V} (hp : WF L [] (fun q => q = p) true false true p) :
    SchemaOK L [] (.element nc p) true :=
  ⟨fun q => q = p, fun _ hq => hq ▸ hp, .element rfl⟩

/-- C13, elements: with the schema `element nc { empty }` an empty element is accepted exactly when its
name is in the set. -/
theorem C13_element_names {nc : NameClass} {nm : QName} (ht : d.Tame) (hm : d.Means (.elem nm [] []))
    (hnew : newValidator [] fuel (.element nc (.empty : Pattern D V)) = .ok s0)
    (hrun : runToks L n d.toks s0 = .ok (r, s1)) : r = .ok () ↔ nc.Has nm.expanded := by
  rw [verdict_iff (schemaOK_element .empty) .element ht hm hnew hrun, Match.element_iff]
  constructor
  · exact fun h => h.1
  · exact fun h => ⟨h, [], .nil, .empty⟩

/-- C13, attributes: with the schema `element * { attribute nc { text } }` an element with one
attribute and no content is accepted exactly when the attribute's name is in the set. -/
theorem C13_attribute_names {nc : NameClass} {nm : QName} {x : Attr} (ht : d.Tame) (hm : d.Means (.elem nm [x] []))
    (hnew : newValidator [] fuel (.element .anyName (.attr nc (.text : Pattern D V))) = .ok s0)
    (hrun : runToks L n d.toks s0 = .ok (r, s1)) : r = .ok () ↔ nc.Has x.name.expanded := by
  rw [verdict_iff (schemaOK_element (.attr .text)) .element ht hm hnew hrun, Match.element_iff]
  simp only [Match.attr_iff]
  constructor
  · rintro ⟨_, c, _, y, hy, _, h, _⟩; cases hy; exact h
  · intro h
    exact ⟨trivial, [], .nil, x, rfl, rfl, h, [.text x.value], .refl _, .text (by simp)⟩

/-! the hypotheses hold of `<p:a xmlns:p="u" k="1"/>` and `* - ns:* ` style name classes -/
def Ex.one : XDoc where
  prolog := []
  pre := ['p']
  loc := ['a']
  atts := [⟨xmlnsStr, ['p'], ['u']⟩, ⟨[], ['k'], ['1']⟩]
  selfClose := true
  kids := []
  epilog := []

theorem Ex.one_ok : Ex.one.Tame ∧ Ex.one.Means (.elem ⟨some ['u'], ['a']⟩ [⟨⟨none, ['k']⟩, ['1']⟩] []) := by
  refine ⟨⟨⟨by decide, by decide, by decide, ?_, ?_⟩, by decide⟩, ?_⟩
  · simp [XDoc.root, Ex.one, allTextsL, XNode.allTexts]
  · simp [XDoc.root, Ex.one, unsplitL]
  · exact Resolves.elem (kns := []) (by decide) (.cons (by simp [attrName]) (plainDec (by decide)) .nil) .nil
      (by simp [Ex.one]) .nil

/-- a run of the example is accepted, so by C13 its attribute's name is in the set -/
example : (NameClass.anyNameExcept (.nsName ['u'])).Has ([], ['k']) := by
  have key : (match newValidator [] 20 (.element .anyName (.attr (.anyNameExcept (.nsName ['u'])) (.text : Pattern Unit Str))) with
    | .ok s0 => match runToks Ex.lib 20 Ex.one.toks s0 with
      | .ok (.ok (), _) => true
      | _ => false
    | _ => false) = true := by decide +kernel
  split at key
  · rename_i s0 h0
    split at key
    · rename_i s1 h1
      exact (C13_attribute_names Ex.one_ok.1 Ex.one_ok.2 h0 h1).mp rfl
    · cases key
  · cases key

/-! ### C21 -/

section
omit [DecidableEq D] [DecidableEq V]

/-- every attribute of matched content is offered by an attribute pattern it satisfies -/
theorem Match.offered {p : Pattern D V} {a c} (h : Match L env p a c) :
    ∀ x ∈ a, ∃ nc q, Offers env p nc q ∧ x.Fits L env nc q := by
  induction h with
  | choice hp _ ih =>
    intro x hx; obtain ⟨nc, q, h1, h2⟩ := ih x hx; exact ⟨nc, q, .choice hp h1, h2⟩
  | groupCons _ _ hperm ih1 ih2 =>
    intro x hx
    rcases List.mem_append.mp (hperm.mem_iff.mp hx) with hx | hx
    · obtain ⟨nc, q, h1, h2⟩ := ih1 x hx; exact ⟨nc, q, .group (by simp) h1, h2⟩
    · obtain ⟨nc, q, h1, h2⟩ := ih2 x hx
      cases h1 with
      | group hp h1 => exact ⟨nc, q, .group (List.mem_cons_of_mem _ hp) h1, h2⟩
  | interleaveCons _ _ hperm _ ih1 ih2 =>
    intro x hx
    rcases List.mem_append.mp (hperm.mem_iff.mp hx) with hx | hx
    · obtain ⟨nc, q, h1, h2⟩ := ih1 x hx; exact ⟨nc, q, .interleave (by simp) h1, h2⟩
    · obtain ⟨nc, q, h1, h2⟩ := ih2 x hx
      cases h1 with
      | interleave hp h1 => exact ⟨nc, q, .interleave (List.mem_cons_of_mem _ hp) h1, h2⟩
  | mixed _ _ _ ih => intro x hx; obtain ⟨nc, q, h1, h2⟩ := ih x hx; exact ⟨nc, q, .mixed h1, h2⟩
  | optionalSome _ ih => intro x hx; obtain ⟨nc, q, h1, h2⟩ := ih x hx; exact ⟨nc, q, .optional h1, h2⟩
  | zeroOrMoreCons _ _ hperm ih1 ih2 =>
    intro x hx
    rcases List.mem_append.mp (hperm.mem_iff.mp hx) with hx | hx
    · obtain ⟨nc, q, h1, h2⟩ := ih1 x hx; exact ⟨nc, q, .zeroOrMore h1, h2⟩
    · exact ih2 x hx
  | oneOrMore _ _ hperm ih1 ih2 =>
    intro x hx
    rcases List.mem_append.mp (hperm.mem_iff.mp hx) with hx | hx
    · obtain ⟨nc, q, h1, h2⟩ := ih1 x hx; exact ⟨nc, q, .oneOrMore h1, h2⟩
    · obtain ⟨nc, q, h1, h2⟩ := ih2 x hx
      cases h1 with
      | zeroOrMore h1 => exact ⟨nc, q, .oneOrMore h1, h2⟩
  | attr h1 h2 h3 => intro x hx; simp at hx; subst hx; exact ⟨_, _, .attr, h1, _, h2, h3⟩
  | ref hp _ ih => intro x hx; obtain ⟨nc, q, h1, h2⟩ := ih x hx; exact ⟨nc, q, .ref hp h1, h2⟩
  | _ => intro x hx; simp at hx

/-- a required attribute is there -/
theorem Match.required {X : NameClass → Prop} {p : Pattern D V} {a c} (h : Match L env p a c) :
    Requires env X p → ∃ x ∈ a, ∃ nc, X nc ∧ nc.Has x.name.expanded := by
  induction h with
  | choice hp _ ih => intro h; cases h with | choice h => exact ih (h _ hp)
  | groupNil => intro h; cases h with | group hp _ => simp at hp
  | groupCons _ _ hperm ih1 ih2 =>
    intro h
    cases h with
    | group hp h =>
      rcases List.mem_cons.mp hp with rfl | hp
      · obtain ⟨x, hx, h⟩ := ih1 h; exact ⟨x, hperm.mem_iff.mpr (by simp [hx]), h⟩
      · obtain ⟨x, hx, h⟩ := ih2 (.group hp h); exact ⟨x, hperm.mem_iff.mpr (by simp [hx]), h⟩
  | interleaveNil => intro h; cases h with | interleave hp _ => simp at hp
  | interleaveCons _ _ hperm _ ih1 ih2 =>
    intro h
    cases h with
    | interleave hp h =>
      rcases List.mem_cons.mp hp with rfl | hp
      · obtain ⟨x, hx, h⟩ := ih1 h; exact ⟨x, hperm.mem_iff.mpr (by simp [hx]), h⟩
      · obtain ⟨x, hx, h⟩ := ih2 (.interleave hp h); exact ⟨x, hperm.mem_iff.mpr (by simp [hx]), h⟩
  | mixed _ _ _ ih => intro h; cases h with | mixed h => exact ih h
  | oneOrMore _ _ hperm ih1 _ =>
    intro h
    cases h with
    | oneOrMore h => obtain ⟨x, hx, h⟩ := ih1 h; exact ⟨x, hperm.mem_iff.mpr (by simp [hx]), h⟩
  | attr h1 _ _ => intro h; cases h with | attr h => exact ⟨_, List.mem_singleton.mpr rfl, _, h, h1⟩
  | ref hp _ ih =>
    intro h
    cases h with
    | ref hp' h => rw [hp] at hp'; cases hp'; exact ih h
  | _ => intro h; cases h

theorem FitsAll.length {xs : List Attr} {ps : List (NameClass × Pattern D V)} (h : FitsAll L env xs ps) :
    xs.length = ps.length := by
  induction h with
  | nil => rfl
  | cons _ _ ih => simp [ih]

/-- attributes in a group are shared out one to one -/
theorem Match.attrs_exact {q : Pattern D V} (hq : ∀ a c, Match L env q a c → a = []) :
    ∀ {ps : List (NameClass × Pattern D V)} {a c},
    (Match L env (.group (ps.map (fun x => .attr x.1 x.2) ++ [q])) a c ↔
      (∃ b, a.Perm b ∧ FitsAll L env b ps) ∧ Match L env q [] c)
  | [], a, c => by
    simp only [List.map_nil, List.nil_append]
    rw [matchEq_group_one q L env a c]
    constructor
    · intro h
      have := hq _ _ h; subst this
      exact ⟨⟨[], .refl _, .nil⟩, h⟩
    · rintro ⟨⟨b, hb, hf⟩, h⟩
      cases hf
      rw [List.perm_nil.mp hb]; exact h
  | (nc, p) :: ps, a, c => by
    simp only [List.map_cons, List.cons_append, Match.group_cons_iff]
    constructor
    · rintro ⟨a1, a2, c1, c2, hp, rfl, h1, h2⟩
      obtain ⟨x, rfl, rfl, hx⟩ := Match.attr_iff.mp h1
      obtain ⟨⟨b, hb, hf⟩, h⟩ := (Match.attrs_exact hq).mp h2
      refine ⟨⟨x :: b, hp.trans (hb.cons x), .cons hx hf⟩, h⟩
    · rintro ⟨⟨b, hb, hf⟩, h⟩
      cases hf with
      | @cons x xs _ _ _ hx hf =>
        exact ⟨[x], xs, [], c, hb, rfl, Match.attr_iff.mpr ⟨x, rfl, rfl, hx⟩,
          (Match.attrs_exact hq).mpr ⟨⟨xs, .refl _, hf⟩, h⟩⟩
end

/-- C21, extra attributes: every attribute of the root element of an accepted document satisfies some
attribute pattern in the element's content. -/
theorem C21_no_extra_attributes {nc : NameClass} {p : Pattern D V} {nm : QName} {as : List Attr} {kids : List Node}
    (hs : SchemaOK L env (.element nc p) false) (ht : d.Tame) (hm : d.Means (.elem nm as kids))
    (hnew : newValidator env fuel (.element nc p) = .ok s0) (hrun : runToks L n d.toks s0 = .ok (.ok (), s1)) :
    ∀ x ∈ as, ∃ anc q, Offers env p anc q ∧ x.Fits L env anc q := by
  obtain ⟨_, c, _, h⟩ := Match.element_iff.mp (C01_accepted_documents_match hs .element ht hm hnew hrun)
  exact h.offered

/-- C21, required attributes: if every way through the content needs an attribute with a name in `X`,
an accepted document has one. -/
theorem C21_required_attributes_present {X : NameClass → Prop} {nc : NameClass} {p : Pattern D V} {nm : QName}
    {as : List Attr} {kids : List Node} (hX : Requires env X p)
    (hs : SchemaOK L env (.element nc p) false) (ht : d.Tame) (hm : d.Means (.elem nm as kids))
    (hnew : newValidator env fuel (.element nc p) = .ok s0) (hrun : runToks L n d.toks s0 = .ok (.ok (), s1)) :
    ∃ x ∈ as, ∃ anc, X anc ∧ anc.Has x.name.expanded := by
  obtain ⟨_, c, _, h⟩ := Match.element_iff.mp (C01_accepted_documents_match hs .element ht hm hnew hrun)
  exact h.required hX

/-- C21, one attribute for one attribute pattern: with the content `attribute .., .., attribute .., q`
(`q` without attributes) a document is accepted exactly when its attributes can be put in an order in
which they satisfy the attribute patterns one by one (so there are exactly as many), and `q` fits
the content. -/
theorem C21_attributes_used_once {nc : NameClass} {ps : List (NameClass × Pattern D V)} {q : Pattern D V} {nm : QName}
    {as : List Attr} {kids : List Node} (hq : ∀ a c, Match L env q a c → a = [])
    (hs : SchemaOK L env (.element nc (.group (ps.map (fun x => .attr x.1 x.2) ++ [q]))) true)
    (ht : d.Tame) (hm : d.Means (.elem nm as kids))
    (hnew : newValidator env fuel (.element nc (.group (ps.map (fun x => .attr x.1 x.2) ++ [q]))) = .ok s0)
    (hrun : runToks L n d.toks s0 = .ok (r, s1)) :
    r = .ok () ↔ nc.Has nm.expanded ∧ (∃ b, as.Perm b ∧ FitsAll L env b ps) ∧ ∃ c, Weak kids c ∧ Match L env q [] c := by
  rw [verdict_iff hs .element ht hm hnew hrun, Match.element_iff]
  constructor
  · rintro ⟨h1, c, h2, h3⟩
    obtain ⟨h4, h5⟩ := (Match.attrs_exact hq).mp h3
    exact ⟨h1, h4, c, h2, h5⟩
  · rintro ⟨h1, h4, c, h2, h5⟩
    exact ⟨h1, c, h2, (Match.attrs_exact hq).mpr ⟨h4, h5⟩⟩

/-- in particular the number of attributes is the number of attribute patterns -/
theorem C21_attribute_count {nc : NameClass} {ps : List (NameClass × Pattern D V)} {q : Pattern D V} {nm : QName}
    {as : List Attr} {kids : List Node} (hq : ∀ a c, Match L env q a c → a = [])
    (hs : SchemaOK L env (.element nc (.group (ps.map (fun x => .attr x.1 x.2) ++ [q]))) true)
    (ht : d.Tame) (hm : d.Means (.elem nm as kids))
    (hnew : newValidator env fuel (.element nc (.group (ps.map (fun x => .attr x.1 x.2) ++ [q]))) = .ok s0)
    (hrun : runToks L n d.toks s0 = .ok (.ok (), s1)) : as.length = ps.length := by
  obtain ⟨_, ⟨b, hb, hf⟩, _⟩ := (C21_attributes_used_once hq hs ht hm hnew hrun).mp rfl
  rw [hb.length_eq, hf.length]

/-- `element * { attribute k { text }, empty }` and the example document: accepted, with its one
attribute -/
example : ∃ s0 s1, newValidator [] 20 (.element .anyName (.group
      ([(NameClass.named [] ['k'], (.text : Pattern Unit Str))].map (fun x => .attr x.1 x.2) ++ [.empty]))) = .ok s0 ∧
    runToks Ex.lib 20 Ex.one.toks s0 = .ok (.ok (), s1) ∧
    SchemaOK Ex.lib [] (.element .anyName (.group
      ([(NameClass.named [] ['k'], (.text : Pattern Unit Str))].map (fun x => .attr x.1 x.2) ++ [.empty]))) true ∧
    (∀ a c, Match Ex.lib [] (.empty : Pattern Unit Str) a c → a = []) ∧
    Requires [] (fun nc => nc = .named [] ['k']) (.group
      ([(NameClass.named [] ['k'], (.text : Pattern Unit Str))].map (fun x => .attr x.1 x.2) ++ [.empty])) := by
  have key : (match newValidator [] 20 (.element .anyName (.group
      ([(NameClass.named [] ['k'], (.text : Pattern Unit Str))].map (fun x => .attr x.1 x.2) ++ [.empty]))) with
    | .ok s0 => match runToks Ex.lib 20 Ex.one.toks s0 with
      | .ok (.ok (), _) => true
      | _ => false
    | _ => false) = true := by decide +kernel
  split at key
  · rename_i s0 h0
    split at key
    · rename_i s1 h1
      refine ⟨s0, s1, h0, h1, schemaOK_element (.group (by simp) ?_), ?_, ?_⟩
      · intro p hp; simp at hp; rcases hp with rfl | rfl
        · exact .attr .text
        · exact .empty
      · intro a c h; cases h; rfl
      · exact .group (p := .attr (.named [] ['k']) .text) (by simp) (.attr rfl)
    · cases key
  · cases key

/-! ### C48 -/

/-- C48.  Every text has exactly one list of words. -/
theorem C48_words_exist_unique (s : Str) : ∃ ws, Words s ws ∧ ∀ ws', Words s ws' → ws' = ws :=
  ⟨splitWs s, words_iff.mpr rfl, fun _ h => (words_iff.mp h).symm⟩

/-- C48, elements: an element with text content matches `list { p }` exactly when `p` matches the
words of the text, one text node each. -/
theorem C48_list_in_element {nc : NameClass} {p : Pattern D V} {nm : QName} {s : Str} {ws : List Str}
    (hs : SchemaOK L env (.element nc (.list p)) true) (ht : d.Tame) (hm : d.Means (.elem nm [] [.text s]))
    (hw : Words s ws)
    (hnew : newValidator env fuel (.element nc (.list p)) = .ok s0) (hrun : runToks L n d.toks s0 = .ok (r, s1)) :
    r = .ok () ↔ nc.Has nm.expanded ∧ Match L env p [] (ws.map .text) := by
  rw [verdict_iff hs .element ht hm hnew hrun, Match.element_iff]
  constructor
  · rintro ⟨h1, c, h2, h3⟩
    rcases h2.one_inv with rfl | ⟨rfl, _⟩
    · obtain ⟨ws', h4, h5⟩ := Match.list_iff.mp h3
      rw [words_iff] at h4 hw
      rw [← hw, h4]; exact ⟨h1, h5⟩
    · exact absurd h3 Match.list_nil
  · rintro ⟨h1, h3⟩
    exact ⟨h1, _, .refl _, Match.list_iff.mpr ⟨ws, hw, h3⟩⟩

/-- C48, attributes. -/
theorem C48_list_in_attribute {nc anc : NameClass} {p : Pattern D V} {nm : QName} {x : Attr} {ws : List Str}
    (hs : SchemaOK L env (.element nc (.attr anc (.list p))) true) (ht : d.Tame) (hm : d.Means (.elem nm [x] []))
    (hw : Words x.value ws)
    (hnew : newValidator env fuel (.element nc (.attr anc (.list p))) = .ok s0) (hrun : runToks L n d.toks s0 = .ok (r, s1)) :
    r = .ok () ↔ nc.Has nm.expanded ∧ anc.Has x.name.expanded ∧ Match L env p [] (ws.map .text) := by
  rw [verdict_iff hs .element ht hm hnew hrun, Match.element_iff]
  simp only [Match.attr_iff]
  constructor
  · rintro ⟨h1, c, _, y, hy, _, h2, c', h3, h4⟩
    cases hy
    rcases h3.one_inv with rfl | ⟨rfl, _⟩
    · obtain ⟨ws', h5, h6⟩ := Match.list_iff.mp h4
      rw [words_iff] at h5 hw
      rw [← hw, h5]; exact ⟨h1, h2, h6⟩
    · exact absurd h4 Match.list_nil
  · rintro ⟨h1, h2, h3⟩
    exact ⟨h1, [], .nil, x, rfl, rfl, h2, _, .refl _, Match.list_iff.mpr ⟨ws, hw, h3⟩⟩

/-- `element * { list { "a", "b" } }` accepts `<p:a xmlns:p="u"> a  b</p:a>` (as CDATA) -/
def Ex.listDoc : XDoc where
  prolog := []
  pre := ['p']
  loc := ['a']
  atts := [⟨xmlnsStr, ['p'], ['u']⟩]
  selfClose := false
  kids := [.cdata [' ', 'a', ' ', ' ', 'b']]
  epilog := []

theorem Ex.listDoc_ok : Ex.listDoc.Tame ∧ Ex.listDoc.Means (.elem ⟨some ['u'], ['a']⟩ [] [.text [' ', 'a', ' ', ' ', 'b']]) := by
  refine ⟨⟨⟨by decide, by decide, by decide, ?_, ?_⟩, by decide⟩, ?_⟩
  · simp [XDoc.root, Ex.listDoc, allTextsL, XNode.allTexts]
  · simp [XDoc.root, Ex.listDoc, unsplitL]
  · exact Resolves.elem (kns := [.text [' ', 'a', ' ', ' ', 'b']]) (by decide) .nil (.cdata .nil)
      (by simp [Ex.listDoc]) .nil

example : ∃ s0 s1, newValidator [] 30 (.element .anyName (.list (.group [.datatypeValue ['a'], (.datatypeValue ['b'] : Pattern Unit Str)]))) = .ok s0 ∧
    runToks Ex.lib 30 Ex.listDoc.toks s0 = .ok (.ok (), s1) ∧
    SchemaOK Ex.lib [] (.element .anyName (.list (.group [.datatypeValue ['a'], (.datatypeValue ['b'] : Pattern Unit Str)]))) true ∧
    Words [' ', 'a', ' ', ' ', 'b'] [['a'], ['b']] := by
  have key : (match newValidator [] 30 (.element .anyName (.list (.group [.datatypeValue ['a'], (.datatypeValue ['b'] : Pattern Unit Str)]))) with
    | .ok s0 => match runToks Ex.lib 30 Ex.listDoc.toks s0 with
      | .ok (.ok (), _) => true
      | _ => false
    | _ => false) = true := by decide +kernel
  split at key
  · rename_i s0 h0
    split at key
    · rename_i s1 h1
      refine ⟨s0, s1, h0, h1, schemaOK_element (.list (.group (by simp) ?_)), words_iff.mpr (by decide)⟩
      intro p hp; simp at hp; rcases hp with rfl | rfl <;> exact .value
    · cases key
  · cases key

/-! ### C49 -/

section
omit [DecidableEq D] [DecidableEq V]

/-- an exception has one truth value -/
theorem ExMatch.det {e : Pattern D V} {s b} (h : ExMatch L env e s b) : ∀ {b'}, ExMatch L env e s b' → b = b' := by
  induction h with
  | value h => intro b' h'; cases h' with | value h' => rw [h] at h'; cases h'; rfl
  | data h => intro b' h'; cases h' with | data h' => rw [h] at h'; cases h'; rfl
  | dataExcept h _ ih => intro b' h'; cases h' with | dataExcept h1 h2 => rw [h] at h1; cases h1; rw [ih h2]
  | notAllowed => intro b' h'; cases h'; rfl
  | choiceNil => intro b' h'; cases h'; rfl
  | choiceCons _ _ ih1 ih2 => intro b' h'; cases h' with | choiceCons h1 h2 => rw [ih1 h1, ih2 h2]
  | ref hp _ ih => intro b' h'; cases h' with | ref hp' h => rw [hp] at hp'; cases hp'; exact ih h

/-- the truth value of an exception is whether it matches the string -/
theorem ExMatch.iff_match {e : Pattern D V} {s b} (h : ExMatch L env e s b) : b = true ↔ Match L env e [] [.text s] := by
  induction h with
  | value h =>
    constructor
    · rintro rfl; exact .value h
    · intro hm; cases hm with | value h' => rw [h] at h'; cases h'; rfl
  | data h =>
    constructor
    · rintro rfl; exact .data h
    · intro hm; cases hm with | data h' => rw [h] at h'; cases h'; rfl
  | dataExcept h he ih =>
    rename_i d e s b1 b2
    constructor
    · intro hb
      simp only [Bool.and_eq_true, Bool.not_eq_true'] at hb
      obtain ⟨rfl, rfl⟩ := hb
      exact .dataExcept h he
    · intro hm
      obtain ⟨h1, h2⟩ := Match.except_iff.mp hm
      rw [h] at h1; cases h1
      have : b2 = false := by
        cases b2 with
        | false => rfl
        | true => cases he.det h2
      subst this; rfl
  | notAllowed => exact ⟨nofun, nofun⟩
  | choiceNil => exact ⟨nofun, fun h => by cases h with | choice h _ => simp at h⟩
  | choiceCons _ _ ih1 ih2 =>
    rw [Bool.or_eq_true, ih1, ih2]
    constructor
    · rintro (h | h)
      · exact .choice (by simp) h
      · cases h with | choice hp h => exact .choice (List.mem_cons_of_mem _ hp) h
    · intro h
      cases h with
      | choice hp h =>
        rcases List.mem_cons.mp hp with rfl | hp
        · exact Or.inl h
        · exact Or.inr (.choice hp h)
  | ref hp _ ih =>
    rw [ih]
    constructor
    · exact .ref hp
    · intro h; cases h with | ref hp' h => rw [hp] at hp'; cases hp'; exact h

/-- an exception has a truth value when its datatypes are implemented -/
theorem ExOK.exMatch (hd : ∀ dt s, L.validD dt s ≠ none) (hv : ∀ v s, L.validV v s ≠ none) {e : Pattern D V}
    (h : ExOK env e) (s : Str) : ∃ b, ExMatch L env e s b := by
  induction h with
  | @value v =>
    cases h : L.validV v s with
    | none => exact absurd h (hv v s)
    | some b => exact ⟨b, .value h⟩
  | @data dt =>
    cases h : L.validD dt s with
    | none => exact absurd h (hd dt s)
    | some b => exact ⟨b, .data h⟩
  | @dataExcept dt e _ ih =>
    obtain ⟨b, ih⟩ := ih
    cases h : L.validD dt s with
    | none => exact absurd h (hd dt s)
    | some b1 => exact ⟨_, .dataExcept h ih⟩
  | notAllowed => exact ⟨_, .notAllowed⟩
  | @choice ps _ _ ih =>
    rename_i hx1 hx2
    clear hx1 hx2
    induction ps with
    | nil => exact ⟨_, .choiceNil⟩
    | cons p ps ih' =>
      obtain ⟨b1, h1⟩ := ih p (by simp)
      obtain ⟨b2, h2⟩ := ih' fun q hq => ih q (by simp [hq])
      exact ⟨_, .choiceCons h1 h2⟩
  | ref hp _ ih => obtain ⟨b, ih⟩ := ih; exact ⟨b, .ref hp ih⟩
end

/-- C49, elements: text matches `data - except` exactly when the datatype accepts it and the excepted
choice does not match it.  (`hd`, `hv`: no datatype involved is one the code leaves unimplemented.) -/
theorem C49_except_in_element {nc : NameClass} {dt : D} {e : Pattern D V} {nm : QName} {s : Str}
    (hd : ∀ dt s, L.validD dt s ≠ none) (hv : ∀ v s, L.validV v s ≠ none) (he : ExOK env e)
    (hs : SchemaOK L env (.element nc (.datatypeNameExcept dt e)) true) (ht : d.Tame) (hm : d.Means (.elem nm [] [.text s]))
    (hnew : newValidator env fuel (.element nc (.datatypeNameExcept dt e)) = .ok s0)
    (hrun : runToks L n d.toks s0 = .ok (r, s1)) :
    r = .ok () ↔ nc.Has nm.expanded ∧ L.validD dt s = some true ∧ ¬ Match L env e [] [.text s] := by
  rw [verdict_iff hs .element ht hm hnew hrun, Match.element_iff]
  obtain ⟨b, hb⟩ := he.exMatch hd hv s
  constructor
  · rintro ⟨h1, c, h2, h3⟩
    rcases h2.one_inv with rfl | ⟨rfl, _⟩
    · obtain ⟨h4, h5⟩ := Match.except_iff.mp h3
      exact ⟨h1, h4, fun h => absurd (h5.iff_match.mpr h) (by decide)⟩
    · exact absurd h3 Match.except_nil
  · rintro ⟨h1, h3, h4⟩
    refine ⟨h1, _, .refl _, Match.except_iff.mpr ⟨h3, ?_⟩⟩
    cases b with
    | false => exact hb
    | true => exact absurd (hb.iff_match.mp rfl) h4

/-- C49, attributes. -/
theorem C49_except_in_attribute {nc anc : NameClass} {dt : D} {e : Pattern D V} {nm : QName} {x : Attr}
    (hd : ∀ dt s, L.validD dt s ≠ none) (hv : ∀ v s, L.validV v s ≠ none) (he : ExOK env e)
    (hs : SchemaOK L env (.element nc (.attr anc (.datatypeNameExcept dt e))) true) (ht : d.Tame) (hm : d.Means (.elem nm [x] []))
    (hnew : newValidator env fuel (.element nc (.attr anc (.datatypeNameExcept dt e))) = .ok s0)
    (hrun : runToks L n d.toks s0 = .ok (r, s1)) :
    r = .ok () ↔ nc.Has nm.expanded ∧ anc.Has x.name.expanded ∧ L.validD dt x.value = some true ∧
      ¬ Match L env e [] [.text x.value] := by
  rw [verdict_iff hs .element ht hm hnew hrun, Match.element_iff]
  simp only [Match.attr_iff]
  obtain ⟨b, hb⟩ := he.exMatch hd hv x.value
  constructor
  · rintro ⟨h1, c, _, y, hy, _, h2, c', h3, h4⟩
    cases hy
    rcases h3.one_inv with rfl | ⟨rfl, _⟩
    · obtain ⟨h5, h6⟩ := Match.except_iff.mp h4
      exact ⟨h1, h2, h5, fun h => absurd (h6.iff_match.mpr h) (by decide)⟩
    · exact absurd h4 Match.except_nil
  · rintro ⟨h1, h2, h3, h4⟩
    refine ⟨h1, [], .nil, x, rfl, rfl, h2, _, .refl _, Match.except_iff.mpr ⟨h3, ?_⟩⟩
    cases b with
    | false => exact hb
    | true => exact absurd (hb.iff_match.mp rfl) h4

/-- `element * { d - ("b" | "c") }` accepts the text above -/
example : ∃ s0 s1, newValidator [] 30 (.element .anyName (.datatypeNameExcept ()
      (.choice [.datatypeValue ['b'], (.datatypeValue ['c'] : Pattern Unit Str)]))) = .ok s0 ∧
    runToks Ex.lib 30 Ex.listDoc.toks s0 = .ok (.ok (), s1) ∧
    SchemaOK Ex.lib [] (.element .anyName (.datatypeNameExcept ()
      (.choice [.datatypeValue ['b'], (.datatypeValue ['c'] : Pattern Unit Str)]))) true ∧
    (∀ dt s, Ex.lib.validD dt s ≠ none) ∧ (∀ v s, Ex.lib.validV v s ≠ none) := by
  have key : (match newValidator [] 30 (.element .anyName (.datatypeNameExcept ()
      (.choice [.datatypeValue ['b'], (.datatypeValue ['c'] : Pattern Unit Str)]))) with
    | .ok s0 => match runToks Ex.lib 30 Ex.listDoc.toks s0 with
      | .ok (.ok (), _) => true
      | _ => false
    | _ => false) = true := by decide +kernel
  split at key
  · rename_i s0 h0
    split at key
    · rename_i s1 h1
      refine ⟨s0, s1, h0, h1, schemaOK_element (.dataExcept (.choice (by simp) ?_)), by simp [Ex.lib], by simp [Ex.lib]⟩
      intro p hp; simp at hp; rcases hp with rfl | rfl <;> exact .value
    · cases key
  · cases key

end Verif
