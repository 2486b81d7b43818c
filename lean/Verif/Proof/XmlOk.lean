import Verif.Proof.XmlFault
/-
What the XML reader has done when it has read an element.
-/
namespace Verif.LXml
open Verif Verif.At Verif.XS Verif.Rng Verif.RngAt

section
variable {uri : Str → UriKind} {cx : LAnc} {r : Rg} {name : Str} {sc : List (Option Str × Str)} {as : List LAttr} {kids : List LNode}

theorem rng_pos : isRngNs (some "http://relaxng.org/ns/structure/1.0".toList) = true := isRngNs_iff.2 rfl

theorem pattern_std {p : LPat} (h : patternOf uri cx (lel r name sc as kids) = .ok p) : ∃ u, checkStdAttrs uri as = .ok u := by
  unfold patternOf at h
  rw [if_pos rng_pos] at h
  obtain ⟨u, h, _⟩ := bind_ok h
  exact ⟨u, h⟩

theorem pattern_known {p : LPat} (h : patternOf uri cx (lel r name sc as kids) = .ok p) : ∃ t : Tag, name = t.str := by
  unfold patternOf at h
  rw [if_pos rng_pos] at h
  obtain ⟨u, _, h⟩ := bind_ok h
  cases ht : patternTags.lookup name with
  | none => rw [ht] at h; cases h
  | some t => exact ⟨t, patternTags_iff.1 ht⟩

theorem container_tag (h : name ∈ containers) : ∃ t, isCont t = true ∧ name = t.str := by
  unfold containers at h
  simp only [List.mem_cons, List.not_mem_nil, or_false] at h
  rcases h with rfl | rfl | rfl | rfl | rfl | rfl | rfl | rfl
  · exact ⟨.group, rfl, rfl⟩
  · exact ⟨.interleave, rfl, rfl⟩
  · exact ⟨.choice, rfl, rfl⟩
  · exact ⟨.optional, rfl, rfl⟩
  · exact ⟨.zeroOrMore, rfl, rfl⟩
  · exact ⟨.oneOrMore, rfl, rfl⟩
  · exact ⟨.list, rfl, rfl⟩
  · exact ⟨.mixed, rfl, rfl⟩

/-- patterns of one or of two patterns, and parentheses -/
inductive Joins : (LPat → LPat → LPat) → Prop
  | seq : Joins .seq
  | inter : Joins .inter
  | choice : Joins .choice

inductive Wraps : (LPat → LPat) → Prop
  | id : Wraps fun p => p
  | paren : Wraps .paren
  | optional : Wraps .optional
  | zeroOrMore : Wraps .zeroOrMore
  | oneOrMore : Wraps .oneOrMore
  | list : Wraps .list
  | mixed : Wraps .mixed

theorem inv_container {p : LPat} {t : Tag} (hn : isCont t = true) (h : patternOf uri cx (lel r t.str sc as kids) = .ok p) :
    ∃ ps op g q, patternsOf uri (as :: cx) kids = .ok ps ∧ Joins op ∧ Wraps g ∧ foldl1 op ps = some q ∧ p = g q := by
  unfold patternOf at h
  rw [if_pos rng_pos] at h
  obtain ⟨u, _, h'⟩ := bind_ok h
  clear h
  rw [patternTags_iff.2 rfl] at h'
  cases t with
  | group => obtain ⟨ps, h1, h⟩ := bind_ok h'; obtain ⟨q, h2, h⟩ := bind_ok h; cases h; exact ⟨ps, _, _, q, h1, .seq, .paren, orErr_ok h2, rfl⟩
  | interleave => obtain ⟨ps, h1, h2⟩ := bind_ok h'; exact ⟨ps, _, _, p, h1, .inter, .id, orErr_ok h2, rfl⟩
  | choice => obtain ⟨ps, h1, h2⟩ := bind_ok h'; exact ⟨ps, _, _, p, h1, .choice, .id, orErr_ok h2, rfl⟩
  | «optional» => obtain ⟨ps, h1, h⟩ := bind_ok h'; obtain ⟨q, h2, h⟩ := bind_ok h; cases h; exact ⟨ps, _, _, q, h1, .seq, .optional, orErr_ok h2, rfl⟩
  | zeroOrMore => obtain ⟨ps, h1, h⟩ := bind_ok h'; obtain ⟨q, h2, h⟩ := bind_ok h; cases h; exact ⟨ps, _, _, q, h1, .seq, .zeroOrMore, orErr_ok h2, rfl⟩
  | oneOrMore => obtain ⟨ps, h1, h⟩ := bind_ok h'; obtain ⟨q, h2, h⟩ := bind_ok h; cases h; exact ⟨ps, _, _, q, h1, .seq, .oneOrMore, orErr_ok h2, rfl⟩
  | list => obtain ⟨ps, h1, h⟩ := bind_ok h'; obtain ⟨q, h2, h⟩ := bind_ok h; cases h; exact ⟨ps, _, _, q, h1, .seq, .list, orErr_ok h2, rfl⟩
  | mixed => obtain ⟨ps, h1, h⟩ := bind_ok h'; obtain ⟨q, h2, h⟩ := bind_ok h; cases h; exact ⟨ps, _, _, q, h1, .seq, .mixed, orErr_ok h2, rfl⟩
  | _ => cases hn

/-- an element or attribute: its attributes are known -/
abbrev elemAtts : List Str := ["name".toList, "ns".toList, "datatypeLibrary".toList]

theorem inv_element {p : LPat} (h : patternOf uri cx (lel r "element".toList sc as kids) = .ok p) :
    (∃ u, noAttrsExcept elemAtts as = .ok u) ∧ ∃ nc ps q, foldl1 LPat.seq ps = some q ∧ p = .element (afterLt r 7) nc q ∧
      ((∃ a, attr "name".toList as = some a ∧ qnameAttr sc (as :: cx) a = .ok nc ∧ patternsOf uri (as :: cx) kids = .ok ps) ∨
        (attr "name".toList as = none ∧ nameChildOf r (as :: cx) kids = .ok nc ∧ afterNameOf uri (as :: cx) kids = .ok ps)) := by
  unfold patternOf at h
  rw [if_pos rng_pos] at h
  obtain ⟨u, _, h'⟩ := bind_ok h
  clear h
  rw [(patternTags_iff (t := .element)).2 (rfl : "element".toList = _)] at h'
  obtain ⟨u', hu, h⟩ := bind_ok h'
  refine ⟨⟨u', hu⟩, ?_⟩
  clear h'
  cases ha : attr "name".toList as with
  | some a =>
    rw [ha] at h
    obtain ⟨nc, h1, h⟩ := bind_ok h
    obtain ⟨ps, h2, h⟩ := bind_ok h
    obtain ⟨q, h3, h⟩ := bind_ok h
    cases h
    exact ⟨nc, ps, q, orErr_ok h3, rfl, .inl ⟨a, rfl, h1, h2⟩⟩
  | none =>
    rw [ha] at h
    obtain ⟨nc, h1, h⟩ := bind_ok h
    obtain ⟨ps, h2, h⟩ := bind_ok h
    obtain ⟨q, h3, h⟩ := bind_ok h
    cases h
    exact ⟨nc, ps, q, orErr_ok h3, rfl, .inr ⟨rfl, h1, h2⟩⟩

theorem inv_attribute {p : LPat} (h : patternOf uri cx (lel r "attribute".toList sc as kids) = .ok p) :
    (∃ u, noAttrsExcept elemAtts as = .ok u) ∧ ∃ nc o, p = .attribute (afterLt r 9) nc (o.getD .text) ∧
      ((∃ a, attr "name".toList as = some a ∧ (∃ u, checkXmlns (as :: cx) a = .ok u) ∧ qnameAttr sc (as :: cx) a = .ok nc ∧
          singleOf uri (as :: cx) "Unexpected additional child element of <attribute>" kids = .ok o) ∨
        (attr "name".toList as = none ∧ nameChildOf r (as :: cx) kids = .ok nc ∧
          afterNameSingle uri (as :: cx) "Unexpected additional child element of <attribute>" kids = .ok o)) := by
  unfold patternOf at h
  rw [if_pos rng_pos] at h
  obtain ⟨u, _, h'⟩ := bind_ok h
  clear h
  rw [(patternTags_iff (t := .attribute)).2 (rfl : "attribute".toList = _)] at h'
  obtain ⟨u', hu, h⟩ := bind_ok h'
  refine ⟨⟨u', hu⟩, ?_⟩
  clear h'
  cases ha : attr "name".toList as with
  | some a =>
    rw [ha] at h
    obtain ⟨u, h0, h⟩ := bind_ok h
    obtain ⟨nc, h1, h⟩ := bind_ok h
    obtain ⟨o, h2, h⟩ := bind_ok h
    cases h
    exact ⟨nc, o, rfl, .inl ⟨a, rfl, ⟨u, h0⟩, h1, h2⟩⟩
  | none =>
    rw [ha] at h
    obtain ⟨nc, h1, h⟩ := bind_ok h
    obtain ⟨o, h2, h⟩ := bind_ok h
    cases h
    exact ⟨nc, o, rfl, .inr ⟨rfl, h1, h2⟩⟩

theorem inv_refTo {n : Rg × Str} (h : refTo r as kids = .ok n) :
    (∃ u, noRngChildren kids = .ok u) ∧ ∃ a, attr "name".toList as = some a ∧ attrName a = .ok n.2 ∧ n.1 = a.valueAt := by
  unfold refTo at h
  obtain ⟨u, h1, h⟩ := bind_ok h
  obtain ⟨a, h2, h⟩ := bind_ok h
  obtain ⟨n', h3, h⟩ := bind_ok h
  cases h
  exact ⟨⟨u, h1⟩, a, orErr_ok h2, h3, rfl⟩

theorem inv_ref {p : LPat} (h : patternOf uri cx (lel r "ref".toList sc as kids) = .ok p) :
    ∃ n, refTo r as kids = .ok n ∧ p = .ident n.1 n.2 := by
  unfold patternOf at h
  rw [if_pos rng_pos] at h
  obtain ⟨u, _, h'⟩ := bind_ok h
  clear h
  rw [(patternTags_iff (t := .ref)).2 (rfl : "ref".toList = _)] at h'
  obtain ⟨n, h1, h⟩ := bind_ok h'
  cases h
  exact ⟨n, h1, rfl⟩

theorem inv_parent {p : LPat} (h : patternOf uri cx (lel r "parentRef".toList sc as kids) = .ok p) :
    ∃ n, refTo r as kids = .ok n ∧ p = .parent n.1 n.2 := by
  unfold patternOf at h
  rw [if_pos rng_pos] at h
  obtain ⟨u, _, h'⟩ := bind_ok h
  clear h
  rw [(patternTags_iff (t := .parentRef)).2 (rfl : "parentRef".toList = _)] at h'
  obtain ⟨n, h1, h⟩ := bind_ok h'
  cases h
  exact ⟨n, h1, rfl⟩

theorem inv_bareP {p q : LPat} (h : bareP q as kids = .ok p) : (∃ u, noAttrsExcept [] as = .ok u) ∧ (∃ u, noRngChildren kids = .ok u) ∧ p = q := by
  unfold bareP at h
  obtain ⟨u, h1, h⟩ := bind_ok h
  obtain ⟨u', h2, h⟩ := bind_ok h
  cases h
  exact ⟨⟨u, h1⟩, ⟨u', h2⟩, rfl⟩

theorem inv_bare {p : LPat} {t : Tag} (hn : t = .empty ∨ t = .text ∨ t = .notAllowed) (h : patternOf uri cx (lel r t.str sc as kids) = .ok p) :
    (∃ u, noAttrsExcept [] as = .ok u) ∧ (∃ u, noRngChildren kids = .ok u) ∧ (p = .empty ∨ p = .text ∨ p = .notAllowed) := by
  unfold patternOf at h
  rw [if_pos rng_pos] at h
  obtain ⟨u, _, h'⟩ := bind_ok h
  clear h
  rw [patternTags_iff.2 rfl] at h'
  rcases hn with rfl | rfl | rfl
  · obtain ⟨h1, h2, rfl⟩ := inv_bareP h'; exact ⟨h1, h2, .inl rfl⟩
  · obtain ⟨h1, h2, rfl⟩ := inv_bareP h'; exact ⟨h1, h2, .inr (.inl rfl)⟩
  · obtain ⟨h1, h2, rfl⟩ := inv_bareP h'; exact ⟨h1, h2, .inr (.inr rfl)⟩

theorem inv_value {p : LPat} (h : patternOf uri cx (lel r "value".toList sc as kids) = .ok p) :
    (∃ u, noElemChildren kids = .ok u) ∧ ∃ lit, valueOf r kids = .ok lit ∧
      ((attr "type".toList as = none ∧ p = .value none lit) ∨
        ∃ a n, attr "type".toList as = some a ∧ ncname ncMsg a.valueAt a.value = .ok n ∧
          p = .value (some (.namespaced (libOf (as :: cx)).1 (libOf (as :: cx)).2 a.valueAt n)) lit) := by
  unfold patternOf at h
  rw [if_pos rng_pos] at h
  obtain ⟨u, _, h'⟩ := bind_ok h
  clear h
  rw [(patternTags_iff (t := .value)).2 (rfl : "value".toList = _)] at h'
  replace h' : valueP r (as :: cx) as kids = .ok p := h'
  unfold valueP at h'
  obtain ⟨u, h1, h⟩ := bind_ok h'
  clear h'
  refine ⟨⟨u, h1⟩, ?_⟩
  cases ha : attr "type".toList as with
  | none =>
    rw [ha] at h
    obtain ⟨lit, h2, h⟩ := bind_ok h
    cases h
    exact ⟨lit, h2, .inl ⟨rfl, rfl⟩⟩
  | some a =>
    rw [ha] at h
    obtain ⟨n, h2, h⟩ := bind_ok h
    obtain ⟨lit, h3, h⟩ := bind_ok h
    cases h
    exact ⟨lit, h3, .inr ⟨a, n, rfl, h2, rfl⟩⟩

theorem inv_type {t : LDtName} (h : typeOf r cx as = .ok t) : ∃ a, attr "type".toList as = some a ∧
    ((trim a.value = "token".toList ∧ t = .token) ∨
      ∃ n, ncname ncMsg a.valueAt (trim a.value) = .ok n ∧ t = .namespaced (libOf cx).1 (libOf cx).2 a.valueAt n) := by
  unfold typeOf at h
  obtain ⟨a, h1, h'⟩ := bind_ok h
  clear h
  refine ⟨a, orErr_ok h1, ?_⟩
  split at h'
  · next ht => cases h'; exact .inl ⟨ht, rfl⟩
  · obtain ⟨n, h2, h⟩ := bind_ok h'
    cases h
    exact .inr ⟨n, h2, rfl⟩

theorem inv_data {p : LPat} (h : patternOf uri cx (lel r "data".toList sc as kids) = .ok p) :
    ∃ t d, typeOf r (as :: cx) as = .ok t ∧ (∃ u, noAttrsExcept ["type".toList, "datatypeLibrary".toList] as = .ok u) ∧
      dataRestOf uri (as :: cx) kids = .ok d ∧ p = lDataOf t d := by
  unfold patternOf at h
  rw [if_pos rng_pos] at h
  obtain ⟨u, _, h'⟩ := bind_ok h
  clear h
  rw [(patternTags_iff (t := .data)).2 (rfl : "data".toList = _)] at h'
  obtain ⟨t, h1, h⟩ := bind_ok h'
  obtain ⟨u, h2, h⟩ := bind_ok h
  obtain ⟨d, h3, h⟩ := bind_ok h
  cases h
  exact ⟨t, d, h1, ⟨u, h2⟩, h3, rfl⟩

theorem inv_href {h' : Rg × Str} (h : hrefOf r cx as = .ok h') : ∃ a, attr "href".toList as = some a ∧ h' = (a.valueAt, rebasePath (plainAnc cx) a.value) := by
  unfold hrefOf at h
  obtain ⟨a, h1, h⟩ := bind_ok h
  cases h
  exact ⟨a, orErr_ok h1, rfl⟩

theorem inv_external {p : LPat} (h : patternOf uri cx (lel r "externalRef".toList sc as kids) = .ok p) :
    ∃ a, attr "href".toList as = some a ∧ p = .external a.valueAt (rebasePath (plainAnc (as :: cx)) a.value) none := by
  unfold patternOf at h
  rw [if_pos rng_pos] at h
  obtain ⟨u, _, h'⟩ := bind_ok h
  clear h
  rw [(patternTags_iff (t := .externalRef)).2 (rfl : "externalRef".toList = _)] at h'
  obtain ⟨q, h1, h⟩ := bind_ok h'
  cases h
  obtain ⟨a, h2, rfl⟩ := inv_href h1
  exact ⟨a, h2, rfl⟩

theorem inv_grammar {p : LPat} (h : patternOf uri cx (lel r "grammar".toList sc as kids) = .ok p) :
    ∃ is, itemsOf uri (as :: cx) kids = .ok is ∧ p = .grammar r is := by
  unfold patternOf at h
  rw [if_pos rng_pos] at h
  obtain ⟨u, _, h'⟩ := bind_ok h
  clear h
  rw [(patternTags_iff (t := .grammar)).2 (rfl : "grammar".toList = _)] at h'
  obtain ⟨is, h1, h⟩ := bind_ok h'
  cases h
  exact ⟨is, h1, rfl⟩

theorem inv_param {q : LParam} (h : paramOf r as kids = .ok q) :
    ∃ a k ks v, attr "name".toList as = some a ∧ attrName a = .ok q.name ∧ kids = k :: ks ∧ textOf k = some v ∧ q = ⟨r, q.name, v⟩ := by
  unfold paramOf at h
  obtain ⟨a, h1, h⟩ := bind_ok h
  obtain ⟨n, h2, h'⟩ := bind_ok h
  clear h
  cases kids with
  | nil => cases h'
  | cons k ks =>
    obtain ⟨v, h3, h⟩ := bind_ok h'
    cases h
    exact ⟨a, k, ks, v, orErr_ok h1, h2, rfl, orErr_ok h3, rfl⟩

/-! ### elements of a grammar -/

/-- a definition has been read -/
inductive DefOk (uri : Str → UriKind) (cx : LAnc) (r : Rg) (as : List LAttr) (kids : List LNode) : Str → Rg → Str → AssignMethod → LPat → Prop
  | start {how p} : combineOf as = .ok how → (∃ u, noAttrsExcept ["combine".toList] as = .ok u) →
      singleOf uri (as :: cx) "Unexpected element" kids = .ok (some p) → DefOk uri cx r as kids "start".toList (afterLt r 5) "start".toList how p
  | define {how a n ps p} : combineOf as = .ok how → attr "name".toList as = some a → attrName a = .ok n → patternsOf uri (as :: cx) kids = .ok ps →
      foldl1 .seq ps = some p → DefOk uri cx r as kids "define".toList a.valueAt n how p

theorem defOk_start {α : Type} {i : α} {f : AssignMethod → LPat → α}
    (h : (combineOf as >>= fun how => noAttrsExcept ["combine".toList] as >>= fun _ =>
      singleOf uri (as :: cx) "Unexpected element" kids >>= fun p => orErr (.expected r "Child pattern element") p >>= fun p => .ok (f how p)) = .ok i) :
    ∃ how p, DefOk uri cx r as kids "start".toList (afterLt r 5) "start".toList how p ∧ i = f how p := by
  obtain ⟨how, h1, h⟩ := bind_ok h
  obtain ⟨u, h2, h⟩ := bind_ok h
  obtain ⟨o, h3, h⟩ := bind_ok h
  obtain ⟨p, h4, h⟩ := bind_ok h
  cases h
  cases orErr_ok h4
  exact ⟨how, p, .start h1 ⟨u, h2⟩ h3, rfl⟩

theorem defOk_define {α : Type} {i : α} {f : AssignMethod → LAttr → Str → LPat → α}
    (h : (combineOf as >>= fun how => orErr (.expected r "name attribute") (attr "name".toList as) >>= fun a => attrName a >>= fun n =>
      patternsOf uri (as :: cx) kids >>= fun ps => orErr (.expected r "Child pattern element") (foldl1 .seq ps) >>= fun p => .ok (f how a n p)) = .ok i) :
    ∃ how a n p, DefOk uri cx r as kids "define".toList a.valueAt n how p ∧ i = f how a n p := by
  obtain ⟨how, h1, h⟩ := bind_ok h
  obtain ⟨a, h2, h⟩ := bind_ok h
  obtain ⟨n, h3, h⟩ := bind_ok h
  obtain ⟨ps, h4, h⟩ := bind_ok h
  obtain ⟨p, h5, h⟩ := bind_ok h
  cases h
  exact ⟨how, a, n, p, .define h1 (orErr_ok h2) h3 h4 (orErr_ok h5), rfl⟩

/-- an element of a grammar has been read -/
inductive ItemOk (uri : Str → UriKind) (cx : LAnc) (r : Rg) (as : List LAttr) (kids : List LNode) : Str → LItem → Prop
  | define {name r' n how p} : DefOk uri cx r as kids name r' n how p → ItemOk uri cx r as kids name (.define r' n how p)
  | div {is} : itemsOf uri (as :: cx) kids = .ok is → ItemOk uri cx r as kids "div".toList (.div is)
  | include {a os} : attr "href".toList as = some a → overridesOf uri (as :: cx) kids = .ok os →
      ItemOk uri cx r as kids "include".toList (.include a.valueAt (rebasePath (plainAnc (as :: cx)) a.value) none os)

theorem inv_item {i : LItem} (h : itemOf uri cx (lel r name sc as kids) = .ok i) : ItemOk uri cx r as kids name i := by
  unfold itemOf at h
  rw [if_pos rng_pos] at h
  cases ht : itemTags.lookup name with
  | none => rw [ht] at h; cases h
  | some t =>
    rw [ht] at h
    cases itemTags_iff.1 ht
    cases t with
    | start => obtain ⟨how, p, h1, rfl⟩ := defOk_start h; exact .define h1
    | define => obtain ⟨how, a, n, p, h1, rfl⟩ := defOk_define (f := fun how a n p => LItem.define a.valueAt n how p) h; exact .define h1
    | div => obtain ⟨is, h1, h'⟩ := bind_ok h; cases h'; exact .div h1
    | «include» =>
      obtain ⟨q, h1, h'⟩ := bind_ok h
      obtain ⟨os, h2, h''⟩ := bind_ok h'
      cases h''
      obtain ⟨a, h3, rfl⟩ := inv_href h1
      exact .include h3 h2

/-- an element of an include has been read -/
inductive OverrideOk (uri : Str → UriKind) (cx : LAnc) (r : Rg) (as : List LAttr) (kids : List LNode) : Str → LOverride → Prop
  | define {name r' n how p} : DefOk uri cx r as kids name r' n how p → OverrideOk uri cx r as kids name (.define r' n how p)
  | div {os} : overridesOf uri (as :: cx) kids = .ok os → OverrideOk uri cx r as kids "div".toList .div

theorem inv_override {i : LOverride} (h : overrideOf uri cx (lel r name sc as kids) = .ok i) : OverrideOk uri cx r as kids name i := by
  unfold overrideOf at h
  rw [if_pos rng_pos] at h
  cases ht : itemTags.lookup name with
  | none => rw [ht] at h; cases h
  | some t =>
    rw [ht] at h
    cases itemTags_iff.1 ht
    cases t with
    | start => obtain ⟨how, p, h1, rfl⟩ := defOk_start h; exact .define h1
    | define => obtain ⟨how, a, n, p, h1, rfl⟩ := defOk_define (f := fun how a n p => LOverride.define a.valueAt n how p) h; exact .define h1
    | div => obtain ⟨is, h1, h'⟩ := bind_ok h; cases h'; exact .div h1
    | «include» => cases h

/-! ### name classes -/

/-- an optional exception has been read -/
inductive ExOk (cx : LAnc) (kids : List LNode) : Option LNameClass → Prop
  | none : LNoRng kids → ExOk cx kids none
  | some {r' sc' as' kids' post l e} : First kids (lel r' "except".toList sc' as' kids') post → LNoRng post →
      nameClassesOf (as' :: cx) true kids' = .ok l → foldl1 .alt l = some e → ExOk cx kids (some e)

theorem ExOk.skip {k : LNode} {o : Option LNameClass} (hk : isRng k = false) (h : ExOk cx kids o) : ExOk cx (k :: kids) o := by
  cases h with
  | none h => exact .none (noRng_cons hk h)
  | some h1 h2 h3 h4 => exact .some (h1.skip hk) h2 h3 h4

theorem inv_except : ∀ {kids : List LNode} {o : Option LNameClass}, exceptOf cx kids = .ok o → ExOk cx kids o
  | [], o, h => by unfold exceptOf at h; cases h; exact .none nofun
  | .element r ns name sc as kids :: ks, o, h => by
    unfold exceptOf at h
    by_cases hr : isRngNs ns = true
    · rw [if_pos hr] at h
      have hf : First (.element r ns name sc as kids :: ks) (.element r ns name sc as kids) ks := First.head hr
      cases isRngNs_iff.1 hr
      by_cases hn : name = "except".toList
      · rw [if_pos hn] at h
        subst hn
        obtain ⟨u, h1, h⟩ := bind_ok h
        obtain ⟨l, h2, h⟩ := bind_ok h
        obtain ⟨e, h3, h⟩ := bind_ok h
        cases h
        exact .some hf (noMore_ok h1) h2 (orErr_ok h3)
      · rw [if_neg hn] at h; cases h
    · rw [if_neg hr] at h
      exact (inv_except h).skip (by simpa [isRng] using hr)
  | .text _ _ :: ks, o, h => by unfold exceptOf at h; exact (inv_except h).skip rfl
  | .comment _ _ :: ks, o, h => by unfold exceptOf at h; exact (inv_except h).skip rfl
  | .pi _ _ _ :: ks, o, h => by unfold exceptOf at h; exact (inv_except h).skip rfl

/-- a name class has been read -/
inductive NcOk (cx : LAnc) (b : Bool) (r : Rg) (as : List LAttr) (kids : List LNode) : Str → LNameClass → Prop
  | name {c} : qnameElem r (as :: cx) kids = .ok c → NcOk cx b r as kids "name".toList c
  | anyName {o} : b = false → ExOk (as :: cx) kids o → NcOk cx b r as kids "anyName".toList (lAnyNameOf o)
  | nsName {o} : ExOk (as :: cx) kids o → NcOk cx b r as kids "nsName".toList (lNsNameOf (nsOf (as :: cx)) o)
  | choice {l c} : nameClassesOf (as :: cx) b kids = .ok l → foldl1 .alt l = some c → NcOk cx b r as kids "choice".toList c

theorem inv_nameClass {b : Bool} {c : LNameClass} (h : nameClassOf cx b (lel r name sc as kids) = .ok c) : NcOk cx b r as kids name c := by
  unfold nameClassOf at h
  rw [if_pos rng_pos] at h
  cases ht : ncTags.lookup name with
  | none => rw [ht] at h; cases h
  | some t =>
    rw [ht] at h
    cases ncTags_iff.1 ht
    cases t with
    | name => exact .name h
    | anyName =>
      cases b with
      | true => cases h
      | false => obtain ⟨o, h1, h'⟩ := bind_ok h; cases h'; exact .anyName rfl (inv_except h1)
    | nsName => obtain ⟨o, h1, h'⟩ := bind_ok h; cases h'; exact .nsName (inv_except h1)
    | choice => obtain ⟨l, h1, h'⟩ := bind_ok h; exact .choice h1 (orErr_ok h')

inductive QnOk (r : Rg) (cx : LAnc) (kids : List LNode) : LNameClass → Prop
  | prefixed {tr v w ks p l} : kids = .text tr (v ++ ':' :: w) :: ks → ':' ∉ v → NameIn v p → NameIn w l →
      QnOk r cx kids (.cname ⟨r.lo, r.lo + byteLen v⟩ p l)
  | plain {tr v ks l} : kids = .text tr v :: ks → ':' ∉ v → NameIn v l → QnOk r cx kids (.namespaced (nsOf cx) l)

theorem nameIn_trim {v n : Str} (h : NameIn (trim v) n) : NameIn v n := by
  obtain ⟨h1, h2⟩ := h
  exact ⟨trim_iff.1 ((trim_trim v).symm.trans (trim_iff.2 h1)), h2⟩

theorem inv_qname {c : LNameClass} (h : qnameElem r cx kids = .ok c) : (∀ k ∈ kids, ¬ LElement k) ∧ QnOk r cx kids c := by
  unfold qnameElem at h
  obtain ⟨u, h1, h'⟩ := bind_ok h
  refine ⟨noElem_ok h1, ?_⟩
  clear h h1
  cases ht : elemText kids with
  | none => rw [ht] at h'; cases h'
  | some q =>
    obtain ⟨tr, v⟩ := q
    rw [ht] at h'
    dsimp only at h'
    have hkids : ∃ ks, kids = .text tr v :: ks := by
      cases kids with
      | nil => cases ht
      | cons k ks => cases k <;> simp only [elemText, Option.some.injEq, Prod.mk.injEq, reduceCtorEq] at ht; exact ⟨ks, by rw [ht.1, ht.2]⟩
    obtain ⟨ks, rfl⟩ := hkids
    cases hs : splitColon v with
    | some q =>
      obtain ⟨p, l⟩ := q
      rw [hs] at h'
      obtain ⟨rfl, hp⟩ := splitColon_some.1 hs
      obtain ⟨p', h1, h2⟩ := bind_ok h'
      obtain ⟨l', h3, h4⟩ := bind_ok h2
      cases h4
      exact .prefixed rfl hp (nameIn_trim (ncname_ok h1)) (nameIn_trim (ncname_ok h3))
    | none =>
      rw [hs] at h'
      obtain ⟨l', h3, h4⟩ := bind_ok h'
      cases h4
      exact .plain rfl (splitColon_none.1 hs) (ncname_ok h3)

/-! ### lists -/

theorem patterns_ok : ∀ {ks : List LNode} {l : List LPat}, patternsOf uri cx ks = .ok l →
    (∀ k ∈ ks, LRng k → ∃ p ∈ l, patternOf uri cx k = .ok p) ∧ (∀ p ∈ l, ∃ k ∈ ks, LRng k ∧ patternOf uri cx k = .ok p)
  | [], l, h => by unfold patternsOf at h; cases h; exact ⟨nofun, nofun⟩
  | k :: ks, l, h => by
    unfold patternsOf at h
    cases hk : isRng k with
    | true =>
      rw [if_pos hk] at h
      obtain ⟨p, h1, h⟩ := bind_ok h
      obtain ⟨ps, h2, h⟩ := bind_ok h
      cases h
      obtain ⟨ha, hb⟩ := patterns_ok h2
      constructor
      · intro k' hk' hr
        rcases List.mem_cons.1 hk' with rfl | hk'
        · exact ⟨p, List.mem_cons_self .., h1⟩
        · obtain ⟨p', hp', h3⟩ := ha k' hk' hr
          exact ⟨p', List.mem_cons_of_mem _ hp', h3⟩
      · intro p' hp'
        rcases List.mem_cons.1 hp' with rfl | hp'
        · exact ⟨k, List.mem_cons_self .., isRng_iff.1 hk, h1⟩
        · obtain ⟨k', hk', h3⟩ := hb p' hp'
          exact ⟨k', List.mem_cons_of_mem _ hk', h3⟩
    | false =>
      rw [hk] at h
      obtain ⟨ha, hb⟩ := patterns_ok h
      constructor
      · intro k' hk' hr
        rcases List.mem_cons.1 hk' with rfl | hk'
        · exact absurd hr (isRng_false.1 hk)
        · exact ha k' hk' hr
      · intro p' hp'
        obtain ⟨k', hk', h3⟩ := hb p' hp'
        exact ⟨k', List.mem_cons_of_mem _ hk', h3⟩

theorem items_ok : ∀ {ks : List LNode} {l : List LItem}, itemsOf uri cx ks = .ok l →
    (∀ k ∈ ks, LRng k → ∃ p ∈ l, itemOf uri cx k = .ok p) ∧ (∀ p ∈ l, ∃ k ∈ ks, LRng k ∧ itemOf uri cx k = .ok p)
  | [], l, h => by unfold itemsOf at h; cases h; exact ⟨nofun, nofun⟩
  | k :: ks, l, h => by
    unfold itemsOf at h
    cases hk : isRng k with
    | true =>
      rw [if_pos hk] at h
      obtain ⟨p, h1, h⟩ := bind_ok h
      obtain ⟨ps, h2, h⟩ := bind_ok h
      cases h
      obtain ⟨ha, hb⟩ := items_ok h2
      constructor
      · intro k' hk' hr
        rcases List.mem_cons.1 hk' with rfl | hk'
        · exact ⟨p, List.mem_cons_self .., h1⟩
        · obtain ⟨p', hp', h3⟩ := ha k' hk' hr
          exact ⟨p', List.mem_cons_of_mem _ hp', h3⟩
      · intro p' hp'
        rcases List.mem_cons.1 hp' with rfl | hp'
        · exact ⟨k, List.mem_cons_self .., isRng_iff.1 hk, h1⟩
        · obtain ⟨k', hk', h3⟩ := hb p' hp'
          exact ⟨k', List.mem_cons_of_mem _ hk', h3⟩
    | false =>
      rw [hk] at h
      obtain ⟨ha, hb⟩ := items_ok h
      constructor
      · intro k' hk' hr
        rcases List.mem_cons.1 hk' with rfl | hk'
        · exact absurd hr (isRng_false.1 hk)
        · exact ha k' hk' hr
      · intro p' hp'
        obtain ⟨k', hk', h3⟩ := hb p' hp'
        exact ⟨k', List.mem_cons_of_mem _ hk', h3⟩

theorem overrides_ok : ∀ {ks : List LNode} {l : List LOverride}, overridesOf uri cx ks = .ok l →
    (∀ k ∈ ks, LRng k → ∃ p ∈ l, overrideOf uri cx k = .ok p) ∧ (∀ p ∈ l, ∃ k ∈ ks, LRng k ∧ overrideOf uri cx k = .ok p)
  | [], l, h => by unfold overridesOf at h; cases h; exact ⟨nofun, nofun⟩
  | k :: ks, l, h => by
    unfold overridesOf at h
    cases hk : isRng k with
    | true =>
      rw [if_pos hk] at h
      obtain ⟨p, h1, h⟩ := bind_ok h
      obtain ⟨ps, h2, h⟩ := bind_ok h
      cases h
      obtain ⟨ha, hb⟩ := overrides_ok h2
      constructor
      · intro k' hk' hr
        rcases List.mem_cons.1 hk' with rfl | hk'
        · exact ⟨p, List.mem_cons_self .., h1⟩
        · obtain ⟨p', hp', h3⟩ := ha k' hk' hr
          exact ⟨p', List.mem_cons_of_mem _ hp', h3⟩
      · intro p' hp'
        rcases List.mem_cons.1 hp' with rfl | hp'
        · exact ⟨k, List.mem_cons_self .., isRng_iff.1 hk, h1⟩
        · obtain ⟨k', hk', h3⟩ := hb p' hp'
          exact ⟨k', List.mem_cons_of_mem _ hk', h3⟩
    | false =>
      rw [hk] at h
      obtain ⟨ha, hb⟩ := overrides_ok h
      constructor
      · intro k' hk' hr
        rcases List.mem_cons.1 hk' with rfl | hk'
        · exact absurd hr (isRng_false.1 hk)
        · exact ha k' hk' hr
      · intro p' hp'
        obtain ⟨k', hk', h3⟩ := hb p' hp'
        exact ⟨k', List.mem_cons_of_mem _ hk', h3⟩

theorem nameClasses_ok {b : Bool} : ∀ {ks : List LNode} {l : List LNameClass}, nameClassesOf cx b ks = .ok l →
    (∀ k ∈ ks, LRng k → ∃ p ∈ l, nameClassOf cx b k = .ok p) ∧ (∀ p ∈ l, ∃ k ∈ ks, LRng k ∧ nameClassOf cx b k = .ok p)
  | [], l, h => by unfold nameClassesOf at h; cases h; exact ⟨nofun, nofun⟩
  | k :: ks, l, h => by
    unfold nameClassesOf at h
    cases hk : isRng k with
    | true =>
      rw [if_pos hk] at h
      obtain ⟨p, h1, h⟩ := bind_ok h
      obtain ⟨ps, h2, h⟩ := bind_ok h
      cases h
      obtain ⟨ha, hb⟩ := nameClasses_ok h2
      constructor
      · intro k' hk' hr
        rcases List.mem_cons.1 hk' with rfl | hk'
        · exact ⟨p, List.mem_cons_self .., h1⟩
        · obtain ⟨p', hp', h3⟩ := ha k' hk' hr
          exact ⟨p', List.mem_cons_of_mem _ hp', h3⟩
      · intro p' hp'
        rcases List.mem_cons.1 hp' with rfl | hp'
        · exact ⟨k, List.mem_cons_self .., isRng_iff.1 hk, h1⟩
        · obtain ⟨k', hk', h3⟩ := hb p' hp'
          exact ⟨k', List.mem_cons_of_mem _ hk', h3⟩
    | false =>
      rw [hk] at h
      obtain ⟨ha, hb⟩ := nameClasses_ok h
      constructor
      · intro k' hk' hr
        rcases List.mem_cons.1 hk' with rfl | hk'
        · exact absurd hr (isRng_false.1 hk)
        · exact ha k' hk' hr
      · intro p' hp'
        obtain ⟨k', hk', h3⟩ := hb p' hp'
        exact ⟨k', List.mem_cons_of_mem _ hk', h3⟩

theorem single_ok {msg : String} : ∀ {ks : List LNode} {o : Option LPat}, singleOf uri cx msg ks = .ok o →
    (o = none ∧ LNoRng ks) ∨ ∃ k post p, First ks k post ∧ LNoRng post ∧ o = some p ∧ patternOf uri cx k = .ok p
  | [], o, h => by unfold singleOf at h; cases h; exact .inl ⟨rfl, nofun⟩
  | k :: ks, o, h => by
    unfold singleOf at h
    cases hk : isRng k with
    | true =>
      rw [if_pos hk] at h
      obtain ⟨p, h1, h⟩ := bind_ok h
      obtain ⟨u, h2, h⟩ := bind_ok h
      cases h
      exact .inr ⟨k, ks, p, First.head hk, noMore_ok h2, rfl, h1⟩
    | false =>
      rw [hk] at h
      rcases single_ok h with ⟨h1, h2⟩ | ⟨k', post, p, h1, h2⟩
      · exact .inl ⟨h1, noRng_cons hk h2⟩
      · exact .inr ⟨k', post, p, h1.skip hk, h2⟩

/-- the content of a `data` has been read -/
inductive RestOk (uri : Str → UriKind) (cx : LAnc) : List LNode → List LParam × Option LPat → Prop
  | nil : RestOk uri cx [] ([], none)
  | skip {k ks d} : ¬ LRng k → RestOk uri cx ks d → RestOk uri cx (k :: ks) d
  | param {r sc as kids ks q d} : paramOf r as kids = .ok q → RestOk uri cx ks d → RestOk uri cx (lel r "param".toList sc as kids :: ks) (q :: d.1, d.2)
  | except {r sc as kids ks ps e} : patternsOf uri (as :: cx) kids = .ok ps → foldl1 .choice ps = some e → LNoRng ks →
      RestOk uri cx (lel r "except".toList sc as kids :: ks) ([], some e)

theorem inv_rest : ∀ {ks : List LNode} {d : List LParam × Option LPat}, dataRestOf uri cx ks = .ok d → RestOk uri cx ks d
  | [], d, h => by unfold dataRestOf at h; cases h; exact .nil
  | .element r ns name sc as kids :: ks, d, h => by
    unfold dataRestOf at h
    by_cases hr : isRngNs ns = true
    · rw [if_pos hr] at h
      cases isRngNs_iff.1 hr
      by_cases hn : name = "param".toList
      · rw [if_pos hn] at h
        subst hn
        obtain ⟨q, h1, h⟩ := bind_ok h
        obtain ⟨d', h2, h⟩ := bind_ok h
        cases h
        exact .param h1 (inv_rest h2)
      · rw [if_neg hn] at h
        by_cases hn' : name = "except".toList
        · rw [if_pos hn'] at h
          subst hn'
          obtain ⟨ps, h1, h⟩ := bind_ok h
          obtain ⟨e, h2, h⟩ := bind_ok h
          obtain ⟨u, h3, h⟩ := bind_ok h
          cases h
          exact .except h1 (orErr_ok h2) (noMore_ok h3)
        · rw [if_neg hn'] at h; cases h
    · rw [if_neg hr] at h
      exact .skip (fun hc => hr (isRng_iff.2 hc)) (inv_rest h)
  | .text _ _ :: ks, d, h => by unfold dataRestOf at h; exact .skip (fun ⟨_, _, _, _, _, h⟩ => by cases h) (inv_rest h)
  | .comment _ _ :: ks, d, h => by unfold dataRestOf at h; exact .skip (fun ⟨_, _, _, _, _, h⟩ => by cases h) (inv_rest h)
  | .pi _ _ _ :: ks, d, h => by unfold dataRestOf at h; exact .skip (fun ⟨_, _, _, _, _, h⟩ => by cases h) (inv_rest h)

theorem RestOk.after {k : LNode} {post : List LNode} : ∀ {pre : List LNode} {d : List LParam × Option LPat}, OnlyParams pre →
    RestOk uri cx (pre ++ k :: post) d → ∃ d', RestOk uri cx (k :: post) d'
  | [], d, _, h => ⟨d, h⟩
  | x :: pre, d, hp, h => by
    have hp' : OnlyParams pre := fun y hy => hp y (List.mem_cons_of_mem _ hy)
    rw [List.cons_append] at h
    generalize hy : x :: (pre ++ k :: post) = ys at h
    cases h with
    | nil => cases hy
    | skip _ h => cases hy; exact h.after hp'
    | param _ h => cases hy; exact h.after hp'
    | except =>
      cases hy
      obtain ⟨_, _, _, _, h⟩ := hp _ (List.mem_cons_self ..) ⟨_, _, _, _, _, rfl⟩
      injection h with _ _ h
      exact absurd h (by decide)

end
end Verif.LXml
