import Verif.Proof.XmlRead
/-
The XML reader reads exactly the elements of the specification: patterns, grammars, schemas.
-/
namespace Verif.XS
open Verif Verif.Rng

section
variable {ok : Str → Bool}

theorem isRng_lit : isRngNs (some "http://relaxng.org/ns/structure/1.0".toList) = true := isRngNs_iff.2 rfl

/-- acceptable library URIs -/
abbrev OkP (ok : Str → Bool) : Str → Prop := fun v => ok v = true

/-- the path computed by the reader -/
abbrev Rebased : Anc → Str → Str → Prop := fun cx h r => r = rebasePath cx h

/-- the children of an element are read as specified -/
structure KidsOk (ok : Str → Bool) (cx : Anc) (kids : List TNode) : Prop where
  pats : ∀ ps, patterns ok cx kids = some ps ↔ Rng.Pats (OkP ok) Rebased cx kids ps
  named : ∀ c ps, (nameChild cx kids = some c ∧ afterName ok cx kids = some ps) ↔ NameThen (OkP ok) Rebased cx kids c ps
  data : ∀ ps r, dataRest ok cx kids = some (ps, r) ↔
    (r = none ∧ Params kids ps ∨ ∃ e, r = some e ∧ ParamsExc (OkP ok) Rebased cx kids ps e)
  items : ∀ is, items ok cx kids = some is ↔ Rng.Items (OkP ok) Rebased cx kids is
  overrides : ∀ os, overrides ok cx kids = some os ↔ Rng.Overrides (OkP ok) Rebased cx kids os

theorem joined_of {β : Type} {op : SPattern → SPattern → SPattern} {f : SPattern → β} {x : Option (List SPattern)} {q : β} :
    (x >>= fun ps => foldl1 op ps >>= fun p => some (f p)) = some q ↔ ∃ ps p, x = some ps ∧ Joined op ps p ∧ f p = q := by
  constructor
  · intro h
    obtain ⟨ps, h1, h2⟩ := Option.bind_eq_some_iff.1 h
    obtain ⟨p, h3, h4⟩ := bind_pure_iff.1 h2
    exact ⟨ps, p, h1, foldl1_iff.1 h3, h4⟩
  · rintro ⟨ps, p, h1, h2, h3⟩
    exact Option.bind_eq_some_iff.2 ⟨ps, h1, bind_pure_iff.2 ⟨p, foldl1_iff.2 h2, h3⟩⟩

theorem joined_plain {op : SPattern → SPattern → SPattern} {x : Option (List SPattern)} {q : SPattern} :
    (x >>= fun ps => foldl1 op ps) = some q ↔ ∃ ps, x = some ps ∧ Joined op ps q := by
  constructor
  · intro h
    obtain ⟨ps, h1, h2⟩ := Option.bind_eq_some_iff.1 h
    exact ⟨ps, h1, foldl1_iff.1 h2⟩
  · rintro ⟨ps, h1, h2⟩
    exact Option.bind_eq_some_iff.2 ⟨ps, h1, foldl1_iff.2 h2⟩

theorem guard_iff {β : Type} {x : Option Unit} {P : Prop} (hx : ∀ u, x = some u ↔ P) {y : Option β} {q : β} :
    (x >>= fun _ => y) = some q ↔ P ∧ y = some q := by
  cases x with
  | none => exact ⟨fun h => (by cases h), fun h => by cases (hx ()).2 h.1⟩
  | some u => exact ⟨fun h => ⟨(hx ()).1 rfl, h⟩, fun h => h.2⟩

theorem noAtts' {names : List Str} {as : List TAttr} : ∀ u, noAttsExcept names as = some u ↔ OnlyAttrs names as :=
  fun _ => noAttsExcept_iff

theorem pattern_read {cx : Anc} {name : Str} {sc : List (Option Str × Str)} {as : List TAttr} {kids : List TNode} {p : SPattern}
    (hk : KidsOk ok (as :: cx) kids) (h : pattern ok cx (el name sc as kids) = some p) :
    Rng.Pat (OkP ok) Rebased cx (el name sc as kids) p := by
  rw [pattern, if_pos isRng_lit, guard_iff (fun _ => checkStandardAttrs_iff)] at h
  obtain ⟨hlib, h⟩ := h
  refine .mk hlib ?_
  split at h
  next ht =>
    cases patternTags_iff.1 ht
    obtain ⟨ho, h⟩ := (guard_iff noAtts').1 h
    cases ha : att "name".toList as with
    | some v =>
      simp only [ha] at h
      obtain ⟨c, h1, h⟩ := Option.bind_eq_some_iff.1 h
      obtain ⟨ps, p, h2, h3, rfl⟩ := joined_of.1 h
      exact .element ho (att_some.1 ha) (qnameAtt_iff.1 h1) ((hk.pats ps).1 h2) h3
    | none =>
      simp only [ha] at h
      obtain ⟨c, h1, h⟩ := Option.bind_eq_some_iff.1 h
      obtain ⟨ps, p, h2, h3, rfl⟩ := joined_of.1 h
      obtain ⟨pre, k, post, rfl, g1, g2, g3⟩ := (hk.named c ps).1 ⟨h1, h2⟩
      exact .elementNc ho (att_none.1 ha) g1 g2 g3 h3
  next ht =>
    cases patternTags_iff.1 ht
    obtain ⟨ho, h⟩ := (guard_iff noAtts').1 h
    cases ha : att "name".toList as with
    | some v =>
      simp only [ha] at h
      obtain ⟨hx, h⟩ := (guard_iff (fun _ => xmlnsCheck_iff)).1 h
      obtain ⟨c, h1, h⟩ := Option.bind_eq_some_iff.1 h
      obtain ⟨ps, h2, h⟩ := Option.bind_eq_some_iff.1 h
      obtain ⟨p, h3, rfl⟩ := bind_pure_iff.1 h
      exact .attribute ho (att_some.1 ha) hx (qnameAtt_iff.1 h1) ((hk.pats ps).1 h2) (attContent_iff.1 h3)
    | none =>
      simp only [ha] at h
      obtain ⟨c, h1, h⟩ := Option.bind_eq_some_iff.1 h
      obtain ⟨ps, h2, h⟩ := Option.bind_eq_some_iff.1 h
      obtain ⟨p, h3, rfl⟩ := bind_pure_iff.1 h
      obtain ⟨pre, k, post, rfl, g1, g2, g3⟩ := (hk.named c ps).1 ⟨h1, h2⟩
      exact .attributeNc ho (att_none.1 ha) g1 g2 g3 (attContent_iff.1 h3)
  next ht =>
    cases patternTags_iff.1 ht
    obtain ⟨ps, p, h2, h3, rfl⟩ := joined_of.1 h
    exact .group ((hk.pats ps).1 h2) h3
  next ht =>
    cases patternTags_iff.1 ht
    obtain ⟨ps, h2, h3⟩ := joined_plain.1 h
    exact .interleave ((hk.pats ps).1 h2) h3
  next ht =>
    cases patternTags_iff.1 ht
    obtain ⟨ps, h2, h3⟩ := joined_plain.1 h
    exact .choice ((hk.pats ps).1 h2) h3
  next ht =>
    cases patternTags_iff.1 ht
    obtain ⟨ps, p, h2, h3, rfl⟩ := joined_of.1 h
    exact .optional ((hk.pats ps).1 h2) h3
  next ht =>
    cases patternTags_iff.1 ht
    obtain ⟨ps, p, h2, h3, rfl⟩ := joined_of.1 h
    exact .zeroOrMore ((hk.pats ps).1 h2) h3
  next ht =>
    cases patternTags_iff.1 ht
    obtain ⟨ps, p, h2, h3, rfl⟩ := joined_of.1 h
    exact .oneOrMore ((hk.pats ps).1 h2) h3
  next ht =>
    cases patternTags_iff.1 ht
    obtain ⟨ps, p, h2, h3, rfl⟩ := joined_of.1 h
    exact .list ((hk.pats ps).1 h2) h3
  next ht =>
    cases patternTags_iff.1 ht
    obtain ⟨ps, p, h2, h3, rfl⟩ := joined_of.1 h
    exact .mixed ((hk.pats ps).1 h2) h3
  next ht =>
    cases patternTags_iff.1 ht
    obtain ⟨n, h1, rfl⟩ := bind_pure_iff.1 h
    exact .ref (refName_iff.1 h1)
  next ht =>
    cases patternTags_iff.1 ht
    obtain ⟨n, h1, rfl⟩ := bind_pure_iff.1 h
    exact .parentRef (refName_iff.1 h1)
  next ht =>
    cases patternTags_iff.1 ht
    obtain ⟨rfl, h1, h2⟩ := bare_iff.1 h
    exact .empty h1 h2
  next ht =>
    cases patternTags_iff.1 ht
    obtain ⟨rfl, h1, h2⟩ := bare_iff.1 h
    exact .text h1 h2
  next ht =>
    cases patternTags_iff.1 ht
    obtain ⟨rfl, h1, h2⟩ := bare_iff.1 h
    exact .notAllowed h1 h2
  next ht =>
    cases patternTags_iff.1 ht
    obtain ⟨h1, t, s, h2, h3, rfl⟩ := valueType_iff.1 h
    rcases h3 with ⟨rfl, rfl⟩ | h3
    · exact .valueEmpty h2
    · exact .value h1 h2 h3
  next ht =>
    cases patternTags_iff.1 ht
    obtain ⟨t, h1, h⟩ := Option.bind_eq_some_iff.1 h
    obtain ⟨ho, h⟩ := (guard_iff noAtts').1 h
    obtain ⟨⟨ps, r⟩, h2, rfl⟩ := bind_pure_iff.1 h
    rcases (hk.data ps r).1 h2 with ⟨rfl, h3⟩ | ⟨e, rfl, pre, esc, eas, ekids, post, es, rfl, g1, g2, g3, g4⟩
    · exact .data ho (dataType_iff.1 h1) h3
    · exact .dataExcept ho (dataType_iff.1 h1) g1 g2 g3 g4
  next ht =>
    cases patternTags_iff.1 ht
    obtain ⟨n, h1, rfl⟩ := bind_pure_iff.1 h
    obtain ⟨v, h2, rfl⟩ := href_iff.1 h1
    exact .externalRef h2 rfl
  next ht =>
    cases patternTags_iff.1 ht
    obtain ⟨n, h1, rfl⟩ := bind_pure_iff.1 h
    exact .grammar ((hk.items n).1 h1)
  next => cases h

theorem read_pattern {cx : Anc} {name : Str} {sc : List (Option Str × Str)} {as : List TAttr} {kids : List TNode} {p : SPattern}
    (hk : KidsOk ok (as :: cx) kids) (h : Rng.Pat (OkP ok) Rebased cx (el name sc as kids) p) :
    pattern ok cx (el name sc as kids) = some p := by
  cases h with
  | mk hlib hb =>
    rw [pattern, if_pos isRng_lit, guard_iff (fun _ => checkStandardAttrs_iff)]
    refine ⟨hlib, ?_⟩
    cases hb with
    | element ho ha hn hp hj =>
      rw [show patternTags.lookup "element".toList = some Tag.element from patternTags_iff.2 rfl]
      refine (guard_iff noAtts').2 ⟨ho, ?_⟩
      simp only [att_some.2 ha]
      exact Option.bind_eq_some_iff.2 ⟨_, qnameAtt_iff.2 hn, joined_of.2 ⟨_, _, (hk.pats _).2 hp, hj, rfl⟩⟩
    | elementNc ho ha h1 h2 hp hj =>
      rw [show patternTags.lookup "element".toList = some Tag.element from patternTags_iff.2 rfl]
      refine (guard_iff noAtts').2 ⟨ho, ?_⟩
      simp only [att_none.2 ha]
      have := (hk.named _ _).2 ⟨_, _, _, rfl, h1, h2, hp⟩
      exact Option.bind_eq_some_iff.2 ⟨_, this.1, joined_of.2 ⟨_, _, this.2, hj, rfl⟩⟩
    | «attribute» ho ha hx hn hp hj =>
      rw [show patternTags.lookup "attribute".toList = some Tag.attribute from patternTags_iff.2 rfl]
      refine (guard_iff noAtts').2 ⟨ho, ?_⟩
      simp only [att_some.2 ha]
      refine (guard_iff (fun _ => xmlnsCheck_iff)).2 ⟨hx, ?_⟩
      exact Option.bind_eq_some_iff.2 ⟨_, qnameAtt_iff.2 hn, Option.bind_eq_some_iff.2 ⟨_, (hk.pats _).2 hp,
        bind_pure_iff.2 ⟨_, attContent_iff.2 hj, rfl⟩⟩⟩
    | attributeNc ho ha h1 h2 hp hj =>
      rw [show patternTags.lookup "attribute".toList = some Tag.attribute from patternTags_iff.2 rfl]
      refine (guard_iff noAtts').2 ⟨ho, ?_⟩
      simp only [att_none.2 ha]
      have := (hk.named _ _).2 ⟨_, _, _, rfl, h1, h2, hp⟩
      exact Option.bind_eq_some_iff.2 ⟨_, this.1, Option.bind_eq_some_iff.2 ⟨_, this.2,
        bind_pure_iff.2 ⟨_, attContent_iff.2 hj, rfl⟩⟩⟩
    | group hp hj =>
      rw [show patternTags.lookup "group".toList = some Tag.group from patternTags_iff.2 rfl]
      exact joined_of.2 ⟨_, _, (hk.pats _).2 hp, hj, rfl⟩
    | «optional» hp hj =>
      rw [show patternTags.lookup "optional".toList = some Tag.optional from patternTags_iff.2 rfl]
      exact joined_of.2 ⟨_, _, (hk.pats _).2 hp, hj, rfl⟩
    | zeroOrMore hp hj =>
      rw [show patternTags.lookup "zeroOrMore".toList = some Tag.zeroOrMore from patternTags_iff.2 rfl]
      exact joined_of.2 ⟨_, _, (hk.pats _).2 hp, hj, rfl⟩
    | oneOrMore hp hj =>
      rw [show patternTags.lookup "oneOrMore".toList = some Tag.oneOrMore from patternTags_iff.2 rfl]
      exact joined_of.2 ⟨_, _, (hk.pats _).2 hp, hj, rfl⟩
    | list hp hj =>
      rw [show patternTags.lookup "list".toList = some Tag.list from patternTags_iff.2 rfl]
      exact joined_of.2 ⟨_, _, (hk.pats _).2 hp, hj, rfl⟩
    | mixed hp hj =>
      rw [show patternTags.lookup "mixed".toList = some Tag.mixed from patternTags_iff.2 rfl]
      exact joined_of.2 ⟨_, _, (hk.pats _).2 hp, hj, rfl⟩
    | interleave hp hj =>
      rw [show patternTags.lookup "interleave".toList = some Tag.interleave from patternTags_iff.2 rfl]
      exact joined_plain.2 ⟨_, (hk.pats _).2 hp, hj⟩
    | choice hp hj =>
      rw [show patternTags.lookup "choice".toList = some Tag.choice from patternTags_iff.2 rfl]
      exact joined_plain.2 ⟨_, (hk.pats _).2 hp, hj⟩
    | ref h1 =>
      rw [show patternTags.lookup "ref".toList = some Tag.ref from patternTags_iff.2 rfl]
      exact bind_pure_iff.2 ⟨_, refName_iff.2 h1, rfl⟩
    | parentRef h1 =>
      rw [show patternTags.lookup "parentRef".toList = some Tag.parentRef from patternTags_iff.2 rfl]
      exact bind_pure_iff.2 ⟨_, refName_iff.2 h1, rfl⟩
    | empty h1 h2 =>
      rw [show patternTags.lookup "empty".toList = some Tag.empty from patternTags_iff.2 rfl]
      exact bare_iff.2 ⟨rfl, h1, h2⟩
    | text h1 h2 =>
      rw [show patternTags.lookup "text".toList = some Tag.text from patternTags_iff.2 rfl]
      exact bare_iff.2 ⟨rfl, h1, h2⟩
    | notAllowed h1 h2 =>
      rw [show patternTags.lookup "notAllowed".toList = some Tag.notAllowed from patternTags_iff.2 rfl]
      exact bare_iff.2 ⟨rfl, h1, h2⟩
    | value h1 h2 h3 =>
      rw [show patternTags.lookup "value".toList = some Tag.value from patternTags_iff.2 rfl]
      exact valueType_iff.2 ⟨h1, _, _, h2, .inr h3, rfl⟩
    | valueEmpty h2 =>
      rw [show patternTags.lookup "value".toList = some Tag.value from patternTags_iff.2 rfl]
      exact valueType_iff.2 ⟨fun x hx => (by cases hx), _, _, h2, .inl ⟨rfl, rfl⟩, rfl⟩
    | data ho ht hp =>
      rw [show patternTags.lookup "data".toList = some Tag.data from patternTags_iff.2 rfl]
      refine Option.bind_eq_some_iff.2 ⟨_, dataType_iff.2 ht, (guard_iff noAtts').2 ⟨ho, ?_⟩⟩
      exact bind_pure_iff.2 ⟨_, (hk.data _ _).2 (.inl ⟨rfl, hp⟩), rfl⟩
    | dataExcept ho ht hp h1 h2 h3 =>
      rw [show patternTags.lookup "data".toList = some Tag.data from patternTags_iff.2 rfl]
      refine Option.bind_eq_some_iff.2 ⟨_, dataType_iff.2 ht, (guard_iff noAtts').2 ⟨ho, ?_⟩⟩
      exact bind_pure_iff.2 ⟨_, (hk.data _ _).2 (.inr ⟨_, rfl, _, _, _, _, _, _, rfl, hp, h1, h2, h3⟩), rfl⟩
    | externalRef h1 h2 =>
      rw [show patternTags.lookup "externalRef".toList = some Tag.externalRef from patternTags_iff.2 rfl]
      exact bind_pure_iff.2 ⟨_, href_iff.2 ⟨_, h1, h2⟩, rfl⟩
    | grammar h1 =>
      rw [show patternTags.lookup "grammar".toList = some Tag.grammar from patternTags_iff.2 rfl]
      exact bind_pure_iff.2 ⟨_, (hk.items _).2 h1, rfl⟩

theorem item_node {cx : Anc} {name : Str} {sc : List (Option Str × Str)} {as : List TAttr} {kids : List TNode} {i : SItem}
    (hk : KidsOk ok (as :: cx) kids) : item ok cx (el name sc as kids) = some i ↔
      Rng.Item (OkP ok) Rebased cx (el name sc as kids) i := by
  rw [item, if_pos isRng_lit]
  constructor
  · intro h
    split at h
    next ht =>
      cases itemTags_iff.1 ht
      obtain ⟨m, h1, h⟩ := Option.bind_eq_some_iff.1 h
      obtain ⟨ho, h⟩ := (guard_iff noAtts').1 h
      obtain ⟨ps, h2, h⟩ := Option.bind_eq_some_iff.1 h
      obtain ⟨p, h3, rfl⟩ := bind_pure_iff.1 h
      cases only_iff.1 h3
      exact .start (combine_iff.1 h1) ho ((hk.pats _).1 h2)
    next ht =>
      cases itemTags_iff.1 ht
      obtain ⟨m, h1, h⟩ := Option.bind_eq_some_iff.1 h
      obtain ⟨v, h2, h⟩ := Option.bind_eq_some_iff.1 h
      obtain ⟨n, h3, h⟩ := Option.bind_eq_some_iff.1 h
      obtain ⟨ps, p, h4, h5, rfl⟩ := joined_of.1 h
      exact .define (combine_iff.1 h1) (att_some.1 h2) (attrNcname_iff.1 h3) ((hk.pats _).1 h4) h5
    next ht =>
      cases itemTags_iff.1 ht
      obtain ⟨is, h1, rfl⟩ := bind_pure_iff.1 h
      exact .div ((hk.items is).1 h1)
    next ht =>
      cases itemTags_iff.1 ht
      obtain ⟨p, h1, h⟩ := Option.bind_eq_some_iff.1 h
      obtain ⟨os, h2, rfl⟩ := bind_pure_iff.1 h
      obtain ⟨v, h3, rfl⟩ := href_iff.1 h1
      exact .include h3 rfl ((hk.overrides os).1 h2)
    next => cases h
  · intro h
    cases h with
    | start h1 h2 h3 =>
      rw [show itemTags.lookup "start".toList = some ItemTag.start from itemTags_iff.2 rfl]
      exact Option.bind_eq_some_iff.2 ⟨_, combine_iff.2 h1, (guard_iff noAtts').2 ⟨h2,
        Option.bind_eq_some_iff.2 ⟨_, (hk.pats _).2 h3, rfl⟩⟩⟩
    | define h1 h2 h3 h4 h5 =>
      rw [show itemTags.lookup "define".toList = some ItemTag.define from itemTags_iff.2 rfl]
      exact Option.bind_eq_some_iff.2 ⟨_, combine_iff.2 h1, Option.bind_eq_some_iff.2 ⟨_, att_some.2 h2,
        Option.bind_eq_some_iff.2 ⟨_, attrNcname_iff.2 h3, joined_of.2 ⟨_, _, (hk.pats _).2 h4, h5, rfl⟩⟩⟩⟩
    | div h1 =>
      rw [show itemTags.lookup "div".toList = some ItemTag.div from itemTags_iff.2 rfl]
      exact bind_pure_iff.2 ⟨_, (hk.items _).2 h1, rfl⟩
    | «include» h1 hp h2 =>
      rw [show itemTags.lookup "include".toList = some ItemTag.include from itemTags_iff.2 rfl]
      exact Option.bind_eq_some_iff.2 ⟨_, href_iff.2 ⟨_, h1, hp⟩, bind_pure_iff.2 ⟨_, (hk.overrides _).2 h2, rfl⟩⟩

theorem override_node {cx : Anc} {name : Str} {sc : List (Option Str × Str)} {as : List TAttr} {kids : List TNode} {i : SOverride}
    (hk : KidsOk ok (as :: cx) kids) : override ok cx (el name sc as kids) = some i ↔
      Rng.Override (OkP ok) Rebased cx (el name sc as kids) i := by
  rw [override, if_pos isRng_lit]
  constructor
  · intro h
    split at h
    next ht =>
      cases itemTags_iff.1 ht
      obtain ⟨m, h1, h⟩ := Option.bind_eq_some_iff.1 h
      obtain ⟨ho, h⟩ := (guard_iff noAtts').1 h
      obtain ⟨ps, h2, h⟩ := Option.bind_eq_some_iff.1 h
      obtain ⟨p, h3, rfl⟩ := bind_pure_iff.1 h
      cases only_iff.1 h3
      exact .start (combine_iff.1 h1) ho ((hk.pats _).1 h2)
    next ht =>
      cases itemTags_iff.1 ht
      obtain ⟨m, h1, h⟩ := Option.bind_eq_some_iff.1 h
      obtain ⟨v, h2, h⟩ := Option.bind_eq_some_iff.1 h
      obtain ⟨n, h3, h⟩ := Option.bind_eq_some_iff.1 h
      obtain ⟨ps, p, h4, h5, rfl⟩ := joined_of.1 h
      exact .define (combine_iff.1 h1) (att_some.1 h2) (attrNcname_iff.1 h3) ((hk.pats _).1 h4) h5
    next ht =>
      cases itemTags_iff.1 ht
      obtain ⟨os, h1, h2⟩ := Option.bind_eq_some_iff.1 h
      cases h2
      exact .div ((hk.overrides os).1 h1)
    next => cases h
  · intro h
    cases h with
    | start h1 h2 h3 =>
      rw [show itemTags.lookup "start".toList = some ItemTag.start from itemTags_iff.2 rfl]
      exact Option.bind_eq_some_iff.2 ⟨_, combine_iff.2 h1, (guard_iff noAtts').2 ⟨h2,
        Option.bind_eq_some_iff.2 ⟨_, (hk.pats _).2 h3, rfl⟩⟩⟩
    | define h1 h2 h3 h4 h5 =>
      rw [show itemTags.lookup "define".toList = some ItemTag.define from itemTags_iff.2 rfl]
      exact Option.bind_eq_some_iff.2 ⟨_, combine_iff.2 h1, Option.bind_eq_some_iff.2 ⟨_, att_some.2 h2,
        Option.bind_eq_some_iff.2 ⟨_, attrNcname_iff.2 h3, joined_of.2 ⟨_, _, (hk.pats _).2 h4, h5, rfl⟩⟩⟩⟩
    | div h1 =>
      rw [show itemTags.lookup "div".toList = some ItemTag.div from itemTags_iff.2 rfl]
      exact Option.bind_eq_some_iff.2 ⟨_, (hk.overrides _).2 h1, rfl⟩

/-! ### lists of children -/

theorem dataRest_skip {cx : Anc} {k : TNode} {ks : List TNode} (h : ¬ IsRng k) : dataRest ok cx (k :: ks) = dataRest ok cx ks := by
  cases k with
  | element ns name sc as kids =>
    rw [dataRest, if_neg]
    rw [isRngNs_iff]
    rintro rfl
    exact h isRng_el
  | _ =>
    rw [dataRest]
    intro _ _ _ _ _ h
    cases h

theorem kidsOk_nil (cx : Anc) : KidsOk ok cx [] where
  pats ps := by
    rw [patterns]
    exact ⟨fun h => (by cases h; exact .nil), fun h => (by cases h; rfl)⟩
  named c ps := by
    rw [nameChild]
    refine ⟨fun h => (by cases h.1), fun ⟨pre, _, _, h, _⟩ => ?_⟩
    cases pre <;> cases h
  data ps r := by
    rw [dataRest]
    constructor
    · intro h
      cases h
      exact .inl ⟨rfl, .nil⟩
    · rintro (⟨rfl, h⟩ | ⟨e, rfl, pre, _, _, _, _, _, h, _⟩)
      · cases h; rfl
      · cases pre <;> cases h
  items is := by
    rw [items]
    exact ⟨fun h => (by cases h; exact .nil), fun h => (by cases h; rfl)⟩
  overrides is := by
    rw [overrides]
    exact ⟨fun h => (by cases h; exact .nil), fun h => (by cases h; rfl)⟩

theorem kidsOk_skip {cx : Anc} {k : TNode} {ks : List TNode} (hn : ¬ IsRng k) (h : KidsOk ok cx ks) : KidsOk ok cx (k :: ks) := by
  have hf : ¬ isRngNode k = true := fun e => hn (isRngNode_iff.1 e)
  exact {
    pats := fun ps => by rw [patterns, if_neg hf, pats_skip hn]; exact h.pats ps
    named := fun c ps => by rw [nameChild, afterName, if_neg hf, if_neg hf, nameThen_skip hn]; exact h.named c ps
    data := fun ps r => by rw [dataRest_skip hn, h.data ps r]; simp only [params_skip hn, paramsExc_skip hn]
    items := fun ps => by rw [items, if_neg hf, items_skip hn]; exact h.items ps
    overrides := fun ps => by rw [overrides, if_neg hf, overrides_skip hn]; exact h.overrides ps }

theorem cons_of {α β : Type} {x : Option α} {y : Option (List α)} {P : α → Prop} {Q : List α → Prop} (hx : ∀ a, x = some a ↔ P a)
    (hy : ∀ as, y = some as ↔ Q as) {l : List α} :
    (x >>= fun a => y >>= fun as => some (a :: as)) = some l ↔ ∃ a as, l = a :: as ∧ P a ∧ Q as := by
  constructor
  · intro h
    obtain ⟨a, h1, h2⟩ := Option.bind_eq_some_iff.1 h
    obtain ⟨as, h3, rfl⟩ := bind_pure_iff.1 h2
    exact ⟨a, as, rfl, (hx a).1 h1, (hy as).1 h3⟩
  · rintro ⟨a, as, rfl, h1, h2⟩
    exact Option.bind_eq_some_iff.2 ⟨a, (hx a).2 h1, bind_pure_iff.2 ⟨as, (hy as).2 h2, rfl⟩⟩

theorem dataRest_rng {cx : Anc} {name : Str} {sc : List (Option Str × Str)} {as : List TAttr} {kids ks : List TNode}
    (hk : ∀ cx, KidsOk ok cx kids) (h : KidsOk ok cx ks) (ps : List Param) (r : Option SPattern) :
    dataRest ok cx (el name sc as kids :: ks) = some (ps, r) ↔ (r = none ∧ Params (el name sc as kids :: ks) ps ∨
      ∃ e, r = some e ∧ ParamsExc (OkP ok) Rebased cx (el name sc as kids :: ks) ps e) := by
  rw [dataRest, if_pos isRng_lit]
  by_cases hp : name = "param".toList
  · rw [if_pos hp]
    subst hp
    simp only [paramsExc_param, params_el, true_and]
    constructor
    · intro hh
      obtain ⟨q, h1, h2⟩ := Option.bind_eq_some_iff.1 hh
      obtain ⟨⟨ps', r'⟩, h3, h4⟩ := bind_pure_iff.1 h2
      cases h4
      obtain ⟨v, n, s, g1, g2, g3, rfl⟩ := param_iff.1 h1
      rcases (h.data ps' r').1 h3 with ⟨rfl, h5⟩ | ⟨e, rfl, h5⟩
      · exact .inl ⟨rfl, v, n, s, ps', rfl, g1, g2, g3, h5⟩
      · exact .inr ⟨e, rfl, v, n, s, ps', rfl, g1, g2, g3, h5⟩
    · rintro (⟨rfl, v, n, s, ps', rfl, g1, g2, g3, h5⟩ | ⟨e, rfl, v, n, s, ps', rfl, g1, g2, g3, h5⟩)
      · exact Option.bind_eq_some_iff.2 ⟨_, param_iff.2 ⟨v, n, s, g1, g2, g3, rfl⟩,
          bind_pure_iff.2 ⟨(ps', none), (h.data ps' none).2 (.inl ⟨rfl, h5⟩), rfl⟩⟩
      · exact Option.bind_eq_some_iff.2 ⟨_, param_iff.2 ⟨v, n, s, g1, g2, g3, rfl⟩,
          bind_pure_iff.2 ⟨(ps', some e), (h.data ps' (some e)).2 (.inr ⟨e, rfl, h5⟩), rfl⟩⟩
  · rw [if_neg hp]
    simp only [paramsExc_other hp, params_el, hp, false_and, and_false, false_or]
    by_cases hx : name = "except".toList
    · rw [if_pos hx]
      constructor
      · intro hh
        obtain ⟨es, h1, hh⟩ := Option.bind_eq_some_iff.1 hh
        obtain ⟨e, h2, hh⟩ := Option.bind_eq_some_iff.1 hh
        obtain ⟨_, h3, hh⟩ := Option.bind_eq_some_iff.1 hh
        cases hh
        exact ⟨e, rfl, hx, rfl, noRngKids_iff.1 h3, es, ((hk _).pats es).1 h1, foldl1_iff.1 h2⟩
      · rintro ⟨e, rfl, _, rfl, h1, es, h2, h3⟩
        exact Option.bind_eq_some_iff.2 ⟨es, ((hk _).pats es).2 h2, Option.bind_eq_some_iff.2 ⟨e, foldl1_iff.2 h3,
          Option.bind_eq_some_iff.2 ⟨(), noRngKids_iff.2 h1, rfl⟩⟩⟩
    · rw [if_neg hx]
      constructor
      · intro hh; cases hh
      · rintro ⟨e, _, he, _⟩
        exact absurd he hx

theorem kidsOk_rng {cx : Anc} {name : Str} {sc : List (Option Str × Str)} {as : List TAttr} {kids ks : List TNode}
    (hk : ∀ cx, KidsOk ok cx kids) (h : KidsOk ok cx ks) : KidsOk ok cx (el name sc as kids :: ks) := by
  have hf : isRngNode (el name sc as kids) = true := isRngNode_iff.2 isRng_el
  have hr : IsRng (el name sc as kids) := isRng_el
  exact {
    pats := fun ps => by
      rw [patterns, if_pos hf, pats_cons hr]
      exact cons_of (β := Unit) (fun p => ⟨pattern_read (hk _), read_pattern (hk _)⟩) h.pats
    named := fun c ps => by
      rw [nameChild, afterName, if_pos hf, if_pos hf, nameThen_cons hr, nameClass_iff, h.pats]
    data := dataRest_rng hk h
    items := fun is => by
      rw [items, if_pos hf, items_cons hr]
      exact cons_of (β := Unit) (fun p => item_node (hk _)) h.items
    overrides := fun is => by
      rw [overrides, if_pos hf, overrides_cons hr]
      exact cons_of (β := Unit) (fun p => override_node (hk _)) h.overrides }

mutual
theorem kidsOk_of : ∀ (n : TNode) (cx : Anc), KidsOk ok cx (match n with | .element _ _ _ _ kids => kids | _ => [])
  | .text _, cx => kidsOk_nil cx
  | .comment _, cx => kidsOk_nil cx
  | .pi _ _, cx => kidsOk_nil cx
  | .element _ _ _ _ kids, cx => kidsOk kids cx
theorem kidsOk : ∀ (ks : List TNode) (cx : Anc), KidsOk ok cx ks
  | [], cx => kidsOk_nil cx
  | .text s :: ks, cx => kidsOk_skip (fun ⟨_, _, _, _, h⟩ => (by cases h)) (kidsOk ks cx)
  | .comment s :: ks, cx => kidsOk_skip (fun ⟨_, _, _, _, h⟩ => (by cases h)) (kidsOk ks cx)
  | .pi s v :: ks, cx => kidsOk_skip (fun ⟨_, _, _, _, h⟩ => (by cases h)) (kidsOk ks cx)
  | .element ns name sc as kids :: ks, cx => by
    have h1 := kidsOk ks cx
    have h2 := kidsOk_of (.element ns name sc as kids)
    by_cases hn : IsRng (.element ns name sc as kids)
    · obtain ⟨_, _, _, _, e⟩ := hn
      cases e
      exact kidsOk_rng h2 h1
    · exact kidsOk_skip hn h1
end

theorem pattern_iff {n : TNode} {cx : Anc} {p : SPattern} :
    pattern ok cx n = some p ↔ Rng.Pat (OkP ok) Rebased cx n p := by
  by_cases hn : IsRng n
  · obtain ⟨_, _, _, _, rfl⟩ := hn
    exact ⟨pattern_read (kidsOk _ _), read_pattern (kidsOk _ _)⟩
  · refine ⟨fun h => ?_, fun h => absurd (pat_isRng h) hn⟩
    cases n with
    | element ns name sc as kids =>
      have hf : ¬ isRngNs ns = true := fun e => hn (isRngNode_iff.1 e)
      rw [pattern, if_neg hf] at h
      cases h
    | _ => simp [pattern] at h

/-- the reader and the specification agree -/
theorem parseXml_iff {root : TNode} {s : SSchema} : parseXml ok root = some s ↔ Rng.Schema (OkP ok) Rebased root s := by
  cases root with
  | element ns name sc as kids =>
    unfold parseXml
    simp only []
    by_cases hns : isRngNs ns = true
    · rw [if_pos hns]
      cases isRngNs_iff.1 hns
      by_cases hg : name = "grammar".toList
      · rw [if_pos hg]
        subst hg
        constructor
        · intro h
          obtain ⟨is, h1, rfl⟩ := bind_pure_iff.1 h
          exact .grammar (((kidsOk kids [as]).items is).1 h1)
        · intro h
          cases h with
          | grammar h1 => exact bind_pure_iff.2 ⟨_, ((kidsOk kids [as]).items _).2 h1, rfl⟩
          | pattern hne => exact absurd rfl hne
      · rw [if_neg hg]
        constructor
        · intro h
          obtain ⟨p, h1, rfl⟩ := bind_pure_iff.1 h
          exact .pattern hg (pattern_iff.1 h1)
        · intro h
          cases h with
          | grammar h1 => exact absurd rfl hg
          | pattern _ h1 => exact bind_pure_iff.2 ⟨_, pattern_iff.2 h1, rfl⟩
    · rw [if_neg hns]
      refine ⟨fun h => (by cases h), fun h => ?_⟩
      cases h <;> exact absurd (isRngNs_iff.2 rfl) hns
  | _ => exact ⟨fun h => (by cases h), fun h => (by cases h)⟩

end
end Verif.XS
