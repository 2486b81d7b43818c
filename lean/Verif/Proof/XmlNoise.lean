import Verif.Proof.XmlMain
import Verif.Proof.XmlPath
/-
What the XML reader ignores.
-/
namespace Verif.XS
open Verif Verif.Rng

theorem distinct_eq {as : List TAttr} (h : Distinct as) {a b : TAttr} (ha : a ∈ as) (hb : b ∈ as) (h1 : a.ns = b.ns)
    (h2 : a.name = b.name) : a = b := by
  induction h with
  | nil => cases ha
  | @cons c l hc _ ih =>
    rcases List.mem_cons.1 ha with e1 | ha1
    · rcases List.mem_cons.1 hb with e2 | hb1
      · rw [e1, e2]
      · exact absurd ⟨e1 ▸ h1, e1 ▸ h2⟩ (hc b hb1)
    · rcases List.mem_cons.1 hb with e2 | hb1
      · exact absurd ⟨e2 ▸ h1.symm, e2 ▸ h2.symm⟩ (hc a ha1)
      · exact ih ha1 hb1

theorem find_same {as as' : List TAttr} (h : SameAttrs as as') {ns : Option Str} {k : Str} (hk : ∀ v, Known ⟨ns, k, v⟩) :
    (as.find? fun a => a.ns == ns && a.name == k) = as'.find? fun a => a.ns == ns && a.name == k := by
  obtain ⟨h1, h2, h3⟩ := h
  have key : ∀ {l l' : List TAttr}, Distinct l' → (∀ a, Known a → a ∈ l → a ∈ l') → ∀ a,
      (l.find? fun a => a.ns == ns && a.name == k) = some a → (l'.find? fun a => a.ns == ns && a.name == k) = some a := by
    intro l l' hd hm a ha
    have hp := List.find?_some ha
    simp only [Bool.and_eq_true, beq_iff_eq] at hp
    have hmem := List.mem_of_find?_eq_some ha
    have hkn : Known a := by
      obtain ⟨n, m, v⟩ := a
      obtain ⟨rfl, rfl⟩ := hp
      exact hk v
    have hmem' := hm a hkn hmem
    cases hf : l'.find? fun a => a.ns == ns && a.name == k with
    | none =>
      rw [List.find?_eq_none] at hf
      exact absurd (by simp [hp.1, hp.2]) (hf a hmem')
    | some b =>
      have hq := List.find?_some hf
      simp only [Bool.and_eq_true, beq_iff_eq] at hq
      rw [distinct_eq hd (List.mem_of_find?_eq_some hf) hmem' (hq.1.trans hp.1.symm) (hq.2.trans hp.2.symm)]
  cases hf : as.find? fun a => a.ns == ns && a.name == k with
  | some a => exact (key h2 (fun a hk => (h3 a hk).1) a hf).symm
  | none =>
    cases hf' : as'.find? fun a => a.ns == ns && a.name == k with
    | none => rfl
    | some a =>
      rw [key h1 (fun a hk => (h3 a hk).2) a hf'] at hf
      cases hf

theorem att_same {as as' : List TAttr} (h : SameAttrs as as') (k : Str) : att k as = att k as' := by
  unfold att
  rw [find_same h fun v => .inl rfl]

theorem baseAtt_same {as as' : List TAttr} (h : SameAttrs as as') : baseAtt as = baseAtt as' := by
  unfold baseAtt
  rw [find_same h (ns := some "http://www.w3.org/XML/1998/namespace".toList) (k := "base".toList) fun v => .inr (.inr ⟨rfl, rfl⟩)]

theorem option_unit {x y : Option Unit} {P Q : Prop} (hx : ∀ u, x = some u ↔ P) (hy : ∀ u, y = some u ↔ Q) (h : P ↔ Q) : x = y := by
  cases x with
  | none =>
    cases y with
    | none => rfl
    | some u => cases (hx ()).2 (h.2 ((hy u).1 rfl))
  | some u =>
    cases y with
    | none => cases (hy ()).2 (h.1 ((hx u).1 rfl))
    | some u => rfl

theorem noAtts_same {as as' : List TAttr} (h : SameAttrs as as') (names : List Str) : noAttsExcept names as = noAttsExcept names as' := by
  refine option_unit noAtts' noAtts' ⟨fun ho a ha hk => ?_, fun ho a ha hk => ?_⟩
  · exact ho a ((h.2.2 a (hk.imp id .inl)).2 ha) hk
  · exact ho a ((h.2.2 a (hk.imp id .inl)).1 ha) hk

/-- contexts that differ in foreign attributes only -/
inductive SameCx : Anc → Anc → Prop
  | nil : SameCx [] []
  | cons {as as' cx cx'} : SameAttrs as as' → SameCx cx cx' → SameCx (as :: cx) (as' :: cx')

theorem nearest_same {cx cx' : Anc} (h : SameCx cx cx') (k : Str) : nearest k cx = nearest k cx' := by
  induction h with
  | nil => rfl
  | cons ha _ ih => unfold nearest; rw [att_same ha, ih]

theorem getNs_same {cx cx' : Anc} (h : SameCx cx cx') : getNs cx = getNs cx' := by unfold getNs; rw [nearest_same h]
theorem getLib_same {cx cx' : Anc} (h : SameCx cx cx') : getLib cx = getLib cx' := by unfold getLib; rw [nearest_same h]

theorem rebase_same {cx cx' : Anc} (h : SameCx cx cx') (r : Str) : rebasePath cx r = rebasePath cx' r := by
  have : cx.filterMap baseAtt = cx'.filterMap baseAtt := by
    induction h with
    | nil => rfl
    | cons ha _ ih => rw [List.filterMap_cons, List.filterMap_cons, baseAtt_same ha, ih]
  unfold rebasePath
  rw [this]

theorem std_same {as as' : List TAttr} (h : SameAttrs as as') (ok : Str → Bool) : checkStandardAttrs ok as = checkStandardAttrs ok as' := by
  unfold checkStandardAttrs; rw [att_same h]

theorem xmlns_same {cx cx' : Anc} (h : SameCx cx cx') (v : Str) : xmlnsCheck cx v = xmlnsCheck cx' v := by
  unfold xmlnsCheck; rw [nearest_same h]

theorem qnameAtt_same {cx cx' : Anc} (h : SameCx cx cx') {sc sc' : List (Option Str × Str)} {v : Str}
    (hs : ':' ∈ v → ∀ p u, PrefixIn sc p u ↔ PrefixIn sc' p u) : qnameAtt sc cx v = qnameAtt sc' cx' v := by
  unfold qnameAtt
  cases hc : splitColon v with
  | none => simp only [getNs_same h]
  | some ab =>
    obtain ⟨a, b⟩ := ab
    have hv := (splitColon_some.1 hc).1
    have : lookupNs sc (trim a) = lookupNs sc' (trim a) := by
      apply Option.ext
      intro u
      rw [lookupNs_iff, lookupNs_iff]
      exact hs (by rw [hv]; simp) _ _
    simp only [this]

theorem qnameEl_same {cx cx' : Anc} (h : SameCx cx cx') (kids : List TNode) : qnameEl cx kids = qnameEl cx' kids := by
  unfold qnameEl
  simp only [getNs_same h]

theorem dataType_same {cx cx' : Anc} (h : SameCx cx cx') {as as' : List TAttr} (ha : SameAttrs as as') : dataType cx as = dataType cx' as' := by
  unfold dataType
  simp only [getLib_same h, att_same ha]

theorem value_same {cx cx' : Anc} (h : SameCx cx cx') {as as' : List TAttr} (ha : SameAttrs as as') (kids : List TNode) :
    value cx as kids = value cx' as' kids := by
  unfold value
  simp only [getLib_same h, att_same ha]

theorem href_same {cx cx' : Anc} (h : SameCx cx cx') {as as' : List TAttr} (ha : SameAttrs as as') : href cx as = href cx' as' := by
  unfold href
  simp only [rebase_same h, att_same ha]

theorem combine_same {as as' : List TAttr} (ha : SameAttrs as as') : combine as = combine as' := by
  unfold combine
  rw [att_same ha]

/-- lists of children that are read alike -/
structure Alike (ok : Str → Bool) (cx cx' : Anc) (ks ks' : List TNode) : Prop where
  rng : noRngKids ks = noRngKids ks'
  ncs : ∀ b, nameClasses cx b ks = nameClasses cx' b ks'
  exc : exceptNc cx ks = exceptNc cx' ks'
  child : nameChild cx ks = nameChild cx' ks'
  pats : patterns ok cx ks = patterns ok cx' ks'
  after : afterName ok cx ks = afterName ok cx' ks'
  data : dataRest ok cx ks = dataRest ok cx' ks'
  its : items ok cx ks = items ok cx' ks'
  ovs : overrides ok cx ks = overrides ok cx' ks'

variable {ok : Str → Bool}

theorem Alike.symm {cx cx' : Anc} {ks ks' : List TNode} (h : Alike ok cx cx' ks ks') : Alike ok cx' cx ks' ks :=
  ⟨h.rng.symm, fun b => (h.ncs b).symm, h.exc.symm, h.child.symm, h.pats.symm, h.after.symm, h.data.symm, h.its.symm, h.ovs.symm⟩

theorem Alike.skip {cx cx' : Anc} {k : TNode} {ks ks' : List TNode} (hn : ¬ IsRng k) (h : Alike ok cx cx' ks ks') :
    Alike ok cx cx' (k :: ks) ks' := by
  have hf : ¬ isRngNode k = true := fun e => hn (isRngNode_iff.1 e)
  exact {
    rng := by
      rw [← h.rng]
      unfold noRngKids
      rw [List.any_cons]
      simp [hf]
    ncs := fun b => by rw [nameClasses, if_neg hf]; exact h.ncs b
    exc := by rw [exceptNc_skip hn]; exact h.exc
    child := by rw [nameChild, if_neg hf]; exact h.child
    pats := by rw [patterns, if_neg hf]; exact h.pats
    after := by rw [afterName, if_neg hf]; exact h.after
    data := by rw [dataRest_skip hn]; exact h.data
    its := by rw [items, if_neg hf]; exact h.its
    ovs := by rw [overrides, if_neg hf]; exact h.ovs }

theorem Alike.nil (cx cx' : Anc) : Alike ok cx cx' [] [] := by
  constructor <;> first | rfl | (intros; simp only [nameClasses]) | simp only [exceptNc, nameChild, patterns, afterName, dataRest, items, overrides]

section
variable {cx cx' : Anc} {name : Str} {sc sc' : List (Option Str × Str)} {as as' : List TAttr} {kids kids' : List TNode}

/-- elements that are read alike -/
structure AlikeEl (ok : Str → Bool) (cx cx' : Anc) (name : Str) (sc sc' : List (Option Str × Str)) (as as' : List TAttr)
    (kids kids' : List TNode) : Prop where
  nc : ∀ b, nameClass cx b (el name sc as kids) = nameClass cx' b (el name sc' as' kids')
  pat : pattern ok cx (el name sc as kids) = pattern ok cx' (el name sc' as' kids')
  itm : item ok cx (el name sc as kids) = item ok cx' (el name sc' as' kids')
  ovr : override ok cx (el name sc as kids) = override ok cx' (el name sc' as' kids')
  prm : name = "param".toList → param as kids = param as' kids'
  exceptNc : name = "except".toList → ∀ b, nameClasses (as :: cx) b kids = nameClasses (as' :: cx') b kids'
  exceptPat : name = "except".toList → patterns ok (as :: cx) kids = patterns ok (as' :: cx') kids'

theorem alikeEl_element (ht : ¬ TextOnly name) (ha : SameAttrs as as') (hs : SameScope as sc sc') (hc : SameCx cx cx')
    (hk : Alike ok (as :: cx) (as' :: cx') kids kids') : AlikeEl ok cx cx' name sc sc' as as' kids kids' := by
  have hcx : SameCx (as :: cx) (as' :: cx') := .cons ha hc
  exact {
    nc := fun b => by
      rw [nameClass, nameClass]
      have e : ncTags.lookup name ≠ some .name := fun e => ht (.inr (.inr (ncTags_iff.1 e)))
      cases hl : ncTags.lookup name with
      | none => rfl
      | some t =>
        cases t with
        | name => exact absurd hl e
        | _ => simp only [hk.exc, hk.ncs b, getNs_same hcx]
    pat := by
      rw [pattern, pattern, if_pos isRng_lit, if_pos isRng_lit, std_same ha]
      congr 1
      funext _
      have e : patternTags.lookup name ≠ some .value := fun e => ht (.inl (patternTags_iff.1 e))
      have hq : ∀ v, att "name".toList as' = some v → qnameAtt sc (as :: cx) v = qnameAtt sc' (as' :: cx') v := by
        intro v hv
        rw [← att_same ha] at hv
        exact qnameAtt_same hcx (hs v (att_some.1 hv))
      cases hl : patternTags.lookup name with
      | none => rfl
      | some t =>
        cases t with
        | value => exact absurd hl e
        | element =>
          simp only [noAtts_same ha, att_same ha, hk.child, hk.after, hk.pats]
          cases hn : att "name".toList as' with
          | none => rfl
          | some v => simp only [hq v hn]
        | «attribute» =>
          simp only [noAtts_same ha, att_same ha, hk.child, hk.after, hk.pats]
          cases hn : att "name".toList as' with
          | none => rfl
          | some v => simp only [hq v hn, xmlns_same hcx]
        | ref => simp only [refName, hk.rng, att_same ha]
        | parentRef => simp only [refName, hk.rng, att_same ha]
        | empty => simp only [bare, hk.rng, noAtts_same ha]
        | text => simp only [bare, hk.rng, noAtts_same ha]
        | notAllowed => simp only [bare, hk.rng, noAtts_same ha]
        | data => simp only [dataType_same hcx ha, noAtts_same ha, hk.data]
        | externalRef => simp only [href_same hcx ha]
        | grammar => simp only [hk.its]
        | _ => simp only [hk.pats]
    itm := by
      rw [item, item, if_pos isRng_lit, if_pos isRng_lit]
      simp only [combine_same ha, noAtts_same ha, att_same ha, hk.pats, hk.its, hk.ovs, href_same hcx ha]
    ovr := by
      rw [override, override, if_pos isRng_lit, if_pos isRng_lit]
      simp only [combine_same ha, noAtts_same ha, att_same ha, hk.pats, hk.ovs]
    prm := fun e => absurd (.inr (.inl e)) ht
    exceptNc := fun _ b => hk.ncs b
    exceptPat := fun _ => hk.pats }

theorem lookup_textOnly (ht : TextOnly name) : itemTags.lookup name = none ∧ name ≠ "except".toList ∧
    (ncTags.lookup name = none ∨ ncTags.lookup name = some .name) ∧
    (patternTags.lookup name = none ∨ patternTags.lookup name = some .value) := by
  rcases ht with rfl | rfl | rfl <;> decide

theorem alikeEl_textOnly (ht : TextOnly name) (ha : SameAttrs as as') (hc : SameCx cx cx') :
    AlikeEl ok cx cx' name sc sc' as as' kids kids := by
  have hcx : SameCx (as :: cx) (as' :: cx') := .cons ha hc
  obtain ⟨h1, h2, h3, h4⟩ := lookup_textOnly ht
  exact {
    nc := fun b => by
      rw [nameClass, nameClass]
      rcases h3 with h3 | h3 <;> rw [h3]
      simp only [qnameEl_same hcx]
    pat := by
      rw [pattern, pattern, if_pos isRng_lit, if_pos isRng_lit, std_same ha]
      congr 1
      funext _
      rcases h4 with h4 | h4 <;> rw [h4]
      simp only [value_same hcx ha]
    itm := by rw [item, item, h1]
    ovr := by rw [override, override, h1]
    prm := fun _ => by unfold param; simp only [att_same ha]
    exceptNc := fun e => absurd e h2
    exceptPat := fun e => absurd e h2 }

theorem Alike.cons {ks ks' : List TNode} (he : AlikeEl ok cx cx' name sc sc' as as' kids kids') (h : Alike ok cx cx' ks ks') :
    Alike ok cx cx' (el name sc as kids :: ks) (el name sc' as' kids' :: ks') := by
  have hf : isRngNode (el name sc as kids) = true := isRngNode_iff.2 isRng_el
  have hf' : isRngNode (el name sc' as' kids') = true := isRngNode_iff.2 isRng_el
  exact {
    rng := by
      unfold noRngKids
      rw [List.any_cons, List.any_cons, hf, hf']
      rfl
    ncs := fun b => by rw [nameClasses, nameClasses, if_pos hf, if_pos hf', he.nc, h.ncs]
    exc := by
      rw [exceptNc, exceptNc, if_pos isRng_lit, if_pos isRng_lit, h.rng]
      by_cases e : name = "except".toList
      · rw [if_pos e, if_pos e, he.exceptNc e]
      · rw [if_neg e, if_neg e]
    child := by rw [nameChild, nameChild, if_pos hf, if_pos hf', he.nc]
    pats := by rw [patterns, patterns, if_pos hf, if_pos hf', he.pat, h.pats]
    after := by rw [afterName, afterName, if_pos hf, if_pos hf', h.pats]
    data := by
      rw [dataRest, dataRest, if_pos isRng_lit, if_pos isRng_lit, h.data, h.rng]
      by_cases hp : name = "param".toList
      · rw [if_pos hp, if_pos hp, he.prm hp]
      · rw [if_neg hp, if_neg hp]
        by_cases e : name = "except".toList
        · rw [if_pos e, if_pos e, he.exceptPat e]
        · rw [if_neg e, if_neg e]
    its := by rw [items, items, if_pos hf, if_pos hf', he.itm, h.its]
    ovs := by rw [overrides, overrides, if_pos hf, if_pos hf', he.ovr, h.ovs] }

end

theorem alike_of_same {ks ks' : List TNode} (h : SameBut ks ks') : ∀ {cx cx' : Anc}, SameCx cx cx' → Alike ok cx cx' ks ks' := by
  induction h with
  | nil => intro cx cx' _; exact .nil cx cx'
  | element ht ha hs _ _ ih1 ih2 =>
    intro cx cx' hc
    exact .cons (alikeEl_element ht ha hs hc (ih1 (.cons ha hc))) (ih2 hc)
  | textOnly ht ha _ ih =>
    intro cx cx' hc
    exact .cons (alikeEl_textOnly ht ha hc) (ih hc)
  | left hn _ ih => intro cx cx' hc; exact (ih hc).skip hn
  | right hn _ ih => intro cx cx' hc; exact ((ih hc).symm.skip hn).symm

/-- a document element is either kept or both are foreign -/
theorem parse_same {root root' : TNode} (h : SameBut [root] [root']) : parseXml ok root = parseXml ok root' := by
  have foreign : ∀ {r : TNode}, ¬ IsRng r → parseXml ok r = none := by
    intro r hr
    cases r with
    | element ns name sc as kids =>
      have hf : ¬ isRngNs ns = true := fun e => hr (isRngNode_iff.1 e)
      unfold parseXml
      simp only [if_neg hf]
    | _ => rfl
  have empty : ∀ {r : TNode}, SameBut [r] [] → ¬ IsRng r := by
    intro r hr
    cases hr with
    | left hn => exact hn
  have empty' : ∀ {r : TNode}, SameBut [] [r] → ¬ IsRng r := by
    intro r hr
    cases hr with
    | right hn => exact hn
  cases h with
  | @element name sc sc' as as' kids kids' _ _ ht ha hs hk =>
    have hA := alike_of_same (ok := ok) hk (SameCx.cons ha .nil)
    have hE := alikeEl_element (cx := []) (cx' := []) (sc := sc) (sc' := sc') ht ha hs .nil hA
    unfold parseXml
    simp only [if_pos isRng_lit, hA.its, hE.pat]
  | @textOnly name sc sc' as as' kids _ _ ht ha =>
    have hE := alikeEl_textOnly (ok := ok) (cx := []) (cx' := []) (sc := sc) (sc' := sc') (kids := kids) ht ha .nil
    have hg : name ≠ "grammar".toList := by rcases ht with rfl | rfl | rfl <;> decide
    unfold parseXml
    simp only [if_pos isRng_lit, if_neg hg, hE.pat]
  | left hn h => rw [foreign hn, foreign (empty' h)]
  | right hn h => rw [foreign hn, foreign (empty h)]

end Verif.XS
