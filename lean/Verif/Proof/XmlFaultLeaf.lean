import Verif.Spec.XmlSpans
import Verif.Proof.XmlSpans
import Verif.Proof.XmlRead
/-
The errors of the XML reader and the faults of a document: attributes and names.
-/
namespace Verif.LXml
open Verif Verif.At Verif.XS Verif.Rng Verif.RngAt

theorem bind_ok {α β : Type} {x : R α} {f : α → R β} {b : β} (h : (x >>= f) = .ok b) : ∃ a, x = .ok a ∧ f a = .ok b := by
  cases x with
  | ok a => exact ⟨a, rfl, h⟩
  | error e => cases h

theorem bind_error {α β : Type} {x : R α} {f : α → R β} {e : XErr} (h : (x >>= f) = .error e) :
    x = .error e ∨ ∃ a, x = .ok a ∧ f a = .error e := by
  cases x with
  | ok a => exact .inr ⟨a, rfl, h⟩
  | error e' => cases h; exact .inl rfl

theorem orErr_ok {α : Type} {e : XErr} {x : Option α} {a : α} (h : orErr e x = .ok a) : x = some a := by
  cases x <;> cases h; rfl

theorem orErr_error {α : Type} {e e' : XErr} {x : Option α} (h : orErr e x = .error e') : x = none ∧ e' = e := by
  cases x <;> cases h; exact ⟨rfl, rfl⟩

theorem isRng_iff {k : LNode} : isRng k = true ↔ LRng k := by
  cases k with
  | element r ns name sc as kids =>
    simp only [isRng, isRngNs_iff]
    constructor
    · rintro rfl; exact ⟨r, name, sc, as, kids, rfl⟩
    · rintro ⟨_, _, _, _, _, h⟩; injection h
  | _ => simp only [isRng]; exact ⟨fun h => (by cases h), fun ⟨_, _, _, _, _, h⟩ => by cases h⟩

theorem isRng_false {k : LNode} : isRng k = false ↔ ¬ LRng k := by rw [← isRng_iff]; cases isRng k <;> simp

theorem isElem_iff {k : LNode} : isElem k = true ↔ LElement k := by
  cases k with
  | element r ns name sc as kids => exact ⟨fun _ => ⟨r, ns, name, sc, as, kids, rfl⟩, fun _ => rfl⟩
  | _ => simp only [isElem]; exact ⟨fun h => (by cases h), fun ⟨_, _, _, _, _, _, h⟩ => by cases h⟩

theorem isElem_false {k : LNode} : isElem k = false ↔ ¬ LElement k := by rw [← isElem_iff]; cases isElem k <;> simp

theorem find_rng {ks : List LNode} {k : LNode} (h : ks.find? isRng = some k) : ∃ post, First ks k post := by
  rw [List.find?_eq_some_iff_append] at h
  obtain ⟨h1, pre, post, rfl, h2⟩ := h
  exact ⟨post, pre, rfl, fun k hk => isRng_false.1 (by simpa using h2 k hk), isRng_iff.1 h1⟩

theorem first_find {ks post : List LNode} {k : LNode} (h : First ks k post) : ks.find? isRng = some k := by
  obtain ⟨pre, rfl, h1, h2⟩ := h
  rw [List.find?_eq_some_iff_append]
  exact ⟨isRng_iff.2 h2, pre, post, rfl, fun k hk => by simp [isRng_false.2 (h1 k hk)]⟩

theorem find_noRng {ks : List LNode} : ks.find? isRng = none ↔ LNoRng ks := by
  rw [List.find?_eq_none]
  exact forall_congr' fun k => imp_congr_right fun _ => by rw [isRng_iff]

theorem _root_.Verif.RngAt.First.skip {k k' : LNode} {ks post : List LNode} (hk : isRng k = false) (h : First ks k' post) : First (k :: ks) k' post := by
  obtain ⟨pre, rfl, h1, h2⟩ := h
  refine ⟨k :: pre, rfl, ?_, h2⟩
  intro x hx
  rcases List.mem_cons.1 hx with rfl | hx
  · exact isRng_false.1 hk
  · exact h1 x hx

theorem _root_.Verif.RngAt.First.head {k : LNode} {ks : List LNode} (hk : isRng k = true) : First (k :: ks) k ks := ⟨[], rfl, nofun, isRng_iff.1 hk⟩

theorem _root_.Verif.RngAt.First.of_head {k k' : LNode} {ks post : List LNode} (hk : isRng k = true) (h : First (k :: ks) k' post) : k' = k ∧ post = ks := by
  obtain ⟨pre, e, h1, h2⟩ := h
  cases pre with
  | nil => cases e; exact ⟨rfl, rfl⟩
  | cons x pre => cases e; exact absurd (isRng_iff.1 hk) (h1 _ (List.mem_cons_self ..))

theorem _root_.Verif.RngAt.First.of_skip {k k' : LNode} {ks post : List LNode} (hk : isRng k = false) (h : First (k :: ks) k' post) : First ks k' post := by
  obtain ⟨pre, e, h1, h2⟩ := h
  cases pre with
  | nil => cases e; rw [isRng_iff.2 h2] at hk; cases hk
  | cons x pre => cases e; exact ⟨pre, rfl, fun y hy => h1 y (List.mem_cons_of_mem _ hy), h2⟩

theorem _root_.Verif.RngAt.First.none {ks post : List LNode} {k : LNode} (h : First ks k post) (hn : LNoRng ks) : False := by
  obtain ⟨pre, rfl, _, h2⟩ := h
  exact hn k (by simp) h2

/-! ### attributes -/

theorem attr_none {k : Str} {as : List LAttr} : attr k as = none ↔ LNoAttr k as := by
  unfold attr LNoAttr
  rw [List.find?_eq_none]
  constructor
  · intro h a ha hn hk
    exact h a ha (by simp [hn, hk])
  · intro h a ha hc
    simp only [Bool.and_eq_true, beq_iff_eq] at hc
    exact h a ha hc.1 hc.2

theorem attr_some {k : Str} {as : List LAttr} {a : LAttr} : attr k as = some a ↔ LHasAttr k as a := by
  unfold attr LHasAttr
  rw [List.find?_eq_some_iff_append]
  constructor
  · rintro ⟨h1, pre, post, rfl, h2⟩
    simp only [Bool.and_eq_true, beq_iff_eq] at h1
    refine ⟨pre, post, rfl, h1.1, h1.2, ?_⟩
    intro b hb hn hk
    have := h2 b hb
    simp [hn, hk] at this
  · rintro ⟨pre, post, rfl, h1, h2, h3⟩
    refine ⟨by simp [h1, h2], pre, post, rfl, ?_⟩
    intro b hb
    simp only [Bool.not_eq_true', Bool.and_eq_false_iff, beq_eq_false_iff_ne]
    by_cases hn : b.ns = none
    · exact .inr (h3 b hb hn)
    · exact .inl hn

theorem rngAtt_iff {a : LAttr} : rngAtt a = true ↔ Own a := by
  unfold rngAtt Own
  rw [Bool.or_eq_true, isRngNs_iff, Option.isNone_iff_eq_none]
  exact Iff.rfl

theorem noAttrs_error {names : List Str} {as : List LAttr} {e : XErr} (h : noAttrsExcept names as = .error e) :
    ∃ a ∈ as, Own a ∧ a.name ∉ names ∧ e = .unexpected a.at_ "Unexpected attribute" := by
  unfold noAttrsExcept at h
  split at h
  · next a ha =>
    cases h
    have hp := List.find?_some ha
    simp only [Bool.and_eq_true, rngAtt_iff, Bool.not_eq_true'] at hp
    exact ⟨a, List.mem_of_find?_eq_some ha, hp.1, by simpa using hp.2, rfl⟩
  · cases h

theorem noAttrs_ok {names : List Str} {as : List LAttr} {u : Unit} (h : noAttrsExcept names as = .ok u) {a : LAttr} (ha : a ∈ as) (ho : Own a) :
    a.name ∈ names := by
  unfold noAttrsExcept at h
  split at h
  · cases h
  · next hn =>
    rw [List.find?_eq_none] at hn
    have := hn a ha
    simp only [Bool.and_eq_true, rngAtt_iff, Bool.not_eq_true'] at this
    have := fun h => this ⟨ho, h⟩
    simpa using this

theorem nearestAttr_none {k : Str} : ∀ {cx : LAnc}, nearestAttr k cx = none → ∀ a, ¬ LNearest k cx a
  | [], _, _ => nofun
  | as :: up, h, a => by
    unfold nearestAttr at h
    cases ha : attr k as with
    | some b => rw [ha] at h; cases h
    | none =>
      rw [ha] at h
      intro hn
      cases hn with
      | here hh => rw [attr_some.2 hh] at ha; cases ha
      | up _ hu => exact nearestAttr_none h a hu

theorem nearestAttr_some {k : Str} : ∀ {cx : LAnc} {a : LAttr}, nearestAttr k cx = some a ↔ LNearest k cx a
  | [], _ => ⟨nofun, nofun⟩
  | as :: up, a => by
    unfold nearestAttr
    cases ha : attr k as with
    | some b =>
      constructor
      · intro h; cases h; exact .here (attr_some.1 ha)
      · intro h
        cases h with
        | here hh => rw [attr_some.2 hh] at ha; exact ha.symm
        | up hn _ => rw [attr_none.2 hn] at ha; cases ha
    | none =>
      constructor
      · intro h; exact .up (attr_none.1 ha) (nearestAttr_some.1 h)
      · intro h
        cases h with
        | here hh => rw [attr_some.2 hh] at ha; cases ha
        | up _ hu => exact nearestAttr_some.2 hu

theorem nsOf_nil {cx : LAnc} : nsOf cx = [] ↔ ∀ b, LNearest "ns".toList cx b → b.value = [] := by
  unfold nsOf
  cases h : nearestAttr "ns".toList cx with
  | none => exact ⟨fun _ b hb => absurd hb (nearestAttr_none h b), fun _ => rfl⟩
  | some a =>
    constructor
    · intro ha b hb
      rw [nearestAttr_some.2 hb] at h
      cases h
      exact ha
    · intro hb; exact hb a (nearestAttr_some.1 h)

section
variable {uri : Str → UriKind}

theorem std_error {cx : LAnc} {r : Rg} {name : Str} {sc : List (Option Str × Str)} {as : List LAttr} {kids : List LNode} {e : XErr}
    (h : checkStdAttrs uri as = .error e) : Wrong uri .pattern cx (lel r name sc as kids) e := by
  unfold checkStdAttrs at h
  split at h
  · next a ha =>
    split at h
    · cases h
    · next hv =>
      split at h
      · cases h
      · next hu => cases h; exact .fragment (attr_some.1 ha) hv hu
      · next hu => cases h; exact .library (attr_some.1 ha) hv hu
  · cases h

theorem std_ok {as : List LAttr} {u : Unit} (h : checkStdAttrs uri as = .ok u) {a : LAttr} (ha : LHasAttr "datatypeLibrary".toList as a) (hv : a.value ≠ []) :
    uri a.value = .fine := by
  unfold checkStdAttrs at h
  rw [attr_some.2 ha] at h
  simp only [if_neg hv] at h
  split at h
  · assumption
  · cases h
  · cases h

end

theorem noRng_error {kids : List LNode} {e : XErr} (h : noRngChildren kids = .error e) :
    ∃ k post, First kids k post ∧ e = .unexpected k.at_ "Unexpected child element" := by
  unfold noRngChildren at h
  split at h
  · next k hk => cases h; obtain ⟨post, hp⟩ := find_rng hk; exact ⟨k, post, hp, rfl⟩
  · cases h

theorem noRng_ok {kids : List LNode} {u : Unit} (h : noRngChildren kids = .ok u) : LNoRng kids := by
  unfold noRngChildren at h
  split at h
  · cases h
  · next hk => exact find_noRng.1 hk

theorem noMore_error {msg : String} {kids : List LNode} {e : XErr} (h : noMore msg kids = .error e) :
    ∃ k post, First kids k post ∧ e = .unexpected k.at_ msg := by
  unfold noMore at h
  split at h
  · next k hk => cases h; obtain ⟨post, hp⟩ := find_rng hk; exact ⟨k, post, hp, rfl⟩
  · cases h

theorem noMore_ok {msg : String} {kids : List LNode} {u : Unit} (h : noMore msg kids = .ok u) : LNoRng kids := by
  unfold noMore at h
  split at h
  · cases h
  · next hk => exact find_noRng.1 hk

theorem noElem_error {kids : List LNode} {e : XErr} (h : noElemChildren kids = .error e) :
    ∃ pre k post, kids = pre ++ k :: post ∧ (∀ k' ∈ pre, ¬ LElement k') ∧ LElement k ∧ e = .unexpected k.at_ "Unexpected child element" := by
  unfold noElemChildren at h
  split at h
  · next k hk =>
    cases h
    rw [List.find?_eq_some_iff_append] at hk
    obtain ⟨h1, pre, post, rfl, h2⟩ := hk
    exact ⟨pre, k, post, rfl, fun k hk => isElem_false.1 (by simpa using h2 k hk), isElem_iff.1 h1, rfl⟩
  · cases h

theorem noElem_ok {kids : List LNode} {u : Unit} (h : noElemChildren kids = .ok u) : ∀ k ∈ kids, ¬ LElement k := by
  unfold noElemChildren at h
  split at h
  · cases h
  · next hk =>
    rw [List.find?_eq_none] at hk
    exact fun k hm he => hk k hm (isElem_iff.2 he)

/-! ### names -/

theorem scan_error {msg : String} {lo : Nat} : ∀ {s pre : Str} {e : XErr}, scanName msg lo (byteLen pre) s = .error e → (pre = [] ∨ NCName pre) →
    ∃ a c b, pre ++ s = a ++ c :: b ∧ ((a = [] ∧ ¬ NameStart c) ∨ (NCName a ∧ ¬ NameChar c)) ∧
      e = .unexpected ⟨lo + byteLen a, lo + byteLen a + 1⟩ msg
  | [], pre, e, h, _ => by simp [scanName] at h
  | c :: cs, pre, e, h, hp => by
    unfold scanName at h
    have h0 : byteLen pre = 0 ↔ pre = [] := by
      cases pre with
      | nil => simp [byteLen]
      | cons d ds => have := d.utf8Size_pos; simp [byteLen]; omega
    by_cases hpre : pre = []
    · have hz := h0.2 hpre
      rw [if_pos hz] at h
      subst hpre
      cases hc : xmlNcNameStartChar c with
      | true =>
        rw [hc] at h
        have hb : byteLen [] + c.utf8Size = byteLen [c] := by simp [byteLen]
        simp only [if_true, hb] at h
        obtain ⟨a, d, b, h1, h2, h3⟩ := scan_error h (.inr ⟨c, [], rfl, (C31_same_characters c).2.1.1 hc, nofun⟩)
        exact ⟨a, d, b, h1, h2, h3⟩
      | false =>
        rw [hc] at h
        cases h
        exact ⟨[], c, cs, rfl, .inl ⟨rfl, fun hn => by rw [(C31_same_characters c).2.1.2 hn] at hc; cases hc⟩, rfl⟩
    · rw [if_neg (fun e => hpre (h0.1 e))] at h
      have hn : NCName pre := hp.resolve_left hpre
      cases hc : xmlNcNameChar c with
      | true =>
        rw [hc] at h
        have hb : byteLen pre + c.utf8Size = byteLen (pre ++ [c]) := by
          clear h hp h0 hpre hn
          induction pre with
          | nil => simp [byteLen]
          | cons d ds ih => simp only [byteLen, List.cons_append, List.map_cons, List.sum_cons] at ih ⊢; omega
        simp only [if_true, hb] at h
        have hn' : NCName (pre ++ [c]) := by
          obtain ⟨d, ds, rfl, hd, hds⟩ := hn
          refine ⟨d, ds ++ [c], rfl, hd, ?_⟩
          intro x hx
          rcases List.mem_append.1 hx with hx | hx
          · exact hds x hx
          · cases List.mem_singleton.1 hx; exact (C31_same_characters c).2.2.2.1 hc
        obtain ⟨a, d, b, h1, h2, h3⟩ := scan_error h (.inr hn')
        exact ⟨a, d, b, by rw [← h1]; simp, h2, h3⟩
      | false =>
        rw [hc] at h
        cases h
        exact ⟨pre, c, cs, rfl, .inr ⟨hn, fun hx => by rw [(C31_same_characters c).2.2.2.2 hx] at hc; cases hc⟩, rfl⟩

theorem ncname_error {msg : String} {r : Rg} {v : Str} {e : XErr} (h : ncname msg r v = .error e) : BadName msg r v e := by
  unfold ncname at h
  split at h
  · next ht => cases h; exact .empty (trim_iff.1 ht)
  · rcases bind_error h with h | ⟨_, _, h⟩
    · obtain ⟨a, c, b, h1, h2, rfl⟩ := scan_error (pre := []) h (.inl rfl)
      exact .char (trim_iff.1 h1) h2
    · cases h

theorem ncname_ok {msg : String} {r : Rg} {v n : Str} (h : ncname msg r v = .ok n) : NameIn v n :=
  xmlNcname_iff.1 ((ncname_plain msg r v).symm.trans (by rw [h]; rfl))

theorem badName_not {msg : String} {r : Rg} {v n : Str} {e : XErr} (hb : BadName msg r v e) (h : NameIn v n) : False := by
  obtain ⟨ht, d, ds, rfl, hd, hds⟩ := h
  cases hb with
  | empty h => cases trimmed_fun ht h
  | @char a c b h1 h2 =>
    have e := trimmed_fun ht h1
    rcases h2 with ⟨rfl, h2⟩ | ⟨⟨x, xs, rfl, hx, hxs⟩, h2⟩
    · cases e; exact h2 hd
    · cases e; exact h2 (hds c (by simp))

/-- white space around a name does not matter -/
theorem badName_trim {msg : String} {r : Rg} {v : Str} {e : XErr} (h : BadName msg r (trim v) e) : BadName msg r v e := by
  cases h with
  | empty h => exact .empty (trim_iff.1 ((trim_trim v).symm.trans (trim_iff.2 h)))
  | char h1 h2 => exact .char (trim_iff.1 ((trim_trim v).symm.trans (trim_iff.2 h1))) h2

theorem attrName_error {a : LAttr} {e : XErr} (h : attrName a = .error e) : BadIdent a e := by
  unfold attrName at h
  split at h
  · next hc => cases h; exact .colon (by simpa using hc)
  · exact .name (badName_trim (ncname_error h))

theorem attrName_ok {a : LAttr} {n : Str} (h : attrName a = .ok n) : NameIn a.value n :=
  attrNcname_iff.1 ((attrName_plain a).symm.trans (by rw [h]; rfl))

theorem badIdent_not {a : LAttr} {n : Str} {e : XErr} (hb : BadIdent a e) (h : NameIn a.value n) : False := by
  cases hb with
  | colon hc => exact nameIn_no_colon h hc
  | name hb => exact badName_not hb h

theorem qnameAttr_error {sc : List (Option Str × Str)} {cx : LAnc} {a : LAttr} {e : XErr} (h : qnameAttr sc cx a = .error e) : BadQName sc a e := by
  unfold qnameAttr at h
  cases hs : splitColon a.value with
  | some q =>
    obtain ⟨v, w⟩ := q
    obtain ⟨h1, h2⟩ := splitColon_some.1 hs
    rw [hs] at h
    rcases bind_error h with h | ⟨u, _, h⟩
    · obtain ⟨hn, rfl⟩ := orErr_error h
      refine .pre h1 h2 (trim_iff.1 rfl) fun u hu => ?_
      rw [lookupNs_iff.2 hu] at hn; cases hn
    · rcases bind_error h with h | ⟨l, _, h⟩
      · exact .loc h1 h2 (ncname_error h)
      · cases h
  | none =>
    rw [hs] at h
    rcases bind_error h with h | ⟨u, _, h⟩
    · exact .plain (splitColon_none.1 hs) (ncname_error h)
    · cases h

theorem split_unique {v w v' w' : Str} (h : v ++ ':' :: w = v' ++ ':' :: w') (h1 : ':' ∉ v) (h2 : ':' ∉ v') : v = v' ∧ w = w' := by
  have e1 : splitColon (v ++ ':' :: w) = some (v, w) := splitColon_some.2 ⟨rfl, h1⟩
  have e2 : splitColon (v' ++ ':' :: w') = some (v', w') := splitColon_some.2 ⟨rfl, h2⟩
  rw [h, e2] at e1
  cases e1; exact ⟨rfl, rfl⟩

theorem qnameAttr_not {sc : List (Option Str × Str)} {cx : LAnc} {a : LAttr} {c : LNameClass} {e : XErr} (h : qnameAttr sc cx a = .ok c) (hb : BadQName sc a e) : False := by
  unfold qnameAttr at h
  cases hs : splitColon a.value with
  | some q =>
    obtain ⟨v, w⟩ := q
    obtain ⟨h1, h2⟩ := splitColon_some.1 hs
    rw [hs] at h
    obtain ⟨u, hu, h⟩ := bind_ok h
    obtain ⟨l, hl, h⟩ := bind_ok h
    cases hb with
    | pre h3 h4 h5 h6 =>
      rw [h1] at h3
      obtain ⟨rfl, rfl⟩ := split_unique h3 h2 h4
      have := lookupNs_iff.1 (orErr_ok hu)
      rw [trim_iff.2 h5] at this
      exact h6 _ this
    | loc h3 h4 h5 =>
      rw [h1] at h3
      obtain ⟨rfl, rfl⟩ := split_unique h3 h2 h4
      exact badName_not h5 (ncname_ok hl)
    | plain h3 => exact h3 (by rw [h1]; simp)
  | none =>
    rw [hs] at h
    obtain ⟨l, hl, h⟩ := bind_ok h
    have hn := splitColon_none.1 hs
    cases hb with
    | pre h3 => exact hn (by rw [h3]; simp)
    | loc h3 => exact hn (by rw [h3]; simp)
    | plain _ h3 => exact badName_not h3 (ncname_ok hl)

theorem xmlns_error {uri : Str → UriKind} {cx : LAnc} {r : Rg} {sc : List (Option Str × Str)} {as : List LAttr} {kids : List LNode} {a : LAttr} {e : XErr}
    (ha : LHasAttr "name".toList as a) (h : checkXmlns (as :: cx) a = .error e) : Wrong uri .pattern cx (lel r "attribute".toList sc as kids) e := by
  unfold checkXmlns at h
  split at h
  · next hx => cases h; exact .xmlns ha hx.1 (nsOf_nil.1 hx.2)
  · split at h
    · next hx =>
      cases h
      obtain ⟨b, hb, hv⟩ := Option.map_eq_some_iff.1 hx
      exact .xmlnsNs ha (nearestAttr_some.1 hb) hv
    · cases h

theorem xmlns_ok {cx : LAnc} {a : LAttr} {u : Unit} (h : checkXmlns cx a = .ok u) :
    ¬ (a.value = "xmlns".toList ∧ ∀ b, LNearest "ns".toList cx b → b.value = []) ∧
      ∀ b, LNearest "ns".toList cx b → b.value ≠ "http://www.w3.org/2000/xmlns".toList := by
  unfold checkXmlns at h
  split at h
  · cases h
  · next h1 =>
    split at h
    · cases h
    · next h2 =>
      refine ⟨fun hc => h1 ⟨hc.1, nsOf_nil.2 hc.2⟩, ?_⟩
      intro b hb hv
      exact h2 (by rw [nearestAttr_some.2 hb, Option.map_some, hv])

/-! ### texts -/

theorem elemText_none {kids : List LNode} : elemText kids = none ↔ kids = [] ∨ ∃ k ks, kids = k :: ks ∧ ∀ r s, k ≠ .text r s := by
  cases kids with
  | nil => simp [elemText]
  | cons k ks => cases k <;> simp [elemText]

theorem textOf_none {k : LNode} : textOf k = none ↔ NoText k := by
  cases k with
  | element r ns name sc as kids =>
    simp only [textOf, Option.map_eq_none_iff, elemText_none]
    constructor
    · rintro (rfl | ⟨k, ks, rfl, h⟩)
      · exact .empty
      · exact .other h
    · intro h
      cases h with
      | empty => exact .inl rfl
      | other h => exact .inr ⟨_, _, rfl, h⟩
  | text r s => exact ⟨nofun, nofun⟩
  | comment r s => exact ⟨nofun, nofun⟩
  | pi r t v => exact ⟨fun _ => .pi, fun _ => rfl⟩

end Verif.LXml
