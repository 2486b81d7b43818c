import Verif.Proof.XmlOk
import Verif.Proof.XmlPath
import Verif.Props.CompactSpans
/-
The positions of the syntax tree of an XML schema document.
-/
namespace Verif.LXml
open Verif Verif.At Verif.XS Verif.Rng Verif.RngAt

section
variable {uri : Str → UriKind} {root : LNode}

/-- all positions of a tree are right -/
def Good (root : LNode) (t : LTree) : Prop := ∀ b m r, PartOf t b → b.Has m r → Stands root m r

/-- what is directly inside is right, and what stands here is right -/
theorem Good.mk {t : LTree} (h1 : ∀ m r, t.Has m r → Stands root m r) (h2 : ∀ b, At.Inside t b → Good root b) : Good root t := by
  intro b m r hb hm
  cases hb with
  | refl => exact h1 m r hm
  | step hi hp => exact h2 _ hi b m r hp hm

theorem good_join {op : LPat → LPat → LPat} (ho : Joins op) {p q : LPat} (hp : Good root (.pat p)) (hq : Good root (.pat q)) : Good root (.pat (op p q)) := by
  cases ho <;> refine .mk nofun fun b hb => ?_ <;> cases hb <;> assumption

theorem good_wrap {g : LPat → LPat} (hg : Wraps g) {p : LPat} (hp : Good root (.pat p)) : Good root (.pat (g p)) := by
  cases hg with
  | id => exact hp
  | _ => exact .mk nofun fun b hb => by cases hb; assumption

theorem good_foldl {op : LPat → LPat → LPat} (ho : Joins op) : ∀ (l : List LPat) (a : LPat), Good root (.pat a) → (∀ p ∈ l, Good root (.pat p)) →
    Good root (.pat (l.foldl op a))
  | [], _, h, _ => h
  | p :: l, a, h, hl => good_foldl ho l (op a p) (good_join ho h (hl p (List.mem_cons_self ..))) fun q hq => hl q (List.mem_cons_of_mem _ hq)

theorem good_foldl1 {op : LPat → LPat → LPat} (ho : Joins op) {l : List LPat} {q : LPat} (h : foldl1 op l = some q) (hl : ∀ p ∈ l, Good root (.pat p)) :
    Good root (.pat q) := by
  cases l with
  | nil => cases h
  | cons a l => cases h; exact good_foldl ho l a (hl a (List.mem_cons_self ..)) fun p hp => hl p (List.mem_cons_of_mem _ hp)

/-- the prefixes of a name class are right -/
def GoodNc (root : LNode) (c : LNameClass) : Prop := ∀ r pre, c.Uses r pre → Stands root (.nsPrefix pre) r

theorem goodNc_foldl : ∀ (l : List LNameClass) (a : LNameClass), GoodNc root a → (∀ p ∈ l, GoodNc root p) → GoodNc root (l.foldl .alt a)
  | [], _, h, _ => h
  | p :: l, a, h, hl => goodNc_foldl l (.alt a p) (fun r pre hu => by
      cases hu with
      | left hu => exact h r pre hu
      | right hu => exact hl p (List.mem_cons_self ..) r pre hu) fun q hq => hl q (List.mem_cons_of_mem _ hq)

theorem goodNc_foldl1 {l : List LNameClass} {q : LNameClass} (h : foldl1 .alt l = some q) (hl : ∀ p ∈ l, GoodNc root p) : GoodNc root q := by
  cases l with
  | nil => cases h
  | cons a l => cases h; exact goodNc_foldl l a (hl a (List.mem_cons_self ..)) fun p hp => hl p (List.mem_cons_of_mem _ hp)

theorem _root_.Verif.RngAt.First.mem {ks post : List LNode} {k : LNode} (h : First ks k post) : k ∈ ks := by
  obtain ⟨pre, rfl, _⟩ := h; simp

theorem _root_.Verif.RngAt.First.post {ks post : List LNode} {k k' : LNode} (h : First ks k post) (hk : k' ∈ post) : k' ∈ ks := by
  obtain ⟨pre, rfl, _⟩ := h; simp [hk]

theorem _root_.Verif.RngAt.First.rng {ks post : List LNode} {k : LNode} (h : First ks k post) : LRng k := by
  obtain ⟨_, _, _, hr⟩ := h; exact hr

theorem size_kid {r : Rg} {ns : Option Str} {name : Str} {sc : List (Option Str × Str)} {as : List LAttr} {kids : List LNode} {k : LNode} (h : k ∈ kids) :
    sizeOf k < sizeOf (LNode.element r ns name sc as kids) := by
  have := List.sizeOf_lt_of_mem h
  simp only [LNode.element.sizeOf_spec]
  omega

theorem nameClass_good : ∀ (n : Nat) (k : LNode) (cx : LAnc) (b : Bool) (c : LNameClass), sizeOf k < n → LRng k → Descends root cx k →
    nameClassOf cx b k = .ok c → GoodNc root c
  | 0, _, _, _, _, h, _, _, _ => absurd h (Nat.not_lt_zero _)
  | n + 1, k, cx, b, c, hs, hr, hd, h => by
    obtain ⟨r, name, sc, as, kids, rfl⟩ := hr
    have rec_ : ∀ (k' : LNode) (cx' : LAnc) (b' : Bool) (c' : LNameClass), sizeOf k' < sizeOf (lel r name sc as kids) → LRng k' → Descends root cx' k' →
        nameClassOf cx' b' k' = .ok c' → GoodNc root c' := fun k' cx' b' c' hs' => nameClass_good n k' cx' b' c' (by omega)
    have exc : ∀ o, ExOk (as :: cx) kids o → ∀ e, o = some e → GoodNc root e := by
      intro o ho e he
      subst he
      cases ho with
      | some h1 h2 h3 h4 =>
        refine goodNc_foldl1 h4 fun p hp => ?_
        obtain ⟨k', hk', hr', hp'⟩ := (nameClasses_ok h3).2 p hp
        exact rec_ k' _ _ p (Nat.lt_trans (size_kid hk') (size_kid h1.mem)) hr' (.kid (.kid hd h1.mem) hk') hp'
    replace h := inv_nameClass h
    cases h with
    | name h =>
      intro r' pre hu
      replace h := (inv_qname h).2
      cases h with
      | prefixed e h1 h2 h3 =>
        cases hu
        rw [e] at hd
        exact .nsPrefix hd h1 h2
      | plain => cases hu
    | @anyName o _ h =>
      intro r' pre hu
      cases o with
      | none => cases hu
      | some e => cases hu with | anyExcept hu => exact exc _ h e rfl _ _ hu
    | @nsName o h =>
      intro r' pre hu
      cases o with
      | none => cases hu
      | some e => cases hu with | nsExcept hu => exact exc _ h e rfl _ _ hu
    | choice h1 h2 =>
      refine goodNc_foldl1 h2 fun p hp => ?_
      obtain ⟨k', hk', hr', hp'⟩ := (nameClasses_ok h1).2 p hp
      exact rec_ k' _ _ p (size_kid hk') hr' (.kid hd hk') hp'

theorem nameChild_good {cx : LAnc} {r r' : Rg} {name : Str} {sc : List (Option Str × Str)} {as : List LAttr} {kids : List LNode} {c : LNameClass}
    (hd : Descends root cx (lel r name sc as kids)) (h : nameChildOf r' (as :: cx) kids = .ok c) : GoodNc root c := by
  obtain ⟨k, post, h1, h2⟩ := nameChild_ok h
  have hr := h1.rng
  exact nameClass_good _ k _ _ c (Nat.lt_succ_self _) hr (.kid hd h1.mem) h2

theorem qnameAttr_good {sc : List (Option Str × Str)} {cx : LAnc} {a : LAttr} {c : LNameClass} (h : qnameAttr sc cx a = .ok c) : GoodNc root c := by
  unfold qnameAttr at h
  intro r pre hu
  split at h
  · obtain ⟨_, _, h⟩ := bind_ok h
    obtain ⟨_, _, h⟩ := bind_ok h
    cases h; cases hu
  · obtain ⟨_, _, h⟩ := bind_ok h
    cases h; cases hu

theorem path_of {cx : LAnc} {a : LAttr} : PathOf cx a (rebasePath (plainAnc cx) a.value) := fun _ hq => (href_is hq).symm

/-- the library and the name of a datatype -/
theorem type_good {cx : LAnc} {r : Rg} {name : Str} {sc : List (Option Str × Str)} {as : List LAttr} {kids : List LNode} {a : LAttr} {n : Str} {m : Mark} {r' : Rg}
    (hn : name = "data".toList ∨ name = "value".toList) (hd : Descends root cx (lel r name sc as kids)) (ha : attr "type".toList as = some a)
    (h : (LDtName.namespaced (libOf (as :: cx)).1 (libOf (as :: cx)).2 a.valueAt n).Has m r') : Stands root m r' := by
  cases h with
  | uri =>
    unfold libOf
    cases hl : nearestAttr "datatypeLibrary".toList (as :: cx) with
    | none => exact .noLibrary hn hd fun b => nearestAttr_none hl b
    | some b => exact .library hn hd (nearestAttr_some.1 hl)
  | uriName => exact .typeName hn hd (attr_some.1 ha)

/-- the parameters of a `data` -/
theorem params_good {cx : LAnc} : ∀ {ks : List LNode} {d : List LParam × Option LPat}, RestOk uri cx ks d → (∀ k ∈ ks, Descends root cx k) →
    ∀ q ∈ d.1, ∀ before, Stands root (.param before q) q.at_
  | _, _, .nil, _, _, hq, _ => by cases hq
  | _, _, .skip _ h, hd, q, hq, before => params_good h (fun k hk => hd k (List.mem_cons_of_mem _ hk)) q hq before
  | _, _, .except .., _, _, hq, _ => by cases hq
  | _, _, @RestOk.param _ _ r sc as kids ks q' d' hp h, hd, q, hq, before => by
    rcases List.mem_cons.1 hq with rfl | hq
    · obtain ⟨a, k, ks', v, h1, h2, _, _, h3⟩ := inv_param hp
      rw [h3]
      exact .param (hd _ (List.mem_cons_self ..)) (attr_some.1 h1) (attrName_ok h2)
    · exact params_good h (fun k hk => hd k (List.mem_cons_of_mem _ hk)) q hq before

theorem rest_exception {cx : LAnc} : ∀ {ks : List LNode} {d : List LParam × Option LPat}, RestOk uri cx ks d → ∀ e, d.2 = some e →
    ∃ r' sc' as' kids' ps, lel r' "except".toList sc' as' kids' ∈ ks ∧ patternsOf uri (as' :: cx) kids' = .ok ps ∧ foldl1 .choice ps = some e
  | _, _, .nil, _, h => by cases h
  | _, _, .skip _ h, e, he => by
    obtain ⟨r', sc', as', kids', ps, h1, h2⟩ := rest_exception h e he
    exact ⟨r', sc', as', kids', ps, List.mem_cons_of_mem _ h1, h2⟩
  | _, _, .param _ h, e, he => by
    obtain ⟨r', sc', as', kids', ps, h1, h2⟩ := rest_exception h e he
    exact ⟨r', sc', as', kids', ps, List.mem_cons_of_mem _ h1, h2⟩
  | _, _, .except h1 h2 _, e, he => by cases he; exact ⟨_, _, _, _, _, List.mem_cons_self .., h1, h2⟩

/-- all positions of an override are right -/
inductive GoodO (root : LNode) : LOverride → Prop
  | define {r id how p} : Stands root (.define id) r → Good root (.pat p) → GoodO root (.define r id how p)
  | div : GoodO root .div

/-- all positions of an item are right -/
inductive GoodI (root : LNode) : LItem → Prop
  | define {r id how p} : Stands root (.define id) r → Good root (.pat p) → GoodI root (.define r id how p)
  | div {is} : Good root (.items is) → GoodI root (.div is)
  | include {r path os} : Stands root (.include path) r → (∀ o ∈ os, GoodO root o) → GoodI root (.include r path none os)

theorem good_items {is : List LItem} (h : ∀ i ∈ is, GoodI root i) : Good root (.items is) := by
  refine .mk ?_ ?_
  · intro m r hm
    cases hm with
    | define hi => cases h _ hi; assumption
    | «include» hi => cases h _ hi; assumption
    | «inherit» hi => cases h _ hi
    | override hi ho =>
      cases h _ hi with
      | «include» _ h2 => cases h2 _ ho; assumption
  · intro b hb
    cases hb with
    | define hi => cases h _ hi; assumption
    | div hi => cases h _ hi; assumption
    | override hi ho =>
      cases h _ hi with
      | «include» _ h2 => cases h2 _ ho; assumption

variable (uri root) in
/-- the induction hypothesis -/
structure Rec (n : Nat) : Prop where
  pat : ∀ (k : LNode) (cx : LAnc) (p : LPat), sizeOf k < n → LRng k → Descends root cx k → patternOf uri cx k = .ok p → Good root (.pat p)
  item : ∀ (k : LNode) (cx : LAnc) (i : LItem), sizeOf k < n → LRng k → Descends root cx k → itemOf uri cx k = .ok i → GoodI root i
  override : ∀ (k : LNode) (cx : LAnc) (o : LOverride), sizeOf k < n → LRng k → Descends root cx k → overrideOf uri cx k = .ok o → GoodO root o

theorem Rec.pats {n : Nat} (R : Rec uri root n) {cx : LAnc} {ks : List LNode} {l : List LPat} (hs : ∀ k ∈ ks, sizeOf k < n)
    (hd : ∀ k ∈ ks, Descends root cx k) (h : patternsOf uri cx ks = .ok l) : ∀ p ∈ l, Good root (.pat p) := by
  intro p hp
  obtain ⟨k, hk, hr, hp'⟩ := (patterns_ok h).2 p hp
  exact R.pat k cx p (hs k hk) hr (hd k hk) hp'

theorem Rec.single {n : Nat} (R : Rec uri root n) {cx : LAnc} {msg : String} {ks : List LNode} {o : Option LPat} (hs : ∀ k ∈ ks, sizeOf k < n)
    (hd : ∀ k ∈ ks, Descends root cx k) (h : singleOf uri cx msg ks = .ok o) : ∀ p, o = some p → Good root (.pat p) := by
  intro p hp
  rcases single_ok h with ⟨rfl, _⟩ | ⟨k, post, p', h1, _, rfl, h2⟩
  · cases hp
  · cases hp
    have hr := h1.rng
    exact R.pat k cx p (hs k h1.mem) hr (hd k h1.mem) h2

theorem good_getD {o : Option LPat} (h : ∀ p, o = some p → Good root (.pat p)) : Good root (.pat (o.getD .text)) := by
  cases o with
  | none => exact .mk nofun nofun
  | some p => exact h p rfl

theorem pat_step {cx : LAnc} {r : Rg} {name : Str} {sc : List (Option Str × Str)} {as : List LAttr} {kids : List LNode} {p : LPat}
    (R : Rec uri root (sizeOf (lel r name sc as kids))) (hd : Descends root cx (lel r name sc as kids))
    (h : patternOf uri cx (lel r name sc as kids) = .ok p) : Good root (.pat p) := by
  have hs : ∀ k ∈ kids, sizeOf k < sizeOf (lel r name sc as kids) := fun k hk => size_kid hk
  have hk : ∀ k ∈ kids, Descends root (as :: cx) k := fun k hk => .kid hd hk
  obtain ⟨t, rfl⟩ := pattern_known h
  by_cases hc : isCont t = true
  · obtain ⟨ps, op, g, q, h1, h2, h3, h4, rfl⟩ := inv_container hc h
    exact good_wrap h3 (good_foldl1 h2 h4 (R.pats hs hk h1))
  · cases t with
    | element =>
      obtain ⟨_, nc, ps, q, h1, rfl, h2⟩ := inv_element h
      have hq : Good root (.pat q) ∧ GoodNc root nc := by
        rcases h2 with ⟨a, _, h3, h4⟩ | ⟨_, h3, h4⟩
        · exact ⟨good_foldl1 .seq h1 (R.pats hs hk h4), qnameAttr_good h3⟩
        · obtain ⟨k, post, h5, _⟩ := nameChild_ok h3
          rw [afterName_eq h5] at h4
          exact ⟨good_foldl1 .seq h1 (R.pats (fun k hm => hs k (h5.post hm)) (fun k hm => hk k (h5.post hm)) h4), nameChild_good hd h3⟩
      refine .mk ?_ ?_
      · intro m r' hm
        cases hm with
        | element => exact .element hd
        | elementName hu => exact hq.2 _ _ hu
      · intro b hb; cases hb; exact hq.1
    | «attribute» =>
      obtain ⟨_, nc, o, rfl, h2⟩ := inv_attribute h
      have hq : Good root (.pat (o.getD .text)) ∧ GoodNc root nc := by
        rcases h2 with ⟨a, _, _, h3, h4⟩ | ⟨_, h3, h4⟩
        · exact ⟨good_getD (R.single hs hk h4), qnameAttr_good h3⟩
        · obtain ⟨k, post, h5, _⟩ := nameChild_ok h3
          rw [afterNameSingle_eq h5] at h4
          exact ⟨good_getD (R.single (fun k hm => hs k (h5.post hm)) (fun k hm => hk k (h5.post hm)) h4), nameChild_good hd h3⟩
      refine .mk ?_ ?_
      · intro m r' hm
        cases hm with
        | «attribute» => exact .attribute hd
        | attributeName hu => exact hq.2 _ _ hu
      · intro b hb; cases hb; exact hq.1
    | ref =>
      obtain ⟨n, h1, rfl⟩ := inv_ref h
      obtain ⟨_, a, h2, h3, h4⟩ := inv_refTo h1
      rw [h4]
      refine .mk ?_ nofun
      intro m r' hm
      cases hm
      exact .ref hd (attr_some.1 h2) (attrName_ok h3)
    | parentRef =>
      obtain ⟨n, h1, rfl⟩ := inv_parent h
      obtain ⟨_, a, h2, h3, h4⟩ := inv_refTo h1
      rw [h4]
      refine .mk ?_ nofun
      intro m r' hm
      cases hm
      exact .parent hd (attr_some.1 h2) (attrName_ok h3)
    | empty => obtain ⟨_, _, rfl | rfl | rfl⟩ := inv_bare (.inl rfl) h <;> exact .mk nofun nofun
    | text => obtain ⟨_, _, rfl | rfl | rfl⟩ := inv_bare (.inr (.inl rfl)) h <;> exact .mk nofun nofun
    | notAllowed => obtain ⟨_, _, rfl | rfl | rfl⟩ := inv_bare (.inr (.inr rfl)) h <;> exact .mk nofun nofun
    | value =>
      obtain ⟨_, lit, _, ⟨_, rfl⟩ | ⟨a, n, h1, h2, rfl⟩⟩ := inv_value h
      · exact .mk nofun nofun
      · refine .mk ?_ nofun
        intro m r' hm
        cases hm with
        | valueType hm => exact type_good (.inr rfl) hd h1 hm
    | data =>
      obtain ⟨t, d, h1, _, h2, rfl⟩ := inv_data h
      have hr := inv_rest h2
      have hps := params_good (root := root) hr hk
      have hty : ∀ m r', t.Has m r' → Stands root m r' := by
        obtain ⟨a, ha, ⟨_, rfl⟩ | ⟨n, _, rfl⟩⟩ := inv_type h1
        · nofun
        · intro m r' hm; exact type_good (.inl rfl) hd ha hm
      obtain ⟨ps, o⟩ := d
      cases o with
      | none =>
        refine .mk ?_ nofun
        intro m r' hm
        cases hm with
        | dataType hm => exact hty _ _ hm
        | dataParam => exact hps _ (by simp) _
      | some e =>
        refine .mk ?_ ?_
        · intro m r' hm
          cases hm with
          | exceptType hm => exact hty _ _ hm
          | exceptParam => exact hps _ (by simp) _
        · intro b hb
          cases hb
          obtain ⟨r', sc', as', kids', l, h3, h4, h5⟩ := rest_exception hr e rfl
          exact good_foldl1 .choice h5 (R.pats (fun k hm => Nat.lt_trans (size_kid hm) (hs _ h3)) (fun k hm => .kid (hk _ h3) hm) h4)
    | externalRef =>
      obtain ⟨a, h1, rfl⟩ := inv_external h
      refine .mk ?_ nofun
      intro m r' hm
      cases hm
      exact .external hd (attr_some.1 h1) path_of
    | grammar =>
      obtain ⟨is, h1, rfl⟩ := inv_grammar h
      refine .mk ?_ ?_
      · intro m r' hm; cases hm; exact .grammar hd
      · intro b hb
        cases hb
        refine good_items fun i hi => ?_
        obtain ⟨k, hk', hr, hi'⟩ := (items_ok h1).2 i hi
        exact R.item k _ i (hs k hk') hr (hk k hk') hi'
    | _ => exact absurd rfl hc

theorem def_step {cx : LAnc} {r : Rg} {name : Str} {sc : List (Option Str × Str)} {as : List LAttr} {kids : List LNode} {r' : Rg} {n : Str} {how : AssignMethod} {p : LPat}
    (R : Rec uri root (sizeOf (lel r name sc as kids))) (hd : Descends root cx (lel r name sc as kids)) (h : DefOk uri cx r as kids name r' n how p) :
    Stands root (.define n) r' ∧ Good root (.pat p) := by
  have hs : ∀ k ∈ kids, sizeOf k < sizeOf (lel r name sc as kids) := fun k hk => size_kid hk
  have hk : ∀ k ∈ kids, Descends root (as :: cx) k := fun k hk => .kid hd hk
  cases h with
  | start _ _ h1 => exact ⟨.start hd, R.single hs hk h1 p rfl⟩
  | define _ h1 h2 h3 h4 => exact ⟨.define hd (attr_some.1 h1) (attrName_ok h2), good_foldl1 .seq h4 (R.pats hs hk h3)⟩

theorem rec_all (n : Nat) : Rec uri root n := by
  induction n with
  | zero => exact ⟨fun _ _ _ h => absurd h (Nat.not_lt_zero _), fun _ _ _ h => absurd h (Nat.not_lt_zero _), fun _ _ _ h => absurd h (Nat.not_lt_zero _)⟩
  | succ n ih =>
    have mono : ∀ m, m ≤ n → Rec uri root m := fun m hm =>
      ⟨fun k cx p hs => ih.pat k cx p (by omega), fun k cx p hs => ih.item k cx p (by omega), fun k cx p hs => ih.override k cx p (by omega)⟩
    refine ⟨?_, ?_, ?_⟩
    · rintro k cx p hs ⟨r, name, sc, as, kids, rfl⟩ hd h
      exact pat_step (mono _ (by omega)) hd h
    · rintro k cx i hs ⟨r, name, sc, as, kids, rfl⟩ hd h
      have R := mono _ (Nat.lt_succ_iff.1 hs)
      have hs' : ∀ k ∈ kids, sizeOf k < sizeOf (lel r name sc as kids) := fun k hk => size_kid hk
      replace h := inv_item h
      cases h with
      | define h => exact .define (def_step R hd h).1 (def_step R hd h).2
      | div h =>
        refine .div (good_items fun i hi => ?_)
        obtain ⟨k, hk', hr, hi'⟩ := (items_ok h).2 i hi
        exact R.item k _ i (hs' k hk') hr (.kid hd hk') hi'
      | «include» h1 h2 =>
        refine .include (.include hd (attr_some.1 h1) path_of) fun o ho => ?_
        obtain ⟨k, hk', hr, hi'⟩ := (overrides_ok h2).2 o ho
        exact R.override k _ o (hs' k hk') hr (.kid hd hk') hi'
    · rintro k cx o hs ⟨r, name, sc, as, kids, rfl⟩ hd h
      have R := mono _ (Nat.lt_succ_iff.1 hs)
      replace h := inv_override h
      cases h with
      | define h => exact .define (def_step R hd h).1 (def_step R hd h).2
      | div => exact .div

/-- All positions of the syntax tree are right. -/
theorem parse_stands {s : LSchema} (h : parse uri root = .ok s) : Good root s.root := by
  unfold parse at h
  split at h
  · next r ns name sc as kids =>
    by_cases hr : isRngNs ns = true
    · rw [if_pos hr] at h
      cases isRngNs_iff.1 hr
      by_cases hn : name = "grammar".toList
      · rw [if_pos hn] at h
        obtain ⟨is, h1, h2⟩ := bind_ok h
        cases h2
        refine good_items fun i hi => ?_
        obtain ⟨k, hk, hr', hi'⟩ := (items_ok h1).2 i hi
        exact (rec_all _).item k _ i (Nat.lt_succ_self _) hr' (.kid .root hk) hi'
      · rw [if_neg hn] at h
        obtain ⟨p, h1, h2⟩ := bind_ok h
        cases h2
        exact (rec_all _).pat _ _ p (Nat.lt_succ_self _) ⟨_, _, _, _, _, rfl⟩ .root h1
    · rw [if_neg hr] at h; cases h
  · cases h

end
end Verif.LXml
