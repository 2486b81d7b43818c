import Verif.Proof.CompactSpans
import Verif.Proof.CompactSound3
import Verif.Spec.CompactSpans
/-
What a schema text shows at the positions of its syntax tree.
-/
namespace Verif.LCompact
open Verif Verif.At Verif.Compact Verif.Compact.P
variable {α β : Type} {text : Str}

theorem byteLen_append (a b : Str) : byteLen (a ++ b) = byteLen a + byteLen b := by simp [byteLen]

/-- the range from the rest `i` to the rest `r` -/
def rg (text i r : Str) : Rg := ⟨byteLen text - byteLen i, byteLen text - byteLen r⟩

theorem cut_rg {i s r : Str} (hi : i <:+ text) (e : i = s ++ r) : Cut text (rg text i r) s := by
  obtain ⟨pre, rfl⟩ := hi
  subst e
  refine ⟨pre, r, by simp, ?_, ?_⟩ <;> simp only [rg, byteLen_append] <;> omega

/-! ### all the positions of a tree -/

/-- every position in the tree reads as it should -/
def Good (text : Str) (a : LTree) : Prop := ∀ b, PartOf a b → ∀ m r, b.Has m r → Reads text b m r

theorem Good.intro {a : LTree} (h : ∀ m r, a.Has m r → Reads text a m r) (hi : ∀ b, Inside a b → Good text b) : Good text a := by
  intro b hb
  cases hb with
  | refl => exact h
  | step h1 h2 => exact hi _ h1 _ h2

theorem Good.items {is : List LItem} (h : ∀ i ∈ is, Good text (.items [i])) : Good text (.items is) := by
  refine .intro (fun m r hh => ?_) fun b hb => ?_
  · cases hh with
    | define hm =>
      have := h _ hm _ .refl _ _ (.define (.head _))
      cases this with
      | define h1 h2 => exact .define h1 h2
      | start h1 h2 h3 => exact .start h1 h2 h3
    | «include» hm =>
      have := h _ hm _ .refl _ _ (.include (.head _))
      cases this with
      | «include» h1 h2 => exact .include h1 h2
    | inherit hm =>
      have := h _ hm _ .refl _ _ (.inherit (.head _))
      cases this with
      | nsPrefix h1 => exact .nsPrefix h1
    | override hm ho =>
      have := h _ hm _ .refl _ _ (.override (.head _) ho)
      cases this with
      | define h1 h2 => exact .define h1 h2
      | start h1 h2 h3 => exact .start h1 h2 h3
  · cases hb with
    | define hm => exact fun c hc => h _ hm _ (.step (.define (.head _)) hc)
    | div hm => exact fun c hc => h _ hm _ (.step (.div (.head _)) hc)
    | override hm ho => exact fun c hc => h _ hm _ (.step (.override (.head _) ho) hc)

/-! ### parsers -/

/-- `p` reads a part of the input and yields something with the property `Q` -/
def Post (text : Str) (p : P α) (Q : α → Prop) : Prop := ∀ i r a, i <:+ text → p i = .ok r a → r <:+ i ∧ Q a

theorem Post.bind {p : P α} {f : α → P β} {Q : α → Prop} {R : β → Prop} (h : Post text p Q) (hf : ∀ a, Q a → Post text (f a) R) :
    Post text (p >>= f) R := by
  intro i r b hi hb
  obtain ⟨i', a, h1, h2⟩ := bind_ok hb
  obtain ⟨hs, hq⟩ := h _ _ _ hi h1
  obtain ⟨hs', hr⟩ := hf a hq _ _ _ (hs.trans hi) h2
  exact ⟨hs'.trans hs, hr⟩

theorem Post.pure {a : α} {Q : α → Prop} (h : Q a) : Post text (pure a) Q := by
  intro i r b hi hb
  obtain ⟨rfl, rfl⟩ := pure_ok hb
  exact ⟨List.suffix_refl _, h⟩

theorem Post.weaken {p : P α} {Q R : α → Prop} (h : Post text p Q) (hw : ∀ a, Q a → R a) : Post text p R :=
  fun i r a hi ha => ⟨(h i r a hi ha).1, hw _ (h i r a hi ha).2⟩

theorem Post.alt {p q : P α} {Q : α → Prop} (h : Post text p Q) (h' : Post text q Q) : Post text (alt p q) Q := by
  intro i r a hi ha
  rcases alt_ok ha with ha | ⟨_, ha⟩
  · exact h _ _ _ hi ha
  · exact h' _ _ _ hi ha

theorem Post.opt {p : P α} {Q : α → Prop} (h : Post text p Q) : Post text (opt p) (fun o => ∀ a, o = some a → Q a) := by
  intro i r a hi ha
  rcases opt_ok ha with ⟨b, rfl, hb⟩ | ⟨rfl, rfl, _⟩
  · exact ⟨(h _ _ _ hi hb).1, fun a e => by cases e; exact (h _ _ _ hi hb).2⟩
  · exact ⟨List.suffix_refl _, nofun⟩

theorem Post.cut {p : P α} {Q : α → Prop} (h : Post text p Q) : Post text (cut p) Q := fun i r a hi ha => h i r a hi (cut_ok ha)

theorem Post.tag {t : Str} : Post text (tag t) fun _ => True := fun i r a _ ha => ⟨⟨t, (tag_ok ha).symm⟩, trivial⟩

theorem Post.space0 : Post text space0 fun _ => True := by
  intro i r a _ ha
  obtain ⟨⟨g, e, _⟩, _⟩ := space0_ok ha
  exact ⟨⟨g, e.symm⟩, trivial⟩

theorem Post.space1 : Post text space1 fun _ => True := by
  intro i r a _ ha
  obtain ⟨⟨g, e, _⟩, _⟩ := space1_ok ha
  exact ⟨⟨g, e.symm⟩, trivial⟩

theorem Post.literal : Post text literal fun _ => True := by
  intro i r a _ ha
  obtain ⟨t, e, _⟩ := literal_inv ha
  exact ⟨⟨t, e.symm⟩, trivial⟩

theorem Post.identifierOrKeyword : Post text identifierOrKeyword fun _ => True := by
  intro i r a _ ha
  obtain ⟨e, _⟩ := anyIdent_inv ha
  exact ⟨⟨a, e.symm⟩, trivial⟩

theorem Post.initial {n : Nat} : Post text (maybeInitialAnnotation n) fun _ => True := by
  intro i r a _ ha
  obtain ⟨t, e, _⟩ := init_inv ha
  exact ⟨⟨t, e.symm⟩, trivial⟩

theorem Post.follow {n : Nat} : Post text (followAnnotationList n) fun _ => True := by
  intro i r a _ ha
  obtain ⟨t, e, _⟩ := follow_inv ha
  exact ⟨⟨t, e.symm⟩, trivial⟩

theorem Post.annotationElement {n : Nat} : Post text (annotationElement n) fun _ => True := by
  intro i r a _ ha
  obtain ⟨t, e, _⟩ := annElem_inv n ha
  exact ⟨⟨t, e.symm⟩, trivial⟩

theorem Post.assignMethod : Post text assignMethod fun _ => True := by
  intro i r a _ ha
  obtain ⟨t, e, _⟩ := assign_inv ha
  exact ⟨⟨t, e.symm⟩, trivial⟩

theorem Post.decl : Post text decl fun _ => True := by
  intro i r a _ ha
  obtain ⟨t, e, _⟩ := decl_inv ha
  exact ⟨⟨t, e.symm⟩, trivial⟩

theorem Post.checkFollow {o : Option Unit} {fs : List Unit} : Post text (checkFollow o fs) fun _ => True := by
  intro i r a _ ha
  obtain ⟨rfl, _⟩ := checkFollow_ok ha
  exact ⟨List.suffix_refl _, trivial⟩

theorem ranged_ok {t : Nat} {p : P α} {i r : Str} {x : Rg × α} (h : ranged t p i = .ok r x) :
    p i = .ok r x.2 ∧ x.1 = ⟨t - byteLen i, t - byteLen r⟩ := by
  unfold ranged at h
  obtain ⟨i1, k, h1, h⟩ := bind_ok h
  obtain ⟨i2, a, h2, h⟩ := bind_ok h
  obtain ⟨i3, k', h3, h⟩ := bind_ok h
  obtain ⟨rfl, rfl⟩ := pure_ok h
  cases h1; cases h3
  exact ⟨h2, rfl⟩

theorem Post.ranged {p : P α} {Q : Rg × α → Prop} (h : ∀ i r a, i <:+ text → p i = .ok r a → r <:+ i ∧ Q (rg text i r, a)) :
    Post text (ranged (byteLen text) p) Q := by
  intro i r x hi hx
  obtain ⟨h1, h2⟩ := ranged_ok hx
  obtain ⟨g, a⟩ := x
  dsimp only at h1 h2
  subst h2
  exact h _ _ _ hi h1

theorem Post.rNcName : Post text (LCompact.ranged (byteLen text) pNcName) fun x => Cut text x.1 x.2 :=
  .ranged fun i r a hi ha => by
    obtain ⟨e, _⟩ := pNcName_inv ha
    exact ⟨⟨a, e.symm⟩, cut_rg hi e⟩

theorem Post.rIdentifier : Post text (LCompact.ranged (byteLen text) identifier) fun x => Cut text x.1 x.2 ∧ Rnc.Ident x.2 :=
  .ranged fun i r a hi ha => by
    obtain ⟨e, h, _⟩ := identifier_inv ha
    exact ⟨⟨a, e.symm⟩, cut_rg hi e, h⟩

theorem Post.rAnyIdent : Post text (LCompact.ranged (byteLen text) Compact.identifierOrKeyword) fun x => Cut text x.1 x.2 :=
  .ranged fun i r a hi ha => by
    obtain ⟨e, h, _⟩ := anyIdent_inv ha
    exact ⟨⟨a, e.symm⟩, cut_rg hi e⟩

theorem Post.rLiteral : Post text (LCompact.ranged (byteLen text) Compact.literal) fun x => ∃ s, Cut text x.1 s ∧ Rnc.Literal x.2 s :=
  .ranged fun i r a hi ha => by
    obtain ⟨s, e, h⟩ := literal_inv ha
    exact ⟨⟨s, e.symm⟩, s, cut_rg hi e, h⟩

/-- a list, the first entry after white space -/
theorem sepLoop_post {p : P α} {Q : α → Prop} (hp : ∀ i r a, i <:+ text → Done i → p i = .ok r a → r <:+ i ∧ Q a) :
    ∀ (as : List α) (n : Nat) (i r : Str), i <:+ text → sepLoop Compact.space1 p n i = .ok r as → r <:+ i ∧ ∀ a ∈ as, Q a
  | as, n, i, r, hi, h => by
    rcases sepLoop_ok h with ⟨rfl, rfl, _⟩ | ⟨m, i1, i2, a, as', rfl, h1, h2, h3⟩
    · exact ⟨List.suffix_refl _, nofun⟩
    · obtain ⟨⟨g, e, _⟩, d⟩ := space1_ok h1
      have s1 : i1 <:+ i := ⟨g, e.symm⟩
      obtain ⟨s2, q⟩ := hp _ _ _ (s1.trans hi) d h2
      obtain ⟨s3, qs⟩ := sepLoop_post hp as' m i2 r (s2.trans (s1.trans hi)) h3
      refine ⟨s3.trans (s2.trans s1), ?_⟩
      intro b hb
      cases hb with
      | head => exact q
      | tail _ hb => exact qs b hb

theorem Post.spacedList {p : P α} {Q : α → Prop} (hp : ∀ i r a, i <:+ text → Done i → p i = .ok r a → r <:+ i ∧ Q a) {R : β → Prop} {f : List α → P β}
    (hf : ∀ as, (∀ a ∈ as, Q a) → Post text (f as) R) : Post text (Compact.space0 >>= fun _ => sepList0 Compact.space1 p >>= f) R := by
  intro i r b hi hb
  obtain ⟨i1, _, h1, hb⟩ := bind_ok hb
  obtain ⟨i2, as, h2, hb⟩ := bind_ok hb
  obtain ⟨⟨g, e, _⟩, d⟩ := space0_ok h1
  have s1 : i1 <:+ i := ⟨g, e.symm⟩
  have : i2 <:+ i1 ∧ ∀ a ∈ as, Q a := by
    rcases sepList0_inv h2 with ⟨rfl, rfl, _⟩ | ⟨n, i', a, as', rfl, h3, h4⟩
    · exact ⟨List.suffix_refl _, nofun⟩
    · obtain ⟨s2, q⟩ := hp _ _ _ (s1.trans hi) d h3
      obtain ⟨s3, qs⟩ := sepLoop_post hp as' n i' i2 (s2.trans (s1.trans hi)) h4
      refine ⟨s3.trans s2, ?_⟩
      intro b hb
      cases hb with
      | head => exact q
      | tail _ hb => exact qs b hb
  obtain ⟨s4, h4⟩ := hf as this.2 _ _ _ (this.1.trans (s1.trans hi)) hb
  exact ⟨s4.trans (this.1.trans s1), h4⟩

theorem Post.list1 {p : P α} {Q : α → Prop} (hp : Post text p Q) : Post text (sepList1 Compact.space1 p) fun as => ∀ a ∈ as, Q a := by
  intro i r as hi h
  obtain ⟨n, i', a, as', rfl, h3, h4⟩ := sepList1_inv h
  obtain ⟨s2, q⟩ := hp _ _ _ hi h3
  obtain ⟨s3, qs⟩ := sepLoop_post (fun i r a hi _ h => hp i r a hi h) as' n i' r (s2.trans hi) h4
  refine ⟨s3.trans s2, ?_⟩
  intro b hb
  cases hb with
  | head => exact q
  | tail _ hb => exact qs b hb

theorem Post.list0 {p : P α} {Q : α → Prop} (hp : Post text p Q) : Post text (sepList0 Compact.space1 p) fun as => ∀ a ∈ as, Q a := by
  intro i r as hi h
  rcases sepList0_inv h with ⟨rfl, rfl, _⟩ | ⟨n, i', a, as', rfl, h3, h4⟩
  · exact ⟨List.suffix_refl _, nofun⟩
  · obtain ⟨s2, q⟩ := hp _ _ _ hi h3
    obtain ⟨s3, qs⟩ := sepLoop_post (fun i r a hi _ h => hp i r a hi h) as' n i' r (s2.trans hi) h4
    refine ⟨s3.trans s2, ?_⟩
    intro b hb
    cases hb with
    | head => exact q
    | tail _ hb => exact qs b hb

/-- skips something -/
theorem Post.skip {p : P α} {f : α → P β} {R : β → Prop} (h : Post text p fun _ => True) (hf : ∀ a, Post text (f a) R) : Post text (p >>= f) R :=
  .bind h fun a _ => hf a

/-! ### name classes -/

/-- the prefixes of a name class -/
def NcGood (text : Str) (nc : LNameClass) : Prop := ∀ r pre, nc.Uses r pre → Cut text r pre

theorem cname_post : Post text (cname (byteLen text)) fun x => Cut text x.1.1 x.1.2 ∧ Cut text x.2.1 x.2.2 :=
  .bind .rNcName fun _ h => .skip .tag fun _ => .bind .rNcName fun _ h' => .pure ⟨h, h'⟩

theorem pName_post : Post text (pName (byteLen text)) (NcGood text) := by
  refine .alt (.bind cname_post fun x h => .pure ?_) (.skip .identifierOrKeyword fun _ => .pure ?_)
  · intro r pre hu; cases hu; exact h.1
  · intro r pre hu; cases hu

theorem exceptNc_post {nc : P LNameClass} (h : Post text nc (NcGood text)) : Post text (exceptNc nc) fun o => ∀ a, o = some a → NcGood text a :=
  .opt (.skip .space0 fun _ => .skip .tag fun _ => .skip .space0 fun _ => h)

theorem nsNameNc_post {nc : P LNameClass} (h : Post text nc (NcGood text)) : Post text (nsNameNc (byteLen text) nc) (NcGood text) := by
  refine .bind .rNcName fun x hx => .skip .tag fun _ => .bind (exceptNc_post h) fun o ho => ?_
  cases o with
  | none => exact .pure fun r pre hu => by cases hu; exact hx
  | some e =>
    refine .pure fun r pre hu => ?_
    cases hu with
    | nsNameExcept => exact hx
    | nsExcept hu => exact ho _ rfl _ _ hu

theorem anyNameNc_post {nc : P LNameClass} (h : Post text nc (NcGood text)) : Post text (anyNameNc nc) (NcGood text) := by
  refine .skip .tag fun _ => .bind (exceptNc_post h) fun o ho => ?_
  cases o with
  | none => exact .pure fun r pre hu => by cases hu
  | some e =>
    refine .pure fun r pre hu => ?_
    cases hu with
    | anyExcept hu => exact ho _ rfl _ _ hu

theorem parenNc_post {nc : P LNameClass} (h : Post text nc (NcGood text)) : Post text (parenNc nc) (NcGood text) :=
  .skip .tag fun _ => .skip .space0 fun _ => .bind h fun a ha => .skip .space0 fun _ => .skip .tag fun _ => .pure fun r pre hu => by
    cases hu with | paren hu => exact ha _ _ hu

theorem altTail_post {nc : P LNameClass} (h : Post text nc (NcGood text)) {l : LNameClass} (hl : NcGood text l) : Post text (altTail nc l) (NcGood text) := by
  have key : Post text (altNc nc) (NcGood text) := .skip .space0 fun _ => .skip .tag fun _ => .skip .space0 fun _ => h
  intro i r a hi ha
  unfold altTail at ha
  split at ha
  · next r' b e =>
    cases ha
    obtain ⟨s, q⟩ := key _ _ _ hi e
    refine ⟨s, fun r pre hu => ?_⟩
    cases hu with
    | left hu => exact hl _ _ hu
    | right hu => exact q _ _ hu
  · cases ha
  · cases ha
  · cases ha; exact ⟨List.suffix_refl _, hl⟩

theorem nameClass_post : ∀ n, Post text (nameClass (byteLen text) n) (NcGood text)
  | 0 => fun _ _ _ _ h => by cases h
  | n + 1 => by
    have ih := nameClass_post n
    intro i
    rw [nameClass]
    revert i
    show Post _ _ _
    exact .skip .initial fun _ => .bind (.alt (nsNameNc_post ih) (.alt pName_post (.alt (anyNameNc_post ih) (parenNc_post ih)))) fun a ha =>
      .skip .follow fun _ => .skip .checkFollow fun _ => altTail_post ih ha

/-! ### patterns -/

/-- the positions in the name of a datatype -/
def DtGood (text : Str) : LDtName → Prop
  | .cname r pre nr n => Cut text r pre ∧ Cut text nr n
  | .namespaced _ _ _ _ => False
  | _ => True

/-- the position of a parameter -/
def ParGood (text : Str) (q : LParam) : Prop := ∃ s, Cut text q.at_ s ∧ Rnc.Par False q.plain s

theorem DtGood.reads {ty : LDtName} (h : DtGood text ty) {t : LTree} (ht : t.OfType ty) {m : Mark} {r : Rg} (hh : ty.Has m r) : Reads text t m r := by
  cases hh with
  | «prefix» => exact .dtPrefix h.1
  | library => exact .library ht h.1
  | uri => exact h.elim
  | name => exact .typeName ht h.2
  | uriName => exact h.elim

theorem datatypeName_post : Post text (datatypeName (byteLen text)) (DtGood text) :=
  .alt (.skip .tag fun _ => .pure trivial) (.alt (.skip .tag fun _ => .pure trivial) (.bind cname_post fun x hx => .pure hx))

theorem datatypeValuePattern_post : Post text (datatypeValuePattern (byteLen text)) fun p => Good text (.pat p) := by
  refine .bind (.opt datatypeName_post) fun ty hty => .skip .space0 fun _ => .skip .literal fun v => .pure ?_
  refine .intro (fun m r hh => ?_) (fun b hb => by cases hb)
  cases hh with
  | valueType h => exact (hty _ rfl).reads .value h

theorem param_post {n : Nat} {i r : Str} {q : LParam} (hi : i <:+ text) (hd : Done i) (h : param (byteLen text) n i = .ok r q) :
    r <:+ i ∧ ParGood text q := by
  have he := param_er (t := byteLen text) n i
  rw [h] at he
  generalize hq : Compact.param n i = y at he
  cases he with
  | ok e =>
    subst e
    obtain ⟨s, e, hs⟩ := par_inv hd hq
    refine ⟨⟨s, e.symm⟩, s, ?_, hs⟩
    have : q.at_ = rg text i r := by
      unfold param at h
      obtain ⟨i1, k, h1, h⟩ := bind_ok h
      cases h1
      obtain ⟨_, _, _, h⟩ := bind_ok h
      obtain ⟨_, _, _, h⟩ := bind_ok h
      obtain ⟨_, _, _, h⟩ := bind_ok h
      obtain ⟨_, _, _, h⟩ := bind_ok h
      obtain ⟨_, _, _, h⟩ := bind_ok h
      obtain ⟨_, _, _, h⟩ := bind_ok h
      obtain ⟨_, _, _, h⟩ := bind_ok h
      obtain ⟨_, _, h9, h⟩ := bind_ok h
      cases h9
      obtain ⟨rfl, rfl⟩ := pure_ok h
      rfl
    rw [this]
    exact cut_rg hi e

theorem params_post {n : Nat} : Post text (params (byteLen text) n) fun ps => ∀ q ∈ ps, ParGood text q :=
  .skip .space0 fun _ => .skip .tag fun _ => .spacedList (fun _ _ _ hi hd h => param_post hi hd h) fun ps hps =>
    .skip .space0 fun _ => .skip (.cut .tag) fun _ => .pure hps

theorem mem_getD {o : Option (List α)} {Q : α → Prop} (h : ∀ l, o = some l → ∀ a ∈ l, Q a) : ∀ a ∈ o.getD [], Q a := by
  cases o with
  | none => exact nofun
  | some l => exact h l rfl

theorem datatypeParamPattern_post {n : Nat} {pat : P LPat} (h : Post text pat fun p => Good text (.pat p)) :
    Post text (datatypeParamPattern (byteLen text) n pat) fun p => Good text (.pat p) := by
  refine .bind datatypeName_post fun ty hty => .bind (.opt params_post) fun ps hps =>
    .bind (.opt (.skip .space0 fun _ => .skip .tag fun _ => .skip .space0 fun _ => h)) fun o ho => ?_
  have hps := mem_getD hps
  generalize ps.getD [] = ps at hps
  cases o with
  | none =>
    refine .pure (.intro (fun m r hh => ?_) (fun b hb => by cases hb))
    cases hh with
    | dataType h => exact hty.reads .data h
    | dataParam =>
      obtain ⟨s, h1, h2⟩ := hps _ (List.mem_append_right _ (.head _))
      exact .param h1 h2
  | some e =>
    refine .pure (.intro (fun m r hh => ?_) (fun b hb => ?_))
    · cases hh with
      | exceptType h => exact hty.reads .dataExcept h
      | exceptParam =>
        obtain ⟨s, h1, h2⟩ := hps _ (List.mem_append_right _ (.head _))
        exact .param h1 h2
    · cases hb; exact ho _ rfl

theorem braced_post {pat : P LPat} {Q : LPat → Prop} (h : Post text pat Q) : Post text (braced pat) Q :=
  .skip .space0 fun _ => .skip .tag fun _ => .skip .space0 fun _ => .bind (.cut h) fun a ha => .skip .space0 fun _ =>
    .skip (.cut .tag) fun _ => .pure ha

/-- a named pattern: its range, its name and its contents -/
theorem namedPattern_post {k : Str} {n : Nat} {f : SNameClass → SPattern → SPattern}
    (hf : ∀ {g s t c p}, Rnc.Sep g → Rnc.Nc False c s → Rnc.Braced False p t → Rnc.Prim False (f c p) (k ++ g ++ s ++ t))
    (h : Post text (pattern (byteLen text) n) fun p => Good text (.pat p)) :
    Post text (namedPattern (byteLen text) k (nameClass (byteLen text) n) (pattern (byteLen text) n)) fun x =>
      (∃ s, Cut text x.1 s ∧ Rnc.Prim False (f x.2.1.plain x.2.2.plain) s) ∧ NcGood text x.2.1 ∧ Good text (.pat x.2.2) := by
  intro i r x hi hx
  have he := namedPattern_er (t := byteLen text) (k := k) (nameClass_er (t := byteLen text) n) (main_er (t := byteLen text) n).1 i
  rw [hx] at he
  generalize hq : Compact.namedPattern k (Compact.nameClass n) (Compact.pattern n) i = y at he
  cases he with
  | ok e =>
    subst e
    obtain ⟨g, s, t, e, h1, h2, h3⟩ := named_inv (subInv n) hq
    unfold namedPattern at hx
    obtain ⟨hx, hr⟩ := ranged_ok hx
    have key : Post text (do
        tag k
        space1
        let c ← nameClass (byteLen text) n
        let p ← braced (pattern (byteLen text) n)
        pure (c, p)) fun x => NcGood text x.1 ∧ Good text (.pat x.2) :=
      .skip .tag fun _ => .skip .space1 fun _ => .bind (nameClass_post n) fun c hc => .bind (braced_post h) fun p hp => .pure ⟨hc, hp⟩
    obtain ⟨hs, hq⟩ := key _ _ _ hi hx
    refine ⟨hs, ⟨_, ?_, hf h1 h2 h3⟩, hq⟩
    rw [hr]
    exact cut_rg hi e

theorem inherit_post : Post text (inherit (byteLen text)) fun x => Cut text x.1 x.2 :=
  .skip .tag fun _ => .skip .space0 fun _ => .skip .tag fun _ => .skip .space0 fun _ => .rAnyIdent

theorem externalPattern_post : Post text (externalPattern (byteLen text)) fun p => Good text (.pat p) := by
  refine .skip .tag fun _ => .skip .space1 fun _ => .bind .rLiteral fun l hl => .bind (.opt (.skip .space1 fun _ => inherit_post)) fun o _ => .pure ?_
  refine .intro (fun m r hh => ?_) (fun b hb => by cases hb)
  cases hh with
  | external => obtain ⟨s, h1, h2⟩ := hl; exact .external h1 h2

theorem grammarPattern_post {n : Nat} (h : Post text (grammarContent (byteLen text) n) fun p => Good text (.items [p])) :
    Post text (grammarPattern (byteLen text) (grammarContent (byteLen text) n)) fun p => Good text (.pat p) := by
  intro i r x hi hx
  have he := grammarPattern_er (t := byteLen text) (main_er (t := byteLen text) n).2 i
  rw [hx] at he
  generalize hq : Compact.grammarPattern (Compact.grammarContent n) i = y at he
  cases he with
  | ok e =>
    subst e
    obtain ⟨s, e, hs⟩ := grammarPat_inv (subInv n) hq
    have key : Post text (grammarPattern (byteLen text) (grammarContent (byteLen text) n)) fun p => ∃ r is, p = .grammar r is ∧ Good text (.items is) := by
      intro i r x hi hx
      unfold grammarPattern at hx
      obtain ⟨i1, k, h1, hx⟩ := bind_ok hx
      cases h1
      refine Post.skip (R := fun p => ∃ r is, p = LPat.grammar r is ∧ Good text (LTree.items is)) .tag (fun _ => .skip .space0 fun _ => .skip .tag fun _ =>
        .spacedList (fun i r a hi _ hh => h i r a hi hh) fun is his => .skip .space0 fun _ => .skip (.cut .tag) fun _ => ?_) i r x hi hx
      intro i r x hi hx
      obtain ⟨i1, k, h1, hx⟩ := bind_ok hx
      cases h1
      obtain ⟨rfl, rfl⟩ := pure_ok hx
      exact ⟨List.suffix_refl _, _, _, rfl, .items his⟩
    obtain ⟨hsuf, r', is, rfl, hg⟩ := key _ _ _ hi hx
    refine ⟨hsuf, .intro (fun m r'' hh => ?_) (fun b hb => ?_)⟩
    · cases hh with
      | grammar =>
        refine .grammar ?_ hs
        have : r' = rg text i r := by
          unfold grammarPattern at hx
          obtain ⟨i1, k, h1, hx⟩ := bind_ok hx
          cases h1
          obtain ⟨_, _, _, hx⟩ := bind_ok hx
          obtain ⟨_, _, _, hx⟩ := bind_ok hx
          obtain ⟨_, _, _, hx⟩ := bind_ok hx
          obtain ⟨_, _, _, hx⟩ := bind_ok hx
          obtain ⟨_, _, _, hx⟩ := bind_ok hx
          obtain ⟨_, _, _, hx⟩ := bind_ok hx
          obtain ⟨_, _, _, hx⟩ := bind_ok hx
          obtain ⟨_, _, h9, hx⟩ := bind_ok hx
          cases h9
          obtain ⟨rfl, he⟩ := pure_ok hx
          cases he
          rfl
        rw [this]
        exact cut_rg hi e
    · cases hb; exact hg

theorem groupPattern_post {pat : P LPat} (h : Post text pat fun p => Good text (.pat p)) : Post text (groupPattern pat) fun p => Good text (.pat p) :=
  .skip .tag fun _ => .skip .space0 fun _ => .bind h fun p hp => .skip .space0 fun _ => .skip .tag fun _ =>
    .pure (.intro (fun m r hh => by cases hh) (fun b hb => by cases hb; exact hp))

theorem primary_post {n : Nat} (h : Post text (pattern (byteLen text) n) fun p => Good text (.pat p))
    (h' : Post text (grammarContent (byteLen text) n) fun p => Good text (.items [p])) :
    Post text (primary (byteLen text) n (pattern (byteLen text) n) (grammarContent (byteLen text) n)) fun p => Good text (.pat p) := by
  unfold primary
  refine .alt (.bind (namedPattern_post (f := .element) (fun h1 h2 h3 => .element h1 h2 h3 rfl) h) fun x hx => ?_) <|
    .alt (.bind (namedPattern_post (f := .attribute) (fun h1 h2 h3 => .attribute h1 h2 h3 rfl) h) fun x hx => ?_) <|
    .alt (.skip .tag fun _ => .bind (braced_post h) fun p hp => ?_) <|
    .alt (.skip .tag fun _ => .bind (braced_post h) fun p hp => ?_) <|
    .alt datatypeValuePattern_post <|
    .alt (datatypeParamPattern_post h) <|
    .alt (.bind .rIdentifier fun x hx => ?_) <|
    .alt (.skip .tag fun _ => .skip .space1 fun _ => .bind .rIdentifier fun x hx => ?_) <|
    .alt (.skip .tag fun _ => ?_) <|
    .alt (.skip .tag fun _ => ?_) <|
    .alt (.skip .tag fun _ => ?_) <|
    .alt externalPattern_post <|
    .alt (grammarPattern_post h') <|
    groupPattern_post h
  · refine .pure (.intro (fun m r hh => ?_) (fun b hb => by cases hb; exact hx.2.2))
    cases hh with
    | element => obtain ⟨s, h1, h2⟩ := hx.1; exact .element h1 h2
    | elementName hu => exact .nsPrefix (hx.2.1 _ _ hu)
  · refine .pure (.intro (fun m r hh => ?_) (fun b hb => by cases hb; exact hx.2.2))
    cases hh with
    | «attribute» => obtain ⟨s, h1, h2⟩ := hx.1; exact .attribute h1 h2
    | attributeName hu => exact .nsPrefix (hx.2.1 _ _ hu)
  · exact .pure (.intro (fun m r hh => by cases hh) (fun b hb => by cases hb; exact hp))
  · exact .pure (.intro (fun m r hh => by cases hh) (fun b hb => by cases hb; exact hp))
  · exact .pure (.intro (fun m r hh => by cases hh; exact .ref hx.1 hx.2) (fun b hb => by cases hb))
  · exact .pure (.intro (fun m r hh => by cases hh; exact .parent hx.1 hx.2) (fun b hb => by cases hb))
  · exact .pure (.intro (fun m r hh => by cases hh) (fun b hb => by cases hb))
  · exact .pure (.intro (fun m r hh => by cases hh) (fun b hb => by cases hb))
  · exact .pure (.intro (fun m r hh => by cases hh) (fun b hb => by cases hb))

theorem suffix_of_cons {c : Char} {r i : Str} (h : c :: r <:+ i) : r <:+ i := (List.suffix_cons c r).trans h

theorem operators_post {pat : P LPat} (h : Post text pat fun p => Good text (.pat p)) :
    ∀ n l, Good text (.pat l) → Post text (operators pat n l) fun p => Good text (.pat p)
  | 0, _, _ => fun _ _ _ _ h => by cases h
  | n + 1, l, hl => by
    intro i r a hi ha
    unfold operators at ha
    have key : ∀ i' u, space0 i = .ok i' u → i' <:+ i := fun i' u e => (Post.space0 (text := text) _ _ _ hi e).1
    have bin : ∀ (f : LPat → LPat) (c : Char) (i' : Str), c :: i' <:+ i → (∀ q, Good text (.pat q) → Good text (.pat (f q))) →
        (do space0; let right ← pat; operators pat n (f right) : P LPat) i' = .ok r a → r <:+ i ∧ Good text (.pat a) := by
      intro f c i' hs hf ha
      have : Post text (do space0; let right ← pat; operators pat n (f right) : P LPat) fun p => Good text (.pat p) :=
        .skip .space0 fun _ => .bind h fun q hq => operators_post h n _ (hf q hq)
      obtain ⟨h1, h2⟩ := this _ _ _ ((suffix_of_cons hs).trans hi) ha
      exact ⟨h1.trans (suffix_of_cons hs), h2⟩
    have un : ∀ (q : LPat) (c : Char) (i' : Str), c :: i' <:+ i → Good text (.pat q) → operators pat n q i' = .ok r a → r <:+ i ∧ Good text (.pat a) := by
      intro q c i' hs hq ha
      obtain ⟨h1, h2⟩ := operators_post h n q hq _ _ _ ((suffix_of_cons hs).trans hi) ha
      exact ⟨h1.trans (suffix_of_cons hs), h2⟩
    split at ha
    · next e =>
      refine bin _ _ _ (key _ _ e) (fun q hq => ?_) ha
      exact .intro (fun m r hh => by cases hh) (fun b hb => by cases hb <;> first | exact hl | exact hq)
    · next e =>
      refine bin _ _ _ (key _ _ e) (fun q hq => ?_) ha
      exact .intro (fun m r hh => by cases hh) (fun b hb => by cases hb <;> first | exact hl | exact hq)
    · next e =>
      refine bin _ _ _ (key _ _ e) (fun q hq => ?_) ha
      exact .intro (fun m r hh => by cases hh) (fun b hb => by cases hb <;> first | exact hl | exact hq)
    · next e => exact un _ _ _ (key _ _ e) (.intro (fun m r hh => by cases hh) (fun b hb => by cases hb; exact hl)) ha
    · next e => exact un _ _ _ (key _ _ e) (.intro (fun m r hh => by cases hh) (fun b hb => by cases hb; exact hl)) ha
    · next e => exact un _ _ _ (key _ _ e) (.intro (fun m r hh => by cases hh) (fun b hb => by cases hb; exact hl)) ha
    · cases ha; exact ⟨List.suffix_refl _, hl⟩
    all_goals cases ha

/-! ### grammars -/

/-- a definition: the position of its name, and its pattern -/
def DefGood (text : Str) (x : Rg × Str × AssignMethod × LPat) : Prop :=
  (∀ t, Reads text t (.define x.2.1) x.1) ∧ Good text (.pat x.2.2.2)

theorem startRule_post {pat : P LPat} (h : Post text pat fun p => Good text (.pat p)) : Post text (startRule (byteLen text) pat) (DefGood text) := by
  intro i r x hi hx
  unfold startRule at hx
  obtain ⟨i1, k, h1, hx⟩ := bind_ok hx
  cases h1
  have key : Post text (do
      tag "start".toList
      space0
      let how ← assignMethod
      space0
      let p ← cut pat
      pure ((⟨byteLen text - byteLen i, byteLen text - byteLen i⟩ : Rg), "start".toList, how, p)) fun x =>
      x.1 = rg text i i ∧ x.2.1 = "start".toList ∧ Good text (.pat x.2.2.2) :=
    .skip .tag fun _ => .skip .space0 fun _ => .skip .assignMethod fun _ => .skip .space0 fun _ => .bind (.cut h) fun p hp => .pure ⟨rfl, rfl, hp⟩
  obtain ⟨i2, _, h2, _⟩ := bind_ok hx
  have e := tag_ok h2
  obtain ⟨hs, h3, h4, h5⟩ := key _ _ _ hi hx
  refine ⟨hs, fun t => ?_, h5⟩
  rw [h3, h4]
  exact .start (cut_rg hi (s := []) rfl) (cut_rg hi e) rfl

theorem defineItem_post {pat : P LPat} (h : Post text pat fun p => Good text (.pat p)) : Post text (defineItem (byteLen text) pat) (DefGood text) :=
  .bind .rIdentifier fun x hx => .skip .space0 fun _ => .skip .assignMethod fun _ => .skip .space0 fun _ => .bind (.cut h) fun p hp =>
    .pure ⟨fun t => .define hx.1 hx.2, hp⟩

/-- an override -/
def OvGood (text : Str) : LOverride → Prop
  | .define r id _ p => (∀ t, Reads text t (.define id) r) ∧ Good text (.pat p)
  | _ => True

theorem includeContent_post {pat : P LPat} (h : Post text pat fun p => Good text (.pat p)) :
    ∀ n, Post text (includeContent (byteLen text) pat n) (OvGood text)
  | 0 => fun _ _ _ _ h => by cases h
  | n + 1 => by
    have ih := includeContent_post h n
    intro i
    rw [includeContent]
    revert i
    show Post _ _ _
    exact .skip .initial fun _ => .alt (.skip .annotationElement fun _ => .pure trivial) <|
      .alt (.bind (defineItem_post h) fun x hx => .pure hx) <|
      .alt (.bind (startRule_post h) fun x hx => .pure hx) <|
      .skip .tag fun _ => .skip .space0 fun _ => .skip .tag fun _ => .spacedList (fun i r a hi _ hh => ih i r a hi hh) fun _ _ =>
        .skip .space0 fun _ => .skip (.cut .tag) fun _ => .pure trivial

theorem overrideBlock_post {n : Nat} {pat : P LPat} (h : Post text pat fun p => Good text (.pat p)) :
    Post text (overrideBlock (byteLen text) n pat) fun os => ∀ o ∈ os, OvGood text o :=
  .skip .space0 fun _ => .skip .tag fun _ => .spacedList (fun i r a hi _ hh => includeContent_post h n i r a hi hh) fun os hos =>
    .skip .space0 fun _ => .skip (.cut .tag) fun _ => .pure hos

theorem includeItem_post {n : Nat} {pat : P LPat} (h : Post text pat fun p => Good text (.pat p)) :
    Post text (includeItem (byteLen text) n pat) fun i => Good text (.items [i]) := by
  refine .skip .tag fun _ => .skip .space1 fun _ => .bind .rLiteral fun l hl => .bind (.opt (.skip .space1 fun _ => inherit_post)) fun o ho =>
    .bind (.opt (overrideBlock_post h)) fun os hos => .pure ?_
  have hos := mem_getD hos
  generalize os.getD [] = os at hos
  refine .intro (fun m r hh => ?_) (fun b hb => ?_)
  · cases hh with
    | define hm => cases hm with | tail _ hm => cases hm
    | «include» hm =>
      cases hm with
      | head => obtain ⟨s, h1, h2⟩ := hl; exact .include h1 h2
      | tail _ hm => cases hm
    | inherit hm =>
      rw [List.mem_singleton] at hm
      cases hm
      exact .nsPrefix (ho _ rfl)
    | override hm hm' =>
      rw [List.mem_singleton] at hm
      cases hm
      exact (hos _ hm').1 _
  · cases hb with
    | define hm => cases hm with | tail _ hm => cases hm
    | div hm => cases hm with | tail _ hm => cases hm
    | override hm hm' =>
      rw [List.mem_singleton] at hm
      cases hm
      exact (hos _ hm').2

theorem divItem_post {item : P LItem} (h : Post text item fun i => Good text (.items [i])) : Post text (divItem item) fun i => Good text (.items [i]) := by
  refine .skip .tag fun _ => .skip .space0 fun _ => .skip .tag fun _ => .spacedList (fun i r a hi _ hh => h i r a hi hh) fun is his =>
    .skip .space0 fun _ => .skip (.cut .tag) fun _ => .pure ?_
  refine .intro (fun m r hh => ?_) (fun b hb => ?_)
  · cases hh with
    | define hm => cases hm with | tail _ hm => cases hm
    | «include» hm => cases hm with | tail _ hm => cases hm
    | inherit hm => cases hm with | tail _ hm => cases hm
    | override hm => cases hm with | tail _ hm => cases hm
  · cases hb with
    | define hm => cases hm with | tail _ hm => cases hm
    | div hm =>
      cases hm with
      | head => exact .items his
      | tail _ hm => cases hm
    | override hm => cases hm with | tail _ hm => cases hm

theorem DefGood.item {r : Rg} {id : Str} {how : AssignMethod} {p : LPat} (h : DefGood text (r, id, how, p)) : Good text (.items [.define r id how p]) := by
  refine .intro (fun m r hh => ?_) (fun b hb => ?_)
  · cases hh with
    | define hm =>
      cases hm with
      | head => exact h.1 _
      | tail _ hm => cases hm
    | «include» hm => cases hm with | tail _ hm => cases hm
    | inherit hm => cases hm with | tail _ hm => cases hm
    | override hm => cases hm with | tail _ hm => cases hm
  · cases hb with
    | define hm =>
      cases hm with
      | head => exact h.2
      | tail _ hm => cases hm
    | div hm => cases hm with | tail _ hm => cases hm
    | override hm => cases hm with | tail _ hm => cases hm

theorem good_annotation : Good text (.items [.annotation]) := by
  refine .intro (fun m r hh => ?_) (fun b hb => ?_)
  · cases hh with
    | define hm => cases hm with | tail _ hm => cases hm
    | «include» hm => cases hm with | tail _ hm => cases hm
    | inherit hm => cases hm with | tail _ hm => cases hm
    | override hm => cases hm with | tail _ hm => cases hm
  · cases hb with
    | define hm => cases hm with | tail _ hm => cases hm
    | div hm => cases hm with | tail _ hm => cases hm
    | override hm => cases hm with | tail _ hm => cases hm

theorem main_post : ∀ n, Post text (pattern (byteLen text) n) (fun p => Good text (.pat p)) ∧
    Post text (grammarContent (byteLen text) n) fun i => Good text (.items [i])
  | 0 => ⟨(fun _ _ _ _ h => by cases h), (fun _ _ _ _ h => by cases h)⟩
  | n + 1 => by
    obtain ⟨hp, hi⟩ := main_post n
    constructor
    · intro i
      rw [pattern]
      revert i
      show Post _ _ _
      exact .skip .initial fun _ => .bind (primary_post hp hi) fun p hp' => .skip .follow fun _ => operators_post hp _ _ hp'
    · intro i
      rw [grammarContent]
      revert i
      show Post _ _ _
      exact .alt (.bind (startRule_post hp) fun x hx => .pure hx.item) <|
        .alt (.bind (defineItem_post hp) fun x hx => .pure hx.item) <|
        .alt (divItem_post hi) <|
        .alt (includeItem_post hp) <|
        .skip .annotationElement fun _ => .pure good_annotation

theorem topLevel_post (n : Nat) : Post text (topLevel (byteLen text) n) fun s => Good text s.root := by
  unfold topLevel
  refine .bind (.list0 .decl) fun ds _ => .skip .space0 fun _ =>
    .bind (Q := fun b : LBody => Good text (LSchema.root ⟨ds, b⟩)) ?_ fun b hb => .pure hb
  exact .alt (.bind (.list1 (main_post n).2) fun is his => .pure (.items his)) (.bind (main_post n).1 fun p hp => .pure hp)

/-- every position in the tree of a text shows what it should -/
theorem parse_good {n : Nat} {s : LSchema} (h : parseCompact n text = .ok s) : Good text s.root := by
  unfold parseCompact at h
  cases hc : compactSchema n text with
  | ok r s' =>
    rw [hc] at h
    cases h
    unfold compactSchema allConsuming at hc
    have key : Post text (do
        space0
        let s ← topLevel (byteLen text) n
        space0
        pure s) fun s => Good text s.root := .skip .space0 fun _ => .bind (topLevel_post n) fun s hs => .skip .space0 fun _ => .pure hs
    split at hc
    · next e => cases hc; exact (key _ _ _ (List.suffix_refl _) e).2
    · cases hc
    · next h1 => exact (key _ _ _ (List.suffix_refl _) hc).2
  | _ => rw [hc] at h; cases h

end Verif.LCompact
