import Verif.Proof.CompactViable
/-
Where the parser gives up: names, literals, annotations, name classes.
-/
namespace Verif.ECompact
open Verif EP Rnc
open Verif.Compact (Done)
variable {α β γ : Type}

/-! ### names -/

theorem here_gaveUp {p : Compact.P α} {i l : Str} (h : (EP.here p i).GaveUp l) : l = i := by
  unfold EP.here at h
  cases e : p i <;> rw [e] at h <;> cases h <;> rfl

theorem ncA : NCName ['a'] := by
  have := (Compact.pNcName_inv (i := ['a']) (r := []) (n := ['a']) rfl).2.1
  exact this

theorem identA : Ident ['a'] := by
  have := (Compact.identifier_inv (i := ['a']) (r := []) (w := ['a']) rfl).2.1
  exact this

theorem V.pNcName {D : Str → Prop} : V D pNcName (fun n w => w = n ∧ NCName n) Left :=
  .here (fun _ _ _ _ h => by obtain ⟨e, hn, _⟩ := Compact.pNcName_inv h; exact ⟨_, e, ⟨rfl, hn⟩, trivial⟩) ⟨_, _, rfl, ncA⟩

theorem V.keyword {D : Str → Prop} : V D keyword (fun k w => w = k ∧ Keyword k) Left := by
  unfold ECompact.keyword keywordTag notNameChar
  refine V.bind (S := fun k w => w = k ∧ Keyword k) (E := Left) (.here (fun i _ r a h => ?_) ⟨"list".toList, _, rfl, by unfold Rnc.Keyword; decide⟩) fun k w hw => ?_
  · obtain ⟨hk, e⟩ := Compact.keywordTag_ok h
    exact ⟨_, e, ⟨rfl, hk⟩, trivial⟩
  refine V.bind (S := fun _ w => w = []) (E := Left) (.here (fun i _ r a h => ?_) ⟨(), [], rfl⟩) fun _ x hx => ?_
  · refine ⟨[], ?_, rfl, trivial⟩
    cases i with
    | nil => cases h; rfl
    | cons c cs =>
      by_cases hc : ncNameChar c = true
      · simp only [Compact.notNameChar, if_pos hc] at h; cases h
      · simp only [Compact.notNameChar, if_neg hc] at h; cases h; rfl
  · subst hx
    exact .pure (by simpa using hw) (fun _ _ => trivial)

theorem identifier_gaveUp {i l : Str} (h : (ECompact.identifier i).GaveUp l) : l = i := by
  unfold ECompact.identifier EP.alt at h
  cases e : (do EP.tag ['\\']; let k ← ECompact.keyword; Pure.pure ('\\' :: k) : EP Str) i with
  | err l' =>
    rw [e] at h
    rcases bind_gaveUp h with h2 | ⟨r, a, h1, h2⟩
    · exact here_gaveUp h2
    · have : r = i := by
        have h1 := plain_ok h1
        unfold notKeyword at h1
        rw [plain_here] at h1
        unfold Compact.notKeyword at h1
        split at h1 <;> cases h1
        rfl
      subst this
      exact here_gaveUp h2
  | fail l' =>
    have : (do EP.tag ['\\']; let k ← ECompact.keyword; Pure.pure ('\\' :: k) : EP Str).plain i = .fail := by show (ERes.plain _) = _; rw [e]; rfl
    simp only [plain_bind, plain_pure, plain_tag, plain_keyword] at this
    rcases Compact.tag_cases ['\\'] i with h | ⟨r, _, h⟩
    · rw [Compact.bind_of_err h] at this; cases this
    · rw [Compact.bind_of_ok h] at this
      cases e : Compact.keyword r with
      | ok r' k => rw [Compact.bind_of_ok e] at this; cases this
      | err => rw [Compact.bind_of_err e] at this; cases this
      | fail =>
        unfold Compact.keyword at e
        rcases Compact.keywordTag_total Compact.keywords r with h | ⟨r', k, h⟩
        · rw [Compact.bind_of_err h] at e; cases e
        · rw [Compact.bind_of_ok h] at e
          change Compact.P.bind Compact.notNameChar _ r' = _ at e
          unfold Compact.P.bind at e
          cases r' with
          | nil => cases e
          | cons c cs =>
            by_cases hc : ncNameChar c = true
            · simp only [Compact.notNameChar, if_pos hc] at e; cases e
            · simp only [Compact.notNameChar, if_neg hc] at e; cases e
      | _ => change Compact.P.bind Compact.keyword _ r = _ at this; unfold Compact.P.bind at this; rw [e] at this; cases this
  | _ => rw [e] at h; cases h

theorem V.identifier {D : Str → Prop} : V D identifier (fun s w => w = s ∧ Ident s) Left where
  sound := by
    intro i _ r a h
    have h := plain_ok h
    rw [plain_identifier] at h
    obtain ⟨e, hw, _⟩ := Compact.identifier_inv h
    exact ⟨_, e, ⟨rfl, hw⟩, trivial⟩
  gives := by
    intro i _ l h
    have := identifier_gaveUp h
    subst this
    exact ⟨[], _, _, rfl, rfl, identA⟩
  inh := ⟨_, _, rfl, identA⟩

theorem V.anyIdent {D : Str → Prop} : V D identifierOrKeyword (fun s w => w = s ∧ AnyIdent s) Left :=
  V.alt' (V.identifier.to fun _ _ h => ⟨h.1, .ident h.2⟩) (V.keyword.to fun _ _ h => ⟨h.1, .keyword h.2⟩)

theorem V.cname {D : Str → Prop} : V D cname (fun x w => w = x.1 ++ ':' :: x.2 ∧ NCName x.1 ∧ NCName x.2) Left := by
  unfold ECompact.cname
  refine V.bind V.pNcName fun p w h1 => V.bind (.tag _) fun _ x h2 => V.bind V.pNcName fun n y h3 => .pure ?_ (fun _ _ => trivial)
  obtain ⟨⟨rfl, h1⟩, rfl, rfl, h3⟩ := And.intro h1 (And.intro h2 h3)
  exact ⟨by simp, h1, h3⟩

theorem V.pName {D : Str → Prop} : V D pName (fun a w => Name a w) Left := by
  unfold ECompact.pName
  refine V.alt' (V.bind V.cname fun x w h => .pure ?_ (fun _ _ => trivial)) (V.bind V.anyIdent fun x w h => .pure ?_ (fun _ _ => trivial))
  · obtain ⟨rfl, h1, h2⟩ := h
    simpa using Name.cname h1 h2
  · obtain ⟨rfl, h⟩ := h
    simpa using Name.ident h

/-! ### literals -/

theorem V.takeUntil3 {D : Str → Prop} (q : Char) : V D (takeUntil3 q) (fun s w => w = s ∧ Body3 q s) Left :=
  .here (fun _ _ _ _ h => by obtain ⟨_, _, e, hb⟩ := Compact.takeUntil3_inv h; exact ⟨_, e, ⟨rfl, hb⟩, trivial⟩) ⟨[], [], rfl, .nil⟩

theorem V.upToQuote {D : Str → Prop} (q : Char) : V D (upToQuote q) (fun s w => w = s ∧ ∀ c ∈ s, c ≠ q ∧ c ≠ '\n') Left := by
  refine .here (fun i _ r s h => ?_) ⟨[], [], rfl, nofun⟩
  cases h
  refine ⟨_, (List.takeWhile_append_dropWhile).symm, ⟨rfl, fun c hc => ?_⟩, trivial⟩
  have := Compact.mem_takeWhile hc
  simpa using this

theorem V.tripleQuoted {D : Str → Prop} {q : Char} (hq : q = '"' ∨ q = '\'') : V D (tripleQuoted q) Segment Left := by
  unfold ECompact.tripleQuoted
  refine V.bind (.tag _) fun _ w h1 => V.bind (V.takeUntil3 q) fun s x h2 => V.bind (.tag _) fun _ y h3 => .pure ?_ (fun _ _ => trivial)
  obtain ⟨rfl, ⟨rfl, h2⟩, rfl⟩ := And.intro h1 (And.intro h2 h3)
  simpa using Segment.triple hq h2

theorem V.quoted {D : Str → Prop} {q : Char} (hq : q = '"' ∨ q = '\'') : V D (quoted q) Segment Left := by
  unfold ECompact.quoted
  refine V.bind (.tag _) fun _ w h1 => V.bind (V.upToQuote q) fun s x h2 => V.bind (.tag _) fun _ y h3 => .pure ?_ (fun _ _ => trivial)
  obtain ⟨rfl, ⟨rfl, h2⟩, rfl⟩ := And.intro h1 (And.intro h2 h3)
  simpa using Segment.single hq h2

theorem V.segment {D : Str → Prop} : V D literalSegment Segment Left :=
  V.alt' (.tripleQuoted (.inl rfl)) (V.alt' (.tripleQuoted (.inr rfl)) (V.alt' (.quoted (.inl rfl)) (.quoted (.inr rfl))))

/-- between the pieces of a literal -/
def Tilde (w : Str) : Prop := ∃ g g', Gap g ∧ Gap g' ∧ w = g ++ '~' :: g'

theorem literal_chain : ∀ {as : List Str} {t : Str}, Chain Tilde Segment as t → ∀ {a s : Str}, Segment a s → Literal (a :: as).flatten (s ++ t)
  | _, _, .nil, a, s, h => by simpa using Literal.one h
  | _, _, .cons ⟨g, g', hg, hg', e⟩ hr ht, a, s, h => by
    have := Literal.more h hg hg' (literal_chain ht hr)
    subst e
    simpa using this

theorem V.literal {D : Str → Prop} : V D literal Literal Left := by
  unfold ECompact.literal
  have sep : V Any (do ECompact.space0; EP.tag ['~']; ECompact.space0 : EP Unit) (fun _ => Tilde) Left := by
    refine V.bind V.space0 fun _ g hg => V.bind (.tag _) fun _ x hx => V.space0.to fun _ g' hg' => ?_
    subst hx
    exact ⟨g, g', hg, hg', by simp⟩
  refine V.bind (V.sepList1 (Ds := Any) sep V.segment (fun _ _ => trivial)) fun segs w h => .pure ?_ (fun _ _ => trivial)
  obtain ⟨a, s, as, t, rfl, rfl, ha, ht⟩ := h
  simpa using literal_chain ht ha

theorem V.uri {D : Str → Prop} : V D namespaceUriLiteral NsUri Left := by
  unfold ECompact.namespaceUriLiteral
  refine V.alt' (V.bind (.tag _) fun _ w h => .pure ?_ (fun _ _ => trivial)) (V.bind V.literal fun l w h => .pure ?_ (fun _ _ => trivial))
  · subst h; simpa using NsUri.inherit
  · simpa using NsUri.uri h

/-! ### annotations -/

theorem V.annAttr {D : Str → Prop} : V D annotationAttribute AnnAttr Left := by
  unfold ECompact.annotationAttribute
  refine V.bind V.pName fun n s h1 => V.bind V.space0 fun _ g h2 => V.bind (.tag _) fun _ x h3 => V.bind V.space0 fun _ g' h4 =>
    V.bind V.literal fun v t h5 => .pure ?_ (fun _ _ => trivial)
  subst h3
  simpa using AnnAttr.mk h1 h2 h4 h5

theorem annA : AnnElem False () ['a', '[', ']'] := by
  have := AnnElem.mk (strict := False) (.ident (.ident identA)) .nil .nil .nil .nil .nil .nil (.inl rfl)
  simpa using this

theorem V.annElem {D : Str → Prop} : ∀ n, V D (annotationElement n) (AnnElem False) Left
  | 0 => ⟨(by intro i _ r a h; cases h), (by intro i _ l h; cases h), ⟨(), _, annA⟩⟩
  | n + 1 => by
    have ih : V Done (annotationElement n) (AnnElem False) Left := V.annElem n
    have part : V Done (EP.alt (annotationElement n) (do let _ ← ECompact.literal; Pure.pure ())) (AnnPart False) Left := by
      refine V.alt' (ih.to fun _ _ h => .elem h) (V.bind V.literal fun v w h => .pure ?_ (fun _ _ => trivial))
      simpa using AnnPart.literal h
    have key : V D (do
        let _ ← ECompact.pName
        ECompact.space0
        EP.tag ['[']
        ECompact.space0
        let _ ← EP.sepList0 ECompact.space1 ECompact.annotationAttribute
        ECompact.space0
        let _ ← EP.sepList0 ECompact.space1 (EP.alt (annotationElement n) (do let _ ← ECompact.literal; Pure.pure ()))
        ECompact.space0
        EP.tag [']'] : EP Unit) (AnnElem False) Left := by
      refine V.bind V.pName fun n s h1 => V.bind V.space0 fun _ g1 h2 => V.bind (.tag _) fun _ x h3 => V.bind V.space0 fun _ g2 h4 =>
        V.bind (V.list0 V.annAttr) fun as t1 h5 => V.bind V.space0 fun _ g3 h6 => V.bind (V.list0 part) fun es t2 h7 => V.bind V.space0 fun _ g4 h8 =>
        (V.tag _).to fun _ y h9 => ?_
      subst h3 h9
      simpa using AnnElem.mk h1 h2 h4 h5 h6 h7 h8 (.inr nofun)
    exact ⟨fun {i} hd {r a} h => key.sound hd (by rw [annotationElement] at h; exact h),
      fun {i} hd {l} h => key.gives hd (by rw [annotationElement] at h; exact h), key.inh⟩

theorem V.init {D : Str → Prop} (n : Nat) : V D (maybeInitialAnnotation n) (fun o w => Init False w ∧ (o = some () → w ≠ [])) (fun _ r => (∃ i, D i ∧ (i = r)) ∨ Done r) := by
  unfold ECompact.maybeInitialAnnotation
  have ini : V D (initialAnnotation n) (fun _ w => Initial False w) Left := by
    unfold ECompact.initialAnnotation
    refine V.bind (.tag _) fun _ x h3 => V.bind V.space0 fun _ g2 h4 =>
        V.bind (V.list0 V.annAttr) fun as t1 h5 => V.bind V.space0 fun _ g3 h6 => V.bind (V.list0 (V.annElem n)) fun es t2 h7 => V.bind V.space0 fun _ g4 h8 =>
        (V.tag _).to fun _ y h9 => ?_
    subst h3 h9
    simpa using Initial.mk h4 h5 h6 h7 h8
  have one : V D (do initialAnnotation n; ECompact.space0 : EP Unit) (fun _ w => Init False w ∧ w ≠ []) (fun _ => Done) :=
    ini.bind fun _ w h => V.space0.mono (fun _ _ => trivial) (fun _ g hg => ⟨.some h hg, by cases h; simp⟩) (fun _ _ h => h)
  refine (V.opt (F := fun _ r => (∃ i, D i ∧ (i = r)) ∨ Done r) one (fun i h => .inl ⟨i, h, rfl⟩) (fun _ _ h => .inr h)).mono (fun _ h => h) (fun o w h => ?_) (fun _ _ h => h)
  cases o with
  | none => cases h; exact ⟨.none, nofun⟩
  | some u => exact ⟨h.1, fun _ => h.2⟩

/-- an initial annotation leaves nothing to skip -/
theorem V.initDone (n : Nat) : V Done (maybeInitialAnnotation n) (fun o w => Init False w ∧ (o = some () → w ≠ [])) (fun _ => Done) :=
  (V.init (D := Done) n).mono (fun _ h => h) (fun _ _ h => h) fun _ r h => by
    rcases h with ⟨_, h, rfl⟩ | h <;> exact h

/-! ### name classes -/

/-- what comes before the annotations that follow a name class -/
inductive NcLeft : SNameClass → Str → Prop
  | base {a s} : NcBase False a s → NcLeft a s
  | anyExcept {g g' e t} : Gap g → Gap g' → Nc False e t → NcLeft (.anyNameExcept e) ('*' :: g ++ '-' :: g' ++ t)
  | nsExcept {p g g' e t} : NCName p → Gap g → Gap g' → Nc False e t → NcLeft (.nsNameExcept (.pre p) e) (p ++ ':' :: '*' :: g ++ '-' :: g' ++ t)

theorem NcLeft.nc {a : SNameClass} {s i : Str} (h : NcLeft a s) (hi : Init False i) : Nc False a (i ++ s) := by
  cases h with
  | base h => simpa using Nc.base hi h .nil (.inr rfl)
  | anyExcept h1 h2 h3 => simpa using Nc.anyExcept hi h1 h2 h3
  | nsExcept h0 h1 h2 h3 => simpa using Nc.nsExcept hi h0 h1 h2 h3

/-- the exception of a name class -/
def ExceptS (e : SNameClass) (w : Str) : Prop := ∃ g g' t, Gap g ∧ Gap g' ∧ Nc False e t ∧ w = g ++ '-' :: g' ++ t

theorem V.exceptNc {D : Str → Prop} {nc : EP SNameClass} (h : V Done nc (Nc False) Left) : V D (exceptNc nc) (OptS ExceptS) Left := by
  unfold ECompact.exceptNc
  refine V.opt (E := Left) ?_ (fun _ _ => trivial) (fun _ _ _ => trivial)
  refine V.bind V.space0 fun _ g h1 => V.bind (.tag _) fun _ x h2 => V.bind V.space0 fun _ g' h3 => h.to fun e t h4 => ?_
  subst h2
  exact ⟨g, g', t, h1, h3, h4, by simp⟩

theorem V.ncLeft {D : Str → Prop} {nc : EP SNameClass} (h : V Done nc (Nc False) Left) :
    V D (EP.alt (nsNameNc nc) (EP.alt ECompact.pName (EP.alt (anyNameNc nc) (parenNc nc)))) NcLeft Left := by
  refine V.alt' ?_ (V.alt' (V.pName.to fun _ _ h => .base (.name h)) (V.alt' ?_ ?_))
  · unfold ECompact.nsNameNc
    refine V.bind V.pNcName fun p w h1 => V.bind (.tag _) fun _ x h2 => V.bind (V.exceptNc h) fun o y h3 => ?_
    obtain ⟨⟨rfl, h1⟩, rfl⟩ := And.intro h1 h2
    cases o with
    | none => cases h3; exact .pure (by simpa using NcLeft.base (.nsName h1)) (fun _ _ => trivial)
    | some e =>
      obtain ⟨g, g', t, h4, h5, h6, rfl⟩ := h3
      exact .pure (by simpa using NcLeft.nsExcept h1 h4 h5 h6) (fun _ _ => trivial)
  · unfold ECompact.anyNameNc
    refine V.bind (.tag _) fun _ x h2 => V.bind (V.exceptNc h) fun o y h3 => ?_
    subst h2
    cases o with
    | none => cases h3; exact .pure (by simpa using NcLeft.base .anyName) (fun _ _ => trivial)
    | some e =>
      obtain ⟨g, g', t, h4, h5, h6, rfl⟩ := h3
      exact .pure (by simpa using NcLeft.anyExcept h4 h5 h6) (fun _ _ => trivial)
  · unfold ECompact.parenNc
    refine V.bind (.tag _) fun _ x h1 => V.bind V.space0 fun _ g h2 => V.bind h fun a s h3 => V.bind V.space0 fun _ g' h4 => V.bind (.tag _) fun _ y h5 =>
      .pure ?_ (fun _ _ => trivial)
    subst h1 h5
    simpa using NcLeft.base (.paren h2 h3 h4)

end Verif.ECompact
