import Verif.Proof.CompactViable3
/-
Where the parser gives up: patterns without operators.
-/
namespace Verif.ECompact
open Verif EP Rnc
open Verif.Compact (Done NoName)
variable {α β γ : Type}

theorem tag_not_fail {t i l : Str} : EP.tag t i ≠ .fail l := by
  intro h
  have : (EP.tag t).plain i = .fail := by show (ERes.plain _) = _; rw [h]; rfl
  rw [plain_tag] at this
  exact Soft.tag t i this

theorem space0_not_fail {i l : Str} : ECompact.space0 i ≠ .fail l := by
  intro h
  have : ECompact.space0.plain i = .fail := by show (ERes.plain _) = _; rw [h]; rfl
  rw [plain_space0] at this
  exact Soft.space0 i this

theorem opt_gaveUp {p : EP α} {i l : Str} (h : (EP.opt p i).GaveUp l) : p i = .fail l := by
  unfold EP.opt at h
  cases e : p i with
  | fail l' => rw [e] at h; cases h; rfl
  | _ => rw [e] at h; cases h

theorem bind_fail {p : EP α} {f : α → EP β} {i l : Str} (h : (p >>= f) i = .fail l) :
    p i = .fail l ∨ ∃ r a, p i = .ok r a ∧ f a r = .fail l := by
  change EP.bind p f i = _ at h
  unfold EP.bind at h
  cases e : p i with
  | ok r a => rw [e] at h; exact .inr ⟨r, a, rfl, h⟩
  | fail l' => rw [e] at h; cases h; exact .inl rfl
  | _ => rw [e] at h; cases h

theorem tag_ok {t i r : Str} {u : Unit} (h : EP.tag t i = .ok r u) : i = t ++ r := by
  have h := plain_ok h
  rw [plain_tag] at h
  exact Compact.tag_ok h

theorem prefix_trans {k p r : Str} (h : k <+: p) : k <+: p ++ r := by
  obtain ⟨x, rfl⟩ := h
  exact ⟨x ++ r, by simp⟩

theorem tag_err {α : Type} {k i l : Str} {d : α} (h : (do EP.tag k; Pure.pure d : EP α) i = .err l) : ¬ k <+: i := by
  rintro ⟨x, rfl⟩
  have h := plain_err h
  rw [plain_bind, plain_tag, Compact.bind_of_ok (Compact.tag_append _ _)] at h
  cases h

theorem referableA : Referable ['a'] := by unfold Referable; decide

theorem V.datatypeName {D : Str → Prop} : V D datatypeName Rnc.DtName (fun d r => (∃ p n, d = .cname p n) → NoName r) where
  sound := by
    intro i _ r d h
    have h := plain_ok h
    rw [plain_datatypeName] at h
    obtain ⟨s, e, hs, hn⟩ := Compact.dtName_inv h
    exact ⟨s, e, hs, hn⟩
  gives := by
    intro i _ l h
    have key : V (fun i => (Any i ∧ ∃ l, (do EP.tag "string".toList; Pure.pure .string : EP SDtName) i = .err l) ∧
        ∃ l, (do EP.tag "token".toList; Pure.pure .token : EP SDtName) i = .err l)
        (do let (p, n) ← ECompact.cname; Pure.pure (.cname p n)) Rnc.DtName Left := by
      refine ⟨?_, ?_, _, _, .string⟩
      · rintro i ⟨⟨_, _, h1⟩, _, h2⟩ r d h
        obtain ⟨i', ⟨p, n⟩, k, k'⟩ := bind_okE h
        cases k'
        have k := plain_ok k
        rw [plain_cname] at k
        obtain ⟨e, hp, hn, _⟩ := Compact.cname_inv k
        refine ⟨_, e, .cname hp ⟨fun hk => tag_err h1 ?_, fun hk => tag_err h2 ?_⟩ hn, trivial⟩ <;>
        · rw [e]; exact prefix_trans (prefix_trans hk)
      · rintro i ⟨⟨_, _, h1⟩, _, h2⟩ l h
        have ref : ∀ {p r : Str}, i = p ++ r → Referable p := fun e =>
          ⟨fun hk => tag_err h1 (by rw [e]; exact prefix_trans hk), fun hk => tag_err h2 (by rw [e]; exact prefix_trans hk)⟩
        rcases bind_gaveUp h with h | ⟨_, _, _, h⟩
        · unfold ECompact.cname at h
          rcases bind_gaveUp h with h | ⟨i1, p, e1, h⟩
          · have := here_gaveUp h
            subst this
            exact ⟨[], ['a', ':', 'a'], .cname ['a'] ['a'], rfl, .cname ncA referableA ncA⟩
          obtain ⟨w, e1', ⟨rfl, hp⟩, _⟩ := (V.pNcName (D := Any)).sound trivial e1
          have hr := ref e1'
          rcases bind_gaveUp h with h | ⟨i2, _, e2, h⟩
          · have := here_gaveUp h
            subst this
            exact ⟨w, _, _, e1', .cname hp hr ncA⟩
          have e2 := tag_ok e2
          rcases bind_gaveUp h with h | ⟨i3, _, e3, h⟩
          · have := here_gaveUp h
            subst this
            exact ⟨w ++ [':'], ['a'], _, by rw [e1', e2]; simp, by simpa using Rnc.DtName.cname hp hr ncA⟩
          · cases h
        · cases h
    have all : V Any ECompact.datatypeName Rnc.DtName Left :=
      V.alt (V.bind (.tag _) fun _ w h => .pure (by subst h; simpa using Rnc.DtName.string) (fun _ _ => trivial))
        (V.alt (V.bind (.tag _) fun _ w h => .pure (by subst h; simpa using Rnc.DtName.token) (fun _ _ => trivial)) key)
    exact all.gives trivial h
  inh := ⟨_, _, .string⟩

theorem V.value : V Done datatypeValuePattern (Prim False) Left := by
  unfold ECompact.datatypeValuePattern
  refine V.bind (V.opt (F := fun o r => o = none → Done r) V.datatypeName (fun _ h _ => h) (fun _ _ _ => nofun)) fun o s hs => ?_
  cases o with
  | none =>
    cases hs
    refine V.bind (V.space0Done.mono (fun _ h => h rfl) (fun _ _ h => h) (fun _ _ h => h)) fun _ g hg => V.bind V.literal fun v t ht => .pure ?_ (fun _ _ => trivial)
    subst hg
    simpa using Prim.value ht
  | some d =>
    refine V.bind V.space0 fun _ g hg => V.bind V.literal fun v t ht => .pure ?_ (fun _ _ => trivial)
    simpa using Prim.typedValue hs hg ht

theorem V.param (n : Nat) : V Done (param n) (Par False) Left := by
  unfold ECompact.param
  refine V.bind (V.initDone n) fun _ i h1 => V.bind V.space0Done fun _ g0 h2 => V.bind V.anyIdent fun nm s h3 => V.bind V.space0 fun _ g1 h4 =>
    V.bind (.tag _) fun _ x h5 => V.bind V.space0 fun _ g2 h6 => V.bind V.literal fun v t h7 => .pure ?_ (fun _ _ => trivial)
  obtain ⟨rfl, rfl, ⟨rfl, h3⟩⟩ := And.intro h2 (And.intro h5 h3)
  simpa using Par.mk h1.1 h3 h4 h6 h7

theorem V.params {D : Str → Prop} (n : Nat) : V D (params n) (fun ps w => Pars False ps w ∧ w ≠ []) Left := by
  unfold ECompact.params
  refine V.bind V.space0 fun _ g1 h1 => V.bind (.tag _) fun _ x h2 => V.bind V.space0 fun _ g2 h3 => V.bind (V.list0 (V.param n)) fun ps t h4 =>
    V.bind V.space0 fun _ g3 h5 => V.bind (.cut (.tag _)) fun _ y h6 => .pure ?_ (fun _ _ => trivial)
  obtain ⟨rfl, rfl⟩ := And.intro h2 h6
  exact ⟨by simpa using Pars.some h1 h3 h4 h5, by simp⟩

/-- the parser of patterns is right about the place -/
abbrev VPat (pat : EP SPattern) : Prop := V Done pat (fun p w => ∃ b, Rnc.Pat False p b w) Left
/-- the parser of the entries of grammars is right about the place -/
abbrev VItem (item : EP SItem) : Prop := V Done item (Item False) Left

/-- `datatype - pattern` -/
def ExceptP (p : SPattern) (t : Str) : Prop :=
  ∃ d s ps u g g' e c t', t = s ++ u ++ g ++ '-' :: g' ++ t' ∧ p = .dataExcept d ps e ∧ Rnc.DtName d s ∧ Pars False ps u ∧ Gap g ∧ Gap g' ∧
    (u ++ g = [] → ¬ False ∧ ∀ p n, d ≠ .cname p n) ∧ Rnc.Pat False e c t'

/-- a pattern without operators, or `datatype - pattern` -/
def PrimS (p : SPattern) (t : Str) : Prop := Prim False p t ∨ ExceptP p t

/-- the exception of a datatype -/
theorem V.dataExcept {pat : EP SPattern} (hp : VPat pat) {d : SDtName} {u : Str} :
    V (fun r => u = [] → (∃ p n, d = .cname p n) → NoName r) (EP.opt (do ECompact.space0; EP.tag ['-']; ECompact.space0; pat))
      (OptS fun e w => ∃ g g' c t, w = g ++ '-' :: g' ++ t ∧ Gap g ∧ Gap g' ∧ (u ++ g = [] → ¬ False ∧ ∀ p n, d ≠ .cname p n) ∧ Rnc.Pat False e c t) Left := by
  have cond : ∀ {g r r' : Str}, (u = [] → (∃ p n, d = .cname p n) → NoName r) → r = g ++ '-' :: r' → u ++ g = [] → ¬ False ∧ ∀ p n, d ≠ .cname p n := by
    intro g r r' hd e h0
    obtain ⟨rfl, rfl⟩ := List.append_eq_nil_iff.mp h0
    refine ⟨id, fun p n ed => ?_⟩
    have := hd rfl ⟨p, n, ed⟩ '-' r' e
    revert this; decide
  refine ⟨?_, ?_, none, [], rfl⟩
  · intro i hd r o h
    cases o with
    | none =>
      unfold EP.opt at h
      cases e : (do ECompact.space0; EP.tag ['-']; ECompact.space0; pat : EP SPattern) i with
      | err l => rw [e] at h; cases h; exact ⟨[], rfl, rfl, trivial⟩
      | _ => rw [e] at h; cases h
    | some x =>
      unfold EP.opt at h
      cases e : (do ECompact.space0; EP.tag ['-']; ECompact.space0; pat : EP SPattern) i with
      | ok r' x' =>
        rw [e] at h
        cases h
        obtain ⟨j1, _, k1, h⟩ := bind_okE e
        obtain ⟨j2, _, k2, h⟩ := bind_okE h
        obtain ⟨j3, _, k3, h⟩ := bind_okE h
        obtain ⟨g, e1, hg, _⟩ := (V.space0 (D := Any)).sound trivial k1
        have e2 := tag_ok k2
        obtain ⟨g', e3, hg', hd'⟩ := (V.space0 (D := Any)).sound trivial k3
        obtain ⟨t, e4, ⟨c, ht⟩, _⟩ := hp.sound hd' h
        exact ⟨_, by rw [e1, e2, e3, e4]; simp, ⟨g, g', c, t, rfl, hg, hg', cond hd (r' := j2) (by rw [e1, e2]; rfl), ht⟩, trivial⟩
      | _ => rw [e] at h; cases h
  · intro i hd l h
    have h := opt_gaveUp h
    rcases bind_fail h with h | ⟨j1, _, k1, h⟩
    · exact absurd h space0_not_fail
    rcases bind_fail h with h | ⟨j2, _, k2, h⟩
    · exact absurd h tag_not_fail
    rcases bind_fail h with h | ⟨j3, _, k3, h⟩
    · exact absurd h space0_not_fail
    obtain ⟨g, e1, hg, _⟩ := (V.space0 (D := Any)).sound trivial k1
    have e2 := tag_ok k2
    obtain ⟨g', e3, hg', hd'⟩ := (V.space0 (D := Any)).sound trivial k3
    obtain ⟨t, v, e, e4, ⟨c, ht⟩⟩ := hp.gives hd' (l := l) (by rw [h]; exact .fail)
    refine ⟨g ++ '-' :: g' ++ t, v, some e, by rw [e1, e2, e3, e4]; simp, g, g', c, t ++ v, by simp, hg, hg', cond hd (r' := j2) (by rw [e1, e2]; rfl), ht⟩

theorem V.dataParam {D : Str → Prop} {pat : EP SPattern} (hp : VPat pat) (n : Nat) : V D (datatypeParamPattern n pat) PrimS Left := by
  unfold ECompact.datatypeParamPattern
  refine V.bind V.datatypeName fun d s hs => V.bind (V.opt (F := fun o r => o = none → (∃ p n, d = .cname p n) → NoName r) (V.params n) (fun _ h _ => h) (fun _ _ _ => nofun)) fun o u hu => ?_
  have hu' : Pars False (o.getD []) u ∧ (u = [] → o = none) := by
    cases o with
    | none => cases hu; exact ⟨.none, fun _ => rfl⟩
    | some ps => exact ⟨hu.1, fun h => absurd h hu.2⟩
  refine V.bind ((V.dataExcept hp (d := d) (u := u)).mono (fun _ h h0 => h (hu'.2 h0)) (fun _ _ h => h) (fun _ _ h => h)) fun ex w hw => ?_
  cases ex with
  | none => cases hw; exact .pure (.inl (by simpa using Prim.data hs hu'.1)) (fun _ _ => trivial)
  | some e =>
    obtain ⟨g, g', c, t, rfl, hg, hg', hc, ht⟩ := hw
    exact .pure (.inr ⟨d, s, _, u, g, g', e, c, t, by simp, rfl, hs, hu'.1, hg, hg', hc, ht⟩) (fun _ _ => trivial)

theorem V.braced {D : Str → Prop} {pat : EP SPattern} (hp : VPat pat) : V D (braced pat) (Braced False) Left := by
  unfold ECompact.braced
  refine V.bind V.space0 fun _ g1 h1 => V.bind (.tag _) fun _ x h2 => V.bind V.space0 fun _ g2 h3 => V.bind (.cut hp) fun p s h4 => V.bind V.space0 fun _ g3 h5 =>
    V.bind (.cut (.tag _)) fun _ y h6 => .pure ?_ (fun _ _ => trivial)
  obtain ⟨rfl, rfl, ⟨b, h4⟩⟩ := And.intro h2 (And.intro h6 h4)
  simpa using Braced.mk h1 h3 h4 h5

theorem V.named {D : Str → Prop} {pat : EP SPattern} (hp : VPat pat) (kw : Str) (n : Nat) :
    V D (namedPattern kw (ECompact.nameClass n) pat) (fun x w => ∃ g s t, w = kw ++ g ++ s ++ t ∧ Sep g ∧ Nc False x.1 s ∧ Braced False x.2 t) Left := by
  unfold ECompact.namedPattern
  refine V.bind (.tag _) fun _ x h1 => V.bind V.space1 fun _ g h2 => V.bind (V.nameClass n) fun c s h3 => V.bind (V.braced hp) fun p t h4 => .pure ?_ (fun _ _ => trivial)
  subst h1
  exact ⟨g, s, t, by simp, h2, h3, h4⟩

theorem V.inherit {D : Str → Prop} : V D (EP.opt (do ECompact.space1; ECompact.inherit)) Inherit Left := by
  have : V D (do ECompact.space1; ECompact.inherit) (fun p w => Inherit (some p) w) Left := by
    unfold ECompact.inherit
    refine V.bind V.space1 fun _ g h1 => V.bind (.tag _) fun _ x h2 => V.bind V.space0 fun _ g1 h3 => V.bind (.tag _) fun _ y h4 => V.bind V.space0 fun _ g2 h5 =>
      V.anyIdent.to fun p w h6 => ?_
    obtain ⟨rfl, rfl, ⟨rfl, h6⟩⟩ := And.intro h2 (And.intro h4 h6)
    simpa using Inherit.some h1 h3 h5 h6
  refine (V.opt (F := Left) this (fun _ _ => trivial) (fun _ _ _ => trivial)).to fun o w h => ?_
  cases o with
  | none => cases h; exact .none
  | some p => exact h

theorem V.external {D : Str → Prop} : V D externalPattern (Prim False) Left := by
  unfold ECompact.externalPattern
  refine V.bind (.tag _) fun _ x h1 => V.bind V.space1 fun _ g h2 => V.bind V.literal fun v t h3 => V.bind V.inherit fun o u h4 => .pure ?_ (fun _ _ => trivial)
  subst h1
  simpa using Prim.external h2 h3 h4

theorem V.grammar {D : Str → Prop} {item : EP SItem} (hi : VItem item) : V D (grammarPattern item) (Prim False) Left := by
  unfold ECompact.grammarPattern
  refine V.bind (.tag _) fun _ x h1 => V.bind V.space0 fun _ g h2 => V.bind (.tag _) fun _ y h3 => V.bind V.space0 fun _ g' h4 => V.bind (V.list0 hi) fun is t h5 =>
    V.bind V.space0 fun _ g'' h6 => V.bind (.cut (.tag _)) fun _ z h7 => .pure ?_ (fun _ _ => trivial)
  obtain ⟨rfl, rfl, rfl⟩ := And.intro h1 (And.intro h3 h7)
  simpa using Prim.grammar h2 h4 h5 h6

theorem V.group {D : Str → Prop} {pat : EP SPattern} (hp : VPat pat) : V D (groupPattern pat) (Prim False) Left := by
  unfold ECompact.groupPattern
  refine V.bind (.tag _) fun _ x h1 => V.bind V.space0 fun _ g h2 => V.bind hp fun p s h3 => V.bind V.space0 fun _ g' h4 => V.bind (.tag _) fun _ y h5 =>
    .pure ?_ (fun _ _ => trivial)
  obtain ⟨rfl, rfl, ⟨b, h3⟩⟩ := And.intro h1 (And.intro h5 h3)
  simpa using Prim.paren h2 h3 h4

theorem V.ident {D : Str → Prop} (hD : ∀ i, D i → Compact.datatypeName i = .err) :
    V D (do let i ← ECompact.identifier; Pure.pure (.ident i)) (Prim False) Left where
  sound := by
    intro i hd r p h
    obtain ⟨i', w, k, k'⟩ := bind_okE h
    cases k'
    obtain ⟨_, e, ⟨rfl, hw⟩, _⟩ := (V.identifier (D := Any)).sound trivial k
    exact ⟨_, e, .ident hw (Compact.dtName_err (hD _ hd) e), trivial⟩
  gives := by
    intro i hd l h
    rcases bind_gaveUp h with h | ⟨_, _, _, h⟩
    · have := identifier_gaveUp h
      subst this
      exact ⟨[], _, _, rfl, .ident identA referableA⟩
    · cases h
  inh := ⟨_, _, .empty⟩

theorem V.keywordP {D : Str → Prop} {k : Str} {p : SPattern} (h : Prim False p k) : V D (do EP.tag k; Pure.pure p) (Prim False) Left :=
  V.bind (.tag _) fun _ w e => .pure (by subst e; simpa using h) (fun _ _ => trivial)

theorem V.kwBraced {D : Str → Prop} {pat : EP SPattern} (hp : VPat pat) {k : Str} {f : SPattern → SPattern} (hf : ∀ p t, Braced False p t → Prim False (f p) (k ++ t)) :
    V D (do EP.tag k; let p ← ECompact.braced pat; Pure.pure (f p)) (Prim False) Left :=
  V.bind (.tag _) fun _ w e => V.bind (V.braced hp) fun p t h => .pure (by subst e; simpa using hf p t h) (fun _ _ => trivial)

theorem V.primary {pat : EP SPattern} {item : EP SItem} (hp : VPat pat) (hi : VItem item) (n : Nat) : V Done (primary n pat item) PrimS Left := by
  unfold ECompact.primary
  refine V.alt' ?_ (V.alt' ?_ (V.alt' ?_ (V.alt' ?_ (V.alt' (V.value.to fun _ _ h => .inl h) (V.alt (V.dataParam hp n) ?_)))))
  · refine V.bind (V.named hp _ n) fun x w h => .pure ?_ (fun _ _ => trivial)
    obtain ⟨g, s, t, rfl, h1, h2, h3⟩ := h
    exact .inl (by simpa using Prim.element h1 h2 h3 rfl)
  · refine V.bind (V.named hp _ n) fun x w h => .pure ?_ (fun _ _ => trivial)
    obtain ⟨g, s, t, rfl, h1, h2, h3⟩ := h
    exact .inl (by simpa using Prim.attribute h1 h2 h3 rfl)
  · exact (V.kwBraced hp fun p t h => .list h).to fun _ _ h => .inl h
  · exact (V.kwBraced hp fun p t h => .mixed h).to fun _ _ h => .inl h
  refine V.to (S := Prim False) (E := Left) ?_ fun _ _ h => .inl h
  refine V.alt' (V.ident ?_) ?_
  · rintro i ⟨_, l, h⟩
    have h := plain_err h
    rw [plain_datatypeParamPattern] at h
    exact Compact.dataParam_err h
  refine V.alt' ?_ (V.alt' (V.keywordP .empty) (V.alt' (V.keywordP .text) (V.alt' (V.keywordP .notAllowed) (V.alt' V.external (V.alt' (V.grammar hi) (V.group hp))))))
  refine V.bind (.tag _) fun _ x h1 => V.bind V.space1 fun _ g h2 => V.bind V.identifier fun s w h3 => .pure ?_ (fun _ _ => trivial)
  obtain ⟨rfl, ⟨rfl, h3⟩⟩ := And.intro h1 h3
  simpa using Prim.parent h2 h3

end Verif.ECompact
