import Verif.Proof.CompactViable4
/-
Where the parser gives up: patterns, grammars, schemas.
-/
namespace Verif.ECompact
open Verif EP Rnc
open Verif.Compact (Done NoName)
variable {α β γ : Type}

theorem not_gaveUp_ok {x : ERes α} {r l : Str} {a : α} (h : x.plain = .ok r a) : ¬ x.GaveUp l := by
  intro hg
  cases hg <;> cases h

theorem patEmpty : Rnc.Pat False .empty false "empty".toList := by
  have := Rnc.Pat.mk (strict := False) .none .empty .nil .done
  simpa using this

theorem operators_gives {n : Nat} {pat : EP SPattern} {item : Compact.P SItem} (hp : VPat pat) (hs : Compact.SubInv n pat.plain item) :
    ∀ (m : Nat) (left : SPattern) (a : Bool) {i l : Str}, (operators pat m left i).GaveUp l → ∃ u v q b, i = u ++ l ∧ Rnc.Tail False left a q b (u ++ v)
  | 0, _, _, _, _, h => by cases h
  | m + 1, left, a, i, l, h => by
    have bin : ∀ (f : SPattern → SPattern) (r1 : Str), ((do ECompact.space0; let right ← pat; operators pat m (f right) : EP SPattern) r1).GaveUp l →
        ∃ g t v x b, r1 = g ++ t ++ l ∧ Gap g ∧ Rnc.Pat False x b (t ++ v) := by
      intro f r1 h
      rcases bind_gaveUp h with h | ⟨j1, _, k1, h⟩
      · have := here_gaveUp h
        subst this
        exact ⟨[], [], _, _, _, rfl, .nil, patEmpty⟩
      obtain ⟨g, e1, hg, hd⟩ := (V.space0 (D := Any)).sound trivial k1
      rcases bind_gaveUp h with h | ⟨j2, x, k2, h⟩
      · obtain ⟨t, v, x, e2, b, ht⟩ := hp.gives hd h
        exact ⟨g, t, v, x, b, by rw [e1, e2]; simp, hg, ht⟩
      · obtain ⟨_, _, _, _, hno, _⟩ := hs.hpat hd (plain_ok k2)
        cases m with
        | zero => cases h
        | succ m =>
          refine absurd h (not_gaveUp_ok (r := j2) (a := f x) ?_)
          show (operators pat (m + 1) (f x)).plain j2 = _
          rw [plain_operators]
          exact Compact.operators_noOps hno
    have un : ∀ {g r1 : Str} {op : Char} {p : SPattern}, i = g ++ op :: r1 → Gap g →
        (∀ {q b t}, Rnc.Tail False p true q b t → Rnc.Tail False left a q b (g ++ op :: t)) → (operators pat m p r1).GaveUp l →
        ∃ u v q b, i = u ++ l ∧ Rnc.Tail False left a q b (u ++ v) := by
      intro g r1 op p e hg hc h
      obtain ⟨u, v, q, b, e', ht⟩ := operators_gives hp hs m p true h
      exact ⟨g ++ op :: u, v, q, b, by rw [e, e']; simp, by simpa using hc ht⟩
    unfold operators at h
    cases e : ECompact.space0 i with
    | ok r u =>
      obtain ⟨g, e0, hg, _⟩ := (V.space0 (D := Any)).sound trivial e
      rw [e] at h
      split at h
      · rename_i r1 _ e1
        cases e1
        obtain ⟨g', t, v, x, b, e2, hg', ht⟩ := bin _ _ h
        exact ⟨g ++ ',' :: g' ++ t, v, _, b, by rw [e0, e2]; simp, by simpa using Rnc.Tail.seq hg hg' ht⟩
      · rename_i r1 _ e1
        cases e1
        obtain ⟨g', t, v, x, b, e2, hg', ht⟩ := bin _ _ h
        exact ⟨g ++ '&' :: g' ++ t, v, _, b, by rw [e0, e2]; simp, by simpa using Rnc.Tail.inter hg hg' ht⟩
      · rename_i r1 _ e1
        cases e1
        obtain ⟨g', t, v, x, b, e2, hg', ht⟩ := bin _ _ h
        exact ⟨g ++ '|' :: g' ++ t, v, _, b, by rw [e0, e2]; simp, by simpa using Rnc.Tail.choice hg hg' ht⟩
      · rename_i r1 _ e1
        cases e1
        exact un e0 hg (fun ht => .optional hg ht) h
      · rename_i r1 _ e1
        cases e1
        exact un e0 hg (fun ht => .zeroOrMore hg ht) h
      · rename_i r1 _ e1
        cases e1
        exact un e0 hg (fun ht => .oneOrMore hg ht) h
      all_goals first | (cases h; done) | (rename_i e1; cases e1; done)
    | err l' =>
      have : l' = i := here_gaveUp (p := Compact.space0) (by show (ECompact.space0 i).GaveUp l'; rw [e]; exact .err)
      rw [e] at h
      cases h
      subst this
      exact ⟨[], [], _, _, rfl, .done⟩
    | fail l' => exact absurd e space0_not_fail
    | _ => rw [e] at h; cases h

/-! ### the entries of grammars -/

theorem V.assign {D : Str → Prop} : V D assignMethod Assign Left := by
  unfold ECompact.assignMethod
  refine V.alt' ?_ (V.alt' ?_ ?_) <;>
  · refine V.bind (.tag _) fun _ w h => .pure ?_ (fun _ _ => trivial)
    subst h
    first | exact (by simpa using Assign.assign) | exact (by simpa using Assign.choice) | exact (by simpa using Assign.interleave)

/-- what follows the name in a definition -/
def DefS (x : AssignMethod × SPattern) (w : Str) : Prop := ∃ g u g' b s, w = g ++ u ++ g' ++ s ∧ Gap g ∧ Assign x.1 u ∧ Gap g' ∧ Rnc.Pat False x.2 b s

theorem V.startRule {D : Str → Prop} {pat : EP SPattern} (hp : VPat pat) :
    V D (startRule pat) (fun x w => x.1 = "start".toList ∧ ∃ t, w = "start".toList ++ t ∧ DefS x.2 t) Left := by
  unfold ECompact.startRule
  refine V.bind (.tag _) fun _ x h1 => V.bind V.space0 fun _ g h2 => V.bind V.assign fun how u h3 => V.bind V.space0 fun _ g' h4 => V.bind (.cut hp) fun p s h5 =>
    .pure ?_ (fun _ _ => trivial)
  subst h1
  obtain ⟨b, h5⟩ := h5
  exact ⟨rfl, _, by simp; rfl, g, u, g', b, s, by simp, h2, h3, h4, h5⟩

theorem V.defineItem {D : Str → Prop} {pat : EP SPattern} (hp : VPat pat) :
    V D (defineItem pat) (fun x w => Ident x.1 ∧ ∃ t, w = x.1 ++ t ∧ DefS x.2 t) Left := by
  unfold ECompact.defineItem
  refine V.bind V.identifier fun id x h1 => V.bind V.space0 fun _ g h2 => V.bind V.assign fun how u h3 => V.bind V.space0 fun _ g' h4 => V.bind (.cut hp) fun p s h5 =>
    .pure ?_ (fun _ _ => trivial)
  obtain ⟨rfl, h1⟩ := h1
  obtain ⟨b, h5⟩ := h5
  exact ⟨h1, _, by simp; rfl, g, u, g', b, s, by simp, h2, h3, h4, h5⟩

theorem V.includeContent {D : Str → Prop} {pat : EP SPattern} (hp : VPat pat) : ∀ n, V D (includeContent pat n) (Override False) Left
  | 0 => ⟨(by intro i _ r a h; cases h), (by intro i _ l h; cases h), ⟨_, _, .annotation .none annA⟩⟩
  | n + 1 => by
    have ih : V Done (ECompact.includeContent pat n) (Override False) Left := V.includeContent hp n
    have key : V D (do
        let _ ← maybeInitialAnnotation n
        EP.alt (do annotationElement n; Pure.pure .annotation) <|
        EP.alt (do let (id, how, p) ← ECompact.defineItem pat; Pure.pure (.define id how p)) <|
        EP.alt (do let (id, how, p) ← ECompact.startRule pat; Pure.pure (.define id how p)) <|
        (do
          EP.tag "div".toList
          ECompact.space0
          EP.tag ['{']
          ECompact.space0
          let _ ← EP.sepList0 ECompact.space1 (ECompact.includeContent pat n)
          ECompact.space0
          EP.cut (EP.tag ['}'])
          Pure.pure .div) : EP SOverride) (Override False) Left := by
      refine V.bind (V.init n) fun _ i hi => V.alt' ?_ (V.alt' ?_ (V.alt' ?_ ?_))
      · refine V.bind (V.annElem n) fun _ s h => .pure ?_ (fun _ _ => trivial)
        simpa using Override.annotation hi.1 h
      · refine V.bind (V.defineItem hp) fun x w h => .pure ?_ (fun _ _ => trivial)
        obtain ⟨h1, t, rfl, g, u, g', b, s, rfl, h2, h3, h4, h5⟩ := h
        simpa using Override.define hi.1 h1 h2 h3 h4 h5
      · refine V.bind (V.startRule hp) fun x w h => .pure ?_ (fun _ _ => trivial)
        obtain ⟨⟨a, b, c⟩, h⟩ : ∃ y, x = y := ⟨x, rfl⟩
        subst h
        obtain ⟨h1, t, rfl, g, u, g', b, s, rfl, h2, h3, h4, h5⟩ := h
        subst h1
        simpa using Override.start hi.1 h2 h3 h4 h5
      · refine V.bind (.tag _) fun _ x h1 => V.bind V.space0 fun _ g h2 => V.bind (.tag _) fun _ y h3 => V.bind V.space0 fun _ g' h4 => V.bind (V.list0 ih) fun os t h5 =>
          V.bind V.space0 fun _ g'' h6 => V.bind (.cut (.tag _)) fun _ z h7 => .pure ?_ (fun _ _ => trivial)
        obtain ⟨rfl, rfl, rfl⟩ := And.intro h1 (And.intro h3 h7)
        simpa using Override.div hi.1 h2 h4 h5 h6
    exact ⟨fun {i} hd {r a} h => key.sound hd (by rw [ECompact.includeContent] at h; exact h),
      fun {i} hd {l} h => key.gives hd (by rw [ECompact.includeContent] at h; exact h), key.inh⟩

theorem V.overrides {D : Str → Prop} {pat : EP SPattern} (hp : VPat pat) (n : Nat) :
    V D (EP.opt (overrideBlock n pat)) (fun o w => Overrides False (o.getD []) w) Left := by
  have : V D (overrideBlock n pat) (fun os w => Overrides False os w) Left := by
    unfold ECompact.overrideBlock
    refine V.bind V.space0 fun _ g h2 => V.bind (.tag _) fun _ y h3 => V.bind V.space0 fun _ g' h4 => V.bind (V.list0 (V.includeContent hp n)) fun os t h5 =>
      V.bind V.space0 fun _ g'' h6 => V.bind (.cut (.tag _)) fun _ z h7 => .pure ?_ (fun _ _ => trivial)
    obtain ⟨rfl, rfl⟩ := And.intro h3 h7
    simpa using Overrides.some h2 h4 h5 h6
  refine (V.opt (F := Left) this (fun _ _ => trivial) (fun _ _ _ => trivial)).to fun o w h => ?_
  cases o with
  | none => cases h; exact .none
  | some p => exact h

theorem V.includeItem {D : Str → Prop} {pat : EP SPattern} (hp : VPat pat) (n : Nat) : V D (includeItem n pat) (Item False) Left := by
  unfold ECompact.includeItem
  refine V.bind (.tag _) fun _ x h1 => V.bind V.space1 fun _ g h2 => V.bind V.literal fun v t h3 => V.bind V.inherit fun o u h4 => V.bind (V.overrides hp n) fun os w h5 =>
    .pure ?_ (fun _ _ => trivial)
  subst h1
  simpa using Item.include h2 h3 h4 h5

theorem V.divItem {D : Str → Prop} {item : EP SItem} (hi : VItem item) : V D (divItem item) (Item False) Left := by
  unfold ECompact.divItem
  refine V.bind (.tag _) fun _ x h1 => V.bind V.space0 fun _ g h2 => V.bind (.tag _) fun _ y h3 => V.bind V.space0 fun _ g' h4 => V.bind (V.list0 hi) fun os t h5 =>
    V.bind V.space0 fun _ g'' h6 => V.bind (.cut (.tag _)) fun _ z h7 => .pure ?_ (fun _ _ => trivial)
  obtain ⟨rfl, rfl, rfl⟩ := And.intro h1 (And.intro h3 h7)
  simpa using Item.div h2 h4 h5 h6

theorem PrimS.pat {p : SPattern} {s i : Str} (h : PrimS p s) (hi : Init False i) : ∃ b, Rnc.Pat False p b (i ++ s) := by
  rcases h with h | ⟨d, s, ps, u, g, g', e, c, t', rfl, rfl, h1, h2, h3, h4, h5, h6⟩
  · exact ⟨_, by simpa using Rnc.Pat.mk hi h .nil .done⟩
  · exact ⟨_, by simpa using Rnc.Pat.dataExcept hi h1 h2 h3 h4 h5 h6⟩

theorem vMain : ∀ n, VPat (pattern n) ∧ VItem (grammarContent n)
  | 0 => ⟨⟨(by intro i _ r a h; cases h), (by intro i _ l h; cases h), ⟨_, _, _, patEmpty⟩⟩,
      ⟨(by intro i _ r a h; cases h), (by intro i _ l h; cases h), ⟨_, _, .annotation annA⟩⟩⟩
  | n + 1 => by
    obtain ⟨hp, hi⟩ := vMain n
    have hs : Compact.SubInv n (pattern n).plain (grammarContent n).plain := by
      rw [plain_pattern, plain_grammarContent]
      exact Compact.subInv n
    constructor
    · refine ⟨?_, ?_, ⟨_, _, _, patEmpty⟩⟩
      · intro i hd r p h
        have h := plain_ok h
        rw [plain_pattern] at h
        obtain ⟨t, b, e, ht, _⟩ := (Compact.subInv _).hpat hd h
        exact ⟨t, e, ⟨b, ht⟩, trivial⟩
      · intro i hd l h
        rw [pattern] at h
        rcases bind_gaveUp h with h1 | ⟨i1, o, k1, h1⟩
        · obtain ⟨u, v, _, e, hi, _⟩ := (V.initDone n).gives hd h1
          obtain ⟨b, hb⟩ := PrimS.pat (.inl .empty) hi
          exact ⟨u, v ++ "empty".toList, _, e, b, by rw [← List.append_assoc]; exact hb⟩
        obtain ⟨w, e1, ⟨hini, _⟩, hd1⟩ := (V.initDone n).sound hd k1
        rcases bind_gaveUp h1 with h2 | ⟨i2, p, k2, h2⟩
        · obtain ⟨u, v, p, e, h⟩ := (V.primary hp hi n).gives hd1 h2
          obtain ⟨b, hb⟩ := h.pat hini
          exact ⟨w ++ u, v, p, by rw [e1, e]; simp, b, by rw [List.append_assoc]; exact hb⟩
        rcases bind_gaveUp h2 with h3 | ⟨i3, fs, k3, h3⟩
        · exact absurd h3 follow_quiet
        have k3 := plain_ok k3
        rw [plain_followAnnotationList] at k3
        obtain ⟨f, e3, hf, hf1, hf2, hst⟩ := Compact.follow_inv k3
        have k2 := plain_ok k2
        rw [plain_primary] at k2
        obtain ⟨v, x, q, b, e4, ht⟩ := operators_gives hp hs _ _ false h3
        obtain ⟨s, e2, hpr | ⟨d, s1, ps, u, g, g', e, c, t', rfl, rfl, hd', hu, hg, hg', hc, hpp, hno', hfs⟩⟩ := Compact.prim_inv hs hd1 k2
        · exact ⟨w ++ s ++ f ++ v, x, q, by rw [e1, e2, e3, e4]; simp, b, by simpa using Rnc.Pat.mk hini hpr hf ht⟩
        · by_cases e0 : fs = []
          · obtain ⟨rfl, rfl⟩ := hf1 e0
            refine absurd h3 (not_gaveUp_ok (r := i3) (a := .dataExcept d ps e) ?_)
            show (operators (pattern n) (n + 1) (.dataExcept d ps e)).plain i3 = _
            rw [plain_operators]
            exact Compact.operators_noOps hno'
          · obtain ⟨hf0, hns⟩ := hf2 e0
            cases c with
            | false => exact absurd (hfs rfl) hns
            | true => exact ⟨w ++ (s1 ++ u ++ g ++ '-' :: g' ++ t') ++ f ++ v, x, q, by rw [e1, e2, e3, e4]; simp, b,
                by simpa using Rnc.Pat.dataExceptFollowed hini hd' hu hg hg' hc hpp hf hf0 ht⟩
    · have key : V Done (EP.alt (do let (id, how, p) ← ECompact.startRule (pattern n); Pure.pure (.define id how p)) <|
          EP.alt (do let (id, how, p) ← ECompact.defineItem (pattern n); Pure.pure (.define id how p)) <|
          EP.alt (ECompact.divItem (grammarContent n)) <|
          EP.alt (ECompact.includeItem n (pattern n)) <|
          (do annotationElement n; Pure.pure .annotation) : EP SItem) (Item False) Left := by
        refine V.alt' ?_ (V.alt' ?_ (V.alt' (V.divItem hi) (V.alt' (V.includeItem hp n) ?_)))
        · refine V.bind (V.startRule hp) fun x w h => .pure ?_ (fun _ _ => trivial)
          obtain ⟨⟨a, b, c⟩, e⟩ : ∃ y, x = y := ⟨x, rfl⟩
          subst e
          obtain ⟨h1, t, rfl, g, u, g', b, s, rfl, h2, h3, h4, h5⟩ := h
          subst h1
          simpa using Item.start h2 h3 h4 h5
        · refine V.bind (V.defineItem hp) fun x w h => .pure ?_ (fun _ _ => trivial)
          obtain ⟨h1, t, rfl, g, u, g', b, s, rfl, h2, h3, h4, h5⟩ := h
          simpa using Item.define h1 h2 h3 h4 h5
        · refine V.bind (V.annElem n) fun _ s h => .pure ?_ (fun _ _ => trivial)
          simpa using Item.annotation h
      exact ⟨fun {i} hd {r a} h => key.sound hd (by rw [grammarContent] at h; exact h),
        fun {i} hd {l} h => key.gives hd (by rw [grammarContent] at h; exact h), key.inh⟩

/-! ### schemas -/

theorem V.decl {D : Str → Prop} : V D decl Decl Left := by
  unfold ECompact.decl
  refine V.alt' ?_ (V.alt' ?_ ?_)
  · unfold ECompact.declNamespace
    refine V.bind (.tag _) fun _ x h1 => V.bind V.space1 fun _ g h2 => V.bind V.anyIdent fun p s h3 => V.bind V.space0 fun _ g1 h4 => V.bind (.tag _) fun _ y h5 =>
      V.bind V.space0 fun _ g2 h6 => V.bind V.uri fun u t h7 => .pure ?_ (fun _ _ => trivial)
    obtain ⟨rfl, rfl, ⟨rfl, h3⟩⟩ := And.intro h1 (And.intro h5 h3)
    simpa using Decl.namespace h2 h3 h4 h6 h7
  · unfold ECompact.declDefaultNamespace
    refine V.bind (.tag _) fun _ x h1 => V.bind V.space1 fun _ g h2 => V.bind (.tag _) fun _ z h8 => V.bind V.space1 fun _ g' h9 =>
      V.bind (V.opt (F := fun o r => o = none → Done r) V.anyIdent (fun _ h _ => h) (fun _ _ _ => nofun)) fun o s h3 => ?_
    cases o with
    | none =>
      refine V.bind (V.space0Done.mono (fun _ h => h rfl) (fun _ _ h => h) (fun _ _ h => h)) fun _ g1 h4 => V.bind (.tag _) fun _ y h5 =>
        V.bind V.space0 fun _ g2 h6 => V.bind V.uri fun u t h7 => .pure ?_ (fun _ _ => trivial)
      cases h3
      obtain ⟨rfl, rfl, rfl, rfl⟩ := And.intro h1 (And.intro h5 (And.intro h8 h4))
      simpa using Decl.default h2 h9 h6 h7
    | some p =>
      refine V.bind V.space0 fun _ g1 h4 => V.bind (.tag _) fun _ y h5 => V.bind V.space0 fun _ g2 h6 => V.bind V.uri fun u t h7 => .pure ?_ (fun _ _ => trivial)
      obtain ⟨rfl, rfl, rfl, ⟨rfl, h3⟩⟩ := And.intro h1 (And.intro h5 (And.intro h8 h3))
      simpa using Decl.defaultPrefix h2 h9 h3 h4 h6 h7
  · unfold ECompact.declDatatypes
    refine V.bind (.tag _) fun _ x h1 => V.bind V.space1 fun _ g h2 => V.bind V.anyIdent fun p s h3 => V.bind V.space0 fun _ g1 h4 => V.bind (.tag _) fun _ y h5 =>
      V.bind V.space0 fun _ g2 h6 => V.bind V.literal fun u t h7 => .pure ?_ (fun _ _ => trivial)
    obtain ⟨rfl, rfl, ⟨rfl, h3⟩⟩ := And.intro h1 (And.intro h5 h3)
    simpa using Decl.datatypes h2 h3 h4 h6 h7

theorem V.topLevel (n : Nat) : V Any (do ECompact.space0; let s ← ECompact.topLevel n; ECompact.space0; Pure.pure s : EP SSchema) (Schema False) Left := by
  obtain ⟨hp, hi⟩ := vMain n
  have hb : V Done (EP.alt (do let is ← EP.sepList1 ECompact.space1 (grammarContent n); Pure.pure (.grammar is)) (do let p ← pattern n; Pure.pure (.pattern p)) : EP SBody)
      (Body False) Left := by
    refine V.alt' (V.bind (V.list1 hi) fun is t h => .pure ?_ (fun _ _ => trivial)) (V.bind hp fun p t h => .pure ?_ (fun _ _ => trivial))
    · obtain ⟨h0, h⟩ := h
      cases is with
      | nil => exact absurd rfl h0
      | cons i is => simpa using Body.grammar h
    · obtain ⟨b, h⟩ := h
      simpa using Body.pattern h nofun
  have ht : V Done (ECompact.topLevel n) (fun s w => ∃ t g' u, w = t ++ g' ++ u ∧ SepBy Decl s.decls t ∧ Gap g' ∧ Body False s.body u) Left := by
    unfold ECompact.topLevel
    refine V.bind (V.list0 V.decl) fun ds t h1 => V.bind V.space0 fun _ g' h2 => V.bind hb fun b u h3 => .pure ?_ (fun _ _ => trivial)
    exact ⟨t, g', u, by simp, h1, h2, h3⟩
  refine V.bind V.space0 fun _ g h1 => V.bind ht fun s w h2 => V.bind V.space0 fun _ g'' h3 => .pure ?_ (fun _ _ => trivial)
  obtain ⟨t, g', u, rfl, h4, h5, h6⟩ := h2
  cases s
  simpa using Schema.mk h1 h4 h5 h6 h3 (.inr nofun)

/-- The place where the parser gives up: what comes before it is the beginning of a schema. -/
theorem compactSchema_gives {n : Nat} {t l : Str} (h : (compactSchema n t).GaveUp l) : ∃ u v s, t = u ++ l ∧ Schema False s (u ++ v) := by
  have key := V.topLevel n
  unfold compactSchema allConsuming at h
  cases e : (do ECompact.space0; let s ← ECompact.topLevel n; ECompact.space0; Pure.pure s : EP SSchema) t with
  | ok r s =>
    rw [e] at h
    obtain ⟨w, e', hw, _⟩ := key.sound trivial e
    cases r with
    | nil => cases h
    | cons c cs => cases h; exact ⟨w, [], s, e', by simpa using hw⟩
  | err l' => rw [e] at h; cases h; exact key.gives trivial (by rw [e]; exact .err)
  | fail l' => rw [e] at h; cases h; exact key.gives trivial (by rw [e]; exact .fail)
  | _ => rw [e] at h; cases h

end Verif.ECompact
