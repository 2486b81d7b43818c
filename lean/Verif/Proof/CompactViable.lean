import Verif.Proof.CompactErrors
/-
Where the parser of the compact syntax gives up, the text before is the beginning of something right: the rules.
-/
namespace Verif.ECompact
open Verif EP Rnc
open Verif.Compact (Done)
variable {α β γ : Type}

/-- the parser gave up at `l` -/
inductive ERes.GaveUp : ERes α → Str → Prop
  | err {l} : GaveUp (.err l) l
  | fail {l} : GaveUp (.fail l) l

/-- On inputs with `D`: what `p` reads is described by `S`, what is left by `E`; and if it gives up, the text before that place can be
continued so that `S` describes it. -/
structure V (D : Str → Prop) (p : EP α) (S : α → Str → Prop) (E : α → Str → Prop) : Prop where
  sound : ∀ {i : Str}, D i → ∀ {r : Str} {a : α}, p i = .ok r a → ∃ w, i = w ++ r ∧ S a w ∧ E a r
  gives : ∀ {i : Str}, D i → ∀ {l : Str}, (p i).GaveUp l → ∃ u v a, i = u ++ l ∧ S a (u ++ v)
  inh : ∃ a w, S a w

/-- any text -/
abbrev Any (_ : Str) : Prop := True
/-- anything may be left -/
abbrev Left (_ : α) (_ : Str) : Prop := True

theorem bind_gaveUp {p : EP α} {f : α → EP β} {i l : Str} (h : ((p >>= f) i).GaveUp l) :
    (p i).GaveUp l ∨ ∃ r a, p i = .ok r a ∧ (f a r).GaveUp l := by
  change (EP.bind p f i).GaveUp l at h
  unfold EP.bind at h
  cases e : p i with
  | ok r a => rw [e] at h; exact .inr ⟨r, a, rfl, h⟩
  | err l' => rw [e] at h; cases h; exact .inl .err
  | fail l' => rw [e] at h; cases h; exact .inl .fail
  | _ => rw [e] at h; cases h

theorem bind_okE {p : EP α} {f : α → EP β} {i r : Str} {b : β} (h : (p >>= f) i = .ok r b) : ∃ i' a, p i = .ok i' a ∧ f a i' = .ok r b := by
  change EP.bind p f i = _ at h
  unfold EP.bind at h
  cases e : p i with
  | ok r' a => rw [e] at h; exact ⟨r', a, rfl, h⟩
  | _ => rw [e] at h; cases h

theorem plain_ok {p : EP α} {i r : Str} {a : α} (h : p i = .ok r a) : p.plain i = .ok r a := by
  show (p i).plain = _
  rw [h]
  rfl

theorem plain_err {p : EP α} {i l : Str} (h : p i = .err l) : p.plain i = .err := by
  show (p i).plain = _
  rw [h]
  rfl

theorem V.bind {D : Str → Prop} {p : EP α} {f : α → EP β} {S : α → Str → Prop} {E : α → Str → Prop} {T : β → Str → Prop} {F : β → Str → Prop}
    (hp : V D p S E) (hf : ∀ a w, S a w → V (E a) (f a) (fun b x => T b (w ++ x)) F) : V D (p >>= f) T F where
  sound := by
    intro i hd r b h
    obtain ⟨i', a, h1, h2⟩ := bind_okE h
    obtain ⟨w, e, hw, he⟩ := hp.sound hd h1
    obtain ⟨x, e', hx, hF⟩ := (hf a w hw).sound he h2
    exact ⟨w ++ x, by rw [e, e', List.append_assoc], hx, hF⟩
  gives := by
    intro i hd l h
    rcases bind_gaveUp h with h | ⟨r, a, h1, h⟩
    · obtain ⟨u, v, a, e, hs⟩ := hp.gives hd h
      obtain ⟨b, x, hx⟩ := (hf _ _ hs).inh
      exact ⟨u, v ++ x, b, e, by rw [← List.append_assoc]; exact hx⟩
    · obtain ⟨w, e, hw, he⟩ := hp.sound hd h1
      obtain ⟨u, v, b, e', hb⟩ := (hf a w hw).gives he h
      exact ⟨w ++ u, v, b, by rw [e, e', List.append_assoc], by rw [List.append_assoc]; exact hb⟩
  inh := by
    obtain ⟨a, w, hs⟩ := hp.inh
    obtain ⟨b, x, hx⟩ := (hf _ _ hs).inh
    exact ⟨b, w ++ x, hx⟩

theorem V.pure {D : Str → Prop} {a : α} {S : α → Str → Prop} {E : α → Str → Prop} (h : S a []) (hE : ∀ i, D i → E a i) : V D (Pure.pure a : EP α) S E where
  sound := by
    intro i hd r b e
    cases e
    exact ⟨[], rfl, h, hE _ hd⟩
  gives := by intro i hd l h; cases h
  inh := ⟨a, [], h⟩

theorem V.mono {D D' : Str → Prop} {p : EP α} {S S' : α → Str → Prop} {E E' : α → Str → Prop} (h : V D p S E) (hD : ∀ i, D' i → D i)
    (hS : ∀ a w, S a w → S' a w) (hE : ∀ a r, E a r → E' a r) : V D' p S' E' where
  sound := by
    intro i hd r b e
    obtain ⟨w, e, hs, he⟩ := h.sound (hD _ hd) e
    exact ⟨w, e, hS _ _ hs, hE _ _ he⟩
  gives := by
    intro i hd l hl
    obtain ⟨u, v, a, e, hs⟩ := h.gives (hD _ hd) hl
    exact ⟨u, v, a, e, hS _ _ hs⟩
  inh := by
    obtain ⟨a, w, hs⟩ := h.inh
    exact ⟨a, w, hS _ _ hs⟩

/-- a weaker description -/
theorem V.to {D : Str → Prop} {p : EP α} {S S' : α → Str → Prop} {E : α → Str → Prop} (h : V D p S E) (hS : ∀ a w, S a w → S' a w) : V D p S' Left :=
  h.mono (fun _ h => h) hS (fun _ _ _ => trivial)

theorem V.any {D : Str → Prop} {p : EP α} {S : α → Str → Prop} {E : α → Str → Prop} (h : V Any p S E) : V D p S E :=
  h.mono (fun _ _ => trivial) (fun _ _ h => h) (fun _ _ h => h)

theorem V.here {D : Str → Prop} {p : Compact.P α} {S : α → Str → Prop} {E : α → Str → Prop}
    (hs : ∀ i, D i → ∀ r a, p i = .ok r a → ∃ w, i = w ++ r ∧ S a w ∧ E a r) (hi : ∃ a w, S a w) : V D (EP.here p) S E where
  sound := by
    intro i hd r a h
    refine hs i hd r a ?_
    have := plain_ok h
    rwa [plain_here] at this
  gives := by
    intro i hd l h
    have : l = i := by
      unfold EP.here at h
      cases e : p i <;> rw [e] at h <;> cases h <;> rfl
    subst this
    obtain ⟨a, w, h⟩ := hi
    exact ⟨[], w, a, rfl, h⟩
  inh := hi

theorem V.alt {D : Str → Prop} {p q : EP α} {S : α → Str → Prop} {E : α → Str → Prop} (hp : V D p S E)
    (hq : V (fun i => D i ∧ ∃ l, p i = .err l) q S E) : V D (alt p q) S E where
  sound := by
    intro i hd r a h
    unfold EP.alt at h
    cases e : p i with
    | err l => rw [e] at h; exact hq.sound ⟨hd, l, e⟩ h
    | ok r' a' => rw [e] at h; cases h; exact hp.sound hd e
    | _ => rw [e] at h; cases h
  gives := by
    intro i hd l h
    unfold EP.alt at h
    cases e : p i with
    | err l => rw [e] at h; exact hq.gives ⟨hd, l, e⟩ h
    | fail l' => rw [e] at h; cases h; exact hp.gives hd (by rw [e]; exact .fail)
    | _ => rw [e] at h; cases h
  inh := hp.inh

theorem V.alt' {D : Str → Prop} {p q : EP α} {S : α → Str → Prop} {E : α → Str → Prop} (hp : V D p S E) (hq : V D q S E) : V D (EP.alt p q) S E :=
  hp.alt (hq.mono (fun _ h => h.1) (fun _ _ h => h) (fun _ _ h => h))

/-- what an optional part reads -/
def OptS (S : α → Str → Prop) : Option α → Str → Prop
  | none, w => w = []
  | some a, w => S a w

theorem V.opt {D : Str → Prop} {p : EP α} {S : α → Str → Prop} {E : α → Str → Prop} {F : Option α → Str → Prop} (hp : V D p S E) (h0 : ∀ i, D i → F none i)
    (h1 : ∀ a r, E a r → F (some a) r) : V D (EP.opt p) (OptS S) F where
  sound := by
    intro i hd r o h
    unfold EP.opt at h
    cases e : p i with
    | err l => rw [e] at h; cases h; exact ⟨[], rfl, rfl, h0 _ hd⟩
    | ok r' a' =>
      rw [e] at h
      cases h
      obtain ⟨w, e, hs, he⟩ := hp.sound hd e
      exact ⟨w, e, hs, h1 _ _ he⟩
    | _ => rw [e] at h; cases h
  gives := by
    intro i hd l h
    unfold EP.opt at h
    cases e : p i with
    | fail l' =>
      rw [e] at h
      cases h
      obtain ⟨u, v, a, e, hs⟩ := hp.gives hd (l := l) (by rw [e]; exact .fail)
      exact ⟨u, v, some a, e, hs⟩
    | _ => rw [e] at h; cases h
  inh := ⟨none, [], rfl⟩

theorem V.cut {D : Str → Prop} {p : EP α} {S : α → Str → Prop} {E : α → Str → Prop} (hp : V D p S E) : V D (EP.cut p) S E where
  sound := by
    intro i hd r a h
    unfold EP.cut at h
    cases e : p i with
    | ok r' a' => rw [e] at h; cases h; exact hp.sound hd e
    | _ => rw [e] at h; cases h
  gives := by
    intro i hd l h
    unfold EP.cut at h
    cases e : p i with
    | err l' => rw [e] at h; cases h; exact hp.gives hd (by rw [e]; exact .err)
    | fail l' => rw [e] at h; cases h; exact hp.gives hd (by rw [e]; exact .fail)
    | _ => rw [e] at h; cases h
  inh := hp.inh

theorem V.tag {D : Str → Prop} (t : Str) : V D (EP.tag t) (fun _ w => w = t) Left :=
  .here (fun _ _ _ _ h => ⟨t, Compact.tag_ok h, rfl, trivial⟩) ⟨(), t, rfl⟩

/-! ### lists -/

/-- separators and entries -/
inductive Chain (Sp : Str → Prop) (R : α → Str → Prop) : List α → Str → Prop
  | nil : Chain Sp R [] []
  | cons {g a s as t} : Sp g → R a s → Chain Sp R as t → Chain Sp R (a :: as) (g ++ s ++ t)

theorem V.sepLoop {Ds : Str → Prop} {sep : EP Unit} {p : EP α} {Sp : Str → Prop} {R : α → Str → Prop} {E : α → Str → Prop}
    (hs : V Any sep (fun _ => Sp) (fun _ => Ds)) (hp : V Ds p R E) : ∀ n, V Any (EP.sepLoop sep p n) (Chain Sp R) Left
  | 0 => ⟨(by intro i _ r a h; cases h), (by intro i _ l h; cases h), ⟨[], [], .nil⟩⟩
  | n + 1 => by
    have ih := V.sepLoop hs hp n
    refine ⟨?_, ?_, [], [], .nil⟩
    · intro i _ r as h
      unfold EP.sepLoop at h
      cases e : sep i with
      | err l => rw [e] at h; cases h; exact ⟨[], rfl, .nil, trivial⟩
      | ok i1 u =>
        rw [e] at h
        dsimp only at h
        obtain ⟨g, e1, hg, hd⟩ := hs.sound trivial e
        cases e' : p i1 with
        | err l => rw [e'] at h; cases h; exact ⟨[], rfl, .nil, trivial⟩
        | ok i2 a =>
          rw [e'] at h
          dsimp only at h
          obtain ⟨s, e2, hr, _⟩ := hp.sound hd e'
          split at h
          · cases h
          · cases e'' : EP.sepLoop sep p n i2 with
            | ok r' as' =>
              rw [e''] at h
              cases h
              obtain ⟨t, e3, ht, _⟩ := ih.sound trivial e''
              exact ⟨_, by rw [e1, e2, e3]; simp, .cons hg hr ht, trivial⟩
            | _ => rw [e''] at h; cases h
        | _ => rw [e'] at h; cases h
      | _ => rw [e] at h; cases h
    · intro i _ l h
      unfold EP.sepLoop at h
      cases e : sep i with
      | fail l' =>
        rw [e] at h
        cases h
        obtain ⟨u, v, _, e1, hg⟩ := hs.gives (i := i) (l := l) trivial (by rw [e]; exact .fail)
        obtain ⟨a, s, hr⟩ := hp.inh
        exact ⟨u, v ++ s ++ [], [a], e1, by have := Chain.cons hg hr .nil; simpa using this⟩
      | ok i1 u =>
        rw [e] at h
        dsimp only at h
        obtain ⟨g, e1, hg, hd⟩ := hs.sound trivial e
        cases e' : p i1 with
        | fail l' =>
          rw [e'] at h
          cases h
          obtain ⟨u, v, a, e2, hr⟩ := hp.gives (i := i1) (l := l) hd (by rw [e']; exact .fail)
          exact ⟨g ++ u, v, [a], by rw [e1, e2]; simp, by have := Chain.cons hg hr .nil; simpa using this⟩
        | ok i2 a =>
          rw [e'] at h
          dsimp only at h
          obtain ⟨s, e2, hr, _⟩ := hp.sound hd e'
          split at h
          · cases h
            exact ⟨[], [], [], rfl, .nil⟩
          · cases e'' : EP.sepLoop sep p n i2 with
            | err l' =>
              rw [e''] at h
              cases h
              obtain ⟨u, v, as, e3, ht⟩ := ih.gives (i := i2) (l := l) trivial (by rw [e'']; exact .err)
              exact ⟨g ++ s ++ u, v, a :: as, by rw [e1, e2, e3]; simp, by have := Chain.cons hg hr ht; simpa using this⟩
            | fail l' =>
              rw [e''] at h
              cases h
              obtain ⟨u, v, as, e3, ht⟩ := ih.gives (i := i2) (l := l) trivial (by rw [e'']; exact .fail)
              exact ⟨g ++ s ++ u, v, a :: as, by rw [e1, e2, e3]; simp, by have := Chain.cons hg hr ht; simpa using this⟩
            | _ => rw [e''] at h; cases h
        | _ => rw [e'] at h; cases h
      | _ => rw [e] at h; cases h

/-- the entries of a list that is not empty -/
def ListS (Sp : Str → Prop) (R : α → Str → Prop) (as : List α) (w : Str) : Prop :=
  ∃ a s as' t, as = a :: as' ∧ w = s ++ t ∧ R a s ∧ Chain Sp R as' t

theorem sepList1_bind (sep : EP Unit) (p : EP α) :
    EP.sepList1 sep p = p >>= fun a i => (EP.sepLoop sep p (i.length + 1) >>= fun as => (Pure.pure (a :: as) : EP (List α))) i := by
  funext i
  show EP.sepList1 sep p i = EP.bind p _ i
  unfold EP.sepList1 EP.bind
  cases p i with
  | ok r a =>
    show _ = EP.bind (EP.sepLoop sep p (r.length + 1)) _ r
    unfold EP.bind
    dsimp only
    cases EP.sepLoop sep p (r.length + 1) r <;> rfl
  | _ => rfl

theorem V.sepList1 {D Ds : Str → Prop} {sep : EP Unit} {p : EP α} {Sp : Str → Prop} {R : α → Str → Prop} {E : α → Str → Prop}
    (hs : V Any sep (fun _ => Sp) (fun _ => Ds)) (hp : V Ds p R E) (hD : ∀ i, D i → Ds i) : V D (EP.sepList1 sep p) (ListS Sp R) Left := by
  rw [sepList1_bind]
  refine V.bind (hp.mono hD (fun _ _ h => h) (fun _ _ _ => trivial)) (E := Left) fun a w hw => ?_
  have key : ∀ n, V Any (EP.sepLoop sep p n >>= fun as => (Pure.pure (a :: as) : EP (List α))) (fun b x => ListS Sp R b (w ++ x)) Left := by
    intro n
    refine (V.sepLoop hs hp n).bind fun as x hx => .pure ⟨a, w, as, x, rfl, by simp, hw, hx⟩ (fun _ _ => trivial)
  exact ⟨fun {i} hd => (key (i.length + 1)).sound hd, fun {i} hd => (key (i.length + 1)).gives hd, (key 0).inh⟩

theorem V.sepList0 {D Ds : Str → Prop} {sep : EP Unit} {p : EP α} {Sp : Str → Prop} {R : α → Str → Prop} {E : α → Str → Prop}
    (hs : V Any sep (fun _ => Sp) (fun _ => Ds)) (hp : V Ds p R E) (hD : ∀ i, D i → Ds i) :
    V D (EP.sepList0 sep p) (fun as w => (as = [] ∧ w = []) ∨ ListS Sp R as w) Left where
  sound := by
    intro i hd r as h
    have h1 := V.sepList1 hs hp hD
    cases e : p i with
    | err l =>
      unfold EP.sepList0 at h
      rw [e] at h
      cases h
      exact ⟨[], rfl, .inl ⟨rfl, rfl⟩, trivial⟩
    | _ =>
      have : EP.sepList0 sep p i = EP.sepList1 sep p i := by unfold EP.sepList0 EP.sepList1; rw [e]
      rw [this] at h
      obtain ⟨w, e, hw, _⟩ := h1.sound hd h
      exact ⟨w, e, .inr hw, trivial⟩
  gives := by
    intro i hd l h
    have h1 := V.sepList1 hs hp hD
    cases e : p i with
    | err l' =>
      unfold EP.sepList0 at h
      rw [e] at h
      cases h
    | _ =>
      have : EP.sepList0 sep p i = EP.sepList1 sep p i := by unfold EP.sepList0 EP.sepList1; rw [e]
      rw [this] at h
      obtain ⟨u, v, as, e, hw⟩ := h1.gives hd h
      exact ⟨u, v, as, e, .inr hw⟩
  inh := ⟨[], [], .inl ⟨rfl, rfl⟩⟩

/-! ### white space -/

theorem V.space0 {D : Str → Prop} : V D ECompact.space0 (fun _ => Gap) (fun _ => Done) :=
  .here (fun _ _ _ _ h => by obtain ⟨⟨g, e, hg⟩, hd⟩ := Compact.space0_ok h; exact ⟨g, e, hg, hd⟩) ⟨(), [], .nil⟩

theorem V.space0Done : V Done ECompact.space0 (fun _ w => w = []) (fun _ => Done) :=
  .here (fun _ hd _ _ h => by have := Compact.space0_done hd h; subst this; exact ⟨[], rfl, rfl, hd⟩) ⟨(), [], rfl⟩

theorem sepSpace : Sep [' '] := ⟨.space (.inl rfl) .nil, by simp⟩

theorem V.space1 {D : Str → Prop} : V D ECompact.space1 (fun _ => Sep) (fun _ => Done) :=
  .here (fun _ _ _ _ h => by obtain ⟨⟨g, e, hg⟩, hd⟩ := Compact.space1_ok h; exact ⟨g, e, hg, hd⟩) ⟨(), [' '], sepSpace⟩

theorem sepBy_chain {R : α → Str → Prop} : ∀ {as : List α} {t : Str}, Chain Sep R as t → ∀ {a : α} {s : Str}, R a s → SepBy R (a :: as) (s ++ t)
  | _, _, .nil, a, s, h => by simpa using SepBy.one h
  | _, _, .cons hg hr ht, a, s, h => by
    have := SepBy.cons h hg (sepBy_chain ht hr)
    simpa using this

theorem V.list0 {p : EP α} {R : α → Str → Prop} {E : α → Str → Prop} (hp : V Done p R E) : V Done (EP.sepList0 ECompact.space1 p) (SepBy R) Left :=
  (V.sepList0 V.space1 hp (fun _ h => h)).to fun as w h => by
    rcases h with ⟨rfl, rfl⟩ | ⟨a, s, as', t, rfl, rfl, hr, ht⟩
    · exact .nil
    · exact sepBy_chain ht hr

theorem V.list1 {p : EP α} {R : α → Str → Prop} {E : α → Str → Prop} (hp : V Done p R E) :
    V Done (EP.sepList1 ECompact.space1 p) (fun as w => as ≠ [] ∧ SepBy R as w) Left :=
  (V.sepList1 V.space1 hp (fun _ h => h)).to fun as w h => by
    obtain ⟨a, s, as', t, rfl, rfl, hr, ht⟩ := h
    exact ⟨nofun, sepBy_chain ht hr⟩

end Verif.ECompact
