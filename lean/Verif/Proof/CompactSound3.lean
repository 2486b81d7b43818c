import Verif.Proof.CompactSound2
/-
The compact syntax: what the parser reads, the grammar derives (patterns, grammars, schemas).
-/
namespace Verif.Compact
open Verif P Rnc
variable {α β : Type}

theorem value_inv {i r : Str} {p : SPattern} (hd : Done i) (h : datatypeValuePattern i = .ok r p) : ∃ t, i = t ++ r ∧ Prim False p t := by
  unfold datatypeValuePattern at h
  obtain ⟨i1, o, h1, h⟩ := bind_ok h
  obtain ⟨i2, _, h2, h⟩ := bind_ok h
  obtain ⟨i3, v, h3, h⟩ := bind_ok h
  obtain ⟨rfl, rfl⟩ := pure_ok h
  obtain ⟨t, e3, ht⟩ := literal_inv h3
  rcases opt_ok h1 with ⟨d, rfl, k⟩ | ⟨rfl, rfl, _⟩
  · obtain ⟨s, e1, hs, _⟩ := dtName_inv k
    obtain ⟨⟨g, e2, hg⟩, _⟩ := space0_ok h2
    exact ⟨_, by rw [e1, e2, e3]; simp, .typedValue hs hg ht⟩
  · have e2 := space0_done hd h2
    subst e2
    exact ⟨_, e3, .value ht⟩

theorem external_inv {i r : Str} {p : SPattern} (h : externalPattern i = .ok r p) : ∃ t, i = t ++ r ∧ Prim False p t := by
  unfold externalPattern at h
  obtain ⟨i1, _, h1, h⟩ := bind_ok h
  obtain ⟨i2, _, h2, h⟩ := bind_ok h
  obtain ⟨i3, l, h3, h⟩ := bind_ok h
  obtain ⟨i4, o, h4, h⟩ := bind_ok h
  obtain ⟨rfl, rfl⟩ := pure_ok h
  obtain ⟨⟨g, e2, hg⟩, _⟩ := space1_ok h2
  obtain ⟨t, e3, ht⟩ := literal_inv h3
  obtain ⟨u, e4, hu⟩ := inherit_inv h4
  exact ⟨_, by rw [tag_ok h1, e2, e3, e4]; simp, .external hg ht hu⟩

theorem grammarPat_inv {n : Nat} {pat : P SPattern} {item : P SItem} (hs : SubInv n pat item) {i r : Str} {p : SPattern} (h : grammarPattern item i = .ok r p) :
    ∃ t, i = t ++ r ∧ Prim False p t := by
  unfold grammarPattern at h
  obtain ⟨i1, _, h1, h⟩ := bind_ok h
  obtain ⟨i2, _, h2, h⟩ := bind_ok h
  obtain ⟨i3, _, h3, h⟩ := bind_ok h
  obtain ⟨i4, _, h4, h⟩ := bind_ok h
  obtain ⟨i5, is, h5, h⟩ := bind_ok h
  obtain ⟨i6, _, h6, h⟩ := bind_ok h
  obtain ⟨i7, _, h7, h⟩ := bind_ok h
  obtain ⟨rfl, rfl⟩ := pure_ok h
  obtain ⟨⟨g, e2, hg⟩, _⟩ := space0_ok h2
  obtain ⟨⟨g', e4, hg'⟩, d4⟩ := space0_ok h4
  obtain ⟨t, e5, ht⟩ := sepList0_sound (R := Item False) (fun i r a hd h => hs.hitem hd h) d4 h5
  obtain ⟨⟨g'', e6, hg''⟩, _⟩ := space0_ok h6
  exact ⟨_, by rw [tag_ok h1, e2, tag_ok h3, e4, e5, e6, tag_ok (cut_ok h7)]; simp, .grammar hg hg' ht hg''⟩

theorem group_inv {n : Nat} {pat : P SPattern} {item : P SItem} (hs : SubInv n pat item) {i r : Str} {p : SPattern} (h : groupPattern pat i = .ok r p) :
    ∃ t, i = t ++ r ∧ Prim False p t := by
  unfold groupPattern at h
  obtain ⟨i1, _, h1, h⟩ := bind_ok h
  obtain ⟨i2, _, h2, h⟩ := bind_ok h
  obtain ⟨i3, q, h3, h⟩ := bind_ok h
  obtain ⟨i4, _, h4, h⟩ := bind_ok h
  obtain ⟨i5, _, h5, h⟩ := bind_ok h
  obtain ⟨rfl, rfl⟩ := pure_ok h
  obtain ⟨⟨g, e2, hg⟩, d2⟩ := space0_ok h2
  obtain ⟨t, b, e3, ht, _⟩ := hs.hpat d2 h3
  obtain ⟨⟨g', e4, hg'⟩, _⟩ := space0_ok h4
  exact ⟨_, by rw [tag_ok h1, e2, e3, e4, tag_ok h5]; simp, .paren hg ht hg'⟩

theorem kwBraced_inv {n : Nat} {pat : P SPattern} {item : P SItem} (hs : SubInv n pat item) {k i r : Str} {p : SPattern} {f : SPattern → SPattern}
    (h : (do tag k; let p ← braced pat; pure (f p) : P SPattern) i = .ok r p) : ∃ t q, i = k ++ t ++ r ∧ p = f q ∧ Braced False q t := by
  obtain ⟨i1, _, h1, h⟩ := bind_ok h
  obtain ⟨i2, q, h2, h⟩ := bind_ok h
  obtain ⟨rfl, rfl⟩ := pure_ok h
  obtain ⟨t, e, ht⟩ := braced_inv hs h2
  exact ⟨t, q, by rw [tag_ok h1, e]; simp, rfl, ht⟩

theorem kw_inv {k i r : Str} {p q : SPattern} (h : (do tag k; pure q : P SPattern) i = .ok r p) : i = k ++ r ∧ p = q := by
  obtain ⟨i1, _, h1, h⟩ := bind_ok h
  obtain ⟨rfl, rfl⟩ := pure_ok h
  exact ⟨tag_ok h1, rfl⟩

theorem prim_inv {n : Nat} {pat : P SPattern} {item : P SItem} (hs : SubInv n pat item) {i r : Str} {p : SPattern} (hd : Done i) (h : primary n pat item i = .ok r p) :
    ∃ t, i = t ++ r ∧ (Prim False p t ∨ ExceptText n p r t) := by
  have L : (∃ t, i = t ++ r ∧ Prim False p t) → ∃ t, i = t ++ r ∧ (Prim False p t ∨ ExceptText n p r t) := fun ⟨t, e, h⟩ => ⟨t, e, .inl h⟩
  unfold primary at h
  rcases alt_ok h with h | ⟨_, h⟩
  · obtain ⟨i1, ⟨c, q⟩, h1, h⟩ := bind_ok h
    obtain ⟨rfl, rfl⟩ := pure_ok h
    obtain ⟨g, s, t, e, hg, hc, ht⟩ := named_inv hs h1
    exact L ⟨_, e, .element hg hc ht rfl⟩
  rcases alt_ok h with h | ⟨_, h⟩
  · obtain ⟨i1, ⟨c, q⟩, h1, h⟩ := bind_ok h
    obtain ⟨rfl, rfl⟩ := pure_ok h
    obtain ⟨g, s, t, e, hg, hc, ht⟩ := named_inv hs h1
    exact L ⟨_, e, .attribute hg hc ht rfl⟩
  rcases alt_ok h with h | ⟨_, h⟩
  · obtain ⟨t, q, e, rfl, ht⟩ := kwBraced_inv hs h
    exact L ⟨_, e, .list ht⟩
  rcases alt_ok h with h | ⟨_, h⟩
  · obtain ⟨t, q, e, rfl, ht⟩ := kwBraced_inv hs h
    exact L ⟨_, e, .mixed ht⟩
  rcases alt_ok h with h | ⟨_, h⟩
  · exact L (value_inv hd h)
  rcases alt_ok h with h | ⟨n6, h⟩
  · exact dataParam_inv hs h
  rcases alt_ok h with h | ⟨_, h⟩
  · obtain ⟨i1, w, h1, h⟩ := bind_ok h
    obtain ⟨rfl, rfl⟩ := pure_ok h
    obtain ⟨e, hw, _⟩ := identifier_inv h1
    exact L ⟨_, e, .ident hw (dtName_err (dataParam_err n6) e)⟩
  rcases alt_ok h with h | ⟨_, h⟩
  · obtain ⟨i1, _, h1, h⟩ := bind_ok h
    obtain ⟨i2, _, h2, h⟩ := bind_ok h
    obtain ⟨i3, w, h3, h⟩ := bind_ok h
    obtain ⟨rfl, rfl⟩ := pure_ok h
    obtain ⟨⟨g, e2, hg⟩, _⟩ := space1_ok h2
    obtain ⟨e3, hw, _⟩ := identifier_inv h3
    exact L ⟨_, by rw [tag_ok h1, e2, e3]; simp, .parent hg hw⟩
  rcases alt_ok h with h | ⟨_, h⟩
  · obtain ⟨e, rfl⟩ := kw_inv h
    exact L ⟨_, e, .empty⟩
  rcases alt_ok h with h | ⟨_, h⟩
  · obtain ⟨e, rfl⟩ := kw_inv h
    exact L ⟨_, e, .text⟩
  rcases alt_ok h with h | ⟨_, h⟩
  · obtain ⟨e, rfl⟩ := kw_inv h
    exact L ⟨_, e, .notAllowed⟩
  rcases alt_ok h with h | ⟨_, h⟩
  · exact L (external_inv h)
  rcases alt_ok h with h | ⟨_, h⟩
  · exact L (grammarPat_inv hs h)
  · exact L (group_inv hs h)

theorem operators_inv {n : Nat} {pat : P SPattern} {item : P SItem} (hs : SubInv n pat item) : ∀ (m : Nat) {i r : Str} {p q : SPattern} (a : Bool),
    operators pat m p i = .ok r q → (a = false → FollowStop n i) → ∃ t b, i = t ++ r ∧ Tail False p a q b t ∧ NoOps r ∧ (b = false → FollowStop n r)
  | 0, _, _, _, _, _, h, _ => by cases h
  | m + 1, i, r, p, q, a, h, hf => by
    have bin : ∀ (f : SPattern → SPattern) (r1 : Str), (do space0; let right ← pat; operators pat m (f right) : P SPattern) r1 = .ok r q →
        ∃ g t x b, r1 = g ++ t ++ r ∧ q = f x ∧ Gap g ∧ Rnc.Pat False x b t ∧ NoOps r ∧ (b = false → FollowStop n r) := by
      intro f r1 h
      obtain ⟨i1, _, h1, h⟩ := bind_ok h
      obtain ⟨i2, x, h2, h⟩ := bind_ok h
      obtain ⟨⟨g, e1, hg⟩, d1⟩ := space0_ok h1
      obtain ⟨t, b, e2, ht, hno, hst⟩ := hs.hpat d1 h2
      cases m with
      | zero => cases h
      | succ m =>
        rw [operators_noOps hno] at h
        cases h
        exact ⟨g, t, x, b, by rw [e1, e2]; simp, rfl, hg, ht, hno, hst⟩
    unfold operators at h
    split at h
    · rename_i r1 _ h0
      obtain ⟨⟨g, e0, hg⟩, _⟩ := space0_ok h0
      obtain ⟨g', t, x, b, e1, rfl, hg', ht, hno, hst⟩ := bin _ _ h
      exact ⟨_, b, by rw [e0, e1]; simp, .seq hg hg' ht, hno, hst⟩
    · rename_i r1 _ h0
      obtain ⟨⟨g, e0, hg⟩, _⟩ := space0_ok h0
      obtain ⟨g', t, x, b, e1, rfl, hg', ht, hno, hst⟩ := bin _ _ h
      exact ⟨_, b, by rw [e0, e1]; simp, .inter hg hg' ht, hno, hst⟩
    · rename_i r1 _ h0
      obtain ⟨⟨g, e0, hg⟩, _⟩ := space0_ok h0
      obtain ⟨g', t, x, b, e1, rfl, hg', ht, hno, hst⟩ := bin _ _ h
      exact ⟨_, b, by rw [e0, e1]; simp, .choice hg hg' ht, hno, hst⟩
    · rename_i r1 _ h0
      obtain ⟨⟨g, e0, hg⟩, _⟩ := space0_ok h0
      obtain ⟨t, b, e1, ht, hno, hst⟩ := operators_inv hs m true h nofun
      exact ⟨_, b, by rw [e0, e1]; simp, .optional hg ht, hno, hst⟩
    · rename_i r1 _ h0
      obtain ⟨⟨g, e0, hg⟩, _⟩ := space0_ok h0
      obtain ⟨t, b, e1, ht, hno, hst⟩ := operators_inv hs m true h nofun
      exact ⟨_, b, by rw [e0, e1]; simp, .zeroOrMore hg ht, hno, hst⟩
    · rename_i r1 _ h0
      obtain ⟨⟨g, e0, hg⟩, _⟩ := space0_ok h0
      obtain ⟨t, b, e1, ht, hno, hst⟩ := operators_inv hs m true h nofun
      exact ⟨_, b, by rw [e0, e1]; simp, .oneOrMore hg ht, hno, hst⟩
    · rename_i r1 _ n1 n2 n3 n4 n5 n6 h0
      cases h
      refine ⟨[], a, rfl, .done, ⟨r1, h0, ?_⟩, hf⟩
      intro c cs e
      subst e
      simp only [List.mem_cons, List.not_mem_nil, or_false, not_or]
      refine ⟨?_, ?_, ?_, ?_, ?_, ?_⟩ <;> (rintro rfl)
      · exact n1 _ rfl
      · exact n2 _ rfl
      · exact n3 _ rfl
      · exact n4 _ rfl
      · exact n5 _ rfl
      · exact n6 _ rfl
    all_goals cases h

/-! ### grammars -/

theorem assign_inv {i r : Str} {a : AssignMethod} (h : assignMethod i = .ok r a) : ∃ u, i = u ++ r ∧ Assign a u := by
  unfold assignMethod at h
  rcases alt_ok h with h | ⟨_, h⟩
  · obtain ⟨i1, _, h1, h⟩ := bind_ok h
    obtain ⟨rfl, rfl⟩ := pure_ok h
    exact ⟨_, tag_ok h1, .assign⟩
  rcases alt_ok h with h | ⟨_, h⟩
  · obtain ⟨i1, _, h1, h⟩ := bind_ok h
    obtain ⟨rfl, rfl⟩ := pure_ok h
    exact ⟨_, tag_ok h1, .choice⟩
  · obtain ⟨i1, _, h1, h⟩ := bind_ok h
    obtain ⟨rfl, rfl⟩ := pure_ok h
    exact ⟨_, tag_ok h1, .interleave⟩

theorem start_inv {n : Nat} {pat : P SPattern} {item : P SItem} (hs : SubInv n pat item) {i r : Str} {x : Str × AssignMethod × SPattern} (h : startRule pat i = .ok r x) :
    ∃ g u g' b s, i = "start".toList ++ g ++ u ++ g' ++ s ++ r ∧ x.1 = "start".toList ∧ Gap g ∧ Assign x.2.1 u ∧ Gap g' ∧ Rnc.Pat False x.2.2 b s := by
  unfold startRule at h
  obtain ⟨i1, _, h1, h⟩ := bind_ok h
  obtain ⟨i2, _, h2, h⟩ := bind_ok h
  obtain ⟨i3, a, h3, h⟩ := bind_ok h
  obtain ⟨i4, _, h4, h⟩ := bind_ok h
  obtain ⟨i5, p, h5, h⟩ := bind_ok h
  obtain ⟨rfl, rfl⟩ := pure_ok h
  obtain ⟨⟨g, e2, hg⟩, _⟩ := space0_ok h2
  obtain ⟨u, e3, hu⟩ := assign_inv h3
  obtain ⟨⟨g', e4, hg'⟩, d4⟩ := space0_ok h4
  obtain ⟨t, b, e5, ht, _⟩ := hs.hpat d4 (cut_ok h5)
  exact ⟨g, u, g', b, t, by rw [tag_ok h1, e2, e3, e4, e5]; simp, rfl, hg, hu, hg', ht⟩

theorem define_inv {n : Nat} {pat : P SPattern} {item : P SItem} (hs : SubInv n pat item) {i r : Str} {x : Str × AssignMethod × SPattern} (h : defineItem pat i = .ok r x) :
    ∃ g u g' b s, i = x.1 ++ g ++ u ++ g' ++ s ++ r ∧ Ident x.1 ∧ Gap g ∧ Assign x.2.1 u ∧ Gap g' ∧ Rnc.Pat False x.2.2 b s := by
  unfold defineItem at h
  obtain ⟨i1, w, h1, h⟩ := bind_ok h
  obtain ⟨i2, _, h2, h⟩ := bind_ok h
  obtain ⟨i3, a, h3, h⟩ := bind_ok h
  obtain ⟨i4, _, h4, h⟩ := bind_ok h
  obtain ⟨i5, p, h5, h⟩ := bind_ok h
  obtain ⟨rfl, rfl⟩ := pure_ok h
  obtain ⟨e1, hw, _⟩ := identifier_inv h1
  obtain ⟨⟨g, e2, hg⟩, _⟩ := space0_ok h2
  obtain ⟨u, e3, hu⟩ := assign_inv h3
  obtain ⟨⟨g', e4, hg'⟩, d4⟩ := space0_ok h4
  obtain ⟨t, b, e5, ht, _⟩ := hs.hpat d4 (cut_ok h5)
  exact ⟨g, u, g', b, t, by rw [e1, e2, e3, e4, e5]; simp, hw, hg, hu, hg', ht⟩

theorem override_inv {n : Nat} {pat : P SPattern} {item : P SItem} (hs : SubInv n pat item) : ∀ (m : Nat) {i r : Str} {o : SOverride},
    includeContent pat m i = .ok r o → ∃ t, i = t ++ r ∧ Override False o t
  | 0, _, _, _, h => by cases h
  | m + 1, i, r, o, h => by
    rw [includeContent] at h
    obtain ⟨i1, _, h1, h⟩ := bind_ok h
    obtain ⟨t0, e1, hi, _⟩ := init_inv h1
    rcases alt_ok h with h | ⟨_, h⟩
    · obtain ⟨i2, _, h2, h⟩ := bind_ok h
      obtain ⟨rfl, rfl⟩ := pure_ok h
      obtain ⟨s, e2, hs'⟩ := annElem_inv m h2
      exact ⟨_, by rw [e1, e2]; simp, .annotation hi hs'⟩
    rcases alt_ok h with h | ⟨_, h⟩
    · obtain ⟨i2, ⟨w, a, p⟩, h2, h⟩ := bind_ok h
      obtain ⟨rfl, rfl⟩ := pure_ok h
      obtain ⟨g, u, g', b, s, e2, hw, hg, hu, hg', hp⟩ := define_inv hs h2
      exact ⟨_, by rw [e1, e2]; simp, .define hi hw hg hu hg' hp⟩
    rcases alt_ok h with h | ⟨_, h⟩
    · obtain ⟨i2, ⟨w, a, p⟩, h2, h⟩ := bind_ok h
      obtain ⟨rfl, rfl⟩ := pure_ok h
      obtain ⟨g, u, g', b, s, e2, rfl, hg, hu, hg', hp⟩ := start_inv hs h2
      exact ⟨_, by rw [e1, e2]; simp, .start hi hg hu hg' hp⟩
    · obtain ⟨j1, _, h1, h⟩ := bind_ok h
      obtain ⟨j2, _, h2, h⟩ := bind_ok h
      obtain ⟨j3, _, h3, h⟩ := bind_ok h
      obtain ⟨j4, _, h4, h⟩ := bind_ok h
      obtain ⟨j5, os, h5, h⟩ := bind_ok h
      obtain ⟨j6, _, h6, h⟩ := bind_ok h
      obtain ⟨j7, _, h7, h⟩ := bind_ok h
      obtain ⟨rfl, rfl⟩ := pure_ok h
      obtain ⟨⟨g, e2, hg⟩, _⟩ := space0_ok h2
      obtain ⟨⟨g', e4, hg'⟩, d4⟩ := space0_ok h4
      obtain ⟨t, e5, ht⟩ := sepList0_sound (R := Override False) (fun i r a _ h => override_inv hs m h) d4 h5
      obtain ⟨⟨g'', e6, hg''⟩, _⟩ := space0_ok h6
      exact ⟨_, by rw [e1, tag_ok h1, e2, tag_ok h3, e4, e5, e6, tag_ok (cut_ok h7)]; simp, .div hi hg hg' ht hg''⟩

theorem overrides_inv {n : Nat} {pat : P SPattern} {item : P SItem} (hs : SubInv n pat item) {m : Nat} {i r : Str} {o : Option (List SOverride)}
    (h : opt (overrideBlock m pat) i = .ok r o) : ∃ w, i = w ++ r ∧ Overrides False (o.getD []) w := by
  rcases opt_ok h with ⟨os, rfl, k⟩ | ⟨rfl, rfl, _⟩
  · unfold overrideBlock at k
    obtain ⟨j2, _, h2, h⟩ := bind_ok k
    obtain ⟨j3, _, h3, h⟩ := bind_ok h
    obtain ⟨j4, _, h4, h⟩ := bind_ok h
    obtain ⟨j5, os, h5, h⟩ := bind_ok h
    obtain ⟨j6, _, h6, h⟩ := bind_ok h
    obtain ⟨j7, _, h7, h⟩ := bind_ok h
    obtain ⟨rfl, rfl⟩ := pure_ok h
    obtain ⟨⟨g, e2, hg⟩, _⟩ := space0_ok h2
    obtain ⟨⟨g', e4, hg'⟩, d4⟩ := space0_ok h4
    obtain ⟨t, e5, ht⟩ := sepList0_sound (R := Override False) (fun i r a _ h => override_inv hs m h) d4 h5
    obtain ⟨⟨g'', e6, hg''⟩, _⟩ := space0_ok h6
    exact ⟨_, by rw [e2, tag_ok h3, e4, e5, e6, tag_ok (cut_ok h7)]; simp, .some hg hg' ht hg''⟩
  · exact ⟨[], rfl, .none⟩

theorem include_inv {n : Nat} {pat : P SPattern} {item : P SItem} (hs : SubInv n pat item) {m : Nat} {i r : Str} {a : SItem} (h : includeItem m pat i = .ok r a) :
    ∃ t, i = t ++ r ∧ Item False a t := by
  unfold includeItem at h
  obtain ⟨i1, _, h1, h⟩ := bind_ok h
  obtain ⟨i2, _, h2, h⟩ := bind_ok h
  obtain ⟨i3, l, h3, h⟩ := bind_ok h
  obtain ⟨i4, o, h4, h⟩ := bind_ok h
  obtain ⟨i5, os, h5, h⟩ := bind_ok h
  obtain ⟨rfl, rfl⟩ := pure_ok h
  obtain ⟨⟨g, e2, hg⟩, _⟩ := space1_ok h2
  obtain ⟨t, e3, ht⟩ := literal_inv h3
  obtain ⟨u, e4, hu⟩ := inherit_inv h4
  obtain ⟨w, e5, hw⟩ := overrides_inv hs h5
  exact ⟨_, by rw [tag_ok h1, e2, e3, e4, e5]; simp, .include hg ht hu hw⟩

theorem div_inv {n : Nat} {pat : P SPattern} {item : P SItem} (hs : SubInv n pat item) {i r : Str} {a : SItem} (h : divItem item i = .ok r a) :
    ∃ t, i = t ++ r ∧ Item False a t := by
  unfold divItem at h
  obtain ⟨j1, _, h1, h⟩ := bind_ok h
  obtain ⟨j2, _, h2, h⟩ := bind_ok h
  obtain ⟨j3, _, h3, h⟩ := bind_ok h
  obtain ⟨j4, _, h4, h⟩ := bind_ok h
  obtain ⟨j5, is, h5, h⟩ := bind_ok h
  obtain ⟨j6, _, h6, h⟩ := bind_ok h
  obtain ⟨j7, _, h7, h⟩ := bind_ok h
  obtain ⟨rfl, rfl⟩ := pure_ok h
  obtain ⟨⟨g, e2, hg⟩, _⟩ := space0_ok h2
  obtain ⟨⟨g', e4, hg'⟩, d4⟩ := space0_ok h4
  obtain ⟨t, e5, ht⟩ := sepList0_sound (R := Item False) (fun i r a hd h => hs.hitem hd h) d4 h5
  obtain ⟨⟨g'', e6, hg''⟩, _⟩ := space0_ok h6
  exact ⟨_, by rw [tag_ok h1, e2, tag_ok h3, e4, e5, e6, tag_ok (cut_ok h7)]; simp, .div hg hg' ht hg''⟩

theorem subInv : ∀ n, SubInv n (pattern n) (grammarContent n)
  | 0 => ⟨fun _ h => (by cases h), fun _ h => (by cases h)⟩
  | n + 1 => by
    have hs := subInv n
    constructor
    · intro i r p hd h
      rw [pattern] at h
      obtain ⟨i1, _, h1, h⟩ := bind_ok h
      obtain ⟨i2, q, h2, h⟩ := bind_ok h
      obtain ⟨i3, fs, h3, h4⟩ := bind_ok h
      obtain ⟨t0, e1, hi, _, d1⟩ := init_inv h1
      obtain ⟨f, e3, hf, hf1, hf2, hst⟩ := follow_inv h3
      obtain ⟨v, b, e4, hv, hno, hst'⟩ := operators_inv hs _ false h4 (fun _ => hst)
      obtain ⟨s, e2, hp | ⟨d, s1, ps, u, g, g', e, c, t', rfl, rfl, hd', hu, hg, hg', hc, hp, hno', hfs⟩⟩ := prim_inv hs (d1 hd) h2
      · exact ⟨_, b, by rw [e1, e2, e3, e4]; simp, .mk hi hp hf hv, hno, fun e => (hst' e).succ⟩
      · by_cases e0 : fs = []
        · obtain ⟨rfl, rfl⟩ := hf1 e0
          rw [operators_noOps hno'] at h4
          cases h4
          exact ⟨_, false, by rw [e1, e2]; simp, .dataExcept hi hd' hu hg hg' hc hp, hno', fun _ => hst.succ⟩
        · obtain ⟨hf0, hns⟩ := hf2 e0
          cases c with
          | false => exact absurd (hfs rfl) hns
          | true => exact ⟨_, b, by rw [e1, e2, e3, e4]; simp, .dataExceptFollowed hi hd' hu hg hg' hc hp hf hf0 hv, hno, fun e => (hst' e).succ⟩
    · intro i r a hd h
      rw [grammarContent] at h
      rcases alt_ok h with h | ⟨_, h⟩
      · obtain ⟨i2, ⟨w, a, p⟩, h2, h⟩ := bind_ok h
        obtain ⟨rfl, rfl⟩ := pure_ok h
        obtain ⟨g, u, g', b, s, e2, rfl, hg, hu, hg', hp⟩ := start_inv hs h2
        exact ⟨_, e2, .start hg hu hg' hp⟩
      rcases alt_ok h with h | ⟨_, h⟩
      · obtain ⟨i2, ⟨w, a, p⟩, h2, h⟩ := bind_ok h
        obtain ⟨rfl, rfl⟩ := pure_ok h
        obtain ⟨g, u, g', b, s, e2, hw, hg, hu, hg', hp⟩ := define_inv hs h2
        exact ⟨_, e2, .define hw hg hu hg' hp⟩
      rcases alt_ok h with h | ⟨_, h⟩
      · exact div_inv hs h
      rcases alt_ok h with h | ⟨_, h⟩
      · exact include_inv hs h
      · obtain ⟨i2, _, h2, h⟩ := bind_ok h
        obtain ⟨rfl, rfl⟩ := pure_ok h
        obtain ⟨s, e2, hs'⟩ := annElem_inv n h2
        exact ⟨_, e2, .annotation hs'⟩

/-! ### schemas -/

theorem uri_inv {i r : Str} {u : Option Str} (h : namespaceUriLiteral i = .ok r u) : ∃ t, i = t ++ r ∧ NsUri u t := by
  unfold namespaceUriLiteral at h
  rcases alt_ok h with h | ⟨_, h⟩
  · obtain ⟨i1, _, h1, h⟩ := bind_ok h
    obtain ⟨rfl, rfl⟩ := pure_ok h
    exact ⟨_, tag_ok h1, .inherit⟩
  · obtain ⟨i1, _, h1, h⟩ := bind_ok h
    obtain ⟨rfl, rfl⟩ := pure_ok h
    obtain ⟨t, e, ht⟩ := literal_inv h1
    exact ⟨_, e, .uri ht⟩

theorem decl_inv {i r : Str} {d : SDecl} (h : decl i = .ok r d) : ∃ t, i = t ++ r ∧ Decl d t := by
  unfold decl at h
  rcases alt_ok h with h | ⟨_, h⟩
  · unfold declNamespace at h
    obtain ⟨i1, _, h1, h⟩ := bind_ok h
    obtain ⟨i2, _, h2, h⟩ := bind_ok h
    obtain ⟨i3, p, h3, h⟩ := bind_ok h
    obtain ⟨i4, _, h4, h⟩ := bind_ok h
    obtain ⟨i5, _, h5, h⟩ := bind_ok h
    obtain ⟨i6, _, h6, h⟩ := bind_ok h
    obtain ⟨i7, u, h7, h⟩ := bind_ok h
    obtain ⟨rfl, rfl⟩ := pure_ok h
    obtain ⟨⟨g, e2, hg⟩, _⟩ := space1_ok h2
    obtain ⟨e3, hp, _⟩ := anyIdent_inv h3
    obtain ⟨⟨g1, e4, hg1⟩, _⟩ := space0_ok h4
    obtain ⟨⟨g2, e6, hg2⟩, _⟩ := space0_ok h6
    obtain ⟨t, e7, ht⟩ := uri_inv h7
    exact ⟨_, by rw [tag_ok h1, e2, e3, e4, tag_ok h5, e6, e7]; simp, .namespace hg hp hg1 hg2 ht⟩
  rcases alt_ok h with h | ⟨_, h⟩
  · unfold declDefaultNamespace at h
    obtain ⟨i1, _, h1, h⟩ := bind_ok h
    obtain ⟨i2, _, h2, h⟩ := bind_ok h
    obtain ⟨j1, _, k1, h⟩ := bind_ok h
    obtain ⟨j2, _, k2, h⟩ := bind_ok h
    obtain ⟨i3, p, h3, h⟩ := bind_ok h
    obtain ⟨i4, _, h4, h⟩ := bind_ok h
    obtain ⟨i5, _, h5, h⟩ := bind_ok h
    obtain ⟨i6, _, h6, h⟩ := bind_ok h
    obtain ⟨i7, u, h7, h⟩ := bind_ok h
    obtain ⟨rfl, rfl⟩ := pure_ok h
    obtain ⟨⟨g, e2, hg⟩, _⟩ := space1_ok h2
    obtain ⟨⟨g', y2, hg'⟩, d'⟩ := space1_ok k2
    obtain ⟨⟨g2, e6, hg2⟩, _⟩ := space0_ok h6
    obtain ⟨t, e7, ht⟩ := uri_inv h7
    rcases opt_ok h3 with ⟨w, rfl, k3⟩ | ⟨rfl, rfl, _⟩
    · obtain ⟨e3, hp, _⟩ := anyIdent_inv k3
      obtain ⟨⟨g1, e4, hg1⟩, _⟩ := space0_ok h4
      exact ⟨_, by rw [tag_ok h1, e2, tag_ok k1, y2, e3, e4, tag_ok h5, e6, e7]; simp, .defaultPrefix hg hg' hp hg1 hg2 ht⟩
    · have e4 := space0_done d' h4
      subst e4
      exact ⟨_, by rw [tag_ok h1, e2, tag_ok k1, y2, tag_ok h5, e6, e7]; simp, .default hg hg' hg2 ht⟩
  · unfold declDatatypes at h
    obtain ⟨i1, _, h1, h⟩ := bind_ok h
    obtain ⟨i2, _, h2, h⟩ := bind_ok h
    obtain ⟨i3, p, h3, h⟩ := bind_ok h
    obtain ⟨i4, _, h4, h⟩ := bind_ok h
    obtain ⟨i5, _, h5, h⟩ := bind_ok h
    obtain ⟨i6, _, h6, h⟩ := bind_ok h
    obtain ⟨i7, u, h7, h⟩ := bind_ok h
    obtain ⟨rfl, rfl⟩ := pure_ok h
    obtain ⟨⟨g, e2, hg⟩, _⟩ := space1_ok h2
    obtain ⟨e3, hp, _⟩ := anyIdent_inv h3
    obtain ⟨⟨g1, e4, hg1⟩, _⟩ := space0_ok h4
    obtain ⟨⟨g2, e6, hg2⟩, _⟩ := space0_ok h6
    obtain ⟨t, e7, ht⟩ := literal_inv h7
    exact ⟨_, by rw [tag_ok h1, e2, e3, e4, tag_ok h5, e6, e7]; simp, .datatypes hg hp hg1 hg2 ht⟩

theorem body_inv {n : Nat} {i r : Str} {b : SBody} (hd : Done i)
    (h : alt (do let is ← sepList1 space1 (grammarContent n); pure (SBody.grammar is)) (do let p ← pattern n; pure (.pattern p)) i = .ok r b) :
    ∃ t, i = t ++ r ∧ Body False b t := by
  rcases alt_ok h with h | ⟨_, h⟩
  · obtain ⟨i1, is, h1, h⟩ := bind_ok h
    obtain ⟨rfl, rfl⟩ := pure_ok h
    obtain ⟨a, as, t, rfl, e, ht⟩ := sepList1_sound (R := Item False) (fun i r a hd h => (subInv n).hitem hd h) hd h1
    exact ⟨t, e, .grammar ht⟩
  · obtain ⟨i1, p, h1, h⟩ := bind_ok h
    obtain ⟨rfl, rfl⟩ := pure_ok h
    obtain ⟨t, b, e, ht, _⟩ := (subInv n).hpat hd h1
    exact ⟨t, e, .pattern ht nofun⟩

/-- What the parser accepts, the grammar derives. -/
theorem parse_sound {n : Nat} {t : Str} {s : SSchema} (h : parseCompact n t = .ok s) : Schema False s t := by
  unfold parseCompact at h
  cases e : compactSchema n t with
  | ok r s' =>
    rw [e] at h
    cases h
    unfold compactSchema allConsuming at e
    split at e
    · rename_i a e'
      cases e
      obtain ⟨i1, _, h1, h⟩ := bind_ok e'
      obtain ⟨i2, s, h2, h⟩ := bind_ok h
      obtain ⟨i3, _, h3, h⟩ := bind_ok h
      obtain ⟨rfl, rfl⟩ := pure_ok h
      unfold topLevel at h2
      obtain ⟨j1, ds, k1, h2⟩ := bind_ok h2
      obtain ⟨j2, _, k2, h2⟩ := bind_ok h2
      obtain ⟨j3, b, k3, h2⟩ := bind_ok h2
      obtain ⟨rfl, rfl⟩ := pure_ok h2
      obtain ⟨⟨g, e1, hg⟩, d1⟩ := space0_ok h1
      obtain ⟨t1, x1, ht⟩ := sepList0_sound (R := Decl) (fun i r a _ h => decl_inv h) d1 k1
      obtain ⟨⟨g', x2, hg'⟩, d2⟩ := space0_ok k2
      obtain ⟨u, x3, hb⟩ := body_inv d2 k3
      obtain ⟨⟨g'', e3, hg''⟩, _⟩ := space0_ok h3
      have := Schema.mk hg ht hg' hb hg'' (.inr nofun)
      have e : t = g ++ t1 ++ g' ++ u ++ g'' := by rw [e1, x1, x2, x3, e3]; simp
      rw [e]
      exact this
    · cases e
    · rename_i h2
      exact absurd e (h2 _ _)
  | err => rw [e] at h; cases h
  | fail => rw [e] at h; cases h
  | incomplete => rw [e] at h; cases h
  | panic => rw [e] at h; cases h
  | fuel => rw [e] at h; cases h

end Verif.Compact
