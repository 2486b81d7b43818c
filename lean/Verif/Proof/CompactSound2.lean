import Verif.Proof.CompactSound
/-
The compact syntax: what the parser reads, the grammar derives (annotations, name classes, patterns).
-/
namespace Verif.Compact
open Verif P Rnc
variable {α β : Type}

/-! ### annotations -/

theorem annAttr_inv {i r : Str} {u : Unit} (h : annotationAttribute i = .ok r u) : ∃ t, i = t ++ r ∧ AnnAttr u t := by
  unfold annotationAttribute at h
  obtain ⟨i1, _, h1, h⟩ := bind_ok h
  obtain ⟨i2, _, h2, h⟩ := bind_ok h
  obtain ⟨i3, _, h3, h⟩ := bind_ok h
  obtain ⟨i4, _, h4, h⟩ := bind_ok h
  obtain ⟨i5, _, h5, h⟩ := bind_ok h
  obtain ⟨rfl, rfl⟩ := pure_ok h
  obtain ⟨s, e1, hs⟩ := pName_inv h1
  obtain ⟨⟨g, e2, hg⟩, _⟩ := space0_ok h2
  obtain ⟨⟨g', e4, hg'⟩, _⟩ := space0_ok h4
  obtain ⟨t, e5, ht⟩ := literal_inv h5
  exact ⟨_, by rw [e1, e2, tag_ok h3, e4, e5]; simp, .mk hs hg hg' ht⟩

theorem annElem_inv : ∀ (n : Nat) {i r : Str} {u : Unit}, annotationElement n i = .ok r u → ∃ t, i = t ++ r ∧ AnnElem False u t
  | 0, _, _, _, h => by cases h
  | n + 1, i, r, u, h => by
    rw [annotationElement] at h
    obtain ⟨i1, _, h1, h⟩ := bind_ok h
    obtain ⟨i2, _, h2, h⟩ := bind_ok h
    obtain ⟨i3, _, h3, h⟩ := bind_ok h
    obtain ⟨i4, _, h4, h⟩ := bind_ok h
    obtain ⟨i5, as, h5, h⟩ := bind_ok h
    obtain ⟨i6, _, h6, h⟩ := bind_ok h
    obtain ⟨i7, es, h7, h⟩ := bind_ok h
    obtain ⟨i8, _, h8, h⟩ := bind_ok h
    obtain ⟨s, e1, hs⟩ := pName_inv h1
    obtain ⟨⟨g1, e2, hg1⟩, _⟩ := space0_ok h2
    obtain ⟨⟨g2, e4, hg2⟩, d4⟩ := space0_ok h4
    obtain ⟨t1, e5, ht1⟩ := sepList0_sound (R := AnnAttr) (fun i r a _ h => annAttr_inv h) d4 h5
    obtain ⟨⟨g3, e6, hg3⟩, d6⟩ := space0_ok h6
    have part : ∀ i r a, Done i → alt (annotationElement n) (do let _ ← literal; pure ()) i = .ok r a → ∃ t, i = t ++ r ∧ AnnPart False a t := by
      intro i r a _ h
      rcases alt_ok h with h | ⟨_, h⟩
      · obtain ⟨t, e, ht⟩ := annElem_inv n h
        exact ⟨t, e, .elem ht⟩
      · obtain ⟨i', v, h1, h⟩ := bind_ok h
        obtain ⟨rfl, rfl⟩ := pure_ok h
        obtain ⟨t, e, ht⟩ := literal_inv h1
        exact ⟨t, e, .literal ht⟩
    obtain ⟨t2, e7, ht2⟩ := sepList0_sound part d6 h7
    obtain ⟨⟨g4, e8, hg4⟩, _⟩ := space0_ok h8
    exact ⟨_, by rw [e1, e2, tag_ok h3, e4, e5, e6, e7, e8, tag_ok h]; simp, .mk hs hg1 hg2 ht1 hg3 ht2 hg4 (.inr nofun)⟩

theorem init_inv {n : Nat} {i r : Str} {o : Option Unit} (h : maybeInitialAnnotation n i = .ok r o) :
    ∃ t, i = t ++ r ∧ Init False t ∧ (o = some () → t ≠ []) ∧ (Done i → Done r) := by
  unfold maybeInitialAnnotation at h
  rcases opt_ok h with ⟨_, rfl, k⟩ | ⟨rfl, rfl, _⟩
  · obtain ⟨j, _, h, h'⟩ := bind_ok k
    unfold initialAnnotation at h
    obtain ⟨i3, _, h3, h⟩ := bind_ok h
    obtain ⟨i4, _, h4, h⟩ := bind_ok h
    obtain ⟨i5, as, h5, h⟩ := bind_ok h
    obtain ⟨i6, _, h6, h⟩ := bind_ok h
    obtain ⟨i7, es, h7, h⟩ := bind_ok h
    obtain ⟨i8, _, h8, h⟩ := bind_ok h
    obtain ⟨⟨g2, e4, hg2⟩, d4⟩ := space0_ok h4
    obtain ⟨t1, e5, ht1⟩ := sepList0_sound (R := AnnAttr) (fun i r a _ h => annAttr_inv h) d4 h5
    obtain ⟨⟨g3, e6, hg3⟩, d6⟩ := space0_ok h6
    obtain ⟨t2, e7, ht2⟩ := sepList0_sound (R := AnnElem False) (fun i r a _ h => annElem_inv n h) d6 h7
    obtain ⟨⟨g4, e8, hg4⟩, _⟩ := space0_ok h8
    obtain ⟨⟨g5, e9, hg5⟩, d9⟩ := space0_ok h'
    refine ⟨_, ?_, .some (.mk hg2 ht1 hg3 ht2 hg4) hg5, fun _ => by simp, fun _ => d9⟩
    rw [tag_ok h3, e4, e5, e6, e7, e8, tag_ok h, e9]; simp
  · exact ⟨[], rfl, .none, nofun, fun h => h⟩

/-- no annotation follows -/
def FollowStop (n : Nat) (r : Str) : Prop := followAnnotation n r = .err

theorem FollowStop.succ {n : Nat} {r : Str} (h : FollowStop n r) : FollowStop (n + 1) r := by
  have key : Same (followAnnotation n) (followAnnotation (n + 1)) := by unfold followAnnotation; same [annotationElement_same n]
  unfold FollowStop at h ⊢
  rcases key r with e | e
  · rw [h] at e; cases e
  · rw [e, h]

theorem space0_noErr (i : Str) : space0 i ≠ .err := by
  have : ∀ n i, spaceLoop n i ≠ .err := by
    intro n
    induction n with
    | zero => intro i h; cases h
    | succ n ih =>
      intro i h
      unfold spaceLoop at h
      cases e : alt multispace1 comment i with
      | ok r u =>
        rw [e] at h
        dsimp only at h
        have := (Safe.spaceStep (L := i.length) i (Nat.le_refl _)).2 _ _ e
        rw [if_neg (by omega)] at h
        exact ih _ h
      | _ => rw [e] at h; cases h
  exact this _ _

theorem follow_inv {n : Nat} {i r : Str} {fs : List Unit} (h : followAnnotationList n i = .ok r fs) :
    ∃ f, i = f ++ r ∧ Follow False f ∧ (fs = [] → f = [] ∧ r = i) ∧ (fs ≠ [] → f ≠ [] ∧ ¬ FollowStop n i) ∧ FollowStop n r := by
  have one : ∀ {i r : Str} {u : Unit}, followAnnotation n i = .ok r u → ∃ g g' s, i = g ++ '>' :: '>' :: g' ++ s ++ r ∧ Gap g ∧ Gap g' ∧ AnnElem False () s := by
    intro i r u h
    unfold followAnnotation at h
    obtain ⟨i1, _, h1, h⟩ := bind_ok h
    obtain ⟨i2, _, h2, h⟩ := bind_ok h
    obtain ⟨i3, _, h3, h⟩ := bind_ok h
    obtain ⟨⟨g, e1, hg⟩, _⟩ := space0_ok h1
    obtain ⟨⟨g', e3, hg'⟩, _⟩ := space0_ok h3
    obtain ⟨s, e4, hs⟩ := annElem_inv n h
    exact ⟨g, g', s, by rw [e1, tag_ok h2, e3, e4]; simp, hg, hg', hs⟩
  have loop : ∀ (fs : List Unit) (m : Nat) (i r : Str), sepLoop space0 (followAnnotation n) m i = .ok r fs → ∃ f, i = f ++ r ∧ Follow False f ∧ FollowStop n r := by
    intro fs
    induction fs with
    | nil =>
      intro m i r h
      rcases sepLoop_ok h with ⟨_, rfl, h | ⟨i1, h, h'⟩⟩ | ⟨_, _, _, _, _, e', _⟩
      · exact absurd h (space0_noErr _)
      · refine ⟨[], rfl, .nil, ?_⟩
        have d := (space0_ok h).2
        unfold FollowStop followAnnotation
        rw [bind_of_ok h]
        unfold followAnnotation at h'
        rw [bind_of_ok d.space0] at h'
        exact h'
      · cases e'
    | cons b bs ih =>
      intro m i r h
      rcases sepLoop_ok h with ⟨e', _, _⟩ | ⟨m', i1, i2, a, as, e', h1, h2, h3⟩
      · cases e'
      · cases e'
        obtain ⟨⟨g0, e0, hg0⟩, _⟩ := space0_ok h1
        obtain ⟨g, g', s, e1, hg, hg', hs⟩ := one h2
        obtain ⟨f, e2, hf, hst⟩ := ih _ _ _ h3
        exact ⟨_, by rw [e0, e1, e2]; simp, Follow.cons (hg0.append hg) hg' hs hf, hst⟩
  unfold followAnnotationList at h
  rcases sepList0_inv h with ⟨rfl, rfl, h⟩ | ⟨m, i1, a, as, rfl, h1, h2⟩
  · exact ⟨[], rfl, .nil, fun _ => ⟨rfl, rfl⟩, fun h => absurd rfl h, h⟩
  · obtain ⟨g, g', s, e1, hg, hg', hs⟩ := one h1
    obtain ⟨f, e2, hf, hst⟩ := loop _ _ _ _ h2
    refine ⟨_, by rw [e1, e2]; simp, Follow.cons hg hg' hs hf, nofun, fun _ => ⟨by simp, fun h => ?_⟩, hst⟩
    rw [h] at h1; cases h1

/-! ### name classes -/

/-- no alternative follows -/
def AltStop (n : Nat) (r : Str) : Prop := altNc (nameClass n) r ≠ .fuel ∧ altNc (nameClass n) r ≠ .panic ∧ ∀ r' b, altNc (nameClass n) r ≠ .ok r' b

theorem AltStop.succ {n : Nat} {r : Str} (h : AltStop n r) : AltStop (n + 1) r := by
  have key : Same (altNc (nameClass n)) (altNc (nameClass (n + 1))) := by unfold altNc; same [nameClass_same n]
  unfold AltStop at h ⊢
  rcases key r with e | e
  · exact absurd e h.1
  · rw [e]; exact h

theorem altTail_ok {n : Nat} {a b : SNameClass} {i r : Str} (h : altTail (nameClass n) a i = .ok r b) :
    (b = a ∧ r = i ∧ AltStop n i) ∨ ∃ c, b = .alt a c ∧ altNc (nameClass n) i = .ok r c := by
  unfold altTail at h
  cases e : altNc (nameClass n) i with
  | ok r' c => rw [e] at h; cases h; exact .inr ⟨c, rfl, rfl⟩
  | panic => rw [e] at h; cases h
  | fuel => rw [e] at h; cases h
  | err => rw [e] at h; cases h; exact .inl ⟨rfl, rfl, by unfold AltStop; rw [e]; exact ⟨nofun, nofun, nofun⟩⟩
  | fail => rw [e] at h; cases h; exact .inl ⟨rfl, rfl, by unfold AltStop; rw [e]; exact ⟨nofun, nofun, nofun⟩⟩
  | incomplete => rw [e] at h; cases h; exact .inl ⟨rfl, rfl, by unfold AltStop; rw [e]; exact ⟨nofun, nofun, nofun⟩⟩

theorem checkFollow_ok {o : Option Unit} {fs : List Unit} {i r : Str} {u : Unit} (h : checkFollow o fs i = .ok r u) : r = i ∧ (o = some () ∨ fs = []) := by
  unfold checkFollow at h
  split at h
  · rename_i hf; cases h; exact ⟨rfl, .inr (by simpa using hf)⟩
  · split at h
    · cases h; exact ⟨rfl, .inl rfl⟩
    · cases h

theorem except_inv {nc : P SNameClass} {i r : Str} {o : Option SNameClass} (h : exceptNc nc i = .ok r o) :
    (o = none ∧ r = i) ∨ ∃ e g g' j, o = some e ∧ i = g ++ '-' :: g' ++ j ∧ Gap g ∧ Gap g' ∧ nc j = .ok r e := by
  unfold exceptNc at h
  rcases opt_ok h with ⟨e, rfl, k⟩ | ⟨rfl, rfl, _⟩
  · obtain ⟨i1, _, h1, h⟩ := bind_ok k
    obtain ⟨i2, _, h2, h⟩ := bind_ok h
    obtain ⟨i3, _, h3, h⟩ := bind_ok h
    obtain ⟨⟨g, e1, hg⟩, _⟩ := space0_ok h1
    obtain ⟨⟨g', e3, hg'⟩, _⟩ := space0_ok h3
    exact .inr ⟨e, g, g', i3, rfl, by rw [e1, tag_ok h2, e3]; simp, hg, hg', h⟩
  · exact .inl ⟨rfl, rfl⟩

theorem nameClass_inv : ∀ (n : Nat) {i r : Str} {a : SNameClass}, nameClass n i = .ok r a → ∃ t, i = t ++ r ∧ Nc False a t ∧ FollowStop n r ∧ AltStop n r
  | 0, _, _, _, h => by cases h
  | n + 1, i, r, a, h => by
    rw [nameClass_succ] at h
    obtain ⟨i1, o, h1, h⟩ := bind_ok h
    obtain ⟨i2, left, h2, h⟩ := bind_ok h
    obtain ⟨i3, fs, h3, h⟩ := bind_ok h
    obtain ⟨i4, _, h4, hA⟩ := bind_ok h
    obtain ⟨t0, e1, hi, ho, _⟩ := init_inv h1
    obtain ⟨f, e3, hf, hf1, hf2, hst⟩ := follow_inv h3
    obtain ⟨e4, hc⟩ := checkFollow_ok h4
    subst e4
    have hcond : t0 ≠ [] ∨ f = [] := by
      rcases hc with hc | hc
      · exact .inl (ho hc)
      · exact .inr (hf1 hc).1
    have base : ∀ s, i1 = s ++ i2 → NcBase False left s → ∃ t, i = t ++ r ∧ Nc False a t ∧ FollowStop (n + 1) r ∧ AltStop (n + 1) r := by
      intro s e2 hb
      rcases altTail_ok hA with ⟨rfl, rfl, hs⟩ | ⟨c, rfl, hc⟩
      · exact ⟨_, by rw [e1, e2, e3]; simp, .base hi hb hf hcond, hst.succ, hs.succ⟩
      · unfold altNc at hc
        obtain ⟨j1, _, k1, hc⟩ := bind_ok hc
        obtain ⟨j2, _, k2, hc⟩ := bind_ok hc
        obtain ⟨j3, _, k3, hc⟩ := bind_ok hc
        obtain ⟨⟨g, x1, hg⟩, _⟩ := space0_ok k1
        obtain ⟨⟨g', x3, hg'⟩, _⟩ := space0_ok k3
        obtain ⟨t, x4, ht, s1, s2⟩ := nameClass_inv n hc
        exact ⟨_, by rw [e1, e2, e3, x1, tag_ok k2, x3, x4]; simp, .alt hi hb hf hcond hg hg' ht, s1.succ, s2.succ⟩
    have exc : FollowStop n i2 → AltStop n i2 → a = left ∧ r = i2 := by
      intro s1 s2
      have : fs = [] := Classical.byContradiction fun hne => (hf2 hne).2 s1
      obtain ⟨_, rfl⟩ := hf1 this
      rcases altTail_ok hA with ⟨rfl, rfl, _⟩ | ⟨c, rfl, hc⟩
      · exact ⟨rfl, rfl⟩
      · exact absurd hc (s2.2.2 _ _)
    unfold ncBase at h2
    rcases alt_ok h2 with h2 | ⟨_, h2⟩
    · unfold nsNameNc at h2
      obtain ⟨j1, p, k1, h2⟩ := bind_ok h2
      obtain ⟨j2, _, k2, h2⟩ := bind_ok h2
      obtain ⟨j3, o', k3, hP⟩ := bind_ok h2
      obtain ⟨x1, hp, _⟩ := pNcName_inv k1
      rcases except_inv k3 with ⟨rfl, rfl⟩ | ⟨e, g, g', j, rfl, x3, hg, hg', k4⟩
      · obtain ⟨rfl, rfl⟩ := pure_ok hP
        exact base _ (by rw [x1, tag_ok k2]; simp) (.nsName hp)
      · obtain ⟨rfl, rfl⟩ := pure_ok hP
        obtain ⟨t, x4, ht, s1, s2⟩ := nameClass_inv n k4
        obtain ⟨rfl, rfl⟩ := exc s1 s2
        exact ⟨_, by rw [e1, x1, tag_ok k2, x3, x4]; simp, .nsExcept hi hp hg hg' ht, s1.succ, s2.succ⟩
    rcases alt_ok h2 with h2 | ⟨_, h2⟩
    · obtain ⟨s, e2, hs⟩ := pName_inv h2
      exact base s e2 (.name hs)
    rcases alt_ok h2 with h2 | ⟨_, h2⟩
    · unfold anyNameNc at h2
      obtain ⟨j2, _, k2, h2⟩ := bind_ok h2
      obtain ⟨j3, o', k3, hP⟩ := bind_ok h2
      rcases except_inv k3 with ⟨rfl, rfl⟩ | ⟨e, g, g', j, rfl, x3, hg, hg', k4⟩
      · obtain ⟨rfl, rfl⟩ := pure_ok hP
        exact base _ (by rw [tag_ok k2]) .anyName
      · obtain ⟨rfl, rfl⟩ := pure_ok hP
        obtain ⟨t, x4, ht, s1, s2⟩ := nameClass_inv n k4
        obtain ⟨rfl, rfl⟩ := exc s1 s2
        exact ⟨_, by rw [e1, tag_ok k2, x3, x4]; simp, .anyExcept hi hg hg' ht, s1.succ, s2.succ⟩
    · unfold parenNc at h2
      obtain ⟨j1, _, k1, h2⟩ := bind_ok h2
      obtain ⟨j2, _, k2, h2⟩ := bind_ok h2
      obtain ⟨j3, a', k3, h2⟩ := bind_ok h2
      obtain ⟨j4, _, k4, h2⟩ := bind_ok h2
      obtain ⟨j5, _, k5, h2⟩ := bind_ok h2
      obtain ⟨rfl, rfl⟩ := pure_ok h2
      obtain ⟨⟨g, x2, hg⟩, _⟩ := space0_ok k2
      obtain ⟨t, x3, ht, _, _⟩ := nameClass_inv n k3
      obtain ⟨⟨g', x4, hg'⟩, _⟩ := space0_ok k4
      exact base _ (by rw [tag_ok k1, x2, x3, x4, tag_ok k5]; simp) (.paren hg ht hg')

/-! ### patterns -/

theorem dtName_inv {i r : Str} {d : SDtName} (h : datatypeName i = .ok r d) : ∃ s, i = s ++ r ∧ Rnc.DtName d s ∧ ((∃ p n, d = .cname p n) → NoName r) := by
  unfold datatypeName at h
  rcases alt_ok h with h | ⟨n1, h⟩
  · obtain ⟨i1, _, h1, h⟩ := bind_ok h
    obtain ⟨rfl, rfl⟩ := pure_ok h
    exact ⟨_, tag_ok h1, .string, nofun⟩
  rcases alt_ok h with h | ⟨n2, h⟩
  · obtain ⟨i1, _, h1, h⟩ := bind_ok h
    obtain ⟨rfl, rfl⟩ := pure_ok h
    exact ⟨_, tag_ok h1, .token, nofun⟩
  · obtain ⟨i1, ⟨p, n⟩, h1, h⟩ := bind_ok h
    obtain ⟨rfl, rfl⟩ := pure_ok h
    obtain ⟨e, hp, hn, hf⟩ := cname_inv h1
    have key : ∀ k : Str, ∀ d, (do tag k; pure d : P SDtName) i = .err → ¬ k <+: p := by
      rintro k d h ⟨x, hx⟩
      rw [e] at h
      dsimp only at h
      rw [← hx, List.append_assoc, List.append_assoc, bind_of_ok (tag_append _ _)] at h
      cases h
    exact ⟨_, e, .cname hp ⟨key _ _ n1, key _ _ n2⟩ hn, fun _ => hf⟩

theorem par_inv {n : Nat} {i r : Str} {a : Param} (hd : Done i) (h : param n i = .ok r a) : ∃ t, i = t ++ r ∧ Par False a t := by
  unfold param at h
  obtain ⟨i1, o, h1, h⟩ := bind_ok h
  obtain ⟨i2, _, h2, h⟩ := bind_ok h
  obtain ⟨i3, nm, h3, h⟩ := bind_ok h
  obtain ⟨i4, _, h4, h⟩ := bind_ok h
  obtain ⟨i5, _, h5, h⟩ := bind_ok h
  obtain ⟨i6, _, h6, h⟩ := bind_ok h
  obtain ⟨i7, v, h7, h⟩ := bind_ok h
  obtain ⟨rfl, rfl⟩ := pure_ok h
  obtain ⟨t0, e1, hi, _, d1⟩ := init_inv h1
  have e2 := space0_done (d1 hd) h2
  obtain ⟨e3, hn, _⟩ := anyIdent_inv h3
  obtain ⟨⟨g1, e4, hg1⟩, _⟩ := space0_ok h4
  obtain ⟨⟨g2, e6, hg2⟩, _⟩ := space0_ok h6
  obtain ⟨t, e7, ht⟩ := literal_inv h7
  exact ⟨_, by rw [e1, ← e2, e3, e4, tag_ok h5, e6, e7]; simp, .mk hi hn hg1 hg2 ht⟩

theorem pars_inv {n : Nat} {i r : Str} {o : Option (List Param)} (h : opt (params n) i = .ok r o) : ∃ u, i = u ++ r ∧ Pars False (o.getD []) u := by
  rcases opt_ok h with ⟨ps, rfl, k⟩ | ⟨rfl, rfl, _⟩
  · unfold params at k
    obtain ⟨i1, _, h1, h⟩ := bind_ok k
    obtain ⟨i2, _, h2, h⟩ := bind_ok h
    obtain ⟨i3, _, h3, h⟩ := bind_ok h
    obtain ⟨i4, ps', h4, h⟩ := bind_ok h
    obtain ⟨i5, _, h5, h⟩ := bind_ok h
    obtain ⟨i6, _, h6, h⟩ := bind_ok h
    obtain ⟨rfl, rfl⟩ := pure_ok h
    obtain ⟨⟨g1, e1, hg1⟩, _⟩ := space0_ok h1
    obtain ⟨⟨g2, e3, hg2⟩, d3⟩ := space0_ok h3
    obtain ⟨t, e4, ht⟩ := sepList0_sound (R := Par False) (fun i r a hd h => par_inv hd h) d3 h4
    obtain ⟨⟨g3, e5, hg3⟩, _⟩ := space0_ok h5
    exact ⟨_, by rw [e1, tag_ok h2, e3, e4, e5, tag_ok (cut_ok h6)]; simp, .some hg1 hg2 ht hg3⟩
  · exact ⟨[], rfl, .none⟩

/-- no operator follows -/
def NoOps (r : Str) : Prop := ∃ r', space0 r = .ok r' () ∧ ∀ c cs, r' = c :: cs → c ∉ [',', '&', '|', '?', '*', '+']

theorem operators_noOps {pat : P SPattern} {m : Nat} {p : SPattern} {r : Str} (h : NoOps r) : operators pat (m + 1) p r = .ok r p := by
  obtain ⟨r', h1, h3⟩ := h
  unfold operators
  rw [h1]
  cases r' with
  | nil => rfl
  | cons c cs =>
    have hc := h3 c cs rfl
    simp only [List.mem_cons, List.not_mem_nil, or_false, not_or] at hc
    split <;> (rename_i e; first | rfl | (cases e; simp at hc) | (exact absurd e (by simp)))

/-- what is known about the parsers of the smaller parts -/
structure SubInv (n : Nat) (pat : P SPattern) (item : P SItem) : Prop where
  hpat : ∀ {i r : Str} {p : SPattern}, Done i → pat i = .ok r p → ∃ t b, i = t ++ r ∧ Rnc.Pat False p b t ∧ NoOps r ∧ (b = false → FollowStop n r)
  hitem : ∀ {i r : Str} {a : SItem}, Done i → item i = .ok r a → ∃ t, i = t ++ r ∧ Item False a t

theorem braced_inv {n : Nat} {pat : P SPattern} {item : P SItem} (hs : SubInv n pat item) {i r : Str} {p : SPattern} (h : braced pat i = .ok r p) :
    ∃ t, i = t ++ r ∧ Braced False p t := by
  unfold braced at h
  obtain ⟨i1, _, h1, h⟩ := bind_ok h
  obtain ⟨i2, _, h2, h⟩ := bind_ok h
  obtain ⟨i3, _, h3, h⟩ := bind_ok h
  obtain ⟨i4, q, h4, h⟩ := bind_ok h
  obtain ⟨i5, _, h5, h⟩ := bind_ok h
  obtain ⟨i6, _, h6, h⟩ := bind_ok h
  obtain ⟨rfl, rfl⟩ := pure_ok h
  obtain ⟨⟨g1, e1, hg1⟩, _⟩ := space0_ok h1
  obtain ⟨⟨g2, e3, hg2⟩, d3⟩ := space0_ok h3
  obtain ⟨t, b, e4, ht, _⟩ := hs.hpat d3 (cut_ok h4)
  obtain ⟨⟨g3, e5, hg3⟩, _⟩ := space0_ok h5
  exact ⟨_, by rw [e1, tag_ok h2, e3, e4, e5, tag_ok (cut_ok h6)]; simp, .mk hg1 hg2 ht hg3⟩

theorem named_inv {n : Nat} {pat : P SPattern} {item : P SItem} (hs : SubInv n pat item) {k i r : Str} {x : SNameClass × SPattern} (h : namedPattern k (nameClass n) pat i = .ok r x) :
    ∃ g s t, i = k ++ g ++ s ++ t ++ r ∧ Sep g ∧ Nc False x.1 s ∧ Braced False x.2 t := by
  unfold namedPattern at h
  obtain ⟨i1, _, h1, h⟩ := bind_ok h
  obtain ⟨i2, _, h2, h⟩ := bind_ok h
  obtain ⟨i3, _, h3, h⟩ := bind_ok h
  obtain ⟨i4, _, h4, h⟩ := bind_ok h
  obtain ⟨rfl, rfl⟩ := pure_ok h
  obtain ⟨⟨g, e2, hg⟩, _⟩ := space1_ok h2
  obtain ⟨s, e3, hc, _⟩ := nameClass_inv n h3
  obtain ⟨t, e4, ht⟩ := braced_inv hs h4
  exact ⟨g, s, t, by rw [tag_ok h1, e2, e3, e4]; simp, hg, hc, ht⟩

theorem inherit_inv {i r : Str} {o : Option Str} (h : opt (do space1; inherit) i = .ok r o) : ∃ u, i = u ++ r ∧ Inherit o u := by
  rcases opt_ok h with ⟨p, rfl, k⟩ | ⟨rfl, rfl, _⟩
  · obtain ⟨i1, _, h1, h⟩ := bind_ok k
    unfold inherit at h
    obtain ⟨i2, _, h2, h⟩ := bind_ok h
    obtain ⟨i3, _, h3, h⟩ := bind_ok h
    obtain ⟨i4, _, h4, h⟩ := bind_ok h
    obtain ⟨i5, _, h5, h⟩ := bind_ok h
    obtain ⟨⟨g, e1, hg⟩, _⟩ := space1_ok h1
    obtain ⟨⟨g1, e3, hg1⟩, _⟩ := space0_ok h3
    obtain ⟨⟨g2, e5, hg2⟩, _⟩ := space0_ok h5
    obtain ⟨e6, hp, _⟩ := anyIdent_inv h
    exact ⟨_, by rw [e1, tag_ok h2, e3, tag_ok h4, e5, e6]; simp, .some hg hg1 hg2 hp⟩
  · exact ⟨[], rfl, .none⟩

/-- `datatype - pattern` -/
structure ExceptText (n : Nat) (p : SPattern) (r t : Str) : Prop where
  ex : ∃ d s ps u g g' e c t', t = s ++ u ++ g ++ '-' :: g' ++ t' ∧ p = .dataExcept d ps e ∧ Rnc.DtName d s ∧ Pars False ps u ∧ Gap g ∧ Gap g' ∧
    (u ++ g = [] → ¬ False ∧ ∀ p n, d ≠ .cname p n) ∧ Rnc.Pat False e c t' ∧ NoOps r ∧ (c = false → FollowStop n r)

theorem dataParam_inv {n : Nat} {pat : P SPattern} {item : P SItem} (hs : SubInv n pat item) {i r : Str} {p : SPattern} (h : datatypeParamPattern n pat i = .ok r p) :
    ∃ t, i = t ++ r ∧ (Prim False p t ∨ ExceptText n p r t) := by
  unfold datatypeParamPattern at h
  obtain ⟨i1, d, h1, h⟩ := bind_ok h
  obtain ⟨i2, ps, h2, h⟩ := bind_ok h
  obtain ⟨i3, ex, h3, hP⟩ := bind_ok h
  obtain ⟨s, e1, hd, hn⟩ := dtName_inv h1
  obtain ⟨u, e2, hu⟩ := pars_inv h2
  rcases opt_ok h3 with ⟨e, rfl, k⟩ | ⟨rfl, rfl, _⟩
  · obtain ⟨rfl, rfl⟩ := pure_ok hP
    obtain ⟨j1, _, k1, h3⟩ := bind_ok k
    obtain ⟨j2, _, k2, h3⟩ := bind_ok h3
    obtain ⟨j3, _, k3, h3⟩ := bind_ok h3
    obtain ⟨⟨g, x1, hg⟩, _⟩ := space0_ok k1
    obtain ⟨⟨g', x3, hg'⟩, d3⟩ := space0_ok k3
    obtain ⟨t, b, x4, ht, hno, hfs⟩ := hs.hpat d3 h3
    refine ⟨_, ?_, .inr ⟨d, s, _, u, g, g', e, b, t, rfl, rfl, hd, hu, hg, hg', fun h0 => ⟨id, fun p n ed => ?_⟩, ht, hno, hfs⟩⟩
    · rw [e1, e2, x1, tag_ok k2, x3, x4]; simp
    · have hn := hn ⟨p, n, ed⟩
      obtain ⟨rfl, rfl⟩ := List.append_eq_nil_iff.mp h0
      rw [e2, x1, tag_ok k2] at hn
      have := hn '-' j2 rfl
      revert this; decide
  · obtain ⟨rfl, rfl⟩ := pure_ok hP
    exact ⟨_, by rw [e1, e2]; simp, .inl (.data hd hu)⟩

theorem dataParam_err {n : Nat} {pat : P SPattern} {i : Str} (h : datatypeParamPattern n pat i = .err) : datatypeName i = .err := by
  unfold datatypeParamPattern at h
  have noErr : ∀ {γ : Type} (p : P γ) (i : Str), opt p i ≠ .err := by
    intro γ p i h
    unfold opt at h
    cases e : p i <;> rw [e] at h <;> cases h
  change P.bind datatypeName _ i = _ at h
  unfold P.bind at h
  cases e : datatypeName i with
  | err => rfl
  | ok i1 d =>
    rw [e] at h
    change P.bind (opt (params n)) _ i1 = _ at h
    unfold P.bind at h
    cases e' : opt (params n) i1 with
    | err => exact absurd e' (noErr _ _)
    | ok i2 ps =>
      rw [e'] at h
      change P.bind (opt _) _ i2 = _ at h
      unfold P.bind at h
      cases e'' : opt (do space0; tag ['-']; space0; pat : P SPattern) i2 with
      | err => exact absurd e'' (noErr _ _)
      | ok i3 ex =>
        rw [e''] at h
        cases ex <;> cases h
      | _ => rw [e''] at h; cases h
    | _ => rw [e'] at h; cases h
  | _ => rw [e] at h; cases h

theorem dtName_err {i w r : Str} (h : datatypeName i = .err) (e : i = w ++ r) : Referable w := by
  unfold datatypeName at h
  have key : ∀ {k : Str} {d : SDtName}, k <+: w → (do tag k; pure d : P SDtName) i = .ok (i.drop k.length) d := by
    rintro k d ⟨x, rfl⟩
    rw [e, List.append_assoc, bind_of_ok (tag_append _ _)]
    show PRes.ok _ _ = _
    congr 1
    simp
  refine ⟨fun hp => ?_, fun hp => ?_⟩
  · rw [alt_of_ok (key hp)] at h; cases h
  · cases e1 : (do tag "string".toList; pure .string : P SDtName) i with
    | err => rw [alt_of_err e1, alt_of_ok (key hp)] at h; cases h
    | ok _ _ => rw [alt_of_ok e1] at h; cases h
    | _ => unfold alt at h; rw [e1] at h; cases h

end Verif.Compact
