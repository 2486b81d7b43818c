import Verif.Proof.CompactTop
import Verif.Proof.CompactTerm
/-
The compact syntax: what the parser reads, the grammar derives.
-/
namespace Verif.Compact
open Verif P Rnc
variable {α β : Type}

/-! ### inverting combinators -/

theorem bind_ok {p : P α} {f : α → P β} {i r : Str} {b : β} (h : (p >>= f) i = .ok r b) : ∃ i' a, p i = .ok i' a ∧ f a i' = .ok r b := by
  change P.bind p f i = _ at h
  unfold P.bind at h
  cases e : p i with
  | ok i' a => rw [e] at h; exact ⟨i', a, rfl, h⟩
  | _ => rw [e] at h; cases h

theorem pure_ok {a b : α} {i r : Str} (h : (pure a : P α) i = .ok r b) : r = i ∧ b = a := by
  change PRes.ok i a = _ at h; cases h; exact ⟨rfl, rfl⟩

theorem alt_ok {p q : P α} {i r : Str} {a : α} (h : alt p q i = .ok r a) : p i = .ok r a ∨ (p i = .err ∧ q i = .ok r a) := by
  unfold alt at h
  cases e : p i with
  | ok i' a => rw [e] at h; exact .inl h
  | err => rw [e] at h; exact .inr ⟨rfl, h⟩
  | _ => rw [e] at h; cases h

theorem opt_ok {p : P α} {i r : Str} {o : Option α} (h : opt p i = .ok r o) : (∃ a, o = some a ∧ p i = .ok r a) ∨ (o = none ∧ r = i ∧ p i = .err) := by
  unfold opt at h
  cases e : p i with
  | ok i' a => rw [e] at h; cases h; exact .inl ⟨a, rfl, rfl⟩
  | err => rw [e] at h; cases h; exact .inr ⟨rfl, rfl, rfl⟩
  | _ => rw [e] at h; cases h

theorem cut_ok {p : P α} {i r : Str} {a : α} (h : cut p i = .ok r a) : p i = .ok r a := by
  unfold cut at h
  cases e : p i with
  | ok i' a => rw [e] at h; exact h
  | _ => rw [e] at h; cases h

/-- nothing to skip -/
def Done (i : Str) : Prop := alt multispace1 comment i = .err

theorem Done.space0 {i : Str} (h : Done i) : space0 i = .ok i () := by
  unfold Compact.space0 spaceLoop; rw [h]

/-- what `sepLoop` reads: separators and entries -/
theorem sepLoop_ok {sep : P Unit} {p : P α} : ∀ {n : Nat} {i r : Str} {as : List α}, sepLoop sep p n i = .ok r as →
    (as = [] ∧ r = i ∧ (sep i = .err ∨ ∃ i1, sep i = .ok i1 () ∧ p i1 = .err)) ∨
    ∃ m i1 i2 a as', as = a :: as' ∧ sep i = .ok i1 () ∧ p i1 = .ok i2 a ∧ sepLoop sep p m i2 = .ok r as'
  | 0, _, _, _, h => by cases h
  | n + 1, i, r, as, h => by
    unfold sepLoop at h
    cases e : sep i with
    | err => rw [e] at h; cases h; exact .inl ⟨rfl, rfl, .inl rfl⟩
    | ok i1 u =>
      rw [e] at h
      dsimp only at h
      cases e' : p i1 with
      | err => rw [e'] at h; cases h; exact .inl ⟨rfl, rfl, .inr ⟨i1, rfl, e'⟩⟩
      | ok i2 a =>
        rw [e'] at h
        dsimp only at h
        split at h
        · cases h
        · cases e'' : sepLoop sep p n i2 with
          | ok r' as' => rw [e''] at h; cases h; exact .inr ⟨n, i1, i2, a, as', rfl, rfl, e', e''⟩
          | _ => rw [e''] at h; cases h
      | _ => rw [e'] at h; cases h
    | _ => rw [e] at h; cases h

theorem sepList1_inv {sep : P Unit} {p : P α} {i r : Str} {as : List α} (h : sepList1 sep p i = .ok r as) :
    ∃ n i1 a as', as = a :: as' ∧ p i = .ok i1 a ∧ sepLoop sep p n i1 = .ok r as' := by
  unfold sepList1 at h
  cases e : p i with
  | ok i1 a =>
    rw [e] at h
    dsimp only at h
    cases e' : sepLoop sep p (i1.length + 1) i1 with
    | ok r' as' => rw [e'] at h; cases h; exact ⟨_, i1, a, as', rfl, rfl, e'⟩
    | _ => rw [e'] at h; cases h
  | _ => rw [e] at h; cases h

theorem sepList0_inv {sep : P Unit} {p : P α} {i r : Str} {as : List α} (h : sepList0 sep p i = .ok r as) :
    (as = [] ∧ r = i ∧ p i = .err) ∨ ∃ n i1 a as', as = a :: as' ∧ p i = .ok i1 a ∧ sepLoop sep p n i1 = .ok r as' := by
  unfold sepList0 at h
  cases e : p i with
  | ok i1 a =>
    rw [e] at h
    dsimp only at h
    cases e' : sepLoop sep p (i1.length + 1) i1 with
    | ok r' as' => rw [e'] at h; cases h; exact .inr ⟨_, i1, a, as', rfl, rfl, e'⟩
    | _ => rw [e'] at h; cases h
  | err => rw [e] at h; cases h; exact .inl ⟨rfl, rfl, rfl⟩
  | _ => rw [e] at h; cases h

/-! ### white space -/

theorem takeDrop (f : Char → Bool) : ∀ i : Str, ∃ b, i = b ++ i.dropWhile f ∧ ∀ c ∈ b, f c = true
  | [] => ⟨[], rfl, nofun⟩
  | c :: cs => by
    obtain ⟨b, h1, h2⟩ := takeDrop f cs
    rw [List.dropWhile_cons]
    by_cases hc : f c = true
    · rw [if_pos hc]
      refine ⟨c :: b, by rw [List.cons_append, ← h1], fun d hd => ?_⟩
      rcases List.mem_cons.mp hd with rfl | hd
      · exact hc
      · exact h2 d hd
    · rw [if_neg hc]; exact ⟨[], rfl, nofun⟩

theorem gap_spaces : ∀ {b : Str}, (∀ c ∈ b, isMultispace c = true) → ∀ {g : Str}, Gap g → Gap (b ++ g)
  | [], _, _, hg => hg
  | c :: b, h, _, hg => .space (isMultispace_iff.mp (h c (.head _))) (gap_spaces (fun d hd => h d (.tail _ hd)) hg)

theorem mem_takeWhile {f : Char → Bool} : ∀ {i : Str} {c : Char}, c ∈ i.takeWhile f → f c = true
  | [], _, h => by cases h
  | d :: ds, c, h => by
    rw [List.takeWhile_cons] at h
    split at h
    · rename_i hd
      rcases List.mem_cons.mp h with rfl | h
      · exact hd
      · exact mem_takeWhile h
    · cases h

theorem dropWhile_head (f : Char → Bool) : ∀ (i : Str) (c : Char) (cs : Str), i.dropWhile f = c :: cs → f c = false
  | [], _, _, h => by cases h
  | d :: ds, c, cs, h => by
    rw [List.dropWhile_cons] at h
    split at h
    · exact dropWhile_head f ds c cs h
    · rename_i hd; cases h; simpa using hd

theorem notLineEnding_ok {i r : Str} {u : Unit} (h : notLineEnding i = .ok r u) : r = i.dropWhile (fun c => c != '\r' && c != '\n') ∧
    ((∃ r', r = '\n' :: r') ∨ ∃ r', r = '\r' :: '\n' :: r') := by
  have hd := dropWhile_head (fun c => c != '\r' && c != '\n') i
  unfold notLineEnding at h
  generalize i.dropWhile (fun c => c != '\r' && c != '\n') = d at h hd
  cases d with
  | nil => cases h
  | cons c cs =>
    have hc := hd c cs rfl
    simp only [Bool.and_eq_false_iff, bne_eq_false_iff_eq] at hc
    rcases hc with rfl | rfl
    · cases cs with
      | nil => cases h
      | cons d ds =>
        by_cases hn : d = '\n'
        · subst hn; cases h; exact ⟨rfl, .inr ⟨_, rfl⟩⟩
        · exfalso
          split at h
          · cases h
          · rename_i e; cases e; exact hn rfl
          · cases h
          · cases h
          · rename_i h4; exact h4 _ rfl
    · cases h; exact ⟨rfl, .inl ⟨_, rfl⟩⟩

/-- one round: white space, or a comment up to its line ending -/
theorem spaceStep_ok {i r : Str} {u : Unit} (h : alt multispace1 comment i = .ok r u) :
    (∃ c b, i = c :: (b ++ r) ∧ (∀ d ∈ c :: b, isMultispace d = true)) ∨
    ∃ body, i = '#' :: (body ++ r) ∧ (∀ c ∈ body, c ≠ '\r' ∧ c ≠ '\n') ∧ ((∃ r', r = '\n' :: r') ∨ ∃ r', r = '\r' :: '\n' :: r') := by
  rcases alt_ok h with h | ⟨_, h⟩
  · cases i with
    | nil => cases h
    | cons c cs =>
      change (if isMultispace c then PRes.ok (cs.dropWhile isMultispace) () else .err) = _ at h
      split at h
      · rename_i hc
        cases h
        obtain ⟨b, h1, h2⟩ := takeDrop isMultispace cs
        refine .inl ⟨c, b, by rw [← h1], fun d hd => ?_⟩
        rcases List.mem_cons.mp hd with rfl | hd
        · exact hc
        · exact h2 d hd
      · cases h
  · unfold comment at h
    obtain ⟨i1, _, h1, h2⟩ := bind_ok h
    have e := tag_ok h1
    obtain ⟨b, hb, hb'⟩ := takeDrop (fun c => c != '\r' && c != '\n') i1
    obtain ⟨h3, h4⟩ := notLineEnding_ok h2
    exact .inr ⟨b, by rw [e, h3, ← hb]; rfl, fun c hc => by simpa using hb' c hc, h4⟩

theorem spaceLoop_sound : ∀ {n : Nat} {i r : Str} {u : Unit}, spaceLoop n i = .ok r u → (∃ g, i = g ++ r ∧ Gap g) ∧ Done r
  | 0, _, _, _, h => by cases h
  | n + 1, i, r, u, h => by
    unfold spaceLoop at h
    cases e : alt multispace1 comment i with
    | err => rw [e] at h; cases h; exact ⟨⟨[], rfl, .nil⟩, e⟩
    | ok r1 u1 =>
      rw [e] at h
      dsimp only at h
      split at h
      · cases h
      · obtain ⟨⟨g, e1, hg⟩, hd⟩ := spaceLoop_sound h
        refine ⟨?_, hd⟩
        rcases spaceStep_ok e with ⟨c, b, rfl, hb⟩ | ⟨body, rfl, hb, hr⟩
        · exact ⟨c :: b ++ g, by rw [e1]; simp, gap_spaces hb hg⟩
        · refine ⟨'#' :: (body ++ g), by rw [e1]; simp, ?_⟩
          have hne : g ≠ [] := by
            rintro rfl
            rw [List.nil_append] at e1
            subst e1
            rcases hr with ⟨r', rfl⟩ | ⟨r', rfl⟩ <;> (unfold Done at hd; rw [alt_of_ok (show multispace1 _ = .ok _ () from rfl)] at hd; cases hd)
          rcases hr with ⟨r', rfl⟩ | ⟨r', rfl⟩
          · cases hg with
            | nil => exact absurd rfl hne
            | space _ hs => cases e1; exact .comment hb hs
            | comment _ _ => cases e1
            | commentCr _ _ => cases e1
          · cases hg with
            | nil => exact absurd rfl hne
            | space _ hs =>
              obtain ⟨rfl, e1⟩ := List.cons.inj e1
              cases hs with
              | nil =>
                have e1 : '\n' :: r' = r := (List.cons.inj e1).2
                subst e1
                unfold Done at hd; rw [alt_of_ok (show multispace1 _ = .ok _ () from rfl)] at hd; cases hd
              | space _ hs => cases e1; exact .commentCr hb hs
              | comment _ _ => cases e1
              | commentCr _ _ => cases e1
            | comment _ _ => cases e1
            | commentCr _ _ => cases e1
    | _ => rw [e] at h; cases h

theorem space0_ok {i r : Str} {u : Unit} (h : space0 i = .ok r u) : (∃ g, i = g ++ r ∧ Gap g) ∧ Done r := spaceLoop_sound h

theorem space0_done {i r : Str} {u : Unit} (hd : Done i) (h : space0 i = .ok r u) : r = i := by
  rw [hd.space0] at h; cases h; rfl

theorem space1_ok {i r : Str} {u : Unit} (h : space1 i = .ok r u) : (∃ g, i = g ++ r ∧ Sep g) ∧ Done r := by
  have h0 : ∃ n, spaceLoop (n + 1) i = .ok r u := by
    unfold space1 at h
    obtain ⟨i1, u1, h1, h2⟩ := bind_ok h
    refine ⟨i1.length + 1, ?_⟩
    unfold spaceLoop
    rw [h1]
    dsimp only
    have := (Safe.spaceStep (L := i.length) i (Nat.le_refl _)).2 _ _ h1
    rw [if_neg (by omega)]
    exact h2
  obtain ⟨n, h0⟩ := h0
  obtain ⟨⟨g, e, hg⟩, hd⟩ := spaceLoop_sound h0
  refine ⟨⟨g, e, hg, ?_⟩, hd⟩
  rintro rfl
  rw [List.nil_append] at e
  subst e
  have := (Safe.space1' (L := i.length) i (Nat.le_refl _)).2 _ _ h
  omega

/-! ### names -/

theorem pNcName_inv {i r n : Str} (h : pNcName i = .ok r n) : i = n ++ r ∧ NCName n ∧ NoName r := by
  cases i with
  | nil => cases h
  | cons c cs =>
    unfold pNcName ncName at h
    by_cases hc : ncNameStartChar c = true
    · simp only [hc, if_true] at h
      cases h
      refine ⟨by simp [List.takeWhile_append_dropWhile], ⟨c, _, rfl, (ncNameStartChar_iff _).mp hc, fun d hd => (ncNameChar_iff _).mp ?_⟩, ?_⟩
      · exact mem_takeWhile hd
      · intro d ds e; exact dropWhile_head _ _ _ _ e
    · simp only [hc] at h; cases h

theorem keyword_inv {i r k : Str} (h : keyword i = .ok r k) : i = k ++ r ∧ Keyword k ∧ NoName r := by
  unfold keyword at h
  obtain ⟨i1, k1, h1, h⟩ := bind_ok h
  obtain ⟨i2, _, h2, h⟩ := bind_ok h
  obtain ⟨rfl, rfl⟩ := pure_ok h
  obtain ⟨hm, e⟩ := keywordTag_ok h1
  cases i1 with
  | nil => cases h2; exact ⟨e, keyword_mem.mpr hm, .nil⟩
  | cons c cs =>
    change (if ncNameChar c = true then PRes.err else .ok (c :: cs) ()) = _ at h2
    split at h2
    · cases h2
    · rename_i hc; cases h2; exact ⟨e, keyword_mem.mpr hm, .cons (by simpa using hc)⟩

theorem identifier_inv {i r w : Str} (h : identifier i = .ok r w) : i = w ++ r ∧ Ident w ∧ NoName r := by
  unfold identifier at h
  rcases alt_ok h with h | ⟨_, h⟩
  · obtain ⟨i1, _, h1, h⟩ := bind_ok h
    obtain ⟨i2, k, h2, h⟩ := bind_ok h
    obtain ⟨rfl, rfl⟩ := pure_ok h
    obtain ⟨e, hk, hn⟩ := keyword_inv h2
    exact ⟨by rw [tag_ok h1, e]; rfl, .quoted hk, hn⟩
  · obtain ⟨i1, _, h1, h⟩ := bind_ok h
    unfold notKeyword at h1
    cases e : keyword i with
    | err =>
      rw [e] at h1; cases h1
      obtain ⟨e', hw, hn⟩ := pNcName_inv h
      refine ⟨e', .plain hw fun hk => ?_, hn⟩
      rw [e', keyword_hit hk hn] at e; cases e
    | _ => rw [e] at h1; cases h1

theorem anyIdent_inv {i r w : Str} (h : identifierOrKeyword i = .ok r w) : i = w ++ r ∧ AnyIdent w ∧ NoName r := by
  rcases alt_ok h with h | ⟨_, h⟩
  · obtain ⟨a, b, c⟩ := identifier_inv h; exact ⟨a, .ident b, c⟩
  · obtain ⟨a, b, c⟩ := keyword_inv h; exact ⟨a, .keyword b, c⟩

theorem cname_inv {i r : Str} {x : Str × Str} (h : cname i = .ok r x) : i = x.1 ++ ':' :: x.2 ++ r ∧ NCName x.1 ∧ NCName x.2 ∧ NoName r := by
  unfold cname at h
  obtain ⟨i1, p, h1, h⟩ := bind_ok h
  obtain ⟨i2, _, h2, h⟩ := bind_ok h
  obtain ⟨i3, n, h3, h⟩ := bind_ok h
  obtain ⟨rfl, rfl⟩ := pure_ok h
  obtain ⟨e1, hp, _⟩ := pNcName_inv h1
  obtain ⟨e3, hn, hf⟩ := pNcName_inv h3
  exact ⟨by rw [e1, tag_ok h2, e3]; simp, hp, hn, hf⟩

theorem pName_inv {i r : Str} {a : SNameClass} (h : pName i = .ok r a) : ∃ t, i = t ++ r ∧ Name a t := by
  unfold pName at h
  rcases alt_ok h with h | ⟨_, h⟩
  · obtain ⟨i1, ⟨p, n⟩, h1, h⟩ := bind_ok h
    obtain ⟨rfl, rfl⟩ := pure_ok h
    obtain ⟨e, hp, hn, _⟩ := cname_inv h1
    exact ⟨_, e, .cname hp hn⟩
  · obtain ⟨i1, w, h1, h⟩ := bind_ok h
    obtain ⟨rfl, rfl⟩ := pure_ok h
    obtain ⟨e, hw, _⟩ := anyIdent_inv h1
    exact ⟨_, e, .ident hw⟩

/-! ### literals -/

theorem takeUntil3_inv {q : Char} : ∀ {i r s : Str}, takeUntil3 q i = .ok r s → ∃ r', r = q :: q :: q :: r' ∧ i = s ++ r ∧ Body3 q s
  | [], _, _, h => by cases h
  | c :: cs, r, s, h => by
    unfold takeUntil3 at h
    rcases tag_cases [q, q, q] (c :: cs) with ht | ⟨r', e, ht⟩
    · rw [ht] at h
      dsimp only at h
      cases e : takeUntil3 q cs with
      | ok r1 s1 =>
        rw [e] at h; cases h
        obtain ⟨r', rfl, rfl, hb⟩ := takeUntil3_inv e
        refine ⟨r', rfl, rfl, ?_⟩
        by_cases hc : c = q
        · subst hc
          cases hb with
          | nil => rw [show c :: ([] ++ c :: c :: c :: r') = [c, c, c] ++ (c :: r') from rfl, tag_append] at ht; cases ht
          | zero hd hb => exact .one hd hb
          | one hd hb => exact .two hd hb
          | two hd hb =>
            rename_i d s
            rw [show c :: (c :: c :: d :: s ++ c :: c :: c :: r') = [c, c, c] ++ (d :: s ++ c :: c :: c :: r') from rfl, tag_append] at ht; cases ht
        · exact .zero hc hb
      | _ => rw [e] at h; cases h
    · rw [ht] at h; cases h
      exact ⟨r', e, rfl, .nil⟩

theorem tripleQuoted_inv {q : Char} (hq : q = '"' ∨ q = '\'') {i r s : Str} (h : tripleQuoted q i = .ok r s) : ∃ t, i = t ++ r ∧ Segment s t := by
  unfold tripleQuoted at h
  obtain ⟨i1, _, h1, h⟩ := bind_ok h
  obtain ⟨i2, s, h2, h⟩ := bind_ok h
  obtain ⟨i3, _, h3, h⟩ := bind_ok h
  obtain ⟨rfl, rfl⟩ := pure_ok h
  obtain ⟨_, _, e, hb⟩ := takeUntil3_inv h2
  exact ⟨_, by rw [tag_ok h1, e, tag_ok h3]; simp, .triple hq hb⟩

theorem quoted_inv {q : Char} (hq : q = '"' ∨ q = '\'') {i r s : Str} (h : quoted q i = .ok r s) : ∃ t, i = t ++ r ∧ Segment s t := by
  unfold quoted at h
  obtain ⟨i1, _, h1, h⟩ := bind_ok h
  obtain ⟨i2, s, h2, h⟩ := bind_ok h
  obtain ⟨i3, _, h3, h⟩ := bind_ok h
  obtain ⟨rfl, rfl⟩ := pure_ok h
  unfold upToQuote at h2
  simp only [PRes.ok.injEq] at h2
  obtain ⟨e1, e2⟩ := h2
  have e := List.takeWhile_append_dropWhile (p := fun c => c != q && c != '\n') (l := i1)
  refine ⟨_, ?_, .single (body := s) hq fun c hc => ?_⟩
  · rw [tag_ok h1, ← e, e1, e2, tag_ok h3]; simp
  · subst e2; simpa using mem_takeWhile hc

theorem segment_inv {i r s : Str} (h : literalSegment i = .ok r s) : ∃ t, i = t ++ r ∧ Segment s t := by
  unfold literalSegment at h
  rcases alt_ok h with h | ⟨_, h⟩
  · exact tripleQuoted_inv (.inl rfl) h
  rcases alt_ok h with h | ⟨_, h⟩
  · exact tripleQuoted_inv (.inr rfl) h
  rcases alt_ok h with h | ⟨_, h⟩
  · exact quoted_inv (.inl rfl) h
  · exact quoted_inv (.inr rfl) h

theorem literal_inv {i r v : Str} (h : literal i = .ok r v) : ∃ t, i = t ++ r ∧ Literal v t := by
  unfold literal at h
  obtain ⟨i1, segs, h1, h⟩ := bind_ok h
  obtain ⟨rfl, rfl⟩ := pure_ok h
  obtain ⟨n, i2, a, as, rfl, h2, h3⟩ := sepList1_inv h1
  have loop : ∀ (as : List Str) (n : Nat) (i0 i2 a : Str), literalSegment i0 = .ok i2 a → sepLoop (do space0; tag ['~']; space0) literalSegment n i2 = .ok r as →
      ∃ t, i0 = t ++ r ∧ Literal (a :: as).flatten t := by
    intro as
    induction as with
    | nil =>
      intro n i0 i2 a h2 h3
      obtain ⟨t, e, ht⟩ := segment_inv h2
      rcases sepLoop_ok h3 with ⟨_, rfl, _⟩ | ⟨_, _, _, _, _, e', _⟩
      · exact ⟨t, e, by simpa using Literal.one ht⟩
      · cases e'
    | cons b bs ih =>
      intro n i0 i2 a h2 h3
      obtain ⟨t, e, ht⟩ := segment_inv h2
      rcases sepLoop_ok h3 with ⟨e', _, _⟩ | ⟨m, i3, i4, a', as', e', hs, hp, hl⟩
      · cases e'
      · cases e'
        obtain ⟨j1, _, s1, hs⟩ := bind_ok hs
        obtain ⟨j2, _, s2, s3⟩ := bind_ok hs
        obtain ⟨⟨g, eg, hg⟩, _⟩ := space0_ok s1
        obtain ⟨⟨g', eg', hg'⟩, _⟩ := space0_ok s3
        obtain ⟨t', et', ht'⟩ := ih m i3 i4 _ hp hl
        refine ⟨_, ?_, by simpa using Literal.more ht hg hg' ht'⟩
        rw [e, eg, tag_ok s2, eg', et']; simp
  exact loop as n _ i2 a h2 h3

/-- entries separated by white space -/
theorem sepBy_inv {p : P α} {R : α → Str → Prop} (hp : ∀ i r a, Done i → p i = .ok r a → ∃ t, i = t ++ r ∧ R a t) : ∀ (as : List α) (n : Nat) (i0 i2 r : Str) (a : α),
    Done i0 → p i0 = .ok i2 a → sepLoop space1 p n i2 = .ok r as → ∃ t, i0 = t ++ r ∧ SepBy R (a :: as) t := by
  intro as
  induction as with
  | nil =>
    intro n i0 i2 r a hd h2 h3
    obtain ⟨t, e, ht⟩ := hp _ _ _ hd h2
    rcases sepLoop_ok h3 with ⟨_, rfl, _⟩ | ⟨_, _, _, _, _, e', _⟩
    · exact ⟨t, e, .one ht⟩
    · cases e'
  | cons b bs ih =>
    intro n i0 i2 r a hd h2 h3
    obtain ⟨t, e, ht⟩ := hp _ _ _ hd h2
    rcases sepLoop_ok h3 with ⟨e', _, _⟩ | ⟨m, i3, i4, a', as', e', hs, hp', hl⟩
    · cases e'
    · cases e'
      obtain ⟨⟨g, eg, hg⟩, hd'⟩ := space1_ok hs
      obtain ⟨t', et', ht'⟩ := ih m i3 i4 r _ hd' hp' hl
      exact ⟨t ++ g ++ t', by rw [e, eg, et']; simp, .cons ht hg ht'⟩

theorem sepList0_sound {p : P α} {R : α → Str → Prop} (hp : ∀ i r a, Done i → p i = .ok r a → ∃ t, i = t ++ r ∧ R a t) {i r : Str} {as : List α}
    (hd : Done i) (h : sepList0 space1 p i = .ok r as) : ∃ t, i = t ++ r ∧ SepBy R as t := by
  rcases sepList0_inv h with ⟨rfl, rfl, _⟩ | ⟨n, i1, a, as', rfl, h1, h2⟩
  · exact ⟨[], rfl, .nil⟩
  · exact sepBy_inv hp as' n i i1 r a hd h1 h2

theorem sepList1_sound {p : P α} {R : α → Str → Prop} (hp : ∀ i r a, Done i → p i = .ok r a → ∃ t, i = t ++ r ∧ R a t) {i r : Str} {as : List α}
    (hd : Done i) (h : sepList1 space1 p i = .ok r as) : ∃ a as' t, as = a :: as' ∧ i = t ++ r ∧ SepBy R as t := by
  obtain ⟨n, i1, a, as', rfl, h1, h2⟩ := sepList1_inv h
  obtain ⟨t, e, ht⟩ := sepBy_inv hp as' n i i1 r a hd h1 h2
  exact ⟨a, as', t, rfl, e, ht⟩

end Verif.Compact
