import Verif.Proof.CompactLex
/-
The compact syntax: what may follow, literals, lists.
-/
namespace Verif.Compact
open Verif P Rnc
variable {α β : Type}

theorem tag_one (c : Char) (r : Str) : tag [c] (c :: r) = .ok r () := tag_append [c] r
theorem tag_two (c d : Char) (r : Str) : tag [c, d] (c :: d :: r) = .ok r () := tag_append [c, d] r

/-! ### what may follow -/

/-- after white space, the input does not begin with one of the characters `S` -/
def Fol (S : List Char) (r : Str) : Prop := ∃ g r', Gap g ∧ NoGap r' ∧ r = g ++ r' ∧ ∀ c cs, r' = c :: cs → c ∉ S

theorem Fol.space0 {S : List Char} {r : Str} (h : Fol S r) : ∃ r', space0 r = .ok r' () ∧ NoGap r' ∧ ∀ c cs, r' = c :: cs → c ∉ S := by
  obtain ⟨g, r', hg, hr, rfl, h⟩ := h
  exact ⟨r', space0_gap hg hr, hr, h⟩

theorem Fol.mono {S T : List Char} {r : Str} (h : Fol S r) (hst : ∀ c ∈ T, c ∈ S) : Fol T r := by
  obtain ⟨g, r', hg, hr, rfl, h⟩ := h
  exact ⟨g, r', hg, hr, rfl, fun c cs e hc => h c cs e (hst c hc)⟩

theorem Fol.ne {S : List Char} {r : Str} (h : Fol S r) {d : Char} (hd : d ∈ S) (hn : d ∉ [' ', '\t', '\r', '\n', '#']) : r.head? ≠ some d := by
  obtain ⟨g, r', hg, hr, rfl, h⟩ := h
  exact head?_ne (hg.ne hn fun c cs e e' => h c cs e (e' ▸ hd))

theorem Fol.gap {S : List Char} {g r : Str} (h : Fol S r) (hg : Gap g) : Fol S (g ++ r) := by
  obtain ⟨g', r', hg', hr, rfl, h⟩ := h
  exact ⟨g ++ g', r', hg.append hg', hr, by rw [List.append_assoc], h⟩

theorem Fol.start {S : List Char} {r : Str} (hr : NoGap r) (h : ∀ c cs, r = c :: cs → c ∉ S) : Fol S r := ⟨[], r, .nil, hr, rfl, h⟩

theorem Fol.cons {S : List Char} {c : Char} {r : Str} (hc : isMultispace c = false ∧ c ≠ '#') (h : c ∉ S) : Fol S (c :: r) :=
  .start (.cons hc) fun d ds e => by cases e; exact h

theorem Fol.nil {S : List Char} : Fol S [] := .start .nil nofun

/-- white space, then a character that is not there -/
theorem Fol.tag_err {S : List Char} {r : Str} (h : Fol S r) {d : Char} (hd : d ∈ S) (f : Unit → P α) (t : Str) :
    (do Compact.space0; let u ← tag (d :: t); f u : P α) r = .err := by
  obtain ⟨r', h1, _, h2⟩ := h.space0
  rw [bind_of_ok h1]
  exact bind_of_err (tag_head (head?_ne fun c cs e e' => h2 c cs e (e' ▸ hd)))

/-! ### literals -/

/-- does not begin with a quote -/
def NoQuote (r : Str) : Prop := r.head? ≠ some '"' ∧ r.head? ≠ some '\''

theorem tripleQuoted_err {q : Char} {i : Str} (h : ¬ [q, q, q] <+: i) : tripleQuoted q i = .err := bind_of_err (tag_err h)

theorem tripleQuoted_head {q : Char} {i : Str} (h : i.head? ≠ some q) : tripleQuoted q i = .err := bind_of_err (tag_head h)

theorem quoted_head {q : Char} {i : Str} (h : i.head? ≠ some q) : quoted q i = .err := bind_of_err (tag_head h)

theorem literalSegment_err {i : Str} (h : NoQuote i) : literalSegment i = .err := by
  unfold literalSegment
  rw [alt_of_err (tripleQuoted_head h.1), alt_of_err (tripleQuoted_head h.2), alt_of_err (quoted_head h.1)]
  exact quoted_head h.2

theorem takeUntil3_ok {q : Char} {body : Str} (h : Body3 q body) (r : Str) :
    takeUntil3 q (body ++ q :: q :: q :: r) = .ok (q :: q :: q :: r) body := by
  have skip : ∀ (c : Char) (i : Str), ¬ [q, q, q] <+: c :: i → takeUntil3 q (c :: i) = match takeUntil3 q i with
      | .ok r s => .ok r (c :: s) | e => e := by
    intro c i h
    show (match tag [q, q, q] (c :: i) with | .ok _ _ => _ | _ => _) = _
    rw [tag_err h]; rfl
  have no : ∀ {c : Char} {i : Str}, c ≠ q → ¬ [q, q, q] <+: c :: i := by
    intro c i hc ⟨t, ht⟩; simp at ht; exact hc ht.1.symm
  have no1 : ∀ {c : Char} {i : Str}, c ≠ q → ¬ [q, q, q] <+: q :: c :: i := by
    intro c i hc ⟨t, ht⟩; simp at ht; exact hc ht.1.symm
  have no2 : ∀ {c : Char} {i : Str}, c ≠ q → ¬ [q, q, q] <+: q :: q :: c :: i := by
    intro c i hc ⟨t, ht⟩; simp at ht; exact hc ht.1.symm
  induction h with
  | nil =>
    show (match tag [q, q, q] (q :: q :: q :: r) with | .ok _ _ => _ | _ => _) = _
    rw [show tag [q, q, q] (q :: q :: q :: r) = .ok r () from tag_append _ _]
  | zero hc _ ih => simp only [List.cons_append]; rw [skip _ _ (no hc), ih]
  | one hc _ ih => simp only [List.cons_append]; rw [skip _ _ (no1 hc), skip _ _ (no hc), ih]
  | two hc _ ih => simp only [List.cons_append]; rw [skip _ _ (no2 hc), skip _ _ (no1 hc), skip _ _ (no hc), ih]

theorem tripleQuoted_ok {q : Char} {body : Str} (h : Body3 q body) (r : Str) :
    tripleQuoted q (q :: q :: q :: (body ++ [q, q, q]) ++ r) = .ok r body := by
  unfold tripleQuoted
  refine (bind_of_ok (r := body ++ [q, q, q] ++ r) (a := ()) (tag_append [q, q, q] _)).trans ?_
  rw [bind_of_ok (r := [q, q, q] ++ r) (a := body) (by simpa using takeUntil3_ok h r)]
  rw [bind_of_ok (tag_append [q, q, q] r)]; rfl

theorem quoted_ok {q : Char} {body : Str} (h : ∀ c ∈ body, c ≠ q ∧ c ≠ '\n') (r : Str) : quoted q (q :: (body ++ [q]) ++ r) = .ok r body := by
  have hw : ∀ {body : Str}, (∀ c ∈ body, c ≠ q ∧ c ≠ '\n') → (body ++ q :: r).takeWhile (fun c => c != q && c != '\n') = body ∧
      (body ++ q :: r).dropWhile (fun c => c != q && c != '\n') = q :: r := by
    intro body
    induction body with
    | nil => intro _; simp
    | cons b body ih =>
      intro h
      obtain ⟨h1, h2⟩ := h b (.head _)
      obtain ⟨a, b'⟩ := ih fun c hc => h c (.tail _ hc)
      simp [h1, h2, a, b']
  obtain ⟨a, b⟩ := hw h
  unfold quoted
  rw [bind_of_ok (r := body ++ q :: r) (a := ()) (by simpa using tag_append [q] (body ++ q :: r))]
  rw [bind_of_ok (r := q :: r) (a := body) (by unfold upToQuote; rw [a, b])]
  rw [bind_of_ok (tag_one q r)]; rfl

theorem segment_ok {v s r : Str} (h : Segment v s) (hr : NoQuote r) : literalSegment (s ++ r) = .ok r v := by
  unfold literalSegment
  cases h with
  | single hq hb =>
    rename_i q
    have h3 : ¬ [q, q, q] <+: q :: (v ++ [q]) ++ r := by
      intro ⟨t, ht⟩
      cases v with
      | nil =>
        cases r with
        | nil => simp at ht
        | cons c r =>
          simp at ht
          rcases hq with rfl | rfl
          · exact hr.1 (by simp [← ht.1])
          · exact hr.2 (by simp [← ht.1])
      | cons c v => simp at ht; exact (hb c (.head _)).1 ht.1.symm
    rcases hq with rfl | rfl
    · rw [alt_of_err (tripleQuoted_err h3), alt_of_err (tripleQuoted_head (by simp)), alt_of_ok (quoted_ok hb r)]
    · rw [alt_of_err (tripleQuoted_head (by simp)), alt_of_err (tripleQuoted_err h3), alt_of_err (quoted_head (by simp))]
      exact quoted_ok hb r
  | triple hq hb =>
    rcases hq with rfl | rfl
    · exact alt_of_ok (tripleQuoted_ok hb r)
    · rw [alt_of_err (tripleQuoted_head (by simp))]
      exact alt_of_ok (tripleQuoted_ok hb r)

theorem _root_.Verif.Rnc.Segment.head {v s : Str} (h : Segment v s) : ∃ q cs, s = q :: cs ∧ (q = '"' ∨ q = '\'') := by
  cases h with
  | single hq _ => exact ⟨_, _, rfl, hq⟩
  | triple hq _ => exact ⟨_, _, rfl, hq⟩

theorem _root_.Verif.Rnc.Literal.head {v s : Str} (h : Literal v s) : ∃ q cs, s = q :: cs ∧ (q = '"' ∨ q = '\'') := by
  cases h with
  | one h => exact h.head
  | more h _ _ _ => obtain ⟨q, cs, rfl, hq⟩ := h.head; exact ⟨q, _, rfl, hq⟩

theorem _root_.Verif.Rnc.Literal.noGap {v s : Str} (h : Literal v s) (r : Str) : NoGap (s ++ r) := by
  obtain ⟨q, cs, rfl, hq⟩ := h.head
  exact .cons (by rcases hq with rfl | rfl <;> decide)

/-- what may follow a literal -/
def LitFol (r : Str) : Prop := Fol ['~'] r ∧ NoQuote r

theorem Fol.noQuote {r : Str} (h : Fol ['"', '\''] r) : NoQuote r := ⟨Fol.ne h (by simp) (by decide), Fol.ne h (by simp) (by decide)⟩

theorem LitFol.of {S : List Char} {r : Str} (h : Fol S r) (h1 : '~' ∈ S) (h2 : '"' ∈ S) (h3 : '\'' ∈ S) : LitFol r :=
  ⟨h.mono (by simpa using h1), h.mono (by simp [h2, h3]) |>.noQuote⟩

theorem LitFol.char {g r : Str} {c : Char} (hg : Gap g) (h : (isMultispace c = false ∧ c ≠ '#') ∧ c ∉ ['~', '"', '\'']) : LitFol (g ++ c :: r) :=
  .of (S := ['~', '"', '\'']) (Fol.gap (.cons h.1 h.2) hg) (by simp) (by simp) (by simp)

/-- white space can be followed by anything but `~` -/
theorem LitFol.sep {g r : Str} (hg : Sep g) (h : NoGap r) (h' : r.head? ≠ some '~') : LitFol (g ++ r) := by
  refine ⟨⟨g, r, hg.1, h, rfl, fun c cs e hc => h' (by rw [e]; simpa using hc)⟩, ?_⟩
  obtain ⟨hg, hne⟩ := hg
  cases g with
  | nil => exact absurd rfl hne
  | cons c g =>
    have := Gap.head hg rfl
    constructor <;> (intro e; simp at e; subst e; revert this; decide)

theorem literal_loop {v t r : Str} (h : Literal v t) (hr : LitFol r) : ∃ a r1 as, literalSegment (t ++ r) = .ok r1 a ∧ (a :: as).flatten = v ∧
    r1.length < (t ++ r).length ∧ ∀ n, r1.length < n → sepLoop (do space0; tag ['~']; space0) literalSegment n r1 = .ok r as := by
  induction h with
  | one h =>
    rename_i v s
    refine ⟨v, r, [], segment_ok h hr.2, by simp, ?_, fun n hn => ?_⟩
    · obtain ⟨q, cs, rfl, _⟩ := h.head; simp; omega
    · cases n with
      | zero => omega
      | succ n =>
        unfold sepLoop
        rw [Fol.tag_err hr.1 (by simp) _ []]
  | more h hg hg' ht ih =>
    rename_i v s g g' w t
    obtain ⟨b, r2, bs, h1, h2, h3, h4⟩ := ih
    have hg1 : NoQuote (g ++ '~' :: g' ++ t ++ r) := by
      have : Fol ['"', '\''] (g ++ ('~' :: (g' ++ (t ++ r)))) := Fol.gap (.cons (by decide) (by decide)) hg
      simp only [List.append_assoc, List.cons_append]
      exact ⟨this.ne (by simp) (by decide), this.ne (by simp) (by decide)⟩
    have e : s ++ g ++ '~' :: g' ++ t ++ r = s ++ (g ++ '~' :: g' ++ t ++ r) := by simp
    refine ⟨v, g ++ '~' :: g' ++ t ++ r, b :: bs, by rw [e]; exact segment_ok h hg1, by rw [← h2]; simp, ?_, fun n hn => ?_⟩
    · obtain ⟨q, cs, rfl, _⟩ := h.head; simp; omega
    · cases n with
      | zero => omega
      | succ n =>
        have hs : (do space0; tag ['~']; space0 : P Unit) (g ++ '~' :: g' ++ t ++ r) = .ok (t ++ r) () := by
          have e : g ++ '~' :: g' ++ t ++ r = g ++ ('~' :: (g' ++ (t ++ r))) := by simp
          rw [e, bind_of_ok (space0_gap hg (.cons (by decide))), bind_of_ok (tag_one '~' (g' ++ (t ++ r)))]
          exact space0_gap hg' (ht.noGap r)
        unfold sepLoop
        rw [hs]
        dsimp only
        rw [h1]
        dsimp only
        have hl : r2.length < (g ++ '~' :: g' ++ t ++ r).length := by
          simp only [List.length_append, List.length_cons] at h3 ⊢; omega
        rw [if_neg (by omega), h4 n (by omega)]

theorem literal_ok {v t r : Str} (h : Literal v t) (hr : LitFol r) : literal (t ++ r) = .ok r v := by
  obtain ⟨a, r1, as, h1, h2, h3, h4⟩ := literal_loop h hr
  unfold literal
  have : sepList1 (do space0; tag ['~']; space0) literalSegment (t ++ r) = .ok r (a :: as) := by
    unfold sepList1
    rw [h1]
    dsimp only
    rw [h4 _ (by omega)]
  rw [bind_of_ok this, h2]; rfl

theorem literal_err {i : Str} (h : NoQuote i) : literal i = .err := by
  refine bind_of_err ?_
  unfold sepList1
  rw [literalSegment_err h]

/-! ### lists -/

theorem sepBy_loop {R : α → Str → Prop} {p : P α} {F : Str → Prop} {L : Nat} {r : Str}
    (hR : ∀ a s, R a s → s ≠ [] ∧ ∀ r, NoGap (s ++ r))
    (hp : ∀ a s rest, R a s → F rest → (s ++ rest).length < L → p (s ++ rest) = .ok rest a)
    (hF : ∀ b s rest g, Sep g → R b s → F (g ++ (s ++ rest)))
    (hr : F r) (hend : space1 r = .err ∨ ∃ r', space1 r = .ok r' () ∧ p r' = .err) :
    ∀ {as : List α} {a : α} {t : Str}, SepBy R (a :: as) t → (t ++ r).length < L →
      ∃ r1, p (t ++ r) = .ok r1 a ∧ r1.length < (t ++ r).length ∧ ∀ n, r1.length < n → sepLoop space1 p n r1 = .ok r as
  | [], a, t, h, hL => by
    cases h with
    | one h =>
      refine ⟨r, hp _ _ _ h hr hL, ?_, fun n hn => ?_⟩
      · have := List.length_pos_iff.mpr (hR _ _ h).1; simp; omega
      · cases n with
        | zero => omega
        | succ n =>
          unfold sepLoop
          rcases hend with h | ⟨r', h, h'⟩
          · rw [h]
          · rw [h]; dsimp only; rw [h']
  | b :: as, a, _, h, hL => by
    cases h with
    | cons h hg ht =>
      rename_i s g t
      have e : s ++ g ++ t ++ r = s ++ (g ++ (t ++ r)) := by simp
      rw [e] at hL ⊢
      obtain ⟨r1, h1, h2, h3⟩ := sepBy_loop hR hp hF hr hend ht (by simp only [List.length_append] at hL ⊢; omega)
      have hbt : ∃ s' t', R b s' ∧ t = s' ++ t' := by
        cases ht with
        | one h => exact ⟨_, [], h, by simp⟩
        | cons h _ _ => exact ⟨_, _, h, by rw [List.append_assoc]⟩
      obtain ⟨s', t', hb, rfl⟩ := hbt
      have hlen := List.length_pos_iff.mpr (hR _ _ h).1
      refine ⟨_, hp _ _ _ h (by rw [List.append_assoc s' t' r]; exact hF b s' _ g hg hb) hL, by simp; omega, fun n hn => ?_⟩
      cases n with
      | zero => omega
      | succ n =>
        unfold sepLoop
        rw [space1_sep hg (by rw [List.append_assoc]; exact (hR _ _ hb).2 _)]
        dsimp only
        rw [h1]
        dsimp only
        have := List.length_pos_iff.mpr hg.2
        simp only [List.length_append] at h2 hn ⊢
        rw [if_neg (by omega), h3 n (by omega)]

theorem sepList0_ok {R : α → Str → Prop} {p : P α} {F : Str → Prop} {L : Nat} {r : Str} {as : List α} {t : Str}
    (hR : ∀ a s, R a s → s ≠ [] ∧ ∀ r, NoGap (s ++ r))
    (hp : ∀ a s rest, R a s → F rest → (s ++ rest).length < L → p (s ++ rest) = .ok rest a)
    (hF : ∀ b s rest g, Sep g → R b s → F (g ++ (s ++ rest)))
    (hr : as = [] ∨ F r) (hend : as = [] ∨ space1 r = .err ∨ ∃ r', space1 r = .ok r' () ∧ p r' = .err) (hnil : as = [] → p r = .err)
    (h : SepBy R as t) (hL : (t ++ r).length < L) : sepList0 space1 p (t ++ r) = .ok r as := by
  cases as with
  | nil =>
    cases h with
    | nil => unfold sepList0; rw [show ([] : Str) ++ r = r from rfl, hnil rfl]
  | cons a as =>
    obtain ⟨r1, h1, h2, h3⟩ := sepBy_loop hR hp hF (hr.resolve_left nofun) (hend.resolve_left nofun) h hL
    unfold sepList0
    rw [h1]
    dsimp only
    rw [h3 _ (by omega)]

theorem sepList1_ok {R : α → Str → Prop} {p : P α} {F : Str → Prop} {L : Nat} {r : Str} {a : α} {as : List α} {t : Str}
    (hR : ∀ a s, R a s → s ≠ [] ∧ ∀ r, NoGap (s ++ r))
    (hp : ∀ a s rest, R a s → F rest → (s ++ rest).length < L → p (s ++ rest) = .ok rest a)
    (hF : ∀ b s rest g, Sep g → R b s → F (g ++ (s ++ rest)))
    (hr : F r) (hend : space1 r = .err ∨ ∃ r', space1 r = .ok r' () ∧ p r' = .err)
    (h : SepBy R (a :: as) t) (hL : (t ++ r).length < L) : sepList1 space1 p (t ++ r) = .ok r (a :: as) := by
  obtain ⟨r1, h1, h2, h3⟩ := sepBy_loop hR hp hF hr hend h hL
  unfold sepList1
  rw [h1]
  dsimp only
  rw [h3 _ (by omega)]

/-- a list with white space before and after it, in front of something that is no member -/
theorem block_ok {R : α → Str → Prop} {p : P α} {F : Str → Prop} {L : Nat} {r g t g' : Str} {as : List α} {k : List α → P β}
    (hR : ∀ a s, R a s → s ≠ [] ∧ ∀ r, NoGap (s ++ r))
    (hp : ∀ a s rest, R a s → F rest → (s ++ rest).length < L → p (s ++ rest) = .ok rest a)
    (hF : ∀ b s rest g, Sep g → R b s → F (g ++ (s ++ rest)))
    (hg : Gap g) (h : SepBy R as t) (hg' : Gap g') (hr : NoGap r) (hfr : as = [] ∨ F (g' ++ r)) (hend : p r = .err)
    (hL : (t ++ g' ++ r).length < L) :
    (do space0; let as ← sepList0 space1 p; space0; k as : P β) (g ++ (t ++ (g' ++ r))) = k as r := by
  cases as with
  | nil =>
    cases h
    rw [List.nil_append, ← List.append_assoc, bind_of_ok (space0_gap (hg.append hg') hr)]
    have : sepList0 space1 p r = .ok r [] := by unfold sepList0; rw [hend]
    rw [bind_of_ok this, bind_of_ok (space0_noGap hr)]
  | cons a as =>
    have hng : NoGap (t ++ (g' ++ r)) := by
      cases h with
      | one h => exact (hR _ _ h).2 _
      | cons h _ _ => simp only [List.append_assoc]; exact (hR _ _ h).2 _
    rw [bind_of_ok (space0_gap hg hng)]
    have he : space1 (g' ++ r) = .err ∨ ∃ r', space1 (g' ++ r) = .ok r' () ∧ p r' = .err := by
      cases g' with
      | nil => exact .inl (space1_noGap hr)
      | cons c g' => exact .inr ⟨r, space1_sep ⟨hg', by simp⟩ hr, hend⟩
    rw [bind_of_ok (sepList0_ok hR hp hF hfr (.inr he) (by simp) h (by simpa using hL)), bind_of_ok (space0_gap hg' hr)]

end Verif.Compact
