import Verif.Proof.CompactMain
/-
The compact syntax: whole schemas.
-/
namespace Verif.Compact
open Verif P Rnc
variable {α β : Type}

theorem subs : ∀ n, Subs n (pattern n) (grammarContent n)
  | 0 => ⟨fun _ _ _ _ _ _ h => absurd h (Nat.not_lt_zero _), fun _ _ _ _ _ h => absurd h (Nat.not_lt_zero _), fun _ h => absurd h (by omega)⟩
  | n + 1 => ⟨fun _ _ _ _ h hr hL => pattern_step (subs n) h hr hL, fun _ _ _ h hr hL => item_step (subs n) h hr hL, fun _ h => by
      obtain ⟨m, rfl⟩ : ∃ m, n = m + 1 := ⟨n - 1, by omega⟩
      exact item_noId (noId_char (by decide))⟩

/-! ### declarations -/

theorem nsUri_ok {u : Option Str} {t r : Str} (h : NsUri u t) (hr : LitFol r) : namespaceUriLiteral (t ++ r) = .ok r u := by
  cases h with
  | inherit => rfl
  | uri h =>
    unfold namespaceUriLiteral
    have : tag "inherit".toList (t ++ r) = .err := by
      obtain ⟨q, cs, rfl, hq⟩ := h.head
      exact tag_head (c := 'i') (by rcases hq with rfl | rfl <;> simp)
    rw [alt_of_err (bind_of_err this), bind_of_ok (literal_ok h hr)]; rfl

theorem _root_.Verif.Rnc.NsUri.noGap {u : Option Str} {t : Str} (h : NsUri u t) (r : Str) : NoGap (t ++ r) := by
  cases h with
  | inherit => exact NoGap.cons (c := 'i') (by decide)
  | uri h => exact h.noGap r

theorem declNamespace_head {i : Str} (h : i.head? ≠ some 'n') : declNamespace i = .err := bind_of_err (tag_head h)
theorem declDefault_head {i : Str} (h : i.head? ≠ some 'd') : declDefaultNamespace i = .err := bind_of_err (tag_head h)
theorem declDatatypes_head {i : Str} (h : i.head? ≠ some 'd') : declDatatypes i = .err := bind_of_err (tag_head h)

theorem nsWord_noGap (r : Str) : NoGap ("namespace".toList ++ r) := NoGap.cons (c := 'n') (by decide)

theorem decl_ok {d : SDecl} {s r : Str} (h : Decl d s) (hr : LitFol r) : decl (s ++ r) = .ok r d := by
  unfold decl
  cases h with
  | «namespace» hg hp hg1 hg2 hu =>
    rename_i g p g1 g2 u t
    have e : "namespace".toList ++ g ++ p ++ g1 ++ '=' :: g2 ++ t ++ r = "namespace".toList ++ (g ++ (p ++ (g1 ++ '=' :: (g2 ++ (t ++ r))))) := by simp
    rw [e]
    apply alt_of_ok
    unfold declNamespace
    rw [bind_of_ok (tag_append _ _), bind_of_ok (space1_sep hg hp.noGap), bind_of_ok (anyIdent_ok hp (NameFol.char hg1 (by decide)).1),
      bind_of_ok (space0_gap hg1 (.cons (by decide))), bind_of_ok (tag_one '=' _), bind_of_ok (space0_gap hg2 (hu.noGap r)), bind_of_ok (nsUri_ok hu hr)]
    rfl
  | default hg hg' hg2 hu =>
    rename_i g g' g2 u t
    have e : "default".toList ++ g ++ "namespace".toList ++ g' ++ '=' :: g2 ++ t ++ r = "default".toList ++ (g ++ ("namespace".toList ++ (g' ++ '=' :: (g2 ++ (t ++ r))))) := by simp
    rw [e, alt_of_err (declNamespace_head (by simp))]
    apply alt_of_ok
    unfold declDefaultNamespace
    rw [bind_of_ok (tag_append _ _), bind_of_ok (space1_sep hg (nsWord_noGap _)), bind_of_ok (tag_append _ _),
      bind_of_ok (space1_sep hg' (NoGap.cons (c := '=') (by decide))), bind_of_ok (opt_of_err (anyIdent_err (noId_char (c := '=') (by decide)))),
      bind_of_ok (space0_noGap (.cons (by decide))), bind_of_ok (tag_one '=' _), bind_of_ok (space0_gap hg2 (hu.noGap r)), bind_of_ok (nsUri_ok hu hr)]
    rfl
  | defaultPrefix hg hg' hp hg1 hg2 hu =>
    rename_i g g' p g1 g2 u t
    have e : "default".toList ++ g ++ "namespace".toList ++ g' ++ p ++ g1 ++ '=' :: g2 ++ t ++ r =
      "default".toList ++ (g ++ ("namespace".toList ++ (g' ++ (p ++ (g1 ++ '=' :: (g2 ++ (t ++ r))))))) := by simp
    rw [e, alt_of_err (declNamespace_head (by simp))]
    apply alt_of_ok
    unfold declDefaultNamespace
    rw [bind_of_ok (tag_append _ _), bind_of_ok (space1_sep hg (nsWord_noGap _)), bind_of_ok (tag_append _ _),
      bind_of_ok (space1_sep hg' hp.noGap), bind_of_ok (opt_of_ok (anyIdent_ok hp (NameFol.char hg1 (by decide)).1)),
      bind_of_ok (space0_gap hg1 (.cons (by decide))), bind_of_ok (tag_one '=' _), bind_of_ok (space0_gap hg2 (hu.noGap r)), bind_of_ok (nsUri_ok hu hr)]
    rfl
  | datatypes hg hp hg1 hg2 hu =>
    rename_i g p g1 g2 u t
    have e : "datatypes".toList ++ g ++ p ++ g1 ++ '=' :: g2 ++ t ++ r = "datatypes".toList ++ (g ++ (p ++ (g1 ++ '=' :: (g2 ++ (t ++ r))))) := by simp
    have hd : ∀ r, declDefaultNamespace ("datatypes".toList ++ r) = .err := fun r => bind_of_err rfl
    rw [e, alt_of_err (declNamespace_head (by simp)), alt_of_err (hd _)]
    unfold declDatatypes
    rw [bind_of_ok (tag_append _ _), bind_of_ok (space1_sep hg hp.noGap), bind_of_ok (anyIdent_ok hp (NameFol.char hg1 (by decide)).1),
      bind_of_ok (space0_gap hg1 (.cons (by decide))), bind_of_ok (tag_one '=' _), bind_of_ok (space0_gap hg2 (hu.noGap r)), bind_of_ok (literal_ok hu hr)]
    rfl

theorem _root_.Verif.Rnc.Decl.head {d : SDecl} {s : Str} (h : Decl d s) : ∃ c cs, s = c :: cs ∧ (c = 'n' ∨ c = 'd') := by
  cases h with
  | «namespace» => exact ⟨'n', _, rfl, .inl rfl⟩
  | _ => exact ⟨'d', _, rfl, .inr rfl⟩

theorem decl_rows : ∀ (a : SDecl) (s : Str), Decl a s → s ≠ [] ∧ ∀ r, NoGap (s ++ r) := by
  intro a s h
  obtain ⟨c, cs, rfl, hc⟩ := h.head
  exact ⟨by simp, fun r => .cons (by rcases hc with rfl | rfl <;> decide)⟩

theorem decl_head {i : Str} (h : i.head? ≠ some 'n') (h' : i.head? ≠ some 'd') : decl i = .err := by
  unfold decl
  rw [alt_of_err (declNamespace_head h), alt_of_err (declDefault_head h')]
  exact declDatatypes_head h'

/-- words that are no declarations -/
theorem decl_word {w r : Str} (hw : Word w) (hr : NoName r) (h : w ∉ ["namespace".toList, "default".toList, "datatypes".toList]) : decl (w ++ r) = .err := by
  have hk : ∀ k : Str, (∀ c ∈ k, ncNameChar c = true) → k ∈ ["namespace".toList, "default".toList, "datatypes".toList] → NotKw k (w ++ r) :=
    fun k hk hm => .word hk hw hr fun e => absurd (e ▸ hm) h
  have d1 : declNamespace (w ++ r) = .err := (hk "namespace".toList (by decide) (by decide)).space1 _
  have d2 : declDefaultNamespace (w ++ r) = .err := (hk "default".toList (by decide) (by decide)).space1 _
  have d3 : declDatatypes (w ++ r) = .err := (hk "datatypes".toList (by decide) (by decide)).space1 _
  unfold decl
  rw [alt_of_err d1, alt_of_err d2, d3]

theorem decl_ident {w r : Str} (hw : Ident w) (hr : NoName r) : decl (w ++ r) = .err := by
  cases hw with
  | plain h hk => exact decl_word h.word hr fun hm => hk (by revert hm; unfold Keyword; simp only [List.mem_cons, List.not_mem_nil, or_false]; rintro (h | h | h) <;> subst h <;> decide)
  | quoted hk => exact decl_head (by simp) (by simp)

theorem item_decl {i : SItem} {s : Str} (h : Item True i s) (r : Str) : decl (s ++ r) = .err := by
  cases h with
  | start _ _ _ _ => exact decl_head (by simp) (by simp)
  | define hi hg ha _ _ =>
    simp only [List.append_assoc]
    exact decl_ident hi (assign_noName hg ha).1
  | div hg _ _ _ =>
    simp only [List.append_assoc, List.cons_append]
    exact decl_word (w := "div".toList) (by unfold Word; decide) (NameFol.char hg (by decide)).1 (by decide)
  | «include» _ _ _ _ => exact decl_head (by simp) (by simp)
  | «annotation» h => exact (elem_not h r (n := 0) (pat := pattern 0) (item := grammarContent 0)).2.2.2.2.1

/-! ### patterns are no grammar entries -/

/-- after white space comes neither `[` nor an assignment -/
def Quiet (r : Str) : Prop := Fol ['['] r ∧ ∃ r', space0 r = .ok r' () ∧ assignMethod r' = .err

theorem Quiet.define {r : Str} (h : Quiet r) (f : AssignMethod → P β) : (do space0; let a ← assignMethod; f a : P β) r = .err := by
  obtain ⟨_, r', h1, h2⟩ := h
  rw [bind_of_ok h1]; exact bind_of_err h2

theorem Quiet.fol {r : Str} (h : Fol ['[', '=', '|', '&'] r) : Quiet r := by
  obtain ⟨r', h1, h2, h3⟩ := h.space0
  refine ⟨h.mono (by simp), r', h1, ?_⟩
  cases r' with
  | nil => rfl
  | cons c cs => exact assign_err fun hc => h3 c cs rfl (by revert hc; simp; rintro (h | h | h) <;> simp [h])

theorem Quiet.char {g r : Str} {c : Char} (hg : Gap g) (h : (isMultispace c = false ∧ c ≠ '#') ∧ c ∉ ['[', '=', '|', '&']) : Quiet (g ++ c :: r) :=
  .fol (Fol.gap (.cons h.1 h.2) hg)

theorem Quiet.gap {g : Str} (hg : Gap g) : Quiet g := .fol (.ofGap hg)

theorem _root_.Verif.Rnc.Pat.noEq {strict : Prop} {p : SPattern} {b : Bool} {s : Str} (h : Rnc.Pat strict p b s) (r : Str) : (s ++ r).head? ≠ some '=' := by
  have key : ∀ {i s : Str}, Init strict i → PatHead s → (i ++ s).head? ≠ some '=' := by
    intro i s hi hs
    rcases hi.first with rfl | ⟨cs, rfl⟩
    · obtain ⟨c, cs, rfl, hc⟩ := hs
      intro e; simp at e; subst e; revert hc; decide
    · simp
  cases h with
  | mk hi hp _ _ => simp only [List.append_assoc]; exact key hi (hp.head.append _)
  | dataExcept hi hd _ _ _ _ _ => simp only [List.append_assoc]; exact key hi (hd.patHead.append _)
  | dataExceptFollowed hi hd _ _ _ _ _ _ _ _ => simp only [List.append_assoc]; exact key hi (hd.patHead.append _)

theorem Quiet.bin {strict : Prop} {g g' t r : Str} {c : Char} {p : SPattern} {b : Bool} (hg : Gap g) (hc : c = '|' ∨ c = '&') (hg' : Gap g') (h : Rnc.Pat strict p b t) :
    Quiet (g ++ c :: (g' ++ (t ++ r))) := by
  refine ⟨Fol.gap (.cons (by rcases hc with rfl | rfl <;> decide) (by rcases hc with rfl | rfl <;> decide)) hg, _, space0_gap hg (.cons (by rcases hc with rfl | rfl <;> decide)), ?_⟩
  have he : (g' ++ (t ++ r)).head? ≠ some '=' := head?_ne (hg'.ne (by decide) fun d ds e e' => h.noEq r (by rw [e, e']; rfl))
  have : tag ['='] (g' ++ (t ++ r)) = .err := tag_head he
  unfold assignMethod
  rcases hc with rfl | rfl
  · rw [alt_of_err (bind_of_err rfl), alt_of_err (bind_of_err (show tag ['|', '='] ('|' :: (g' ++ (t ++ r))) = .err from this))]
    exact bind_of_err rfl
  · rw [alt_of_err (bind_of_err rfl), alt_of_err (bind_of_err rfl)]
    exact bind_of_err (show tag ['&', '='] ('&' :: (g' ++ (t ++ r))) = .err from this)

theorem _root_.Verif.Rnc.Tail.quiet {strict : Prop} {p q : SPattern} {a b : Bool} {t r : Str} (h : Tail strict p a q b t) (hr : Quiet r) : Quiet (t ++ r) := by
  cases h with
  | done => exact hr
  | «optional» hg _ => simp only [List.append_assoc, List.cons_append]; exact .char hg (by decide)
  | zeroOrMore hg _ => simp only [List.append_assoc, List.cons_append]; exact .char hg (by decide)
  | oneOrMore hg _ => simp only [List.append_assoc, List.cons_append]; exact .char hg (by decide)
  | seq hg _ _ => simp only [List.append_assoc, List.cons_append]; exact .char hg (by decide)
  | inter hg hg' h => simp only [List.append_assoc, List.cons_append]; exact .bin hg (.inr rfl) hg' h
  | choice hg hg' h => simp only [List.append_assoc, List.cons_append]; exact .bin hg (.inl rfl) hg' h

theorem _root_.Verif.Rnc.Follow.quiet {strict : Prop} {f r : Str} (h : Follow strict f) (hr : Quiet r) : Quiet (f ++ r) := by
  rcases h.first with rfl | ⟨g, cs, hg, rfl⟩
  · exact hr
  · rw [List.append_assoc, List.cons_append]; exact .char hg (by decide)

theorem _root_.Verif.Rnc.Pars.quiet {strict : Prop} {ps : List Param} {u r : Str} (h : Pars strict ps u) (hr : Quiet r) : Quiet (u ++ r) := by
  rcases h.first with rfl | ⟨g, cs, hg, rfl⟩
  · exact hr
  · rw [List.append_assoc, List.cons_append]; exact .char hg (by decide)

theorem _root_.Verif.Rnc.Braced.quiet {strict : Prop} {p : SPattern} {t : Str} (h : Braced strict p t) (r : Str) : Quiet (t ++ r) ∧ NameFol (t ++ r) := by
  cases h with
  | mk hg _ _ _ => simp only [List.append_assoc, List.cons_append]; exact ⟨.char hg (by decide), .char hg (by decide)⟩

/-- neither a grammar entry nor a declaration -/
structure NotItem (i : Str) : Prop where
  item : ∀ n, grammarContent (n + 2) i = .err
  decl : decl i = .err

theorem NotItem.noId {i : Str} (h : NoId i) : NotItem i :=
  ⟨fun _ => item_noId h, decl_head (head?_ne fun c cs e e' => by have := (h c cs e).1; subst e'; revert this; decide)
    (head?_ne fun c cs e e' => by have := (h c cs e).1; subst e'; revert this; decide)⟩

theorem notItem_of {i : Str} (h1 : ∀ pat, startRule pat i = .err) (h2 : ∀ pat, defineItem pat i = .err) (h3 : ∀ item, divItem item i = .err)
    (h4 : ∀ n pat, includeItem n pat i = .err) (h5 : ∀ n, annotationElement (n + 1) i = .err) (h6 : decl i = .err) : NotItem i :=
  ⟨fun n => by
    rw [grammarContent_succ, alt_of_err (bind_of_err (h1 _)), alt_of_err (bind_of_err (h2 _)), alt_of_err (h3 _), alt_of_err (h4 _ _)]
    exact bind_of_err (h5 _), h6⟩

/-- the keywords that begin entries and declarations -/
def entryWords : List Str := ["namespace".toList, "default".toList, "datatypes".toList, "start".toList, "div".toList, "include".toList]

theorem NotItem.word {w r : Str} (hw : NCName w) (hn : NoName r) (he : w ∉ entryWords) (hd : ∀ pat, defineItem pat (w ++ r) = .err)
    (ha : ∀ n, annotationElement (n + 1) (w ++ r) = .err) : NotItem (w ++ r) := by
  have hk : ∀ k : Str, (∀ c ∈ k, ncNameChar c = true) → k ∈ entryWords → NotKw k (w ++ r) := fun k hk hm =>
    .word hk hw.word hn fun e => absurd (e ▸ hm) he
  refine notItem_of (fun pat => ?_) hd (fun item => ?_) (fun n pat => ?_) ha (decl_word hw.word hn fun hm => he ?_)
  · exact NotKw.start (hk "start".toList (by decide) (by decide))
  · exact NotKw.next (hk "div".toList (by decide) (by decide)) (d := '{') (by simp) _
  · exact NotKw.space1 (hk "include".toList (by decide) (by decide)) _
  · revert hm; unfold entryWords; simp only [List.mem_cons, List.not_mem_nil, or_false]; rintro (h | h | h) <;> simp [h]

theorem entry_keyword {w : Str} (h : w ∈ entryWords) : Keyword w := by
  unfold entryWords at h
  simp only [List.mem_cons, List.not_mem_nil, or_false] at h
  rcases h with h | h | h | h | h | h <;> subst h <;> decide

theorem NotItem.ident {w r : Str} (hw : Ident w) (hn : NameFol r) (hq : Quiet r) : NotItem (w ++ r) := by
  have hd : ∀ pat, defineItem pat (w ++ r) = .err := fun pat => by
    unfold defineItem; rw [bind_of_ok (identifier_ok hw hn.1)]; exact hq.define _
  have ha : ∀ n, annotationElement (n + 1) (w ++ r) = .err := fun n => annElem_not (.ident hw) hn hq.1
  cases hw with
  | plain h hk => exact .word h hn.1 (fun hm => hk (entry_keyword hm)) hd ha
  | quoted hk =>
    exact notItem_of (fun _ => start_head (by simp)) hd (fun _ => div_head (by simp)) (fun _ _ => include_head (by simp)) ha (decl_head (by simp) (by simp))

theorem NotItem.kw {w r : Str} (hk : Keyword w) (he : w ∉ entryWords) (hn : NameFol r) (hf : Fol ['['] r) : NotItem (w ++ r) :=
  .word (Keyword.ncname hk) hn.1 he (fun _ => define_keyword hk hn.1) fun _ => annElem_not (.keyword hk) hn hf

theorem NotItem.cname {p l r : Str} (hp : NCName p) (hl : NCName l) (hn : NameFol r) (hf : Fol ['['] r) : NotItem (p ++ ':' :: l ++ r) := by
  have e : p ++ ':' :: l ++ r = p ++ (':' :: (l ++ r)) := by simp
  have hd : ∀ pat, defineItem pat (p ++ ':' :: l ++ r) = .err := fun pat => by
    rw [e]
    by_cases hk : Keyword p
    · exact define_keyword hk (.cons (by decide))
    · unfold defineItem
      rw [bind_of_ok (identifier_ok (.plain hp hk) (.cons (by decide)))]
      exact assign_fol (.cons (by decide) (by decide))
  have ha : ∀ n, annotationElement (n + 1) (p ++ ':' :: l ++ r) = .err := fun n => by
    unfold annotationElement
    rw [bind_of_ok (name_ok (.cname hp hl) hn)]
    exact hf.tag_err (by simp) _ _
  have hk : ∀ k : Str, (∀ c ∈ k, ncNameChar c = true) → NotKw k (p ++ ':' :: l ++ r) := fun k hk => by
    rw [e]; exact .word hk hp.word (.cons (by decide)) fun _ => ⟨_, _, rfl, stop_colon⟩
  refine notItem_of (fun pat => ?_) hd (fun item => ?_) (fun n pat => ?_) ha ?_
  · exact NotKw.start (hk "start".toList (by decide))
  · exact NotKw.next (hk "div".toList (by decide)) (d := '{') (by simp) _
  · exact NotKw.space1 (hk "include".toList (by decide)) _
  · have d1 : declNamespace (p ++ ':' :: l ++ r) = .err := (hk "namespace".toList (by decide)).space1 _
    have d2 : declDefaultNamespace (p ++ ':' :: l ++ r) = .err := (hk "default".toList (by decide)).space1 _
    have d3 : declDatatypes (p ++ ':' :: l ++ r) = .err := (hk "datatypes".toList (by decide)).space1 _
    unfold Compact.decl
    rw [alt_of_err d1, alt_of_err d2, d3]

theorem NotItem.dt {d : SDtName} {s r : Str} (h : Rnc.DtName d s) (hn : NameFol r) (hf : Fol ['['] r) : NotItem (s ++ r) := by
  cases h with
  | string => exact .kw (by decide) (by decide) hn hf
  | token => exact .kw (by decide) (by decide) hn hf
  | cname hp _ hl => exact .cname hp hl hn hf

theorem _root_.Verif.Rnc.Nc.ne_nil {strict : Prop} {c : SNameClass} {s : Str} (h : Nc strict c s) : s ≠ [] := by
  cases h with
  | base _ hb _ _ => obtain ⟨c, cs, rfl, _⟩ := hb.head; simp
  | alt _ hb _ _ _ _ _ => simp
  | anyExcept _ _ _ _ => simp
  | nsExcept _ _ _ _ _ => simp

theorem named_fol {strict : Prop} {k g s t r : Str} {c : SNameClass} (hk : k = "element".toList ∨ k = "attribute".toList) (hg : Sep g) (hc : Nc strict c s)
    (hl : ¬ LikeAnnotation (k ++ g ++ s ++ t)) : Fol ['['] (g ++ (s ++ (t ++ r))) := by
  refine Fol.gap (.start (hc.noGap _) fun d ds e hd => hl ?_) hg.1
  have hne := hc.ne_nil
  cases s with
  | nil => exact absurd rfl hne
  | cons c s => cases e; exact ⟨k, g, s ++ t, hk, hg.1, by simp at hd; rw [hd]; simp⟩

theorem LikeAnnotation.append {s : Str} (h : LikeAnnotation s) (r : Str) : LikeAnnotation (s ++ r) := by
  obtain ⟨k, g, u, hk, hg, rfl⟩ := h
  exact ⟨k, g, u ++ r, hk, hg, by simp⟩

theorem prim_notItem {strict : Prop} {p : SPattern} {s r : Str} (h : Prim strict p s) (hp : PrimFol r) (hr : Quiet r) (hl : ¬ LikeAnnotation s) :
    NotItem (s ++ r) := by
  cases h with
  | element hg hc hb e =>
    subst e
    rename_i g c s p t
    have e : "element".toList ++ g ++ s ++ t ++ r = "element".toList ++ (g ++ (s ++ (t ++ r))) := by simp
    rw [e]
    exact .kw (by decide) (by decide) (.sep hg) (named_fol (.inl rfl) hg hc hl)
  | «attribute» hg hc hb e =>
    subst e
    rename_i g c s p t
    have e : "attribute".toList ++ g ++ s ++ t ++ r = "attribute".toList ++ (g ++ (s ++ (t ++ r))) := by simp
    rw [e]
    exact .kw (by decide) (by decide) (.sep hg) (named_fol (.inr rfl) hg hc hl)
  | list hb => rw [List.append_assoc]; exact .kw (by decide) (by decide) (hb.quiet r).2 (hb.quiet r).1.1
  | mixed hb => rw [List.append_assoc]; exact .kw (by decide) (by decide) (hb.quiet r).2 (hb.quiet r).1.1
  | value h => exact .noId (noId_quote h)
  | typedValue hd hg hv =>
    simp only [List.append_assoc]
    obtain ⟨q, cs, rfl, hq⟩ := hv.head
    exact .dt hd (.char hg (by rcases hq with rfl | rfl <;> decide)) (Fol.gap (.cons (by rcases hq with rfl | rfl <;> decide) (by rcases hq with rfl | rfl <;> decide)) hg)
  | data hd hps =>
    rename_i d s ps u
    rw [List.append_assoc]
    have hn : NameFol (u ++ r) := by
      rcases hps.first with rfl | ⟨g, cs, hg, rfl⟩
      · exact hp.name
      · rw [List.append_assoc, List.cons_append]; exact .char hg (by decide)
    exact .dt hd hn (hps.quiet hr).1
  | ident hi _ => exact .ident hi hp.name hr
  | parent hg hi =>
    simp only [List.append_assoc]
    exact .kw (by decide) (by decide) (.sep hg) (Fol.gap (.start hi.noGap (IdHead.notMem (IdHead.append hi.head _) (by decide))) hg.1)
  | empty => exact .kw (by decide) (by decide) hp.name hr.1
  | text => exact .kw (by decide) (by decide) hp.name hr.1
  | notAllowed => exact .kw (by decide) (by decide) hp.name hr.1
  | external hg hv _ =>
    simp only [List.append_assoc]
    refine .kw (by decide) (by decide) (.sep hg) (Fol.gap (.start (hv.noGap _) ?_) hg.1)
    obtain ⟨q, cs, rfl, hq⟩ := hv.head
    rintro c cs e; cases e
    rcases hq with rfl | rfl <;> decide
  | grammar hg _ _ _ =>
    simp only [List.append_assoc, List.cons_append]
    exact .kw (by decide) (by decide) (.char hg (by decide)) (Fol.gap (.cons (by decide) (by decide)) hg)
  | paren _ _ _ => exact .noId (noId_char (by decide))

theorem init_notItem {strict : Prop} {i s : Str} (hi : Init strict i) (h : i = [] → NotItem s) : NotItem (i ++ s) := by
  rcases hi.first with rfl | ⟨cs, rfl⟩
  · exact h rfl
  · exact .noId (noId_char (by decide))

theorem pars_nameFol {strict : Prop} {ps : List Param} {u g r : Str} (hp : Pars strict ps u) (hg : Gap g) (hne : u ++ g ≠ []) : NameFol (u ++ (g ++ '-' :: r)) := by
  rcases hp.first with rfl | ⟨g', cs, hg', rfl⟩
  · exact NameFol.sep (g := g) ⟨hg, by simpa using hne⟩
  · rw [List.append_assoc, List.cons_append]; exact .char hg' (by decide)

theorem pat_notItem {p : SPattern} {b : Bool} {t r : Str} (h : Rnc.Pat True p b t) (hp : PatFol b r) (hr : Quiet r) (hl : ¬ LikeAnnotation t) :
    NotItem (t ++ r) := by
  cases h with
  | mk hi hs hf ht =>
    simp only [List.append_assoc]
    exact init_notItem hi fun e => prim_notItem hs (hf.prim (ht.fol hp).1) (hf.quiet (ht.quiet hr)) fun h => hl (by
      subst e; exact LikeAnnotation.append (LikeAnnotation.append h _) _)
  | dataExcept hi hd hps hg _ hx _ =>
    simp only [List.append_assoc, List.cons_append]
    exact init_notItem hi fun e => .dt hd (pars_nameFol hps hg fun e => (hx e).1 trivial) (hps.quiet (.char hg (by decide))).1
  | dataExceptFollowed hi hd hps hg _ hx _ _ _ _ =>
    simp only [List.append_assoc, List.cons_append]
    exact init_notItem hi fun e => .dt hd (pars_nameFol hps hg fun e => (hx e).1 trivial) (hps.quiet (.char hg (by decide))).1

/-! ### schemas -/

/-- K:49-56: the body of a schema -/
def bodyP (n : Nat) : P SBody := alt (do let is ← sepList1 space1 (grammarContent n); pure (.grammar is)) (do let p ← pattern n; pure (.pattern p))

theorem item_fol {i : SItem} {s : Str} (h : Item True i s) (rest : Str) {g : Str} (hg : Sep g) : PatFol false (g ++ (s ++ rest)) :=
  .sep hg (.inl (h.head.append rest)) (item_inherit h rest)

theorem body_ok {b : SBody} {u g : Str} {n : Nat} (h : Body True b u) (hg : Gap g) (hn : (u ++ g).length < n) (hn2 : 2 ≤ n) : bodyP n (u ++ g) = .ok g b := by
  unfold bodyP
  cases h with
  | grammar h =>
    apply alt_of_ok
    have hend : space1 g = .err ∨ ∃ r', space1 g = .ok r' () ∧ grammarContent n r' = .err := by
      obtain ⟨m, rfl⟩ : ∃ m, n = m + 2 := ⟨n - 2, by omega⟩
      cases g with
      | nil => exact .inl (space1_noGap .nil)
      | cons c g => exact .inr ⟨[], by simpa using space1_sep (r := []) ⟨hg, by simp⟩ .nil, item_noId .nil⟩
    have := sepList1_ok (F := PatFol false) (L := n) (p := grammarContent n) item_rows (fun a s rest h hf hl => (subs n).hitem _ _ _ h hf hl)
      (fun b s rest g hg h => item_fol h rest hg) (.gap hg) hend h hn
    rw [bind_of_ok this]; rfl
  | pattern h hl =>
    obtain ⟨m, rfl⟩ : ∃ m, n = m + 2 := ⟨n - 2, by omega⟩
    have h1 := (pat_notItem h (.gap hg) (.gap hg) (hl trivial)).item m
    have h2 : sepList1 space1 (grammarContent (m + 2)) (u ++ g) = .err := by unfold sepList1; rw [h1]
    rw [alt_of_err (bind_of_err h2), bind_of_ok ((subs _).hpat _ _ _ _ h (.gap hg) hn)]; rfl

theorem body_start {b : SBody} {u : Str} (h : Body True b u) {g : Str} (hg : Gap g) : NoGap (u ++ g) ∧ decl (u ++ g) = .err ∧ (u ++ g).head? ≠ some '~' := by
  cases h with
  | grammar h =>
    obtain ⟨s, t', hs, rfl⟩ := sepBy_first h
    rw [List.append_assoc]
    exact ⟨(hs.head.append _).noGap, item_decl hs _, noTilde_id (hs.head.append _)⟩
  | pattern h hl =>
    refine ⟨h.noGap g, (pat_notItem h (.gap hg) (.gap hg) (hl trivial)).decl, ?_⟩
    have key : ∀ {i s : Str}, Init True i → PatHead s → (i ++ s).head? ≠ some '~' := by
      intro i s hi hs
      rcases hi.first with rfl | ⟨cs, rfl⟩
      · obtain ⟨c, cs, rfl, hc⟩ := hs
        intro e; simp at e; subst e; revert hc; decide
      · simp
    cases h with
    | mk hi hp _ _ => simp only [List.append_assoc]; exact key hi (hp.head.append _)
    | dataExcept hi hd _ _ _ _ _ => simp only [List.append_assoc]; exact key hi (hd.patHead.append _)
    | dataExceptFollowed hi hd _ _ _ _ _ _ _ _ => simp only [List.append_assoc]; exact key hi (hd.patHead.append _)

theorem _root_.Verif.Rnc.Pat.ne_nil {strict : Prop} {p : SPattern} {b : Bool} {s : Str} (h : Rnc.Pat strict p b s) : s ≠ [] := by
  cases h with
  | mk hi hp _ _ => obtain ⟨c, cs, rfl, _⟩ := hp.head; simp
  | dataExcept hi hd _ _ _ _ _ => simp
  | dataExceptFollowed hi hd _ _ _ _ _ _ _ _ => simp

theorem _root_.Verif.Rnc.Body.ne_nil {strict : Prop} {b : SBody} {u : Str} (h : Body strict b u) : u ≠ [] := by
  cases h with
  | grammar h =>
    obtain ⟨s, t', hs, rfl⟩ := sepBy_first h
    obtain ⟨c, cs, rfl, _⟩ := hs.head; simp
  | pattern h _ => exact h.ne_nil

theorem decls_fol {b : SBody} {u g' g : Str} (h : Body True b u) (hg' : Gap g') (hg : Gap g) (ha : Apart True g' u) : LitFol (g' ++ (u ++ g)) := by
  obtain ⟨h1, _, h3⟩ := body_start h hg
  by_cases e : g' = []
  · subst e
    refine ⟨.start h1 fun c cs e hc => h3 (by rw [List.nil_append] at e; rw [e]; simpa using hc), ?_⟩
    have hu : u ≠ [] := h.ne_nil
    cases u with
    | nil => exact absurd rfl hu
    | cons q cs => obtain ⟨a, b⟩ := ha trivial rfl q cs rfl; exact ⟨by simpa using a, by simpa using b⟩
  · exact .sep ⟨hg', e⟩ h1 h3

theorem topLevel_eq (n : Nat) : topLevel n = (do let ds ← sepList0 space1 decl; space0; let b ← bodyP n; pure ⟨ds, b⟩ : P SSchema) := rfl

theorem schema_ok {s : SSchema} {t : Str} {n : Nat} (h : Schema True s t) (hn : t.length < n) (hn2 : 2 ≤ n) : compactSchema n t = .ok [] s := by
  have fin : ∀ {t r : Str} {g : Str} {s : SSchema}, space0 t = .ok r () → topLevel n r = .ok g s → Gap g → compactSchema n t = .ok [] s := by
    intro t r g s h1 h2 hg
    unfold compactSchema allConsuming
    have : (do space0; let s ← topLevel n; space0; pure s : P SSchema) t = .ok [] s := by
      rw [bind_of_ok h1, bind_of_ok h2, bind_of_ok (show space0 g = .ok [] () by simpa using space0_gap (r := []) hg .nil)]; rfl
    rw [this]
  cases h with
  | mk hg hd hg' hb hg'' ha =>
    rename_i g ds t g' b u g''
    obtain ⟨h1, h2, h3⟩ := body_start hb hg''
    have e : g ++ t ++ g' ++ u ++ g'' = g ++ (t ++ (g' ++ (u ++ g''))) := by simp
    rw [e] at hn ⊢
    cases ds with
    | nil =>
      cases hd
      refine fin (r := u ++ g'') (by simpa using space0_gap (hg.append hg') h1) ?_ hg''
      have h0 : sepList0 space1 decl (u ++ g'') = .ok (u ++ g'') [] := by unfold sepList0; rw [h2]
      rw [topLevel_eq, bind_of_ok h0, bind_of_ok (space0_noGap h1), bind_of_ok (body_ok hb hg'' (by simp at hn ⊢; omega) hn2)]
      rfl
    | cons d ds =>
      have hA : Apart True g' u := by rcases ha with h | h; cases h; exact h
      obtain ⟨s, t', hs, et⟩ := sepBy_first hd
      refine fin (r := t ++ (g' ++ (u ++ g''))) (space0_gap hg (by rw [et, List.append_assoc]; exact (decl_rows _ _ hs).2 _)) ?_ hg''
      have h0 : sepList0 space1 decl (t ++ (g' ++ (u ++ g''))) = .ok (g' ++ (u ++ g'')) (d :: ds) := by
        refine sepList0_ok (F := LitFol) (L := (t ++ (g' ++ (u ++ g''))).length + 1) decl_rows (fun a s rest h hf _ => decl_ok h hf)
          (fun b s rest g hg h => .sep hg ((decl_rows _ _ h).2 rest) ?_) (.inr (decls_fol hb hg' hg'' hA)) (.inr ?_) (fun h => by cases h) hd (by simp)
        · obtain ⟨c, cs, rfl, hc⟩ := h.head
          rcases hc with rfl | rfl <;> simp
        · by_cases e : g' = []
          · subst e; exact .inl (space1_noGap h1)
          · exact .inr ⟨_, space1_sep ⟨hg', e⟩ h1, h2⟩
      rw [topLevel_eq, bind_of_ok h0, bind_of_ok (space0_gap hg' h1), bind_of_ok (body_ok hb hg'' (by simp at hn ⊢; omega) hn2)]
      rfl

/-- Completeness: what the grammar derives, the parser reads. -/
theorem parse_complete {s : SSchema} {t : Str} {n : Nat} (h : Schema True s t) (hn : t.length + 2 ≤ n) : parseCompact n t = .ok s := by
  unfold parseCompact
  rw [schema_ok h (by omega) (by omega)]

end Verif.Compact
