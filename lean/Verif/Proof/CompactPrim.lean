import Verif.Proof.CompactPat
/-
The compact syntax: patterns without operators.
-/
namespace Verif.Compact
open Verif P Rnc
variable {α β : Type}

instance (k : Str) : Decidable (Keyword k) := inferInstanceAs (Decidable (k ∈ _))

/-- the alternatives after identifiers -/
def primary2 (pat : P SPattern) (item : P SItem) : P SPattern :=
  alt (do tag "parent".toList; space1; let i ← identifier; pure (.parent i)) <|
  alt (do tag "empty".toList; pure .empty) <|
  alt (do tag "text".toList; pure .text) <|
  alt (do tag "notAllowed".toList; pure .notAllowed) <|
  alt externalPattern <|
  alt (grammarPattern item) <|
  groupPattern pat

/-- the alternatives after the first four keywords -/
def primary1 (n : Nat) (pat : P SPattern) (item : P SItem) : P SPattern :=
  alt datatypeValuePattern <|
  alt (datatypeParamPattern n pat) <|
  alt (do let i ← identifier; pure (.ident i)) <|
  primary2 pat item

/-- none of the first four keywords -/
def Not4 (i : Str) : Prop := NotKw "element".toList i ∧ NotKw "attribute".toList i ∧ NotKw "list".toList i ∧ NotKw "mixed".toList i

theorem primary_not4 {n : Nat} {pat : P SPattern} {item : P SItem} {i : Str} (h : Not4 i) : primary n pat item i = primary1 n pat item i := by
  obtain ⟨h1, h2, h3, h4⟩ := h
  show alt _ (alt _ (alt _ (alt _ (primary1 n pat item)))) i = _
  rw [alt_of_err (bind_of_err h1.named), alt_of_err (bind_of_err h2.named), alt_of_err (h3.braced _), alt_of_err (h4.braced _)]

theorem Not4.head {i : Str} (h : ∀ d ∈ ['e', 'a', 'l', 'm'], i.head? ≠ some d) : Not4 i :=
  ⟨.inl (tag_head (h 'e' (by simp))), .inl (tag_head (h 'a' (by simp))), .inl (tag_head (h 'l' (by simp))), .inl (tag_head (h 'm' (by simp)))⟩

theorem value_none {i : Str} (hd : datatypeName i = .err) (hq : NoQuote i) (hg : NoGap i) : datatypeValuePattern i = .err := by
  unfold datatypeValuePattern
  rw [bind_of_ok (opt_of_err hd), bind_of_ok (space0_noGap hg)]
  exact bind_of_err (literal_err hq)

theorem primary_skip {n : Nat} {pat : P SPattern} {item : P SItem} {i : Str} (h : Not4 i) (hd : datatypeName i = .err) (hq : NoQuote i)
    (hg : NoGap i) (hid : identifier i = .err) : primary n pat item i = primary2 pat item i := by
  rw [primary_not4 h]
  unfold primary1
  have hp : datatypeParamPattern n pat i = .err := bind_of_err hd
  rw [alt_of_err (value_none hd hq hg), alt_of_err hp, alt_of_err (bind_of_err hid)]

theorem _root_.Verif.NCName.idHead {w : Str} (h : NCName w) : IdHead w := by
  obtain ⟨c, cs, rfl, h1, _⟩ := h; exact ⟨c, cs, rfl, .inl ((ncNameStartChar_iff _).mpr h1)⟩

theorem IdHead.noQuote {i : Str} (h : IdHead i) : NoQuote i := ⟨h.head (by decide), h.head (by decide)⟩

/-- keywords that begin no other alternative -/
theorem primary_kw {n : Nat} {pat : P SPattern} {item : P SItem} {k r : Str} (hk : Keyword k) (hf : Referable k) (h : Not4 (k ++ r)) (hr : NameFol r) :
    primary n pat item (k ++ r) = primary2 pat item (k ++ r) :=
  have hi := ((Keyword.ncname hk).idHead.append r)
  primary_skip h (dtName_ident (.keyword hk) hf hr) hi.noQuote hi.noGap (identifier_keyword hk hr.1)

theorem notRef_of {k : Str} (h : ("string".toList.isPrefixOf k || "token".toList.isPrefixOf k) = false) : Referable k := by
  simp only [Bool.or_eq_false_iff] at h
  exact ⟨fun hp => by rw [List.isPrefixOf_iff_prefix.mpr hp] at h; exact absurd h.1 (by simp),
    fun hp => by rw [List.isPrefixOf_iff_prefix.mpr hp] at h; exact absurd h.2 (by simp)⟩

/-- the parsers of sub-patterns and grammar entries work on shorter texts -/
structure Subs (n : Nat) (pat : P SPattern) (item : P SItem) : Prop where
  hpat : ∀ (p : SPattern) (b : Bool) (s r : Str), Rnc.Pat True p b s → PatFol b r → (s ++ r).length < n → pat (s ++ r) = .ok r p
  hitem : ∀ (i : SItem) (s r : Str), Item True i s → PatFol false r → (s ++ r).length < n → item (s ++ r) = .ok r i
  hend : ∀ r, 2 ≤ n → item ('}' :: r) = .err

section
variable {strict : Prop}

/-- where patterns begin -/
def PatHead (s : Str) : Prop := ∃ c cs, s = c :: cs ∧ (ncNameStartChar c = true ∨ c = '\\' ∨ c = '"' ∨ c = '\'' ∨ c = '(')

theorem PatHead.noGap {s : Str} (h : PatHead s) : NoGap s := by
  obtain ⟨c, cs, rfl, h⟩ := h
  refine .cons ?_
  rcases h with h | rfl | rfl | rfl | rfl
  · exact noGap_idHead (.inl h)
  all_goals decide

theorem PatHead.bracket {s : Str} (h : PatHead s) : s.head? ≠ some '[' := by
  obtain ⟨c, cs, rfl, h⟩ := h
  intro e; simp at e; subst e
  revert h; decide

theorem PatHead.append {s : Str} (h : PatHead s) (r : Str) : PatHead (s ++ r) := by
  obtain ⟨c, cs, rfl, h⟩ := h; exact ⟨c, cs ++ r, rfl, h⟩

theorem IdHead.patHead {s : Str} (h : IdHead s) : PatHead s := by
  obtain ⟨c, cs, e, h⟩ := h; exact ⟨c, cs, e, by rcases h with h | h <;> simp [h]⟩

theorem _root_.Verif.Rnc.Literal.patHead {v s : Str} (h : Literal v s) : PatHead s := by
  obtain ⟨c, cs, e, h⟩ := h.head; exact ⟨c, cs, e, by rcases h with h | h <;> simp [h]⟩

theorem _root_.Verif.Rnc.DtName.patHead {d : SDtName} {s : Str} (h : Rnc.DtName d s) : PatHead s := by
  obtain ⟨c, cs, e, h⟩ := h.head; exact ⟨c, cs, e, .inl h⟩

theorem _root_.Verif.Rnc.Prim.head {p : SPattern} {s : Str} (h : Prim strict p s) : PatHead s := by
  cases h with
  | element _ _ _ e => subst e; exact ⟨'e', _, rfl, .inl (by decide)⟩
  | «attribute» _ _ _ e => subst e; exact ⟨'a', _, rfl, .inl (by decide)⟩
  | list _ => exact ⟨'l', _, rfl, .inl (by decide)⟩
  | mixed _ => exact ⟨'m', _, rfl, .inl (by decide)⟩
  | value h => exact h.patHead
  | typedValue h _ _ => rw [List.append_assoc]; exact h.patHead.append _
  | data h _ => exact h.patHead.append _
  | ident h _ => exact IdHead.patHead h.head
  | parent _ _ => exact ⟨'p', _, rfl, .inl (by decide)⟩
  | empty => exact ⟨'e', _, rfl, .inl (by decide)⟩
  | text => exact ⟨'t', _, rfl, .inl (by decide)⟩
  | notAllowed => exact ⟨'n', _, rfl, .inl (by decide)⟩
  | external _ _ _ => exact ⟨'e', _, rfl, .inl (by decide)⟩
  | grammar _ _ _ _ => exact ⟨'g', _, rfl, .inl (by decide)⟩
  | paren _ _ _ => exact ⟨'(', _, rfl, by simp⟩

theorem _root_.Verif.Rnc.Pat.noGap {p : SPattern} {b : Bool} {s : Str} (h : Rnc.Pat strict p b s) (r : Str) : NoGap (s ++ r) := by
  cases h with
  | mk hi hp _ _ => simp only [List.append_assoc]; exact hi.noGap (hp.head.append _).noGap
  | dataExcept hi hd _ _ _ _ _ => simp only [List.append_assoc]; exact hi.noGap (hd.patHead.append _).noGap
  | dataExceptFollowed hi hd _ _ _ _ _ _ _ _ => simp only [List.append_assoc]; exact hi.noGap (hd.patHead.append _).noGap
end

theorem NameFol.sep {g r : Str} (hg : Sep g) : NameFol (g ++ r) := by
  obtain ⟨hg, hne⟩ := hg
  cases g with
  | nil => exact absurd rfl hne
  | cons c g =>
    have hc := Gap.head hg rfl
    refine ⟨.cons (gapChar_noName hc), ?_⟩
    intro e; simp at e; subst e
    revert hc; decide

/-- a word that is not `inherit`, or after which comes no `=` -/
theorem inherit_word {w r : Str} (hw : Word w) (hr : NoName r) (h : w = "inherit".toList → Fol ['='] r) : inherit (w ++ r) = .err := by
  by_cases e : "inherit".toList = w
  · subst e
    unfold inherit
    rw [bind_of_ok (tag_append _ _)]
    exact (h rfl).tag_err (by simp) _ _
  · rcases tag_word (by decide) hw hr e with h | ⟨c, cs, h, hc⟩
    · exact bind_of_err h
    · unfold inherit
      rw [bind_of_ok h]
      exact Fol.tag_err (S := ['=']) (.cons (noGap_nameChar hc) (by intro hm; simp at hm; subst hm; revert hc; decide)) (by simp) _ _

theorem elem_inherit {strict : Prop} {u : Unit} {s : Str} (h : AnnElem strict u s) (r : Str) : inherit (s ++ r) = .err := by
  obtain ⟨n, s', g, r', hn, hg, e⟩ := h.split r
  rw [e]
  cases hn with
  | ident h =>
    cases h with
    | ident h =>
      cases h with
      | plain h _ => exact inherit_word h.word (NameFol.char hg (by decide)).1 fun _ => Fol.gap (.cons (by decide) (by decide)) hg
      | quoted _ => exact inherit_head (by simp)
    | keyword h => exact inherit_word (Keyword.ncname h).word (NameFol.char hg (by decide)).1 fun _ => Fol.gap (.cons (by decide) (by decide)) hg
  | cname hp _ =>
    rw [List.append_assoc, List.cons_append]
    exact inherit_word hp.word (.cons (by decide)) fun _ => .cons (by decide) (by decide)

theorem ident_inherit {s r : Str} (h : Ident s) (hr : NoName r) : inherit (s ++ r) = .err := by
  cases h with
  | plain h hk => exact inherit_word h.word hr fun e => absurd (e ▸ (by decide : Keyword "inherit".toList)) hk
  | quoted _ => exact inherit_head (by simp)

theorem _root_.Verif.Rnc.Item.head {strict : Prop} {i : SItem} {s : Str} (h : Item strict i s) : IdHead s := by
  cases h with
  | start _ _ _ _ => exact ⟨'s', _, rfl, .inl (by decide)⟩
  | define hi _ _ _ _ => simp only [List.append_assoc]; exact IdHead.append hi.head _
  | div _ _ _ _ => exact ⟨'d', _, rfl, .inl (by decide)⟩
  | «include» _ _ _ _ => exact ⟨'i', _, rfl, .inl (by decide)⟩
  | «annotation» h => exact h.head

theorem assign_noName {a : AssignMethod} {g u r : Str} (hg : Gap g) (h : Assign a u) : NameFol (g ++ (u ++ r)) := by
  cases h <;> exact .char hg (by decide)

theorem item_inherit {strict : Prop} {i : SItem} {s : Str} (h : Item strict i s) (r : Str) : inherit (s ++ r) = .err := by
  cases h with
  | start _ _ _ _ => exact inherit_head (by simp)
  | define hi hg ha _ _ =>
    simp only [List.append_assoc]
    exact ident_inherit hi (assign_noName hg ha).1
  | div _ _ _ _ => exact inherit_head (by simp)
  | «include» _ _ _ _ => rfl
  | «annotation» h => exact elem_inherit h r

theorem item_rows {strict : Prop} : ∀ (a : SItem) (s : Str), Item strict a s → s ≠ [] ∧ ∀ r, NoGap (s ++ r) :=
  fun _ _ h => ⟨h.head.ne_nil, fun r => (h.head.append r).noGap⟩

/-- something in braces -/
theorem braced_ok {n : Nat} {pat : P SPattern} {item : P SItem} (hs : Subs n pat item) {p : SPattern} {t r : Str} (h : Braced True p t)
    (hL : (t ++ r).length ≤ n) : braced pat (t ++ r) = .ok r p := by
  cases h with
  | mk hg1 hg2 hp hg3 =>
    rename_i g1 g2 b s g3
    have e : g1 ++ '{' :: g2 ++ s ++ g3 ++ ['}'] ++ r = g1 ++ '{' :: (g2 ++ (s ++ (g3 ++ '}' :: r))) := by simp
    rw [e] at hL ⊢
    unfold braced
    rw [bind_of_ok (space0_gap hg1 (.cons (by decide))), bind_of_ok (tag_one '{' _), bind_of_ok (space0_gap hg2 (hp.noGap _)),
      bind_of_ok (cut_of_ok (hs.hpat _ _ _ _ hp (.char hg3 (.inr rfl)) (by simp at hL ⊢; omega))),
      bind_of_ok (space0_gap hg3 (.cons (by decide))), bind_of_ok (cut_of_ok (tag_one '}' _))]
    rfl

theorem named_ok {n : Nat} {pat : P SPattern} {item : P SItem} (hs : Subs n pat item) {k g s t r : Str} {c : SNameClass} {p : SPattern}
    (hg : Sep g) (hc : Nc True c s) (hp : Braced True p t) (hL : (k ++ (g ++ (s ++ (t ++ r)))).length ≤ n) :
    namedPattern k (nameClass n) pat (k ++ (g ++ (s ++ (t ++ r)))) = .ok r (c, p) := by
  unfold namedPattern
  have hlen := List.length_pos_iff.mpr hg.2
  have hfol : NcFol (t ++ r) := by
    cases hp with
    | mk hg1 _ _ _ => simp only [List.append_assoc, List.cons_append]; exact .char hg1 (by decide)
  rw [bind_of_ok (tag_append _ _), bind_of_ok (space1_sep hg (hc.noGap (t ++ r))),
    bind_of_ok ((nameClass_ok n).1 _ _ _ hc hfol (by simp at hL ⊢; omega)),
    bind_of_ok (braced_ok hs hp (r := r) (by simp at hL ⊢; omega))]
  rfl

theorem Fol.space1 {S : List Char} {r : Str} (h : Fol S r) : space1 r = .err ∨ ∃ r', space1 r = .ok r' () := by
  obtain ⟨g, r', hg, hr, rfl, _⟩ := h
  cases g with
  | nil => exact .inl (space1_noGap hr)
  | cons c g => exact .inr ⟨r', space1_sep ⟨hg, by simp⟩ hr⟩

theorem inherit_ok {S : List Char} {h : Option Str} {u r : Str} (hi : Inherit h u) (hr : NoName r) (hf : Fol S r) (hn : NoInherit r) :
    opt (do space1; inherit) (u ++ r) = .ok r h := by
  cases hi with
  | none =>
    apply opt_of_err
    show (space1 >>= fun _ => inherit) r = .err
    rcases hf.space1 with h | ⟨r', h⟩
    · exact bind_of_err h
    · rw [bind_of_ok h]; exact hn r' h
  | some hg hg1 hg2 hp =>
    rename_i g g1 g2 p
    have e : g ++ "inherit".toList ++ g1 ++ '=' :: g2 ++ p ++ r = g ++ ("inherit".toList ++ (g1 ++ '=' :: (g2 ++ (p ++ r)))) := by simp
    rw [e]
    apply opt_of_ok
    rw [bind_of_ok (space1_sep hg (r := "inherit".toList ++ (g1 ++ '=' :: (g2 ++ (p ++ r)))) (NoGap.cons (c := 'i') (by decide)))]
    unfold inherit
    rw [bind_of_ok (tag_append _ _), bind_of_ok (space0_gap hg1 (.cons (by decide))), bind_of_ok (tag_one '=' _),
      bind_of_ok (space0_gap hg2 hp.noGap)]
    exact anyIdent_ok hp hr

theorem _root_.Verif.Rnc.Inherit.first {h : Option Str} {u : Str} (hi : Inherit h u) : u = [] ∨ ∃ g cs, Sep g ∧ u = g ++ 'i' :: cs := by
  cases hi with
  | none => exact .inl rfl
  | some hg _ _ _ => exact .inr ⟨_, _, hg, by simp only [List.append_assoc, List.cons_append]; rfl⟩

theorem PrimFol.lit {r : Str} (h : PrimFol r) : LitFol r := .of h.fol (by simp) (by simp) (by simp)

theorem _root_.Verif.Rnc.Inherit.lit {h : Option Str} {u r : Str} (hi : Inherit h u) (hr : LitFol r) : LitFol (u ++ r) := by
  rcases hi.first with rfl | ⟨g, cs, hg, rfl⟩
  · exact hr
  · rw [List.append_assoc, List.cons_append]; exact .sep hg (.cons (by decide)) (by simp)

theorem par_ok {n : Nat} {a : Param} {s r : Str} (h : Par True a s) (hr : LitFol r) (hL : (s ++ r).length ≤ n) : param n (s ++ r) = .ok r a := by
  cases h with
  | mk hi hn hg1 hg2 hl =>
    rename_i i nm g1 g2 v t
    have e : i ++ nm ++ g1 ++ '=' :: g2 ++ t ++ r = i ++ (nm ++ (g1 ++ '=' :: (g2 ++ (t ++ r)))) := by simp
    rw [e] at hL ⊢
    have hid := (show IdHead nm from hn.head).append (g1 ++ '=' :: (g2 ++ (t ++ r)))
    obtain ⟨o, h1, _⟩ := init_ok (r := nm ++ (g1 ++ '=' :: (g2 ++ (t ++ r)))) hi hid.noGap (hid.head (by decide)) hL
    unfold param
    rw [bind_of_ok h1, bind_of_ok (space0_noGap hid.noGap), bind_of_ok (anyIdent_ok hn (NameFol.char hg1 (by decide)).1),
      bind_of_ok (space0_gap hg1 (.cons (by decide))), bind_of_ok (tag_one '=' _), bind_of_ok (space0_gap hg2 (hl.noGap r)),
      bind_of_ok (literal_ok hl hr)]
    rfl

theorem par_rows : ∀ (a : Param) (s : Str), Par True a s → s ≠ [] ∧ ∀ r, NoGap (s ++ r) := by
  intro a s h
  cases h with
  | mk hi hn _ _ _ =>
    have hid : IdHead _ := hn.head
    refine ⟨?_, fun r => by simp only [List.append_assoc]; exact hi.noGap (hid.append _).noGap⟩
    obtain ⟨c, cs, rfl, _⟩ := hid; simp

theorem par_tilde {a : Param} {s : Str} (h : Par True a s) (r : Str) : (s ++ r).head? ≠ some '~' := by
  cases h with
  | mk hi hn _ _ _ =>
    simp only [List.append_assoc]
    rcases hi.first with rfl | ⟨cs, rfl⟩
    · exact ((show IdHead _ from hn.head).append _).head (by decide)
    · simp

theorem param_end {n : Nat} {r : Str} : param n ('}' :: r) = .err := by
  unfold param
  rw [bind_of_ok (init_none (by simp)), bind_of_ok (space0_noGap (.cons (by decide)))]
  exact bind_of_err (anyIdent_err (noId_char (by decide)))

theorem pars_ok {n : Nat} {ps : List Param} {u r : Str} (h : Pars True ps u) (hr : Fol ['{'] r) (hL : (u ++ r).length ≤ n) :
    ∃ o, opt (params n) (u ++ r) = .ok r o ∧ o.getD [] = ps := by
  cases h with
  | none => exact ⟨none, opt_of_err (hr.tag_err (by simp) _ _), rfl⟩
  | some hg1 hg2 ht hg3 =>
    rename_i g1 g2 t g3
    have e : g1 ++ '{' :: g2 ++ t ++ g3 ++ ['}'] ++ r = g1 ++ '{' :: (g2 ++ (t ++ (g3 ++ '}' :: r))) := by simp
    rw [e] at hL ⊢
    refine ⟨some ps, opt_of_ok ?_, rfl⟩
    unfold params
    rw [bind_of_ok (space0_gap hg1 (.cons (by decide))), bind_of_ok (tag_one '{' _)]
    refine (block_ok (F := LitFol) (L := n + 1) par_rows (fun a s rest h hf hl => par_ok h hf (by omega))
      (fun b s rest g hg h => .sep hg ((par_rows _ _ h).2 _) (par_tilde h _)) hg2 ht hg3 (.cons (by decide))
      (.inr (.char hg3 (by decide))) param_end (by simp at hL ⊢; omega)).trans ?_
    rw [bind_of_ok (cut_of_ok (tag_one '}' _))]; rfl

theorem _root_.Verif.Rnc.Pars.first {strict : Prop} {ps : List Param} {u : Str} (h : Pars strict ps u) : u = [] ∨ ∃ g cs, Gap g ∧ u = g ++ '{' :: cs := by
  cases h with
  | none => exact .inl rfl
  | some hg1 _ _ _ => exact .inr ⟨_, _, hg1, by simp only [List.append_assoc, List.cons_append]; rfl⟩

theorem _root_.Verif.Rnc.Pars.noName {strict : Prop} {ps : List Param} {u r : Str} (h : Pars strict ps u) (hn : NoName r) : NoName (u ++ r) := by
  rcases h.first with rfl | ⟨g, cs, hg, rfl⟩
  · exact hn
  · rw [List.append_assoc, List.cons_append]
    exact (NameFol.char hg (by decide)).1

/-- after a datatype and its parameters comes no value -/
theorem pars_noValue {strict : Prop} {d : SDtName} {s u r : Str} {ps : List Param} (hd : Rnc.DtName d s) (h : Pars strict ps u)
    (hn : ∀ p n, d = .cname p n → NoName (u ++ r)) (hr : Fol ['"', '\''] r) : datatypeValuePattern (s ++ (u ++ r)) = .err := by
  have hf : Fol ['"', '\''] (u ++ r) := by
    rcases h.first with rfl | ⟨g, cs, hg, rfl⟩
    · exact hr
    · rw [List.append_assoc, List.cons_append]
      exact Fol.gap (.cons (by decide) (by decide)) hg
  obtain ⟨r', h1, h2, h3⟩ := hf.space0
  unfold datatypeValuePattern
  rw [bind_of_ok (opt_of_ok (dtName_ok hd hn)), bind_of_ok h1]
  exact bind_of_err (literal_err ⟨head?_ne fun c cs e e' => h3 c cs e (by simp [e']), head?_ne fun c cs e e' => h3 c cs e (by simp [e'])⟩)

theorem data_ok {n : Nat} {pat : P SPattern} {item : P SItem} {d : SDtName} {s u r r' : Str} {ps : List Param} {o : Option SPattern}
    (hd : Rnc.DtName d s) (h : Pars True ps u) (hn : ∀ p n, d = .cname p n → NoName (u ++ r)) (hr : Fol ['"', '\'', '{'] r)
    (hL : (u ++ r).length ≤ n) (ho : opt (do space0; tag ['-']; space0; pat) r = .ok r' o) :
    primary n pat item (s ++ (u ++ r)) = .ok r' (match o with | none => .data d ps | some e => .dataExcept d ps e) := by
  have h2 := pars_noValue hd h hn (hr.mono (by simp))
  obtain ⟨p, h3, h4⟩ := pars_ok h (hr.mono (by simp)) hL
  rw [primary_not4 (DtName.notKw hd _)]
  unfold primary1
  rw [alt_of_err h2]
  apply alt_of_ok
  unfold datatypeParamPattern
  rw [bind_of_ok (dtName_ok hd hn), bind_of_ok h3, bind_of_ok ho]
  cases o with
  | none => dsimp only; rw [h4]; rfl
  | some e => dsimp only; rw [h4]; rfl

theorem ident_not4 {s r : Str} (h : Ident s) (hr : NoName r) : Not4 (s ++ r) := by
  cases h with
  | plain hn hk =>
    have : ∀ k : Str, Keyword k → NotKw k (s ++ r) := fun k hkk =>
      .word (Keyword.ncname hkk).word.2 hn.word hr fun e => absurd (e ▸ hkk) hk
    exact ⟨this _ (by decide), this _ (by decide), this _ (by decide), this _ (by decide)⟩
  | quoted _ => exact .head (by simp)

theorem prim_ok {n : Nat} {pat : P SPattern} {item : P SItem} (hs : Subs n pat item) {p : SPattern} {s r : Str} (h : Prim True p s)
    (hr : PrimFol r) (hL : (s ++ r).length ≤ n) : primary n pat item (s ++ r) = .ok r p := by
  cases h with
  | element hg hc hp e =>
    subst e
    simp only [List.append_assoc] at hL ⊢
    unfold primary
    apply alt_of_ok
    rw [bind_of_ok (named_ok hs hg hc hp hL)]; rfl
  | «attribute» hg hc hp e =>
    subst e
    simp only [List.append_assoc] at hL ⊢
    unfold primary
    rw [alt_of_err (bind_of_err (NotKw.named (.inl rfl)))]
    apply alt_of_ok
    rw [bind_of_ok (named_ok hs hg hc hp hL)]; rfl
  | list hp =>
    simp only [List.append_assoc] at hL ⊢
    unfold primary
    rw [alt_of_err (bind_of_err (NotKw.named (.inl rfl))), alt_of_err (bind_of_err (NotKw.named (.inl rfl)))]
    apply alt_of_ok
    rw [bind_of_ok (tag_append _ _), bind_of_ok (braced_ok hs hp (by simp at hL ⊢; omega))]; rfl
  | mixed hp =>
    simp only [List.append_assoc] at hL ⊢
    unfold primary
    rw [alt_of_err (bind_of_err (NotKw.named (.inl rfl))), alt_of_err (bind_of_err (NotKw.named (.inl rfl))),
      alt_of_err (NotKw.braced (.inl rfl) _)]
    apply alt_of_ok
    rw [bind_of_ok (tag_append _ _), bind_of_ok (braced_ok hs hp (by simp at hL ⊢; omega))]; rfl
  | value hl =>
    have h0 : ∀ c cs, s ++ r = c :: cs → c = '"' ∨ c = '\'' := by
      obtain ⟨q, cs, rfl, hq⟩ := hl.head
      intro c cs e; cases e; exact hq
    rw [primary_not4 (.head fun d hd e => by
      cases hsr : s ++ r with
      | nil => rw [hsr] at e; cases e
      | cons c cs => rw [hsr] at e; cases e; rcases h0 _ cs hsr with rfl | rfl <;> simp at hd)]
    unfold primary1
    apply alt_of_ok
    unfold datatypeValuePattern
    rw [bind_of_ok (opt_of_err (dtName_head fun c cs e => by rcases h0 c cs e with rfl | rfl <;> decide)), bind_of_ok (space0_noGap (hl.noGap r)),
      bind_of_ok (literal_ok hl hr.lit)]
    rfl
  | typedValue hd hg hl =>
    rename_i d s g v t
    have e : s ++ g ++ t ++ r = s ++ (g ++ (t ++ r)) := by simp
    rw [e]
    have hn : NoName (g ++ (t ++ r)) := by
      obtain ⟨q, cs, rfl, hq⟩ := hl.head
      exact hg.noName (.cons (by rcases hq with rfl | rfl <;> decide))
    rw [primary_not4 (DtName.notKw hd _)]
    unfold primary1
    apply alt_of_ok
    unfold datatypeValuePattern
    rw [bind_of_ok (opt_of_ok (dtName_ok hd fun _ _ _ => hn)), bind_of_ok (space0_gap hg (hl.noGap r)), bind_of_ok (literal_ok hl hr.lit)]
    rfl
  | data hd hp =>
    rename_i d s ps u
    rw [List.append_assoc] at hL ⊢
    exact data_ok (o := none) hd hp (fun _ _ _ => hp.noName hr.name.1) (hr.fol.mono (by simp)) (by simp at hL ⊢; omega)
      (opt_of_err ((hr.fol.mono (T := ['-']) (by simp)).tag_err (by simp) _ _))
  | ident hi hf =>
    rw [primary_not4 (ident_not4 hi hr.name.1)]
    have hid := (show IdHead s from hi.head).append r
    have hd := dtName_ident (.ident hi) hf hr.name
    have hp : datatypeParamPattern n pat (s ++ r) = .err := bind_of_err hd
    unfold primary1
    rw [alt_of_err (value_none hd hid.noQuote hid.noGap), alt_of_err hp]
    apply alt_of_ok
    rw [bind_of_ok (identifier_ok hi hr.name.1)]; rfl
  | parent hg hi =>
    rename_i g s
    have e : "parent".toList ++ g ++ s ++ r = "parent".toList ++ (g ++ (s ++ r)) := by simp
    rw [e]
    have hn : NameFol (g ++ (s ++ r)) := .sep hg
    rw [primary_kw (by decide) (notRef_of (by decide)) ⟨.inl rfl, .inl rfl, .inl rfl, .inl rfl⟩ hn]
    unfold primary2
    apply alt_of_ok
    rw [bind_of_ok (tag_append _ _), bind_of_ok (space1_sep hg hi.noGap), bind_of_ok (identifier_ok hi hr.name.1)]; rfl
  | empty =>
    rw [primary_kw (by decide) (notRef_of (by decide)) ⟨.inl rfl, .inl rfl, .inl rfl, .inl rfl⟩ hr.name]
    rfl
  | text =>
    rw [primary_kw (by decide) (notRef_of (by decide)) ⟨.inl rfl, .inl rfl, .inl rfl, .inl rfl⟩ hr.name]
    rfl
  | notAllowed =>
    rw [primary_kw (by decide) (notRef_of (by decide)) ⟨.inl rfl, .inl rfl, .inl rfl, .inl rfl⟩ hr.name]
    rfl
  | external hg hl hi =>
    rename_i g v t h u
    have e : "external".toList ++ g ++ t ++ u ++ r = "external".toList ++ (g ++ (t ++ (u ++ r))) := by simp
    rw [e]
    have hn : NameFol (g ++ (t ++ (u ++ r))) := by
      obtain ⟨q, cs, rfl, hq⟩ := hl.head
      exact .sep hg
    rw [primary_kw (by decide) (notRef_of (by decide)) ⟨.inl rfl, .inl rfl, .inl rfl, .inl rfl⟩ hn]
    have : externalPattern ("external".toList ++ (g ++ (t ++ (u ++ r)))) = .ok r (.external v h) := by
      unfold externalPattern
      rw [bind_of_ok (tag_append _ _), bind_of_ok (space1_sep hg (hl.noGap _)), bind_of_ok (literal_ok hl (hi.lit hr.lit)),
        bind_of_ok (inherit_ok hi hr.name.1 hr.fol hr.noInherit)]
      rfl
    show alt externalPattern _ _ = _
    rw [alt_of_ok this]
  | grammar hg hg' ht hg'' =>
    rename_i g g' is t g''
    have e : "grammar".toList ++ g ++ '{' :: g' ++ t ++ g'' ++ ['}'] ++ r = "grammar".toList ++ (g ++ '{' :: (g' ++ (t ++ (g'' ++ '}' :: r)))) := by simp
    rw [e] at hL ⊢
    rw [primary_kw (by decide) (notRef_of (by decide)) ⟨.inl rfl, .inl rfl, .inl rfl, .inl rfl⟩ (.char hg (by decide))]
    show alt (grammarPattern item) _ _ = _
    apply alt_of_ok
    unfold grammarPattern
    rw [bind_of_ok (tag_append _ _), bind_of_ok (space0_gap hg (.cons (by decide))), bind_of_ok (tag_one '{' _)]
    exact (block_ok (F := PatFol false) (L := n) item_rows (fun a s rest h hf hl => hs.hitem _ _ _ h hf hl)
      (fun b s rest g hg h => .sep hg (.inl (h.head.append rest)) (item_inherit h rest)) hg' ht hg'' (.cons (by decide))
      (.inr (.char hg'' (.inr rfl))) (hs.hend _ (by simp at hL; omega)) (by simp at hL ⊢; omega)).trans
      (by rw [bind_of_ok (cut_of_ok (tag_one '}' _))]; rfl)
  | paren hg hp hg' =>
    rename_i g p b s g'
    have e : '(' :: g ++ s ++ g' ++ [')'] ++ r = '(' :: (g ++ (s ++ (g' ++ ')' :: r))) := by simp
    rw [e] at hL ⊢
    rw [primary_skip (.head (by simp)) (dtName_head fun c cs e => by cases e; decide) (by constructor <;> simp) (.cons (by decide))
      (identifier_err (noId_char (by decide)))]
    show groupPattern pat _ = _
    unfold groupPattern
    rw [bind_of_ok (tag_one '(' _), bind_of_ok (space0_gap hg (hp.noGap _)),
      bind_of_ok (hs.hpat _ _ _ _ hp (.char hg' (.inl rfl)) (by simp at hL ⊢; omega)), bind_of_ok (space0_gap hg' (.cons (by decide))),
      bind_of_ok (tag_one ')' _)]
    rfl

end Verif.Compact
