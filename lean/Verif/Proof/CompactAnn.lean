import Verif.Proof.CompactLit
/-
The compact syntax: annotations and name classes.
-/
namespace Verif.Compact
open Verif P Rnc
variable {α β : Type}

/-! ### names -/

/-- what may follow a name -/
def NameFol (r : Str) : Prop := NoName r ∧ r.head? ≠ some ':'

theorem NameFol.char {g r : Str} {c : Char} (hg : Gap g) (h : ncNameChar c = false ∧ c ≠ ':') : NameFol (g ++ c :: r) :=
  ⟨hg.noName (.cons h.1), head?_ne (hg.ne (by decide) fun d ds e => by cases e; exact h.2)⟩

theorem cname_ok {p l r : Str} (hp : NCName p) (hl : NCName l) (hr : NoName r) : cname (p ++ ':' :: l ++ r) = .ok r (p, l) := by
  unfold cname
  have e : p ++ ':' :: l ++ r = p ++ (':' :: (l ++ r)) := by simp
  rw [e, bind_of_ok (pNcName_ok hp (.cons (by decide))), bind_of_ok (tag_one ':' (l ++ r)), bind_of_ok (pNcName_ok hl hr)]; rfl

theorem pNcName_backslash (r : Str) : pNcName ('\\' :: r) = .err := pNcName_err fun c cs e => by cases e; decide

/-- after an identifier or a keyword comes no `:` -/
theorem AnyIdent.colon {w r : Str} {t : Str} {f : Str → Unit → P β} (h : AnyIdent w) (hr : NameFol r) :
    (do let p ← pNcName; let u ← tag (':' :: t); f p u : P β) (w ++ r) = .err := by
  have plain : ∀ {w : Str}, NCName w → (do let p ← pNcName; let u ← tag (':' :: t); f p u : P β) (w ++ r) = .err := by
    intro w h
    rw [bind_of_ok (pNcName_ok h hr.1)]
    exact bind_of_err (tag_head hr.2)
  cases h with
  | ident h =>
    cases h with
    | plain h _ => exact plain h
    | quoted h => exact bind_of_err (pNcName_backslash _)
  | keyword h => exact plain (Keyword.ncname h)

theorem name_ok {a : SNameClass} {s r : Str} (h : Name a s) (hr : NameFol r) : pName (s ++ r) = .ok r a := by
  unfold pName
  cases h with
  | ident h =>
    have hc : cname (s ++ r) = .err := AnyIdent.colon h hr
    rw [alt_of_err (bind_of_err hc), bind_of_ok (anyIdent_ok h hr.1)]; rfl
  | cname hp hl =>
    apply alt_of_ok
    rw [bind_of_ok (cname_ok hp hl hr.1)]; rfl

theorem pName_err {i : Str} (h : NoId i) : pName i = .err := by
  unfold pName
  have hc : cname i = .err := bind_of_err (pNcName_err fun c cs e => (h c cs e).1)
  rw [alt_of_err (bind_of_err hc)]
  exact bind_of_err (anyIdent_err h)

theorem _root_.Verif.Rnc.Name.head {a : SNameClass} {s : Str} (h : Name a s) : ∃ c cs, s = c :: cs ∧ (ncNameStartChar c = true ∨ c = '\\') := by
  cases h with
  | ident h => exact h.head
  | cname hp _ => obtain ⟨c, cs, rfl, h1, _⟩ := hp; exact ⟨c, _, rfl, .inl ((ncNameStartChar_iff _).mpr h1)⟩

/-- texts that begin like a name -/
def IdHead (s : Str) : Prop := ∃ c cs, s = c :: cs ∧ (ncNameStartChar c = true ∨ c = '\\')

theorem IdHead.append {s : Str} (h : IdHead s) (r : Str) : IdHead (s ++ r) := by
  obtain ⟨c, cs, rfl, h⟩ := h; exact ⟨c, cs ++ r, rfl, h⟩

theorem IdHead.noGap {s : Str} (h : IdHead s) : NoGap s := by
  obtain ⟨c, cs, rfl, h⟩ := h; exact .cons (noGap_idHead h)

theorem IdHead.ne_nil {s : Str} (h : IdHead s) : s ≠ [] := by
  obtain ⟨c, cs, rfl, h⟩ := h; simp

theorem IdHead.head {s : Str} (h : IdHead s) {d : Char} (hd : ncNameStartChar d = false ∧ d ≠ '\\') : s.head? ≠ some d := by
  obtain ⟨c, cs, rfl, h⟩ := h
  intro e
  simp at e; subst e
  rcases h with h | h
  · rw [hd.1] at h; cases h
  · exact hd.2 h

theorem IdHead.notMem {s : Str} (h : IdHead s) {S : List Char} (hS : ∀ d ∈ S, ncNameStartChar d = false ∧ d ≠ '\\') :
    ∀ c cs, s = c :: cs → c ∉ S := by
  rintro c cs rfl hc
  exact h.head (hS c hc) rfl

/-! ### annotations -/

theorem annAttr_ok {u : Unit} {s r : Str} (h : AnnAttr u s) (hr : LitFol r) : annotationAttribute (s ++ r) = .ok r u := by
  cases h with
  | mk hn hg hg' hl =>
    rename_i n s g g' v t
    have e : s ++ g ++ '=' :: g' ++ t ++ r = s ++ (g ++ '=' :: (g' ++ (t ++ r))) := by simp
    unfold annotationAttribute
    rw [e, bind_of_ok (name_ok hn (.char hg (by decide))), bind_of_ok (space0_gap hg (.cons (by decide))),
      bind_of_ok (tag_one '=' _), bind_of_ok (space0_gap hg' (hl.noGap r)), bind_of_ok (literal_ok hl hr)]
    rfl

theorem _root_.Verif.Rnc.AnnAttr.head {u : Unit} {s : Str} (h : AnnAttr u s) : IdHead s := by
  cases h with
  | mk hn _ _ _ => obtain ⟨c, cs, rfl, h⟩ := hn.head; exact ⟨c, _, rfl, h⟩

theorem annAttr_noId {i : Str} (h : NoId i) : annotationAttribute i = .err := bind_of_err (pName_err h)

theorem noId_quote {s r : Str} {v : Str} (h : Literal v s) : NoId (s ++ r) := by
  obtain ⟨q, cs, rfl, hq⟩ := h.head
  exact .cons (by rcases hq with rfl | rfl <;> decide)

variable {strict : Prop}

theorem _root_.Verif.Rnc.AnnElem.head {u : Unit} {s : Str} (h : AnnElem strict u s) : IdHead s := by
  cases h with
  | mk hn _ _ _ _ _ _ _ => obtain ⟨c, cs, rfl, h⟩ := hn.head; exact ⟨c, _, rfl, h⟩

/-- an annotation element is a name, white space and a bracket -/
theorem _root_.Verif.Rnc.AnnElem.split {u : Unit} {s : Str} (h : AnnElem strict u s) (r : Str) :
    ∃ n s' g r', Name n s' ∧ Gap g ∧ s ++ r = s' ++ (g ++ '[' :: r') := by
  cases h with
  | mk hn hg1 hg2 ha hg3 he hg4 hx => exact ⟨_, _, _, _, hn, hg1, by simp only [List.append_assoc, List.cons_append]; rfl⟩

theorem annAttr_elem {u : Unit} {s : Str} (h : AnnElem strict u s) (r : Str) : annotationAttribute (s ++ r) = .err := by
  obtain ⟨n, s', g, r', hn, hg, e⟩ := h.split r
  unfold annotationAttribute
  rw [e, bind_of_ok (name_ok hn (.char hg (by decide))), bind_of_ok (space0_gap hg (.cons (by decide)))]
  exact bind_of_err (tag_head (by simp))

theorem annElem_noId {n : Nat} {i : Str} (h : NoId i) : annotationElement (n + 1) i = .err := by
  unfold annotationElement
  exact bind_of_err (pName_err h)

theorem annAttr_rows : ∀ (a : Unit) (s : Str), AnnAttr a s → s ≠ [] ∧ ∀ r, NoGap (s ++ r) :=
  fun _ _ h => ⟨h.head.ne_nil, fun r => (h.head.append r).noGap⟩

theorem annElem_rows : ∀ (a : Unit) (s : Str), AnnElem strict a s → s ≠ [] ∧ ∀ r, NoGap (s ++ r) :=
  fun _ _ h => ⟨h.head.ne_nil, fun r => (h.head.append r).noGap⟩

theorem noTilde_id {s : Str} (h : IdHead s) : s.head? ≠ some '~' := h.head (by decide)

theorem noTilde_lit {v s : Str} (h : Literal v s) (r : Str) : (s ++ r).head? ≠ some '~' := by
  obtain ⟨q, cs, rfl, hq⟩ := h.head
  rcases hq with rfl | rfl <;> simp

theorem _root_.Verif.Rnc.AnnPart.start {u : Unit} {s : Str} (h : AnnPart strict u s) (r : Str) :
    s ≠ [] ∧ NoGap (s ++ r) ∧ (s ++ r).head? ≠ some '~' ∧ annotationAttribute (s ++ r) = .err := by
  cases h with
  | elem h => exact ⟨h.head.ne_nil, (h.head.append r).noGap, noTilde_id (h.head.append r), annAttr_elem h r⟩
  | literal h =>
    refine ⟨?_, h.noGap r, noTilde_lit h r, annAttr_noId (noId_quote h)⟩
    obtain ⟨q, cs, rfl, hq⟩ := h.head; simp

theorem annPart_rows : ∀ (a : Unit) (s : Str), AnnPart strict a s → s ≠ [] ∧ ∀ r, NoGap (s ++ r) :=
  fun _ _ h => ⟨(h.start []).1, fun r => (h.start r).2.1⟩

theorem sepBy_first {R : α → Str → Prop} {a : α} {as : List α} {t : Str} (h : SepBy R (a :: as) t) : ∃ s t', R a s ∧ t = s ++ t' := by
  cases h with
  | one h => exact ⟨_, [], h, by simp⟩
  | cons h _ _ => exact ⟨_, _, h, by rw [List.append_assoc]⟩

theorem noId_char {c : Char} {r : Str} (h : ncNameStartChar c = false ∧ c ≠ '\\') : NoId (c :: r) := .cons h

theorem annElem_ok : ∀ (n : Nat) (u : Unit) (s r : Str), AnnElem True u s → (s ++ r).length ≤ n → annotationElement n (s ++ r) = .ok r u
  | 0, _, s, r, hs, h => by
    have := List.length_pos_iff.mpr (IdHead.ne_nil hs.head)
    simp only [List.length_append] at h; omega
  | n + 1, u, _, r, h, hL => by
    cases h with
    | mk hn hg1 hg2 ha hg3 he hg4 hx =>
    rename_i nm s g1 g2 as t1 g3 es t2 g4
    have e : s ++ g1 ++ '[' :: g2 ++ t1 ++ g3 ++ t2 ++ g4 ++ [']'] ++ r =
      s ++ (g1 ++ '[' :: (g2 ++ (t1 ++ (g3 ++ (t2 ++ (g4 ++ ']' :: r)))))) := by simp
    rw [e] at hL ⊢
    unfold annotationElement
    rw [bind_of_ok (name_ok hn (.char hg1 (by decide))), bind_of_ok (space0_gap hg1 (.cons (by decide))), bind_of_ok (tag_one '[' _)]
    have hpart : ∀ (a : Unit) (s rest : Str), AnnPart True a s → LitFol rest → (s ++ rest).length < n + 1 →
        alt (annotationElement n) (do let _ ← literal; pure ()) (s ++ rest) = .ok rest a := by
      intro a s rest h hf hl
      cases h with
      | elem h => exact alt_of_ok (annElem_ok n () s rest h (by omega))
      | literal h =>
        cases n with
        | zero => obtain ⟨q, cs, rfl, _⟩ := h.head; simp at hl
        | succ n => rw [alt_of_err (annElem_noId (noId_quote h)), bind_of_ok (literal_ok h hf)]; rfl
    have hnp : n ≠ 0 := by rintro rfl; simp at hL; omega
    have hpend : alt (annotationElement n) (do let _ ← literal; pure ()) (']' :: r) = .err := by
      cases n with
      | zero => exact absurd rfl hnp
      | succ n =>
        rw [alt_of_err (annElem_noId (noId_char (by decide)))]
        exact bind_of_err (literal_err (by constructor <;> simp))
    cases es with
    | nil =>
      cases he
      have e2 : g2 ++ (t1 ++ (g3 ++ ([] ++ (g4 ++ ']' :: r)))) = g2 ++ (t1 ++ ((g3 ++ g4) ++ ']' :: r)) := by simp
      rw [e2]
      refine (block_ok (F := LitFol) (L := (t1 ++ (g3 ++ g4) ++ ']' :: r).length + 1) annAttr_rows (fun a s rest h hf _ => annAttr_ok h hf)
        (fun b s rest g hg h => .sep hg (h.head.append rest).noGap (noTilde_id (h.head.append rest))) hg2 ha (hg3.append hg4) (.cons (by decide))
        (.inr (.char (hg3.append hg4) (by decide))) (annAttr_noId (noId_char (by decide))) (Nat.lt_succ_self _)).trans ?_
      have : sepList0 space1 (alt (annotationElement n) (do let _ ← literal; pure ())) (']' :: r) = .ok (']' :: r) [] := by
        unfold sepList0; rw [hpend]
      rw [bind_of_ok this, bind_of_ok (space0_noGap (.cons (by decide)))]
      exact tag_one _ _
    | cons b es =>
      obtain ⟨s0, t0, hb, rfl⟩ := sepBy_first he
      obtain ⟨h1, h2, h3, h4⟩ := hb.start (t0 ++ (g4 ++ ']' :: r))
      refine (block_ok (F := LitFol) (L := (t1 ++ g3 ++ (s0 ++ t0 ++ (g4 ++ ']' :: r))).length + 1) annAttr_rows
        (fun a s rest h hf _ => annAttr_ok h hf)
        (fun b s rest g hg h => .sep hg (h.head.append rest).noGap (noTilde_id (h.head.append rest))) hg2 ha hg3
        (by rw [List.append_assoc]; exact h2) ?_ (by rw [List.append_assoc]; exact h4) (Nat.lt_succ_self _)).trans ?_
      · refine hx.imp_right fun hx => ?_
        cases g3 with
        | cons c g3 => exact .sep ⟨hg3, by simp⟩ (by rw [List.append_assoc]; exact h2) (by rw [List.append_assoc]; exact h3)
        | nil =>
          rw [List.nil_append, List.append_assoc]
          refine ⟨.start h2 fun c cs e hc => h3 (by rw [e]; simpa using hc), ?_⟩
          cases s0 with
          | nil => exact absurd rfl h1
          | cons q s0 =>
            have := hx trivial rfl q (s0 ++ t0) rfl
            constructor <;> simp [this.1, this.2]
      · have hl : (s0 ++ t0 ++ (g4 ++ ']' :: r)).length < n + 1 := by simp at hL ⊢; omega
        refine (bind_of_ok (sepList0_ok (F := LitFol) annPart_rows hpart
          (fun b s rest g hg h => .sep hg (h.start rest).2.1 (h.start rest).2.2.1) (.inr (.char hg4 (by decide))) (.inr ?_) (fun h => by cases h) he hl)).trans ?_
        · cases g4 with
          | nil => exact .inl (space1_noGap (.cons (by decide)))
          | cons c g4 => exact .inr ⟨']' :: r, space1_sep ⟨hg4, by simp⟩ (.cons (by decide)), hpend⟩
        · rw [bind_of_ok (space0_gap hg4 (.cons (by decide)))]
          exact tag_one _ _

theorem initial_ok {n : Nat} {s r : Str} (h : Initial True s) (hL : (s ++ r).length ≤ n) : initialAnnotation n (s ++ r) = .ok r () := by
  cases h with
  | mk hg1 ha hg2 he hg3 =>
    rename_i g1 as t1 g2 es t2 g3
    have e : '[' :: g1 ++ t1 ++ g2 ++ t2 ++ g3 ++ [']'] ++ r = '[' :: (g1 ++ (t1 ++ (g2 ++ (t2 ++ (g3 ++ ']' :: r))))) := by simp
    rw [e] at hL ⊢
    unfold initialAnnotation
    rw [bind_of_ok (tag_one '[' _)]
    have hpend : annotationElement n (']' :: r) = .err := by
      cases n with
      | zero => simp at hL
      | succ n => exact annElem_noId (noId_char (by decide))
    cases es with
    | nil =>
      cases he
      have e2 : g1 ++ (t1 ++ (g2 ++ ([] ++ (g3 ++ ']' :: r)))) = g1 ++ (t1 ++ ((g2 ++ g3) ++ ']' :: r)) := by simp
      rw [e2]
      refine (block_ok (F := LitFol) (L := (t1 ++ (g2 ++ g3) ++ ']' :: r).length + 1) annAttr_rows (fun a s rest h hf _ => annAttr_ok h hf)
        (fun b s rest g hg h => .sep hg (h.head.append rest).noGap (noTilde_id (h.head.append rest))) hg1 ha (hg2.append hg3) (.cons (by decide))
        (.inr (.char (hg2.append hg3) (by decide))) (annAttr_noId (noId_char (by decide))) (Nat.lt_succ_self _)).trans ?_
      have : sepList0 space1 (annotationElement n) (']' :: r) = .ok (']' :: r) [] := by
        unfold sepList0; rw [hpend]
      rw [bind_of_ok this, bind_of_ok (space0_noGap (.cons (by decide)))]
      exact tag_one _ _
    | cons b es =>
      obtain ⟨s0, t0, hb, rfl⟩ := sepBy_first he
      have hid := (hb.head.append (t0 ++ (g3 ++ ']' :: r)))
      rw [← List.append_assoc] at hid
      refine (block_ok (F := LitFol) (L := (t1 ++ g2 ++ (s0 ++ t0 ++ (g3 ++ ']' :: r))).length + 1) annAttr_rows
        (fun a s rest h hf _ => annAttr_ok h hf)
        (fun b s rest g hg h => .sep hg (h.head.append rest).noGap (noTilde_id (h.head.append rest))) hg1 ha hg2
        hid.noGap (.inr ?_) (by rw [List.append_assoc]; exact annAttr_elem hb _) (Nat.lt_succ_self _)).trans ?_
      · exact .of (S := ['~', '"', '\'']) (Fol.gap (.start hid.noGap (hid.notMem (by decide))) hg2) (by simp) (by simp) (by simp)
      · have hl : (s0 ++ t0 ++ (g3 ++ ']' :: r)).length < n := by simp at hL ⊢; omega
        refine (bind_of_ok (sepList0_ok (F := fun _ => True) annElem_rows (fun a s rest h _ hl => annElem_ok n a s rest h (by omega))
          (fun b s rest g hg h => trivial) (.inr trivial) (.inr ?_) (fun h => by cases h) he hl)).trans ?_
        · cases g3 with
          | nil => exact .inl (space1_noGap (.cons (by decide)))
          | cons c g3 => exact .inr ⟨']' :: r, space1_sep ⟨hg3, by simp⟩ (.cons (by decide)), hpend⟩
        · rw [bind_of_ok (space0_gap hg3 (.cons (by decide)))]
          exact tag_one _ _

theorem init_ok {n : Nat} {i r : Str} (h : Init True i) (hr : NoGap r) (hb : r.head? ≠ some '[') (hL : (i ++ r).length ≤ n) :
    ∃ o, maybeInitialAnnotation n (i ++ r) = .ok r o ∧ (i ≠ [] → o = some ()) := by
  unfold maybeInitialAnnotation
  cases h with
  | none => exact ⟨none, opt_of_err (bind_of_err (bind_of_err (tag_head hb))), fun h => absurd rfl h⟩
  | some hs hg =>
    rw [List.append_assoc] at hL ⊢
    refine ⟨some (), opt_of_ok ?_, fun _ => rfl⟩
    rw [bind_of_ok (initial_ok hs hL)]
    exact space0_gap hg hr

theorem init_none {n : Nat} {r : Str} (hb : r.head? ≠ some '[') : maybeInitialAnnotation n r = .ok r none :=
  opt_of_err (bind_of_err (bind_of_err (tag_head hb)))

theorem follow_err {n : Nat} {r : Str} (h : Fol ['>'] r) : followAnnotation n r = .err := h.tag_err (by simp) _ _

theorem follow_one {n : Nat} {g g' s r : Str} (hg : Gap g) (hg' : Gap g') (hs : AnnElem True () s) (hL : (s ++ r).length < n) :
    followAnnotation n (g ++ '>' :: '>' :: (g' ++ (s ++ r))) = .ok r () := by
  unfold followAnnotation
  rw [bind_of_ok (space0_gap hg (.cons (by decide))), bind_of_ok (tag_two '>' '>' _), bind_of_ok (space0_gap hg' (hs.head.append r).noGap)]
  exact annElem_ok n () s r hs (by omega)

theorem follow_loop {n : Nat} {f r : Str} (h : Follow True f) (hr : Fol ['>'] r) (hL : (f ++ r).length ≤ n) :
    ∃ fs, ∀ m, (f ++ r).length < m → sepLoop space0 (followAnnotation n) m (f ++ r) = .ok r fs := by
  induction h with
  | nil =>
    refine ⟨[], fun m hm => ?_⟩
    cases m with
    | zero => omega
    | succ m =>
      obtain ⟨r', h1, h2, h3⟩ := hr.space0
      rw [List.nil_append]
      unfold sepLoop
      rw [h1]
      dsimp only
      rw [follow_err (.start h2 h3)]
  | cons hg hg' hs ht ih =>
    rename_i g g' s t
    have e : g ++ '>' :: '>' :: g' ++ s ++ t ++ r = g ++ '>' :: '>' :: (g' ++ (s ++ (t ++ r))) := by simp
    rw [e] at hL ⊢
    obtain ⟨fs, h⟩ := ih (by simp at hL ⊢; omega)
    refine ⟨() :: fs, fun m hm => ?_⟩
    cases m with
    | zero => omega
    | succ m =>
      unfold sepLoop
      rw [space0_gap hg (.cons (by decide))]
      dsimp only
      have := follow_one (g := []) (r := t ++ r) (n := n) .nil hg' hs (by simp at hL ⊢; omega)
      rw [List.nil_append] at this
      rw [this]
      dsimp only
      rw [if_neg (by simp; omega), h m (by simp at hm ⊢; omega)]

theorem follow_ok {n : Nat} {f r : Str} (h : Follow True f) (hr : Fol ['>'] r) (hL : (f ++ r).length ≤ n) :
    ∃ fs, followAnnotationList n (f ++ r) = .ok r fs ∧ (f = [] → fs = []) := by
  unfold followAnnotationList sepList0
  cases h with
  | nil =>
    refine ⟨[], ?_, fun _ => rfl⟩
    rw [List.nil_append, follow_err hr]
  | cons hg hg' hs ht =>
    rename_i g g' s t
    have e : g ++ '>' :: '>' :: g' ++ s ++ t ++ r = g ++ '>' :: '>' :: (g' ++ (s ++ (t ++ r))) := by simp
    rw [e] at hL ⊢
    rw [follow_one hg hg' hs (by simp at hL ⊢; omega)]
    dsimp only
    obtain ⟨fs, h⟩ := follow_loop ht hr (n := n) (by simp at hL ⊢; omega)
    refine ⟨() :: fs, ?_, fun h => absurd h (by simp)⟩
    rw [h _ (Nat.lt_succ_self _)]

theorem follow_nil {n : Nat} {r : Str} (hr : Fol ['>'] r) : followAnnotationList n r = .ok r [] := by
  unfold followAnnotationList sepList0
  rw [follow_err hr]

/-- what follows a thing with annotations -/
theorem _root_.Verif.Rnc.Follow.first {f : Str} (h : Follow strict f) : f = [] ∨ ∃ g r', Gap g ∧ f = g ++ '>' :: r' := by
  cases h with
  | nil => exact .inl rfl
  | cons hg _ _ _ => exact .inr ⟨_, _, hg, by simp only [List.append_assoc, List.cons_append]; rfl⟩

/-! ### name classes -/

/-- what may follow a name class -/
def NcFol (r : Str) : Prop := NameFol r ∧ Fol ['|', '>', '-'] r

/-- what may follow a name class without alternatives and annotations -/
def NbFol (r : Str) : Prop := NameFol r ∧ Fol ['-'] r

theorem NcFol.char {g r : Str} {c : Char} (hg : Gap g) (h : (ncNameChar c = false ∧ c ≠ ':') ∧ (isMultispace c = false ∧ c ≠ '#') ∧ c ∉ ['|', '>', '-']) :
    NcFol (g ++ c :: r) := ⟨.char hg h.1, Fol.gap (.cons h.2.1 h.2.2) hg⟩

theorem NbFol.char {g r : Str} {c : Char} (hg : Gap g) (h : (ncNameChar c = false ∧ c ≠ ':') ∧ (isMultispace c = false ∧ c ≠ '#') ∧ c ≠ '-') :
    NbFol (g ++ c :: r) := ⟨.char hg h.1, Fol.gap (.cons h.2.1 (by simpa using h.2.2)) hg⟩

theorem NcFol.nb {r : Str} (h : NcFol r) : NbFol r := ⟨h.1, h.2.mono (by simp)⟩

theorem _root_.Verif.Rnc.Follow.nb {f r : Str} (h : Follow strict f) (hr : NbFol r) : NbFol (f ++ r) := by
  rcases h.first with rfl | ⟨g, r', hg, rfl⟩
  · exact hr
  · rw [List.append_assoc, List.cons_append]; exact .char hg (by decide)

theorem except_none {nc : P SNameClass} {r : Str} (h : Fol ['-'] r) : exceptNc nc r = .ok r none :=
  opt_of_err (h.tag_err (by simp) _ _)

theorem nsNameNc_head {nc : P SNameClass} {i : Str} (h : ∀ c cs, i = c :: cs → ncNameStartChar c = false) : nsNameNc nc i = .err :=
  bind_of_err (pNcName_err h)

theorem nsNameNc_ident {nc : P SNameClass} {w r : Str} (h : AnyIdent w) (hr : NameFol r) : nsNameNc nc (w ++ r) = .err :=
  AnyIdent.colon h hr

theorem nsNameNc_cname {nc : P SNameClass} {p l r : Str} (hp : NCName p) (hl : NCName l) : nsNameNc nc (p ++ ':' :: l ++ r) = .err := by
  have e : p ++ ':' :: l ++ r = p ++ (':' :: (l ++ r)) := by simp
  unfold nsNameNc
  rw [e, bind_of_ok (pNcName_ok hp (.cons (by decide)))]
  refine bind_of_err (tag_err ?_)
  obtain ⟨c, cs, rfl, h1, _⟩ := hl
  intro ⟨t, ht⟩
  simp at ht
  exact nameStart_ne h1 (d := '*') (by decide) ht.1.symm

theorem nsNameNc_some {nc : P SNameClass} {p r r' : Str} {o : Option SNameClass} (hp : NCName p) (ho : exceptNc nc r = .ok r' o) :
    nsNameNc nc (p ++ (':' :: '*' :: r)) = match o with
      | none => .ok r' (.nsName (.pre p))
      | some e => .ok r' (.nsNameExcept (.pre p) e) := by
  unfold nsNameNc
  rw [bind_of_ok (pNcName_ok hp (.cons (by decide))), bind_of_ok (tag_two ':' '*' _), bind_of_ok ho]
  cases o <;> rfl

theorem anyNameNc_some {nc : P SNameClass} {r r' : Str} {o : Option SNameClass} (ho : exceptNc nc r = .ok r' o) :
    anyNameNc nc ('*' :: r) = match o with
      | none => .ok r' .anyName
      | some e => .ok r' (.anyNameExcept e) := by
  unfold anyNameNc
  rw [bind_of_ok (tag_one '*' _), bind_of_ok ho]
  cases o <;> rfl

/-- the alternatives of a name class -/
def ncBase (nc : P SNameClass) : P SNameClass := alt (nsNameNc nc) (alt pName (alt (anyNameNc nc) (parenNc nc)))

theorem ncBase_star {nc : P SNameClass} (r : Str) : ncBase nc ('*' :: r) = alt (anyNameNc nc) (parenNc nc) ('*' :: r) := by
  unfold ncBase
  rw [alt_of_err (nsNameNc_head fun c cs e => by cases e; decide), alt_of_err (pName_err (noId_char (by decide)))]

theorem ncBase_paren {nc : P SNameClass} (r : Str) : ncBase nc ('(' :: r) = parenNc nc ('(' :: r) := by
  unfold ncBase
  rw [alt_of_err (nsNameNc_head fun c cs e => by cases e; decide), alt_of_err (pName_err (noId_char (by decide))),
    alt_of_err (show anyNameNc nc ('(' :: r) = .err from bind_of_err (tag_head (by simp)))]

/-- name class texts begin with a name, `*` or `(` -/
def NcHead (s : Str) : Prop := ∃ c cs, s = c :: cs ∧ (ncNameStartChar c = true ∨ c = '\\' ∨ c = '*' ∨ c = '(')

theorem NcHead.append {s : Str} (h : NcHead s) (r : Str) : NcHead (s ++ r) := by
  obtain ⟨c, cs, rfl, h⟩ := h; exact ⟨c, cs ++ r, rfl, h⟩

theorem NcHead.noGap {s : Str} (h : NcHead s) : NoGap s := by
  obtain ⟨c, cs, rfl, h⟩ := h
  refine .cons ?_
  rcases h with h | rfl | rfl | rfl
  · exact noGap_idHead (.inl h)
  all_goals decide

theorem NcHead.bracket {s : Str} (h : NcHead s) : s.head? ≠ some '[' := by
  obtain ⟨c, cs, rfl, h⟩ := h
  intro e; simp at e; subst e
  revert h; decide

theorem _root_.Verif.Rnc.NcBase.head {a : SNameClass} {s : Str} (h : NcBase strict a s) : NcHead s := by
  cases h with
  | name h => obtain ⟨c, cs, e, hc⟩ := h.head; exact ⟨c, cs, e, by rcases hc with hc | hc <;> simp [hc]⟩
  | anyName => exact ⟨_, _, rfl, by simp⟩
  | nsName hp => obtain ⟨c, cs, rfl, h1, _⟩ := hp; exact ⟨c, _, rfl, .inl ((ncNameStartChar_iff _).mpr h1)⟩
  | paren _ _ _ => exact ⟨_, _, rfl, by simp⟩

theorem _root_.Verif.Rnc.Init.first {i : Str} (h : Init strict i) : i = [] ∨ ∃ cs, i = '[' :: cs := by
  cases h with
  | none => exact .inl rfl
  | some h _ => cases h with | mk => exact .inr ⟨_, rfl⟩

theorem _root_.Verif.Rnc.Init.noGap {i r : Str} (h : Init strict i) (hr : NoGap r) : NoGap (i ++ r) := by
  rcases h.first with rfl | ⟨cs, rfl⟩
  · exact hr
  · exact .cons (by decide)

theorem ncHead_ncname {p : Str} (hp : NCName p) : NcHead p := by
  obtain ⟨c, cs, rfl, h1, _⟩ := hp; exact ⟨c, _, rfl, .inl ((ncNameStartChar_iff _).mpr h1)⟩

theorem _root_.Verif.Rnc.Nc.noGap {a : SNameClass} {s : Str} (h : Nc strict a s) (r : Str) : NoGap (s ++ r) := by
  cases h with
  | base hi hb _ _ => simp only [List.append_assoc]; exact hi.noGap (hb.head.append _).noGap
  | alt hi hb _ _ _ _ _ => simp only [List.append_assoc]; exact hi.noGap (hb.head.append _).noGap
  | anyExcept hi _ _ _ => simp only [List.append_assoc, List.cons_append]; exact hi.noGap (.cons (by decide))
  | nsExcept hi hp _ _ _ => simp only [List.append_assoc, List.cons_append]; exact hi.noGap ((ncHead_ncname hp).append _).noGap

theorem nameClass_succ (n : Nat) : nameClass (n + 1) = (do
    let initial ← maybeInitialAnnotation n
    let left ← ncBase (nameClass n)
    let follow ← followAnnotationList n
    checkFollow initial follow
    altTail (nameClass n) left : P SNameClass) := by
  funext i; unfold nameClass; rfl

theorem altTail_none {nc : P SNameClass} {a : SNameClass} {r : Str} (h : Fol ['|'] r) : altTail nc a r = .ok r a := by
  unfold altTail altNc
  rw [h.tag_err (by simp)]

theorem altTail_some {nc : P SNameClass} {a b : SNameClass} {g g' r r' : Str} (hg : Gap g) (hg' : Gap g') (hr : NoGap r) (h : nc r = .ok r' b) :
    altTail nc a (g ++ '|' :: (g' ++ r)) = .ok r' (.alt a b) := by
  unfold altTail altNc
  rw [bind_of_ok (space0_gap hg (.cons (by decide))), bind_of_ok (tag_one '|' _), bind_of_ok (space0_gap hg' hr), h]

theorem check_ok {o : Option Unit} {fs : List Unit} {i f r : Str} (h : i ≠ [] ∨ f = []) (ho : i ≠ [] → o = some ()) (hf : f = [] → fs = []) :
    checkFollow o fs r = .ok r () := by
  unfold checkFollow
  rcases h with h | h
  · rw [ho h]; split <;> rfl
  · rw [hf h]; rfl

theorem nameClass_ok : ∀ (n : Nat),
    (∀ (a : SNameClass) (s r : Str), Nc True a s → NcFol r → (s ++ r).length < n → nameClass n (s ++ r) = .ok r a) ∧
    (∀ (a : SNameClass) (s r : Str), NcBase True a s → NbFol r → (s ++ r).length ≤ n → ncBase (nameClass n) (s ++ r) = .ok r a)
  | 0 => by
    refine ⟨fun _ _ _ _ _ h => absurd h (Nat.not_lt_zero _), fun a s r hb _ h => ?_⟩
    obtain ⟨c, cs, rfl, _⟩ := hb.head; simp at h
  | n + 1 => by
    obtain ⟨ihN, ihB⟩ := nameClass_ok n
    have hN : ∀ (a : SNameClass) (s r : Str), Nc True a s → NcFol r → (s ++ r).length < n + 1 → nameClass (n + 1) (s ++ r) = .ok r a := by
      intro a s r h hr hL
      rw [nameClass_succ]
      cases h with
      | base hi hb hf hc =>
        rename_i i s f
        have e : i ++ s ++ f ++ r = i ++ (s ++ (f ++ r)) := by simp
        rw [e] at hL ⊢
        obtain ⟨o, h1, h2⟩ := init_ok (r := s ++ (f ++ r)) hi (hb.head.append _).noGap (hb.head.append _).bracket (n := n) (by omega)
        obtain ⟨fs, h3, h4⟩ := follow_ok hf (hr.2.mono (by simp)) (n := n) (by simp at hL ⊢; omega)
        rw [bind_of_ok h1, bind_of_ok (ihB _ _ _ hb (hf.nb hr.nb) (by simp at hL ⊢; omega)), bind_of_ok h3, bind_of_ok (check_ok hc h2 h4)]
        exact altTail_none (hr.2.mono (by simp))
      | alt hi hb hf hc hg hg' ht =>
        rename_i i a s f g g' b t
        have e : i ++ s ++ f ++ g ++ '|' :: g' ++ t ++ r = i ++ (s ++ (f ++ (g ++ '|' :: (g' ++ (t ++ r))))) := by simp
        rw [e] at hL ⊢
        obtain ⟨o, h1, h2⟩ := init_ok (r := s ++ (f ++ (g ++ '|' :: (g' ++ (t ++ r))))) hi (hb.head.append _).noGap (hb.head.append _).bracket (n := n) (by omega)
        obtain ⟨fs, h3, h4⟩ := follow_ok hf (r := g ++ '|' :: (g' ++ (t ++ r))) (Fol.gap (.cons (by decide) (by decide)) hg) (n := n)
          (by simp at hL ⊢; omega)
        rw [bind_of_ok h1, bind_of_ok (ihB _ _ _ hb (hf.nb (.char hg (by decide))) (by simp at hL ⊢; omega)), bind_of_ok h3,
          bind_of_ok (check_ok hc h2 h4)]
        exact altTail_some hg hg' (ht.noGap r) (ihN _ _ _ ht hr (by simp at hL ⊢; omega))
      | anyExcept hi hg hg' ht =>
        rename_i i g g' b t
        have e : i ++ '*' :: g ++ '-' :: g' ++ t ++ r = i ++ ('*' :: (g ++ '-' :: (g' ++ (t ++ r)))) := by simp
        rw [e] at hL ⊢
        obtain ⟨o, h1, h2⟩ := init_ok (r := '*' :: (g ++ '-' :: (g' ++ (t ++ r)))) hi (.cons (by decide)) (by simp) (n := n) (by omega)
        have hx : exceptNc (nameClass n) (g ++ '-' :: (g' ++ (t ++ r))) = .ok r (some b) := by
          refine opt_of_ok ?_
          rw [bind_of_ok (space0_gap hg (.cons (by decide))), bind_of_ok (tag_one '-' _), bind_of_ok (space0_gap hg' (ht.noGap r))]
          exact ihN _ _ _ ht hr (by simp at hL ⊢; omega)
        have hb : ncBase (nameClass n) ('*' :: (g ++ '-' :: (g' ++ (t ++ r)))) = .ok r (.anyNameExcept b) := by
          rw [ncBase_star, alt_of_ok (anyNameNc_some hx)]
        rw [bind_of_ok h1, bind_of_ok hb, bind_of_ok (follow_nil (hr.2.mono (by simp))), bind_of_ok (check_ok (f := []) (.inr rfl) h2 fun _ => rfl)]
        exact altTail_none (hr.2.mono (by simp))
      | nsExcept hi hp hg hg' ht =>
        rename_i i p g g' b t
        have e : i ++ p ++ ':' :: '*' :: g ++ '-' :: g' ++ t ++ r = i ++ (p ++ (':' :: '*' :: (g ++ '-' :: (g' ++ (t ++ r))))) := by simp
        rw [e] at hL ⊢
        obtain ⟨o, h1, h2⟩ := init_ok (r := p ++ (':' :: '*' :: (g ++ '-' :: (g' ++ (t ++ r))))) hi ((ncHead_ncname hp).append _).noGap
          ((ncHead_ncname hp).append _).bracket (n := n) (by omega)
        have hx : exceptNc (nameClass n) (g ++ '-' :: (g' ++ (t ++ r))) = .ok r (some b) := by
          refine opt_of_ok ?_
          rw [bind_of_ok (space0_gap hg (.cons (by decide))), bind_of_ok (tag_one '-' _), bind_of_ok (space0_gap hg' (ht.noGap r))]
          exact ihN _ _ _ ht hr (by simp at hL ⊢; omega)
        have hb : ncBase (nameClass n) (p ++ (':' :: '*' :: (g ++ '-' :: (g' ++ (t ++ r))))) = .ok r (.nsNameExcept (.pre p) b) := by
          unfold ncBase
          rw [alt_of_ok (nsNameNc_some hp hx)]
        rw [bind_of_ok h1, bind_of_ok hb, bind_of_ok (follow_nil (hr.2.mono (by simp))), bind_of_ok (check_ok (f := []) (.inr rfl) h2 fun _ => rfl)]
        exact altTail_none (hr.2.mono (by simp))
    refine ⟨hN, fun a s r hb hr hL => ?_⟩
    cases hb with
    | name h =>
      unfold ncBase
      cases h with
      | ident h => rw [alt_of_err (nsNameNc_ident h hr.1), alt_of_ok (name_ok (.ident h) hr.1)]
      | cname hp hl => rw [alt_of_err (nsNameNc_cname hp hl), alt_of_ok (name_ok (.cname hp hl) hr.1)]
    | anyName =>
      show ncBase _ ('*' :: r) = _
      rw [ncBase_star, alt_of_ok (anyNameNc_some (except_none hr.2))]
    | nsName hp =>
      rename_i p
      rw [show p ++ [':', '*'] ++ r = p ++ (':' :: '*' :: r) by simp]
      unfold ncBase
      rw [alt_of_ok (nsNameNc_some hp (except_none hr.2))]
    | paren hg hs hg' =>
      rename_i g a s g'
      have e : '(' :: g ++ s ++ g' ++ [')'] ++ r = '(' :: (g ++ (s ++ (g' ++ ')' :: r))) := by simp
      rw [e] at hL ⊢
      rw [ncBase_paren]
      unfold parenNc
      rw [bind_of_ok (tag_one '(' _), bind_of_ok (space0_gap hg (hs.noGap _)),
        bind_of_ok (hN _ _ _ hs (.char hg' (by decide)) (by simp at hL ⊢; omega)), bind_of_ok (space0_gap hg' (.cons (by decide))),
        bind_of_ok (tag_one ')' _)]
      rfl

end Verif.Compact
