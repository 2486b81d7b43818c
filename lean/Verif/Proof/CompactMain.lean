import Verif.Proof.CompactPrim
/-
The compact syntax: operators, grammars, schemas.
-/
namespace Verif.Compact
open Verif P Rnc
variable {α β : Type}

/-! ### operators -/

theorem operators_done {pat : P SPattern} {m : Nat} {p : SPattern} {r : Str} (h : Fol [',', '&', '|', '?', '*', '+'] r) :
    operators pat (m + 1) p r = .ok r p := by
  obtain ⟨r', h1, h2, h3⟩ := h.space0
  unfold operators
  rw [h1]
  cases r' with
  | nil => rfl
  | cons c cs =>
    have hc := h3 c cs rfl
    simp only [List.mem_cons, List.not_mem_nil, or_false, not_or] at hc
    split <;> (rename_i e; first | rfl | (cases e; simp at hc) | (exact absurd e (by simp)))

theorem operators_binary {n m : Nat} {pat : P SPattern} {item : P SItem} (hs : Subs n pat item) {q : SPattern} {b : Bool} {g' t r : Str}
    (f : SPattern → SPattern) (hg' : Gap g') (hq : Rnc.Pat True q b t) (hr : PatFol b r) (hL : (t ++ r).length < n) (hm : m ≠ 0) :
    (do space0; let right ← pat; operators pat m (f right) : P SPattern) (g' ++ (t ++ r)) = .ok r (f q) := by
  rw [bind_of_ok (space0_gap hg' (hq.noGap r)), bind_of_ok (hs.hpat _ _ _ _ hq hr hL)]
  cases m with
  | zero => exact absurd rfl hm
  | succ m => exact operators_done hr.ops

theorem operators_ok {n : Nat} {pat : P SPattern} {item : P SItem} (hs : Subs n pat item) :
    ∀ (m : Nat) {p q : SPattern} {a b : Bool} {t r : Str}, Tail True p a q b t → PatFol b r → (t ++ r).length ≤ n → (t ++ r).length < m →
      operators pat m p (t ++ r) = .ok r q
  | 0, _, _, _, _, _, _, _, _, _, h => absurd h (Nat.not_lt_zero _)
  | m + 1, p, q, a, b, t, r, h, hr, hL, hm => by
    have post : ∀ {g t' : Str}, Gap g → t = g ++ t' → (g ++ t' ++ r).length = (t ++ r).length := fun _ e => by rw [e]
    cases h with
    | done => exact operators_done hr.ops
    | «optional» hg ht =>
      rename_i g t
      rw [List.append_assoc, List.cons_append] at hL hm ⊢
      unfold operators
      rw [space0_gap hg (.cons (by decide))]
      exact operators_ok hs m ht hr (by simp at hL ⊢; omega) (by simp at hm ⊢; omega)
    | zeroOrMore hg ht =>
      rename_i g t
      rw [List.append_assoc, List.cons_append] at hL hm ⊢
      unfold operators
      rw [space0_gap hg (.cons (by decide))]
      exact operators_ok hs m ht hr (by simp at hL ⊢; omega) (by simp at hm ⊢; omega)
    | oneOrMore hg ht =>
      rename_i g t
      rw [List.append_assoc, List.cons_append] at hL hm ⊢
      unfold operators
      rw [space0_gap hg (.cons (by decide))]
      exact operators_ok hs m ht hr (by simp at hL ⊢; omega) (by simp at hm ⊢; omega)
    | seq hg hg' hq =>
      rename_i g g' q t
      have e : g ++ ',' :: g' ++ t ++ r = g ++ ',' :: (g' ++ (t ++ r)) := by simp
      rw [e] at hL hm ⊢
      unfold operators
      rw [space0_gap hg (.cons (by decide))]
      exact operators_binary hs (.seq p) hg' hq hr (by simp at hL ⊢; omega) (by rintro rfl; simp at hm)
    | inter hg hg' hq =>
      rename_i g g' q t
      have e : g ++ '&' :: g' ++ t ++ r = g ++ '&' :: (g' ++ (t ++ r)) := by simp
      rw [e] at hL hm ⊢
      unfold operators
      rw [space0_gap hg (.cons (by decide))]
      exact operators_binary hs (.inter p) hg' hq hr (by simp at hL ⊢; omega) (by rintro rfl; simp at hm)
    | choice hg hg' hq =>
      rename_i g g' q t
      have e : g ++ '|' :: g' ++ t ++ r = g ++ '|' :: (g' ++ (t ++ r)) := by simp
      rw [e] at hL hm ⊢
      unfold operators
      rw [space0_gap hg (.cons (by decide))]
      exact operators_binary hs (.choice p) hg' hq hr (by simp at hL ⊢; omega) (by rintro rfl; simp at hm)

section
variable {strict : Prop}

theorem _root_.Verif.Rnc.Tail.first {p q : SPattern} {a b : Bool} {t : Str} (h : Tail strict p a q b t) :
    (t = [] ∧ a = b) ∨ ∃ g c cs, Gap g ∧ t = g ++ c :: cs ∧ c ∈ [',', '&', '|', '?', '*', '+'] := by
  cases h with
  | done => exact .inl ⟨rfl, rfl⟩
  | «optional» hg _ => exact .inr ⟨_, _, _, hg, rfl, by decide⟩
  | zeroOrMore hg _ => exact .inr ⟨_, _, _, hg, rfl, by decide⟩
  | oneOrMore hg _ => exact .inr ⟨_, _, _, hg, rfl, by decide⟩
  | seq hg _ _ => exact .inr ⟨_, _, _, hg, by simp only [List.append_assoc, List.cons_append]; rfl, by decide⟩
  | inter hg _ _ => exact .inr ⟨_, _, _, hg, by simp only [List.append_assoc, List.cons_append]; rfl, by decide⟩
  | choice hg _ _ => exact .inr ⟨_, _, _, hg, by simp only [List.append_assoc, List.cons_append]; rfl, by decide⟩

theorem _root_.Verif.Rnc.Tail.fol {p q : SPattern} {b : Bool} {t r : Str} (h : Tail strict p false q b t) (hr : PatFol b r) :
    PrimFol (t ++ r) ∧ Fol ['>'] (t ++ r) := by
  rcases h.first with ⟨rfl, rfl⟩ | ⟨g, c, cs, hg, rfl, hc⟩
  · exact ⟨hr.prim, hr.follow rfl⟩
  · rw [List.append_assoc, List.cons_append]
    simp only [List.mem_cons, List.not_mem_nil, or_false] at hc
    rcases hc with rfl | rfl | rfl | rfl | rfl | rfl <;>
      exact ⟨.char hg (by decide), Fol.gap (.cons (by decide) (by decide)) hg⟩

theorem _root_.Verif.Rnc.Follow.prim {f r : Str} (h : Follow strict f) (hr : PrimFol r) : PrimFol (f ++ r) := by
  rcases h.first with rfl | ⟨g, cs, hg, rfl⟩
  · exact hr
  · rw [List.append_assoc, List.cons_append]; exact .char hg (by decide)

theorem _root_.Verif.Rnc.Follow.pat {f r : Str} (h : Follow strict f) (hf : f ≠ []) : PatFol true (f ++ r) := by
  rcases h.first with rfl | ⟨g, cs, hg, rfl⟩
  · exact absurd rfl hf
  · rw [List.append_assoc, List.cons_append]; exact ⟨.char hg (by decide), Fol.gap (.cons (by decide) (by decide)) hg, nofun⟩
end

theorem dash_ok {n : Nat} {pat : P SPattern} {item : P SItem} (hs : Subs n pat item) {g g' t r : Str} {e : SPattern} {c : Bool} (hg : Gap g) (hg' : Gap g')
    (he : Rnc.Pat True e c t) (hr : PatFol c r) (hL : (t ++ r).length < n) :
    opt (do space0; tag ['-']; space0; pat) (g ++ '-' :: (g' ++ (t ++ r))) = .ok r (some e) := by
  apply opt_of_ok
  rw [bind_of_ok (space0_gap hg (.cons (by decide))), bind_of_ok (tag_one '-' _), bind_of_ok (space0_gap hg' (he.noGap r))]
  exact hs.hpat _ _ _ _ he hr hL

theorem dash_noName {strict : Prop} {ps : List Param} {u g r : Str} (h : Pars strict ps u) (hg : Gap g) (hne : u ++ g ≠ []) : NoName (u ++ (g ++ r)) := by
  rcases h.first with rfl | ⟨g', cs, hg', rfl⟩
  · exact (NameFol.sep ⟨hg, by simpa using hne⟩).1
  · rw [List.append_assoc, List.cons_append]
    exact (NameFol.char hg' (by decide)).1

theorem pattern_succ (n : Nat) : pattern (n + 1) = (do
    let _ ← maybeInitialAnnotation n
    let p ← primary n (pattern n) (grammarContent n)
    let _ ← followAnnotationList n
    operators (pattern n) (n + 1) p : P SPattern) := by
  funext i; rw [pattern]

theorem pattern_step {n : Nat} (hs : Subs n (pattern n) (grammarContent n)) {p : SPattern} {b : Bool} {s r : Str} (h : Rnc.Pat True p b s) (hr : PatFol b r)
    (hL : (s ++ r).length < n + 1) : pattern (n + 1) (s ++ r) = .ok r p := by
  rw [pattern_succ]
  cases h with
  | mk hi hp hf ht =>
    rename_i i p s f t
    have e : i ++ s ++ f ++ t ++ r = i ++ (s ++ (f ++ (t ++ r))) := by simp
    rw [e] at hL ⊢
    obtain ⟨o, h1, _⟩ := init_ok (r := s ++ (f ++ (t ++ r))) hi (hp.head.append _).noGap (hp.head.append _).bracket (n := n) (by omega)
    obtain ⟨fs, h3, _⟩ := follow_ok hf (ht.fol hr).2 (n := n) (by simp at hL ⊢; omega)
    rw [bind_of_ok h1, bind_of_ok (prim_ok hs hp (hf.prim (ht.fol hr).1) (by simp at hL ⊢; omega)), bind_of_ok h3]
    exact operators_ok hs _ ht hr (by simp at hL ⊢; omega) (by simp at hL ⊢; omega)
  | dataExcept hi hd hp hg hg' hx he =>
    rename_i i d s ps u g g' e c t
    have e' : i ++ s ++ u ++ g ++ '-' :: g' ++ t ++ r = i ++ (s ++ (u ++ (g ++ '-' :: (g' ++ (t ++ r))))) := by simp
    rw [e'] at hL ⊢
    obtain ⟨o, h1, _⟩ := init_ok (r := s ++ (u ++ (g ++ '-' :: (g' ++ (t ++ r))))) hi (hd.patHead.append _).noGap (hd.patHead.append _).bracket (n := n) (by omega)
    have := data_ok (n := n) (pat := pattern n) (item := grammarContent n) (o := some e) hd hp (fun _ _ _ => dash_noName hp hg fun e => (hx e).1 trivial) (Fol.gap (.cons (by decide) (by decide)) hg)
      (by simp at hL ⊢; omega) (dash_ok hs hg hg' he hr.of (by simp at hL ⊢; omega))
    rw [bind_of_ok h1, bind_of_ok this, bind_of_ok (follow_nil (hr.follow rfl))]
    exact operators_done hr.ops
  | dataExceptFollowed hi hd hp hg hg' hx he hf hne hv =>
    rename_i i d s ps u g g' e t f v
    have e' : i ++ s ++ u ++ g ++ '-' :: g' ++ t ++ f ++ v ++ r = i ++ (s ++ (u ++ (g ++ '-' :: (g' ++ (t ++ (f ++ (v ++ r))))))) := by simp
    rw [e'] at hL ⊢
    obtain ⟨o, h1, _⟩ := init_ok (r := s ++ (u ++ (g ++ '-' :: (g' ++ (t ++ (f ++ (v ++ r))))))) hi (hd.patHead.append _).noGap (hd.patHead.append _).bracket (n := n) (by omega)
    have := data_ok (n := n) (pat := pattern n) (item := grammarContent n) (o := some e) hd hp (fun _ _ _ => dash_noName hp hg fun e => (hx e).1 trivial) (Fol.gap (.cons (by decide) (by decide)) hg)
      (by simp at hL ⊢; omega) (dash_ok hs hg hg' he (hf.pat (r := v ++ r) hne) (by simp at hL ⊢; omega))
    obtain ⟨fs, h3, _⟩ := follow_ok hf (hv.fol hr).2 (n := n) (by simp at hL ⊢; omega)
    rw [bind_of_ok h1, bind_of_ok this, bind_of_ok h3]
    exact operators_ok hs _ hv hr (by simp at hL ⊢; omega) (by simp at hL ⊢; omega)

/-! ### grammar entries -/

theorem startRule_ok {n : Nat} {pat : P SPattern} {item : P SItem} (hs : Subs n pat item) {g u g' s r : Str} {a : AssignMethod} {p : SPattern} {b : Bool}
    (hg : Gap g) (ha : Assign a u) (hg' : Gap g') (hp : Rnc.Pat True p b s) (hr : PatFol b r) (hL : (s ++ r).length < n) :
    startRule pat ("start".toList ++ (g ++ (u ++ (g' ++ (s ++ r))))) = .ok r ("start".toList, a, p) := by
  obtain ⟨c, cs, rfl, hc⟩ := ha.head
  unfold startRule
  rw [bind_of_ok (tag_append _ _), bind_of_ok (space0_gap hg (r := (c :: cs) ++ (g' ++ (s ++ r))) (NoGap.cons (by
      simp only [List.mem_cons, List.not_mem_nil, or_false] at hc
      rcases hc with rfl | rfl | rfl <;> decide))), bind_of_ok (assign_ok ha _), bind_of_ok (space0_gap hg' (hp.noGap r)),
    bind_of_ok (cut_of_ok (hs.hpat _ _ _ _ hp hr hL))]
  rfl

theorem define_ok {n : Nat} {pat : P SPattern} {item : P SItem} (hs : Subs n pat item) {id g u g' s r : Str} {a : AssignMethod} {p : SPattern} {b : Bool}
    (hi : Ident id) (hg : Gap g) (ha : Assign a u) (hg' : Gap g') (hp : Rnc.Pat True p b s) (hr : PatFol b r) (hL : (s ++ r).length < n) :
    defineItem pat (id ++ (g ++ (u ++ (g' ++ (s ++ r))))) = .ok r (id, a, p) := by
  have hn := (assign_noName (r := g' ++ (s ++ r)) hg ha).1
  obtain ⟨c, cs, rfl, hc⟩ := ha.head
  unfold defineItem
  rw [bind_of_ok (identifier_ok hi hn), bind_of_ok (space0_gap hg (r := (c :: cs) ++ (g' ++ (s ++ r))) (NoGap.cons (by
      simp only [List.mem_cons, List.not_mem_nil, or_false] at hc
      rcases hc with rfl | rfl | rfl <;> decide))), bind_of_ok (assign_ok ha _), bind_of_ok (space0_gap hg' (hp.noGap r)),
    bind_of_ok (cut_of_ok (hs.hpat _ _ _ _ hp hr hL))]
  rfl

theorem define_keyword {pat : P SPattern} {k r : Str} (hk : Keyword k) (hr : NoName r) : defineItem pat (k ++ r) = .err :=
  bind_of_err (identifier_keyword hk hr)

theorem ident_notStart {pat : P SPattern} {s r : Str} (h : Ident s) (hr : NoName r) : startRule pat (s ++ r) = .err := by
  cases h with
  | plain h hk => exact NotKw.start (.word (by decide) h.word hr fun e => absurd (e ▸ (by decide : Keyword "start".toList)) hk)
  | quoted _ => exact bind_of_err (tag_head (c := 's') (by simp))

/-- what an annotation element is not -/
theorem elem_not {strict : Prop} {u : Unit} {s : Str} (h : AnnElem strict u s) (r : Str) {n : Nat} {pat : P SPattern} {item : P SItem} :
    startRule pat (s ++ r) = .err ∧ defineItem pat (s ++ r) = .err ∧ divItem item (s ++ r) = .err ∧ includeItem n pat (s ++ r) = .err ∧ decl (s ++ r) = .err ∧
      ∀ f : P SOverride, (do tag "div".toList; space0; tag ['{']; f : P SOverride) (s ++ r) = .err := by
  obtain ⟨nm, s', g, r', hn, hg, e⟩ := h.split r
  rw [e]
  have hword : ∀ {w r : Str}, NCName w → NoName r → Fol ['=', '|', '&', '{'] r → (∀ r', space1 r = .ok r' () → literal r' = .err ∧ identifierOrKeyword r' = .err ∧ tag "namespace".toList r' = .err) →
      (∀ r', space0 r = .ok r' () → assignMethod r' = .err) →
      startRule pat (w ++ r) = .err ∧ defineItem pat (w ++ r) = .err ∧ divItem item (w ++ r) = .err ∧ includeItem n pat (w ++ r) = .err ∧ decl (w ++ r) = .err ∧
      ∀ f : P SOverride, (do tag "div".toList; space0; tag ['{']; f : P SOverride) (w ++ r) = .err := by
    intro w r hw hr hf h1 h2
    have hsp : ∀ k : Str, (∀ c ∈ k, ncNameChar c = true) → tag k (w ++ r) = .err ∨ (tag k (w ++ r) = .ok r ()) ∨
        ∃ c cs, tag k (w ++ r) = .ok (c :: cs) () ∧ Stop c := by
      intro k hk
      by_cases e : k = w
      · subst e; exact .inr (.inl (tag_append _ _))
      · rcases tag_word hk hw.word hr e with h | ⟨c, cs, h, hc⟩
        · exact .inl h
        · exact .inr (.inr ⟨c, cs, h, stop_name hc⟩)
    have hs1 : ∀ {β : Type} (k : Str) (f : P β), (∀ c ∈ k, ncNameChar c = true) → (∀ r', space1 r = .ok r' () → f r' = .err) → (do tag k; space1; f : P β) (w ++ r) = .err := by
      intro β k f hk hl
      rcases hsp k hk with h | h | ⟨c, cs, h, hc⟩
      · exact bind_of_err h
      · rw [bind_of_ok h]
        rcases hf.space1 with h | ⟨r', h⟩
        · exact bind_of_err h
        · rw [bind_of_ok h]; exact hl r' h
      · rw [bind_of_ok h]; exact bind_of_err (space1_noGap (.cons hc.1))
    refine ⟨?_, ?_, ?_, ?_, ?_, fun f => ?_⟩
    · rcases hsp "start".toList (by decide) with h | h | h
      · exact bind_of_err h
      · unfold startRule; rw [bind_of_ok h]; exact assign_fol (hf.mono (by simp))
      · exact NotKw.start (.inr h)
    · unfold defineItem
      by_cases hk : Keyword w
      · exact bind_of_err (identifier_keyword hk hr)
      · rw [bind_of_ok (identifier_ok (.plain hw hk) hr)]; exact assign_fol (hf.mono (by simp))
    · rcases hsp "div".toList (by decide) with h | h | h
      · exact bind_of_err h
      · unfold divItem; rw [bind_of_ok h]; exact hf.tag_err (by simp) _ _
      · exact NotKw.next (.inr h) (by simp) _
    · exact hs1 _ _ (by decide) fun r' h => bind_of_err (h1 r' h).1
    · unfold decl
      have d1 : declNamespace (w ++ r) = .err := hs1 _ _ (by decide) fun r' h => bind_of_err (h1 r' h).2.1
      have d2 : declDefaultNamespace (w ++ r) = .err := hs1 _ _ (by decide) fun r' h => bind_of_err (h1 r' h).2.2
      rw [alt_of_err d1, alt_of_err d2]
      exact hs1 _ _ (by decide) fun r' h => bind_of_err (h1 r' h).2.1
    · rcases hsp "div".toList (by decide) with h | h | h
      · exact bind_of_err h
      · rw [bind_of_ok h]; exact hf.tag_err (by simp) _ _
      · exact NotKw.next (.inr h) (by simp) _
  have hbr : ∀ r'', space1 (g ++ '[' :: r') = .ok r'' () → literal r'' = .err ∧ identifierOrKeyword r'' = .err ∧ tag "namespace".toList r'' = .err := by
    intro r'' h
    cases g with
    | nil => rw [List.nil_append, space1_noGap (.cons (by decide))] at h; cases h
    | cons c g =>
      rw [space1_sep ⟨hg, by simp⟩ (.cons (by decide))] at h; cases h
      exact ⟨literal_err (by constructor <;> simp), anyIdent_err (noId_char (by decide)), rfl⟩
  have hbr0 : ∀ r'', space0 (g ++ '[' :: r') = .ok r'' () → assignMethod r'' = .err := by
    intro r'' h
    rw [space0_gap hg (.cons (by decide))] at h; cases h; rfl
  have hn0 := (NameFol.char (r := r') (c := '[') hg (by decide)).1
  have hf0 : Fol ['=', '|', '&', '{'] (g ++ '[' :: r') := Fol.gap (.cons (by decide) (by decide)) hg
  cases hn with
  | ident h =>
    cases h with
    | ident h =>
      cases h with
      | plain h _ => exact hword h hn0 hf0 hbr hbr0
      | quoted hk =>
        rename_i k
        have hh : ∀ c, c ≠ '\\' → ('\\' :: k ++ (g ++ '[' :: r')).head? ≠ some c := fun c hc e => hc (by simpa using e.symm)
        refine ⟨bind_of_err (tag_head (hh 's' (by decide))), ?_, bind_of_err (tag_head (hh 'd' (by decide))), bind_of_err (tag_head (hh 'i' (by decide))), ?_,
          fun f => bind_of_err (tag_head (hh 'd' (by decide)))⟩
        · unfold defineItem
          rw [bind_of_ok (identifier_ok (.quoted hk) hn0)]
          exact assign_fol (hf0.mono (by simp))
        · unfold decl
          have d1 : declNamespace ('\\' :: k ++ (g ++ '[' :: r')) = .err := bind_of_err (tag_head (hh 'n' (by decide)))
          have d2 : declDefaultNamespace ('\\' :: k ++ (g ++ '[' :: r')) = .err := bind_of_err (tag_head (hh 'd' (by decide)))
          rw [alt_of_err d1, alt_of_err d2]
          exact bind_of_err (tag_head (hh 'd' (by decide)))
    | keyword h => exact hword (Keyword.ncname h) hn0 hf0 hbr hbr0
  | cname hp _ =>
    rw [List.append_assoc, List.cons_append]
    refine hword hp (.cons (by decide)) (.cons (by decide) (by decide)) (fun r' h => ?_) (fun r' h => ?_)
    · rw [space1_noGap (.cons (by decide))] at h; cases h
    · rw [space0_noGap (.cons (by decide))] at h; cases h; rfl

/-! ### overrides -/

theorem _root_.Verif.Rnc.Override.start' {strict : Prop} {o : SOverride} {s : Str} (h : Override strict o s) (r : Str) :
    (IdHead (s ++ r) ∨ ∃ cs, s ++ r = '[' :: cs) ∧ inherit (s ++ r) = .err := by
  have key : ∀ {i r : Str}, Init strict i → IdHead r → inherit r = .err → (IdHead (i ++ r) ∨ ∃ cs, i ++ r = '[' :: cs) ∧ inherit (i ++ r) = .err := by
    intro i r hi h h'
    rcases hi.first with rfl | ⟨cs, rfl⟩
    · exact ⟨.inl h, h'⟩
    · exact ⟨.inr ⟨_, rfl⟩, inherit_head (by simp)⟩
  cases h with
  | start hi _ _ _ _ => simp only [List.append_assoc]; exact key hi ⟨'s', _, rfl, .inl (by decide)⟩ (inherit_head (by simp))
  | define hi hid hg ha _ _ =>
    simp only [List.append_assoc]
    exact key hi (IdHead.append hid.head _) (ident_inherit hid (assign_noName hg ha).1)
  | div hi _ _ _ _ => simp only [List.append_assoc]; exact key hi ⟨'d', _, rfl, .inl (by decide)⟩ (inherit_head (by simp))
  | «annotation» hi h => simp only [List.append_assoc]; exact key hi (h.head.append _) (elem_inherit h _)

theorem override_rows {strict : Prop} : ∀ (a : SOverride) (s : Str), Override strict a s → s ≠ [] ∧ ∀ r, NoGap (s ++ r) := by
  intro a s h
  refine ⟨?_, fun r => ?_⟩
  · have := (h.start' []).1
    rintro rfl
    rcases this with ⟨c, cs, h, _⟩ | ⟨cs, h⟩ <;> simp at h
  · rcases (h.start' r).1 with h | ⟨cs, h⟩
    · exact h.noGap
    · rw [h]; exact .cons (by decide)

/-- a name after which comes no bracket is no annotation element -/
theorem annElem_not {n : Nat} {w r : Str} (h : AnyIdent w) (hr : NameFol r) (hf : Fol ['['] r) : annotationElement (n + 1) (w ++ r) = .err := by
  unfold annotationElement
  rw [bind_of_ok (name_ok (.ident h) hr)]
  exact hf.tag_err (by simp) _ _

theorem assign_bracket {a : AssignMethod} {g u r : Str} (hg : Gap g) (h : Assign a u) : Fol ['['] (g ++ (u ++ r)) := by
  cases h <;> exact Fol.gap (.cons (by decide) (by decide)) hg

theorem includeContent_succ (pat : P SPattern) (n : Nat) : includeContent pat (n + 1) = (do
    let _ ← maybeInitialAnnotation n
    alt (do annotationElement n; pure .annotation) <|
    alt (do let (id, how, p) ← defineItem pat; pure (.define id how p)) <|
    alt (do let (id, how, p) ← startRule pat; pure (.define id how p)) <|
    (do
      tag "div".toList
      space0
      tag ['{']
      space0
      let _ ← sepList0 space1 (includeContent pat n)
      space0
      cut (tag ['}'])
      pure .div) : P SOverride) := by
  funext i; rw [includeContent]

theorem define_noId {pat : P SPattern} {i : Str} (h : NoId i) : defineItem pat i = .err := bind_of_err (identifier_err h)
theorem start_head {pat : P SPattern} {i : Str} (h : i.head? ≠ some 's') : startRule pat i = .err := bind_of_err (tag_head h)
theorem div_head {item : P SItem} {i : Str} (h : i.head? ≠ some 'd') : divItem item i = .err := bind_of_err (tag_head h)
theorem include_head {n : Nat} {pat : P SPattern} {i : Str} (h : i.head? ≠ some 'i') : includeItem n pat i = .err := bind_of_err (tag_head h)

theorem override_end {pat : P SPattern} {n : Nat} {r : Str} : includeContent pat (n + 2) ('}' :: r) = .err := by
  rw [includeContent_succ, bind_of_ok (init_none (by simp)), alt_of_err (bind_of_err (annElem_noId (noId_char (by decide)))),
    alt_of_err (bind_of_err (define_noId (noId_char (by decide)))), alt_of_err (bind_of_err (start_head (by simp)))]
  exact bind_of_err (tag_head (c := 'd') (by simp))

theorem override_ok {N : Nat} {pat : P SPattern} {item : P SItem} (hs : Subs N pat item) : ∀ (n : Nat) (o : SOverride) (s r : Str),
    n ≤ N → Override True o s → PatFol false r → (s ++ r).length < n → includeContent pat n (s ++ r) = .ok r o
  | 0, _, _, _, _, _, _, h => absurd h (Nat.not_lt_zero _)
  | n + 1, o, s, r, hN, h, hr, hL => by
    rw [includeContent_succ]
    have hn0 : n ≠ 0 := by
      rintro rfl
      have := (override_rows _ _ h).1
      cases s with
      | nil => exact this rfl
      | cons c s => simp at hL
    obtain ⟨n', rfl⟩ := Nat.exists_eq_succ_of_ne_zero hn0
    cases h with
    | start hi hg ha hg' hp =>
      rename_i i g a u g' p b s
      have e : i ++ "start".toList ++ g ++ u ++ g' ++ s ++ r = i ++ ("start".toList ++ (g ++ (u ++ (g' ++ (s ++ r))))) := by simp
      rw [e] at hL ⊢
      have hnf := assign_noName (r := g' ++ (s ++ r)) hg ha
      obtain ⟨x, h1, _⟩ := init_ok (r := "start".toList ++ (g ++ (u ++ (g' ++ (s ++ r))))) hi (NoGap.cons (c := 's') (by decide)) (by simp) (n := n' + 1) (by omega)
      rw [bind_of_ok h1, alt_of_err (bind_of_err (annElem_not (.keyword (by decide)) hnf (assign_bracket hg ha))),
        alt_of_err (bind_of_err (define_keyword (by decide) hnf.1))]
      apply alt_of_ok
      rw [bind_of_ok (startRule_ok hs hg ha hg' hp hr.of (by simp at hL ⊢; omega))]; rfl
    | define hi hid hg ha hg' hp =>
      rename_i i id g a u g' p b s
      have e : i ++ id ++ g ++ u ++ g' ++ s ++ r = i ++ (id ++ (g ++ (u ++ (g' ++ (s ++ r))))) := by simp
      rw [e] at hL ⊢
      have hnf := assign_noName (r := g' ++ (s ++ r)) hg ha
      have hh := IdHead.append (show IdHead id from hid.head) (g ++ (u ++ (g' ++ (s ++ r))))
      obtain ⟨x, h1, _⟩ := init_ok (r := id ++ (g ++ (u ++ (g' ++ (s ++ r))))) hi hh.noGap (hh.head (by decide)) (n := n' + 1) (by omega)
      rw [bind_of_ok h1, alt_of_err (bind_of_err (annElem_not (.ident hid) hnf (assign_bracket hg ha)))]
      apply alt_of_ok
      rw [bind_of_ok (define_ok hs hid hg ha hg' hp hr.of (by simp at hL ⊢; omega))]; rfl
    | div hi hg hg' ht hg'' =>
      rename_i i g g' os t g''
      have e : i ++ "div".toList ++ g ++ '{' :: g' ++ t ++ g'' ++ ['}'] ++ r = i ++ ("div".toList ++ (g ++ '{' :: (g' ++ (t ++ (g'' ++ '}' :: r))))) := by simp
      rw [e] at hL ⊢
      obtain ⟨x, h1, _⟩ := init_ok (r := "div".toList ++ (g ++ '{' :: (g' ++ (t ++ (g'' ++ '}' :: r))))) hi (NoGap.cons (c := 'd') (by decide)) (by simp) (n := n' + 1) (by omega)
      rw [bind_of_ok h1, alt_of_err (bind_of_err (annElem_not (.keyword (by decide)) (.char hg (by decide)) (Fol.gap (.cons (by decide) (by decide)) hg))),
        alt_of_err (bind_of_err (define_keyword (by decide) (NameFol.char hg (by decide)).1)), alt_of_err (bind_of_err (start_head (by simp))),
        bind_of_ok (tag_append _ _), bind_of_ok (space0_gap hg (.cons (by decide))), bind_of_ok (tag_one '{' _)]
      have hend : includeContent pat (n' + 1) ('}' :: r) = .err := by
        cases n' with
        | zero => simp at hL; omega
        | succ n' => exact override_end
      exact (block_ok (F := PatFol false) (L := n' + 1) override_rows (fun a s rest h hf hl => override_ok hs (n' + 1) a s rest (by omega) h hf hl)
        (fun b s rest g hg h => .sep hg (h.start' rest).1 (h.start' rest).2) hg' ht hg'' (.cons (by decide))
        (.inr (.char hg'' (.inr rfl))) hend (by simp at hL ⊢; omega)).trans
        (by rw [bind_of_ok (cut_of_ok (tag_one '}' _))]; rfl)
    | «annotation» hi h =>
      rename_i i s
      rw [List.append_assoc] at hL ⊢
      obtain ⟨x, h1, _⟩ := init_ok (r := s ++ r) hi (h.head.append r).noGap ((h.head.append r).head (by decide)) (n := n' + 1) (by omega)
      rw [bind_of_ok h1]
      apply alt_of_ok
      rw [bind_of_ok (annElem_ok _ _ _ _ h (by simp at hL ⊢; omega))]; rfl

/-! ### grammar entries -/

theorem grammarContent_succ (n : Nat) : grammarContent (n + 1) = (
    alt (do let (id, how, p) ← startRule (pattern n); pure (.define id how p)) <|
    alt (do let (id, how, p) ← defineItem (pattern n); pure (.define id how p)) <|
    alt (divItem (grammarContent n)) <|
    alt (includeItem n (pattern n)) <|
    (do annotationElement n; pure .annotation) : P SItem) := by
  funext i; rw [grammarContent]

theorem item_noId {n : Nat} {i : Str} (h : NoId i) : grammarContent (n + 2) i = .err := by
  have hh : ∀ c, ncNameStartChar c = true → i.head? ≠ some c := fun c hc => head?_ne fun d ds e e' => by
    have := (h d ds e).1; subst e'; rw [hc] at this; cases this
  rw [grammarContent_succ, alt_of_err (bind_of_err (start_head (hh _ (by decide)))), alt_of_err (bind_of_err (define_noId h)),
    alt_of_err (div_head (hh _ (by decide))), alt_of_err (include_head (hh _ (by decide)))]
  exact bind_of_err (annElem_noId h)

theorem overrides_ok {n : Nat} {pat : P SPattern} {item : P SItem} (hs : Subs n pat item) {os : List SOverride} {w r : Str} (h : Overrides True os w)
    (hr : PatFol false r) (hL : (w ++ r).length ≤ n) : ∃ o, opt (overrideBlock n pat) (w ++ r) = .ok r o ∧ o.getD [] = os := by
  cases h with
  | none => exact ⟨none, opt_of_err ((hr.prim.fol.mono (T := ['{']) (by simp)).tag_err (by simp) _ _), rfl⟩
  | some hg hg' ht hg'' =>
    rename_i g g' t g''
    have e : g ++ '{' :: g' ++ t ++ g'' ++ ['}'] ++ r = g ++ '{' :: (g' ++ (t ++ (g'' ++ '}' :: r))) := by simp
    rw [e] at hL ⊢
    refine ⟨some os, opt_of_ok ?_, rfl⟩
    unfold overrideBlock
    rw [bind_of_ok (space0_gap hg (.cons (by decide))), bind_of_ok (tag_one '{' _)]
    have hend : includeContent pat n ('}' :: r) = .err := by
      obtain ⟨m, rfl⟩ : ∃ m, n = m + 2 := ⟨n - 2, by simp at hL; omega⟩
      exact override_end
    exact (block_ok (F := PatFol false) (L := n) override_rows (fun a s rest h hf hl => override_ok hs n a s rest (Nat.le_refl _) h hf hl)
      (fun b s rest g hg h => .sep hg (h.start' rest).1 (h.start' rest).2) hg' ht hg'' (.cons (by decide))
      (.inr (.char hg'' (.inr rfl))) hend (by simp at hL ⊢; omega)).trans
      (by rw [bind_of_ok (cut_of_ok (tag_one '}' _))]; rfl)

theorem overrides_fol {strict : Prop} {os : List SOverride} {w r : Str} (h : Overrides strict os w) (hr : PatFol false r) :
    NameFol (w ++ r) ∧ Fol [] (w ++ r) ∧ NoInherit (w ++ r) ∧ LitFol (w ++ r) := by
  cases h with
  | none => exact ⟨hr.prim.name, hr.ops.mono (by simp), hr.prim.noInherit, hr.prim.lit⟩
  | some hg _ _ _ =>
    simp only [List.append_assoc, List.cons_append]
    exact ⟨.char hg (by decide), Fol.gap (.cons (by decide) (by decide)) hg, .gap hg (.cons (by decide)) (inherit_head (by simp)), .char hg (by decide)⟩

theorem item_step {n : Nat} (hs : Subs n (pattern n) (grammarContent n)) {i : SItem} {s r : Str} (h : Item True i s) (hr : PatFol false r)
    (hL : (s ++ r).length < n + 1) : grammarContent (n + 1) (s ++ r) = .ok r i := by
  rw [grammarContent_succ]
  cases h with
  | start hg ha hg' hp =>
    simp only [List.append_assoc] at hL ⊢
    apply alt_of_ok
    rw [bind_of_ok (startRule_ok hs hg ha hg' hp hr.of (by simp at hL ⊢; omega))]; rfl
  | define hid hg ha hg' hp =>
    rename_i id g a u g' p b s
    have hpos : 0 < id.length := List.length_pos_iff.mpr (IdHead.ne_nil hid.head)
    simp only [List.append_assoc] at hL ⊢
    rw [alt_of_err (bind_of_err (ident_notStart hid (assign_noName hg ha).1))]
    apply alt_of_ok
    rw [bind_of_ok (define_ok hs hid hg ha hg' hp hr.of (by simp at hL ⊢; omega))]; rfl
  | div hg hg' ht hg'' =>
    rename_i g g' is t g''
    have e : "div".toList ++ g ++ '{' :: g' ++ t ++ g'' ++ ['}'] ++ r = "div".toList ++ (g ++ '{' :: (g' ++ (t ++ (g'' ++ '}' :: r)))) := by simp
    rw [e] at hL ⊢
    rw [alt_of_err (bind_of_err (start_head (by simp))), alt_of_err (bind_of_err (define_keyword (by decide) (NameFol.char hg (by decide)).1))]
    apply alt_of_ok
    unfold divItem
    rw [bind_of_ok (tag_append _ _), bind_of_ok (space0_gap hg (.cons (by decide))), bind_of_ok (tag_one '{' _)]
    exact (block_ok (F := PatFol false) (L := n) item_rows (fun a s rest h hf hl => hs.hitem _ _ _ h hf hl)
      (fun b s rest g hg h => .sep hg (.inl (h.head.append rest)) (item_inherit h rest)) hg' ht hg'' (.cons (by decide))
      (.inr (.char hg'' (.inr rfl))) (hs.hend _ (by simp at hL; omega)) (by simp at hL ⊢; omega)).trans
      (by rw [bind_of_ok (cut_of_ok (tag_one '}' _))]; rfl)
  | «include» hg hl hi ho =>
    rename_i g v t h u os w
    have e : "include".toList ++ g ++ t ++ u ++ w ++ r = "include".toList ++ (g ++ (t ++ (u ++ (w ++ r)))) := by simp
    rw [e] at hL ⊢
    obtain ⟨h1, h2, h3, h4⟩ := overrides_fol ho hr
    obtain ⟨o, h5, h6⟩ := overrides_ok hs ho hr (by simp at hL ⊢; omega)
    rw [alt_of_err (bind_of_err (start_head (by simp))), alt_of_err (bind_of_err (define_keyword (by decide) (NameFol.sep hg).1)),
      alt_of_err (div_head (by simp))]
    apply alt_of_ok
    unfold includeItem
    rw [bind_of_ok (tag_append _ _), bind_of_ok (space1_sep hg (hl.noGap _)), bind_of_ok (literal_ok hl (hi.lit h4)),
      bind_of_ok (inherit_ok hi h1.1 h2 h3), bind_of_ok h5, h6]
    rfl
  | «annotation» h =>
    obtain ⟨h1, h2, h3, h4, _⟩ := elem_not h r (n := n) (pat := pattern n) (item := grammarContent n)
    rw [alt_of_err (bind_of_err h1), alt_of_err (bind_of_err h2), alt_of_err h3, alt_of_err h4]
    rw [bind_of_ok (annElem_ok _ _ _ _ h (by simp at hL ⊢; omega))]; rfl

end Verif.Compact
