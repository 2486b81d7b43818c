import Verif.Model.Validate
/-
Every store computation of the validation phase is built from `pure`, panics, `push` and `patt`.
Facts about those four carry over to the whole phase by one induction.
-/
set_option linter.unusedSectionVars false
namespace Verif
variable {D V : Type} [DecidableEq D] [DecidableEq V]

inductive Prog : {α : Type} → SM D V α → Prop
  | pure {α : Type} (a : α) : Prog (Pure.pure a : SM D V α)
  | fault {α : Type} (e : Fault) : Prog (ST.fault e : SM D V α)
  | bind {α β : Type} {x : SM D V α} {f : α → SM D V β} : Prog x → (∀ a, Prog (f a)) → Prog (x >>= f)
  | push (p : Pat D V) : p.isPlaceholder = false → Prog (push p)
  | patt (i : Nat) : Prog (patt i)

namespace Prog
variable {α : Type}

theorem ite {c : Prop} [Decidable c] {x y : SM D V α} (hx : Prog x) (hy : Prog y) :
    Prog (if c then x else y) := by split <;> assumption

theorem mkEmpty : Prog (mkEmpty : SM D V Nat) := .push _ rfl
theorem mkText : Prog (mkText : SM D V Nat) := .push _ rfl
theorem notAllowed : Prog (notAllowed : SM D V Nat) := .push _ rfl
theorem mkList (p : Nat) : Prog (mkList p : SM D V Nat) := .push _ rfl

theorem choice (l r : Nat) : Prog (choice l r : SM D V Nat) := by
  unfold Verif.choice
  refine .bind (.patt l) fun p => .bind (.patt r) fun q => ?_
  split
  · exact .pure _
  · exact .pure _
  · exact ite (.pure _) (.push _ rfl)

theorem interleave (l r : Nat) : Prog (interleave l r : SM D V Nat) := by
  unfold Verif.interleave
  refine .bind (.patt l) fun p => .bind (.patt r) fun q => ?_
  split
  · exact notAllowed
  · exact notAllowed
  · exact .pure _
  · exact .pure _
  · exact .push _ rfl

theorem group (l r : Nat) : Prog (group l r : SM D V Nat) := by
  unfold Verif.group
  refine .bind (.patt l) fun p => .bind (.patt r) fun q => ?_
  split
  · exact notAllowed
  · exact notAllowed
  · exact .pure _
  · exact .pure _
  · exact .push _ rfl

theorem after (l r : Nat) : Prog (after l r : SM D V Nat) := by
  unfold Verif.after
  refine .bind (.patt l) fun p => .bind (.patt l) fun q => ?_
  split
  · exact notAllowed
  · exact notAllowed
  · exact .push _ rfl

theorem oneOrMore (l : Nat) : Prog (oneOrMore l : SM D V Nat) := by
  unfold Verif.oneOrMore
  exact .bind (.patt l) fun p => .push _ rfl

variable (L : Lib D V)

theorem checkD (d : D) (s : Str) : Prog (checkD L d s) := by
  unfold Verif.checkD
  split
  · exact .pure _
  · exact .fault _

theorem checkV (v : V) (s : Str) : Prog (checkV L v s) := by
  unfold Verif.checkV
  split
  · exact .pure _
  · exact .fault _

theorem listLoop {td : Pat D V → Str → SM D V Nat} (h : ∀ p s, Prog (td p s)) :
    ∀ (ws : List Str) (p : Nat), Prog (listLoop td p ws)
  | [], _ => .pure _
  | _ :: ws, _ => .bind (.patt _) fun _ => .bind (h _ _) fun _ => .bind (.patt _) fun _ =>
      ite (.pure _) (listLoop h ws _)

theorem textDeriv : ∀ (n : Nat) (p : Pat D V) (t : Str), Prog (textDeriv L n p t)
  | 0, _, _ => .fault _
  | n + 1, p, t => by
    have ih := textDeriv n
    cases p with
    | choice l r f =>
      exact .bind (.patt _) fun _ => .bind (.patt _) fun _ => .bind (ih _ _) fun _ => .bind (ih _ _) fun _ =>
        choice _ _
    | interleave l r f =>
      exact .bind (.patt _) fun _ => .bind (.patt _) fun _ => .bind (ih _ _) fun _ =>
        .bind (interleave _ _) fun _ => .bind (ih _ _) fun _ => .bind (interleave _ _) fun _ => choice _ _
    | group l r f =>
      exact .bind (.patt _) fun _ => .bind (.patt _) fun _ => .bind (ih _ _) fun _ =>
        .bind (group _ _) fun _ => ite (.bind (ih _ _) fun _ => choice _ _) (.pure _)
    | after l r => exact .bind (.patt _) fun _ => .bind (ih _ _) fun _ => after _ _
    | oneOrMore i f =>
      exact .bind (.patt _) fun _ => .bind (ih _ _) fun _ => .bind (oneOrMore _) fun _ =>
        .bind mkEmpty fun _ => .bind (choice _ _) fun _ => group _ _
    | text => exact mkText
    | datatype d => exact .bind (checkD L _ _) fun _ => ite mkEmpty notAllowed
    | datatypeValue v => exact .bind (checkV L _ _) fun _ => ite mkEmpty notAllowed
    | datatypeExcept d e =>
      exact .bind (.patt _) fun _ => .bind (ih _ _) fun _ => .bind (.patt _) fun _ =>
        .bind (checkD L _ _) fun _ => ite mkEmpty notAllowed
    | list i =>
      exact .bind (listLoop ih _ _) fun _ => ite (.pure _) (.bind (.patt _) fun _ =>
        ite (.pure _) (ite (.bind (mkList _) fun _ => .bind mkEmpty fun _ => choice _ _) (mkList _)))
    | empty => exact ite mkEmpty notAllowed
    | notAllowed => exact notAllowed
    | attr => exact notAllowed
    | element nc i => exact ite (.push _ rfl) notAllowed
    | placeholder => exact .fault _

theorem applyAfter {f : Nat → SM D V Nat} (hf : ∀ i, Prog (f i)) : ∀ (n : Nat) (p : Pat D V),
    Prog (applyAfter f n p)
  | 0, _ => .fault _
  | n + 1, p => by
    have ih := applyAfter hf n
    cases p with
    | after l r => exact .bind (hf _) fun _ => after _ _
    | choice l r b =>
      exact .bind (.patt _) fun _ => .bind (.patt _) fun _ => .bind (ih _) fun _ => .bind (ih _) fun _ =>
        choice _ _
    | notAllowed => exact notAllowed
    | _ => exact .fault _

theorem startTagOpenDeriv : ∀ (n : Nat) (p : Pat D V) (nm : QName), Prog (startTagOpenDeriv n p nm)
  | 0, _, _ => .fault _
  | n + 1, p, nm => by
    have ih := startTagOpenDeriv n
    cases p with
    | choice l r f =>
      exact .bind (.patt _) fun _ => .bind (.patt _) fun _ => .bind (ih _ _) fun _ => .bind (ih _ _) fun _ =>
        choice _ _
    | oneOrMore i f =>
      exact .bind (.patt _) fun _ => .bind (ih _ _) fun _ => .bind (.patt _) fun _ =>
        applyAfter (fun _ => .bind (oneOrMore _) fun _ => .bind mkEmpty fun _ =>
          .bind (choice _ _) fun _ => group _ _) _ _
    | interleave l r f =>
      exact .bind (.patt _) fun _ => .bind (.patt _) fun _ => .bind (ih _ _) fun _ => .bind (.patt _) fun _ =>
        .bind (applyAfter (fun _ => interleave _ _) _ _) fun _ => .bind (ih _ _) fun _ =>
        .bind (.patt _) fun _ => .bind (applyAfter (fun _ => interleave _ _) _ _) fun _ => choice _ _
    | group l r f =>
      exact .bind (.patt _) fun _ => .bind (.patt _) fun _ => .bind (ih _ _) fun _ => .bind (.patt _) fun _ =>
        .bind (applyAfter (fun _ => group _ _) _ _) fun _ =>
        ite (.bind (.patt _) fun _ => .bind (ih _ _) fun _ => choice _ _) (.pure _)
    | element nc i => exact ite (.bind mkEmpty fun _ => after _ _) notAllowed
    | after l r =>
      exact .bind (.patt _) fun _ => .bind (ih _ _) fun _ => .bind (.patt _) fun _ =>
        applyAfter (fun _ => after _ _) _ _
    | placeholder => exact .fault _
    | _ => exact notAllowed

theorem valueMatch (n : Nat) (p : Pat D V) (v : Str) : Prog (valueMatch L n p v) :=
  ite (.pure _) (.bind (textDeriv L _ _ _) fun _ => .bind (.patt _) fun _ => .pure _)

theorem attDeriv (att : Attr) : ∀ (n : Nat) (memo : AttMemo) (i : Nat), Prog (attDeriv L n memo i att)
  | 0, _, _ => .fault _
  | n + 1, memo, i => by
    have ih := attDeriv att n
    unfold Verif.attDeriv
    split
    · exact .pure _
    · refine .bind (.patt _) fun p => .bind ?_ fun _ => .pure _
      cases p with
      | after l r => exact .bind (ih _ _) fun _ => .bind (after _ _) fun _ => .pure _
      | choice l r f =>
        exact .bind (ih _ _) fun _ => .bind (ih _ _) fun _ => .bind (choice _ _) fun _ => .pure _
      | group l r f =>
        exact .bind (ih _ _) fun _ => .bind (group _ _) fun _ => .bind (ih _ _) fun _ =>
          .bind (group _ _) fun _ => .bind (choice _ _) fun _ => .pure _
      | interleave l r f =>
        exact .bind (ih _ _) fun _ => .bind (interleave _ _) fun _ => .bind (ih _ _) fun _ =>
          .bind (interleave _ _) fun _ => .bind (choice _ _) fun _ => .pure _
      | oneOrMore p f =>
        exact .bind (ih _ _) fun _ => .bind mkEmpty fun _ => .bind (choice _ _) fun _ =>
          .bind (group _ _) fun _ => .pure _
      | attr nc p =>
        exact .bind (.patt _) fun _ => ite (.bind (valueMatch L _ _ _) fun _ =>
          .bind (ite mkEmpty notAllowed) fun _ => .pure _) (.bind notAllowed fun _ => .pure _)
      | _ => exact .bind notAllowed fun _ => .pure _

theorem startTagCloseDeriv : ∀ (n : Nat) (i : Nat), Prog (startTagCloseDeriv n i : SM D V Nat)
  | 0, _ => .fault _
  | n + 1, i => by
    have ih := startTagCloseDeriv n
    unfold Verif.startTagCloseDeriv
    refine .bind (.patt _) fun p => ?_
    cases p with
    | after l r => exact .bind (ih _) fun _ => after _ _
    | choice l r f => exact .bind (ih _) fun _ => .bind (ih _) fun _ => choice _ _
    | group l r f => exact .bind (ih _) fun _ => .bind (ih _) fun _ => group _ _
    | interleave l r f => exact .bind (ih _) fun _ => .bind (ih _) fun _ => interleave _ _
    | oneOrMore p f => exact .bind (ih _) fun _ => oneOrMore _
    | attr => exact notAllowed
    | _ => exact .pure _

theorem endTagDeriv : ∀ (n : Nat) (p : Pat D V), Prog (endTagDeriv n p)
  | 0, _ => .fault _
  | n + 1, p => by
    have ih := endTagDeriv n
    cases p with
    | choice l r f =>
      exact .bind (.patt _) fun _ => .bind (.patt _) fun _ => .bind (ih _) fun _ => .bind (ih _) fun _ =>
        choice _ _
    | after l r => exact .bind (.patt _) fun _ => ite (.pure _) notAllowed
    | _ => exact notAllowed

theorem attsLoop (n : Nat) : ∀ (atts : List Attr) (i : Nat), Prog (attsLoop L n i atts)
  | [], _ => .pure _
  | _ :: atts, _ => .bind (attDeriv L _ _ _ _) fun _ => .bind (.patt _) fun _ =>
      ite (.pure _) (attsLoop n atts _)

theorem closeElementStart (n : Nat) (st : ElementStack) (t : Token) (p : Pat D V) :
    Prog (closeElementStart L n st t p) := by
  unfold Verif.closeElementStart
  split
  · exact .fault _
  · exact .pure _
  · refine .bind (startTagOpenDeriv _ _ _) fun _ => .bind (.patt _) fun _ => ite (.pure _) ?_
    split
    · exact .fault _
    · exact .pure _
    · refine .bind (attsLoop L _ _ _) fun r => ?_
      split
      · exact .pure _
      · exact .bind (.patt _) fun _ => ite (.pure _) (.bind (startTagCloseDeriv _ _) fun _ =>
          .bind (.patt _) fun _ => ite (.pure _) (.pure _))

theorem endTagStep (n : Nat) (b : Bool) (p : Pat D V) : Prog (endTagStep L n b p) :=
  ite (.bind (textDeriv L _ _ _) fun _ => .bind (.patt _) fun _ => endTagDeriv _ _) (endTagDeriv _ _)

end Prog

/-! ### what such computations do to the store -/

/-- only appends patterns and memo entries -/
structure Grown (st st' : Store D V) : Prop where
  pats : ∃ more, st'.pats = st.pats ++ more
  memo : ∀ p i, st.memo.lookup p = some i → st'.memo.lookup p = some i
  refs : st'.refs = st.refs
  cap : st.pats.length ≤ 0x10000 → st'.pats.length ≤ 0x10000

theorem Grown.refl (st : Store D V) : Grown st st := ⟨⟨[], by simp⟩, fun _ _ h => h, rfl, id⟩

theorem Grown.trans {a b c : Store D V} (h1 : Grown a b) (h2 : Grown b c) : Grown a c := by
  obtain ⟨x, hx⟩ := h1.pats
  obtain ⟨y, hy⟩ := h2.pats
  exact ⟨⟨x ++ y, by rw [hy, hx, List.append_assoc]⟩, fun p i h => h2.memo p i (h1.memo p i h),
    h2.refs.trans h1.refs, fun h => h2.cap (h1.cap h)⟩

theorem push_cases (p : Pat D V) (st : Store D V) :
    (0xffff < st.pats.length ∧ push p st = .error .capacity) ∨
    (st.pats.length ≤ 0xffff ∧ ∃ i, st.memo.lookup p = some i ∧ push p st = .ok (i, st)) ∨
    (st.pats.length ≤ 0xffff ∧ st.memo.lookup p = none ∧ push p st = .ok (st.pats.length,
      { st with memo := (p, st.pats.length) :: st.memo, pats := st.pats ++ [p] })) := by
  unfold push
  by_cases h : st.pats.length > 0xffff
  · exact Or.inl ⟨h, by simp [h]⟩
  · cases hm : st.memo.lookup p with
    | some i => exact Or.inr (Or.inl ⟨by omega, i, rfl, by simp [h]⟩)
    | none => exact Or.inr (Or.inr ⟨by omega, rfl, by simp [h]⟩)

theorem push_grown {p : Pat D V} {st st' : Store D V} {i : Nat} (h : push p st = .ok (i, st')) :
    Grown st st' := by
  rcases push_cases p st with ⟨_, h'⟩ | ⟨_, j, hj, h'⟩ | ⟨hc, hn, h'⟩
  · rw [h'] at h; cases h
  · rw [h'] at h; cases h; exact .refl _
  · rw [h'] at h; cases h
    refine ⟨⟨[p], rfl⟩, fun q j hq => ?_, rfl, fun _ => by simp; omega⟩
    simp only [List.lookup_cons]
    split
    · rename_i he
      have : q = p := by simpa using he
      subst this
      rw [hn] at hq; cases hq
    · exact hq

theorem Prog.grown {α : Type} {x : SM D V α} (hx : Prog x) :
    ∀ {st a st'}, x st = .ok (a, st') → Grown st st' := by
  induction hx with
  | pure a => intro st b st' h; cases h; exact .refl _
  | fault e => intro st b st' h; cases h
  | bind _ _ ih1 ih2 =>
    intro st b st' h
    obtain ⟨a, s1, h1, h2⟩ := ST.bind_ok.mp h
    exact (ih1 h1).trans (ih2 a h2)
  | push p _ => intro st b st' h; exact push_grown h
  | patt i =>
    intro st b st' h
    unfold Verif.patt at h
    split at h
    · cases h; exact .refl _
    · cases h

/-- one token -/
theorem validate_grown (L : Lib D V) {n : Nat} {t : Token} {s s' : VState D V} {r}
    (h : validate L n t s = .ok (r, s')) : Grown s.store s'.store := by
  have lift : ∀ {α : Type} {x : SM D V α} {s a s'}, Prog x → liftS x s = .ok (a, s') →
      Grown s.store s'.store := by
    intro α x s a s' hx h
    unfold liftS at h
    split at h
    · rename_i h'; cases h; exact hx.grown h'
    · cases h
  have fin : ∀ {t i} {s s' : VState D V} {r}, finish t i s = .ok (r, s') → Grown s.store s'.store := by
    intro t i s s' r h
    simp only [finish, ST.bind_ok] at h
    obtain ⟨_, _, h1, _, _, h2, _, _, h3, h⟩ := h
    cases h1; cases h2
    have := lift (.patt i) h3
    split at h
    · cases h; exact this
    · simp only [ST.bind_ok] at h
      obtain ⟨_, _, h1, _, _, h2, h⟩ := h
      cases h1; cases h2; cases h; exact this
  simp only [validate, ST.bind_ok] at h
  obtain ⟨_, _, h1, p, s1, h2, h⟩ := h
  cases h1
  have g1 := lift (.patt s.cur) h2
  refine g1.trans ?_
  have hs1 : s1 = s := by
    unfold liftS at h2
    split at h2
    · rename_i h'
      unfold patt at h'
      split at h'
      · cases h'; cases h2; rfl
      · cases h'
    · cases h2
  rw [hs1] at h ⊢
  split at h
  · cases h; exact .refl _
  · cases h; exact .refl _
  · cases h; exact .refl _
  · simp only [ST.bind_ok] at h
    obtain ⟨_, _, h1, h⟩ := h
    cases h1; cases h; exact .refl _
  · cases hst : s.stack with
    | nil => rw [hst] at h; cases h
    | cons e es =>
      rw [hst] at h
      simp only [ST.bind_ok] at h
      obtain ⟨_, _, h1, h⟩ := h
      cases h1; cases h; exact .refl _
  · simp only [ST.bind_ok] at h
    obtain ⟨o, s2, h1, h⟩ := h
    have g2 := lift (Prog.closeElementStart L _ _ _ _) h1
    split at h
    · cases h; exact g2
    · exact g2.trans (fin h)
  · simp only [ST.bind_ok] at h
    obtain ⟨i, s2, h1, h⟩ := h
    exact (lift (Prog.endTagStep L _ _ _) h1).trans (fin h)
  · simp only [ST.bind_ok] at h
    obtain ⟨o, s2, h1, h⟩ := h
    have g2 := lift (Prog.closeElementStart L _ _ _ _) h1
    split at h
    · cases h; exact g2
    · simp only [ST.bind_ok] at h
      obtain ⟨q, s3, h3, i, s4, h4, h⟩ := h
      exact ((g2.trans (lift (.patt _) h3)).trans (lift (Prog.endTagStep L _ _ _) h4)).trans (fin h)
  · simp only [ST.bind_ok] at h
    obtain ⟨i, s2, h1, h⟩ := h
    exact (lift (Prog.textDeriv L _ _ _) h1).trans (fin h)
  · rename_i t
    cases hd : decodeText s.entities t with
    | error e => rw [hd] at h; cases h; exact .refl _
    | ok data =>
      rw [hd] at h
      simp only [ST.bind_ok] at h
      obtain ⟨i, s2, h1, q, s3, h3, h⟩ := h
      have g := (lift (Prog.textDeriv L _ _ _) h1).trans (lift (.patt _) h3)
      split at h
      · cases h; exact g
      · exact g.trans (fin h)
  · simp only [ST.bind_ok] at h
    obtain ⟨_, _, h1, h⟩ := h
    cases h1; cases h; exact .refl _
  · cases h; exact .refl _
  · cases h; exact .refl _
  · cases h; exact .refl _
  · cases h; exact .refl _

theorem runToks_grown (L : Lib D V) {n : Nat} : ∀ {ts : List Token} {s s' : VState D V} {r},
    runToks L n ts s = .ok (r, s') → Grown s.store s'.store
  | [], s, s', r, h => by cases h; exact .refl _
  | t :: ts, s, s', r, h => by
    simp only [runToks, ST.bind_ok] at h
    obtain ⟨o, s1, h1, h⟩ := h
    have g := validate_grown L h1
    split at h
    · cases h; exact g
    · exact g.trans (runToks_grown L h)

end Verif
