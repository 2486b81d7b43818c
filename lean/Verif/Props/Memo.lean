import Verif.Spec.Memo
import Verif.Proof.Prog
import Verif.Proof.Fuel
import Verif.Props.Store
import Verif.Props.Example
/-
C20: the cache of `att_deriv` does not change results.
-/
set_option linter.unusedSectionVars false
namespace Verif
variable {D V : Type} [DecidableEq D] [DecidableEq V] (L : Lib D V)

/-- a computation that succeeded once gives the same answer again, later, without growing the table -/
theorem Prog.replay {α : Type} {x : SM D V α} (hx : Prog x) : ∀ {st a st1 st2}, x st = .ok (a, st1) →
    Grown st1 st2 → st2.pats.length ≤ 0xffff → x st2 = .ok (a, st2) := by
  induction hx with
  | pure a => intro st b st1 st2 h _ _; cases h; rfl
  | fault e => intro st b st1 st2 h _ _; cases h
  | bind _ h2 ih1 ih2 =>
    intro st b st1 st2 h g c
    obtain ⟨a, s1, e1, e2⟩ := ST.bind_ok.mp h
    exact (ST.bind_of_ok (ih1 e1 (((h2 a).grown e2).trans g) c)).trans (ih2 a e2 g c)
  | push p _ =>
    intro st i st1 st2 h g c
    have hl : st1.memo.lookup p = some i := by
      rcases push_cases p st with ⟨_, h'⟩ | ⟨_, j, hj, h'⟩ | ⟨_, _, h'⟩
      · rw [h'] at h; cases h
      · rw [h'] at h; cases h; exact hj
      · rw [h'] at h; cases h; simp
    have := g.memo p i hl
    unfold Verif.push
    rw [if_neg (by omega), this]
  | patt i =>
    intro st b st1 st2 h g c
    unfold Verif.patt at h
    split at h
    · rename_i hp
      cases h
      obtain ⟨more, hm⟩ := g.pats
      unfold Verif.patt
      rw [hm, List.getElem?_append_left (List.getElem?_eq_some_iff.mp hp).1, hp]
    · cases h

theorem Prog.attPlain (att : Attr) : ∀ (n i : Nat), Prog (attPlain L n i att)
  | 0, _ => .fault _
  | n + 1, i => by
    have ih := attPlain att n
    refine .bind (.patt _) fun p => ?_
    cases p with
    | after l r => exact .bind (ih _) fun _ => after _ _
    | choice l r f => exact .bind (ih _) fun _ => .bind (ih _) fun _ => choice _ _
    | group l r f =>
      exact .bind (ih _) fun _ => .bind (group _ _) fun _ => .bind (ih _) fun _ =>
        .bind (group _ _) fun _ => choice _ _
    | interleave l r f =>
      exact .bind (ih _) fun _ => .bind (interleave _ _) fun _ => .bind (ih _) fun _ =>
        .bind (interleave _ _) fun _ => choice _ _
    | oneOrMore p f =>
      exact .bind (ih _) fun _ => .bind mkEmpty fun _ => .bind (choice _ _) fun _ => group _ _
    | attr nc p =>
      exact .bind (.patt _) fun _ => ite (.bind (valueMatch L _ _ _) fun _ => ite mkEmpty notAllowed) notAllowed
    | _ => exact notAllowed

theorem fa_attPlain (a : Attr) : ∀ (n p : Nat), FA (attPlain L n p a) (attPlain L (n + 1) p a)
  | 0, _ => FA.fuel
  | n + 1, p => by
    have ih := fa_attPlain a n
    refine FA.refl.bind fun pat => ?_
    cases pat with
    | after p1 p2 => exact (ih _).bind fun _ => FA.refl
    | choice p1 p2 f => exact (ih _).bind fun _ => (ih _).bind fun _ => FA.refl
    | group p1 p2 f => exact (ih _).bind fun _ => FA.refl.bind fun _ => (ih _).bind fun _ => FA.refl
    | interleave p1 p2 f => exact (ih _).bind fun _ => FA.refl.bind fun _ => (ih _).bind fun _ => FA.refl
    | oneOrMore p f => exact (ih _).bind fun _ => FA.refl
    | attr nc p =>
      exact FA.refl.bind fun _ => FA.ite ((fa_valueMatch L n _ _).bind fun _ => FA.refl) FA.refl
    | _ => exact FA.refl

theorem fa_attsPlain (n : Nat) : ∀ (as : List Attr) (p : Nat), FA (attsPlain L n p as) (attsPlain L (n + 1) p as)
  | [], _ => FA.refl
  | a :: as, p => by
    simp only [attsPlain]
    exact (fa_attPlain L a n p).bind fun _ => FA.refl.bind fun _ => FA.ite FA.refl (fa_attsPlain n as _)

variable {L}

theorem FM.more {σ α : Type} {x : Nat → ST σ α} (h : FM x) {n m s r} (hn : x n s = .ok r) (hm : n ≤ m) : x m s = .ok r := by
  rw [h.stable (by rw [hn]; simp) hm, hn]

theorem attPlain_more {a : Attr} {n m p s r} (h : attPlain L n p a s = .ok r) (hm : n ≤ m) :
    attPlain L m p a s = .ok r := FM.more (x := fun n => attPlain L n p a) (fun n => fa_attPlain L a n p) h hm

theorem valueMatch_more {n m : Nat} {p : Pat D V} {t s r} (h : valueMatch L n p t s = .ok r) (hm : n ≤ m) :
    valueMatch L m p t s = .ok r := FM.more (x := fun n => valueMatch L n p t) (fun n => fa_valueMatch L n p t) h hm

/-- what a cache may contain: results that would be computed again now -/
def CacheOK (L : Lib D V) (a : Attr) (m : AttMemo) (st : Store D V) : Prop :=
  ∀ p r, m.lookup p = some r → ∃ k, attPlain L k p a st = .ok (r, st)

theorem CacheOK.grow {a : Attr} {m : AttMemo} {st st' : Store D V} (h : CacheOK L a m st) (g : Grown st st')
    (c : st'.pats.length ≤ 0xffff) : CacheOK L a m st' := by
  intro p r hp
  obtain ⟨k, hk⟩ := h p r hp
  exact ⟨k, (Prog.attPlain L a k p).replay hk g c⟩

theorem CacheOK.cons {a : Attr} {m : AttMemo} {st0 st : Store D V} {p r k : Nat} (h : CacheOK L a m st)
    (hp : attPlain L k p a st0 = .ok (r, st)) (c : st.pats.length ≤ 0xffff) : CacheOK L a ((p, r) :: m) st := by
  intro q r' hq
  rw [List.lookup_cons] at hq
  split at hq
  · rename_i he
    have : q = p := by simpa using he
    subst this; cases hq
    exact ⟨k, (Prog.attPlain L a k q).replay hp (.refl _) c⟩
  · exact h q r' hq

theorem Prog.full {α : Type} {x : SM D V α} (hx : Prog x) {st a st'} (h : x st = .ok (a, st'))
    (c : st'.pats.length ≤ 0xffff) : st.pats.length ≤ 0xffff := Nat.le_trans (hx.grown h).length c

theorem attDeriv_plain (a : Attr) : ∀ (n : Nat) {m : AttMemo} {p : Nat} {st st' : Store D V} {r m'},
    attDeriv L n m p a st = .ok ((r, m'), st') → CacheOK L a m st → st'.pats.length ≤ 0xffff →
    (∃ k, attPlain L k p a st = .ok (r, st')) ∧ CacheOK L a m' st'
  | 0, m, p, st, st', r, m', h, _, _ => by cases h
  | n + 1, m, p, st, st', r, m', h, hm, hc => by
    have ih := @attDeriv_plain a n
    have hadd : ∀ {s0 s1 : Store D V} {mm q rr st1}, attDeriv L n mm q a s0 = .ok (rr, s1) →
        Grown s1 st1 → st1.pats.length ≤ 0xffff → CacheOK L a mm s0 →
        (∃ k, attPlain L k q a s0 = .ok (rr.1, s1)) ∧ CacheOK L a rr.2 s1 := by
      intro s0 s1 mm q rr st1 h1 g c hmm
      exact ih (by rw [h1]) hmm (Nat.le_trans g.length c)
    rw [attDeriv] at h
    cases hl : m.lookup p with
    | some x =>
      rw [hl] at h; cases h
      exact ⟨hm p r hl, hm⟩
    | none =>
      rw [hl] at h
      simp only [ST.bind_ok] at h
      obtain ⟨pat, s1, h1, w, s2, h2, h⟩ := h
      cases h
      have hs1 : s1 = st := by
        unfold patt at h1
        split at h1
        · cases h1; rfl
        · cases h1
      subst hs1
      suffices hk : (∃ k, attPlain L k p a s1 = .ok (w.1, st')) ∧ CacheOK L a w.2 st' by
        obtain ⟨⟨k, hk⟩, hw⟩ := hk
        exact ⟨⟨k, hk⟩, hw.cons hk hc⟩
      have other : (notAllowed >>= fun v => Pure.pure (v, m) : SM D V (Nat × AttMemo)) s1 = .ok (w, st') →
          (∀ k, attPlain L (k + 1) p a s1 = notAllowed s1) →
          (∃ k, attPlain L k p a s1 = .ok (w.1, st')) ∧ CacheOK L a w.2 st' := by
        intro h2 e
        obtain ⟨v, s3, h3, h4⟩ := ST.bind_ok.mp h2
        cases h4
        exact ⟨⟨1, (e 0).trans h3⟩, hm.grow (push_grown h3) hc⟩
      have go : ∀ k, attPlain L (k + 1) p a s1 = _ := fun k => ST.bind_of_ok h1
      cases pat with
      | after l r =>
        simp only [attArm, ST.bind_ok] at h2
        obtain ⟨d, t1, e1, v, t2, e2, h2⟩ := h2
        cases h2
        obtain ⟨⟨k, hk⟩, hd⟩ := hadd e1 ((Prog.after _ _).grown e2) hc hm
        exact ⟨⟨k + 1, (go k).trans ((ST.bind_of_ok hk).trans e2)⟩, hd.grow ((Prog.after _ _).grown e2) hc⟩
      | choice l r b =>
        simp only [attArm, ST.bind_ok] at h2
        obtain ⟨d1, t1, e1, d2, t2, e2, v, t3, e3, h2⟩ := h2
        cases h2
        have g3 := (Prog.choice _ _).grown e3
        have g2 := (Prog.attDeriv L a _ _ _).grown e2
        obtain ⟨⟨k1, hk1⟩, hd1⟩ := hadd e1 (g2.trans g3) hc hm
        obtain ⟨⟨k2, hk2⟩, hd2⟩ := hadd e2 g3 hc hd1
        exact ⟨⟨max k1 k2 + 1, (go _).trans ((ST.bind_of_ok (attPlain_more hk1 (by omega))).trans
          ((ST.bind_of_ok (attPlain_more hk2 (by omega))).trans e3))⟩, hd2.grow g3 hc⟩
      | group l r b =>
        simp only [attArm, ST.bind_ok] at h2
        obtain ⟨d1, t1, e1, v1, t2, e2, d2, t3, e3, v2, t4, e4, v3, t5, e5, h2⟩ := h2
        cases h2
        have g5 := (Prog.choice _ _).grown e5
        have g4 := ((Prog.group _ _).grown e4).trans g5
        have g3 := ((Prog.attDeriv L a _ _ _).grown e3).trans g4
        have g2 := (Prog.group _ _).grown e2
        obtain ⟨⟨k1, hk1⟩, hd1⟩ := hadd e1 (g2.trans g3) hc hm
        obtain ⟨⟨k2, hk2⟩, hd2⟩ := hadd e3 g4 hc (hd1.grow g2 (Nat.le_trans g3.length hc))
        exact ⟨⟨max k1 k2 + 1, (go _).trans ((ST.bind_of_ok (attPlain_more hk1 (by omega))).trans
          ((ST.bind_of_ok e2).trans ((ST.bind_of_ok (attPlain_more hk2 (by omega))).trans
          ((ST.bind_of_ok e4).trans e5))))⟩, hd2.grow g4 hc⟩
      | interleave l r b =>
        simp only [attArm, ST.bind_ok] at h2
        obtain ⟨d1, t1, e1, v1, t2, e2, d2, t3, e3, v2, t4, e4, v3, t5, e5, h2⟩ := h2
        cases h2
        have g5 := (Prog.choice _ _).grown e5
        have g4 := ((Prog.interleave _ _).grown e4).trans g5
        have g3 := ((Prog.attDeriv L a _ _ _).grown e3).trans g4
        have g2 := (Prog.interleave _ _).grown e2
        obtain ⟨⟨k1, hk1⟩, hd1⟩ := hadd e1 (g2.trans g3) hc hm
        obtain ⟨⟨k2, hk2⟩, hd2⟩ := hadd e3 g4 hc (hd1.grow g2 (Nat.le_trans g3.length hc))
        exact ⟨⟨max k1 k2 + 1, (go _).trans ((ST.bind_of_ok (attPlain_more hk1 (by omega))).trans
          ((ST.bind_of_ok e2).trans ((ST.bind_of_ok (attPlain_more hk2 (by omega))).trans
          ((ST.bind_of_ok e4).trans e5))))⟩, hd2.grow g4 hc⟩
      | oneOrMore q b =>
        simp only [attArm, ST.bind_ok] at h2
        obtain ⟨d1, t1, e1, v1, t2, e2, v2, t3, e3, v3, t4, e4, h2⟩ := h2
        cases h2
        have g2 := ((push_grown e2).trans ((Prog.choice _ _).grown e3)).trans ((Prog.group _ _).grown e4)
        obtain ⟨⟨k1, hk1⟩, hd1⟩ := hadd e1 g2 hc hm
        exact ⟨⟨k1 + 1, (go _).trans ((ST.bind_of_ok hk1).trans
          ((ST.bind_of_ok e2).trans ((ST.bind_of_ok e3).trans e4)))⟩, hd1.grow g2 hc⟩
      | attr nc q =>
        simp only [attArm] at h2
        obtain ⟨ap, t1, e1, h2⟩ := ST.bind_ok.mp h2
        by_cases hn : contains nc a.name = true
        · rw [if_pos hn] at h2
          simp only [ST.bind_ok] at h2
          obtain ⟨v1, t2, e2, v2, t3, e3, h2⟩ := h2
          cases h2
          refine ⟨⟨n + 1, (go _).trans ((ST.bind_of_ok e1).trans ?_)⟩, hm.grow (((Prog.patt _).grown e1).trans
            (((Prog.valueMatch L _ _ _).grown e2).trans
            ((Prog.ite Prog.mkEmpty Prog.notAllowed).grown e3))) hc⟩
          rw [if_pos hn]
          exact (ST.bind_of_ok e2).trans e3
        · rw [if_neg hn] at h2
          simp only [ST.bind_ok] at h2
          obtain ⟨v2, t3, e3, h2⟩ := h2
          cases h2
          refine ⟨⟨n + 1, (go _).trans ((ST.bind_of_ok e1).trans ?_)⟩, hm.grow (((Prog.patt _).grown e1).trans
            (Prog.notAllowed.grown e3)) hc⟩
          rw [if_neg hn]; exact e3
      | _ => exact other h2 (fun k => go k)

theorem attPlain_deriv (a : Attr) : ∀ (n : Nat) {m : AttMemo} {p : Nat} {st st' : Store D V} {r},
    attPlain L n p a st = .ok (r, st') → CacheOK L a m st → st'.pats.length ≤ 0xffff →
    ∃ m', attDeriv L n m p a st = .ok ((r, m'), st')
  | 0, m, p, st, st', r, h, _, _ => by cases h
  | n + 1, m, p, st, st', r, h, hm, hc => by
    have ih := @attPlain_deriv a n
    have hadd : ∀ {s0 s1 : Store D V} {mm q rr st1}, attPlain L n q a s0 = .ok (rr, s1) →
        Grown s1 st1 → st1.pats.length ≤ 0xffff → CacheOK L a mm s0 →
        ∃ m', attDeriv L n mm q a s0 = .ok ((rr, m'), s1) ∧ CacheOK L a m' s1 := by
      intro s0 s1 mm q rr st1 h1 g c hmm
      obtain ⟨m', h'⟩ := ih h1 hmm (Nat.le_trans g.length c)
      exact ⟨m', h', (attDeriv_plain a n h' hmm (Nat.le_trans g.length c)).2⟩
    rw [attDeriv]
    cases hl : m.lookup p with
    | some x =>
      obtain ⟨k, hk⟩ := hm p x hl
      have e1 := attPlain_more hk (Nat.le_max_left k (n + 1))
      have e2 := attPlain_more h (Nat.le_max_right k (n + 1))
      rw [e1] at e2; cases e2
      exact ⟨m, rfl⟩
    | none =>
      obtain ⟨pat, s1, h1, h2⟩ := ST.bind_ok.mp h
      have hs1 : s1 = st := by
        unfold patt at h1
        split at h1
        · cases h1; rfl
        · cases h1
      subst hs1
      suffices hk : ∃ w, attArm L (fun m p => attDeriv L n m p a) n m p pat a s1 = .ok ((r, w), st') by
        obtain ⟨w, hk⟩ := hk
        exact ⟨_, (ST.bind_of_ok h1).trans ((ST.bind_of_ok hk).trans rfl)⟩
      cases pat with
      | after l r =>
        simp only [ST.bind_ok] at h2
        obtain ⟨d, t1, e1, e2⟩ := h2
        obtain ⟨m1, f1, c1⟩ := hadd e1 ((Prog.after _ _).grown e2) hc hm
        exact ⟨m1, (ST.bind_of_ok f1).trans (ST.bind_of_ok e2)⟩
      | choice l r b =>
        simp only [ST.bind_ok] at h2
        obtain ⟨d1, t1, e1, d2, t2, e2, e3⟩ := h2
        have g3 := (Prog.choice _ _).grown e3
        obtain ⟨m1, f1, c1⟩ := hadd e1 (((Prog.attPlain L a _ _).grown e2).trans g3) hc hm
        obtain ⟨m2, f2, c2⟩ := hadd e2 g3 hc c1
        exact ⟨m2, (ST.bind_of_ok f1).trans ((ST.bind_of_ok f2).trans (ST.bind_of_ok e3))⟩
      | group l r b =>
        simp only [ST.bind_ok] at h2
        obtain ⟨d1, t1, e1, v1, t2, e2, d2, t3, e3, v2, t4, e4, e5⟩ := h2
        have g4 := ((Prog.group _ _).grown e4).trans ((Prog.choice _ _).grown e5)
        have g3 := ((Prog.attPlain L a _ _).grown e3).trans g4
        have g2 := (Prog.group _ _).grown e2
        obtain ⟨m1, f1, c1⟩ := hadd e1 (g2.trans g3) hc hm
        obtain ⟨m2, f2, c2⟩ := hadd e3 g4 hc (c1.grow g2 (Nat.le_trans g3.length hc))
        exact ⟨m2, (ST.bind_of_ok f1).trans ((ST.bind_of_ok e2).trans ((ST.bind_of_ok f2).trans
          ((ST.bind_of_ok e4).trans (ST.bind_of_ok e5))))⟩
      | interleave l r b =>
        simp only [ST.bind_ok] at h2
        obtain ⟨d1, t1, e1, v1, t2, e2, d2, t3, e3, v2, t4, e4, e5⟩ := h2
        have g4 := ((Prog.interleave _ _).grown e4).trans ((Prog.choice _ _).grown e5)
        have g3 := ((Prog.attPlain L a _ _).grown e3).trans g4
        have g2 := (Prog.interleave _ _).grown e2
        obtain ⟨m1, f1, c1⟩ := hadd e1 (g2.trans g3) hc hm
        obtain ⟨m2, f2, c2⟩ := hadd e3 g4 hc (c1.grow g2 (Nat.le_trans g3.length hc))
        exact ⟨m2, (ST.bind_of_ok f1).trans ((ST.bind_of_ok e2).trans ((ST.bind_of_ok f2).trans
          ((ST.bind_of_ok e4).trans (ST.bind_of_ok e5))))⟩
      | oneOrMore q b =>
        simp only [ST.bind_ok] at h2
        obtain ⟨d1, t1, e1, v1, t2, e2, v2, t3, e3, e4⟩ := h2
        have g2 := ((push_grown e2).trans ((Prog.choice _ _).grown e3)).trans ((Prog.group _ _).grown e4)
        obtain ⟨m1, f1, c1⟩ := hadd e1 g2 hc hm
        exact ⟨m1, (ST.bind_of_ok f1).trans ((ST.bind_of_ok e2).trans ((ST.bind_of_ok e3).trans
          (ST.bind_of_ok e4)))⟩
      | attr nc q =>
        obtain ⟨ap, t1, e1, h2⟩ := ST.bind_ok.mp h2
        refine ⟨m, (ST.bind_of_ok e1).trans ?_⟩
        by_cases hn : contains nc a.name = true
        · rw [if_pos hn] at h2 ⊢
          simp only [ST.bind_ok] at h2
          obtain ⟨v1, t2, e2, e3⟩ := h2
          exact (ST.bind_of_ok e2).trans (ST.bind_of_ok e3)
        · rw [if_neg hn] at h2 ⊢
          exact ST.bind_of_ok h2
      | _ => exact ⟨m, ST.bind_of_ok h2⟩

theorem CacheOK.nil {a : Attr} {st : Store D V} : CacheOK L a [] st := by
  intro p r h; simp at h

/-- C20.  The attribute derivative with its cache gives a result, and leaves a pattern table, exactly
when the one without gives that result and leaves that table: with some recursion budget on either
side, as long as the table has not reached its limit of 2^16 patterns. -/
theorem C20_cache_does_not_change_results (a : Attr) (p r : Nat) (st st' : Store D V)
    (hc : st'.pats.length ≤ 0xffff) :
    (∃ n m, attDeriv L n [] p a st = .ok ((r, m), st')) ↔ ∃ n, attPlain L n p a st = .ok (r, st') := by
  constructor
  · rintro ⟨n, m, h⟩; exact (attDeriv_plain a n h .nil hc).1
  · rintro ⟨n, h⟩
    obtain ⟨m, h⟩ := attPlain_deriv a n h .nil hc
    exact ⟨n, m, h⟩

theorem Prog.attsPlain (n : Nat) : ∀ (atts : List Attr) (i : Nat), Prog (attsPlain L n i atts)
  | [], _ => .pure _
  | _ :: atts, _ => .bind (attPlain L _ _ _) fun _ => .bind (.patt _) fun _ =>
      ite (.pure _) (attsPlain n atts _)

/-- C20, for a whole start tag: its attributes, processed one after the other as `close_element_start`
does, give the same verdict, the same next pattern and the same table with and without the cache. -/
theorem C20_cache_does_not_change_start_tags : ∀ (as : List Attr) (p : Nat) (r : Except VErr Nat) (st st' : Store D V),
    st'.pats.length ≤ 0xffff →
    ((∃ n, attsLoop L n p as st = .ok (r, st')) ↔ ∃ n, attsPlain L n p as st = .ok (r, st'))
  | [], p, r, st, st', _ => by
    constructor <;> · rintro ⟨n, h⟩; exact ⟨0, h⟩
  | a :: as, p, r, st, st', hc => by
    have ih := C20_cache_does_not_change_start_tags as
    have same : ∀ {i : Nat} {q : Pat D V} {s s' : Store D V}, patt i s = .ok (q, s') → s' = s := by
      intro i q s s' h
      unfold patt at h
      split at h
      · cases h; rfl
      · cases h
    constructor
    · rintro ⟨n, h⟩
      simp only [attsLoop] at h
      obtain ⟨⟨d, m⟩, t1, e1, h⟩ := ST.bind_ok.mp h
      obtain ⟨q, t2, e2, h3⟩ := ST.bind_ok.mp h
      have := same e2; subst this
      clear h; have h := h3; clear h3
      split at h
      · rename_i hq
        cases h
        obtain ⟨k, hk⟩ := (C20_cache_does_not_change_results a p d st st' hc).mp ⟨n, m, e1⟩
        refine ⟨k, (ST.bind_of_ok hk).trans ((ST.bind_of_ok e2).trans ?_)⟩
        rw [if_pos hq]; rfl
      · rename_i hq
        have g := (Prog.attsLoop L n as d).grown h
        obtain ⟨k, hk⟩ := (C20_cache_does_not_change_results a p d st t2 (Nat.le_trans g.length hc)).mp ⟨n, m, e1⟩
        obtain ⟨k2, hk2⟩ := (ih d r t2 st' hc).mp ⟨n, h⟩
        refine ⟨max k k2, (ST.bind_of_ok (attPlain_more hk (by omega))).trans ((ST.bind_of_ok e2).trans ?_)⟩
        rw [if_neg hq]
        exact FM.more (x := fun n => attsPlain L n d as) (fun n => fa_attsPlain L n as d) hk2 (by omega)
    · rintro ⟨n, h⟩
      simp only [attsPlain] at h
      obtain ⟨d, t1, e1, h⟩ := ST.bind_ok.mp h
      obtain ⟨q, t2, e2, h3⟩ := ST.bind_ok.mp h
      have := same e2; subst this
      clear h; have h := h3; clear h3
      split at h
      · rename_i hq
        cases h
        obtain ⟨k, m, hk⟩ := (C20_cache_does_not_change_results a p d st st' hc).mpr ⟨n, e1⟩
        refine ⟨k, (ST.bind_of_ok hk).trans ((ST.bind_of_ok e2).trans ?_)⟩
        rw [if_pos hq]; rfl
      · rename_i hq
        have g := (Prog.attsPlain n as d).grown h
        obtain ⟨k, m, hk⟩ := (C20_cache_does_not_change_results a p d st t2 (Nat.le_trans g.length hc)).mpr ⟨n, e1⟩
        obtain ⟨k2, hk2⟩ := (ih d r t2 st' hc).mpr ⟨n, h⟩
        refine ⟨max k k2, (ST.bind_of_ok (FM.more (x := fun n => attDeriv L n [] p a)
          (fun n => fa_attDeriv L a n [] p) hk (Nat.le_max_left k k2))).trans ((ST.bind_of_ok e2).trans ?_)⟩
        rw [if_neg hq]
        exact FM.more (x := fun n => attsLoop L n d as) (fun n => fa_attsLoop L n as d) hk2 (by omega)

/-- A pattern met twice, so that the cache is used: `a, a` for one attribute `a`. -/
example : ∃ n m st', attDeriv (V := Str) Ex.lib n [] 2 ⟨⟨none, ['a']⟩, ['v']⟩
      ⟨[.text, .attr .anyName 0, .group 1 1 false], [], []⟩ = .ok ((1, m), st') ∧ st'.pats.length ≤ 0xffff := by
  refine ⟨9, _, _, rfl, ?_⟩
  decide

end Verif
