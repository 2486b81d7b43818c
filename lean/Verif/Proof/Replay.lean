import Verif.Proof.Step
import Verif.Spec.Framing
/-
Running a computation of the validation phase again, in a pattern table that has grown since, gives the same result and does
not change the table.
-/
set_option linter.unusedSectionVars false
namespace Verif.Replay
open Verif
variable {D V : Type} [DecidableEq D] [DecidableEq V]

theorem push_known {p : Pat D V} {i : Nat} {st : Store D V} (h : st.memo.lookup p = some i) (hl : st.pats.length ≤ 0xffff) :
    push p st = .ok (i, st) := by
  unfold push
  rw [if_neg (by omega), h]

theorem push_memo {p : Pat D V} {i : Nat} {st st' : Store D V} (h : push p st = .ok (i, st')) : st'.memo.lookup p = some i := by
  rcases push_cases p st with ⟨_, h'⟩ | ⟨_, j, hj, h'⟩ | ⟨hc, hn, h'⟩
  · rw [h'] at h; cases h
  · rw [h'] at h; cases h; exact hj
  · rw [h'] at h; cases h; simp [List.lookup_cons]

theorem Prog.again {α : Type} {x : SM D V α} (hx : Prog x) : ∀ {st a st' st''}, x st = .ok (a, st') → Grown st' st'' →
    st''.pats.length ≤ 0xffff → x st'' = .ok (a, st'') := by
  induction hx with
  | pure a => intro st b st' st'' h _ _; cases h; rfl
  | fault e => intro st b st' st'' h; cases h
  | bind hx hf ih1 ih2 =>
    intro st b st' st'' h hg hl
    obtain ⟨a, s1, h1, h2⟩ := ST.bind_ok.mp h
    exact ST.bind_ok.mpr ⟨a, st'', ih1 h1 (((hf a).grown h2).trans hg) hl, ih2 a h2 hg hl⟩
  | push p _ => intro st b st' st'' h hg hl; exact push_known (hg.memo _ _ (push_memo h)) hl
  | patt i =>
    intro st b st' st'' h hg hl
    obtain ⟨h1, rfl⟩ := patt_cases h
    obtain ⟨m, hm⟩ := hg.pats
    unfold Verif.patt
    have : st''.pats[i]? = some b := by
      rw [hm, List.getElem?_append_left (List.getElem?_eq_some_iff.mp h1).1]; exact h1
    rw [this]

/-! ### states that resolve names alike -/

/-- `stack` (of one run) and `stack2` (of another) have the same new elements over stacks that resolve prefixes alike;
`began`: there is a new element -/
structure Stacks (began : Prop) (stack stack2 : ElementStack) : Prop where
  look : ∀ pre, lookupNs stack2 pre = lookupNs stack pre
  top : began → ∃ e es es2, stack = e :: es ∧ stack2 = e :: es2 ∧ ∀ pre, lookupNs es2 pre = lookupNs es pre

theorem lookupNs_cons (e : ElementState) {es es2 : ElementStack} (h : ∀ pre, lookupNs es2 pre = lookupNs es pre) (pre : Str) :
    lookupNs (e :: es2) pre = lookupNs (e :: es) pre := by
  simp only [lookupNs, h]

theorem Stacks.current {a b : ElementStack} (h : Stacks True a b) : currentElement b = currentElement a ∧
    currentAttributes b = currentAttributes a := by
  obtain ⟨e, es, es2, rfl, rfl, hl⟩ := h.top trivial
  have ht : ∀ pre, tryLookupNs (e :: es2) pre = tryLookupNs (e :: es) pre := by
    intro pre; simp only [tryLookupNs, h.look]
  refine ⟨?_, ?_⟩
  · simp only [currentElement, ht]
  · simp only [currentAttributes]
    congr 1
    generalize e.attributes = as
    induction as with
    | nil => rfl
    | cons a as ih => simp only [resolveAttrs, resolveAttr, ht, ih]

theorem decode_congr {e e2 : List (Str × Str)} (h : ∀ name, e2.lookup name = e.lookup name) (t : Str) :
    decodeText e2 t = decodeText e t := by
  have : ∀ (l : List (Option Txt)) (buf : Str), decodeLoop e2 t l buf = decodeLoop e t l buf := by
    intro l
    induction l with
    | nil => intro buf; rfl
    | cons x xs ih =>
      intro buf
      rcases x with _ | (c | s | nm) <;> simp only [decodeLoop, ih, h]
  simp only [decodeText, this]

/-- the second validator stands where the first one did -/
structure Point (began : Prop) (s s2 : VState D V) : Prop where
  cur : s2.cur = s.cur
  last : s2.lastWasStart = s.lastWasStart
  stacks : Stacks began s.stack s2.stack
  ents : ∀ name, s2.entities.lookup name = s.entities.lookup name

/-- a token that begins an element -/
def Begins (t : Token) : Prop := ∃ p l, t = .elementStart p l

theorem liftS_of {α : Type} {x : SM D V α} {s : VState D V} {a} {st : Store D V} (h : x s.store = .ok (a, st)) :
    liftS x s = .ok (a, { s with store := st }) := by
  simp only [liftS, h]

theorem liftS_again {α : Type} {x : SM D V α} (hx : Prog x) {st : Store D V} {a st'} {s2 : VState D V} (h : x st = .ok (a, st'))
    (hg : Grown st' s2.store) (hl : s2.store.pats.length ≤ 0xffff) : liftS x s2 = .ok (a, s2) := by
  rw [liftS_of (Prog.again hx h hg hl)]

theorem Grown.get' {st st' : Store D V} (h : Grown st st') {i : Nat} {p : Pat D V} (hp : st.pats[i]? = some p) :
    st'.pats[i]? = some p := by
  obtain ⟨m, hm⟩ := h.pats
  rw [hm, List.getElem?_append_left (List.getElem?_eq_some_iff.mp hp).1]; exact hp

theorem liftS_patt_of {i : Nat} {s : VState D V} {p} (h : s.store.pats[i]? = some p) : liftS (patt i) s = .ok (p, s) := by
  have : patt i s.store = .ok (p, s.store) := by unfold patt; rw [h]
  rw [liftS_of this]

/-- `finish`, again -/
theorem finish_again {t : Token} {i : Nat} {s s' s2 : VState D V} {st' r} {b : Prop}
    (h : finish t i { s with store := st' } = .ok (r, s')) (hp : Point b s s2) (hg : Grown s'.store s2.store) :
    ∃ s2', finish t i s2 = .ok (r, s2') ∧ s2'.store = s2.store ∧ Point b s' s2' := by
  obtain ⟨p, h1, h2⟩ := finish_cases h
  have hp2 : s2.store.pats[i]? = some p := by
    apply Grown.get' hg
    rcases h2 with ⟨_, _, rfl⟩ | ⟨_, _, rfl⟩ <;> exact h1
  have hf : finish t i s2 = if p.isNotAllowed then .ok (.error (.notAllowed t), { s2 with lastWasStart := t.isStart })
      else .ok (.ok (), { s2 with lastWasStart := t.isStart, cur := i }) := by
    have hs : (match t with | .elementStart _ _ => true | _ => false) = t.isStart := by cases t <;> rfl
    by_cases hn : p.isNotAllowed = true
    · rw [if_pos hn]
      simp only [finish, hs]
      refine ST.bind_ok.mpr ⟨s2, s2, rfl, ST.bind_ok.mpr ⟨(), { s2 with lastWasStart := t.isStart }, by cases t <;> rfl, ST.bind_ok.mpr
        ⟨p, _, liftS_patt_of hp2, ?_⟩⟩⟩
      rw [if_pos hn]; rfl
    · rw [if_neg hn]
      simp only [finish, hs]
      refine ST.bind_ok.mpr ⟨s2, s2, rfl, ST.bind_ok.mpr ⟨(), { s2 with lastWasStart := t.isStart }, by cases t <;> rfl, ST.bind_ok.mpr
        ⟨p, _, liftS_patt_of hp2, ?_⟩⟩⟩
      rw [if_neg hn]; rfl
  rcases h2 with ⟨hn, rfl, rfl⟩ | ⟨hn, rfl, rfl⟩
  · exact ⟨_, hf.trans (if_pos hn), rfl, hp.cur, rfl, hp.stacks, hp.ents⟩
  · exact ⟨_, hf.trans (if_neg (by rw [hn]; nofun)), rfl, rfl, rfl, hp.stacks, hp.ents⟩

theorem Stacks.weaken {a b : Prop} {x y : ElementStack} (h : Stacks a x y) (hab : b → a) : Stacks b x y := ⟨h.look, fun hb => h.top (hab hb)⟩

theorem Point.weaken {a b : Prop} {x y : VState D V} (h : Point a x y) (hab : b → a) : Point b x y :=
  ⟨h.cur, h.last, h.stacks.weaken hab, h.ents⟩

variable (L : Lib D V)

/-- one token, again -/
theorem validate_again {n : Nat} {t : Token} {s s1 s2 : VState D V} {r} {b : Prop} (h : validate L n t s = .ok (r, s1))
    (hp : Point b s s2) (hg : Grown s1.store s2.store) (hl : s2.store.pats.length ≤ 0xffff) (hb : t.needsElement = true → b) :
    ∃ s2', validate L n t s2 = .ok (r, s2') ∧ s2'.store = s2.store ∧ Point (b ∨ Begins t) s1 s2' := by
  have hg0 := (validate_grown L h).trans hg
  simp only [validate, ST.bind_ok] at h
  obtain ⟨_, _, h1, p, z, h2, h⟩ := h
  cases h1
  obtain ⟨hpc, rfl⟩ := liftS_patt h2
  have hpat : liftS (patt s2.cur) s2 = .ok (p, s2) := by
    rw [hp.cur]; exact liftS_patt_of (Grown.get' hg0 hpc)
  have nb : ∀ {q : Prop}, (¬ Begins t) → (b ∨ Begins t → b) := fun h => by
    rintro (h' | h')
    · exact h'
    · exact absurd h' h
  cases t with
  | emptyDtd => cases h; exact ⟨s2, ST.bind_ok.mpr ⟨s2, s2, rfl, ST.bind_ok.mpr ⟨p, s2, hpat, rfl⟩⟩, rfl, hp.weaken (nb (q := True) (by rintro ⟨_, _, h⟩; cases h))⟩
  | comment => cases h; exact ⟨s2, ST.bind_ok.mpr ⟨s2, s2, rfl, ST.bind_ok.mpr ⟨p, s2, hpat, rfl⟩⟩, rfl, hp.weaken (nb (q := True) (by rintro ⟨_, _, h⟩; cases h))⟩
  | processingInstruction => cases h; exact ⟨s2, ST.bind_ok.mpr ⟨s2, s2, rfl, ST.bind_ok.mpr ⟨p, s2, hpat, rfl⟩⟩, rfl, hp.weaken (nb (q := True) (by rintro ⟨_, _, h⟩; cases h))⟩
  | declaration => cases h; exact ⟨s2, ST.bind_ok.mpr ⟨s2, s2, rfl, ST.bind_ok.mpr ⟨p, s2, hpat, rfl⟩⟩, rfl, hp.weaken (nb (q := True) (by rintro ⟨_, _, h⟩; cases h))⟩
  | dtdStart => cases h; exact ⟨s2, ST.bind_ok.mpr ⟨s2, s2, rfl, ST.bind_ok.mpr ⟨p, s2, hpat, rfl⟩⟩, rfl, hp.weaken (nb (q := True) (by rintro ⟨_, _, h⟩; cases h))⟩
  | dtdEnd => cases h; exact ⟨s2, ST.bind_ok.mpr ⟨s2, s2, rfl, ST.bind_ok.mpr ⟨p, s2, hpat, rfl⟩⟩, rfl, hp.weaken (nb (q := True) (by rintro ⟨_, _, h⟩; cases h))⟩
  | elementStart a l =>
    simp only [ST.bind_ok] at h
    obtain ⟨_, _, h1, h⟩ := h
    cases h1; cases h
    refine ⟨{ s2 with stack := ⟨a, l, [], []⟩ :: s2.stack }, ST.bind_ok.mpr ⟨s2, s2, rfl, ST.bind_ok.mpr ⟨p, s2, hpat, ST.bind_ok.mpr ⟨(), _, rfl, rfl⟩⟩⟩, rfl, hp.cur, hp.last,
      ⟨lookupNs_cons _ hp.stacks.look, fun _ => ⟨_, _, _, rfl, rfl, hp.stacks.look⟩⟩, hp.ents⟩
  | «attribute» a l v =>
    obtain ⟨e, es, es2, he, he2, hl2⟩ := hp.stacks.top (hb rfl)
    simp only [he, ST.bind_ok] at h
    obtain ⟨_, _, h1, h⟩ := h
    cases h1; cases h
    refine ⟨{ s2 with stack := e.addAttr a l v :: es2 }, ST.bind_ok.mpr ⟨s2, s2, rfl, ST.bind_ok.mpr ⟨p, s2, hpat, ?_⟩⟩, rfl, hp.cur, hp.last, ⟨lookupNs_cons _ hl2, fun _ => ⟨_, _, _, rfl, rfl, hl2⟩⟩, hp.ents⟩
    simp only [he2]
    exact ST.bind_ok.mpr ⟨(), _, rfl, rfl⟩
  | entityDeclaration nm d =>
    cases d with
    | entityValue v =>
      simp only [ST.bind_ok] at h
      obtain ⟨_, _, h1, h⟩ := h
      cases h1; cases h
      refine ⟨{ s2 with entities := (nm, v) :: s2.entities }, ST.bind_ok.mpr ⟨s2, s2, rfl, ST.bind_ok.mpr ⟨p, s2, hpat, ST.bind_ok.mpr ⟨(), _, rfl, rfl⟩⟩⟩, rfl, hp.cur, hp.last,
        hp.stacks.weaken (nb (q := True) (by rintro ⟨_, _, h⟩; cases h)), fun name => ?_⟩
      simp only [List.lookup_cons, hp.ents]
    | externalId => cases h; exact ⟨s2, ST.bind_ok.mpr ⟨s2, s2, rfl, ST.bind_ok.mpr ⟨p, s2, hpat, rfl⟩⟩, rfl, hp.weaken (nb (q := True) (by rintro ⟨_, _, h⟩; cases h))⟩
  | cdata t =>
    simp only [ST.bind_ok] at h
    obtain ⟨i, _, h1, h⟩ := h
    obtain ⟨st', h1', rfl⟩ := liftS_cases h1
    have gf : Grown st' s1.store := by
      obtain ⟨_, _, ⟨_, _, rfl⟩ | ⟨_, _, rfl⟩⟩ := finish_cases h <;> exact .refl _
    obtain ⟨s2', h3, h4, h5⟩ := finish_again h hp hg
    exact ⟨s2', ST.bind_ok.mpr ⟨s2, s2, rfl, ST.bind_ok.mpr ⟨p, s2, hpat, ST.bind_ok.mpr ⟨i, s2, liftS_again (Prog.textDeriv L _ _ _) h1' (gf.trans hg) hl, h3⟩⟩⟩, h4,
      h5.weaken (nb (q := True) (by rintro ⟨_, _, h⟩; cases h))⟩
  | text t =>
    cases hd : decodeText z.entities t with
    | error e =>
      simp only [hd] at h; cases h
      refine ⟨s2, ST.bind_ok.mpr ⟨s2, s2, rfl, ST.bind_ok.mpr ⟨p, s2, hpat, ?_⟩⟩, rfl, hp.weaken (nb (q := True) (by rintro ⟨_, _, h⟩; cases h))⟩
      simp only [decode_congr hp.ents, hd]; rfl
    | ok data =>
      simp only [hd, ST.bind_ok] at h
      obtain ⟨i, _, h1, q, _, h3, h⟩ := h
      obtain ⟨st', h1', rfl⟩ := liftS_cases h1
      obtain ⟨hq, rfl⟩ := liftS_patt h3
      by_cases hn : q.isNotAllowed = true
      · rw [if_pos hn] at h
        cases h
        refine ⟨s2, ST.bind_ok.mpr ⟨s2, s2, rfl, ST.bind_ok.mpr ⟨p, s2, hpat, ?_⟩⟩, rfl, hp.cur, hp.last, hp.stacks.weaken (nb (q := True) (by rintro ⟨_, _, h⟩; cases h)), hp.ents⟩
        simp only [decode_congr hp.ents, hd]
        refine ST.bind_ok.mpr ⟨i, s2, liftS_again (Prog.textDeriv L _ _ _) h1' hg hl, ST.bind_ok.mpr ⟨q, s2, liftS_patt_of (Grown.get' hg hq), ?_⟩⟩
        rw [if_pos hn]; rfl
      · rw [if_neg hn] at h
        have gf : Grown st' s1.store := by
          obtain ⟨_, _, ⟨_, _, rfl⟩ | ⟨_, _, rfl⟩⟩ := finish_cases h <;> exact .refl _
        obtain ⟨s2', h3, h4, h5⟩ := finish_again h hp hg
        refine ⟨s2', ST.bind_ok.mpr ⟨s2, s2, rfl, ST.bind_ok.mpr ⟨p, s2, hpat, ?_⟩⟩, h4, h5.weaken (nb (q := True) (by rintro ⟨_, _, h⟩; cases h))⟩
        simp only [decode_congr hp.ents, hd]
        refine ST.bind_ok.mpr ⟨i, s2, liftS_again (Prog.textDeriv L _ _ _) h1' (gf.trans hg) hl, ST.bind_ok.mpr ⟨q, s2, liftS_patt_of (Grown.get' (gf.trans hg) hq), ?_⟩⟩
        rw [if_neg hn]; exact h3
  | elementEnd e =>
    have hnb : ¬ Begins (.elementEnd e) := by rintro ⟨_, _, h⟩; cases h
    cases e with
    | close a l =>
      simp only [ST.bind_ok] at h
      obtain ⟨i, _, h1, h⟩ := h
      obtain ⟨st', h1', rfl⟩ := liftS_cases h1
      have gf : Grown st' s1.store := by
        obtain ⟨_, _, ⟨_, _, rfl⟩ | ⟨_, _, rfl⟩⟩ := finish_cases h <;> exact .refl _
      obtain ⟨s2', h3, h4, h5⟩ := finish_again h hp hg
      refine ⟨s2', ST.bind_ok.mpr ⟨s2, s2, rfl, ST.bind_ok.mpr ⟨p, s2, hpat, ST.bind_ok.mpr ⟨i, s2, ?_, h3⟩⟩⟩, h4, h5.weaken (nb (q := True) hnb)⟩
      rw [hp.last]
      exact liftS_again (Prog.endTagStep L _ _ _) h1' (gf.trans hg) hl
    | «open» =>
      obtain ⟨hce, hca⟩ := (hp.stacks.weaken fun _ => hb rfl).current
      have hc : closeElementStart L n s2.stack (.elementEnd .open) p = closeElementStart L n z.stack (.elementEnd .open) p := by
        simp only [closeElementStart, hce, hca]
      simp only [ST.bind_ok] at h
      obtain ⟨o, _, h1, h⟩ := h
      obtain ⟨st', h1', rfl⟩ := liftS_cases h1
      cases o with
      | error e =>
        cases h
        refine ⟨s2, ST.bind_ok.mpr ⟨s2, s2, rfl, ST.bind_ok.mpr ⟨p, s2, hpat, ST.bind_ok.mpr ⟨.error e, s2, ?_, rfl⟩⟩⟩, rfl, hp.cur, hp.last, hp.stacks.weaken (nb (q := True) hnb), hp.ents⟩
        rw [hc]; exact liftS_again (Prog.closeElementStart L _ _ _ _) h1' hg hl
      | ok i =>
        have gf : Grown st' s1.store := by
          obtain ⟨_, _, ⟨_, _, rfl⟩ | ⟨_, _, rfl⟩⟩ := finish_cases h <;> exact .refl _
        obtain ⟨s2', h3, h4, h5⟩ := finish_again h hp hg
        refine ⟨s2', ST.bind_ok.mpr ⟨s2, s2, rfl, ST.bind_ok.mpr ⟨p, s2, hpat, ST.bind_ok.mpr ⟨.ok i, s2, ?_, h3⟩⟩⟩, h4, h5.weaken (nb (q := True) hnb)⟩
        rw [hc]; exact liftS_again (Prog.closeElementStart L _ _ _ _) h1' (gf.trans hg) hl
    | empty =>
      obtain ⟨hce, hca⟩ := (hp.stacks.weaken fun _ => hb rfl).current
      have hc : closeElementStart L n s2.stack (.elementEnd .empty) p = closeElementStart L n z.stack (.elementEnd .empty) p := by
        simp only [closeElementStart, hce, hca]
      simp only [ST.bind_ok] at h
      obtain ⟨o, _, h1, h⟩ := h
      obtain ⟨st', h1', rfl⟩ := liftS_cases h1
      cases o with
      | error e =>
        cases h
        refine ⟨s2, ST.bind_ok.mpr ⟨s2, s2, rfl, ST.bind_ok.mpr ⟨p, s2, hpat, ST.bind_ok.mpr ⟨.error e, s2, ?_, rfl⟩⟩⟩, rfl, hp.cur, hp.last, hp.stacks.weaken (nb (q := True) hnb), hp.ents⟩
        rw [hc]; exact liftS_again (Prog.closeElementStart L _ _ _ _) h1' hg hl
      | ok i =>
        simp only [ST.bind_ok] at h
        obtain ⟨q, _, h3, j, _, h4, h⟩ := h
        obtain ⟨hq, rfl⟩ := liftS_patt h3
        obtain ⟨st2, h4', rfl⟩ := liftS_cases h4
        have gf : Grown st2 s1.store := by
          obtain ⟨_, _, ⟨_, _, rfl⟩ | ⟨_, _, rfl⟩⟩ := finish_cases h <;> exact .refl _
        have ge := (Prog.endTagStep L _ _ _).grown h4'
        obtain ⟨s2', h5, h6, h7⟩ := finish_again (s := z) (st' := st2) h hp hg
        refine ⟨s2', ST.bind_ok.mpr ⟨s2, s2, rfl, ST.bind_ok.mpr ⟨p, s2, hpat, ST.bind_ok.mpr ⟨.ok i, s2, ?_, ST.bind_ok.mpr ⟨q, s2, ?_, ST.bind_ok.mpr ⟨j, s2, ?_, h5⟩⟩⟩⟩⟩, h6, h7.weaken (nb (q := True) hnb)⟩
        · rw [hc]; exact liftS_again (Prog.closeElementStart L _ _ _ _) h1' (ge.trans (gf.trans hg)) hl
        · exact liftS_patt_of (Grown.get' (ge.trans (gf.trans hg)) hq)
        · rw [hp.last]; exact liftS_again (Prog.endTagStep L _ _ _) h4' (gf.trans hg) hl

theorem validateEvent_grown {n : Nat} {e : Event} {s s' : VState D V} {r} (h : validateEvent L n e s = .ok (r, s')) :
    Grown s.store s'.store := (validateEvent_step L h).1.grown

/-- tokens of a start tag only where there is one -/
def Tagged : Prop → List Event → Prop
  | _, [] => True
  | b, none :: es => Tagged b es
  | b, some t :: es => (t.needsElement = true → b) ∧ Tagged (b ∨ Begins t) es

/-- a sequence of items, again -/
theorem runEvents_again {n : Nat} : ∀ {es : List Event} {b : Prop} {s s1 s2 : VState D V} {rs}, runEvents L n es s = .ok (rs, s1) →
    Point b s s2 → Grown s1.store s2.store → s2.store.pats.length ≤ 0xffff → Tagged b es →
    ∃ s3, runEvents L n es s2 = .ok (rs, s3) ∧ s3.store = s2.store ∧ Point b s1 s3
  | [], b, s, s1, s2, rs, h, hp, _, _, _ => by cases h; exact ⟨s2, rfl, rfl, hp⟩
  | none :: es, b, s, s1, s2, rs, h, hp, hg, hl, ht => by
    simp only [runEvents, ST.bind_ok] at h
    obtain ⟨r, t1, h1, rs', t2, h2, h⟩ := h
    cases h; cases h1
    obtain ⟨s3, h3, h4, h5⟩ := runEvents_again h2 hp hg hl ht
    exact ⟨s3, ST.bind_ok.mpr ⟨_, s2, rfl, ST.bind_ok.mpr ⟨rs', s3, h3, rfl⟩⟩, h4, h5⟩
  | some t :: es, b, s, s1, s2, rs, h, hp, hg, hl, ht => by
    simp only [runEvents, ST.bind_ok] at h
    obtain ⟨r, t1, h1, rs', t2, h2, h⟩ := h
    cases h
    obtain ⟨s2', h3, h4, h5⟩ := validate_again L h1 hp ((runEvents_evo L h2).1.grown.trans hg) hl ht.1
    obtain ⟨s3, h6, h7, h8⟩ := runEvents_again h2 h5 (h4 ▸ hg) (h4 ▸ hl) ht.2
    exact ⟨s3, ST.bind_ok.mpr ⟨_, s2', h3, ST.bind_ok.mpr ⟨rs', s3, h6, rfl⟩⟩, h7.trans h4, h8.weaken Or.inl⟩

theorem tagged_of {es : List Event} {b : Prop} (h : ∀ before t after, es = before ++ some t :: after → t.needsElement = true →
    b ∨ ∃ p l, some (Token.elementStart p l) ∈ before) : Tagged b es := by
  induction es generalizing b with
  | nil => trivial
  | cons e es ih =>
    cases e with
    | none =>
      refine ih fun before t after he hn => ?_
      rcases h (none :: before) t after (by rw [he]; rfl) hn with h1 | ⟨p, l, h1⟩
      · exact .inl h1
      · exact .inr ⟨p, l, by simpa using h1⟩
    | some x =>
      refine ⟨fun hn => ?_, ih fun before t after he hn => ?_⟩
      · rcases h [] x es rfl hn with h1 | ⟨p, l, h1⟩
        · exact h1
        · cases h1
      · rcases h (some x :: before) t after (by rw [he]; rfl) hn with h1 | ⟨p, l, h1⟩
        · exact .inl (.inl h1)
        · rcases List.mem_cons.mp h1 with h1 | h1
          · exact .inl (.inr ⟨p, l, by injection h1 with h1; exact h1.symm⟩)
          · exact .inr ⟨p, l, h1⟩

theorem tagged_framed {es : List Event} (h : Framed es) : Tagged False es :=
  tagged_of fun before t after he hn => .inr (h before t after he hn)

end Verif.Replay
