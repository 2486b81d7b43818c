import Verif.Proof.Prog
/-
What one call of `validate` can change.
-/
set_option linter.unusedSectionVars false
namespace Verif
variable {D V : Type} [DecidableEq D] [DecidableEq V]

theorem liftS_cases {α : Type} {x : SM D V α} {s s' : VState D V} {a} (h : liftS x s = .ok (a, s')) :
    ∃ st', x s.store = .ok (a, st') ∧ s' = { s with store := st' } := by
  unfold liftS at h
  split at h
  · rename_i h'; cases h; exact ⟨_, h', rfl⟩
  · cases h

theorem patt_cases {i : Nat} {st st' : Store D V} {p} (h : patt i st = .ok (p, st')) :
    st.pats[i]? = some p ∧ st' = st := by
  unfold patt at h
  split at h
  · rename_i h'; cases h; exact ⟨h', rfl⟩
  · cases h

theorem liftS_patt {i : Nat} {s s' : VState D V} {p} (h : liftS (patt i) s = .ok (p, s')) :
    s.store.pats[i]? = some p ∧ s' = s := by
  obtain ⟨st', h1, rfl⟩ := liftS_cases h
  obtain ⟨h2, rfl⟩ := patt_cases h1
  exact ⟨h2, rfl⟩

/-- the value `finish` gives to `last_was_start_element` -/
def Token.isStart : Token → Bool
  | .elementStart _ _ => true
  | _ => false

/-- what `finish` does -/
theorem finish_cases {t : Token} {i : Nat} {s s' : VState D V} {r} (h : finish t i s = .ok (r, s')) :
    ∃ p, s.store.pats[i]? = some p ∧
      ((p.isNotAllowed = true ∧ r = .error (.notAllowed t) ∧ s' = { s with lastWasStart := t.isStart }) ∨
       (p.isNotAllowed = false ∧ r = .ok () ∧ s' = { s with lastWasStart := t.isStart, cur := i })) := by
  simp only [finish, ST.bind_ok] at h
  obtain ⟨_, _, h1, _, _, h2, p, _, h3, h⟩ := h
  cases h1; cases h2
  obtain ⟨h4, rfl⟩ := liftS_patt h3
  refine ⟨p, h4, ?_⟩
  by_cases hp : p.isNotAllowed = true
  · rw [if_pos hp] at h
    cases h
    exact Or.inl ⟨hp, rfl, by cases t <;> rfl⟩
  · rw [if_neg hp] at h
    simp only [ST.bind_ok] at h
    obtain ⟨_, _, h1, _, _, h2, h⟩ := h
    cases h1; cases h2; cases h
    exact Or.inr ⟨by simpa using hp, rfl, by cases t <;> rfl⟩

/-- `st'` comes from `st` by some computation of the validation phase -/
def Evo (st st' : Store D V) : Prop := ∃ x : SM D V Unit, Prog x ∧ x st = .ok ((), st')

theorem Evo.refl (st : Store D V) : Evo st st := ⟨_, .pure (), rfl⟩

theorem Evo.trans {a b c : Store D V} (h1 : Evo a b) (h2 : Evo b c) : Evo a c := by
  obtain ⟨x, hx, h1⟩ := h1
  obtain ⟨y, hy, h2⟩ := h2
  exact ⟨_, .bind hx fun _ => hy, (ST.bind_of_ok h1).trans h2⟩

theorem Prog.evo {α : Type} {x : SM D V α} (hx : Prog x) {st a st'} (h : x st = .ok (a, st')) : Evo st st' :=
  ⟨_, .bind hx fun _ => .pure (), ST.bind_of_ok h⟩

theorem Evo.grown {a b : Store D V} (h : Evo a b) : Grown a b := by
  obtain ⟨x, hx, h⟩ := h
  exact hx.grown h

/-- what one token may change -/
structure Step (t : Token) (s s' : VState D V) (r : Except VErr Unit) : Prop where
  evo : Evo s.store s'.store
  err : ∀ e, r = .error e → s'.cur = s.cur
  cur : s'.cur = s.cur ∨ ∃ p, s'.store.pats[s'.cur]? = some p ∧ p.isNotAllowed = false
  last : s.lastWasStart = false → s'.lastWasStart = false
  stack : (∀ a l, t ≠ .elementStart a l) → (∀ a l v, t ≠ .attribute a l v) → s'.stack = s.stack
  ents : (∀ n v, t ≠ .entityDeclaration n (.entityValue v)) → s'.entities = s.entities

theorem Step.same {t : Token} {s : VState D V} {r} : Step t s s r :=
  ⟨.refl _, fun _ _ => rfl, Or.inl rfl, id, fun _ _ => rfl, fun _ => rfl⟩

theorem Step.store {t : Token} {s : VState D V} {st' r} (h : Evo s.store st') : Step t s { s with store := st' } r :=
  ⟨h, fun _ _ => rfl, Or.inl rfl, id, fun _ _ => rfl, fun _ => rfl⟩

theorem Step.fin {t : Token} {i : Nat} {s s' : VState D V} {st' r} (hg : Evo s.store st')
    (h : finish t i { s with store := st' } = .ok (r, s')) (ht : t.isStart = false) : Step t s s' r := by
  obtain ⟨p, hp, ⟨h1, rfl, rfl⟩ | ⟨h1, rfl, rfl⟩⟩ := finish_cases h
  · exact ⟨hg, fun _ _ => rfl, Or.inl rfl, fun _ => ht, fun _ _ => rfl, fun _ => rfl⟩
  · exact ⟨hg, nofun, Or.inr ⟨p, hp, h1⟩, fun _ => ht, fun _ _ => rfl, fun _ => rfl⟩

theorem validate_step (L : Lib D V) {n : Nat} {t : Token} {s s' : VState D V} {r}
    (h : validate L n t s = .ok (r, s')) : Step t s s' r := by
  simp only [validate, ST.bind_ok] at h
  obtain ⟨_, _, h1, p, s1, h2, h⟩ := h
  cases h1
  obtain ⟨hp, rfl⟩ := liftS_patt h2
  cases t with
  | emptyDtd => cases h; exact .same
  | comment => cases h; exact .same
  | processingInstruction => cases h; exact .same
  | declaration => cases h; exact .same
  | dtdStart => cases h; exact .same
  | dtdEnd => cases h; exact .same
  | elementStart a l =>
    simp only [ST.bind_ok] at h
    obtain ⟨_, _, h1, h⟩ := h
    cases h1; cases h
    exact ⟨.refl _, fun _ _ => rfl, Or.inl rfl, id, fun h => absurd rfl (h a l), fun _ => rfl⟩
  | «attribute» a l v =>
    cases hst : s1.stack with
    | nil => simp only [hst] at h; cases h
    | cons e es =>
      simp only [hst, ST.bind_ok] at h
      obtain ⟨_, _, h1, h⟩ := h
      cases h1; cases h
      exact ⟨.refl _, fun _ _ => rfl, Or.inl rfl, id, fun _ h => absurd rfl (h a l v), fun _ => rfl⟩
  | entityDeclaration a b =>
    cases b with
    | entityValue v =>
      simp only [ST.bind_ok] at h
      obtain ⟨_, _, h1, h⟩ := h
      cases h1; cases h
      exact ⟨.refl _, fun _ _ => rfl, Or.inl rfl, id, fun _ _ => rfl, fun h => absurd rfl (h a v)⟩
    | externalId => cases h; exact .same
  | cdata t =>
    simp only [ST.bind_ok] at h
    obtain ⟨i, s2, h1, h⟩ := h
    obtain ⟨st', h1', rfl⟩ := liftS_cases h1
    exact .fin ((Prog.textDeriv L _ _ _).evo h1') h rfl
  | text t =>
    cases hd : decodeText s1.entities t with
    | error e => simp only [hd] at h; cases h; exact .same
    | ok data =>
      simp only [hd, ST.bind_ok] at h
      obtain ⟨i, s2, h1, q, s3, h3, h⟩ := h
      obtain ⟨st', h1', rfl⟩ := liftS_cases h1
      obtain ⟨_, rfl⟩ := liftS_patt h3
      have g := (Prog.textDeriv L _ _ _).evo h1'
      split at h
      · cases h; exact .store g
      · exact .fin g h rfl
  | elementEnd e =>
    cases e with
    | «open» =>
      simp only [ST.bind_ok] at h
      obtain ⟨o, s2, h1, h⟩ := h
      obtain ⟨st', h1', rfl⟩ := liftS_cases h1
      have g := (Prog.closeElementStart L _ _ _ _).evo h1'
      cases o with
      | error e => cases h; exact .store g
      | ok i => exact .fin g h rfl
    | close a b =>
      simp only [ST.bind_ok] at h
      obtain ⟨i, s2, h1, h⟩ := h
      obtain ⟨st', h1', rfl⟩ := liftS_cases h1
      exact .fin ((Prog.endTagStep L _ _ _).evo h1') h rfl
    | empty =>
      simp only [ST.bind_ok] at h
      obtain ⟨o, s2, h1, h⟩ := h
      obtain ⟨st', h1', rfl⟩ := liftS_cases h1
      have g := (Prog.closeElementStart L _ _ _ _).evo h1'
      cases o with
      | error e => cases h; exact .store g
      | ok i =>
        simp only [ST.bind_ok] at h
        obtain ⟨q, s3, h3, j, s4, h4, h⟩ := h
        obtain ⟨_, rfl⟩ := liftS_patt h3
        obtain ⟨st2, h4', rfl⟩ := liftS_cases h4
        exact .fin (g.trans ((Prog.endTagStep L _ _ _).evo h4')) h rfl

/-- what a sequence of items may change -/
theorem validateEvent_step (L : Lib D V) {n : Nat} {e : Event} {s s' : VState D V} {r}
    (h : validateEvent L n e s = .ok (r, s')) : Evo s.store s'.store ∧ (∀ err, r = .error err → s'.cur = s.cur) ∧
      (s'.cur = s.cur ∨ ∃ p, s'.store.pats[s'.cur]? = some p ∧ p.isNotAllowed = false) ∧
      (s.lastWasStart = false → s'.lastWasStart = false) := by
  cases e with
  | none => cases h; exact ⟨.refl _, fun _ _ => rfl, Or.inl rfl, id⟩
  | some t => have := validate_step L h; exact ⟨this.evo, this.err, this.cur, this.last⟩

theorem runEvents_evo (L : Lib D V) {n : Nat} : ∀ {es : List Event} {s s' : VState D V} {rs},
    runEvents L n es s = .ok (rs, s') → Evo s.store s'.store ∧
      (s'.cur = s.cur ∨ ∃ p, s'.store.pats[s'.cur]? = some p ∧ p.isNotAllowed = false)
  | [], s, s', rs, h => by cases h; exact ⟨.refl _, Or.inl rfl⟩
  | e :: es, s, s', rs, h => by
    simp only [runEvents, ST.bind_ok] at h
    obtain ⟨r, s1, h1, rs', s2, h2, h⟩ := h
    cases h
    obtain ⟨g1, _, c1, _⟩ := validateEvent_step L h1
    obtain ⟨g2, c2⟩ := runEvents_evo L h2
    refine ⟨g1.trans g2, ?_⟩
    rcases c2 with c2 | c2
    · rcases c1 with c1 | ⟨p, hp, hq⟩
      · exact Or.inl (c2.trans c1)
      · refine Or.inr ⟨p, ?_, hq⟩
        obtain ⟨m, hm⟩ := g2.grown.pats
        rw [c2, hm, List.getElem?_append_left]
        · exact hp
        · exact (List.getElem?_eq_some_iff.mp hp).1
    · exact Or.inr c2

end Verif
