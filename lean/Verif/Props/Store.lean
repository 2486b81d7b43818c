import Verif.Proof.CompileInv
import Verif.Proof.Fuel
import Verif.Spec.Reach
import Verif.Props.Example
/-
C04, C05, C10, C11, C12: the pattern table and the validator's state.
-/
namespace Verif
variable {D V : Type} [DecidableEq D] [DecidableEq V] {L : Lib D V}

/-! ### reachable states -/

theorem runEvents_last {n : Nat} : ∀ {es : List Event} {s s' : VState D V} {rs},
    runEvents L n es s = .ok (rs, s') → s.lastWasStart = false → s'.lastWasStart = false
  | [], s, s', rs, h, hl => by cases h; exact hl
  | e :: es, s, s', rs, h, hl => by
    simp only [runEvents, ST.bind_ok] at h
    obtain ⟨r, s1, h1, rs', s2, h2, h⟩ := h
    cases h
    exact runEvents_last h2 ((validateEvent_step L h1).2.2.2 hl)

theorem newValidator_last {env : Env D V} {n : Nat} {start : Pattern D V} {s : VState D V}
    (h : newValidator env n start = .ok s) : s.lastWasStart = false ∧ s.stack = [] ∧ s.entities = predefined := by
  unfold newValidator at h
  split at h
  · cases h
  · cases h; exact ⟨rfl, rfl, rfl⟩

theorem Grown.get {st st' : Store D V} (h : Grown st st') {i : Nat} {p : Pat D V} (hp : st.pats[i]? = some p) :
    st'.pats[i]? = some p := by
  obtain ⟨m, hm⟩ := h.pats
  rw [hm, List.getElem?_append_left]
  · exact hp
  · exact (List.getElem?_eq_some_iff.mp hp).1

theorem Grown.length {st st' : Store D V} (h : Grown st st') : st.pats.length ≤ st'.pats.length := by
  obtain ⟨m, hm⟩ := h.pats
  rw [hm]; simp

theorem Reach.ci {s : VState D V} (h : Reach L s) :
    CI s.store ∧ s.cur < s.store.pats.length ∧ s.lastWasStart = false := by
  obtain ⟨env, start, fuel, s0, n, es, rs, h1, h2⟩ := h
  obtain ⟨c1, c2⟩ := newValidator_ci h1
  obtain ⟨g1, g2⟩ := runEvents_evo L h2
  refine ⟨g1.ci c1, ?_, runEvents_last h2 (newValidator_last h1).1⟩
  rcases g2 with g2 | ⟨p, hp, _⟩
  · rw [g2]; exact Nat.lt_of_lt_of_le c2 g1.grown.length
  · exact (List.getElem?_eq_some_iff.mp hp).1

theorem Reach.cur {s : VState D V} (h : Reach L s) : ∃ p, s.store.pats[s.cur]? = some p :=
  ⟨_, List.getElem?_eq_getElem h.ci.2.1⟩

theorem Reach.new {env : Env D V} {n : Nat} {start : Pattern D V} {s : VState D V}
    (h : newValidator env n start = .ok s) : Reach L s :=
  ⟨env, start, n, s, 0, [], [], h, rfl⟩

theorem fm_runEvents (es : List Event) : FM (fun n => runEvents L n es) := fun n => fa_runEvents L n es

theorem runEvents_more {n m : Nat} {es : List Event} {s s' : VState D V} {rs} (h : runEvents L n es s = .ok (rs, s'))
    (hm : n ≤ m) : runEvents L m es s = .ok (rs, s') := by
  have := (fm_runEvents (L := L) es).stable (n := n) (m := m) (s := s) (by simp only [h]; nofun) hm
  exact this.trans h

theorem runEvents_append {n : Nat} : ∀ (a b : List Event) {s s1 s2 : VState D V} {r1 r2},
    runEvents L n a s = .ok (r1, s1) → runEvents L n b s1 = .ok (r2, s2) →
    runEvents L n (a ++ b) s = .ok (r1 ++ r2, s2)
  | [], b, s, s1, s2, r1, r2, h1, h2 => by cases h1; exact h2
  | e :: a, b, s, s1, s2, r1, r2, h1, h2 => by
    simp only [runEvents, ST.bind_ok] at h1
    obtain ⟨r, t1, g1, rs, t2, g2, h1⟩ := h1
    cases h1
    simp only [List.cons_append, runEvents, ST.bind_ok]
    exact ⟨r, t1, g1, _, _, runEvents_append a b g2 h2, rfl⟩

/-- going on from a reachable state -/
theorem Reach.step {n : Nat} {es : List Event} {s s' : VState D V} {rs} (h : Reach L s)
    (hr : runEvents L n es s = .ok (rs, s')) : Reach L s' := by
  obtain ⟨env, start, fuel, s0, m, es0, rs0, h1, h2⟩ := h
  exact ⟨env, start, fuel, s0, max m n, es0 ++ es, rs0 ++ rs, h1,
    runEvents_append _ _ (runEvents_more h2 (by omega)) (runEvents_more hr (by omega))⟩

theorem Reach.tok {n : Nat} {t : Token} {s s' : VState D V} {r} (h : Reach L s)
    (hr : validate L n t s = .ok (r, s')) : Reach L s' := by
  refine h.step (n := n) (es := [some t]) (rs := [r]) ?_
  simp only [runEvents, ST.bind_ok]
  exact ⟨r, s', hr, [], s', rfl, rfl⟩

/-! ### C04 -/

/-- C04.  Whatever items follow, an identity keeps denoting the same pattern. -/
theorem C04_identities_stable {n : Nat} {es : List Event} {s s' : VState D V} {rs}
    (h : runEvents L n es s = .ok (rs, s')) (i : Nat) (p : Pat D V) (hp : s.store.pats[i]? = some p) :
    s'.store.pats[i]? = some p :=
  (runEvents_evo L h).1.grown.get hp

/-- C04.  Constructing a pattern gives an identity that denotes it (so different patterns never share
one); constructing it again, however many items later, gives the same identity and adds nothing. -/
theorem C04_identities_canonical {n : Nat} {es : List Event} {s s' : VState D V} {rs p i j st st'}
    (hs : Reach L s) (hp : p.isPlaceholder = false) (h1 : push p s.store = .ok (i, st))
    (hr : runEvents L n es { s with store := st } = .ok (rs, s')) (h2 : push p s'.store = .ok (j, st')) :
    st.pats[i]? = some p ∧ j = i ∧ st' = s'.store := by
  obtain ⟨ci, _⟩ := hs.ci
  have hm : st.memo.lookup p = some i ∧ st.pats[i]? = some p := by
    have hci := (k_push p _ _ _ ci h1).1
    have : st.memo.lookup p = some i := by
      rcases push_cases p s.store with ⟨_, h'⟩ | ⟨_, k, hk, h'⟩ | ⟨hc, hn, h'⟩
      · rw [h'] at h1; cases h1
      · rw [h'] at h1; cases h1; exact hk
      · rw [h'] at h1; cases h1; simp
    exact ⟨this, hci.memo _ _ this hp⟩
  refine ⟨hm.2, ?_⟩
  have hm' := (runEvents_evo L hr).1.grown.memo _ _ hm.1
  rcases push_cases p s'.store with ⟨_, h'⟩ | ⟨_, k, hk, h'⟩ | ⟨hc, hn, h'⟩
  · rw [h'] at h2; cases h2
  · rw [h'] at h2; cases h2; rw [hk] at hm'; cases hm'; exact ⟨rfl, rfl⟩
  · rw [hm'] at hn; cases hn

/-- in particular two different patterns never get the same identity -/
theorem C04_identities_distinct {s : VState D V} {p q i st j st'} (hs : Reach L s) (hp : p.isPlaceholder = false)
    (hq : q.isPlaceholder = false) (h1 : push p s.store = .ok (i, st)) (h2 : push q st = .ok (j, st')) (hne : p ≠ q) :
    i ≠ j := by
  rintro rfl
  obtain ⟨ci, _⟩ := hs.ci
  have a1 := k_push p _ _ _ ci h1
  have a2 := k_push q _ _ _ a1.1 h2
  have hm : ∀ {p : Pat D V} {st st' : Store D V} {i}, push p st = .ok (i, st') → st'.memo.lookup p = some i := by
    intro p st st' i h1
    rcases push_cases p st with ⟨_, h'⟩ | ⟨_, k, hk, h'⟩ | ⟨hc, hn, h'⟩
    · rw [h'] at h1; cases h1
    · rw [h'] at h1; cases h1; exact hk
    · rw [h'] at h1; cases h1; simp
  have e1 := (push_grown h2).get (a1.1.memo _ _ (hm h1) hp)
  have e2 := a2.1.memo _ _ (hm h2) hq
  rw [e1] at e2
  cases e2
  exact hne rfl

/-- a new pattern pushed in the initial state of the example, the whole document read, pushed again -/
example : ∃ i st rs s' j st', push (.after 0 1) Ex.v0.store = .ok (i, st) ∧
    runEvents Ex.lib 50 (Ex.doc.toks.map some) { Ex.v0 with store := st } = .ok (rs, s') ∧
    s'.store.pats.length > st.pats.length ∧ push (.after 0 1) s'.store = .ok (j, st') ∧ j = i := by
  have key : (match push (.after 0 1) Ex.v0.store with
    | .ok (_, st) => match runEvents Ex.lib 50 (Ex.doc.toks.map some) { Ex.v0 with store := st } with
      | .ok (_, s') => match push (.after 0 1) s'.store with
        | .ok _ => decide (s'.store.pats.length > st.pats.length)
        | _ => false
      | _ => false
    | _ => false) = true := by decide +kernel
  split at key
  · rename_i i st h1
    split at key
    · rename_i rs s' h2
      split at key
      · rename_i r h3
        exact ⟨i, st, rs, s', r.1, r.2, h1, h2, by simpa using key, h3,
          (C04_identities_canonical (.new Ex.new_ok) rfl h1 h2 h3).2.1⟩
      · cases key
    · cases key
  · cases key

/-! ### C05 -/

/-- C05.  In every reachable state there are at most 65536 patterns, the current pattern exists, and a
newly constructed pattern gets an identity that fits 16 bits; a pattern not constructed before gets
an identity no older pattern has. -/
theorem C05_pattern_limit {s : VState D V} (hs : Reach L s) :
    s.store.pats.length ≤ 65536 ∧ s.cur < s.store.pats.length ∧
    ∀ p i st, push p s.store = .ok (i, st) → i < 65536 ∧ i < st.pats.length ∧ st.pats.length ≤ 65536 ∧
      (s.store.memo.lookup p = none → i = s.store.pats.length) := by
  obtain ⟨ci, hc, _⟩ := hs.ci
  refine ⟨ci.len, hc, fun p i st h => ?_⟩
  obtain ⟨c', _, hi⟩ := k_push p _ _ _ ci h
  refine ⟨Nat.lt_of_lt_of_le hi c'.len, hi, c'.len, fun hn => ?_⟩
  rcases push_cases p s.store with ⟨_, h'⟩ | ⟨_, k, hk, h'⟩ | ⟨hc, hn, h'⟩
  · rw [h'] at h; cases h
  · rw [hn] at hk; cases hk
  · rw [h'] at h; cases h; rfl

/-- C05.  Constructing a pattern aborts exactly when the table is full (even for a pattern it already
holds, which would not have needed room). -/
theorem C05_full_table_aborts (st : Store D V) (p : Pat D V) :
    (65536 ≤ st.pats.length → push p st = .error .capacity) ∧
    (st.pats.length < 65536 → ∃ i st', push p st = .ok (i, st')) := by
  rcases push_cases p st with ⟨h, h'⟩ | ⟨h, k, _, h'⟩ | ⟨h, _, h'⟩
  · exact ⟨fun _ => h', fun _ => by omega⟩
  · exact ⟨fun _ => by omega, fun _ => ⟨_, _, h'⟩⟩
  · exact ⟨fun _ => by omega, fun _ => ⟨_, _, h'⟩⟩

example : Reach Ex.lib Ex.v0 ∧ ∃ i st, push (.after 0 1) Ex.v0.store = .ok (i, st) ∧ i = Ex.v0.store.pats.length := by
  refine ⟨.new Ex.new_ok, ?_⟩
  have : Ex.v0.store.pats.length < 65536 ∧ Ex.v0.store.memo.lookup (.after 0 1) = none := by decide +kernel
  obtain ⟨i, st, h⟩ := (C05_full_table_aborts Ex.v0.store (.after 0 1)).2 this.1
  exact ⟨i, st, h, ((C05_pattern_limit (L := Ex.lib) (.new Ex.new_ok)).2.2 _ _ _ h).2.2.2 this.2⟩

/-! ### C12 -/

/-- C12.  An error leaves the current pattern, everything it refers to, the open elements and the
entities unchanged. -/
theorem C12_error_keeps_state {n : Nat} {e : Event} {s s' : VState D V} {err}
    (h : validateEvent L n e s = .ok (.error err, s')) :
    s'.cur = s.cur ∧ (∀ (i : Nat) (p : Pat D V), s.store.pats[i]? = some p → s'.store.pats[i]? = some p) ∧
      s'.stack = s.stack ∧ s'.entities = s.entities := by
  cases e with
  | none => cases h; exact ⟨rfl, fun _ _ h => h, rfl, rfl⟩
  | some t =>
    have hst := validate_step L (t := t) h
    have hval : validate L n t s = .ok (.error err, s') := h
    refine ⟨hst.err _ rfl, fun i p hp => hst.evo.grown.get hp, ?_, ?_⟩
    · refine hst.stack (fun a l => ?_) (fun a l v => ?_)
      · rintro rfl
        simp only [validate, ST.bind_ok] at hval
        obtain ⟨_, _, h1, p, s1, h2, _, _, h3, hval⟩ := hval
        cases hval
      · rintro rfl
        simp only [validate, ST.bind_ok] at hval
        obtain ⟨s0, _, h1, p, s1, h2, hval⟩ := hval
        cases hst : s0.stack with
        | nil => simp only [hst] at hval; cases hval
        | cons x xs =>
          simp only [hst, ST.bind_ok] at hval
          obtain ⟨_, _, h3, hval⟩ := hval
          cases hval
    · refine hst.ents fun a v => ?_
      rintro rfl
      simp only [validate, ST.bind_ok] at hval
      obtain ⟨_, _, h1, p, s1, h2, _, _, h3, hval⟩ := hval
      cases hval

/-- an error on an unexpected element, to which the theorem applies -/
example : ∃ e s', validateEvent Ex.lib 20 (some (.cdata ['x'])) Ex.v0 = .ok (.error e, s') ∧ s'.cur = Ex.v0.cur := by
  have : (match validateEvent Ex.lib 20 (some (.cdata ['x'])) Ex.v0 with
    | .ok (.error _, _) => true | _ => false) = true := by decide +kernel
  split at this
  · rename_i h; exact ⟨_, _, h, (C12_error_keeps_state h).1⟩
  · cases this

/-! ### C10 -/

/-- tokens that carry no content: comments, processing instructions, declarations, DTD brackets -/
def Token.contentless : Token → Bool
  | .comment => true
  | .processingInstruction => true
  | .declaration => true
  | .dtdStart => true
  | .dtdEnd => true
  | .emptyDtd => true
  | _ => false

/-- C10.  Such a token is accepted in every reachable state and changes nothing. -/
theorem C10_contentless_tokens_do_nothing {n : Nat} {t : Token} {s : VState D V} (hs : Reach L s)
    (ht : t.contentless = true) : validate L n t s = .ok (.ok (), s) := by
  obtain ⟨p, hp⟩ := hs.cur
  have h1 : liftS (patt s.cur) s = .ok (p, s) := by simp only [liftS, patt, hp]
  cases t <;> first | (cases ht; done) | exact (ST.bind_of_ok (a := s) (s' := s) rfl).trans (ST.bind_of_ok h1)

/-- C10.  Removing them changes neither the verdict nor the state reached. -/
theorem C10_removing_contentless_tokens {n : Nat} : ∀ (ts : List Token) {s : VState D V}, Reach L s →
    runToks L n (ts.filter fun t => !t.contentless) s = runToks L n ts s
  | [], s, _ => rfl
  | t :: ts, s, hs => by
    cases ht : t.contentless with
    | true =>
      simp only [List.filter, ht, Bool.not_true]
      rw [C10_removing_contentless_tokens ts hs]
      exact (show runToks L n ts s = runToks L n (t :: ts) s from
        ((ST.bind_of_ok (C10_contentless_tokens_do_nothing hs ht) :
          runToks L n (t :: ts) s = _)).symm)
    | false =>
      simp only [List.filter, ht, Bool.not_false]
      cases h : validate L n t s with
      | error e => exact (ST.bind_of_error h).trans (ST.bind_of_error h).symm
      | ok r =>
        obtain ⟨r, s1⟩ := r
        refine (ST.bind_of_ok h).trans (Eq.trans ?_ (ST.bind_of_ok h).symm)
        cases r with
        | error e => rfl
        | ok u => exact C10_removing_contentless_tokens ts (hs.tok h)

example : Reach Ex.lib Ex.v0 ∧ (Ex.doc.toks.filter fun t => !t.contentless) ≠ Ex.doc.toks := by
  exact ⟨.new Ex.new_ok, by decide⟩

/-! ### C11 -/

/-- what a caller sees: an abort, an error, or success with the state reached -/
def outcome {σ : Type} : Except Fault (Except VErr Unit × σ) → Except Fault (Option σ)
  | .error e => .error e
  | .ok (.error _, _) => .ok none
  | .ok (.ok (), s) => .ok (some s)

theorem outcome_cons {n : Nat} {t : Token} {ts : List Token} {s : VState D V} :
    outcome (runToks L n (t :: ts) s) = match outcome (validate L n t s) with
      | .error e => .error e
      | .ok none => .ok none
      | .ok (some s') => outcome (runToks L n ts s') := by
  cases h : validate L n t s with
  | error e =>
    have : runToks L n (t :: ts) s = .error e := ST.bind_of_error h
    rw [this]; rfl
  | ok r =>
    obtain ⟨r, s1⟩ := r
    have : runToks L n (t :: ts) s = _ := ST.bind_of_ok h
    rw [this]
    cases r <;> rfl

/-- the result without the error's content -/
def forget {α σ : Type} : Except Fault (Except VErr α × σ) → Except Fault (Option α × σ)
  | .error e => .error e
  | .ok (.error _, s) => .ok (none, s)
  | .ok (.ok a, s) => .ok (some a, s)

theorem forget_bind {α β σ : Type} {x : ST σ β} {f g : β → ST σ (Except VErr α)} {s : σ}
    (h : ∀ b s', x s = .ok (b, s') → forget (f b s') = forget (g b s')) :
    forget ((x >>= f) s) = forget ((x >>= g) s) := by
  cases hx : x s with
  | error e => rw [ST.bind_of_error hx, ST.bind_of_error hx]
  | ok r =>
    obtain ⟨b, s1⟩ := r
    rw [ST.bind_of_ok hx, ST.bind_of_ok hx]
    exact h b s1 hx

theorem closeElementStart_forget (n : Nat) (stack : ElementStack) (t t' : Token) (p : Pat D V) (st : Store D V) :
    forget (closeElementStart L n stack t p st) = forget (closeElementStart L n stack t' p st) := by
  unfold closeElementStart
  cases currentElement stack with
  | none => rfl
  | some c =>
    cases c with
    | error e => rfl
    | ok name =>
      refine forget_bind fun d s1 _ => forget_bind fun dp s2 _ => ?_
      by_cases hd : dp.isNotAllowed = true
      · simp only [if_pos hd]
      · simp only [if_neg hd]
        cases currentAttributes stack with
        | none => rfl
        | some c =>
          cases c with
          | error e => rfl
          | ok atts =>
            refine forget_bind fun r s3 _ => ?_
            cases r with
            | error e => rfl
            | ok d2 =>
              refine forget_bind fun p2 s4 _ => ?_
              by_cases h2 : p2.isNotAllowed = true
              · simp only [if_pos h2]; rfl
              · simp only [if_neg h2]
                refine forget_bind fun d3 s5 _ => forget_bind fun p3 s6 _ => ?_
                by_cases h3 : p3.isNotAllowed = true
                · simp only [if_pos h3]; rfl
                · simp only [if_neg h3]

theorem closeElementStart_allowed {n : Nat} {stack : ElementStack} {t : Token} {p : Pat D V} {st st' : Store D V} {i}
    (h : closeElementStart L n stack t p st = .ok (.ok i, st')) :
    ∃ q, st'.pats[i]? = some q ∧ q.isNotAllowed = false := by
  unfold closeElementStart at h
  cases hc : currentElement stack with
  | none => simp only [hc] at h; cases h
  | some c =>
  cases c with
  | error e => simp only [hc] at h; cases h
  | ok name =>
    simp only [hc, ST.bind_ok] at h
    obtain ⟨d, s1, h1, dp, s2, h2, h⟩ := h
    by_cases hd : dp.isNotAllowed = true
    · simp only [if_pos hd] at h; cases h
    · simp only [if_neg hd] at h
      cases ha : currentAttributes stack with
      | none => simp only [ha] at h; cases h
      | some c =>
      cases c with
      | error e => simp only [ha] at h; cases h
      | ok atts =>
        simp only [ha, ST.bind_ok] at h
        obtain ⟨r, s3, h3, h⟩ := h
        cases r with
        | error e => cases h
        | ok d2 =>
          simp only [ST.bind_ok] at h
          obtain ⟨p2, s4, h4, h⟩ := h
          by_cases h2 : p2.isNotAllowed = true
          · simp only [if_pos h2] at h; cases h
          · simp only [if_neg h2, ST.bind_ok] at h
            obtain ⟨d3, s5, h5, p3, s6, h6, h⟩ := h
            by_cases h3 : p3.isNotAllowed = true
            · simp only [if_pos h3] at h; cases h
            · simp only [if_neg h3] at h
              cases h
              obtain ⟨h7, rfl⟩ := patt_cases h6
              exact ⟨p3, h7, by simpa using h3⟩

omit [DecidableEq D] [DecidableEq V] in
theorem finish_outcome {t t' : Token} {i : Nat} {s : VState D V} (ht : t.isStart = t'.isStart) :
    outcome (finish t i s) = outcome (finish t' i s) := by
  cases h : s.store.pats[i]? with
  | none =>
    have key : ∀ t, finish t i s = .error .oob := by
      intro t
      simp only [finish, ST.get, ST.set, liftS, patt, bind, ST.bind, h]
    rw [key, key]
  | some p =>
    have key : ∀ t : Token, outcome (finish t i s) =
        if p.isNotAllowed then .ok none else .ok (some { s with lastWasStart := t.isStart, cur := i }) := by
      intro t
      by_cases hp : p.isNotAllowed = true
      · simp only [finish, ST.get, ST.set, liftS, patt, bind, ST.bind, h, if_pos hp]; rfl
      · simp only [finish, ST.get, ST.set, liftS, patt, bind, ST.bind, h, if_neg hp]
        cases t <;> rfl
    rw [key, key, ht]

/-- the tag itself: `/>` does what `>` followed by any end tag does. -/
theorem empty_tag_step {n : Nat} {s : VState D V} (hs : s.lastWasStart = false) (pre loc : Str) :
    outcome (runToks L n [.elementEnd .empty] s) =
      outcome (runToks L n [.elementEnd .open, .elementEnd (.close pre loc)] s) := by
  rw [outcome_cons, outcome_cons]
  cases hp : s.store.pats[s.cur]? with
  | none =>
    have key : ∀ t, validate L n t s = .error .oob := by
      intro t
      refine (ST.bind_of_ok (a := s) (s' := s) rfl).trans (ST.bind_of_error ?_)
      simp only [liftS, patt, hp]
    rw [key, key]; rfl
  | some p =>
    have h1 : liftS (patt s.cur) s = .ok (p, s) := by simp only [liftS, patt, hp]
    have e1 : validate L n (.elementEnd .empty) s = _ :=
      (ST.bind_of_ok (a := s) (s' := s) rfl).trans (ST.bind_of_ok h1)
    have e2 : validate L n (.elementEnd .open) s = _ :=
      (ST.bind_of_ok (a := s) (s' := s) rfl).trans (ST.bind_of_ok h1)
    dsimp only at e1 e2
    have hf := closeElementStart_forget (L := L) n s.stack (.elementEnd .empty) (.elementEnd .open) p s.store
    cases hc : closeElementStart L n s.stack (.elementEnd .empty) p s.store with
    | error e =>
      have hc' : closeElementStart L n s.stack (.elementEnd .open) p s.store = .error e := by
        rw [hc] at hf
        revert hf
        cases closeElementStart L n s.stack (.elementEnd .open) p s.store with
        | error e' => intro hf; cases hf; rfl
        | ok r => obtain ⟨r, _⟩ := r; cases r <;> nofun
      have l1 : liftS (closeElementStart L n s.stack (.elementEnd .empty) p) s = .error e := by simp only [liftS, hc]
      have l2 : liftS (closeElementStart L n s.stack (.elementEnd .open) p) s = .error e := by simp only [liftS, hc']
      rw [e1, e2, ST.bind_of_error l1, ST.bind_of_error l2]
      rfl
    | ok r =>
      obtain ⟨r, st⟩ := r
      cases r with
      | error e =>
        obtain ⟨e', hc'⟩ : ∃ e', closeElementStart L n s.stack (.elementEnd .open) p s.store = .ok (.error e', st) := by
          rw [hc] at hf
          revert hf
          cases closeElementStart L n s.stack (.elementEnd .open) p s.store with
          | error e' => nofun
          | ok r => obtain ⟨r, _⟩ := r; cases r with
            | error e' => intro hf; cases hf; exact ⟨_, rfl⟩
            | ok _ => nofun
        have l1 : liftS (closeElementStart L n s.stack (.elementEnd .empty) p) s = .ok (.error e, { s with store := st }) := by simp only [liftS, hc]
        have l2 : liftS (closeElementStart L n s.stack (.elementEnd .open) p) s = .ok (.error e', { s with store := st }) := by simp only [liftS, hc']
        rw [e1, e2, ST.bind_of_ok l1, ST.bind_of_ok l2]
        rfl
      | ok i =>
        have hc' : closeElementStart L n s.stack (.elementEnd .open) p s.store = .ok (.ok i, st) := by
          rw [hc] at hf
          revert hf
          cases closeElementStart L n s.stack (.elementEnd .open) p s.store with
          | error e' => nofun
          | ok r => obtain ⟨r, _⟩ := r; cases r with
            | error e' => nofun
            | ok _ => intro hf; cases hf; rfl
        have l1 : liftS (closeElementStart L n s.stack (.elementEnd .empty) p) s = .ok (.ok i, { s with store := st }) := by simp only [liftS, hc]
        have l2 : liftS (closeElementStart L n s.stack (.elementEnd .open) p) s = .ok (.ok i, { s with store := st }) := by simp only [liftS, hc']
        rw [e1, e2, ST.bind_of_ok l1, ST.bind_of_ok l2]
        obtain ⟨q, hq, hqa⟩ := closeElementStart_allowed hc
        have l3 : liftS (patt i) { s with store := st } = .ok (q, { s with store := st }) := by simp only [liftS, patt, hq]
        have l4 : finish (.elementEnd .open) i { s with store := st } =
            .ok (.ok (), { s with store := st, lastWasStart := false, cur := i }) := by
          have hn : ¬ (q.isNotAllowed = true) := by simp [hqa]
          simp only [finish, ST.get, ST.set, liftS, patt, bind, ST.bind, hq, if_neg hn]; rfl
        simp only [l4]
        have hs1 : ({ s with store := st, lastWasStart := false, cur := i } : VState D V) = { s with store := st, cur := i } := by
          rw [← hs]
        simp only [hs1]
        show _ = outcome (runToks L n [.elementEnd (.close pre loc)] { s with store := st, cur := i })
        rw [outcome_cons]
        have l5 : liftS (patt i) { s with store := st, cur := i } = .ok (q, { s with store := st, cur := i }) := by
          simp only [liftS, patt, hq]
        have e3 : validate L n (.elementEnd (.close pre loc)) { s with store := st, cur := i } = _ :=
          (ST.bind_of_ok (a := { s with store := st, cur := i }) (s' := { s with store := st, cur := i }) rfl).trans (ST.bind_of_ok l5)
        dsimp only at e3
        rw [e3]
        simp only [ST.bind_of_ok l3]
        cases he : endTagStep L n s.lastWasStart q st with
        | error e =>
          rw [ST.bind_of_error (e := e) (by simp only [liftS, he]), ST.bind_of_error (e := e) (by simp only [liftS, he])]
        | ok r =>
          obtain ⟨j, st2⟩ := r
          rw [ST.bind_of_ok (a := j) (s' := { s with store := st2 }) (by simp only [liftS, he]),
            ST.bind_of_ok (a := j) (s' := { s with store := st2, cur := i }) (by simp only [liftS, he])]
          cases h6 : st2.pats[j]? with
          | none =>
            simp only [finish, ST.get, ST.set, liftS, patt, bind, ST.bind, h6]
          | some q' =>
            by_cases hq' : q'.isNotAllowed = true
            · simp only [finish, ST.get, ST.set, liftS, patt, bind, ST.bind, h6, if_pos hq']
              rfl
            · simp only [finish, ST.get, ST.set, liftS, patt, bind, ST.bind, h6, if_neg hq']

theorem outcome_append {n : Nat} : ∀ (a b : List Token) {s : VState D V},
    outcome (runToks L n (a ++ b) s) = match outcome (runToks L n a s) with
      | .error e => .error e
      | .ok none => .ok none
      | .ok (some s') => outcome (runToks L n b s')
  | [], b, s => rfl
  | t :: a, b, s => by
    rw [List.cons_append, outcome_cons, outcome_cons]
    cases outcome (validate L n t s) with
    | error e => rfl
    | ok o =>
      cases o with
      | none => rfl
      | some s1 => exact outcome_append a b

theorem outcome_ok {n : Nat} {ts : List Token} {s s' : VState D V}
    (h : outcome (runToks L n ts s) = .ok (some s')) : runToks L n ts s = .ok (.ok (), s') := by
  revert h
  cases runToks L n ts s with
  | error e => nofun
  | ok r =>
    obtain ⟨r, s1⟩ := r
    cases r with
    | error e => nofun
    | ok u => intro h; cases h; rfl

theorem Reach.toks {n : Nat} : ∀ {ts : List Token} {s s' : VState D V}, Reach L s →
    runToks L n ts s = .ok (.ok (), s') → Reach L s'
  | [], s, s', h, hr => by cases hr; exact h
  | t :: ts, s, s', h, hr => by
    simp only [runToks, ST.bind_ok] at hr
    obtain ⟨r, s1, h1, hr⟩ := hr
    cases r with
    | error e => cases hr
    | ok u => exact (h.tok h1).toks hr

/-- C11.  Anywhere in a token sequence, writing an empty-element tag `<a …/>` as a start tag followed
at once by an end tag changes neither the verdict nor the state reached. -/
theorem C11_empty_element_tags {n : Nat} {s : VState D V} (hs : Reach L s) (before after : List Token)
    (pre loc : Str) :
    outcome (runToks L n (before ++ .elementEnd .empty :: after) s) =
      outcome (runToks L n (before ++ .elementEnd .open :: .elementEnd (.close pre loc) :: after) s) := by
  rw [outcome_append, outcome_append]
  cases h : outcome (runToks L n before s) with
  | error e => rfl
  | ok o =>
    cases o with
    | none => rfl
    | some s1 =>
      have hs1 := (hs.toks (outcome_ok h)).ci.2.2
      show outcome (runToks L n ([.elementEnd .empty] ++ after) s1) =
        outcome (runToks L n ([.elementEnd .open, .elementEnd (.close pre loc)] ++ after) s1)
      rw [outcome_append, outcome_append, empty_tag_step hs1 pre loc]

/-- the example document holds an empty-element tag and is accepted; so it is with the tag expanded -/
example : ∃ before after s, Ex.doc.toks = before ++ .elementEnd .empty :: after ∧
    outcome (runToks Ex.lib 50 (before ++ .elementEnd .open :: .elementEnd (.close ['p'] ['i', 't', 'e', 'm']) :: after)
      Ex.v0) = .ok (some s) := by
  obtain ⟨s, hs⟩ := Ex.accepted
  obtain ⟨before, after, h⟩ : ∃ before after, Ex.doc.toks = before ++ .elementEnd .empty :: after :=
    List.append_of_mem (by decide)
  refine ⟨before, after, s, h, ?_⟩
  rw [← C11_empty_element_tags (.new Ex.new_ok), ← h, hs]
  rfl

end Verif
