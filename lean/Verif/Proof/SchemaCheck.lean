import Verif.Proof.SchemaMain
/-
`check` always comes to an end.
-/
namespace Verif

/-- with enough fuel the result is the same, and it is not `fuel` -/
def Sett {α : Type} (f : Nat → Except CFault α) : Prop := ∃ N R, R ≠ .error .fuel ∧ ∀ m, N ≤ m → f m = R

theorem Sett.const {α : Type} (R : Except CFault α) (h : R ≠ .error .fuel) : Sett fun _ => R := ⟨0, R, h, fun _ _ => rfl⟩

theorem Sett.shift {α : Type} {f : Nat → Except CFault α} (h : Sett fun m => f (m + 1)) : Sett f := by
  obtain ⟨N, R, hR, h⟩ := h
  refine ⟨N + 1, R, hR, fun m hm => ?_⟩
  obtain ⟨m, rfl⟩ : ∃ m', m = m' + 1 := ⟨m - 1, by omega⟩
  exact h m (by omega)

theorem Sett.bind {α β : Type} {f : Nat → Except CFault α} {g : Nat → α → Except CFault β} (h : Sett f)
    (hg : ∀ a N, f N = .ok a → Sett fun m => g m a) : Sett fun m => f m >>= g m := by
  obtain ⟨N, R, hR, h⟩ := h
  cases R with
  | error e => exact ⟨N, .error e, fun h => hR (by cases h; rfl), fun m hm => by dsimp only; rw [h m hm]; rfl⟩
  | ok a =>
    obtain ⟨N', R', hR', h'⟩ := hg a N (h N (Nat.le_refl _))
    refine ⟨max N N', R', hR', fun m hm => ?_⟩
    dsimp only
    rw [h m (by omega)]
    exact h' m (by omega)

section
variable (cells : List (Option DefineRule))

/-- how many cells have not been seen -/
def unseen (seen : List Nat) : Nat := ((List.range cells.length).filter fun k => decide (k ∉ seen)).length

variable {cells}

theorem filter_length_le {p q : Nat → Bool} : ∀ {l : List Nat}, (∀ k ∈ l, p k → q k) → (l.filter p).length ≤ (l.filter q).length
  | [], _ => Nat.le_refl _
  | k :: l, h => by
    have ih := filter_length_le (l := l) (p := p) (q := q) fun j hj => h j (by simp [hj])
    have hk := h k (by simp)
    by_cases hp : p k
    · simp [List.filter_cons, hp, hk hp, ih]
    · by_cases hq : q k <;> simp [List.filter_cons, hp, hq] <;> omega

theorem filter_length_lt {p q : Nat → Bool} : ∀ {l : List Nat} {k : Nat}, (∀ k ∈ l, p k → q k) → k ∈ l → q k → ¬ p k →
    (l.filter p).length < (l.filter q).length
  | [], _, _, h, _, _ => nomatch h
  | j :: l, k, h, hk, hq, hp => by
    have hle := filter_length_le (l := l) (p := p) (q := q) fun j hj => h j (by simp [hj])
    rcases List.mem_cons.mp hk with rfl | hk
    · simp [List.filter_cons, hq, hp]; omega
    · have ih := filter_length_lt (l := l) (fun j hj => h j (by simp [hj])) hk hq hp
      have hj := h j (by simp)
      by_cases hp : p j
      · simp [List.filter_cons, hp, hj hp, ih]
      · by_cases hq : q j <;> simp [List.filter_cons, hp, hq] <;> omega

theorem unseen_mono {s s' : List Nat} (h : ∀ k ∈ s, k ∈ s') : unseen cells s' ≤ unseen cells s := by
  refine filter_length_le fun k _ hk => ?_
  simp only [decide_eq_true_eq] at *
  exact fun h' => hk (h k h')

theorem unseen_cons {s : List Nat} {k : Nat} (hk : k < cells.length) (hs : k ∉ s) : unseen cells (k :: s) < unseen cells s := by
  refine filter_length_lt (k := k) (fun j _ hj => ?_) (by simpa using hk) (by simpa using hs) (by simp)
  simp only [List.mem_cons, not_or, decide_eq_true_eq] at *
  exact hj.2

theorem settAll {u : Nat} : ∀ {ps : List MPattern} {seen : List Nat}, unseen cells seen ≤ u →
    (∀ p ∈ ps, ∀ s, unseen cells s ≤ u → Sett fun m => check cells m s p) → Sett fun m => checkAll (check cells m) seen ps
  | [], seen, _, _ => .const _ (by simp)
  | p :: ps, seen, hu, h => by
    refine Sett.bind (h p (by simp) seen hu) fun a N ha => ?_
    exact settAll (Nat.le_trans (unseen_mono (check_spec ha).1) hu) fun q hq => h q (by simp [hq])

theorem check_settles_aux (u : Nat) (ihu : ∀ v, v < u → ∀ seen p, unseen cells seen ≤ v → Sett fun m => check cells m seen p) :
    ∀ (z : Nat) (p : MPattern), sizeOf p < z → ∀ seen, unseen cells seen ≤ u → Sett fun m => check cells m seen p
  | 0, _, h, _, _ => absurd h (Nat.not_lt_zero _)
  | z + 1, p, hz, seen, hu => by
    have ih := check_settles_aux u ihu z
    have ihL : ∀ ps : List MPattern, sizeOf ps < z → Sett fun m => checkAll (check cells m) seen ps := fun ps hps =>
      settAll hu fun q hq => ih q (by have := List.sizeOf_lt_of_mem hq; omega)
    apply Sett.shift
    cases p with
    | choice v => exact ihL v (by simp at hz; omega)
    | interleave v => exact ihL v (by simp at hz; omega)
    | group v => exact ihL v (by simp at hz; omega)
    | mixed p => exact ih p (by simp at hz; omega) seen hu
    | optional p => exact ih p (by simp at hz; omega) seen hu
    | zeroOrMore p => exact ih p (by simp at hz; omega) seen hu
    | oneOrMore p => exact ih p (by simp at hz; omega) seen hu
    | attr nc p => exact ih p (by simp at hz; omega) seen hu
    | element nc p => exact ih p (by simp at hz; omega) seen hu
    | list p => exact ih p (by simp at hz; omega) seen hu
    | datatypeNameExcept d p => exact ih p (by simp at hz; omega) seen hu
    | empty => exact .const (.ok seen) (by simp)
    | text => exact .const (.ok seen) (by simp)
    | notAllowed => exact .const (.ok seen) (by simp)
    | datatypeValue _ => exact .const (.ok seen) (by simp)
    | datatypeName _ => exact .const (.ok seen) (by simp)
    | ref k =>
      simp only [check]
      by_cases hk : k ∈ seen
      · simp only [hk, if_true]; exact .const (.ok seen) (by simp)
      · simp only [hk, if_false]
        cases hc : cells.getD k none with
        | none => exact .const _ (by simp)
        | some r =>
          have hlt : k < cells.length := by
            rw [List.getD_eq_getElem?_getD] at hc
            rcases Nat.lt_or_ge k cells.length with h | h
            · exact h
            · rw [List.getElem?_eq_none h] at hc; cases hc
          exact ihu (unseen cells (k :: seen)) (Nat.lt_of_lt_of_le (unseen_cons hlt hk) hu) _ _ (Nat.le_refl _)

theorem check_settles (seen : List Nat) (p : MPattern) : Sett fun m => check cells m seen p := by
  have : ∀ u seen p, unseen cells seen ≤ u → Sett fun m => check cells m seen p := by
    intro u
    induction u using Nat.strongRecOn with
    | ind u ih => exact fun seen p hu => check_settles_aux u ih _ p (Nat.lt_succ_self _) seen hu
  exact this _ seen p (Nat.le_refl _)

/-! ### what the result is -/

theorem checkAll_nodup {f : List Nat → MPattern → Except CFault (List Nat)} : ∀ {ps : List MPattern} {seen seen' : List Nat},
    (∀ p ∈ ps, ∀ s s', s.Nodup → f s p = .ok s' → s'.Nodup) → seen.Nodup → checkAll f seen ps = .ok seen' → seen'.Nodup
  | [], _, _, _, hn, h => by cases h; exact hn
  | p :: ps, seen, seen', hf, hn, h => by
    obtain ⟨s1, h1, h2⟩ := except_bind_ok h
    exact checkAll_nodup (fun q hq => hf q (by simp [hq])) (hf p (by simp) _ _ hn h1) h2

theorem check_nodup : ∀ {n : Nat} {p : MPattern} {seen seen' : List Nat}, seen.Nodup → check cells n seen p = .ok seen' →
    seen'.Nodup
  | 0, _, _, _, _, h => nomatch h
  | n + 1, p, seen, seen', hn, h => by
    have hall : ∀ {ps : List MPattern}, checkAll (check cells n) seen ps = .ok seen' → seen'.Nodup := fun h =>
      checkAll_nodup (fun p _ s s' hs h => check_nodup hs h) hn h
    cases p with
    | choice v => exact hall h
    | interleave v => exact hall h
    | group v => exact hall h
    | mixed p => exact check_nodup (n := n) (p := p) hn h
    | optional p => exact check_nodup (n := n) (p := p) hn h
    | zeroOrMore p => exact check_nodup (n := n) (p := p) hn h
    | oneOrMore p => exact check_nodup (n := n) (p := p) hn h
    | attr _ p => exact check_nodup (n := n) (p := p) hn h
    | element _ p => exact check_nodup (n := n) (p := p) hn h
    | list p => exact check_nodup (n := n) (p := p) hn h
    | datatypeNameExcept _ p => exact check_nodup (n := n) (p := p) hn h
    | empty => cases h; exact hn
    | text => cases h; exact hn
    | notAllowed => cases h; exact hn
    | datatypeValue _ => cases h; exact hn
    | datatypeName _ => cases h; exact hn
    | ref k =>
      simp only [check] at h
      split at h
      · cases h; exact hn
      · rename_i hk
        split at h
        · exact check_nodup (List.nodup_cons.mpr ⟨hk, hn⟩) h
        · cases h

/-- Everything the check goes through is mentioned, and a failure names a mentioned definition that is not there. -/
def Followed (st : CState) (q : MPattern) (seen : List Nat) : Except CFault (List Nat) → Prop
  | .ok seen' => ∀ j ∈ seen', j ∈ seen ∨ Uses st.env q j
  | .error .fuel => True
  | .error (.err e) => e = .undefinedReference [] ∧ ∃ j, Uses st.env q j ∧ st.cell j = none
  | .error (.panic _) => False

theorem Followed.lift {st : CState} {q q' : MPattern} {seen : List Nat} {R : Except CFault (List Nat)}
    (hu : ∀ j, Uses st.env q j → Uses st.env q' j) (h : Followed st q seen R) : Followed st q' seen R := by
  match R, h with
  | .ok seen', h => exact fun j hj => (h j hj).imp_right (hu j)
  | .error .fuel, _ => trivial
  | .error (.err e), ⟨a, j, b, c⟩ => exact ⟨a, j, hu j b, c⟩

theorem checkAll_followed {st : CState} {q : MPattern} {f : List Nat → MPattern → Except CFault (List Nat)} :
    ∀ {ps : List MPattern} {seen : List Nat}, (∀ p ∈ ps, ∀ s, Followed st q s (f s p)) → Followed st q seen (checkAll f seen ps)
  | [], seen, _ => fun j hj => .inl hj
  | p :: ps, seen, hf => by
    have h1 := hf p (by simp) seen
    simp only [checkAll]
    cases hr : f seen p with
    | error e => rw [hr] at h1; exact h1
    | ok s1 =>
      rw [hr] at h1
      have h2 := checkAll_followed (q := q) (ps := ps) (seen := s1) fun p hp => hf p (by simp [hp])
      show Followed st q seen (checkAll f s1 ps)
      cases hr2 : checkAll f s1 ps with
      | error e => rw [hr2] at h2; cases e <;> exact h2
      | ok s2 =>
        rw [hr2] at h2
        intro j hj
        rcases h2 j hj with h | h
        · exact h1 j h
        · exact .inr h

theorem check_followed {st : CState} : ∀ (n : Nat) (p : MPattern) (seen : List Nat), Followed st p seen (check st.cells n seen p)
  | 0, _, _ => trivial
  | n + 1, p, seen => by
    have hall : ∀ {ps : List MPattern}, p.refs = refsL ps → Followed st p seen (checkAll (check st.cells n) seen ps) := fun hr =>
      checkAll_followed fun q hq s => (check_followed n q s).lift fun j hj => hj.sub fun i hi => by
        rw [hr]; exact mem_refsL.mpr ⟨q, hq, hi⟩
    have one : ∀ {q : MPattern}, p.refs = q.refs → Followed st p seen (check st.cells n seen q) := fun hr =>
      (check_followed n _ seen).lift fun j hj => hj.sub fun i hi => by rw [hr]; exact hi
    cases p with
    | choice v => exact hall rfl
    | interleave v => exact hall rfl
    | group v => exact hall rfl
    | mixed p => exact one rfl
    | optional p => exact one rfl
    | zeroOrMore p => exact one rfl
    | oneOrMore p => exact one rfl
    | attr _ p => exact one rfl
    | element _ p => exact one rfl
    | list p => exact one rfl
    | datatypeNameExcept _ p => exact one rfl
    | empty => exact fun j hj => .inl hj
    | text => exact fun j hj => .inl hj
    | notAllowed => exact fun j hj => .inl hj
    | datatypeValue _ => exact fun j hj => .inl hj
    | datatypeName _ => exact fun j hj => .inl hj
    | ref k =>
      simp only [check]
      by_cases hk : k ∈ seen
      · simp only [hk, if_true]; exact fun j hj => .inl hj
      · simp only [hk, if_false]
        cases hc : st.cells.getD k none with
        | none => exact ⟨rfl, k, .here (by simp [Pattern.refs]), hc⟩
        | some r =>
          have h := check_followed (st := st) n r.pattern (k :: seen)
          have hu : ∀ j, Uses st.env r.pattern j → Uses st.env (.ref k) j := fun j hj =>
            .there (by simp [Pattern.refs]) (env_getElem hc) hj
          have h := h.lift hu
          dsimp only
          cases hr : check st.cells n (k :: seen) r.pattern with
          | error e => rw [hr] at h; cases e <;> exact h
          | ok s =>
            rw [hr] at h
            intro j hj
            rcases h j hj with h | h
            · rcases List.mem_cons.mp h with rfl | h
              · exact .inr (.here (by simp [Pattern.refs]))
              · exact .inl h
            · exact .inr h

theorem uses_seen {st : CState} {q : MPattern} {seen : List Nat} (hs : ∀ k ∈ seen, ∃ r, st.cell k = some r ∧ ∀ j ∈ r.pattern.refs, j ∈ seen)
    {j : Nat} (h : Uses st.env q j) : (∀ i ∈ q.refs, i ∈ seen) → j ∈ seen := by
  induction h with
  | here h => intro hq; exact hq _ h
  | there h1 h2 _ ih =>
    intro hq
    obtain ⟨r, a, b⟩ := hs _ (hq _ h1)
    rw [env_getElem a] at h2; cases h2
    exact ih b

end
end Verif
