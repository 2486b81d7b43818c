import Verif.Proof.Triple
import Verif.Proof.Step
/-
The pattern table during compilation, for arbitrary schemas.
-/
set_option linter.unusedSectionVars false
namespace Verif
variable {D V : Type} [DecidableEq D] [DecidableEq V]

/-- what holds of the table at any time -/
structure CI (st : Store D V) : Prop where
  memo : MemoOK st
  len : st.pats.length ≤ 0x10000
  ids : ∀ p i, st.memo.lookup p = some i → i < st.pats.length
  refs : ∀ n i, st.refs.lookup n = some i → i < st.pats.length

theorem CI.init : CI (Store.init : Store D V) := by
  refine ⟨?_, ?_, ?_, ?_⟩ <;> simp [Store.init, MemoOK]

def K {α : Type} (x : SM D V α) (Q : α → Nat → Prop) : Prop :=
  ∀ st a st', CI st → x st = .ok (a, st') → CI st' ∧ st.pats.length ≤ st'.pats.length ∧ Q a st'.pats.length

/-- an identity that exists -/
def Lt : Nat → Nat → Prop := fun i n => i < n

theorem K.bind {α β : Type} {x : SM D V α} {f : α → SM D V β} {Q R} (hx : K x Q)
    (hf : ∀ a, K (f a) (fun b n => (∃ m ≤ n, Q a m) → R b n)) : K (x >>= f) R := by
  intro st b st' hi h
  obtain ⟨a, s1, h1, h2⟩ := ST.bind_ok.mp h
  obtain ⟨k1, k2, k3⟩ := hx _ _ _ hi h1
  obtain ⟨g1, g2, g3⟩ := hf a _ _ _ k1 h2
  exact ⟨g1, Nat.le_trans k2 g2, g3 ⟨_, g2, k3⟩⟩

theorem K.pure {α : Type} {a : α} {Q : α → Nat → Prop} (h : ∀ n, Q a n) : K (Pure.pure a : SM D V α) Q := by
  intro st b st' hi h'
  cases h'
  exact ⟨hi, Nat.le_refl _, h _⟩

theorem K.mono {α : Type} {x : SM D V α} {Q R : α → Nat → Prop} (hx : K x Q) (h : ∀ a n, Q a n → R a n) : K x R :=
  fun st a st' hi h' => let ⟨k1, k2, k3⟩ := hx st a st' hi h'; ⟨k1, k2, h _ _ k3⟩

theorem K.fault {α : Type} {e : Fault} {Q : α → Nat → Prop} : K (ST.fault e : SM D V α) Q := by
  intro st a st' _ h; cases h

theorem k_push (p : Pat D V) : K (push p) Lt := by
  intro st i st' hi h
  rcases push_cases p st with ⟨_, h'⟩ | ⟨_, j, hj, h'⟩ | ⟨hc, hn, h'⟩
  · rw [h'] at h; cases h
  · rw [h'] at h; cases h; exact ⟨hi, Nat.le_refl _, hi.ids _ _ hj⟩
  · rw [h'] at h; cases h
    refine ⟨⟨?_, ?_, ?_, ?_⟩, by simp, by simp [Lt]⟩
    · intro q j hq hp
      simp only [List.lookup_cons] at hq
      split at hq
      · rename_i hb
        cases hq
        have : q = p := by simpa using hb
        subst this
        simp
      · have := hi.memo q j hq hp
        simp only
        rw [List.getElem?_append_left]
        · exact this
        · exact (List.getElem?_eq_some_iff.mp this).1
    · simp; omega
    · intro q j hq
      simp only [List.lookup_cons] at hq
      split at hq
      · cases hq; simp
      · have := hi.ids q j hq; simp; omega
    · intro m j hm
      have := hi.refs m j hm
      simp; omega

theorem k_patt (i : Nat) : K (patt i : SM D V (Pat D V)) (fun _ n => i < n) := by
  intro st p st' hi h
  obtain ⟨h1, rfl⟩ := patt_cases h
  exact ⟨hi, Nat.le_refl _, (List.getElem?_eq_some_iff.mp h1).1⟩

theorem k_choice (l r : Nat) : K (choice l r : SM D V Nat) Lt := by
  refine (k_patt l).bind fun a => ((k_patt r).bind fun b => ?_)
  have hl : ∀ n, (∃ m ≤ n, r < m) → (∃ m ≤ n, l < m) → l < n := fun n _ ⟨m, h1, h2⟩ => by omega
  have hr : ∀ n, (∃ m ≤ n, r < m) → (∃ m ≤ n, l < m) → r < n := fun n ⟨m, h1, h2⟩ _ => by omega
  split
  · exact .pure hr
  · exact .pure hl
  · split
    · exact .pure hl
    · exact (k_push _).mono fun _ _ h _ _ => h

theorem k_interleave (l r : Nat) : K (interleave l r : SM D V Nat) Lt := by
  refine (k_patt l).bind fun a => ((k_patt r).bind fun b => ?_)
  have hl : ∀ n, (∃ m ≤ n, r < m) → (∃ m ≤ n, l < m) → l < n := fun n _ ⟨m, h1, h2⟩ => by omega
  have hr : ∀ n, (∃ m ≤ n, r < m) → (∃ m ≤ n, l < m) → r < n := fun n ⟨m, h1, h2⟩ _ => by omega
  split
  · exact (k_push _).mono fun _ _ h _ _ => h
  · exact (k_push _).mono fun _ _ h _ _ => h
  · exact .pure hr
  · exact .pure hl
  · exact (k_push _).mono fun _ _ h _ _ => h

theorem k_group (l r : Nat) : K (group l r : SM D V Nat) Lt := by
  refine (k_patt l).bind fun a => ((k_patt r).bind fun b => ?_)
  have hl : ∀ n, (∃ m ≤ n, r < m) → (∃ m ≤ n, l < m) → l < n := fun n _ ⟨m, h1, h2⟩ => by omega
  have hr : ∀ n, (∃ m ≤ n, r < m) → (∃ m ≤ n, l < m) → r < n := fun n ⟨m, h1, h2⟩ _ => by omega
  split
  · exact (k_push _).mono fun _ _ h _ _ => h
  · exact (k_push _).mono fun _ _ h _ _ => h
  · exact .pure hr
  · exact .pure hl
  · exact (k_push _).mono fun _ _ h _ _ => h

theorem k_oneOrMore (l : Nat) : K (oneOrMore l : SM D V Nat) Lt :=
  (k_patt l).bind fun _ => (k_push _).mono fun _ _ h _ => h

theorem K.then {α : Type} {x : SM D V α} {f : α → SM D V Nat} {Q} (hx : K x Q) (hf : ∀ a, K (f a) Lt) :
    K (x >>= f) Lt := hx.bind fun a => (hf a).mono fun _ _ h _ => h

theorem k_refPlaceholder (r : Nat) : K (refPlaceholder r : SM D V Nat) Lt := by
  intro st i st' hi h
  unfold refPlaceholder at h
  obtain ⟨j, s1, h1, h⟩ := ST.bind_ok.mp h
  obtain ⟨k1, k2, k3⟩ := k_push _ _ _ _ hi h1
  cases h
  refine ⟨⟨k1.memo, k1.len, k1.ids, ?_⟩, k2, k3⟩
  intro n m hm
  simp only [List.lookup_cons] at hm
  split at hm
  · cases hm; exact k3
  · exact k1.refs n m hm

theorem k_resolveRef (ph id : Nat) : K (resolveRef ph id : SM D V Unit) (fun _ _ => True) := by
  intro st u st' hi h
  unfold resolveRef at h
  split at h
  · cases h; exact ⟨hi, Nat.le_refl _, trivial⟩
  · simp only [ST.bind_ok] at h
    obtain ⟨P, s1, h1, h⟩ := h
    obtain ⟨hP, rfl⟩ := patt_cases h1
    split at h
    · cases h
    · simp only [ST.bind_ok] at h
      obtain ⟨Q, s2, h2, h⟩ := h
      obtain ⟨hQ, rfl⟩ := patt_cases h2
      by_cases hq : Q.isPlaceholder = true
      · have h := (congrFun (if_pos hq) s2).symm.trans h
        cases h
        refine ⟨⟨?_, by simp [hi.len], by simpa using hi.ids, by simpa using hi.refs⟩, by simp, trivial⟩
        intro q j hj hp
        have := hi.memo q j hj hp
        have hne : ph ≠ j := by
          rintro rfl
          rw [this] at hQ
          cases hQ
          rw [hp] at hq; cases hq
        simp only [List.getElem?_set_ne hne]
        exact this
      · have h := (congrFun (if_neg hq) s2).symm.trans h
        cases h

theorem k_compileVec {c : Pattern D V → SM D V Nat} {op : Nat → Nat → SM D V Nat} (hc : ∀ p, K (c p) Lt)
    (hop : ∀ l r, K (op l r) Lt) : ∀ ps : List (Pattern D V), K (compileVec c op ps) Lt
  | [] => .fault
  | [p] => hc p
  | p :: q :: ps => by
    simp only [compileVec]
    exact (k_compileVec hc hop (q :: ps)).then fun _ => (hc p).then fun _ => hop _ _

theorem k_compile (env : Env D V) : ∀ (n : Nat) (p : Pattern D V), K (compile env n p) Lt
  | 0, _ => .fault
  | n + 1, p => by
    have ih := k_compile env n
    cases p with
    | choice ps => exact k_compileVec ih k_choice ps
    | interleave ps => exact k_compileVec ih k_interleave ps
    | group ps => exact k_compileVec ih k_group ps
    | mixed p => exact (ih p).then fun _ => (k_push _).then fun _ => k_interleave _ _
    | empty => exact k_push _
    | text => exact k_push _
    | notAllowed => exact k_push _
    | optional p => exact (ih p).then fun _ => (k_push _).then fun _ => k_choice _ _
    | zeroOrMore p => exact (ih p).then fun _ => (k_oneOrMore _).then fun _ => (k_push _).then fun _ => k_choice _ _
    | oneOrMore p => exact (ih p).then fun _ => k_oneOrMore _
    | attr nc p => exact (ih p).then fun _ => k_push _
    | element nc p => exact (ih p).then fun _ => k_push _
    | list p => exact (ih p).then fun _ => k_push _
    | datatypeValue v => exact k_push _
    | datatypeName d => exact k_push _
    | datatypeNameExcept d p => exact (ih p).then fun _ => k_push _
    | ref r =>
      intro st i st' hi h
      have h : (match st.refs.lookup r with
          | some id => Pure.pure id
          | none => do
            let ph ← refPlaceholder r
            match env[r]? with
              | some thing => do
                let id ← compile env n thing
                resolveRef ph id
                Pure.pure ph
              | none => ST.fault .missingDef : SM D V Nat) st = .ok (i, st') := h
      cases hl : st.refs.lookup r with
      | some id =>
        rw [hl] at h
        cases h
        exact ⟨hi, Nat.le_refl _, hi.refs _ _ hl⟩
      | none =>
        rw [hl] at h
        revert h
        refine fun h => ((k_refPlaceholder (D := D) (V := V) r).bind fun ph => ?_ : K _ Lt) st i st' hi h
        split
        · refine (ih _).bind fun id => (k_resolveRef ph id).bind fun _ => .pure ?_
          intro m _ _ h
          obtain ⟨k, hk, h⟩ := h
          exact Nat.lt_of_lt_of_le h hk
        · exact .fault

/-- a freshly built validator -/
theorem newValidator_ci {env : Env D V} {n : Nat} {start : Pattern D V} {s : VState D V}
    (h : newValidator env n start = .ok s) : CI s.store ∧ s.cur < s.store.pats.length := by
  unfold newValidator at h
  split at h
  · cases h
  · rename_i hc
    cases h
    obtain ⟨h1, _, h3⟩ := k_compile env n start _ _ _ CI.init hc
    exact ⟨h1, h3⟩

theorem Prog.ci {α : Type} {x : SM D V α} (hx : Prog x) : ∀ {st a st'}, CI st → x st = .ok (a, st') → CI st' := by
  induction hx with
  | pure a => intro st b st' hi h; cases h; exact hi
  | fault e => intro st b st' hi h; cases h
  | bind _ _ ih1 ih2 =>
    intro st b st' hi h
    obtain ⟨a, s1, h1, h2⟩ := ST.bind_ok.mp h
    exact ih2 a (ih1 hi h1) h2
  | push p _ => intro st i st' hi h; exact (k_push _ _ _ _ hi h).1
  | patt i => intro st p st' hi h; obtain ⟨_, rfl⟩ := patt_cases h; exact hi

theorem Evo.ci {st st' : Store D V} (h : Evo st st') (hi : CI st) : CI st' := by
  obtain ⟨x, hx, h⟩ := h
  exact hx.ci hi h

end Verif
