import Verif.Proof.Compiled
import Verif.Proof.Prog
/-
`compile` terminates on every schema, and on well-formed ones without definitions that are mere
aliases of their users it can only abort with the pattern limit.
-/
set_option linter.unusedSectionVars false
namespace Verif
variable {D V : Type} [DecidableEq D] [DecidableEq V]

/-! ### termination -/

/-- keys only grow -/
def KeysUp (st st' : Store D V) : Prop := ∀ n, st.refs.lookup n ≠ none → st'.refs.lookup n ≠ none

theorem KeysUp.refl (st : Store D V) : KeysUp st st := fun _ h => h
theorem KeysUp.trans {a b c : Store D V} (h1 : KeysUp a b) (h2 : KeysUp b c) : KeysUp a c :=
  fun n h => h2 n (h1 n h)

/-- with enough budget `x` has one result, not the budget fault, and keys only grow -/
def Halts {α : Type} (x : Nat → SM D V α) (st : Store D V) : Prop :=
  ∃ N r, (∀ n, N ≤ n → x n st = r) ∧ r ≠ .error .fuel ∧ ∀ a st', r = .ok (a, st') → KeysUp st st'

section
variable {α β : Type} {st : Store D V}

theorem Halts.shift {x : Nat → SM D V α} (h : Halts (fun n => x (n + 1)) st) : Halts x st := by
  obtain ⟨N, r, h1, h2⟩ := h
  refine ⟨N + 1, r, fun n hn => ?_, h2⟩
  obtain ⟨m, rfl⟩ : ∃ m, n = m + 1 := ⟨n - 1, by omega⟩
  exact h1 m (by omega)

theorem Halts.bind {x : Nat → SM D V α} {f : Nat → α → SM D V β} (hx : Halts x st)
    (hf : ∀ a st', KeysUp st st' → Halts (fun n => f n a) st') : Halts (fun n => x n >>= f n) st := by
  obtain ⟨N, r, h1, h2, h3⟩ := hx
  cases r with
  | error e =>
    exact ⟨N, .error e, fun n hn => ST.bind_of_error (h1 n hn), fun h => h2 (by cases h; rfl), nofun⟩
  | ok r =>
    obtain ⟨a, st'⟩ := r
    obtain ⟨M, r, g1, g2, g3⟩ := hf a st' (h3 _ _ rfl)
    exact ⟨max N M, r, fun n hn => (ST.bind_of_ok (h1 n (by omega))).trans (g1 n (by omega)), g2,
      fun b s hb => (h3 _ _ rfl).trans (g3 b s hb)⟩

/-- no budget fault, references kept -/
def Plain (x : SM D V α) : Prop :=
  ∀ st, x st ≠ .error .fuel ∧ ∀ a st', x st = .ok (a, st') → st'.refs = st.refs

theorem Plain.halts {x : SM D V α} (h : Plain x) : Halts (fun _ => x) st :=
  ⟨0, x st, fun _ _ => rfl, (h st).1, fun a st' he n hn => by rw [(h st).2 a st' he]; exact hn⟩

theorem Plain.pure (a : α) : Plain (Pure.pure a : SM D V α) := fun st =>
  ⟨by simp, fun b st' h => by simp at h; rw [h.2]⟩

theorem Plain.bind {x : SM D V α} {f : α → SM D V β} (hx : Plain x) (hf : ∀ a, Plain (f a)) :
    Plain (x >>= f) := by
  intro st
  constructor
  · intro h
    cases hx' : x st with
    | error e => rw [ST.bind_of_error hx'] at h; cases h; exact (hx st).1 hx'
    | ok r => rw [ST.bind_of_ok (a := r.1) (s' := r.2) hx'] at h; exact (hf _ _).1 h
  · intro b st'' h
    obtain ⟨a, st', h1, h2⟩ := ST.bind_ok.mp h
    rw [(hf a st').2 b st'' h2, (hx st).2 a st' h1]

theorem Plain.patt (i : Nat) : Plain (Verif.patt i : SM D V (Pat D V)) := by
  intro st
  unfold Verif.patt
  split
  · exact ⟨by simp, fun a st' h => by simp at h; rw [h.2]⟩
  · exact ⟨by simp, fun a st' h => by simp at h⟩

theorem Plain.push (p : Pat D V) : Plain (push p) := by
  intro st
  constructor
  · unfold Verif.push
    split
    · simp
    · split <;> simp
  · intro a st' h; exact (push_grown h).refs

theorem Plain.choice (l r : Nat) : Plain (choice l r : SM D V Nat) := by
  unfold Verif.choice
  refine .bind (.patt l) fun p => .bind (.patt r) fun q => ?_
  split
  · exact .pure _
  · exact .pure _
  · split
    · exact .pure _
    · exact .push _

theorem Plain.interleave (l r : Nat) : Plain (interleave l r : SM D V Nat) := by
  unfold Verif.interleave
  refine .bind (.patt l) fun p => .bind (.patt r) fun q => ?_
  split
  · exact .push _
  · exact .push _
  · exact .pure _
  · exact .pure _
  · exact .push _

theorem Plain.group (l r : Nat) : Plain (group l r : SM D V Nat) := by
  unfold Verif.group
  refine .bind (.patt l) fun p => .bind (.patt r) fun q => ?_
  split
  · exact .push _
  · exact .push _
  · exact .pure _
  · exact .pure _
  · exact .push _

theorem Plain.oneOrMore (l : Nat) : Plain (oneOrMore l : SM D V Nat) := by
  unfold Verif.oneOrMore
  exact .bind (.patt l) fun p => .push _

theorem resolveRef_plain (ph id : Nat) : Plain (resolveRef ph id : SM D V Unit) := by
  unfold resolveRef
  split
  · exact .pure _
  · refine .bind (.patt id) fun p => ?_
    split
    · intro st; simp
    · refine .bind (.patt ph) fun q => ?_
      intro st
      cases h : q.isPlaceholder with
      | true => exact ⟨nofun, fun a st' h => by cases h; rfl⟩
      | false => exact ⟨nofun, nofun⟩
end

/-- definitions not yet compiled -/
def openDefs (env : Env D V) (st : Store D V) : Nat :=
  (List.range env.length).countP fun n => (st.refs.lookup n).isNone

theorem countP_lt {α : Type} {p q : α → Bool} : ∀ {l : List α} {a}, a ∈ l → (∀ x ∈ l, p x = true → q x = true) →
    p a = false → q a = true → l.countP p < l.countP q
  | [], _, h, _, _, _ => by cases h
  | x :: l, a, h, hpq, h1, h2 => by
    have hle : l.countP p ≤ l.countP q := List.countP_mono_left fun y hy => hpq y (by simp [hy])
    rcases List.mem_cons.mp h with rfl | h
    · rw [List.countP_cons_of_neg (by simp [h1]), List.countP_cons_of_pos h2]; omega
    · have ih := countP_lt h (fun y hy => hpq y (by simp [hy])) h1 h2
      by_cases hx : p x = true
      · rw [List.countP_cons_of_pos hx, List.countP_cons_of_pos (hpq x (by simp) hx)]; omega
      · rw [List.countP_cons_of_neg hx]
        by_cases hy : q x = true
        · rw [List.countP_cons_of_pos hy]; omega
        · rw [List.countP_cons_of_neg hy]; exact ih

theorem openDefs_le {env : Env D V} {st st' : Store D V} (h : KeysUp st st') :
    openDefs env st' ≤ openDefs env st := by
  refine List.countP_mono_left fun n _ hn => ?_
  cases hl : st.refs.lookup n with
  | none => rfl
  | some i =>
    have := h n (by rw [hl]; simp)
    cases h' : st'.refs.lookup n with
    | none => exact absurd h' this
    | some j => rw [h'] at hn; simp at hn

theorem openDefs_lt {env : Env D V} {st st' : Store D V} (h : KeysUp st st') {r} (hr : r < env.length)
    (h1 : st.refs.lookup r = none) (h2 : st'.refs.lookup r ≠ none) : openDefs env st' < openDefs env st := by
  refine countP_lt (a := r) (by simpa using hr) (fun n _ hn => ?_) ?_ (by simp [h1])
  · cases hl : st.refs.lookup n with
    | none => rfl
    | some i =>
      have := h n (by rw [hl]; simp)
      cases h' : st'.refs.lookup n with
      | none => exact absurd h' this
      | some j => rw [h'] at hn; simp at hn
  · cases h' : st'.refs.lookup r with
    | none => exact absurd h' h2
    | some j => rfl

theorem halts_vec {env : Env D V} {op : Nat → Nat → SM D V Nat} (hop : ∀ a b, Plain (op a b)) {k : Nat} :
    ∀ (ps : List (Pattern D V)), (∀ p ∈ ps, ∀ st : Store D V, openDefs env st ≤ k →
      Halts (fun n => compile env n p) st) →
    ∀ st : Store D V, openDefs env st ≤ k → Halts (fun n => compileVec (compile env n) op ps) st
  | [], _, st, _ => ⟨0, .error .unwrapNone, fun _ _ => rfl, by simp, nofun⟩
  | [p], h, st, hk => h p (by simp) st hk
  | p :: q :: ps, h, st, hk => by
    simp only [compileVec]
    refine .bind (halts_vec hop (q :: ps) (fun p hp => h p (by simp_all)) st hk) fun r s1 k1 => ?_
    refine .bind (h p (by simp) s1 (Nat.le_trans (openDefs_le k1) hk)) fun l s2 _ => ?_
    exact (hop l r).halts

theorem halts_compile (env : Env D V) : ∀ (k : Nat) (sz : Nat) (p : Pattern D V), sizeOf p ≤ sz →
    ∀ (st : Store D V), openDefs env st ≤ k → Halts (fun n => compile env n p) st := by
  intro k
  induction k using Nat.strongRecOn with
  | ind k ihk =>
  intro sz
  induction sz with
  | zero => intro p hp; cases p <;> simp at hp
  | succ sz ih =>
    intro p hsz st hk
    have vec : ∀ {op : Nat → Nat → SM D V Nat} (_ : ∀ a b, Plain (op a b)) (ps : List (Pattern D V)),
        sizeOf ps ≤ sz → Halts (fun n => compileVec (compile env n) op ps) st := fun hop ps hps =>
      halts_vec hop ps (fun p hp st hst => ih p (by
        have := List.sizeOf_lt_of_mem hp; omega) st hst) st hk
    refine .shift ?_
    cases p with
    | choice ps => exact vec Plain.choice ps (by simp at hsz; omega)
    | interleave ps => exact vec Plain.interleave ps (by simp at hsz; omega)
    | group ps => exact vec Plain.group ps (by simp at hsz; omega)
    | empty => exact (Plain.push _).halts
    | text => exact (Plain.push _).halts
    | notAllowed => exact (Plain.push _).halts
    | datatypeValue v => exact (Plain.push _).halts
    | datatypeName d => exact (Plain.push _).halts
    | mixed p =>
      exact .bind (ih p (by simp at hsz; omega) st hk) fun i s _ =>
        (Plain.bind (.push _) fun t => .interleave i t).halts
    | optional p =>
      exact .bind (ih p (by simp at hsz; omega) st hk) fun i s _ =>
        (Plain.bind (.push _) fun t => .choice i t).halts
    | zeroOrMore p =>
      exact .bind (ih p (by simp at hsz; omega) st hk) fun i s _ =>
        (Plain.bind (.oneOrMore i) fun o => Plain.bind (.push _) fun t => .choice o t).halts
    | oneOrMore p =>
      exact .bind (ih p (by simp at hsz; omega) st hk) fun i s _ => (Plain.oneOrMore i).halts
    | attr nc p =>
      exact .bind (ih p (by simp at hsz; omega) st hk) fun i s _ => (Plain.push _).halts
    | element nc p =>
      exact .bind (ih p (by simp at hsz; omega) st hk) fun i s _ => (Plain.push _).halts
    | datatypeNameExcept d p =>
      exact .bind (ih p (by simp at hsz; omega) st hk) fun i s _ => (Plain.push _).halts
    | list p =>
      exact .bind (ih p (by simp at hsz; omega) st hk) fun i s _ => (Plain.push _).halts
    | ref r =>
      simp only [compile]
      have hget : ∀ n, (getRef r >>= fun x => match x with
          | some id => Pure.pure id
          | none => do
            let ph ← refPlaceholder r
            match env[r]? with
              | some thing => do
                let id ← compile env n thing
                resolveRef ph id
                Pure.pure ph
              | none => ST.fault .missingDef : SM D V Nat) st = (match st.refs.lookup r with
          | some id => Pure.pure id
          | none => do
            let ph ← refPlaceholder r
            match env[r]? with
              | some thing => do
                let id ← compile env n thing
                resolveRef ph id
                Pure.pure ph
              | none => ST.fault .missingDef : SM D V Nat) st := fun n => rfl
      obtain ⟨N, r', h1, h2⟩ : Halts (fun n => (match st.refs.lookup r with
          | some id => Pure.pure id
          | none => do
            let ph ← refPlaceholder r
            match env[r]? with
              | some thing => do
                let id ← compile env n thing
                resolveRef ph id
                Pure.pure ph
              | none => ST.fault .missingDef : SM D V Nat)) st := by
        cases hl : st.refs.lookup r with
        | some id => exact (Plain.pure id).halts
        | none =>
          simp only
          have hph : ∀ i s', refPlaceholder r st = .ok (i, s') → KeysUp st s' ∧ s'.refs.lookup r ≠ none := by
            intro i s' h
            obtain ⟨id, s1, h1, h2⟩ := ST.bind_ok.mp h
            have hr := (push_grown h1).refs
            simp at h2
            obtain ⟨rfl, rfl⟩ := h2
            refine ⟨fun n hn => ?_, by simp⟩
            simp only [List.lookup_cons, hr]
            split
            · simp
            · exact hn
          cases hx : refPlaceholder r st with
          | error e =>
            refine ⟨0, .error e, fun n _ => ST.bind_of_error hx, fun h => ?_, nofun⟩
            cases h
            unfold refPlaceholder at hx
            cases hpu : push (.placeholder r) st with
            | error e =>
              have := (ST.bind_of_error hpu).symm.trans hx
              cases this; exact (Plain.push _ st).1 hpu
            | ok q =>
              have := (ST.bind_of_ok (a := q.1) (s' := q.2) hpu).symm.trans hx
              simp at this
          | ok q =>
            obtain ⟨ph, s1⟩ := q
            obtain ⟨k1, k2⟩ := hph _ _ hx
            cases he : env[r]? with
            | none =>
              exact ⟨0, .error .missingDef, fun n _ => ST.bind_of_ok hx, by simp, nofun⟩
            | some thing =>
              have hlt := openDefs_lt (env := env) k1 (List.getElem?_eq_some_iff.mp he).1 hl k2
              obtain ⟨N, r', g1, g2, g3⟩ := Halts.bind (ihk (openDefs env s1) (by omega) (sizeOf thing) thing
                (Nat.le_refl _) s1 (Nat.le_refl _)) (f := fun _ id => do resolveRef ph id; Pure.pure ph)
                fun id s2 _ => (Plain.bind (resolveRef_plain ph id) fun _ => .pure ph).halts
              exact ⟨N, r', fun n hn => (ST.bind_of_ok hx).trans (g1 n hn), g2,
                fun a s h => k1.trans (g3 a s h)⟩
      exact ⟨N, r', fun n hn => (hget n).trans (h1 n hn), h2⟩

/-- compiling any schema whatsoever terminates -/
theorem compile_terminates (env : Env D V) (p : Pattern D V) (st : Store D V) :
    ∃ N r, (∀ n, N ≤ n → compile env n p st = r) ∧ r ≠ .error .fuel := by
  obtain ⟨N, r, h1, h2, _⟩ := halts_compile env (openDefs env st) (sizeOf p) p (Nat.le_refl _) st (Nat.le_refl _)
  exact ⟨N, r, h1, h2⟩

end Verif
