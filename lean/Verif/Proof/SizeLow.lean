import Verif.Proof.Size
/-
All elements and attributes of a schema are kept when a validator for it is built.
-/
set_option linter.unusedSectionVars false
namespace Verif.Size
variable {D V : Type} [DecidableEq D] [DecidableEq V] {env : Env D V}

/-- the pattern is kept -/
def Kept (st : Store D V) (p : Pat D V) : Prop := p ∈ st.memo.map Prod.fst

/-- definition `r` is taken up -/
def Taken (st : Store D V) (r : Nat) : Prop := st.refs.lookup r ≠ none

/-- an element or attribute of that name is kept -/
def KeptAs (st : Store D V) : NameClass ⊕ NameClass → Prop
  | .inl nc => ∃ i, Kept st (.element nc i)
  | .inr nc => ∃ i, Kept st (.attr nc i)

def Done (st : Store D V) (q : Pattern D V) : Prop := (∀ x ∈ named q, KeptAs st x) ∧ ∀ r ∈ q.refs, Taken st r
def DoneL (st : Store D V) (qs : List (Pattern D V)) : Prop := (∀ x ∈ namedL qs, KeptAs st x) ∧ ∀ r ∈ refsL qs, Taken st r

def Good (st : Store D V) : Prop := st.memo.length = st.pats.length ∧ st.pats.length ≤ 0x10000

structure Grows (env : Env D V) (st st' : Store D V) : Prop where
  kept : ∀ p, Kept st p → Kept st' p
  taken : ∀ r, Taken st r → Taken st' r
  good : Good st → Good st'
  new : ∀ r, Taken st' r → ¬ Taken st r → ∃ q, env[r]? = some q ∧ Done st' q

theorem KeptAs.mono {st st' : Store D V} (h : ∀ p, Kept st p → Kept st' p) : ∀ {x}, KeptAs st x → KeptAs st' x
  | .inl _, ⟨i, hi⟩ => ⟨i, h _ hi⟩
  | .inr _, ⟨i, hi⟩ => ⟨i, h _ hi⟩

theorem Done.mono {st st' : Store D V} {q : Pattern D V} (h : Grows env st st') (hd : Done st q) : Done st' q :=
  ⟨fun x hx => (hd.1 x hx).mono h.kept, fun r hr => h.taken r (hd.2 r hr)⟩
theorem DoneL.mono {st st' : Store D V} {q : List (Pattern D V)} (h : Grows env st st') (hd : DoneL st q) : DoneL st' q :=
  ⟨fun x hx => (hd.1 x hx).mono h.kept, fun r hr => h.taken r (hd.2 r hr)⟩

theorem Grows.refl (st : Store D V) : Grows env st st := ⟨fun _ h => h, fun _ h => h, id, fun _ h h' => absurd h h'⟩
theorem Grows.trans {a b c : Store D V} (h : Grows env a b) (h' : Grows env b c) : Grows env a c := by
  refine ⟨fun p hp => h'.kept p (h.kept p hp), fun r hr => h'.taken r (h.taken r hr), fun g => h'.good (h.good g), fun r hr hn => ?_⟩
  by_cases hb : Taken b r
  · obtain ⟨q, hq, hd⟩ := h.new r hb hn
    exact ⟨q, hq, hd.mono h'⟩
  · exact h'.new r hr hb

/-- what a program does to the patterns kept, and what then holds -/
def T (env : Env D V) {α : Type} (m : SM D V α) (X : Store D V → Prop) : Prop :=
  ∀ st a st', m st = .ok (a, st') → Grows env st st' ∧ X st'

/-- lasting -/
def Lasts (env : Env D V) (X : Store D V → Prop) : Prop := ∀ st st', Grows env st st' → X st → X st'

section
variable {α β : Type}
theorem T.bind {x : SM D V α} {f : α → SM D V β} {X Y : Store D V → Prop} (hl : Lasts env X) (hx : T env x X) (hf : ∀ a, T env (f a) Y) :
    T env (x >>= f) (fun st => X st ∧ Y st) := by
  intro st b st' h
  cases hr : x st with
  | error g => rw [ST.bind_of_error hr] at h; cases h
  | ok r =>
    obtain ⟨a, st1⟩ := r
    rw [ST.bind_of_ok hr] at h
    obtain ⟨g1, h1⟩ := hx st a st1 hr
    obtain ⟨g2, h2⟩ := hf a st1 b st' h
    exact ⟨g1.trans g2, hl _ _ g2 h1, h2⟩
theorem T.conseq {x : SM D V α} {X Y : Store D V → Prop} (hx : T env x X) (h : ∀ st, X st → Y st) : T env x Y := fun st a st' e =>
  ⟨(hx st a st' e).1, h _ (hx st a st' e).2⟩
theorem T.pure {a : α} : T env (Pure.pure a : SM D V α) (fun _ => True) := fun st b s' e => by simp at e; obtain ⟨_, rfl⟩ := e; exact ⟨.refl _, trivial⟩
theorem T.ite {b : Prop} [Decidable b] {x y : SM D V α} {X} (hx : T env x X) (hy : T env y X) : T env (if b then x else y) X := by
  by_cases h : b <;> simp only [h, if_true, if_false] <;> assumption
end

theorem mem_of_lookup {α β : Type} [DecidableEq α] {k : α} {v : β} : ∀ {l : List (α × β)}, l.lookup k = some v → k ∈ l.map Prod.fst
  | (a, b) :: l, h => by
    rw [List.lookup_cons] at h
    by_cases e : k = a
    · subst e; simp
    · rw [beq_false_of_ne e] at h
      exact List.mem_cons_of_mem _ (mem_of_lookup h)

theorem t_push (p : Pat D V) : T env (push p) (fun st => Kept st p) := by
  intro st a st' h
  unfold push at h
  split at h
  · cases h
  · rename_i hlen
    split at h
    · rename_i hm
      cases h
      exact ⟨.refl _, mem_of_lookup hm⟩
    · cases h
      refine ⟨⟨fun q hq => ?_, fun r hr => hr, fun g => ?_, fun r h h' => absurd h h'⟩, ?_⟩
      · exact List.mem_cons_of_mem _ hq
      · obtain ⟨g1, g2⟩ := g
        refine ⟨?_, ?_⟩ <;> simp <;> omega
      · simp [Kept]

theorem t_patt (i : Nat) : T env (patt i : SM D V (Pat D V)) (fun _ => True) := by
  intro st a st' h
  unfold patt at h
  split at h
  · cases h; exact ⟨.refl _, trivial⟩
  · cases h

theorem triv : Lasts env (fun _ => True : Store D V → Prop) := fun _ _ _ h => h

theorem t_push' (p : Pat D V) : T env (push p) (fun _ => True) := (t_push p).conseq fun _ _ => trivial

theorem t_choice (l r : Nat) : T env (choice l r : SM D V Nat) (fun _ => True) := by
  refine (T.bind (Y := fun _ => True) triv (t_patt l) fun a => (T.bind (Y := fun _ => True) triv (t_patt r) fun b => ?_).conseq fun _ _ => trivial).conseq fun _ _ => trivial
  split
  · exact .pure
  · exact .pure
  · exact .ite .pure (t_push' _)

theorem t_interleave (l r : Nat) : T env (interleave l r : SM D V Nat) (fun _ => True) := by
  refine (T.bind (Y := fun _ => True) triv (t_patt l) fun a => (T.bind (Y := fun _ => True) triv (t_patt r) fun b => ?_).conseq fun _ _ => trivial).conseq fun _ _ => trivial
  split
  · exact t_push' _
  · exact t_push' _
  · exact .pure
  · exact .pure
  · exact t_push' _

theorem t_group (l r : Nat) : T env (group l r : SM D V Nat) (fun _ => True) := by
  refine (T.bind (Y := fun _ => True) triv (t_patt l) fun a => (T.bind (Y := fun _ => True) triv (t_patt r) fun b => ?_).conseq fun _ _ => trivial).conseq fun _ _ => trivial
  split
  · exact t_push' _
  · exact t_push' _
  · exact .pure
  · exact .pure
  · exact t_push' _

theorem t_oneOrMore (l : Nat) : T env (oneOrMore l : SM D V Nat) (fun _ => True) :=
  (T.bind (Y := fun _ => True) triv (t_patt l) fun _ => t_push' _).conseq fun _ _ => trivial

theorem lasts_done (q : Pattern D V) : Lasts env (fun st => Done st q) := fun _ _ g h => h.mono g
theorem lasts_doneL (q : List (Pattern D V)) : Lasts env (fun st => DoneL st q) := fun _ _ g h => h.mono g

theorem doneL_cons {st : Store D V} {p : Pattern D V} {ps} (h : Done st p) (h' : DoneL st ps) : DoneL st (p :: ps) := by
  refine ⟨fun x hx => ?_, fun r hr => ?_⟩
  · rcases List.mem_append.1 hx with hx | hx
    · exact h.1 x hx
    · exact h'.1 x hx
  · rcases List.mem_append.1 hr with hr | hr
    · exact h.2 r hr
    · exact h'.2 r hr

theorem t_compileVec {c : Pattern D V → SM D V Nat} {op : Nat → Nat → SM D V Nat} (ho : ∀ l r, T env (op l r) (fun _ => True))
    (hc : ∀ p, T env (c p) (fun st => Done st p)) : ∀ (ps : List (Pattern D V)), T env (compileVec c op ps) (fun st => DoneL st ps)
  | [] => fun st a st' h => by cases h
  | [p] => (hc p).conseq fun st h => doneL_cons h ⟨nofun, nofun⟩
  | p :: q :: ps => by
    rw [compileVec]
    exact (T.bind (lasts_doneL _) (t_compileVec ho hc (q :: ps)) fun _ => T.bind (lasts_done _) (hc p) fun _ => ho _ _).conseq
      fun st h => doneL_cons h.2.1 h.1

theorem t_resolveRef (ph id : Nat) : T env (resolveRef ph id : SM D V Unit) (fun _ => True) := by
  unfold resolveRef
  refine .ite .pure ((T.bind (Y := fun _ => True) triv (t_patt id) fun target => .ite (fun st a st' h => by cases h)
    ((T.bind (Y := fun _ => True) triv (t_patt ph) fun _ => .ite ?_ (fun st a st' h => by cases h)).conseq fun _ _ => trivial)).conseq fun _ _ => trivial)
  intro st a st' h
  cases h
  refine ⟨⟨fun q hq => hq, fun r hr => hr, fun g => ?_, fun r h h' => absurd h h'⟩, trivial⟩
  obtain ⟨g1, g2⟩ := g
  exact ⟨by simpa using g1, by simpa using g2⟩

theorem t_compile : ∀ (n : Nat) (p : Pattern D V), T env (compile env n p) (fun st => Done st p)
  | 0, _ => fun st a st' h => by cases h
  | n + 1, p => by
    have ih := t_compile n
    have one : ∀ {q p' : Pattern D V} {f : Nat → SM D V Nat}, named p' = named q → p'.refs = q.refs → (∀ i, T env (f i) (fun _ => True)) →
        T env (compile env n q >>= f) (fun st => Done st p') := fun {q p' f} e1 e2 hf =>
      (T.bind (lasts_done q) (ih q) hf).conseq fun st h => ⟨e1 ▸ h.1.1, e2 ▸ h.1.2⟩
    have none : ∀ {p' : Pattern D V} {x : Pat D V}, named p' = [] → p'.refs = [] → T env (push x) (fun st => Done st p') := fun {p' x} e1 e2 =>
      (t_push x).conseq fun st _ => ⟨by rw [e1]; nofun, by rw [e2]; nofun⟩
    have two : ∀ {α β : Type} {x : SM D V α} {f : α → SM D V β}, T env x (fun _ => True) → (∀ a, T env (f a) (fun _ => True)) → T env (x >>= f) (fun _ => True) :=
      fun hx hf => (T.bind triv hx hf).conseq fun _ _ => trivial
    cases p with
    | choice ps => exact t_compileVec t_choice ih ps
    | interleave ps => exact t_compileVec t_interleave ih ps
    | group ps => exact t_compileVec t_group ih ps
    | mixed q => exact one rfl rfl fun _ => two (t_push' _) fun _ => t_interleave _ _
    | empty => exact none rfl rfl
    | text => exact none rfl rfl
    | notAllowed => exact none rfl rfl
    | optional q => exact one rfl rfl fun _ => two (t_push' _) fun _ => t_choice _ _
    | zeroOrMore q => exact one rfl rfl fun _ => two (t_oneOrMore _) fun _ => two (t_push' _) fun _ => t_choice _ _
    | oneOrMore q => exact one rfl rfl fun _ => t_oneOrMore _
    | attr nc q =>
      intro st a st' h
      obtain ⟨g, h1, i, h2⟩ := T.bind (lasts_done q) (ih q) (Y := fun st => ∃ i, Kept st (.attr nc i)) (fun i => (t_push _).conseq fun _ h => ⟨i, h⟩) st a st' h
      refine ⟨g, fun x hx => ?_, h1.2⟩
      rcases List.mem_cons.1 hx with rfl | hx
      · exact ⟨i, h2⟩
      · exact h1.1 x hx
    | element nc q =>
      intro st a st' h
      obtain ⟨g, h1, i, h2⟩ := T.bind (lasts_done q) (ih q) (Y := fun st => ∃ i, Kept st (.element nc i)) (fun i => (t_push _).conseq fun _ h => ⟨i, h⟩) st a st' h
      refine ⟨g, fun x hx => ?_, h1.2⟩
      rcases List.mem_cons.1 hx with rfl | hx
      · exact ⟨i, h2⟩
      · exact h1.1 x hx
    | list q => exact one rfl rfl fun _ => t_push' _
    | datatypeValue v => exact none rfl rfl
    | datatypeName d => exact none rfl rfl
    | datatypeNameExcept d e => exact one rfl rfl fun _ => t_push' _
    | ref r =>
      intro st a st' h
      rw [compile, ST.bind_of_ok (a := st.refs.lookup r) (s' := st) rfl] at h
      have hdone : ∀ {s : Store D V}, Taken s r → Done s (.ref r : Pattern D V) := fun ht => ⟨nofun, fun m hm => by
        cases List.mem_singleton.1 hm; exact ht⟩
      cases hl : st.refs.lookup r with
      | some id =>
        rw [hl] at h
        cases h
        exact ⟨.refl _, hdone (by rw [Taken, hl]; nofun)⟩
      | none =>
        rw [hl] at h
        simp only at h
        cases hp : push (.placeholder r) st with
        | error g => rw [ST.bind_of_error (show refPlaceholder r st = .error g from ST.bind_of_error hp)] at h; cases h
        | ok b =>
          obtain ⟨ph, st1⟩ := b
          have g1 := (t_push (env := env) (.placeholder r) st ph st1 hp).1
          have hrefs : st1.refs = st.refs := by
            unfold push at hp
            split at hp
            · cases hp
            · split at hp <;> cases hp <;> rfl
          have hph : refPlaceholder r st = .ok (ph, { st1 with refs := (r, ph) :: st1.refs }) := ST.bind_of_ok hp
          rw [ST.bind_of_ok hph] at h
          cases he : env[r]? with
          | none => rw [he] at h; cases h
          | some q =>
            rw [he] at h
            obtain ⟨g, h1, _⟩ := T.bind (lasts_done q) (ih q) (fun id => two (t_resolveRef ph id) fun _ => T.pure (a := ph)) _ a st' h
            have htaken : ∀ m, Taken st m → Taken { st1 with refs := (r, ph) :: st1.refs } m := fun m hm => by
              simp only [Taken, hrefs, List.lookup_cons] at hm ⊢
              by_cases e : m = r
              · subst e; simp
              · rw [beq_false_of_ne e]; exact hm
            refine ⟨⟨fun p hp => g.kept p (g1.kept p hp), fun m hm => g.taken m (htaken m hm), fun hg => g.good (g1.good hg), fun m hm hn => ?_⟩, hdone (g.taken r ?_)⟩
            · by_cases e : m = r
              · subst e; exact ⟨q, he, h1⟩
              · refine g.new m hm fun ht => hn ?_
                simp only [Taken, hrefs, List.lookup_cons, beq_false_of_ne e] at ht
                exact ht
            · simp [Taken]

theorem nodup_le {α : Type} [DecidableEq α] : ∀ {l m : List α}, l.Nodup → (∀ x ∈ l, x ∈ m) → l.length ≤ m.length
  | [], _, _, _ => by simp
  | a :: l, m, hn, hs => by
    obtain ⟨h1, h2⟩ := List.nodup_cons.1 hn
    have := nodup_le (l := l) (m := m.erase a) h2 fun x hx => (List.mem_erase_of_ne (show x ≠ a from fun e => h1 (e ▸ hx))).2 (hs x (List.mem_cons_of_mem _ hx))
    have hm := List.length_erase_of_mem (hs a (by simp))
    have := List.length_pos_of_mem (hs a (by simp))
    simp only [List.length_cons]
    omega

/-- what the kept pattern is named -/
def nameOf : Pat D V → Option (NameClass ⊕ NameClass)
  | .element nc _ => some (.inl nc)
  | .attr nc _ => some (.inr nc)
  | _ => none

theorem newValidator_mentions {n : Nat} {start : Pattern D V} {s0 : VState D V} (h : newValidator env n start = .ok s0)
    {l : List (NameClass ⊕ NameClass)} (hn : l.Nodup) (hl : ∀ x ∈ l, Mentions env start x) :
    l.length ≤ s0.store.pats.length ∧ s0.store.pats.length ≤ 65536 := by
  unfold newValidator at h
  cases hc : compile env n start Store.init with
  | error e => rw [hc] at h; cases h
  | ok r =>
    obtain ⟨id, st⟩ := r
    rw [hc] at h
    cases h
    obtain ⟨g, hd⟩ := t_compile (env := env) n start Store.init id st hc
    obtain ⟨h1, h2⟩ := g.good ⟨rfl, by simp [Store.init]⟩
    refine ⟨?_, h2⟩
    show l.length ≤ st.pats.length
    have hall : ∀ m, Taken st m → ∃ q, env[m]? = some q ∧ Done st q := fun m hm => g.new m hm (by simp [Taken, Store.init])
    have huses : ∀ {p : Pattern D V} {m}, Uses env p m → (∀ k ∈ p.refs, Taken st k) → Taken st m := by
      intro p m hu
      induction hu with
      | here h => exact fun hp => hp _ h
      | @there p k q m hk hq _ ih =>
        intro hp
        obtain ⟨q', hq', hd'⟩ := hall k (hp k hk)
        rw [hq] at hq'
        cases hq'
        exact ih hd'.2
    have hkept : ∀ x ∈ l, KeptAs st x := fun x hx => by
      rcases hl x hx with h | ⟨m, q, hu, hq, hx'⟩
      · exact hd.1 x h
      · obtain ⟨q', hq', hd'⟩ := hall m (huses hu hd.2)
        rw [hq] at hq'
        cases hq'
        exact hd'.1 x hx'
    have := nodup_le (m := (st.memo.map Prod.fst).filterMap nameOf) hn fun x hx => by
      refine List.mem_filterMap.2 ?_
      have := hkept x hx
      cases x with
      | inl nc => obtain ⟨i, hi⟩ := this; exact ⟨_, hi, rfl⟩
      | inr nc => obtain ⟨i, hi⟩ := this; exact ⟨_, hi, rfl⟩
    have h3 := List.length_filterMap_le nameOf (st.memo.map Prod.fst)
    rw [List.length_map] at h3
    omega

end Verif.Size
