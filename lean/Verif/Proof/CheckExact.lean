import Verif.Proof.Check
import Verif.Proof.Compiled
/-
Schemas that meet the conditions pass the test of Spec/Check, if references are followed far enough.
-/
namespace Verif.Check
variable {D V : Type} {L : Lib D V} {env : Env D V}

/-- from some depth on -/
def Ev (f : Nat → Bool) : Prop := ∃ N, ∀ k, N ≤ k → f k = true

theorem Ev.always {f : Nat → Bool} (h : ∀ k, f k = true) : Ev f := ⟨0, fun k _ => h k⟩
theorem Ev.imp {f g : Nat → Bool} (h : Ev f) (hi : ∀ k, f k = true → g k = true) : Ev g :=
  Exists.imp (fun _ h k hk => hi k (h k hk)) h
theorem Ev.and {f g : Nat → Bool} (hf : Ev f) (hg : Ev g) : Ev fun k => f k && g k := by
  obtain ⟨M, hf⟩ := hf
  obtain ⟨N, hg⟩ := hg
  refine ⟨M + N, fun k hk => ?_⟩
  show (f k && g k) = true
  rw [hf k (by omega), hg k (by omega)]; rfl
theorem Ev.succ {f : Nat → Bool} (h : Ev fun k => f (k + 1)) : Ev f := by
  obtain ⟨N, h⟩ := h
  refine ⟨N + 1, fun k hk => ?_⟩
  cases k with
  | zero => omega
  | succ k => exact h k (by omega)
theorem Ev.all {α : Type} {f : Nat → α → Bool} : ∀ {xs : List α}, (∀ x ∈ xs, Ev fun k => f k x) → Ev fun k => xs.all (f k)
  | [], _ => .always fun _ => rfl
  | x :: xs, h => ((h x List.mem_cons_self).and (Ev.all fun y hy => h y (List.mem_cons_of_mem _ hy))).imp fun k hk => by
    rw [List.all_cons]; exact hk
theorem Ev.get {f : Nat → Bool} (h : Ev f) : ∃ k, f k = true := Exists.imp (fun N h => h N (Nat.le_refl _)) h

/-! ### what a definition uses -/

/-- the set contains everything its members mention -/
def Closed (env : Env D V) (S : List Nat) : Prop := ∀ m ∈ S, ∀ p, env[m]? = some p → ∀ n ∈ p.refs, n ∈ S

/-- one round -/
def step (env : Env D V) (ns : List Nat) : List Nat :=
  ns ++ (ns.flatMap fun n => match env[n]? with | none => [] | some p => p.refs.filter (! ns.contains ·)).eraseDups

theorem reach_succ (k : Nat) (ns : List Nat) : reach env (k + 1) ns = reach env k (step env ns) := rfl

theorem mem_step {ns : List Nat} {n : Nat} : n ∈ step env ns ↔ n ∈ ns ∨ ∃ m ∈ ns, ∃ p, env[m]? = some p ∧ n ∈ p.refs := by
  rw [step, List.mem_append, List.mem_eraseDups, List.mem_flatMap]
  constructor
  · rintro (h | ⟨m, hm, h⟩)
    · exact .inl h
    · refine .inr ⟨m, hm, ?_⟩
      cases he : env[m]? with
      | none => rw [he] at h; cases h
      | some p => rw [he] at h; exact ⟨p, rfl, (List.mem_filter.1 h).1⟩
  · rintro (h | ⟨m, hm, p, hp, hn⟩)
    · exact .inl h
    · by_cases hc : n ∈ ns
      · exact .inl hc
      · refine .inr ⟨m, hm, ?_⟩
        rw [hp]
        exact List.mem_filter.2 ⟨hn, by simpa using hc⟩

theorem closed_step {ns : List Nat} (h : Closed env ns) : Closed env (step env ns) := by
  have he : ∀ n, n ∈ step env ns → n ∈ ns := fun n hn => by
    rcases mem_step.1 hn with h' | ⟨m, hm, p, hp, hn⟩
    · exact h'
    · exact h m hm p hp n hn
  exact fun m hm p hp n hn => mem_step.2 (.inl (h m (he m hm) p hp n hn))

theorem closed_reach : ∀ (k : Nat) {ns : List Nat}, Closed env ns → Closed env (reach env k ns)
  | 0, _, h => h
  | k + 1, _, h => closed_reach k (closed_step h)

theorem sub_reach : ∀ (k : Nat) {ns : List Nat} {n}, n ∈ ns → n ∈ reach env k ns
  | 0, _, _, h => h
  | k + 1, _, _, h => sub_reach k (mem_step.2 (.inl h))

theorem reach_uses {q : Pattern D V} : ∀ (k : Nat) {ns : List Nat}, (∀ n ∈ ns, Uses env q n) → ∀ n ∈ reach env k ns, Uses env q n
  | 0, _, h => h
  | k + 1, ns, h => reach_uses k fun n hn => by
    rcases mem_step.1 hn with h' | ⟨m, hm, p, hp, hn⟩
    · exact h n h'
    · have hu := h m hm
      clear hm h
      induction hu with
      | here h1 => exact .there h1 hp (.here hn)
      | there h1 h2 _ ih => exact .there h1 h2 (ih hp)

/-- how many of the mentioned definitions are not in the set -/
def missing (env : Env D V) (ns : List Nat) : Nat := ((refsL env).filter (! ns.contains ·)).length

theorem filter_lt {α : Type} {f g : α → Bool} : ∀ {xs : List α}, (∀ x ∈ xs, g x = true → f x = true) → (∃ x ∈ xs, f x = true ∧ g x = false) →
    (xs.filter g).length < (xs.filter f).length
  | [], _, h => by obtain ⟨x, hx, _⟩ := h; cases hx
  | x :: xs, hi, h => by
    have hle : ∀ {ys : List α}, (∀ y ∈ ys, g y = true → f y = true) → (ys.filter g).length ≤ (ys.filter f).length := by
      intro ys
      induction ys with
      | nil => intro _; exact Nat.le_refl _
      | cons y ys ih =>
        intro hy
        have := ih fun z hz => hy z (List.mem_cons_of_mem _ hz)
        have h0 := hy y List.mem_cons_self
        rw [List.filter_cons, List.filter_cons]
        by_cases hg : g y = true
        · rw [if_pos hg, if_pos (h0 hg), List.length_cons, List.length_cons]; omega
        · rw [if_neg hg]
          split
          · rw [List.length_cons]; omega
          · exact this
    rw [List.filter_cons, List.filter_cons]
    obtain ⟨y, hy, hf, hg⟩ := h
    rcases List.mem_cons.1 hy with rfl | hy
    · rw [if_neg (by rw [hg]; nofun), if_pos hf, List.length_cons]
      have := hle fun z hz => hi z (List.mem_cons_of_mem _ hz)
      omega
    · have h1 := filter_lt (fun z hz => hi z (List.mem_cons_of_mem _ hz)) ⟨y, hy, hf, hg⟩
      by_cases hx : g x = true
      · rw [if_pos hx, if_pos (hi x List.mem_cons_self hx), List.length_cons, List.length_cons]; omega
      · rw [if_neg hx]
        split
        · rw [List.length_cons]; omega
        · exact h1

theorem reach_closed : ∀ (k : Nat) {ns : List Nat}, missing env ns ≤ k → Closed env (reach env k ns)
  | 0, ns, h => by
    intro m hm p hp n hn
    have h0 : (refsL env).filter (! ns.contains ·) = [] := List.eq_nil_of_length_eq_zero (Nat.le_zero.1 h)
    have := List.filter_eq_nil_iff.1 h0 n (refsL_of (List.mem_of_getElem? hp) hn)
    simpa [reach] using this
  | k + 1, ns, h => by
    rw [reach_succ]
    by_cases hc : Closed env ns
    · exact closed_reach k (closed_step hc)
    · refine reach_closed k (Nat.le_of_lt_succ (Nat.lt_of_lt_of_le (filter_lt ?_ ?_) h))
      · intro x _ hx
        have : x ∉ step env ns := by simpa using hx
        simpa using fun hx => this (mem_step.2 (.inl hx))
      · have hc : ∃ m ∈ ns, ∃ p, env[m]? = some p ∧ ∃ n ∈ p.refs, n ∉ ns := by
          refine Classical.byContradiction fun hx => hc fun m hm p hp n hn => Classical.byContradiction fun hn' => hx ⟨m, hm, p, hp, n, hn, hn'⟩
        obtain ⟨m, hm, p, hp, n, hn, hn'⟩ := hc
        refine ⟨n, refsL_of (List.mem_of_getElem? hp) hn, by simpa using hn', ?_⟩
        simpa using mem_step.2 (.inr ⟨m, hm, p, hp, hn⟩)

theorem notUses_complete {q : Pattern D V} {n : Nat} (h : ¬ Uses env q n) : Ev fun k => notUses env k q n := by
  refine ⟨missing env q.refs, fun k hk => ?_⟩
  simp only [notUses, Bool.and_eq_true, List.all_eq_true, Bool.not_eq_true', List.contains_iff_mem]
  refine ⟨⟨fun m hm => sub_reach k hm, fun m hm => ?_⟩, ?_⟩
  · cases he : env[m]? with
    | none => rfl
    | some p => exact List.all_eq_true.2 fun x hx => by simpa using reach_closed k hk m hm p he x hx
  · rw [List.contains_eq_mem, decide_eq_false_iff_not]
    exact fun hn => h (reach_uses k (fun m hm => .here hm) n hn)

theorem notRecursive_complete {n : Nat} (h : ¬ Recursive env n) : Ev fun k => notRecursive env k n := by
  simp only [notRecursive]
  cases he : env[n]? with
  | none => exact .always fun _ => rfl
  | some q => exact notUses_complete fun hu => h ⟨q, he, hu⟩

theorem closed_at {k : Nat} {start : Pattern D V} (hk : missing env start.refs ≤ k) : closed env (reach env k start.refs) start = true := by
  simp only [closed, Bool.and_eq_true, List.all_eq_true, List.contains_iff_mem]
  refine ⟨fun m hm => sub_reach k hm, fun m hm => ?_⟩
  cases he : env[m]? with
  | none => rfl
  | some p => exact List.all_eq_true.2 fun x hx => by simpa using reach_closed k hk m hm p he x hx

theorem closed_complete {start : Pattern D V} : Ev fun k => closed env (reach env k start.refs) start := ⟨missing env start.refs, fun _ => closed_at⟩

/-- from some depth on -/
def EvP (P : Nat → Prop) : Prop := ∃ N, ∀ k, N ≤ k → P k

theorem EvP.all {α : Type} {P : Nat → α → Prop} : ∀ {xs : List α}, (∀ x ∈ xs, EvP fun k => P k x) → EvP fun k => ∀ x ∈ xs, P k x
  | [], _ => ⟨0, nofun⟩
  | x :: xs, h => by
    obtain ⟨M, h1⟩ := h x List.mem_cons_self
    obtain ⟨N, h2⟩ := EvP.all fun y hy => h y (List.mem_cons_of_mem _ hy)
    refine ⟨M + N, fun k hk y hy => ?_⟩
    rcases List.mem_cons.1 hy with rfl | hy
    · exact h1 k (by omega)
    · exact h2 k (by omega) y hy
theorem EvP.of {f : Nat → Bool} {p : Prop} (h : p → Ev f) : EvP fun k => p → f k = true := by
  by_cases hp : p
  · exact Exists.imp (fun _ h k hk _ => h k hk) (h hp)
  · exact ⟨0, fun _ _ h => absurd h hp⟩
theorem EvP.ev {P : Nat → Prop} {f : Nat → Bool} (h : EvP P) (hi : ∀ k, P k → f k = true) : Ev f := Exists.imp (fun _ h k hk => hi k (h k hk)) h

theorem noAlias_complete {start : Pattern D V} (h : NoAlias env start) : Ev fun k => noAlias env k start := by
  have h1 : EvP fun k => ∀ n ∈ List.range env.length, Uses env start n → (match env[n]? with
      | none => true
      | some q => q.aliases.all fun m => match env[m]? with
        | none => true
        | some b => notUses env k b n) = true := by
    refine EvP.all fun n _ => EvP.of fun hu => ?_
    cases he : env[n]? with
    | none => exact .always fun _ => rfl
    | some q =>
      refine Ev.all fun m hm => ?_
      cases hb : env[m]? with
      | none => exact .always fun _ => rfl
      | some b => exact notUses_complete (h n hu q m b he hm hb)
  refine (closed_complete.and (EvP.ev h1 (f := fun k => (reach env k start.refs).all fun n => match env[n]? with
    | none => true
    | some q => q.aliases.all fun m => match env[m]? with
      | none => true
      | some b => notUses env k b n) fun k hk => ?_)).imp fun k hk => hk
  refine List.all_eq_true.2 fun n hn => ?_
  by_cases hl : n < env.length
  · exact hk n (List.mem_range.2 hl) (reach_uses k (fun m hm => .here hm) n hn)
  · rw [List.getElem?_eq_none (by omega)]

/-! ### the tests that follow references -/

theorem exOKAll_of {o : Nat → Bool} : ∀ {ps : List (Pattern D V)}, ps.all (exOK o) = exOKAll o ps
  | [] => rfl
  | p :: ps => by rw [List.all_cons, exOKAll, exOKAll_of]
theorem listFreeAll_of {o : Nat → Bool} : ∀ {ps : List (Pattern D V)}, ps.all (listFree o) = listFreeAll o ps
  | [] => rfl
  | p :: ps => by rw [List.all_cons, listFreeAll, listFreeAll_of]
theorem attrFreeAll_of {o : Nat → Bool} : ∀ {ps : List (Pattern D V)}, ps.all (attrFree o) = attrFreeAll o ps
  | [] => rfl
  | p :: ps => by rw [List.all_cons, attrFreeAll, attrFreeAll_of]
theorem repeatOKAll_of {f : Pattern D V → Bool} {o : Nat → Bool} : ∀ {ps : List (Pattern D V)}, ps.all (repeatOK f o) = repeatOKAll f o ps
  | [] => rfl
  | p :: ps => by rw [List.all_cons, repeatOKAll, repeatOKAll_of]
theorem startOKAll_of {o : Nat → Bool} : ∀ {ps : List (Pattern D V)}, ps.all (startOK o) = startOKAll o ps
  | [] => rfl
  | p :: ps => by rw [List.all_cons, startOKAll, startOKAll_of]

theorem not_isEmpty {α : Type} : ∀ {xs : List α}, xs ≠ [] → (! xs.isEmpty) = true
  | [], h => absurd rfl h
  | _ :: _, _ => rfl

theorem exOK_complete {p : Pattern D V} (h : ExOK env p) : Ev fun k => exOKIn env k p := by
  unfold exOKIn
  induction h with
  | value => exact .always fun _ => rfl
  | data => exact .always fun _ => rfl
  | dataExcept _ ih => exact ih.imp fun k hk => by rw [exOK]; exact hk
  | notAllowed => exact .always fun _ => rfl
  | choice hne _ ih => exact (Ev.all ih).imp fun k hk => by rw [exOK, not_isEmpty hne, ← exOKAll_of]; exact hk
  | ref he _ ih => exact Ev.succ (ih.imp fun k hk => by rw [exOK, deep, he]; exact hk)

theorem listFree_complete {p : Pattern D V} (h : ListFree env p) : Ev fun k => listFreeIn env k p := by
  unfold listFreeIn
  induction h with
  | choice _ ih => exact (Ev.all ih).imp fun k hk => by rw [listFree, ← listFreeAll_of]; exact hk
  | group _ ih => exact (Ev.all ih).imp fun k hk => by rw [listFree, ← listFreeAll_of]; exact hk
  | interleave _ ih => exact (Ev.all ih).imp fun k hk => by rw [listFree, ← listFreeAll_of]; exact hk
  | mixed _ ih => exact ih.imp fun k hk => by rw [listFree]; exact hk
  | optional _ ih => exact ih.imp fun k hk => by rw [listFree]; exact hk
  | zeroOrMore _ ih => exact ih.imp fun k hk => by rw [listFree]; exact hk
  | oneOrMore _ ih => exact ih.imp fun k hk => by rw [listFree]; exact hk
  | ref he _ ih => exact Ev.succ (ih.imp fun k hk => by rw [listFree, deep, he]; exact hk)
  | _ => exact .always fun _ => rfl

theorem attrFree_complete {p : Pattern D V} (h : AttrFree env p) : Ev fun k => attrFreeIn env k p := by
  unfold attrFreeIn
  induction h with
  | choice _ ih => exact (Ev.all ih).imp fun k hk => by rw [attrFree, ← attrFreeAll_of]; exact hk
  | group _ ih => exact (Ev.all ih).imp fun k hk => by rw [attrFree, ← attrFreeAll_of]; exact hk
  | interleave _ ih => exact (Ev.all ih).imp fun k hk => by rw [attrFree, ← attrFreeAll_of]; exact hk
  | mixed _ ih => exact ih.imp fun k hk => by rw [attrFree]; exact hk
  | optional _ ih => exact ih.imp fun k hk => by rw [attrFree]; exact hk
  | zeroOrMore _ ih => exact ih.imp fun k hk => by rw [attrFree]; exact hk
  | oneOrMore _ ih => exact ih.imp fun k hk => by rw [attrFree]; exact hk
  | ref he _ ih => exact Ev.succ (ih.imp fun k hk => by rw [attrFree, deep, he]; exact hk)
  | _ => exact .always fun _ => rfl

theorem startOK_complete {p : Pattern D V} (h : StartOK env p) : Ev fun k => startOK (deep env startOK k) p := by
  induction h with
  | element => exact .always fun _ => rfl
  | notAllowed => exact .always fun _ => rfl
  | choice hne _ ih => exact (Ev.all ih).imp fun k hk => by rw [startOK, not_isEmpty hne, ← startOKAll_of]; exact hk
  | ref he _ ih => exact Ev.succ (ih.imp fun k hk => by rw [startOK, deep, he]; exact hk)

/-- from some two depths on -/
def Ev2 (f : Nat → Nat → Bool) : Prop := ∃ N, ∀ k, N ≤ k → ∀ j, N ≤ j → f k j = true

theorem Ev2.always {f : Nat → Nat → Bool} (h : ∀ k j, f k j = true) : Ev2 f := ⟨0, fun k _ j _ => h k j⟩
theorem Ev2.of {f : Nat → Bool} (h : Ev f) : Ev2 fun k _ => f k := Exists.imp (fun _ h k hk _ _ => h k hk) h
theorem Ev2.imp {f g : Nat → Nat → Bool} (h : Ev2 f) (hi : ∀ k j, f k j = true → g k j = true) : Ev2 g :=
  Exists.imp (fun _ h k hk j hj => hi k j (h k hk j hj)) h
theorem Ev2.and {f g : Nat → Nat → Bool} (hf : Ev2 f) (hg : Ev2 g) : Ev2 fun k j => f k j && g k j := by
  obtain ⟨M, hf⟩ := hf
  obtain ⟨N, hg⟩ := hg
  refine ⟨M + N, fun k hk j hj => ?_⟩
  show (f k j && g k j) = true
  rw [hf k (by omega) j (by omega), hg k (by omega) j (by omega)]; rfl
theorem Ev2.succ {f : Nat → Nat → Bool} (h : Ev2 fun k j => f k (j + 1)) : Ev2 f := by
  obtain ⟨N, h⟩ := h
  refine ⟨N + 1, fun k hk j hj => ?_⟩
  cases j with
  | zero => omega
  | succ j => exact h k (by omega) j (by omega)
theorem Ev2.all {α : Type} {f : Nat → Nat → α → Bool} : ∀ {xs : List α}, (∀ x ∈ xs, Ev2 fun k j => f k j x) → Ev2 fun k j => xs.all (f k j)
  | [], _ => .always fun _ _ => rfl
  | x :: xs, h => ((h x List.mem_cons_self).and (Ev2.all fun y hy => h y (List.mem_cons_of_mem _ hy))).imp fun k j hk => by
    rw [List.all_cons]; exact hk
theorem Ev2.diag {f : Nat → Nat → Bool} (h : Ev2 f) : Ev fun k => f k k := Exists.imp (fun _ h k hk => h k hk k hk) h

theorem repeatOK_complete {p : Pattern D V} (h : RepeatOK env p) :
    Ev2 fun k j => repeatOK (attrFreeIn env k) (deep env (repeatOK (attrFreeIn env k)) j) p := by
  induction h with
  | free h =>
    induction h with
    | choice _ ih => exact (Ev2.all ih).imp fun k j hk => by rw [repeatOK, ← repeatOKAll_of]; exact hk
    | optional _ ih => exact ih.imp fun k j hk => by rw [repeatOK]; exact hk
    | zeroOrMore _ ih => exact ih.imp fun k j hk => by rw [repeatOK]; exact hk
    | oneOrMore _ ih => exact ih.imp fun k j hk => by rw [repeatOK]; exact hk
    | ref he _ ih => exact Ev2.succ (ih.imp fun k j hk => by rw [repeatOK, deep, he]; exact hk)
    | group h _ => exact (Ev2.of (attrFree_complete (.group h))).imp fun k j hk => by simpa only [repeatOK] using hk
    | interleave h _ => exact (Ev2.of (attrFree_complete (.interleave h))).imp fun k j hk => by simpa only [repeatOK] using hk
    | mixed h _ => exact (Ev2.of (attrFree_complete (.mixed h))).imp fun k j hk => by simpa only [repeatOK] using hk
    | _ => exact .always fun _ _ => rfl
  | attr => exact .always fun _ _ => rfl
  | choice _ ih => exact (Ev2.all ih).imp fun k j hk => by rw [repeatOK, ← repeatOKAll_of]; exact hk
  | optional _ ih => exact ih.imp fun k j hk => by rw [repeatOK]; exact hk
  | zeroOrMore _ ih => exact ih.imp fun k j hk => by rw [repeatOK]; exact hk
  | oneOrMore _ ih => exact ih.imp fun k j hk => by rw [repeatOK]; exact hk
  | ref he _ ih => exact Ev2.succ (ih.imp fun k j hk => by rw [repeatOK, deep, he]; exact hk)

/-! ### which patterns may be empty -/

theorem notEmptyAny : ∀ {ps : List (Pattern D V)}, (∀ p ∈ ps, Match L env p [] [] ∨ Ev fun k => ! mayEmpty (refEmpty env k) p) →
    (∃ p ∈ ps, Match L env p [] []) ∨ Ev fun k => ! mayEmptyAny (refEmpty env k) ps
  | [], _ => .inr (.always fun _ => rfl)
  | p :: ps, h => by
    rcases h p List.mem_cons_self with hp | hp
    · exact .inl ⟨p, List.mem_cons_self, hp⟩
    · rcases notEmptyAny fun q hq => h q (List.mem_cons_of_mem _ hq) with ⟨q, hq, hm⟩ | hq
      · exact .inl ⟨q, List.mem_cons_of_mem _ hq, hm⟩
      · exact .inr ((hp.and hq).imp fun k hk => by rw [mayEmptyAny, Bool.not_or]; exact hk)

theorem notEmptyAll : ∀ {ps : List (Pattern D V)}, (∀ p ∈ ps, Match L env p [] [] ∨ Ev fun k => ! mayEmpty (refEmpty env k) p) →
    (∀ p ∈ ps, Match L env p [] []) ∨ Ev fun k => ! mayEmptyAll (refEmpty env k) ps
  | [], _ => .inl nofun
  | p :: ps, h => by
    rcases h p List.mem_cons_self with hp | hp
    · rcases notEmptyAll fun q hq => h q (List.mem_cons_of_mem _ hq) with hm | hq
      · exact .inl fun q hq => (List.mem_cons.1 hq).elim (fun e => e ▸ hp) (hm q)
      · exact .inr (hq.imp fun k hk => by rw [mayEmptyAll, Bool.not_and, hk, Bool.or_true])
    · exact .inr (hp.imp fun k hk => by rw [mayEmptyAll, Bool.not_and, hk, Bool.true_or])

theorem group_empty : ∀ {ps : List (Pattern D V)}, (∀ p ∈ ps, Match L env p [] []) → Match L env (.group ps) [] []
  | [], _ => .groupNil
  | p :: ps, h => .groupCons (c1 := []) (c2 := []) (h p List.mem_cons_self) (group_empty fun q hq => h q (List.mem_cons_of_mem _ hq)) (.refl _)

theorem interleave_empty : ∀ {ps : List (Pattern D V)}, (∀ p ∈ ps, Match L env p [] []) → Match L env (.interleave ps) [] []
  | [], _ => .interleaveNil
  | p :: ps, h => .interleaveCons (h p List.mem_cons_self) (interleave_empty fun q hq => h q (List.mem_cons_of_mem _ hq)) (.refl _) .nil

/-- a well-formed pattern matches nothing at all, or is seen not to -/
theorem mayEmpty_complete {Q : Pattern D V → Prop} {c s l p} (h : WF L env Q c s l p) :
    Match L env p [] [] ∨ Ev fun k => ! mayEmpty (refEmpty env k) p := by
  induction h with
  | empty => exact .inl .empty
  | text => exact .inl (.text nofun)
  | choice _ _ ih =>
    rcases notEmptyAny ih with ⟨p, hp, hm⟩ | h
    · exact .inl (.choice hp hm)
    · exact .inr (h.imp fun k hk => by rw [mayEmpty]; exact hk)
  | group _ _ ih =>
    rcases notEmptyAll ih with hm | h
    · exact .inl (group_empty hm)
    · exact .inr (h.imp fun k hk => by rw [mayEmpty]; exact hk)
  | interleave _ _ _ ih =>
    rcases notEmptyAll ih with hm | h
    · exact .inl (interleave_empty hm)
    · exact .inr (h.imp fun k hk => by rw [mayEmpty]; exact hk)
  | mixed _ _ ih =>
    rcases ih with hm | h
    · exact .inl (.mixed hm (c2 := []) nofun .nil)
    · exact .inr (h.imp fun k hk => by rw [mayEmpty]; exact hk)
  | optional => exact .inl .optionalNone
  | zeroOrMore => exact .inl .zeroOrMoreNil
  | oneOrMore _ _ ih =>
    rcases ih with hm | h
    · exact .inl (.oneOrMore (c1 := []) (c2 := []) hm .zeroOrMoreNil (.refl _))
    · exact .inr (h.imp fun k hk => by rw [mayEmpty]; exact hk)
  | ref he _ _ ih =>
    rcases ih with hm | h
    · exact .inl (.ref he hm)
    · exact .inr (Ev.succ (h.imp fun k hk => by rw [mayEmpty, refEmpty, he]; exact hk))
  | _ => exact .inr (.always fun _ => rfl)

theorem fresh_complete {Q : Pattern D V → Prop} {c s l n} (h : WF L env Q c s l (.ref n)) (hf : Fresh L env n) : Ev fun k => fresh env k n := by
  by_cases hr : Recursive env n
  · rcases mayEmpty_complete h with hm | h
    · exact absurd hm (hf hr)
    · exact h.imp fun k hk => by
        rw [mayEmpty] at hk
        rw [fresh, hk]; rfl
  · exact (notRecursive_complete hr).imp fun k hk => by rw [fresh, hk, Bool.or_true]

theorem wfAll_of {lf rp ex : Pattern D V → Bool} {fr : Nat → Bool} {o : Bool → Bool → Nat → Bool} {s l : Bool} : ∀ {ps : List (Pattern D V)},
    ps.all (wf lf rp ex fr o s l) = wfAll lf rp ex fr o s l ps
  | [] => rfl
  | p :: ps => by rw [List.all_cons, wfAll, wfAll_of]

theorem wf_complete {Q : Pattern D V → Prop} {s l p} (h : WF L env Q true s l p) :
    Ev2 fun k j => wf (listFreeIn env k) (repeatOKIn env k) (exOKIn env k) (fresh env k) (refWf env k j) s l p := by
  induction h with
  | choice hne _ ih => exact (Ev2.all ih).imp fun k j hk => by rw [wf, not_isEmpty hne, ← wfAll_of]; exact hk
  | group hne _ ih => exact (Ev2.all ih).imp fun k j hk => by rw [wf, not_isEmpty hne, ← wfAll_of]; exact hk
  | interleave hne _ hl ih =>
    exact ((Ev2.all ih).and (Ev2.of (Ev.all fun p hp => listFree_complete (hl p hp)))).imp fun k j hk => by
      rw [wf, not_isEmpty hne, ← wfAll_of]; exact hk
  | mixed _ hl ih => exact (ih.and (Ev2.of (listFree_complete hl))).imp fun k j hk => by rw [wf]; exact hk
  | optional _ ih => exact ih.imp fun k j hk => by rw [wf]; exact hk
  | zeroOrMore _ hr ih => exact (ih.and (Ev2.of (repeatOK_complete (hr rfl)).diag)).imp fun k j hk => by rw [wf]; exact hk
  | oneOrMore _ hr ih => exact (ih.and (Ev2.of (repeatOK_complete (hr rfl)).diag)).imp fun k j hk => by rw [wf]; exact hk
  | attr _ ih => exact ih.imp fun k j hk => by rw [wf]; exact hk
  | @ref s l n p he hw hf ih =>
    have h1 : Ev2 fun k j => refWf env k j s l n := Ev2.succ (ih.imp fun k j hk => by rw [refWf, he]; exact hk)
    cases s with
    | false => exact h1.imp fun k j hk => by rw [wf, hk]; rfl
    | true => exact (h1.and (Ev2.of (fresh_complete (.ref he hw hf) (hf rfl rfl)))).imp fun k j hk => by rw [wf]; exact hk
  | dataExcept he => exact (Ev2.of (exOK_complete he)).imp fun k j hk => by rw [wf]; exact hk
  | list _ ih => exact ih.imp fun k j hk => by rw [wf]; exact hk
  | _ => exact .always fun _ _ => by rw [wf] <;> nofun

mutual
theorem exOK_contents : ∀ {p : Pattern D V}, ExOK env p → contents p = []
  | .choice ps, h => by
    cases h with
    | choice _ h => rw [contents]; exact exOK_contentsL h
  | .datatypeNameExcept _ e, h => by
    cases h with
    | dataExcept h => rw [contents]; exact exOK_contents h
  | .ref _, _ => rfl
  | .datatypeValue _, _ => rfl
  | .datatypeName _, _ => rfl
  | .notAllowed, _ => rfl
  | .empty, h => by cases h
  | .text, h => by cases h
  | .group _, h => by cases h
  | .interleave _, h => by cases h
  | .mixed _, h => by cases h
  | .optional _, h => by cases h
  | .zeroOrMore _, h => by cases h
  | .oneOrMore _, h => by cases h
  | .attr _ _, h => by cases h
  | .element _ _, h => by cases h
  | .list _, h => by cases h
theorem exOK_contentsL : ∀ {ps : List (Pattern D V)}, (∀ p ∈ ps, ExOK env p) → contentsL ps = []
  | [], _ => rfl
  | p :: ps, h => by rw [contentsL, exOK_contents (h p List.mem_cons_self), exOK_contentsL fun q hq => h q (List.mem_cons_of_mem _ hq)]; rfl
end

section
variable {Q : Pattern D V → Prop} (hQ : ∀ p, Q p → WF L env Q true false true p)
include hQ
mutual
theorem wf_contents : ∀ {p : Pattern D V} {s l}, WF L env Q true s l p → ∀ q ∈ contents p, Q q
  | .choice ps, _, _, h => by
    cases h with
    | choice _ h => rw [contents]; exact wf_contentsL h
  | .group ps, _, _, h => by
    cases h with
    | group _ h => rw [contents]; exact wf_contentsL h
  | .interleave ps, _, _, h => by
    cases h with
    | interleave _ h => rw [contents]; exact wf_contentsL h
  | .mixed p, _, _, h => by
    cases h with
    | mixed h => rw [contents]; exact wf_contents h
  | .optional p, _, _, h => by
    cases h with
    | optional h => rw [contents]; exact wf_contents h
  | .zeroOrMore p, _, _, h => by
    cases h with
    | zeroOrMore h => rw [contents]; exact wf_contents h
  | .oneOrMore p, _, _, h => by
    cases h with
    | oneOrMore h => rw [contents]; exact wf_contents h
  | .attr _ p, _, _, h => by
    cases h with
    | attr h => rw [contents]; exact wf_contents h
  | .element _ p, _, _, h => by
    cases h with
    | element h =>
      rw [contents]
      intro q hq
      rcases List.mem_cons.1 hq with hq | hq
      · rw [hq]; exact h
      · exact wf_contents (hQ p h) q hq
  | .datatypeNameExcept _ e, _, _, h => by
    cases h with
    | dataExcept h => rw [contents, exOK_contents h]; nofun
  | .list p, _, _, h => by
    cases h with
    | list h => rw [contents]; exact wf_contents h
  | .ref _, _, _, _ => nofun
  | .datatypeValue _, _, _, _ => nofun
  | .datatypeName _, _, _, _ => nofun
  | .notAllowed, _, _, _ => nofun
  | .empty, _, _, _ => nofun
  | .text, _, _, _ => nofun
theorem wf_contentsL : ∀ {ps : List (Pattern D V)} {s l}, (∀ p ∈ ps, WF L env Q true s l p) → ∀ q ∈ contentsL ps, Q q
  | [], _, _, _ => nofun
  | p :: ps, _, _, h => by
    rw [contentsL]
    intro q hq
    rcases List.mem_append.1 hq with hq | hq
    · exact wf_contents (h p List.mem_cons_self) q hq
    · exact wf_contentsL (fun q hq => h q (List.mem_cons_of_mem _ hq)) q hq
end
end

/-- a schema that meets the conditions passes the test at every sufficient depth -/
theorem schema_complete [DecidableEq D] [DecidableEq V] {start : Pattern D V} (hs : SchemaOK L env start true) (ht : StartOK env start) :
    Ev fun k => schema env k start := by
  obtain ⟨Q, hQ, hw⟩ := hs
  have hc : ∀ k, ∀ q ∈ contentsL (bodies env k start), Q q ∧ q ∈ contentsL (start :: env) := by
    intro k q hq
    obtain ⟨p, hp, hq⟩ := mem_contentsL hq
    rcases List.mem_cons.1 hp with hp | hp
    · rw [hp] at hq; exact ⟨wf_contents hQ hw q hq, contentsL_mem List.mem_cons_self hq⟩
    · obtain ⟨n, hn, hp⟩ := List.mem_filterMap.1 hp
      refine ⟨?_, contentsL_mem (List.mem_cons_of_mem _ (List.mem_of_getElem? hp)) hq⟩
      rcases Pos.uses hQ (reach_uses k (fun m hm => .here hm) n hn) (.inl ⟨_, _, hw⟩) with ⟨s, l, h⟩ | h
      · cases h with
        | ref he h => rw [hp] at he; cases he; exact wf_contents hQ h q hq
      · cases h with
        | ref he h => rw [hp] at he; cases he; rw [exOK_contents h] at hq; cases hq
  have h1 : EvP fun k => ∀ q ∈ contentsL (start :: env), Q q → wfIn env k false true q = true :=
    EvP.all fun q _ => EvP.of fun hq => (wf_complete (hQ q hq)).diag
  have h2 := h1.ev (f := fun k => (contentsL (bodies env k start)).all (wfIn env k false true)) fun k hk =>
    List.all_eq_true.2 fun q hq => hk q (hc k q hq).2 (hc k q hq).1
  exact ((((startOK_complete ht).and closed_complete).and (wf_complete hw).diag).and h2).imp fun k hk => hk

end Verif.Check
