import Verif.Spec.Size
import Verif.Proof.Fuel
import Verif.Model.Validate
/-
Building a validator keeps at most as many patterns as the schema has.
-/
set_option linter.unusedSectionVars false
namespace Verif.Size
variable {D V : Type} [DecidableEq D] [DecidableEq V] {env : Env D V}

/-- what compiling definition `n` may still cost -/
def cost (env : Env D V) (st : Store D V) (n : Nat) : Nat :=
  match st.refs.lookup n with
  | some _ => 0
  | none => match env[n]? with
    | none => 0
    | some q => weight q + 1

/-- what compiling the first `k` definitions may still cost -/
def open' (env : Env D V) (st : Store D V) : Nat → Nat
  | 0 => 0
  | k + 1 => open' env st k + cost env st k

/-- the patterns kept, and those that may come with definitions not yet compiled -/
def load (env : Env D V) (st : Store D V) : Nat := st.pats.length + open' env st env.length

/-- the program keeps at most `c` more patterns, and does not hit the limit if there is room for them -/
def Costs (env : Env D V) {α : Type} (c : Nat) (m : SM D V α) : Prop :=
  ∀ st, load env st + c < 0x10000 → m st ≠ .error .capacity ∧ ∀ a st', m st = .ok (a, st') → load env st' ≤ load env st + c

section
variable {α β : Type}
theorem Costs.bind {c d e : Nat} {x : SM D V α} {f : α → SM D V β} (hx : Costs env c x) (hf : ∀ a, Costs env d (f a)) (he : c + d ≤ e) :
    Costs env e (x >>= f) := by
  intro st hs
  cases hr : x st with
  | error g =>
    rw [ST.bind_of_error hr]
    refine ⟨fun h => ?_, fun a s' h => by cases h⟩
    cases h; exact (hx st (by omega)).1 hr
  | ok r =>
    obtain ⟨a, st'⟩ := r
    rw [ST.bind_of_ok hr]
    have h1 := (hx st (by omega)).2 a st' hr
    obtain ⟨h2, h3⟩ := hf a st' (by omega)
    exact ⟨h2, fun b s2 h => by have := h3 b s2 h; omega⟩

theorem Costs.mono {c d : Nat} {x : SM D V α} (h : Costs env c x) (hd : c ≤ d) : Costs env d x := fun st hs => by
  obtain ⟨h1, h2⟩ := h st (by omega)
  exact ⟨h1, fun a s' e => by have := h2 a s' e; omega⟩

theorem Costs.pure {c : Nat} {a : α} : Costs env c (Pure.pure a : SM D V α) := fun st hs =>
  ⟨fun h => by simp at h, fun b s' e => by simp at e; obtain ⟨_, rfl⟩ := e; omega⟩
theorem Costs.fault {c : Nat} {e : Fault} (h : e ≠ .capacity) : Costs env c (ST.fault e : SM D V α) := fun _ _ =>
  ⟨fun h' => by simp at h'; exact h h', fun _ _ e => by simp at e⟩
theorem Costs.ite {c : Nat} {b : Prop} [Decidable b] {x y : SM D V α} (hx : Costs env c x) (hy : Costs env c y) : Costs env c (if b then x else y) := by
  by_cases h : b <;> simp only [h, if_true, if_false] <;> assumption
end

theorem open'_congr {st st' : Store D V} (h : st'.refs = st.refs) : ∀ k, open' env st' k = open' env st k
  | 0 => rfl
  | k + 1 => by simp only [open', cost, h, open'_congr h k]

theorem c_push (p : Pat D V) : Costs env 1 (push p) := by
  intro st hs
  unfold push
  unfold load at hs
  rw [if_neg (by omega)]
  split
  · exact ⟨fun h => (by cases h), fun _ _ h => by cases h; omega⟩
  · refine ⟨fun h => (by cases h), fun _ _ h => ?_⟩
    cases h
    have h := open'_congr (env := env) (st := st) (st' := { st with memo := (p, st.pats.length) :: st.memo, pats := st.pats ++ [p] }) rfl env.length
    simp only [load, List.length_append, List.length_singleton]
    omega

theorem c_patt (i : Nat) : Costs env 0 (patt i : SM D V (Pat D V)) := by
  intro st _
  unfold patt
  split
  · exact ⟨fun h => (by cases h), fun _ _ h => by cases h; omega⟩
  · exact ⟨fun h => (by cases h), fun _ _ h => by cases h⟩

theorem c_choice (l r : Nat) : Costs env 1 (choice l r : SM D V Nat) := by
  refine (c_patt l).bind (d := 1) (fun a => (c_patt r).bind (d := 1) (fun b => ?_) (by omega)) (by omega)
  split
  · exact .pure
  · exact .pure
  · exact .ite .pure (c_push _)

theorem c_interleave (l r : Nat) : Costs env 1 (interleave l r : SM D V Nat) := by
  refine (c_patt l).bind (d := 1) (fun a => (c_patt r).bind (d := 1) (fun b => ?_) (by omega)) (by omega)
  split
  · exact c_push _
  · exact c_push _
  · exact .pure
  · exact .pure
  · exact c_push _

theorem c_group (l r : Nat) : Costs env 1 (group l r : SM D V Nat) := by
  refine (c_patt l).bind (d := 1) (fun a => (c_patt r).bind (d := 1) (fun b => ?_) (by omega)) (by omega)
  split
  · exact c_push _
  · exact c_push _
  · exact .pure
  · exact .pure
  · exact c_push _

theorem c_oneOrMore (l : Nat) : Costs env 1 (oneOrMore l : SM D V Nat) := (c_patt l).bind (fun _ => c_push _) (by omega)

theorem c_compileVec {c : Pattern D V → SM D V Nat} {op : Nat → Nat → SM D V Nat} (ho : ∀ l r, Costs env 1 (op l r)) :
    ∀ {ps : List (Pattern D V)}, (∀ p ∈ ps, Costs env (weight p) (c p)) → Costs env (weightL ps) (compileVec c op ps)
  | [], _ => .fault nofun
  | [p], h => (h p (by simp)).mono (by simp [weightL])
  | p :: q :: ps, h => by
    rw [compileVec, weightL]
    exact (c_compileVec ho fun r hr => h r (List.mem_cons_of_mem _ hr)).bind (fun _ => (h p (by simp)).bind (fun _ => ho _ _) (Nat.le_refl _)) (by omega)

theorem c_resolveRef (ph id : Nat) : Costs env 0 (resolveRef ph id : SM D V Unit) := by
  unfold resolveRef
  refine .ite .pure ((c_patt id).bind (d := 0) (fun target => .ite (.fault nofun) ((c_patt ph).bind (d := 0) (fun _ => .ite ?_ (.fault nofun)) (by omega))) (by omega))
  intro st hs
  refine ⟨fun h => (by cases h), fun _ _ h => ?_⟩
  cases h
  have h := open'_congr (env := env) (st := st) (st' := { st with pats := st.pats.set ph target }) rfl env.length
  simp only [load, List.length_set]
  omega

/-- a definition is taken up -/
theorem open'_taken {st st' : Store D V} {n id : Nat} (h : st'.refs = (n, id) :: st.refs) (hn : st.refs.lookup n = none) :
    ∀ k, open' env st' k + (if n < k then cost env st n else 0) = open' env st k
  | 0 => by simp [open']
  | k + 1 => by
    have ih := open'_taken h hn k
    simp only [open']
    by_cases e : k = n
    · subst e
      have h0 : cost env st' k = 0 := by simp [cost, h]
      rw [if_neg (by omega)] at ih
      rw [if_pos (by omega), h0]
      omega
    · have h0 : cost env st' k = cost env st k := by
        simp only [cost, h, List.lookup_cons, beq_false_of_ne e]
      rw [h0]
      by_cases hk : n < k
      · rw [if_pos hk] at ih; rw [if_pos (by omega)]; omega
      · rw [if_neg hk] at ih; rw [if_neg (by omega)]; omega

theorem c_compile : ∀ (n : Nat) (p : Pattern D V), Costs env (weight p) (compile env n p)
  | 0, _ => .fault nofun
  | n + 1, p => by
    have ih := c_compile n
    cases p with
    | choice ps => exact c_compileVec c_choice fun q _ => ih q
    | interleave ps => exact c_compileVec c_interleave fun q _ => ih q
    | group ps => exact c_compileVec c_group fun q _ => ih q
    | mixed q => exact (ih q).bind (fun _ => (c_push _).bind (fun _ => c_interleave _ _) (Nat.le_refl _)) (by simp [weight])
    | empty => exact c_push _
    | text => exact c_push _
    | notAllowed => exact c_push _
    | optional q => exact (ih q).bind (fun _ => (c_push _).bind (fun _ => c_choice _ _) (Nat.le_refl _)) (by simp [weight])
    | zeroOrMore q =>
      exact (ih q).bind (fun _ => (c_oneOrMore _).bind (fun _ => (c_push _).bind (fun _ => c_choice _ _) (Nat.le_refl _)) (Nat.le_refl _)) (by simp [weight])
    | oneOrMore q => exact (ih q).bind (fun _ => c_oneOrMore _) (by simp [weight])
    | attr nc q => exact (ih q).bind (fun _ => c_push _) (by simp [weight])
    | element nc q => exact (ih q).bind (fun _ => c_push _) (by simp [weight])
    | list q => exact (ih q).bind (fun _ => c_push _) (by simp [weight])
    | datatypeValue v => exact c_push _
    | datatypeName d => exact c_push _
    | datatypeNameExcept d e => exact (ih e).bind (fun _ => c_push _) (by simp [weight])
    | ref r =>
      intro st hs
      rw [show weight (Pattern.ref r : Pattern D V) = 0 from rfl] at hs ⊢
      rw [compile, ST.bind_of_ok (a := st.refs.lookup r) (s' := st) rfl]
      cases hl : st.refs.lookup r with
      | some id => exact Costs.pure (c := 0) st hs
      | none =>
        simp only
        cases hp : push (.placeholder r) st with
        | error g =>
          have hg : g ≠ .capacity := by
            rintro rfl
            unfold push at hp
            unfold load at hs
            rw [if_neg (by omega)] at hp
            split at hp <;> cases hp
          have hph : refPlaceholder r st = .error g := ST.bind_of_error hp
          rw [ST.bind_of_error hph]
          exact ⟨fun h => by cases h; exact hg rfl, fun _ _ h => by cases h⟩
        | ok a =>
          obtain ⟨ph, st1⟩ := a
          have hpush : st1.pats.length ≤ st.pats.length + 1 ∧ st1.refs = st.refs := by
            unfold push at hp
            split at hp
            · cases hp
            · split at hp
              · cases hp; exact ⟨by omega, rfl⟩
              · cases hp; exact ⟨by simp, rfl⟩
          have hph : refPlaceholder r st = .ok (ph, { st1 with refs := (r, ph) :: st1.refs }) := ST.bind_of_ok hp
          rw [ST.bind_of_ok hph]
          cases he : env[r]? with
          | none => exact ⟨fun h => (by cases h), fun _ _ h => by cases h⟩
          | some q =>
            have hr : r < env.length := (List.getElem?_eq_some_iff.1 he).1
            have ht := open'_taken (env := env) (st := st) (st' := { st1 with refs := (r, ph) :: st1.refs }) (n := r) (id := ph)
              (by simp only [hpush.2]) hl env.length
            rw [if_pos hr] at ht
            have hcost : cost env st r = weight q + 1 := by simp only [cost, hl, he]
            have hload : load env { st1 with refs := (r, ph) :: st1.refs } + weight q ≤ load env st := by
              simp only [load] at hs ⊢
              have := hpush.1
              omega
            obtain ⟨h1, h2⟩ := ((ih q).bind (fun id => (c_resolveRef ph id).bind (fun _ => Costs.pure (c := 0) (a := ph)) (Nat.le_refl _)) (Nat.le_refl _))
              { st1 with refs := (r, ph) :: st1.refs } (by omega)
            exact ⟨h1, fun a s' h => by have := h2 a s' h; omega⟩

theorem weights_append : ∀ (a b : Env D V), weights (a ++ b) = weights a + weights b
  | [], b => by simp [weights]
  | p :: a, b => by simp only [List.cons_append, weights, weights_append a b]; omega

theorem open'_init (env : Env D V) : ∀ k, open' env Store.init k = weights (env.take k)
  | 0 => by simp [open', weights]
  | k + 1 => by
    rw [open', open'_init env k, List.take_succ, weights_append]
    simp only [cost, Store.init, List.lookup_nil]
    cases env[k]? <;> simp [weights]

theorem newValidator_cost {n : Nat} {start : Pattern D V} (h : weight start + weights env < 0x10000) :
    newValidator env n start ≠ .error .capacity ∧ ∀ s0, newValidator env n start = .ok s0 → s0.store.pats.length ≤ weight start + weights env := by
  have hl : load env (Store.init : Store D V) = weights env := by
    simp only [load, open'_init, List.take_length]
    simp [Store.init]
  obtain ⟨h1, h2⟩ := c_compile (env := env) n start Store.init (by rw [hl]; omega)
  unfold newValidator
  cases hc : compile env n start Store.init with
  | error e =>
    refine ⟨fun h => ?_, fun s0 h => by cases h⟩
    cases h; exact h1 hc
  | ok r =>
    obtain ⟨id, st⟩ := r
    refine ⟨fun h => (by cases h), fun s0 h => ?_⟩
    cases h
    have := h2 id st hc
    rw [hl] at this
    unfold load at this
    show st.pats.length ≤ _
    omega
end Verif.Size
