import Verif.Proof.SchemaCheck
import Verif.Props.SchemaMeaning
/-
C34: the reference check.
-/
namespace Verif

/-- **C34**: on every reference graph, cyclic or not, the check of a pattern comes to an end.  If every definition
the pattern mentions, directly or through other definitions, is there, it succeeds having visited each of them
exactly once; otherwise it reports an undefined reference. -/
theorem C34_check_terminates (st : CState) (p : MPattern) :
    ∃ N R, (∀ m, N ≤ m → check st.cells m [] p = R) ∧
      ((∀ j, Uses st.env p j → st.cell j ≠ none) →
        ∃ seen, R = .ok seen ∧ seen.Nodup ∧ ∀ j, j ∈ seen ↔ Uses st.env p j) ∧
      ((∃ j, Uses st.env p j ∧ st.cell j = none) → R = .error (.err (.undefinedReference []))) := by
  obtain ⟨N, R, hR, h⟩ := check_settles (cells := st.cells) [] p
  have hN : check st.cells N [] p = R := h N (Nat.le_refl _)
  have hf := check_followed (st := st) N p []
  rw [hN] at hf
  refine ⟨N, R, h, fun hd => ?_, fun ⟨j, hj, hn⟩ => ?_⟩
  · match R, hf with
    | .ok seen, hf =>
      refine ⟨seen, rfl, check_nodup (by simp) hN, fun j => ⟨fun hj => ?_, fun hj => ?_⟩⟩
      · rcases hf j hj with h | h
        · cases h
        · exact h
      · obtain ⟨_, a, b⟩ := check_spec hN
        exact uses_seen (fun k hk => (b k hk).resolve_left (by simp)) hj a
    | .error .fuel, _ => exact absurd rfl hR
    | .error (.err e), ⟨_, j, hj, hn⟩ => exact absurd hn (hd j hj)
  · match R, hf with
    | .ok seen, hf =>
      obtain ⟨_, a, b⟩ := check_spec hN
      have hs := uses_seen (fun k hk => (b k hk).resolve_left (by simp)) hj a
      obtain ⟨r, hr, _⟩ := (b j hs).resolve_left (by simp)
      rw [show st.cells.getD j none = st.cell j from rfl, hn] at hr; cases hr
    | .error .fuel, _ => exact absurd rfl hR
    | .error (.err e), ⟨he, _⟩ => rw [he]

theorem checkDefined_ok {st : CState} : ∀ {l : List (Str × Nat)}, checkDefined st l = .ok () ↔ ∀ p ∈ l, st.cell p.2 ≠ none
  | [] => by simp [checkDefined]
  | (name, k) :: rest => by
    simp only [checkDefined, List.forall_mem_cons]
    cases hc : st.cell k with
    | none => simp
    | some r => simp [checkDefined_ok (l := rest)]

theorem checkDefined_err {st : CState} : ∀ {l : List (Str × Nat)} {e : CFault}, checkDefined st l = .error e →
    ∃ p ∈ l, st.cell p.2 = none ∧ e = .err (.undefinedReference p.1)
  | [], _, h => nomatch h
  | (name, k) :: rest, e, h => by
    simp only [checkDefined] at h
    cases hc : st.cell k with
    | none => rw [hc] at h; cases h; exact ⟨(name, k), by simp, hc, rfl⟩
    | some r =>
      rw [hc] at h
      obtain ⟨p, a, b⟩ := checkDefined_err h
      exact ⟨p, by simp [a], b⟩

/-- **C34**, the end of a compilation (M:697-719): it succeeds exactly if every name of the top-level grammar is
defined, `start` is one of them, and everything `start` mentions is defined; otherwise the error is an undefined
reference or a missing start rule. -/
theorem C34_final_checks (st : CState) (scope : Nat) :
    ∃ N R, (∀ m, N ≤ m → finishCompile m scope st = R) ∧
      (∀ k st', R = .ok (k, st') ↔ st' = st ∧ (∀ p ∈ st.refs scope, st.cell p.2 ≠ none) ∧
        (st.refs scope).lookup "start".toList = some k ∧
        ∃ r, st.cell k = some r ∧ ∀ j, Uses st.env r.pattern j → st.cell j ≠ none) ∧
      ∀ e, R = .error e → (∃ id, e = .err (.undefinedReference id)) ∨ e = .err .startRuleNotDefined := by
  cases hd : checkDefined st (st.refs scope) with
  | error e =>
    refine ⟨0, .error e, fun m _ => by simp only [finishCompile, hd], fun k st' => ⟨nofun, fun ⟨_, h, _⟩ => ?_⟩, fun e' h => ?_⟩
    · rw [checkDefined_ok.mpr h] at hd; cases hd
    · cases h
      obtain ⟨p, _, _, rfl⟩ := checkDefined_err hd
      exact .inl ⟨_, rfl⟩
  | ok _ =>
    have hall := checkDefined_ok.mp hd
    cases hk : (st.refs scope).lookup "start".toList with
    | none =>
      exact ⟨0, .error (.err .startRuleNotDefined), fun m _ => by simp only [finishCompile, hd, hk], fun k st' => ⟨nofun, fun ⟨_, _, h, _⟩ => by cases h⟩,
        fun e h => by cases h; exact .inr rfl⟩
    | some k =>
      cases hr : st.cell k with
      | none =>
        refine absurd hr (hall ("start".toList, k) ?_)
        obtain ⟨l1, l2, h, _⟩ := List.lookup_eq_some_iff.mp hk
        rw [h]; simp
      | some r =>
        obtain ⟨N, R, h1, h2, h3⟩ := C34_check_terminates st r.pattern
        by_cases hu : ∀ j, Uses st.env r.pattern j → st.cell j ≠ none
        · obtain ⟨seen, rfl, _, _⟩ := h2 hu
          refine ⟨N, .ok (k, st), fun m hm => by simp only [finishCompile, hd, hk, hr, h1 m hm], fun k' st' => ⟨?_, ?_⟩, nofun⟩
          · intro h; cases h; exact ⟨rfl, hall, rfl, r, hr, hu⟩
          · rintro ⟨rfl, _, h, _⟩; cases h; rfl
        · have hu' : ∃ j, Uses st.env r.pattern j ∧ st.cell j = none := by
            refine Classical.byContradiction fun h => hu fun j hj hn => h ⟨j, hj, hn⟩
          have hR := h3 hu'
          subst hR
          refine ⟨N, .error (.err (.undefinedReference [])), fun m hm => by simp only [finishCompile, hd, hk, hr, h1 m hm], fun k' st' => ⟨nofun, ?_⟩, fun e h => by cases h; exact .inl ⟨_, rfl⟩⟩
          rintro ⟨rfl, _, h, r', hr', hu'⟩
          cases h
          rw [hr] at hr'; cases hr'
          exact absurd hu' hu

/-- a cyclic reference graph (two elements containing each other): both are visited once; and a graph with a
reference to an undefined cell -/
theorem Ex.C34_case :
    (∀ j, Uses (CState.env ⟨[some (.assignCombine none (.element .anyName (.ref 1))), some (.assignCombine none (.element .anyName (.ref 0)))], [], [], []⟩) (.ref 0) j →
      j = 0 ∨ j = 1) ∧
    Uses (CState.env ⟨[some (.assignCombine none (.element .anyName (.ref 1))), none], [], [], []⟩) (.ref 0) 1 ∧
    check [some (.assignCombine none (.element .anyName (.ref 1))), some (.assignCombine none (.element .anyName (.ref 0)))] 10 [] (.ref 0) = .ok [1, 0] ∧
    check [some (.assignCombine none (.element .anyName (.ref 1))), none] 10 [] (.ref 0) = .error (.err (.undefinedReference [])) := by
  refine ⟨fun j hj => ?_, .there (m := 0) (q := .element .anyName (.ref 1)) (by simp [Pattern.refs]) rfl (.here (by simp [Pattern.refs])), rfl, rfl⟩
  have hu := uses_seen (st := ⟨[some (.assignCombine none (.element .anyName (.ref 1))), some (.assignCombine none (.element .anyName (.ref 0)))], [], [], []⟩)
    (seen := [1, 0]) (fun k hk => by
      simp only [List.mem_cons, List.not_mem_nil, or_false] at hk
      rcases hk with rfl | rfl
      · exact ⟨_, rfl, by simp [DefineRule.pattern, Pattern.refs]⟩
      · exact ⟨_, rfl, by simp [DefineRule.pattern, Pattern.refs]⟩) hj (by simp [Pattern.refs])
  simp only [List.mem_cons, List.not_mem_nil, or_false] at hu
  exact hu.symm

end Verif
