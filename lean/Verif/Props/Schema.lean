import Verif.Proof.MergeAll
import Verif.Spec.Edits
/-
C32, C41: combining definitions, flattening.
-/
namespace Verif

/-- **C32** (order): a name defined several times in a grammar, with `=`, `|=` or `&=`: whether the definitions are
accepted, and which content the combined definition matches, does not depend on their order. -/
theorem C32_definition_order_irrelevant {st : CState} {scope : Nat} {id : Str} {bs bs' : List (AssignMethod × MPattern)}
    (hne : bs ≠ []) (hn : st.Names scope) (hr : st.ruleFor scope id = none) (hp : bs.Perm bs') :
    (∃ st1 st2 r1 r2, defineAll scope id bs st = .ok ((), st1) ∧ defineAll scope id bs' st = .ok ((), st2) ∧
      st1.ruleFor scope id = some r1 ∧ st2.ruleFor scope id = some r2 ∧ MatchEq r1.pattern r2.pattern) ∨
    (∃ e1 e2, defineAll scope id bs st = .error e1 ∧ defineAll scope id bs' st = .error e2 ∧
      MergeRefusal id e1 ∧ MergeRefusal id e2) := by
  have hne' : bs' ≠ [] := by rintro rfl; exact hne hp.eq_nil
  rcases defineAll_fresh hne hn hr with ⟨st1, r1, h1, h2, h3⟩ | ⟨hc, e, h, he⟩
  · rcases defineAll_fresh hne' hn hr with ⟨st2, r2, k1, k2, k3⟩ | ⟨hc, _⟩
    · refine .inl ⟨st1, st2, r1, r2, h1, k1, h2, k2, fun L env a c => ?_⟩
      have m1 := h3.meaning (Match.compo L env) a c
      have m2 := k3.meaning (Match.compo L env) a c
      by_cases hi : ∃ b ∈ bs, b.1 = .interleave
      · rw [m1.2 hi, m2.2 (by obtain ⟨b, hb, e⟩ := hi; exact ⟨b, hp.mem_iff.mp hb, e⟩)]
        exact ⟨interAll_perm (Match.compo L env) (hp.map _), interAll_perm (Match.compo L env) (hp.symm.map _)⟩
      · have hi1 : ∀ b ∈ bs, b.1 ≠ .interleave := fun b hb e => hi ⟨b, hb, e⟩
        rw [m1.1 hi1, m2.1 fun b hb => hi1 b (hp.mem_iff.mpr hb)]
        simp only [hp.mem_iff]
    · exact absurd (h3.compatible.perm hp) hc
  · rcases defineAll_fresh hne' hn hr with ⟨st2, r2, k1, k2, k3⟩ | ⟨hc', e', h', he'⟩
    · exact absurd (k3.compatible.perm hp.symm) hc
    · exact .inr ⟨e, e', h, h', he, he'⟩

/-- **C32** (acceptance): the definitions are accepted exactly if at most one of them uses `=` and they do not use
both `|=` and `&=`; otherwise they are refused with one of two errors, never a panic. -/
theorem C32_definitions_accepted_iff {st : CState} {scope : Nat} {id : Str} {bs : List (AssignMethod × MPattern)}
    (hne : bs ≠ []) (hn : st.Names scope) (hr : st.ruleFor scope id = none) :
    (Compatible bs → ∃ st', defineAll scope id bs st = .ok ((), st')) ∧
    (¬ Compatible bs → ∃ e, defineAll scope id bs st = .error e ∧ MergeRefusal id e) := by
  rcases defineAll_fresh hne hn hr with ⟨st1, r1, h1, h2, h3⟩ | ⟨hc, e, h, he⟩
  · exact ⟨fun _ => ⟨st1, h1⟩, fun h => absurd h3.compatible h⟩
  · exact ⟨fun h => absurd h hc, fun _ => ⟨e, h, he⟩⟩

/-- **C32** (meaning): without `&=` the combined definition matches what one of the definitions matches; with `&=`
it matches the interleaving of all of them (attributes in any order, children shuffled). -/
theorem C32_combined_meaning {st st' : CState} {scope : Nat} {id : Str} {bs : List (AssignMethod × MPattern)}
    (hne : bs ≠ []) (hn : st.Names scope) (hr : st.ruleFor scope id = none)
    (h : defineAll scope id bs st = .ok ((), st')) :
    ∃ r, st'.ruleFor scope id = some r ∧
      ∀ (L : Lib Datatypes DatatypeValues) env a c,
        ((∀ b ∈ bs, b.1 ≠ .interleave) → (Match L env r.pattern a c ↔ ∃ b ∈ bs, Match L env b.2 a c)) ∧
        ((∃ b ∈ bs, b.1 = .interleave) →
          (Match L env r.pattern a c ↔ Match L env (.interleave (bs.map (·.2))) a c)) := by
  rcases defineAll_fresh hne hn hr with ⟨st1, r1, h1, h2, h3⟩ | ⟨hc, e, he, _⟩
  · rw [h] at h1; cases h1
    refine ⟨r1, h2, fun L env a c => ?_⟩
    rw [(Match.compo L env).inter]
    exact h3.meaning (Match.compo L env) a c
  · rw [h] at he; cases he

/-- the state `C32` starts from exists: a new grammar; `x |= empty`, `x = text`, `x |= notAllowed` are accepted -/
theorem Ex.C32_case : CState.Names ⟨[], [[]], [], []⟩ 0 ∧ CState.ruleFor ⟨[], [[]], [], []⟩ 0 "x".toList = none ∧
    Compatible [(.choice, .empty), (.assign, .text), (.choice, .notAllowed)] ∧
    ¬ Compatible [(.choice, .empty), (.assign, .text), (.interleave, .notAllowed)] ∧
    ¬ Compatible [(.assign, .empty), (.assign, .text)] := by
  refine ⟨⟨by decide, nofun⟩, rfl, ⟨by decide, ?_⟩, fun h => h.2 ⟨⟨(.choice, .empty), by simp, rfl⟩, ⟨(.interleave, .notAllowed), by simp, rfl⟩⟩, fun h => absurd h.1 (by decide)⟩
  rintro ⟨_, b, hb, e⟩
  simp only [List.mem_cons, List.not_mem_nil, or_false] at hb
  rcases hb with rfl | rfl | rfl <;> cases e

/-- **C41**: splicing the members of nested groups into one group keeps the meaning, likewise for interleaves and
choices. -/
theorem C41_flattening (p q : MPattern) :
    MatchEq (.group (groupMembers p ++ groupMembers q)) (.group [p, q]) ∧
    MatchEq (.interleave (interleaveMembers p ++ interleaveMembers q)) (.interleave [p, q]) ∧
    MatchEq (.choice (choiceMembers p ++ choiceMembers q)) (.choice [p, q]) := by
  refine ⟨fun L env a c => ?_, fun L env a c => ?_, fun L env a c => ?_⟩
  all_goals have h := Match.compo L env
  · rw [h.group, h.group, show [p, q] = [p] ++ [q] from rfl, SeqAll.append_iff h, SeqAll.append_iff h]
    simp only [SeqAll.one_iff h, seqAll_members h]
  · rw [h.inter, h.inter, show [p, q] = [p] ++ [q] from rfl, InterAll.append_iff h, InterAll.append_iff h]
    simp only [InterAll.one_iff h, interAll_members h]
  · rw [h.choice, h.choice]
    simp only [List.mem_append, List.mem_cons, List.not_mem_nil, or_false]
    constructor
    · rintro ⟨r, hr | hr, hm⟩
      · exact ⟨p, .inl rfl, (choice_members h p).mp ⟨r, hr, hm⟩⟩
      · exact ⟨q, .inr rfl, (choice_members h q).mp ⟨r, hr, hm⟩⟩
    · rintro ⟨r, rfl | rfl, hm⟩
      · obtain ⟨t, ht, hm⟩ := (choice_members h r).mpr hm; exact ⟨t, .inl ht, hm⟩
      · obtain ⟨t, ht, hm⟩ := (choice_members h r).mpr hm; exact ⟨t, .inr ht, hm⟩

end Verif
