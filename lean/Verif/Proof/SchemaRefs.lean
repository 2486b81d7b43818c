import Verif.Proof.SchemaMain
import Verif.Model.Validate
/-
The compiled schema the validator starts from: no undefined references, no empty vectors.
-/
namespace Verif

/-- no empty choice, group or interleave at any depth -/
inductive Solid : MPattern → Prop
  | choice {ps} : ps ≠ [] → (∀ p ∈ ps, Solid p) → Solid (.choice ps)
  | interleave {ps} : ps ≠ [] → (∀ p ∈ ps, Solid p) → Solid (.interleave ps)
  | group {ps} : ps ≠ [] → (∀ p ∈ ps, Solid p) → Solid (.group ps)
  | mixed {p} : Solid p → Solid (.mixed p)
  | empty : Solid .empty
  | text : Solid .text
  | notAllowed : Solid .notAllowed
  | optional {p} : Solid p → Solid (.optional p)
  | zeroOrMore {p} : Solid p → Solid (.zeroOrMore p)
  | oneOrMore {p} : Solid p → Solid (.oneOrMore p)
  | attr {nc p} : Solid p → Solid (.attr nc p)
  | element {nc p} : Solid p → Solid (.element nc p)
  | ref {n} : Solid (.ref n)
  | value {v} : Solid (.datatypeValue v)
  | data {d} : Solid (.datatypeName d)
  | dataExcept {d p} : Solid p → Solid (.datatypeNameExcept d p)
  | list {p} : Solid p → Solid (.list p)

theorem groupMembers_solid {p : MPattern} (h : Solid p) : groupMembers p ≠ [] ∧ ∀ q ∈ groupMembers p, Solid q := by
  cases h <;> simp only [groupMembers] <;> first | (exact ⟨‹_›, ‹_›⟩) | skip
  all_goals refine ⟨by simp, fun q hq => ?_⟩; cases List.mem_singleton.mp hq; constructor <;> assumption

theorem interleaveMembers_solid {p : MPattern} (h : Solid p) : interleaveMembers p ≠ [] ∧ ∀ q ∈ interleaveMembers p, Solid q := by
  cases h <;> simp only [interleaveMembers] <;> first | (exact ⟨‹_›, ‹_›⟩) | skip
  all_goals refine ⟨by simp, fun q hq => ?_⟩; cases List.mem_singleton.mp hq; constructor <;> assumption

theorem choiceMembers_solid {p : MPattern} (h : Solid p) : choiceMembers p ≠ [] ∧ ∀ q ∈ choiceMembers p, Solid q := by
  cases h <;> simp only [choiceMembers] <;> first | (exact ⟨‹_›, ‹_›⟩) | skip
  all_goals refine ⟨by simp, fun q hq => ?_⟩; cases List.mem_singleton.mp hq; constructor <;> assumption

theorem solid_append {ps qs : List MPattern} (h1 : ps ≠ [] ∧ ∀ q ∈ ps, Solid q) (h2 : qs ≠ [] ∧ ∀ q ∈ qs, Solid q) :
    ps ++ qs ≠ [] ∧ ∀ q ∈ ps ++ qs, Solid q := by
  refine ⟨by simp [h1.1], fun q hq => ?_⟩
  rcases List.mem_append.mp hq with h | h
  · exact h1.2 q h
  · exact h2.2 q h

theorem solid_one {p : MPattern} (h : Solid p) : [p] ≠ [] ∧ ∀ q ∈ [p], Solid q :=
  ⟨by simp, fun q hq => by cases List.mem_singleton.mp hq; exact h⟩

theorem appendChoice_solid {p q r : MPattern} (h : appendChoice p q = .ok r) (hp : Solid p) (hq : Solid q) : Solid r := by
  unfold appendChoice at h
  split at h
  · cases hp with
    | choice a b =>
      split at h
      · cases hq with
        | choice a' b' => cases h; exact .choice (solid_append ⟨a, b⟩ ⟨a', b'⟩).1 (solid_append ⟨a, b⟩ ⟨a', b'⟩).2
      · cases h; exact .choice (solid_append ⟨a, b⟩ (solid_one hq)).1 (solid_append ⟨a, b⟩ (solid_one hq)).2
  · cases h

theorem appendInterleave_solid {p q r : MPattern} (h : appendInterleave p q = .ok r) (hp : Solid p) (hq : Solid q) : Solid r := by
  unfold appendInterleave at h
  split at h
  · cases hp with
    | interleave a b =>
      split at h
      · cases hq with
        | interleave a' b' => cases h; exact .interleave (solid_append ⟨a, b⟩ ⟨a', b'⟩).1 (solid_append ⟨a, b⟩ ⟨a', b'⟩).2
      · cases h; exact .interleave (solid_append ⟨a, b⟩ (solid_one hq)).1 (solid_append ⟨a, b⟩ (solid_one hq)).2
  · cases h

theorem joinChoice_solid {p q r : MPattern} (h : joinChoice p q = .ok r) (hp : Solid p) (hq : Solid q) : Solid r := by
  unfold joinChoice at h
  split at h
  · exact appendChoice_solid h hp hq
  · cases h
    have := solid_append (solid_one hp) (solid_one hq)
    exact .choice this.1 this.2

theorem joinInterleave_solid {p q r : MPattern} (h : joinInterleave p q = .ok r) (hp : Solid p) (hq : Solid q) : Solid r := by
  unfold joinInterleave at h
  split at h
  · exact appendInterleave_solid h hp hq
  · cases h
    have := solid_append (solid_one hp) (solid_one hq)
    exact .interleave this.1 this.2

theorem merge1_solid {id : Str} {a b r : DefineRule} (h : merge1 id a b = .ok r) (ha : Solid a.pattern) (hb : Solid b.pattern) :
    Solid r.pattern := by
  unfold merge1 at h
  split at h
  all_goals first
    | (cases h; done)
    | (obtain ⟨p, h1, h2⟩ := except_bind_ok h
       cases h2
       first
        | exact appendChoice_solid h1 ha hb
        | exact appendInterleave_solid h1 ha hb
        | exact joinChoice_solid h1 ha hb
        | exact joinInterleave_solid h1 ha hb)

theorem ruleOf_solid {how : AssignMethod} {q : MPattern} (h : Solid q) : Solid (ruleOf how q).pattern := by
  cases how
  · exact h
  · exact .choice (solid_one h).1 (solid_one h).2
  · exact .interleave (solid_one h).1 (solid_one h).2

theorem Merged.solid {bs r} (h : Merged bs r) : (∀ b ∈ bs, Solid b.2) → Solid r.pattern := by
  induction h with
  | @one how q => intro hb; exact ruleOf_solid (hb (how, q) (by simp))
  | @snoc bs r how q r' id _ hm ih =>
    intro hb
    exact merge1_solid hm (ih fun b h => hb b (by simp [h])) (ruleOf_solid (hb (how, q) (by simp)))

theorem Merged.refsOf {bs r} (h : Merged bs r) : ∀ n ∈ r.pattern.refs, ∃ b ∈ bs, n ∈ b.2.refs := by
  induction h with
  | @one how q => intro n hn; rw [ruleOf_refs] at hn; exact ⟨(how, q), by simp, hn⟩
  | @snoc bs r how q r' id _ hm ih =>
    intro n hn
    rw [merge1_refs hm, List.mem_append, ruleOf_refs] at hn
    rcases hn with hn | hn
    · obtain ⟨b, hb, h⟩ := ih n hn; exact ⟨b, by simp [hb], h⟩
    · exact ⟨(how, q), by simp, hn⟩

section
variable {F : Files} {x : Ext} {look : Nat → Str → Option Nat} {G : Nat → List Nat → List Defn → Prop}
  {cell : Nat → Option DefineRule} {env : Env Datatypes DatatypeValues} {S : Nat → Prop}

variable (look G) in
/-- cell `k` belongs to a name of a grammar -/
def Origin (k : Nat) : Prop := ∃ s ss ds gs id, G s ss ds ∧ Chain G ss gs ∧ look s id = some k

theorem Tr.solid {ss e p q} (h : Tr F x look G ss e p q) : Solid q := by
  induction h with
  | element _ _ ih => exact .element ih
  | «attribute» _ _ ih => exact .attr ih
  | list _ ih => exact .list ih
  | mixed _ ih => exact .mixed ih
  | ident h => exact .ref
  | parent h => exact .ref
  | empty => exact .empty
  | text => exact .text
  | notAllowed => exact .notAllowed
  | externalPattern _ _ _ _ ih => exact ih
  | externalGrammar _ _ _ _ ih => exact ih
  | grammar _ _ _ _ hm ih =>
    refine hm.solid fun b hb => ?_
    obtain ⟨b', hb', rfl⟩ := List.mem_map.mp hb
    exact ih b' hb'
  | paren _ ih => exact ih
  | seq _ _ ih1 ih2 =>
    have := solid_append (groupMembers_solid ih1) (groupMembers_solid ih2)
    exact .group this.1 this.2
  | inter _ _ ih1 ih2 =>
    have := solid_append (interleaveMembers_solid ih1) (interleaveMembers_solid ih2)
    exact .interleave this.1 this.2
  | choice _ _ ih1 ih2 =>
    have := solid_append (choiceMembers_solid ih1) (choiceMembers_solid ih2)
    exact .choice this.1 this.2
  | optional _ ih => exact .optional ih
  | zeroOrMore _ ih => exact .zeroOrMore ih
  | oneOrMore _ ih => exact .oneOrMore ih
  | value _ _ => exact .value
  | data _ _ => exact .data
  | dataExcept _ _ _ ih => exact .dataExcept ih

theorem Tr.origin {ss e p q} (h : Tr F x look G ss e p q) : ∀ {gs}, Chain G ss gs → ∀ k ∈ q.refs, Origin look G k := by
  induction h with
  | element _ _ ih => intro gs hc k hk; exact ih hc k hk
  | «attribute» _ _ ih => intro gs hc k hk; exact ih hc k hk
  | list _ ih => intro gs hc k hk; exact ih hc k hk
  | mixed _ ih => intro gs hc k hk; exact ih hc k hk
  | ident h =>
    intro gs hc k hk
    cases hc with
    | cons a b => cases List.mem_singleton.mp hk; exact ⟨_, _, _, _, _, a, b, h⟩
  | parent h =>
    intro gs hc k hk
    cases hc with
    | cons a b =>
      cases b with
      | cons a b => cases List.mem_singleton.mp hk; exact ⟨_, _, _, _, _, a, b, h⟩
  | empty => intro gs hc k hk; cases hk
  | text => intro gs hc k hk; cases hk
  | notAllowed => intro gs hc k hk; cases hk
  | externalPattern _ _ _ _ ih => intro gs hc k hk; exact ih hc k hk
  | externalGrammar _ _ _ _ ih => intro gs hc k hk; exact ih hc k hk
  | grammar hg _ _ _ hm ih =>
    intro gs hc k hk
    obtain ⟨b, hb, hk⟩ := hm.refsOf k hk
    obtain ⟨b', hb', rfl⟩ := List.mem_map.mp hb
    exact ih b' hb' (.cons hg hc) k hk
  | paren _ ih => intro gs hc k hk; exact ih hc k hk
  | seq _ _ ih1 ih2 =>
    intro gs hc k hk
    rw [Pattern.refs, refsL_append, refsL_groupMembers, refsL_groupMembers] at hk
    rcases List.mem_append.mp hk with hk | hk
    · exact ih1 hc k hk
    · exact ih2 hc k hk
  | inter _ _ ih1 ih2 =>
    intro gs hc k hk
    rw [Pattern.refs, refsL_append, refsL_interleaveMembers, refsL_interleaveMembers] at hk
    rcases List.mem_append.mp hk with hk | hk
    · exact ih1 hc k hk
    · exact ih2 hc k hk
  | choice _ _ ih1 ih2 =>
    intro gs hc k hk
    rw [Pattern.refs, refsL_append, refsL_choiceMembers, refsL_choiceMembers] at hk
    rcases List.mem_append.mp hk with hk | hk
    · exact ih1 hc k hk
    · exact ih2 hc k hk
  | optional _ ih => intro gs hc k hk; exact ih hc k hk
  | zeroOrMore _ ih => intro gs hc k hk; exact ih hc k hk
  | oneOrMore _ ih => intro gs hc k hk; exact ih hc k hk
  | value _ _ => intro gs hc k hk; cases hk
  | data _ _ => intro gs hc k hk; cases hk
  | dataExcept _ _ _ ih => intro gs hc k hk; exact ih hc k hk

theorem Origin.rule (hC : Closed F x look G cell) {k : Nat} (h : Origin look G k) {r : DefineRule} (hr : cell k = some r) :
    Solid r.pattern ∧ ∀ j ∈ r.pattern.refs, Origin look G j := by
  obtain ⟨s, ss, ds, gs, id, hg, hc, hl⟩ := h
  obtain ⟨bs, h1, h2, h3⟩ := hC s ss ds hg id k r hl hr
  constructor
  · refine h3.solid fun b hb => ?_
    obtain ⟨b', hb', rfl⟩ := List.mem_map.mp hb
    exact (h2 b' hb').solid
  · intro j hj
    obtain ⟨b, hb, hk⟩ := h3.refsOf j hj
    obtain ⟨b', hb', rfl⟩ := List.mem_map.mp hb
    exact (h2 b' hb').origin (.cons hg hc) j hk

/-- every definition in use is there, and is solid -/
theorem Uses.sound (hC : Closed F x look G cell) (hS : DefdSet cell env S) {q : MPattern} {n : Nat} (h : Uses env q n) :
    (∀ j ∈ q.refs, S j ∧ Origin look G j) → ∃ r, cell n = some r ∧ env[n]? = some r.pattern ∧ Solid r.pattern := by
  induction h with
  | here hn =>
    intro hq
    obtain ⟨r, a, b, _⟩ := hS.1 _ (hq _ hn).1
    exact ⟨r, a, b, ((hq _ hn).2.rule hC a).1⟩
  | there hm he _ ih =>
    intro hq
    obtain ⟨r, a, b, c⟩ := hS.1 _ (hq _ hm).1
    rw [b] at he; cases he
    exact ih fun j hj => ⟨c j hj, ((hq _ hm).2.rule hC a).2 j hj⟩

end

/-! ### building the validator -/

section
variable {D V : Type} [DecidableEq D] [DecidableEq V] {env : Env D V}

/-- neither a missing definition nor an empty vector -/
def NoGap {α : Type} (m : SM D V α) : Prop := ∀ st, m st ≠ .error .missingDef ∧ m st ≠ .error .unwrapNone

theorem NoGap.bind {α β : Type} {m : SM D V α} {f : α → SM D V β} (h1 : NoGap m) (h2 : ∀ a, NoGap (f a)) : NoGap (m >>= f) := by
  intro st
  rw [ST.bind_run]
  have := h1 st
  cases hm : m st with
  | error e => rw [hm] at this; simpa using this
  | ok r => exact h2 r.1 r.2

theorem NoGap.pure {α : Type} (a : α) : NoGap (Pure.pure a : SM D V α) := fun st => by simp

theorem nogap_push (p : Pat D V) : NoGap (push p) := by
  intro st
  unfold push
  split
  · simp
  · split <;> simp

omit [DecidableEq D] [DecidableEq V] in
theorem nogap_patt (i : Nat) : NoGap (patt i : SM D V (Pat D V)) := by
  intro st
  unfold patt
  split <;> simp

theorem nogap_choice (l r : Nat) : NoGap (choice l r : SM D V Nat) := by
  refine (nogap_patt l).bind fun a => (nogap_patt r).bind fun b => ?_
  split
  · exact .pure _
  · exact .pure _
  · split
    · exact .pure _
    · exact nogap_push _

theorem nogap_interleave (l r : Nat) : NoGap (interleave l r : SM D V Nat) := by
  refine (nogap_patt l).bind fun a => (nogap_patt r).bind fun b => ?_
  split <;> first | exact .pure _ | exact nogap_push _

theorem nogap_group (l r : Nat) : NoGap (group l r : SM D V Nat) := by
  refine (nogap_patt l).bind fun a => (nogap_patt r).bind fun b => ?_
  split <;> first | exact .pure _ | exact nogap_push _

omit [DecidableEq D] [DecidableEq V] in
theorem nogap_resolveRef (p i : Nat) : NoGap (resolveRef p i : SM D V Unit) := by
  unfold resolveRef
  split
  · exact fun st => by simp
  · refine fun st => ?_
    have : NoGap (patt i >>= fun target => if target.isPlaceholder then ST.fault .resolveTarget
      else patt p >>= fun slot => if slot.isPlaceholder then
        (fun st => .ok ((), { st with pats := st.pats.set p target }))
      else ST.fault .resolveSlot : SM D V Unit) := by
      refine fun st => ?_
      rw [ST.bind_run]
      cases h : patt i st with
      | error e => have := nogap_patt i st; rw [h] at this; simpa using this
      | ok r =>
        dsimp only
        split
        · simp
        · rw [ST.bind_run]
          cases h : patt p r.2 with
          | error e => have := nogap_patt p r.2; rw [h] at this; simpa using this
          | ok r =>
            by_cases hp : r.fst.isPlaceholder = true <;> simp [hp]
    exact this st

theorem nogap_compileVec {c : Pattern D V → SM D V Nat} {op : Nat → Nat → SM D V Nat} (hop : ∀ l r, NoGap (op l r)) :
    ∀ {ps : List (Pattern D V)}, ps ≠ [] → (∀ p ∈ ps, NoGap (c p)) → NoGap (compileVec c op ps)
  | [], h, _ => absurd rfl h
  | [p], _, hc => hc p (by simp)
  | p :: q :: ps, _, hc =>
    (nogap_compileVec hop (by simp) fun p hp => hc p (by simp [hp])).bind fun _ => (hc p (by simp)).bind fun _ => hop _ _

theorem nogap_compile {env : Env Datatypes DatatypeValues} : ∀ (n : Nat) (p : MPattern), Solid p →
    (∀ j, Uses env p j → ∃ q, env[j]? = some q ∧ Solid q) → NoGap (compile env n p)
  | 0, _, _, _ => fun st => by simp [compile]
  | n + 1, p, hs, hu => by
    have sub : ∀ q : MPattern, Solid q → (∀ j ∈ q.refs, j ∈ p.refs) → NoGap (compile env n q) := fun q hq hr =>
      nogap_compile n q hq fun j hj => hu j (by
        cases hj with
        | here h => exact .here (hr _ h)
        | there h1 h2 h3 => exact .there (hr _ h1) h2 h3)
    have subL : ∀ {ps : List MPattern}, (∀ q ∈ ps, Solid q) → p.refs = refsL ps → ∀ q ∈ ps, NoGap (compile env n q) :=
      fun hq hr q hm => sub q (hq q hm) fun j hj => by rw [hr]; exact mem_refsL.mpr ⟨q, hm, hj⟩
    cases hs with
    | choice h1 h2 => exact nogap_compileVec nogap_choice h1 (subL h2 rfl)
    | interleave h1 h2 => exact nogap_compileVec nogap_interleave h1 (subL h2 rfl)
    | group h1 h2 => exact nogap_compileVec nogap_group h1 (subL h2 rfl)
    | mixed h => exact (sub _ h fun j hj => hj).bind fun _ => (nogap_push _).bind fun _ => nogap_interleave _ _
    | empty => exact nogap_push _
    | text => exact nogap_push _
    | notAllowed => exact nogap_push _
    | optional h => exact (sub _ h fun j hj => hj).bind fun _ => (nogap_push _).bind fun _ => nogap_choice _ _
    | zeroOrMore h =>
      exact (sub _ h fun j hj => hj).bind fun _ => ((nogap_patt _).bind fun _ => nogap_push _).bind fun _ =>
        (nogap_push _).bind fun _ => nogap_choice _ _
    | oneOrMore h => exact (sub _ h fun j hj => hj).bind fun _ => (nogap_patt _).bind fun _ => nogap_push _
    | attr h => exact (sub _ h fun j hj => hj).bind fun _ => nogap_push _
    | element h => exact (sub _ h fun j hj => hj).bind fun _ => nogap_push _
    | list h => exact (sub _ h fun j hj => hj).bind fun _ => nogap_push _
    | value => exact nogap_push _
    | data => exact nogap_push _
    | dataExcept h => exact (sub _ h fun j hj => hj).bind fun _ => nogap_push _
    | ref =>
      rename_i r
      obtain ⟨q, hq, hsq⟩ := hu r (.here (by simp [Pattern.refs]))
      refine NoGap.bind (m := getRef r) (fun st => by simp [getRef]) fun o => ?_
      cases o with
      | some id => exact .pure _
      | none =>
        refine NoGap.bind (m := refPlaceholder r) ((nogap_push _).bind fun _ => fun st => by simp) fun ph => ?_
        simp only [hq]
        refine (nogap_compile n q hsq fun j hj => hu j (.there (by simp [Pattern.refs]) hq hj)).bind fun _ =>
          (nogap_resolveRef _ _).bind fun _ => .pure _

end
end Verif
