import Verif.Proof.Run
/-
For a start pattern that is a choice of elements, the pattern left after the root element is closed
is nullable: reading all tokens without an error is then the same as validity.
-/
set_option linter.unusedSectionVars false
namespace Verif
variable {D V : Type}

section
variable (lk : Lk D V)
/-- the continuation after `k` more end tags is nullable (or nothing) -/
inductive Bot : Nat → Pat D V → Prop
  | na {k} : Bot k .notAllowed
  | null {p} : p.nullable = true → Bot 0 p
  | after {k i j q} : lk j = some q → Bot k q → Bot (k + 1) (.after i j)
  | choice {k l r f p q} : lk l = some p → lk r = some q → Bot (k + 1) p → Bot (k + 1) q →
      Bot (k + 1) (.choice l r f)

def BotI (k i : Nat) : Prop := ∃ p, lk i = some p ∧ Bot lk k p

/-- a choice of elements -/
inductive Elems : Pat D V → Prop
  | na : Elems .notAllowed
  | element {nc i} : Elems (.element nc i)
  | choice {l r f p q} : lk l = some p → lk r = some q → Elems p → Elems q → Elems (.choice l r f)
end

variable {lk : Lk D V} {L : Lib D V}

theorem BotI.get {k i p} (h : BotI lk k i) (hp : lk i = some p) : Bot lk k p := by
  obtain ⟨q, hq, h⟩ := h
  rw [hp] at hq; cases hq; exact h

theorem BotI.na {k i} (h : lk i = some .notAllowed) : BotI lk k i := ⟨_, h, .na⟩

theorem Bot.zero {p} (h : Bot lk 0 p) : p = .notAllowed ∨ p.nullable = true := by
  cases h with
  | na => exact .inl rfl
  | null h => exact .inr h

theorem ChoiceOf.bot {k l r i} (h : ChoiceOf lk l r i) (hl : BotI lk k l) (hr : BotI lk k r) :
    BotI lk k i := by
  obtain ⟨p, q, h1, h2, h⟩ := h
  rcases h with ⟨_, rfl⟩ | ⟨_, rfl⟩ | ⟨_, rfl⟩ | ⟨hna, h⟩
  · exact hr
  · exact hl
  · exact hl
  · refine ⟨_, h, ?_⟩
    have b1 := hl.get h1
    have b2 := hr.get h2
    cases k with
    | zero =>
      rcases b1.zero with rfl | hb
      · rcases b2.zero with rfl | hb2
        · exact absurd rfl hna
        · exact absurd rfl hna
      · exact .null (by show (_ || _) = true; simp [hb])
    | succ k => exact .choice h1 h2 b1 b2

theorem AfterOf.bot {k l r i} (h : AfterOf lk l r i) (hr : BotI lk k r) : BotI lk (k + 1) i := by
  obtain ⟨p, h1, h⟩ := h
  rcases h with ⟨_, h⟩ | ⟨_, h⟩
  · exact .na h
  · obtain ⟨q, hq, hb⟩ := hr
    exact ⟨_, h, .after hq hb⟩

theorem TD.bot {job i} (h : TD L lk job i) : ∀ {p t k}, job = .txt p t → Bot lk (k + 1) p →
    BotI lk (k + 1) i := by
  induction h with
  | choice h1 h2 _ _ h5 ih1 ih2 =>
    intro p t k he hb
    cases he
    cases hb with
    | choice g1 g2 b1 b2 =>
      rw [g1] at h1; cases h1; rw [g2] at h2; cases h2
      exact h5.bot (ih1 rfl b1) (ih2 rfl b2)
  | after h1 _ h3 _ =>
    intro p t k he hb
    cases he
    cases hb with
    | after g1 b => exact h3.bot ⟨_, g1, b⟩
  | notAllowed h => intro p t k he hb; exact .na h
  | loopNil => intro p t k he; cases he
  | loopStop => intro p t k he; cases he
  | loopStep => intro p t k he; cases he
  | _ => intro p t k he hb; cases he; cases hb

theorem AA.bot {F p i} {k k' : Nat} (h : AA lk F p i) (hF : ∀ j i, F j i → BotI lk k j → BotI lk k' i) :
    Bot lk (k + 1) p → BotI lk (k' + 1) i := by
  induction h with
  | after h1 h2 =>
    intro hb
    cases hb with
    | after g b => exact h2.bot (hF _ _ h1 ⟨_, g, b⟩)
  | choice h1 h2 _ _ h5 ih1 ih2 =>
    intro hb
    cases hb with
    | choice g1 g2 b1 b2 =>
      rw [g1] at h1; cases h1; rw [g2] at h2; cases h2
      exact h5.bot (ih1 b1) (ih2 b2)
  | notAllowed h => intro _; exact .na h

/-- `AfterOf · r` under any after-chain -/
theorem AA.botAfter {r p i} {k : Nat} (h : AA lk (fun j i => AfterOf lk j r i) p i)
    (hr : BotI lk k r) : BotI lk (k + 2) i := by
  induction h with
  | after h1 h2 => exact h2.bot (h1.bot hr)
  | choice h1 h2 _ _ h5 ih1 ih2 => exact h5.bot ih1 ih2
  | notAllowed h => exact .na h

theorem STD.bot {nm p i} (h : STD lk nm p i) : ∀ {k}, Bot lk (k + 1) p → BotI lk (k + 2) i := by
  induction h with
  | choice h1 h2 _ _ h5 ih1 ih2 =>
    intro k hb
    cases hb with
    | choice g1 g2 b1 b2 =>
      rw [g1] at h1; cases h1; rw [g2] at h2; cases h2
      exact h5.bot (ih1 b1) (ih2 b2)
  | after h1 _ h3 h4 _ =>
    intro k hb
    cases hb with
    | after g b => exact h4.botAfter ⟨_, g, b⟩
  | other h1 h => intro k hb; exact .na h
  | elementNo _ h => intro k hb; exact .na h
  | _ => intro k hb; cases hb

theorem STD.elems {nm p i} (h : STD lk nm p i) : Elems lk p → BotI lk 1 i := by
  induction h with
  | choice h1 h2 _ _ h5 ih1 ih2 =>
    intro hb
    cases hb with
    | choice g1 g2 b1 b2 =>
      rw [g1] at h1; cases h1; rw [g2] at h2; cases h2
      exact h5.bot (ih1 b1) (ih2 b2)
  | element _ h2 h3 => intro hb; exact h3.bot ⟨_, h2, .null rfl⟩
  | elementNo _ h => intro hb; exact .na h
  | other h1 h => intro hb; exact .na h
  | _ => intro hb; cases hb

theorem AT.bot {x i r} (h : AT L lk x i r) : ∀ {k}, BotI lk (k + 1) i → BotI lk (k + 1) r := by
  induction h with
  | after h1 _ h3 _ =>
    intro k hb
    cases hb.get h1 with
    | after g b => exact h3.bot ⟨_, g, b⟩
  | choice h1 _ _ h4 ih1 ih2 =>
    intro k hb
    cases hb.get h1 with
    | choice g1 g2 b1 b2 => exact h4.bot (ih1 ⟨_, g1, b1⟩) (ih2 ⟨_, g2, b2⟩)
  | attrNo _ _ h => intro k hb; exact .na h
  | other _ _ h => intro k hb; exact .na h
  | group h1 => intro k hb; cases hb.get h1
  | interleave h1 => intro k hb; cases hb.get h1
  | oneOrMore h1 => intro k hb; cases hb.get h1
  | attr h1 => intro k hb; cases hb.get h1

theorem ATs.bot {as i r} (h : ATs L lk as i r) : ∀ {k}, BotI lk (k + 1) i → BotI lk (k + 1) r := by
  induction h with
  | nil => intro k h; exact h
  | cons h1 _ ih => intro k h; exact ih (h1.bot h)

theorem STC.bot {i r} (h : STC lk i r) : ∀ {k}, BotI lk (k + 1) i → BotI lk (k + 1) r := by
  induction h with
  | after h1 _ h3 _ =>
    intro k hb
    cases hb.get h1 with
    | after g b => exact h3.bot ⟨_, g, b⟩
  | choice h1 _ _ h4 ih1 ih2 =>
    intro k hb
    cases hb.get h1 with
    | choice g1 g2 b1 b2 => exact h4.bot (ih1 ⟨_, g1, b1⟩) (ih2 ⟨_, g2, b2⟩)
  | attr _ h => intro k hb; exact .na h
  | other _ h => intro k hb; exact hb
  | group h1 => intro k hb; cases hb.get h1
  | interleave h1 => intro k hb; cases hb.get h1
  | oneOrMore h1 => intro k hb; cases hb.get h1

theorem ETD.bot {p r} (h : ETD lk p r) : ∀ {k}, Bot lk (k + 1) p → BotI lk k r := by
  induction h with
  | choice h1 h2 _ _ h5 ih1 ih2 =>
    intro k hb
    cases hb with
    | choice g1 g2 b1 b2 =>
      rw [g1] at h1; cases h1; rw [g2] at h2; cases h2
      exact h5.bot (ih1 b1) (ih2 b2)
  | after h1 h2 =>
    intro k hb
    cases hb with
    | after g b => exact ⟨_, g, b⟩
  | afterNo _ _ h => intro k hb; exact .na h
  | other _ _ h => intro k hb; exact .na h

theorem StepRel.bot {e i r k} (h : StepRel L lk i e r) (hb : BotI lk (k + 1) i) :
    BotI lk (e.next (k + 1)) r := by
  cases e with
  | start nm as =>
    obtain ⟨p, hp, d, d2, h1, h2, h3⟩ := h
    exact h3.bot (h2.bot (h1.bot (hb.get hp)))
  | text s =>
    obtain ⟨p, hp, h1⟩ := h
    exact h1.bot rfl (hb.get hp)
  | fin =>
    obtain ⟨p, hp, h1⟩ := h
    exact h1.bot (hb.get hp)

theorem StepRel.elems {nm as i p r} (h : StepRel L lk i (.start nm as) r) (hp : lk i = some p)
    (he : Elems lk p) : BotI lk 1 r := by
  obtain ⟨p', hp', d, d2, h1, h2, h3⟩ := h
  rw [hp] at hp'; cases hp'
  exact h3.bot (h2.bot (h1.elems he))

section
variable [DecidableEq D] [DecidableEq V] (L : Lib D V)

mutual
theorem ok_bot_node (n : Nat) : ∀ (x : Node) (i : Nat),
    Ok (runR L n i x.events) (fun lk o => ∀ k r, BotI lk (k + 1) i → o = some r → BotI lk (k + 1) r)
  | .text s, i => by
    simp only [Node.events, runR]
    refine ok_andThen (ok_stepR L n i (.text s)) (fun a => Ok.pure fun lk h k r hb hr => ?_)
      fun lk h k r hb hr => by cases hr
    cases hr
    exact (h.1 _ rfl).1.bot hb
  | .elem nm as kids, i => by
    simp only [Node.events, runR]
    refine ok_andThen (ok_stepR L n i (.start nm as)) (fun j => ?_) fun lk h k r hb hr => by cases hr
    rw [runR_append]
    refine ok_andThen (ok_bot_list n kids j) (fun j2 => ?_) fun lk h h1 k r hb hr => by cases hr
    simp only [runR]
    refine ok_andThen (ok_stepR L n j2 .fin) (fun a => Ok.pure fun lk h1 h2 h3 k r hb hr => ?_)
          fun lk h1 h2 h3 k r hb hr => by cases hr
    cases hr
    have b1 := (h3.1 _ rfl).1.bot hb
    have b2 := h2 (k + 1) _ b1 rfl
    exact (h1.1 _ rfl).1.bot b2
theorem ok_bot_list (n : Nat) : ∀ (ns : List Node) (i : Nat),
    Ok (runR L n i (eventsL ns)) (fun lk o => ∀ k r, BotI lk (k + 1) i → o = some r → BotI lk (k + 1) r)
  | [], i => Ok.pure fun lk k r hb hr => by cases hr; exact hb
  | x :: ns, i => by
    simp only [eventsL]
    rw [runR_append]
    refine ok_andThen (ok_bot_node n x i) (fun j => (ok_bot_list n ns j).mono
      fun lk o h h1 k r hb hr => h k r (h1 k _ hb rfl) hr) fun lk h k r hb hr => by cases hr
end

/-- a root element read against a choice of elements leaves a nullable pattern -/
theorem ok_root (n : Nat) (nm : QName) (as : List Attr) (kids : List Node) (i : Nat) :
    Ok (runR L n i (Node.elem nm as kids).events)
      (fun lk o => ∀ p r, lk i = some p → Elems lk p → o = some r →
        ∃ q, lk r = some q ∧ q.nullable = true) := by
  simp only [Node.events, runR]
  refine ok_andThen (ok_stepR L n i (.start nm as)) (fun j => ?_) fun lk h p r _ _ hr => by cases hr
  rw [runR_append]
  refine ok_andThen (ok_bot_list L n kids j) (fun j2 => ?_) fun lk h h1 p r _ _ hr => by cases hr
  simp only [runR]
  refine ok_andThen (ok_stepR L n j2 .fin) (fun a => Ok.pure fun lk h1 h2 h3 p r hp he hr => ?_)
        fun lk h1 h2 h3 p r _ _ hr => by cases hr
  cases hr
  have b1 := (h3.1 _ rfl).1.elems hp he
  have b2 := h2 0 _ b1 rfl
  obtain ⟨q, hq, hb⟩ := (h1.1 _ rfl).1.bot b2
  refine ⟨q, hq, ?_⟩
  rcases hb.zero with rfl | h
  · exact absurd hq (h1.1 _ rfl).2
  · exact h

end
end Verif
