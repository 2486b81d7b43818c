import Verif.Proof.LiveSat
import Verif.Proof.SpecLink
/-
Compiled usable patterns are live (proof device for C77).
-/
set_option linter.unusedSectionVars false
namespace Verif
open Viable
variable {D V : Type} {L : Lib D V} {env : Env D V} {w : World D V} {QE : NameClass → Nat → Prop}

theorem Viable.Void.rep (hall : AllRef env w) {p : Pattern D V} (h : Void env p) : ∀ {i}, Rep env w p i → w.lk i = some .notAllowed := by
  induction h with
  | notAllowed => intro i h; cases h with | notAllowed h => exact h
  | ref hn _ ih =>
    intro i h
    cases h with
    | ref h =>
      obtain ⟨p', j, P, h1, h2, h3, h4, _⟩ := hall _ _ h
      rw [hn] at h1; cases h1
      rw [ih h2] at h3; cases h3
      exact h4

theorem LI.of_eq {lk : Lk D V} {o d t i j} (h : lk i = lk j) (hl : LI L lk QE o d t j) : LI L lk QE o d t i := by
  obtain ⟨p, hp, hl⟩ := hl
  exact ⟨p, by rw [h]; exact hp, hl⟩

theorem GroupRep.li {p q l r i o d t t1 t2} (h : GroupRep env w p q l r i) (hl : LI L w.lk QE o d t1 l) (hr : LI L w.lk QE o d t2 r)
    (g1 : t1 ≤ t) (g2 : t2 ≤ t) (g : Grp t1 t2) : LI L w.lk QE o d t i := by
  obtain ⟨x, hx, lx⟩ := hl
  obtain ⟨y, hy, ly⟩ := hr
  obtain ⟨_, _, _, _, h⟩ := h
  rcases h with ⟨h1, _⟩ | ⟨h1, _⟩ | ⟨_, rfl⟩ | ⟨_, rfl⟩ | h
  · rw [hx] at h1; cases h1; exact absurd rfl lx.ne
  · rw [hy] at h1; cases h1; exact absurd rfl ly.ne
  · exact ⟨_, hy, ly.up g2⟩
  · exact ⟨_, hx, lx.up g1⟩
  · exact ⟨_, h, .group hx hy lx ly g1 g2 g⟩

theorem InterRep.li {p q l r i o d t t1 t2} (h : InterRep env w p q l r i) (hl : LI L w.lk QE o d t1 l) (hr : LI L w.lk QE o d t2 r)
    (g1 : t1 ≤ t) (g2 : t2 ≤ t) (g : Grp t1 t2) : LI L w.lk QE o d t i := by
  obtain ⟨x, hx, lx⟩ := hl
  obtain ⟨y, hy, ly⟩ := hr
  obtain ⟨_, _, _, _, h⟩ := h
  rcases h with ⟨h1, _⟩ | ⟨h1, _⟩ | ⟨_, rfl⟩ | ⟨_, rfl⟩ | h
  · rw [hx] at h1; cases h1; exact absurd rfl lx.ne
  · rw [hy] at h1; cases h1; exact absurd rfl ly.ne
  · exact ⟨_, hy, ly.up g2⟩
  · exact ⟨_, hx, lx.up g1⟩
  · exact ⟨_, h, .interleave hx hy lx ly g1 g2 g⟩

/-- live or dead -/
def LD (L : Lib D V) (lk : Lk D V) (QE : NameClass → Nat → Prop) (o d : Bool) (t i : Nat) : Prop :=
  ∃ p, lk i = some p ∧ (¬ Dead lk p → Liv L lk QE o d t p)

theorem LI.ld {lk : Lk D V} {o d t i} (h : LI L lk QE o d t i) : LD L lk QE o d t i := by
  obtain ⟨p, hp, h⟩ := h
  exact ⟨p, hp, fun _ => h⟩

theorem LD.cases {lk : Lk D V} {o d t i} (h : LD L lk QE o d t i) : (∃ p, lk i = some p ∧ Dead lk p) ∨ LI L lk QE o d t i := by
  obtain ⟨p, hp, h⟩ := h
  rcases Classical.em (Dead lk p) with e | e
  · exact .inl ⟨p, hp, e⟩
  · exact .inr ⟨p, hp, h e⟩

theorem LD.dead {lk : Lk D V} {o d t i p} (h : lk i = some p) (hd : Dead lk p) : LD L lk QE o d t i := ⟨p, h, fun n => absurd hd n⟩

/-- a choice at least one of whose branches is live -/
theorem ChoiceRep.li {p q l r i o d t} (h : ChoiceRep env w p q l r i) (hl : LD L w.lk QE o d t l) (hr : LD L w.lk QE o d t r)
    (hne : LI L w.lk QE o d t l ∨ LI L w.lk QE o d t r) : LI L w.lk QE o d t i := by
  obtain ⟨_, _, _, _, h⟩ := h
  have no : ∀ {j p}, w.lk j = some p → Dead w.lk p → ¬ LI L w.lk QE o d t j := by
    rintro j p h hd ⟨p', hp, hl⟩
    rw [h] at hp; cases hp
    exact hl.nd hd
  rcases h with ⟨h1, rfl⟩ | ⟨h1, rfl⟩ | ⟨rfl, rfl⟩ | h
  · exact hne.resolve_left (no h1 .na)
  · exact hne.resolve_right (no h1 .na)
  · exact hne.elim id id
  · obtain ⟨x, hx, lx⟩ := hl
    obtain ⟨y, hy, ly⟩ := hr
    exact ⟨_, h, .choice hx hy lx ly fun e1 e2 => hne.elim (no hx e1) (no hy e2)⟩

theorem ChoiceRep.ld {p q l r i o d t} (h : ChoiceRep env w p q l r i) (hl : LD L w.lk QE o d t l) (hr : LD L w.lk QE o d t r) :
    LD L w.lk QE o d t i := by
  rcases hl.cases with ⟨x, hx, dx⟩ | e
  · rcases hr.cases with ⟨y, hy, dy⟩ | e
    · obtain ⟨_, _, _, _, h⟩ := h
      rcases h with ⟨_, rfl⟩ | ⟨_, rfl⟩ | ⟨_, rfl⟩ | h
      · exact hr
      · exact hl
      · exact hl
      · exact .dead h (.choice hx hy dx dy)
    · exact (h.li hl hr (.inr e)).ld
  · exact (h.li hl hr (.inl e)).ld

theorem Viable.AttsOnly.ao (hall : AllRef env w) {p : Pattern D V} (h : AttsOnly env p) : ∀ {i}, Rep env w p i → ∃ P, w.lk i = some P ∧ AO w.lk P := by
  induction h with
  | attr => intro i h; cases h with | attr _ h => exact ⟨_, h, .attr⟩
  | @choice ps hps ih =>
    induction ps with
    | nil => intro i h; cases h
    | cons p ps ihps =>
      intro i h
      cases h with
      | choiceOne h => exact ih p (by simp) h
      | choiceCons h1 h2 h3 =>
        obtain ⟨x, hx, ax⟩ := ih p (by simp) h1
        obtain ⟨y, hy, ay⟩ := ihps (fun q hq => hps q (List.mem_cons_of_mem _ hq)) (fun q hq => ih q (List.mem_cons_of_mem _ hq)) h2
        obtain ⟨_, _, _, _, h⟩ := h3
        rcases h with ⟨_, rfl⟩ | ⟨_, rfl⟩ | ⟨_, rfl⟩ | h
        · exact ⟨_, hy, ay⟩
        · exact ⟨_, hx, ax⟩
        · exact ⟨_, hx, ax⟩
        · exact ⟨_, h, .choice hx hy ax ay⟩
  | ref hn _ ih =>
    intro i h
    cases h with
    | ref h =>
      obtain ⟨p', j, P, h1, h2, h3, h4, _⟩ := hall _ _ h
      rw [hn] at h1; cases h1
      obtain ⟨x, hx, ax⟩ := ih h2
      rw [hx] at h3; cases h3
      exact ⟨_, h4, ax⟩

theorem OneRep.li {p l i o d t} (h : OneRep env w p l i) (hl : LI L w.lk QE false d t l) (ht : t ≤ 1) : LI L w.lk QE o d t i := by
  obtain ⟨x, hx, lx⟩ := hl
  obtain ⟨_, _, h⟩ := h
  exact ⟨_, h, .oneOrMore hx lx ht (Nat.le_refl _)⟩

theorem LI.up {lk : Lk D V} {o d t t' i} (h : LI L lk QE o d t i) (ht : t ≤ t') : LI L lk QE o d t' i := by
  obtain ⟨x, hx, lx⟩ := h
  exact ⟨x, hx, lx.up ht⟩

/-- members of a kind that may stand side by side -/
theorem group_li {o d t} (ht : t ≤ 1) : ∀ {ps : List (Pattern D V)}, (∀ p ∈ ps, ∀ {i}, Rep env w p i → LI L w.lk QE o d t i) →
    ∀ {i}, Rep env w (.group ps) i → LI L w.lk QE o d t i
  | [], _, i, h => by cases h
  | p :: ps, ih, i, h => by
    cases h with
    | groupOne h => exact ih p (by simp) h
    | groupCons h1 h2 h3 =>
      exact h3.li (ih p (by simp) h1) (group_li ht (fun q hq => ih q (List.mem_cons_of_mem _ hq)) h2) (Nat.le_refl _) (Nat.le_refl _) (.inr (.inr ⟨ht, ht⟩))

theorem interleave_li {o d t} (ht : t ≤ 1) : ∀ {ps : List (Pattern D V)}, (∀ p ∈ ps, ∀ {i}, Rep env w p i → LI L w.lk QE o d t i) →
    ∀ {i}, Rep env w (.interleave ps) i → LI L w.lk QE o d t i
  | [], _, i, h => by cases h
  | p :: ps, ih, i, h => by
    cases h with
    | interleaveOne h => exact ih p (by simp) h
    | interleaveCons h1 h2 h3 =>
      exact h3.li (ih p (by simp) h1) (interleave_li ht (fun q hq => ih q (List.mem_cons_of_mem _ hq)) h2) (Nat.le_refl _) (Nat.le_refl _) (.inr (.inr ⟨ht, ht⟩))

theorem groupString_li {o d} {p : Pattern D V} {ys} (hp : ∀ {i}, Rep env w p i → LI L w.lk QE o d 2 i)
    (hy : ∀ q ∈ ys, ∀ {i}, Rep env w q i → LI L w.lk QE o d 0 i) :
    ∀ {xs : List (Pattern D V)}, (∀ q ∈ xs, ∀ {i}, Rep env w q i → LI L w.lk QE o d 0 i) →
    ∀ {i}, Rep env w (.group (xs ++ p :: ys)) i → LI L w.lk QE o d 2 i
  | [], _, i, h => by
    rw [List.nil_append] at h
    cases h with
    | groupOne h => exact hp h
    | groupCons h1 h2 h3 =>
      exact h3.li (hp h1) (group_li (Nat.zero_le _) (fun q hq => hy q hq) h2) (Nat.le_refl _) (Nat.zero_le _) (.inr (.inl rfl))
  | x :: xs, ih, i, h => by
    rw [List.cons_append] at h
    generalize hz : xs ++ p :: ys = z at h
    cases h with
    | groupOne h => simp at hz
    | groupCons h1 h2 h3 =>
      exact h3.li (ih x (by simp) h1) (groupString_li hp hy (fun q hq => ih q (List.mem_cons_of_mem _ hq)) (by rw [hz]; exact h2)) (Nat.zero_le _) (Nat.le_refl _) (.inl rfl)

theorem interleaveString_li {o d} {p : Pattern D V} {ys} (hp : ∀ {i}, Rep env w p i → LI L w.lk QE o d 2 i)
    (hy : ∀ q ∈ ys, ∀ {i}, Rep env w q i → LI L w.lk QE o d 0 i) :
    ∀ {xs : List (Pattern D V)}, (∀ q ∈ xs, ∀ {i}, Rep env w q i → LI L w.lk QE o d 0 i) →
    ∀ {i}, Rep env w (.interleave (xs ++ p :: ys)) i → LI L w.lk QE o d 2 i
  | [], _, i, h => by
    rw [List.nil_append] at h
    cases h with
    | interleaveOne h => exact hp h
    | interleaveCons h1 h2 h3 =>
      exact h3.li (hp h1) (interleave_li (Nat.zero_le _) (fun q hq => hy q hq) h2) (Nat.le_refl _) (Nat.zero_le _) (.inr (.inl rfl))
  | x :: xs, ih, i, h => by
    rw [List.cons_append] at h
    generalize hz : xs ++ p :: ys = z at h
    cases h with
    | interleaveOne h => simp at hz
    | interleaveCons h1 h2 h3 =>
      exact h3.li (ih x (by simp) h1) (interleaveString_li hp hy (fun q hq => ih q (List.mem_cons_of_mem _ hq)) (by rw [hz]; exact h2)) (Nat.zero_le _) (Nat.le_refl _) (.inl rfl)

theorem Viable.Usable.li {Q : NameClass → Pattern D V → Prop} (hall : AllRef env w) (hE : ∀ nc p j, Q nc p → Rep env w p j → QE nc j)
    {a t} {p : Pattern D V} (h : Usable L env Q a t p) : ∀ {i}, Rep env w p i → LI L w.lk QE a false t i := by
  induction h with
  | empty => intro i h; cases h with | empty h => exact ⟨_, h, .empty⟩
  | text ht => intro i h; cases h with | text h => exact ⟨_, h, .text ht⟩
  | @choice a t ps us h1 h2 _ ih =>
    have ln : ∀ {p i}, p ∈ us ∨ Void env p → Rep env w p i → LD L w.lk QE a false t i := by
      intro p i h hr
      rcases h with h | h
      · exact (ih p h hr).ld
      · exact .dead (h.rep hall hr) .na
    have all : ∀ ps : List (Pattern D V), (∀ p ∈ ps, p ∈ us ∨ Void env p) → ∀ {i}, Rep env w (.choice ps) i →
        LD L w.lk QE a false t i ∧ ((∃ p ∈ ps, p ∈ us) → LI L w.lk QE a false t i) := by
      intro ps
      induction ps with
      | nil => intro _ i h; cases h
      | cons p ps ihps =>
        intro hv i h
        cases h with
        | choiceOne h =>
          refine ⟨ln (hv _ (by simp)) h, ?_⟩
          rintro ⟨q, hq, hu⟩
          simp at hq; subst hq
          exact ih _ hu h
        | choiceCons g1 g2 g3 =>
          obtain ⟨l2, e2⟩ := ihps (fun q hq => hv q (List.mem_cons_of_mem _ hq)) g2
          have l1 := ln (hv _ (by simp)) g1
          refine ⟨g3.ld l1 l2, ?_⟩
          rintro ⟨q, hq, hu⟩
          rcases List.mem_cons.mp hq with rfl | hq
          · exact g3.li l1 l2 (.inl (ih _ hu g1))
          · exact g3.li l1 l2 (.inr (e2 ⟨q, hq, hu⟩))
    intro i h
    exact (all ps h1 h).2 h2
  | @group a t ps _ ih => intro i h; exact (group_li (by omega) ih h).up (by omega)
  | @interleave a t ps _ ih => intro i h; exact (interleave_li (by omega) ih h).up (by omega)
  | groupString _ _ _ ih1 ih2 ih3 => intro i h; exact groupString_li ih1 ih3 ih2 h
  | interleaveString _ _ _ ih1 ih2 ih3 => intro i h; exact interleaveString_li ih1 ih3 ih2 h
  | mixed ht _ ih =>
    intro i h
    cases h with
    | mixed h1 h2 h3 => exact h3.li (ih h1) ⟨_, h2, .text (t := 1) (by omega)⟩ ht ht (.inr (.inr ⟨by omega, by omega⟩))
  | optional _ ih =>
    intro i h
    cases h with
    | optional h1 h2 h3 =>
      have e := ih h1
      exact h3.li e.ld (LI.ld ⟨_, h2, .empty⟩) (.inl e)
  | @zeroOrMore a t p _ ih =>
    intro i h
    cases h with
    | zeroOrMore h1 h2 h3 h4 =>
      have e : LI L w.lk QE a false t _ := (h2.li (ih h1) (by omega)).up (by omega)
      exact h4.li e.ld (LI.ld ⟨_, h3, .empty⟩) (.inl e)
  | zeroOrMoreAtts ha =>
    intro i h
    cases h with
    | zeroOrMore h1 h2 h3 h4 =>
      obtain ⟨P, hP, aP⟩ := ha.ao hall h1
      obtain ⟨_, _, h2⟩ := h2
      obtain ⟨_, _, _, _, h⟩ := h4
      rcases h with ⟨e, _⟩ | ⟨e, _⟩ | ⟨e, _⟩ | h
      · rw [h2] at e; cases e
      · rw [h3] at e; cases e
      · subst e; rw [h2] at h3; cases h3
      · exact ⟨_, h, .atts h2 hP aP h3⟩
  | @oneOrMore a t p _ ih =>
    intro i h
    cases h with
    | oneOrMore h1 h2 => exact (h2.li (ih h1) (by omega)).up (by omega)
  | attr => intro i h; cases h with | attr _ h => exact ⟨_, h, .attr⟩
  | element ht hq => intro i h; cases h with | element h1 h => exact ⟨_, h, .element ht (hE _ _ _ hq h1)⟩
  | ref hn _ ih =>
    intro i h
    cases h with
    | ref h =>
      obtain ⟨p', j, P, h1, h2, h3, h4, _⟩ := hall _ _ h
      rw [hn] at h1; cases h1
      exact LI.of_eq (by rw [h3, h4]) (ih h2)
  | @string a p s hp hs hm =>
    intro i h
    obtain ⟨P, hP, sP⟩ := hm.si hall h
    refine ⟨P, hP, .leaf ?_ (by omega) fun _ => ⟨s, hs, sP⟩⟩
    cases p <;> try cases hp
    · cases h with | value h => rw [hP] at h; cases h; rfl
    · cases h with | data h => rw [hP] at h; cases h; rfl
    · cases h with | dataExcept _ h => rw [hP] at h; cases h; rfl
    · cases h with | list _ h => rw [hP] at h; cases h; rfl

end Verif
