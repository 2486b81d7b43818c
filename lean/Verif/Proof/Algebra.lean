import Verif.Spec.Edits
import Verif.Proof.Doc
/-
Rewritings of schemas: laws, congruence, unfolding of references.
-/
set_option linter.unusedSectionVars false
namespace Verif
variable {D V : Type} {L : Lib D V} {env : Env D V}

/-! ### inversion of `Match` -/

theorem Match.choice_iff {ps : List (Pattern D V)} {a c} :
    Match L env (.choice ps) a c ↔ ∃ p ∈ ps, Match L env p a c :=
  ⟨fun h => by cases h with | choice h1 h2 => exact ⟨_, h1, h2⟩, fun ⟨_, h1, h2⟩ => .choice h1 h2⟩

theorem Match.group_nil_iff {a c} : Match L env (.group []) a c ↔ a = [] ∧ c = [] :=
  ⟨fun h => by cases h; exact ⟨rfl, rfl⟩, fun ⟨h1, h2⟩ => by subst h1; subst h2; exact .groupNil⟩

theorem Match.group_cons_iff {p : Pattern D V} {ps a c} : Match L env (.group (p :: ps)) a c ↔
    ∃ a1 a2 c1 c2, a.Perm (a1 ++ a2) ∧ c = c1 ++ c2 ∧ Match L env p a1 c1 ∧ Match L env (.group ps) a2 c2 :=
  ⟨fun h => by cases h with | groupCons h1 h2 h3 => exact ⟨_, _, _, _, h3, rfl, h1, h2⟩,
   fun ⟨a1, a2, c1, c2, h1, h2, h3, h4⟩ => by subst h2; exact .groupCons h3 h4 h1⟩

theorem Match.inter_nil_iff {a c} : Match L env (.interleave []) a c ↔ a = [] ∧ c = [] :=
  ⟨fun h => by cases h; exact ⟨rfl, rfl⟩, fun ⟨h1, h2⟩ => by subst h1; subst h2; exact .interleaveNil⟩

theorem Match.inter_cons_iff {p : Pattern D V} {ps a c} : Match L env (.interleave (p :: ps)) a c ↔
    ∃ a1 a2 c1 c2, a.Perm (a1 ++ a2) ∧ Shuffle c1 c2 c ∧ Match L env p a1 c1 ∧ Match L env (.interleave ps) a2 c2 :=
  ⟨fun h => by cases h with | interleaveCons h1 h2 h3 h4 => exact ⟨_, _, _, _, h3, h4, h1, h2⟩,
   fun ⟨a1, a2, c1, c2, h1, h2, h3, h4⟩ => .interleaveCons h3 h4 h1 h2⟩

/-! ### laws -/

theorem MatchEq.refl (p : Pattern D V) : MatchEq p p := fun _ _ _ _ => Iff.rfl
theorem MatchEq.symm {p q : Pattern D V} (h : MatchEq p q) : MatchEq q p := fun L e a c => (h L e a c).symm
theorem MatchEq.trans {p q r : Pattern D V} (h : MatchEq p q) (h' : MatchEq q r) : MatchEq p r :=
  fun L e a c => (h L e a c).trans (h' L e a c)

theorem matchEq_choice_perm {ps qs : List (Pattern D V)} (h : ps.Perm qs) : MatchEq (.choice ps) (.choice qs) := by
  intro L env a c
  rw [Match.choice_iff, Match.choice_iff]
  simp only [h.mem_iff]

theorem matchEq_choice_flat (ps qs rs : List (Pattern D V)) :
    MatchEq (.choice (ps ++ .choice qs :: rs)) (.choice (ps ++ qs ++ rs)) := by
  intro L env a c
  rw [Match.choice_iff, Match.choice_iff]
  constructor
  · rintro ⟨p, hp, hm⟩
    simp only [List.mem_append, List.mem_cons] at hp
    rcases hp with hp | rfl | hp
    · exact ⟨p, by simp [hp], hm⟩
    · obtain ⟨q, hq, hm⟩ := Match.choice_iff.mp hm
      exact ⟨q, by simp [hq], hm⟩
    · exact ⟨p, by simp [hp], hm⟩
  · rintro ⟨p, hp, hm⟩
    simp only [List.mem_append] at hp
    rcases hp with (hp | hp) | hp
    · exact ⟨p, by simp [hp], hm⟩
    · exact ⟨.choice qs, by simp, .choice hp hm⟩
    · exact ⟨p, by simp [hp], hm⟩

theorem matchEq_choice_one (p : Pattern D V) : MatchEq (.choice [p]) p := by
  intro L env a c
  rw [Match.choice_iff]
  simp

theorem Match.not_notAllowed {a c} : ¬ Match L env (.notAllowed : Pattern D V) a c := nofun

theorem matchEq_choice_notAllowed (ps : List (Pattern D V)) : MatchEq (.choice (.notAllowed :: ps)) (.choice ps) := by
  intro L env a c
  rw [Match.choice_iff, Match.choice_iff]
  constructor
  · rintro ⟨p, hp, hm⟩
    rcases List.mem_cons.mp hp with rfl | hp
    · exact absurd hm Match.not_notAllowed
    · exact ⟨p, hp, hm⟩
  · rintro ⟨p, hp, hm⟩; exact ⟨p, by simp [hp], hm⟩

/-- the members of a group up to a point, then the rest -/
theorem Match.group_append_iff {qs : List (Pattern D V)} : ∀ {ps : List (Pattern D V)} {a c},
    Match L env (.group (ps ++ qs)) a c ↔
    ∃ a1 a2 c1 c2, a.Perm (a1 ++ a2) ∧ c = c1 ++ c2 ∧ Match L env (.group ps) a1 c1 ∧ Match L env (.group qs) a2 c2
  | [], a, c => by
    simp only [List.nil_append]
    constructor
    · intro h; exact ⟨[], a, [], c, by simp, by simp, .groupNil, h⟩
    · rintro ⟨a1, a2, c1, c2, h1, h2, h3, h4⟩
      obtain ⟨rfl, rfl⟩ := Match.group_nil_iff.mp h3
      simp at h1 h2
      subst h2
      exact h4.perm h1.symm
  | p :: ps, a, c => by
    rw [List.cons_append, Match.group_cons_iff]
    constructor
    · rintro ⟨a1, a2, c1, c2, h1, rfl, h3, h4⟩
      obtain ⟨b1, b2, d1, d2, k1, rfl, k3, k4⟩ := Match.group_append_iff.mp h4
      refine ⟨a1 ++ b1, b2, c1 ++ d1, d2, ?_, by simp, .groupCons h3 k3 (.refl _), k4⟩
      rw [List.append_assoc]
      exact h1.trans (k1.append_left _)
    · rintro ⟨a1, a2, c1, c2, h1, rfl, h3, h4⟩
      obtain ⟨b1, b2, d1, d2, k1, rfl, k3, k4⟩ := Match.group_cons_iff.mp h3
      refine ⟨b1, b2 ++ a2, d1, d2 ++ c2, ?_, by simp, k3,
        Match.group_append_iff.mpr ⟨b2, a2, d2, c2, .refl _, rfl, k4, h4⟩⟩
      rw [← List.append_assoc]
      exact h1.trans (k1.append_right _)

theorem matchEq_group_one (p : Pattern D V) : MatchEq (.group [p]) p := by
  intro L env a c
  rw [Match.group_cons_iff]
  constructor
  · rintro ⟨a1, a2, c1, c2, h1, rfl, h3, h4⟩
    obtain ⟨rfl, rfl⟩ := Match.group_nil_iff.mp h4
    simp at h1 ⊢
    exact h3.perm h1.symm
  · intro h; exact ⟨a, [], c, [], by simp, by simp, h, .groupNil⟩

theorem matchEq_group_flat (ps qs rs : List (Pattern D V)) :
    MatchEq (.group (ps ++ .group qs :: rs)) (.group (ps ++ qs ++ rs)) := by
  intro L env a c
  rw [List.append_assoc, Match.group_append_iff, Match.group_append_iff]
  have key : ∀ a2 c2, Match L env (.group (.group qs :: rs)) a2 c2 ↔ Match L env (.group (qs ++ rs)) a2 c2 := by
    intro a2 c2
    rw [Match.group_cons_iff, Match.group_append_iff]
  simp only [key]

theorem matchEq_group_empty (ps qs : List (Pattern D V)) : MatchEq (.group (ps ++ .empty :: qs)) (.group (ps ++ qs)) := by
  intro L env a c
  rw [Match.group_append_iff, Match.group_append_iff]
  have key : ∀ a2 c2, Match L env (.group (.empty :: qs)) a2 c2 ↔ Match L env (.group qs) a2 c2 := by
    intro a2 c2
    rw [Match.group_cons_iff]
    constructor
    · rintro ⟨a1, b2, c1, d2, h1, rfl, h3, h4⟩
      cases h3
      simp at h1 ⊢
      exact h4.perm h1.symm
    · intro h; exact ⟨[], a2, [], c2, by simp, by simp, .empty, h⟩
  simp only [key]

theorem matchEq_group_notAllowed (ps qs : List (Pattern D V)) :
    MatchEq (.group (ps ++ .notAllowed :: qs)) .notAllowed := by
  intro L env a c
  refine ⟨fun h => ?_, fun h => absurd h Match.not_notAllowed⟩
  obtain ⟨a1, a2, c1, c2, _, _, _, h4⟩ := Match.group_append_iff.mp h
  obtain ⟨_, _, _, _, _, _, h5, _⟩ := Match.group_cons_iff.mp h4
  exact absurd h5 Match.not_notAllowed

/-! interleave -/

theorem Shuffle.assoc {α : Type} {x y z w u : List α} (h1 : Shuffle x y w) (h2 : Shuffle w z u) :
    ∃ v, Shuffle y z v ∧ Shuffle x v u := by
  induction h2 generalizing x y with
  | nil => cases h1; exact ⟨[], .nil, .nil⟩
  | left _ ih =>
    cases h1 with
    | left h => obtain ⟨v, k1, k2⟩ := ih h; exact ⟨v, k1, .left k2⟩
    | right h => obtain ⟨v, k1, k2⟩ := ih h; exact ⟨_ :: v, .left k1, .right k2⟩
  | right _ ih => obtain ⟨v, k1, k2⟩ := ih h1; exact ⟨_ :: v, .right k1, .right k2⟩

theorem Shuffle.assoc' {α : Type} {x y z v u : List α} (h1 : Shuffle y z v) (h2 : Shuffle x v u) :
    ∃ w, Shuffle x y w ∧ Shuffle w z u := by
  obtain ⟨w, k1, k2⟩ := Shuffle.assoc h1.symm h2.symm
  exact ⟨w, k1.symm, k2.symm⟩

theorem Match.inter_append_iff {qs : List (Pattern D V)} : ∀ {ps : List (Pattern D V)} {a c},
    Match L env (.interleave (ps ++ qs)) a c ↔
    ∃ a1 a2 c1 c2, a.Perm (a1 ++ a2) ∧ Shuffle c1 c2 c ∧ Match L env (.interleave ps) a1 c1 ∧
      Match L env (.interleave qs) a2 c2
  | [], a, c => by
    simp only [List.nil_append]
    constructor
    · intro h; exact ⟨[], a, [], c, by simp, .refl_right _, .interleaveNil, h⟩
    · rintro ⟨a1, a2, c1, c2, h1, h2, h3, h4⟩
      obtain ⟨rfl, rfl⟩ := Match.inter_nil_iff.mp h3
      simp at h1
      rw [h2.nil_left]
      exact h4.perm h1.symm
  | p :: ps, a, c => by
    rw [List.cons_append, Match.inter_cons_iff]
    constructor
    · rintro ⟨a1, a2, c1, c2, h1, hs, h3, h4⟩
      obtain ⟨b1, b2, d1, d2, k1, ks, k3, k4⟩ := Match.inter_append_iff.mp h4
      obtain ⟨w, w1, w2⟩ := Shuffle.assoc' ks hs
      refine ⟨a1 ++ b1, b2, w, d2, ?_, w2, .interleaveCons h3 k3 (.refl _) w1, k4⟩
      rw [List.append_assoc]
      exact h1.trans (k1.append_left _)
    · rintro ⟨a1, a2, c1, c2, h1, hs, h3, h4⟩
      obtain ⟨b1, b2, d1, d2, k1, ks, k3, k4⟩ := Match.inter_cons_iff.mp h3
      obtain ⟨w, w1, w2⟩ := Shuffle.assoc ks hs
      refine ⟨b1, b2 ++ a2, d1, w, ?_, w2, k3,
        Match.inter_append_iff.mpr ⟨b2, a2, d2, c2, .refl _, w1, k4, h4⟩⟩
      rw [← List.append_assoc]
      exact h1.trans (k1.append_right _)

theorem matchEq_inter_one (p : Pattern D V) : MatchEq (.interleave [p]) p := by
  intro L env a c
  rw [Match.inter_cons_iff]
  constructor
  · rintro ⟨a1, a2, c1, c2, h1, hs, h3, h4⟩
    obtain ⟨rfl, rfl⟩ := Match.inter_nil_iff.mp h4
    simp at h1
    rw [hs.nil_right]
    exact h3.perm h1.symm
  · intro h; exact ⟨a, [], c, [], by simp, .refl_left _, h, .interleaveNil⟩

theorem matchEq_inter_flat (ps qs rs : List (Pattern D V)) :
    MatchEq (.interleave (ps ++ .interleave qs :: rs)) (.interleave (ps ++ qs ++ rs)) := by
  intro L env a c
  rw [List.append_assoc, Match.inter_append_iff, Match.inter_append_iff]
  have key : ∀ a2 c2, Match L env (.interleave (.interleave qs :: rs)) a2 c2 ↔ Match L env (.interleave (qs ++ rs)) a2 c2 := by
    intro a2 c2
    rw [Match.inter_cons_iff, Match.inter_append_iff]
  simp only [key]

theorem matchEq_inter_empty (ps qs : List (Pattern D V)) :
    MatchEq (.interleave (ps ++ .empty :: qs)) (.interleave (ps ++ qs)) := by
  intro L env a c
  rw [Match.inter_append_iff, Match.inter_append_iff]
  have key : ∀ a2 c2, Match L env (.interleave (.empty :: qs)) a2 c2 ↔ Match L env (.interleave qs) a2 c2 := by
    intro a2 c2
    rw [Match.inter_cons_iff]
    constructor
    · rintro ⟨a1, b2, c1, d2, h1, hs, h3, h4⟩
      cases h3
      simp at h1
      rw [hs.nil_left]
      exact h4.perm h1.symm
    · intro h; exact ⟨[], a2, [], c2, by simp, .refl_right _, .empty, h⟩
  simp only [key]

theorem matchEq_inter_notAllowed (ps qs : List (Pattern D V)) :
    MatchEq (.interleave (ps ++ .notAllowed :: qs)) .notAllowed := by
  intro L env a c
  refine ⟨fun h => ?_, fun h => absurd h Match.not_notAllowed⟩
  obtain ⟨a1, a2, c1, c2, _, _, _, h4⟩ := Match.inter_append_iff.mp h
  obtain ⟨_, _, _, _, _, _, h5, _⟩ := Match.inter_cons_iff.mp h4
  exact absurd h5 Match.not_notAllowed

theorem matchEq_inter_perm {ps qs : List (Pattern D V)} (h : ps.Perm qs) : MatchEq (.interleave ps) (.interleave qs) := by
  induction h with
  | nil => exact .refl _
  | cons x _ ih =>
    intro L env a c
    rw [Match.inter_cons_iff, Match.inter_cons_iff]
    simp only [ih L env]
  | swap x y l =>
    have key : ∀ (x y : Pattern D V) L env a c, Match L env (.interleave (y :: x :: l)) a c →
        Match L env (.interleave (x :: y :: l)) a c := by
      intro x y L env a c h
      obtain ⟨a1, a2, c1, c2, h1, hs, h3, h4⟩ := Match.inter_cons_iff.mp h
      obtain ⟨b1, b2, d1, d2, k1, ks, k3, k4⟩ := Match.inter_cons_iff.mp h4
      obtain ⟨w, w1, w2⟩ := Shuffle.assoc' ks hs
      obtain ⟨u, u1, u2⟩ := Shuffle.assoc w1.symm w2
      refine .interleaveCons k3 (.interleaveCons h3 k4 (.refl _) u1) ?_ u2
      refine h1.trans ((k1.append_left _).trans ?_)
      rw [← List.append_assoc, ← List.append_assoc]
      exact (List.perm_append_comm).append_right _
    exact fun L env a c => ⟨key x y L env a c, key y x L env a c⟩
  | trans _ _ h1 h2 => exact h1.trans h2

/-! repetition, optionality, mixed -/

theorem matchEq_optional (p : Pattern D V) : MatchEq (.optional p) (.choice [p, .empty]) := by
  intro L env a c
  rw [Match.choice_iff]
  constructor
  · intro h
    cases h with
    | optionalNone => exact ⟨.empty, by simp, .empty⟩
    | optionalSome h => exact ⟨p, by simp, h⟩
  · rintro ⟨q, hq, h⟩
    simp at hq
    rcases hq with rfl | rfl
    · exact .optionalSome h
    · cases h; exact .optionalNone

theorem matchEq_zeroOrMore (p : Pattern D V) : MatchEq (.zeroOrMore p) (.choice [.oneOrMore p, .empty]) := by
  intro L env a c
  rw [Match.choice_iff]
  constructor
  · intro h
    cases h with
    | zeroOrMoreNil => exact ⟨.empty, by simp, .empty⟩
    | zeroOrMoreCons h1 h2 h3 => exact ⟨.oneOrMore p, by simp, .oneOrMore h1 h2 h3⟩
  · rintro ⟨q, hq, h⟩
    simp at hq
    rcases hq with rfl | rfl
    · exact h.oneToZero
    · cases h; exact .zeroOrMoreNil

theorem matchEq_oneOrMore (p : Pattern D V) : MatchEq (.oneOrMore p) (.group [p, .zeroOrMore p]) := by
  intro L env a c
  constructor
  · intro h
    cases h with
    | oneOrMore h1 h2 h3 => exact .groupCons h1 ((matchEq_group_one _ L env _ _).mpr h2) h3
  · intro h
    cases h with
    | groupCons h1 h2 h3 => exact .oneOrMore h1 ((matchEq_group_one _ L env _ _).mp h2) h3

theorem matchEq_mixed (p : Pattern D V) : MatchEq (.mixed p) (.interleave [p, .text]) := by
  intro L env a c
  constructor
  · intro h
    cases h with
    | mixed h1 h2 h3 =>
      exact .interleaveCons h1 ((matchEq_inter_one _ L env _ _).mpr (.text h2)) (by simp) h3
  · intro h
    cases h with
    | interleaveCons h1 h2 h3 h4 =>
      have := (matchEq_inter_one _ L env _ _).mp h2
      cases this with
      | text ht =>
        simp at h3
        exact .mixed (h1.perm h3.symm) ht h4

/-! ### congruence -/

theorem MatchEq.choice {ps qs : List (Pattern D V)} (h : MatchEqL ps qs) : MatchEq (.choice ps) (.choice qs) := by
  intro L env a c
  rw [Match.choice_iff, Match.choice_iff]
  induction h with
  | nil => simp
  | cons h _ ih => simp only [List.mem_cons, exists_eq_or_imp, h L env a c, ih]

theorem MatchEq.group {ps qs : List (Pattern D V)} (h : MatchEqL ps qs) : MatchEq (.group ps) (.group qs) := by
  induction h with
  | nil => exact .refl _
  | cons h _ ih =>
    intro L env a c
    rw [Match.group_cons_iff, Match.group_cons_iff]
    simp only [h L env, ih L env]

theorem MatchEq.interleave {ps qs : List (Pattern D V)} (h : MatchEqL ps qs) :
    MatchEq (.interleave ps) (.interleave qs) := by
  induction h with
  | nil => exact .refl _
  | cons h _ ih =>
    intro L env a c
    rw [Match.inter_cons_iff, Match.inter_cons_iff]
    simp only [h L env, ih L env]

theorem MatchEq.mixed {p q : Pattern D V} (h : MatchEq p q) : MatchEq (.mixed p) (.mixed q) :=
  (matchEq_mixed p).trans ((MatchEq.interleave (.cons h (.cons (.refl _) .nil))).trans (matchEq_mixed q).symm)

theorem MatchEq.optional {p q : Pattern D V} (h : MatchEq p q) : MatchEq (.optional p) (.optional q) :=
  (matchEq_optional p).trans ((MatchEq.choice (.cons h (.cons (.refl _) .nil))).trans (matchEq_optional q).symm)

theorem zeroOrMore_mono {p q : Pattern D V} (h : ∀ a c, Match L env p a c → Match L env q a c) {a c}
    (hm : Match L env (.zeroOrMore p) a c) : Match L env (.zeroOrMore q) a c := by
  generalize hp : Pattern.zeroOrMore p = r at hm
  induction hm with
  | zeroOrMoreNil => exact .zeroOrMoreNil
  | zeroOrMoreCons h1 _ h3 _ ih => cases hp; exact .zeroOrMoreCons (h _ _ h1) (ih rfl) h3
  | _ => cases hp

theorem MatchEq.zeroOrMore {p q : Pattern D V} (h : MatchEq p q) : MatchEq (.zeroOrMore p) (.zeroOrMore q) :=
  fun L env _ _ => ⟨zeroOrMore_mono fun a c => (h L env a c).mp, zeroOrMore_mono fun a c => (h L env a c).mpr⟩

theorem MatchEq.oneOrMore {p q : Pattern D V} (h : MatchEq p q) : MatchEq (.oneOrMore p) (.oneOrMore q) :=
  (matchEq_oneOrMore p).trans ((MatchEq.group (.cons h (.cons h.zeroOrMore .nil))).trans (matchEq_oneOrMore q).symm)

theorem MatchEq.attr {nc : NameClass} {p q : Pattern D V} (h : MatchEq p q) : MatchEq (.attr nc p) (.attr nc q) := by
  intro L env a c
  constructor
  · intro hm; cases hm with | attr h1 h2 h3 => exact .attr h1 h2 ((h _ _ _ _).mp h3)
  · intro hm; cases hm with | attr h1 h2 h3 => exact .attr h1 h2 ((h _ _ _ _).mpr h3)

theorem MatchEq.element {nc : NameClass} {p q : Pattern D V} (h : MatchEq p q) : MatchEq (.element nc p) (.element nc q) := by
  intro L env a c
  constructor
  · intro hm; cases hm with | element h1 h2 h3 => exact .element h1 h2 ((h _ _ _ _).mp h3)
  · intro hm; cases hm with | element h1 h2 h3 => exact .element h1 h2 ((h _ _ _ _).mpr h3)

theorem MatchEq.list {p q : Pattern D V} (h : MatchEq p q) : MatchEq (.list p) (.list q) := by
  intro L env a c
  constructor
  · intro hm; cases hm with | list h1 h2 => exact .list h1 ((h _ _ _ _).mp h2)
  · intro hm; cases hm with | list h1 h2 => exact .list h1 ((h _ _ _ _).mpr h2)

/-! ### replacing definitions -/

theorem plainExL_mem {ps : List (Pattern D V)} (h : plainExL ps = true) : ∀ p ∈ ps, p.plainEx = true := by
  induction ps with
  | nil => simp
  | cons q ps ih =>
    simp only [plainExL, Bool.and_eq_true] at h
    intro p hp
    rcases List.mem_cons.mp hp with rfl | hp
    · exact h.1
    · exact ih h.2 p hp

theorem ExMatch.closed {env env' : Env D V} {p : Pattern D V} {s b} (h : ExMatch L env p s b) : p.refs = [] →
    ExMatch L env' p s b := by
  induction h with
  | value h => intro _; exact .value h
  | data h => intro _; exact .data h
  | dataExcept h _ ih => intro hr; exact .dataExcept h (ih hr)
  | notAllowed => intro _; exact .notAllowed
  | choiceNil => intro _; exact .choiceNil
  | choiceCons _ _ ih1 ih2 =>
    intro hr
    simp only [Pattern.refs, refsL, List.append_eq_nil_iff] at hr
    exact .choiceCons (ih1 hr.1) (ih2 hr.2)
  | ref _ _ _ => intro hr; cases hr

theorem ExMatch.envEq {env env' : Env D V} (he : ∀ (n : Nat) p, env[n]? = some p → ∃ q, env'[n]? = some q ∧ ExEq p q)
    {p : Pattern D V} {s b} (h : ExMatch L env p s b) : ExMatch L env' p s b := by
  induction h with
  | value h => exact .value h
  | data h => exact .data h
  | dataExcept h _ ih => exact .dataExcept h ih
  | notAllowed => exact .notAllowed
  | choiceNil => exact .choiceNil
  | choiceCons _ _ ih1 ih2 => exact .choiceCons ih1 ih2
  | ref h1 _ ih =>
    obtain ⟨q, h2, h3⟩ := he _ _ h1
    exact .ref h2 ((h3 _ _ _ _).mp ih)

theorem Match.envEq {env env' : Env D V} (he : ∀ (n : Nat) p, env[n]? = some p → ∃ q, env'[n]? = some q ∧ MatchEq p q)
    (hx : (∀ (n : Nat) p q, env[n]? = some p → env'[n]? = some q → ExEq p q) ∨ (∀ p ∈ env, p.plainEx = true))
    {p : Pattern D V} {a c} (h : Match L env p a c) :
    (∀ (n : Nat) p q, env[n]? = some p → env'[n]? = some q → ExEq p q) ∨ p.plainEx = true → Match L env' p a c := by
  have hex : ∀ e s b, ExMatch L env e s b → (∀ (n : Nat) p q, env[n]? = some p → env'[n]? = some q → ExEq p q) ∨ e.refs.isEmpty = true →
      ExMatch L env' e s b := by
    intro e s b h hor
    rcases hor with hor | hor
    · refine h.envEq fun n p hp => ?_
      obtain ⟨q, hq, _⟩ := he n p hp
      exact ⟨q, hq, hor n p q hp hq⟩
    · exact h.closed (by simpa using hor)
  induction h with
  | empty => intro _; exact .empty
  | text h => intro _; exact .text h
  | choice h _ ih => intro hp; exact .choice h (ih (hp.imp_right fun hp => plainExL_mem hp _ h))
  | groupNil => intro _; exact .groupNil
  | groupCons _ _ hp ih1 ih2 =>
    intro hq
    simp only [Pattern.plainEx, plainExL, Bool.and_eq_true] at hq
    exact .groupCons (ih1 (hq.imp_right And.left)) (ih2 (hq.imp_right And.right)) hp
  | interleaveNil => intro _; exact .interleaveNil
  | interleaveCons _ _ hp hs ih1 ih2 =>
    intro hq
    simp only [Pattern.plainEx, plainExL, Bool.and_eq_true] at hq
    exact .interleaveCons (ih1 (hq.imp_right And.left)) (ih2 (hq.imp_right And.right)) hp hs
  | mixed _ h1 h2 ih => intro hq; exact .mixed (ih hq) h1 h2
  | optionalNone => intro _; exact .optionalNone
  | optionalSome _ ih => intro hq; exact .optionalSome (ih hq)
  | zeroOrMoreNil => intro _; exact .zeroOrMoreNil
  | zeroOrMoreCons _ _ hp ih1 ih2 => intro hq; exact .zeroOrMoreCons (ih1 hq) (ih2 hq) hp
  | oneOrMore _ _ hp ih1 ih2 => intro hq; exact .oneOrMore (ih1 hq) (ih2 hq) hp
  | attr h1 h2 _ ih => intro hq; exact .attr h1 h2 (ih hq)
  | element h1 h2 _ ih => intro hq; exact .element h1 h2 (ih hq)
  | ref h1 _ ih =>
    intro _
    obtain ⟨q, h2, h3⟩ := he _ _ h1
    exact .ref h2 ((h3 _ _ _ _).mp (ih (hx.imp_right fun hx => hx _ (List.mem_of_getElem? h1))))
  | value h => intro _; exact .value h
  | data h => intro _; exact .data h
  | dataExcept h1 h2 => intro hq; exact .dataExcept h1 (hex _ _ _ h2 hq)
  | list h1 _ ih => intro hq; exact .list h1 (ih hq)

theorem EnvEq.other {env env' : Env D V} (h : EnvEq env env') {n : Nat} {p} (hp : env[n]? = some p) :
    ∃ q, env'[n]? = some q ∧ MatchEq p q := by
  have hn := (List.getElem?_eq_some_iff.mp hp).1
  have : env'[n]? = some (env'[n]'(h.1 ▸ hn)) := List.getElem?_eq_getElem _
  exact ⟨_, this, h.2 n p _ hp this⟩

theorem EnvEq.symm {env env' : Env D V} (h : EnvEq env env') : EnvEq env' env :=
  ⟨h.1.symm, fun n p q h1 h2 => (h.2 n q p h2 h1).symm⟩

/-! ### unfolding references -/

mutual
theorem Unfolds.refl (env : Env D V) : ∀ p : Pattern D V, Unfolds env p p
  | .choice ps => .choice (UnfoldsL.refl env ps)
  | .group ps => .group (UnfoldsL.refl env ps)
  | .interleave ps => .interleave (UnfoldsL.refl env ps)
  | .mixed p => .mixed (Unfolds.refl env p)
  | .optional p => .optional (Unfolds.refl env p)
  | .zeroOrMore p => .zeroOrMore (Unfolds.refl env p)
  | .oneOrMore p => .oneOrMore (Unfolds.refl env p)
  | .attr _ p => .attr (Unfolds.refl env p)
  | .element _ p => .element (Unfolds.refl env p)
  | .list p => .list (Unfolds.refl env p)
  | .datatypeNameExcept _ e => .dataExcept (Unfolds.refl env e)
  | .ref _ => .ref
  | .empty => .empty
  | .text => .text
  | .notAllowed => .notAllowed
  | .datatypeValue _ => .value
  | .datatypeName _ => .data
theorem UnfoldsL.refl (env : Env D V) : ∀ ps : List (Pattern D V), UnfoldsL env ps ps
  | [] => .nil
  | p :: ps => .cons (Unfolds.refl env p) (UnfoldsL.refl env ps)
end

theorem UnfoldsL.mem {env : Env D V} {ps qs : List (Pattern D V)} (h : UnfoldsL env ps qs) {p} (hp : p ∈ ps) :
    ∃ q ∈ qs, Unfolds env p q := by
  induction ps generalizing qs with
  | nil => cases hp
  | cons x ps ih =>
    cases h with
    | cons h1 h2 =>
      rcases List.mem_cons.mp hp with rfl | hp
      · exact ⟨_, List.mem_cons_self, h1⟩
      · obtain ⟨q, hq, h⟩ := ih h2 hp; exact ⟨q, by simp [hq], h⟩

theorem UnfoldsL.mem' {env : Env D V} {ps qs : List (Pattern D V)} (h : UnfoldsL env ps qs) {q} (hq : q ∈ qs) :
    ∃ p ∈ ps, Unfolds env p q := by
  induction qs generalizing ps with
  | nil => cases hq
  | cons x qs ih =>
    cases h with
    | cons h1 h2 =>
      rcases List.mem_cons.mp hq with rfl | hq
      · exact ⟨_, List.mem_cons_self, h1⟩
      · obtain ⟨p, hp, h⟩ := ih h2 hq; exact ⟨p, by simp [hp], h⟩

theorem UnfoldsL.get {env : Env D V} {ps qs : List (Pattern D V)} (h : UnfoldsL env ps qs) : ∀ {n : Nat} {p}, ps[n]? = some p →
    ∃ q, qs[n]? = some q ∧ Unfolds env p q := by
  induction ps generalizing qs with
  | nil => intro n p hp; simp at hp
  | cons x ps ih =>
    cases h with
    | cons h1 h2 =>
      intro n p hp
      cases n with
      | zero => simp at hp; subst hp; exact ⟨_, by simp, h1⟩
      | succ n => simp at hp ⊢; exact ih h2 hp

theorem UnfoldsL.get' {env : Env D V} {ps qs : List (Pattern D V)} (h : UnfoldsL env ps qs) : ∀ {n : Nat} {q}, qs[n]? = some q →
    ∃ p, ps[n]? = some p ∧ Unfolds env p q := by
  induction qs generalizing ps with
  | nil => intro n p hp; simp at hp
  | cons x qs ih =>
    cases h with
    | cons h1 h2 =>
      intro n p hp
      cases n with
      | zero => simp at hp; subst hp; exact ⟨_, by simp, h1⟩
      | succ n => simp at hp ⊢; exact ih h2 hp

theorem ExMatch.unfolds {env env' : Env D V} (he : UnfoldsEnv env env') {p : Pattern D V} {s b} (h : ExMatch L env p s b) :
    ∀ {q}, Unfolds env p q → ExMatch L env' q s b := by
  induction h with
  | value h => intro q hq; cases hq; exact .value h
  | data h => intro q hq; cases hq; exact .data h
  | dataExcept h _ ih => intro q hq; cases hq with | dataExcept hq => exact .dataExcept h (ih hq)
  | notAllowed => intro q hq; cases hq; exact .notAllowed
  | choiceNil => intro q hq; cases hq with | choice hq => cases hq; exact .choiceNil
  | choiceCons _ _ ih1 ih2 =>
    intro q hq
    cases hq with
    | choice hq =>
      cases hq with
      | cons h1 h2 => exact .choiceCons (ih1 h1) (ih2 (.choice h2))
  | ref h1 h2 ih =>
    intro q hq
    cases hq with
    | unfold h => rw [h1] at h; cases h; exact ih (.refl _ _)
    | ref => obtain ⟨q', g1, g2⟩ := UnfoldsL.get he h1; exact .ref g1 (ih g2)

theorem Match.unfolds {env env' : Env D V} (he : UnfoldsEnv env env') {p : Pattern D V} {a c} (h : Match L env p a c) :
    ∀ {q}, Unfolds env p q → Match L env' q a c := by
  induction h with
  | empty => intro q hq; cases hq; exact .empty
  | text h => intro q hq; cases hq; exact .text h
  | choice h _ ih =>
    intro q hq
    cases hq with
    | choice hq => obtain ⟨q', h1, h2⟩ := hq.mem h; exact .choice h1 (ih h2)
  | groupNil => intro q hq; cases hq with | group hq => cases hq; exact .groupNil
  | groupCons _ _ hp ih1 ih2 =>
    intro q hq
    cases hq with
    | group hq => cases hq with | cons h1 h2 => exact .groupCons (ih1 h1) (ih2 (.group h2)) hp
  | interleaveNil => intro q hq; cases hq with | interleave hq => cases hq; exact .interleaveNil
  | interleaveCons _ _ hp hs ih1 ih2 =>
    intro q hq
    cases hq with
    | interleave hq => cases hq with | cons h1 h2 => exact .interleaveCons (ih1 h1) (ih2 (.interleave h2)) hp hs
  | mixed _ h1 h2 ih => intro q hq; cases hq with | mixed hq => exact .mixed (ih hq) h1 h2
  | optionalNone => intro q hq; cases hq; exact .optionalNone
  | optionalSome _ ih => intro q hq; cases hq with | optional hq => exact .optionalSome (ih hq)
  | zeroOrMoreNil => intro q hq; cases hq; exact .zeroOrMoreNil
  | zeroOrMoreCons _ _ hp ih1 ih2 =>
    intro q hq
    cases hq with | zeroOrMore hq => exact .zeroOrMoreCons (ih1 hq) (ih2 (.zeroOrMore hq)) hp
  | oneOrMore _ _ hp ih1 ih2 =>
    intro q hq
    cases hq with | oneOrMore hq => exact .oneOrMore (ih1 hq) (ih2 (.zeroOrMore hq)) hp
  | attr h1 h2 _ ih => intro q hq; cases hq with | attr hq => exact .attr h1 h2 (ih hq)
  | element h1 h2 _ ih => intro q hq; cases hq with | element hq => exact .element h1 h2 (ih hq)
  | ref h1 _ ih =>
    intro q hq
    cases hq with
    | unfold h => rw [h1] at h; cases h; exact ih (.refl _ _)
    | ref => obtain ⟨q', g1, g2⟩ := UnfoldsL.get he h1; exact .ref g1 (ih g2)
  | value h => intro q hq; cases hq; exact .value h
  | data h => intro q hq; cases hq; exact .data h
  | dataExcept h1 h2 => intro q hq; cases hq with | dataExcept hq => exact .dataExcept h1 (h2.unfolds he hq)
  | list h1 _ ih => intro q hq; cases hq with | list hq => exact .list h1 (ih hq)

theorem ExMatch.folds {env env' : Env D V} (he : UnfoldsEnv env env') {q : Pattern D V} {s b} (h : ExMatch L env' q s b) :
    ∀ {p}, Unfolds env p q → ExMatch L env p s b := by
  induction h with
  | value h => intro p hp; cases hp with | unfold hn => exact .ref hn (.value h) | value => exact .value h
  | data h => intro p hp; cases hp with | unfold hn => exact .ref hn (.data h) | data => exact .data h
  | dataExcept h _ ih =>
    intro p hp
    cases hp with
    | unfold hn => exact .ref hn (.dataExcept h (ih (.refl _ _)))
    | dataExcept hp => exact .dataExcept h (ih hp)
  | notAllowed => intro p hp; cases hp with | unfold hn => exact .ref hn .notAllowed | notAllowed => exact .notAllowed
  | choiceNil =>
    intro p hp
    cases hp with
    | unfold hn => exact .ref hn .choiceNil
    | choice hp => cases hp; exact .choiceNil
  | choiceCons _ _ ih1 ih2 =>
    intro p hp
    cases hp with
    | unfold hn =>
      exact .ref hn (.choiceCons (ih1 (.refl _ _)) (ih2 (.refl _ _)))
    | choice hp =>
      cases hp with
      | cons h1 h2 =>
        exact .choiceCons (ih1 h1) (ih2 (.choice h2))
  | ref h1 _ ih =>
    intro p hp
    obtain ⟨q', g1, g2⟩ := UnfoldsL.get' he h1
    have : ExMatch L env (.ref _) _ _ := .ref g1 (ih g2)
    cases hp with
    | unfold hn => exact .ref hn this
    | ref => exact this

theorem Match.folds {env env' : Env D V} (he : UnfoldsEnv env env') {q : Pattern D V} {a c} (h : Match L env' q a c) :
    ∀ {p}, Unfolds env p q → Match L env p a c := by
  -- it is enough to treat patterns that are not unfolded at the top
  suffices key : ∀ {q : Pattern D V} {a c}, Match L env' q a c →
      (∀ p, Unfolds env p q → (∀ n : Nat, p = .ref n → q = .ref n) → Match L env p a c) by
    intro p hp
    cases hp with
    | unfold hn =>
      refine .ref hn (key h _ (.refl _ _) fun n hn' => hn')
    | ref => exact key h _ .ref fun n hn => hn
    | empty => exact key h _ .empty nofun
    | text => exact key h _ .text nofun
    | notAllowed => exact key h _ .notAllowed nofun
    | value => exact key h _ .value nofun
    | data => exact key h _ .data nofun
    | dataExcept hp => exact key h _ (.dataExcept hp) nofun
    | choice hp => exact key h _ (.choice hp) nofun
    | group hp => exact key h _ (.group hp) nofun
    | interleave hp => exact key h _ (.interleave hp) nofun
    | mixed hp => exact key h _ (.mixed hp) nofun
    | optional hp => exact key h _ (.optional hp) nofun
    | zeroOrMore hp => exact key h _ (.zeroOrMore hp) nofun
    | oneOrMore hp => exact key h _ (.oneOrMore hp) nofun
    | attr hp => exact key h _ (.attr hp) nofun
    | element hp => exact key h _ (.element hp) nofun
    | list hp => exact key h _ (.list hp) nofun
  intro q a c h
  have up : ∀ {q : Pattern D V} {a c}, (∀ p, Unfolds env p q → (∀ n : Nat, p = .ref n → q = .ref n) → Match L env p a c) →
      ∀ p, Unfolds env p q → Match L env p a c := by
    intro q a c hk p hp
    by_cases hr : ∀ n : Nat, p = .ref n → q = .ref n
    · exact hk p hp hr
    · have : ∃ n : Nat, p = .ref n := by
        apply Classical.byContradiction
        intro hn
        exact hr fun n hp => absurd ⟨n, hp⟩ hn
      obtain ⟨n, rfl⟩ := this
      cases hp with
      | unfold hn => exact .ref hn (hk _ (.refl _ _) fun n h => h)
      | ref => exact absurd (fun m hm => hm) hr
  induction h with
  | empty => intro p hp hr; cases hp with | unfold hn => cases hr _ rfl | empty => exact .empty
  | text h => intro p hp hr; cases hp with | unfold hn => cases hr _ rfl | text => exact .text h
  | choice h _ ih =>
    intro p hp hr
    cases hp with
    | unfold hn => cases hr _ rfl
    | choice hp => obtain ⟨q', h1, h2⟩ := hp.mem' h; exact .choice h1 (up ih _ h2)
  | groupNil => intro p hp hr; cases hp with
    | unfold hn => cases hr _ rfl
    | group hp => cases hp; exact .groupNil
  | groupCons _ _ hq ih1 ih2 =>
    intro p hp hr
    cases hp with
    | unfold hn => cases hr _ rfl
    | group hp => cases hp with | cons h1 h2 => exact .groupCons (up ih1 _ h1) (up ih2 _ (.group h2)) hq
  | interleaveNil => intro p hp hr; cases hp with
    | unfold hn => cases hr _ rfl
    | interleave hp => cases hp; exact .interleaveNil
  | interleaveCons _ _ hq hs ih1 ih2 =>
    intro p hp hr
    cases hp with
    | unfold hn => cases hr _ rfl
    | interleave hp =>
      cases hp with | cons h1 h2 => exact .interleaveCons (up ih1 _ h1) (up ih2 _ (.interleave h2)) hq hs
  | mixed _ h1 h2 ih => intro p hp hr; cases hp with
    | unfold hn => cases hr _ rfl
    | mixed hp => exact .mixed (up ih _ hp) h1 h2
  | optionalNone => intro p hp hr; cases hp with
    | unfold hn => cases hr _ rfl
    | optional hp => exact .optionalNone
  | optionalSome _ ih => intro p hp hr; cases hp with
    | unfold hn => cases hr _ rfl
    | optional hp => exact .optionalSome (up ih _ hp)
  | zeroOrMoreNil => intro p hp hr; cases hp with
    | unfold hn => cases hr _ rfl
    | zeroOrMore hp => exact .zeroOrMoreNil
  | zeroOrMoreCons _ _ hq ih1 ih2 => intro p hp hr; cases hp with
    | unfold hn => cases hr _ rfl
    | zeroOrMore hp => exact .zeroOrMoreCons (up ih1 _ hp) (up ih2 _ (.zeroOrMore hp)) hq
  | oneOrMore _ _ hq ih1 ih2 => intro p hp hr; cases hp with
    | unfold hn => cases hr _ rfl
    | oneOrMore hp => exact .oneOrMore (up ih1 _ hp) (up ih2 _ (.zeroOrMore hp)) hq
  | attr h1 h2 _ ih => intro p hp hr; cases hp with
    | unfold hn => cases hr _ rfl
    | attr hp => exact .attr h1 h2 (up ih _ hp)
  | element h1 h2 _ ih => intro p hp hr; cases hp with
    | unfold hn => cases hr _ rfl
    | element hp => exact .element h1 h2 (up ih _ hp)
  | ref h1 _ ih =>
    intro p hp hr
    obtain ⟨q', g1, g2⟩ := UnfoldsL.get' he h1
    have : Match L env (.ref _) _ _ := .ref g1 (up ih _ g2)
    cases hp with
    | unfold hn => cases hr _ rfl; exact this
    | ref => exact this
  | value h => intro p hp hr; cases hp with | unfold hn => cases hr _ rfl | value => exact .value h
  | data h => intro p hp hr; cases hp with | unfold hn => cases hr _ rfl | data => exact .data h
  | dataExcept h1 h2 => intro p hp hr; cases hp with
    | unfold hn => cases hr _ rfl
    | dataExcept hp => exact .dataExcept h1 (h2.folds he hp)
  | list h1 _ ih => intro p hp hr; cases hp with
    | unfold hn => cases hr _ rfl
    | list hp => exact .list h1 (up ih _ hp)

end Verif
