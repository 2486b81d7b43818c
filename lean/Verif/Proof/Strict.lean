import Verif.Proof.SpecLink
/-
Strict typing of compiled schemas (for completeness), and the typing context of a validation run.
-/
set_option linter.unusedSectionVars false
namespace Verif
variable {D V : Type} {env : Env D V} {w : World D V} {L : Lib D V}

/-! ### attributes can be split off repetitions -/

theorem Match.attrFree {p : Pattern D V} {a c} (h : Match L env p a c) : AttrFree env p → a = [] := by
  induction h with
  | empty => intro _; rfl
  | text => intro _; rfl
  | choice hm _ ih => intro hf; cases hf with | choice hf => exact ih (hf _ hm)
  | groupNil => intro _; rfl
  | groupCons _ _ hp ih1 ih2 =>
    intro hf
    cases hf with
    | group hf =>
      rw [ih1 (hf _ (by simp)), ih2 (.group fun q hq => hf q (by simp [hq]))] at hp
      exact hp.eq_nil
  | interleaveNil => intro _; rfl
  | interleaveCons _ _ hp _ ih1 ih2 =>
    intro hf
    cases hf with
    | interleave hf =>
      rw [ih1 (hf _ (by simp)), ih2 (.interleave fun q hq => hf q (by simp [hq]))] at hp
      exact hp.eq_nil
  | mixed _ _ _ ih => intro hf; cases hf with | mixed hf => exact ih hf
  | optionalNone => intro _; rfl
  | optionalSome _ ih => intro hf; cases hf with | optional hf => exact ih hf
  | zeroOrMoreNil => intro _; rfl
  | zeroOrMoreCons _ _ hp ih1 ih2 =>
    intro hf
    have := ih2 hf
    cases hf with
    | zeroOrMore hf => rw [ih1 hf, this] at hp; exact hp.eq_nil
  | oneOrMore _ _ hp ih1 ih2 =>
    intro hf
    cases hf with
    | oneOrMore hf => rw [ih1 hf, ih2 (.zeroOrMore hf)] at hp; exact hp.eq_nil
  | attr => intro hf; cases hf
  | element => intro _; rfl
  | ref h1 _ ih => intro hf; cases hf with | ref g1 hf => rw [h1] at g1; cases g1; exact ih hf
  | value => intro _; rfl
  | data => intro _; rfl
  | dataExcept => intro _; rfl
  | list => intro _; rfl

variable {pm : Bool}

/-- one attribute can be split off a match of `p` -/
def MSplit (L : Lib D V) (env : Env D V) (pm : Bool) (p : Pattern D V) : Prop :=
  ∀ x a c, MatchP L env pm p (x :: a) c →
    MatchP L env pm p [x] [] ∧ (MatchP L env pm p a c ∨ (a = [] ∧ c = []))

theorem zeroOrMore_split {p : Pattern D V} (ih : MSplit L env pm p) {q a0 c}
    (h : MatchP L env pm q a0 c) : ∀ {x a}, q = .zeroOrMore p → a0.Perm (x :: a) →
      MatchP L env pm (.zeroOrMore p) [x] [] ∧ MatchP L env pm (.zeroOrMore p) a c := by
  induction h with
  | zeroOrMoreNil => intro x a _ hp; exact absurd hp.nil_eq (by simp)
  | @zeroOrMoreCons p a0 a1 a2 c1 c2 h1 h2 hp _ ih2 =>
    intro x a he hq
    cases he
    have hp' : (x :: a).Perm (a1 ++ a2) := hq.symm.trans hp
    rcases perm_cons_split hp' with ⟨a', h3, h4⟩ | ⟨a', h3, h4⟩
    · obtain ⟨m1, m2⟩ := ih x a' c1 (h1.perm h3)
      have z1 : MatchP L env pm (.zeroOrMore p) [x] ([] ++ []) := .zeroOrMoreCons m1 .zeroOrMoreNil (by simp)
      refine ⟨z1, ?_⟩
      rcases m2 with m2 | ⟨rfl, rfl⟩
      · exact .zeroOrMoreCons m2 h2 h4
      · exact h2.perm (by simpa using h4.symm)
    · obtain ⟨z1, z2⟩ := ih2 rfl h3
      exact ⟨z1, .zeroOrMoreCons h1 z2 h4⟩
  | _ => intro x a he; cases he

theorem RepeatOK.split {p : Pattern D V} (h : RepeatOK env p) : MSplit L env pm p := by
  induction h with
  | free hf => intro x a c h; exact absurd (h.toMatch.attrFree hf) (by simp)
  | attr => intro x a c h; cases h with | attr h1 h2 h3 => exact ⟨.attr h1 h2 h3, Or.inr ⟨rfl, rfl⟩⟩
  | choice _ ih =>
    intro x a c h
    cases h with
    | choice hm h =>
      obtain ⟨m1, m2⟩ := ih _ hm _ _ _ h
      exact ⟨.choice hm m1, m2.imp_left (.choice hm)⟩
  | optional _ ih =>
    intro x a c h
    cases h with
    | optionalSome h =>
      obtain ⟨m1, m2⟩ := ih _ _ _ h
      exact ⟨.optionalSome m1, m2.imp_left .optionalSome⟩
  | zeroOrMore _ ih =>
    intro x a c h
    obtain ⟨z1, z2⟩ := zeroOrMore_split ih h rfl (.refl _)
    exact ⟨z1, Or.inl z2⟩
  | oneOrMore _ ih =>
    intro x a c h
    obtain ⟨z1, z2⟩ := zeroOrMore_split ih h.oneToZero rfl (.refl _)
    constructor
    · generalize h0 : ([] : List Node) = c0 at z1
      cases z1 with
      | zeroOrMoreCons n1 n2 n3 => exact .oneOrMore n1 n2 n3
    · cases z2 with
      | zeroOrMoreNil => exact Or.inr ⟨rfl, rfl⟩
      | zeroOrMoreCons n1 n2 n3 => exact Or.inl (.oneOrMore n1 n2 n3)
  | ref h1 _ ih =>
    intro x a c h
    cases h with
    | ref g1 h =>
      rw [h1] at g1; cases g1
      obtain ⟨m1, m2⟩ := ih _ _ _ h
      exact ⟨.ref h1 m1, m2.imp_left (.ref h1)⟩

/-! ### flags -/

theorem mem_crefsL {n : Nat} : ∀ {ps : List (Pattern D V)}, n ∈ crefsL ps → ∃ p ∈ ps, n ∈ crefs p
  | [], h => by simp [crefsL] at h
  | p :: ps, h => by
    simp only [crefsL, List.mem_append] at h
    rcases h with h | h
    · exact ⟨p, by simp, h⟩
    · obtain ⟨q, hq, h⟩ := mem_crefsL h
      exact ⟨q, by simp [hq], h⟩

theorem WF.cref {Q : Pattern D V → Prop} {c s l p n} (h : WF L env Q c s l p) :
    n ∈ crefs p → WF L env Q c s l (.ref n) := by
  induction h with
  | choice _ _ ih => intro h; obtain ⟨q, hq, h⟩ := mem_crefsL h; exact ih q hq h
  | group _ _ ih => intro h; obtain ⟨q, hq, h⟩ := mem_crefsL h; exact ih q hq h
  | interleave _ _ _ ih => intro h; obtain ⟨q, hq, h⟩ := mem_crefsL h; exact ih q hq h
  | mixed _ _ ih => exact ih
  | optional _ ih => exact ih
  | ref h1 h2 h3 _ => intro h; simp [crefs] at h; subst h; exact .ref h1 h2 h3
  | _ => intro h; simp [crefs] at h

/-- how exact the flags of a compiled schema are -/
def strictMode : Bool → Mode
  | true => .strict
  | false => .loose

section
variable {Q : Pattern D V → Prop} (hall : AllRef env w)
  (hQ : ∀ p, Q p → WF L env Q true false true p)
include hall hQ

theorem flag_strict {s l p i b} (hw : WF L env Q true s l p) (hf : FlagWas env w p i b) :
    FlagOK w (strictMode s) i b := by
  rcases hf with ⟨P, hP, rfl⟩ | ⟨rfl, ⟨P, hP⟩, n, hn, href, hrec⟩
  · exact ⟨P, hP, Fl.exact _ _⟩
  · refine ⟨P, hP, by simp, fun hs hnull => ?_⟩
    have hs' : s = true := by cases s <;> simp_all [strictMode]
    subst hs'
    have hwn := hw.cref hn
    have hr : Rep env w (.ref n) i := .ref href
    obtain ⟨P', hP', ht⟩ := hr.tyOff hall hwn
    rw [hP] at hP'; cases hP'
    have hsi : SI L w.lk false i [] [[]] := ⟨P, hP, ht.null hnull⟩
    have hm := (hr.match (Sp := fun _ => False) hall hQ 0 hwn (by simp [szL]) (Or.inl rfl) hsi).toMatch
    cases hwn with
    | ref h1 h2 h3 => exact absurd hm (h3 rfl rfl hrec)

/-- bodies of repetitions -/
def QRep (L : Lib D V) (env : Env D V) (w : World D V) (Q : Pattern D V → Prop) (j : Nat) : Prop :=
  ∃ p l, WF L env Q true true l p ∧ RepeatOK env p ∧ Rep env w p j

/-- element contents -/
def QEl (env : Env D V) (w : World D V) (Q : Pattern D V → Prop) (j : Nat) : Prop :=
  ∃ p, Q p ∧ Rep env w p j

theorem Rep.tyStrict {s l p i} (h : WF L env Q true s l p) (hr : Rep env w p i) :
    TyI w.lk (QEl env w Q) (QRep L env w Q) (strictMode s) l i 1 :=
  Rep.ty strictMode (fun s => by cases s <;> rfl) hall (fun p _ hq hr => ⟨p, hq, hr⟩)
    (fun _ _ _ _ _ hw _ h => flag_strict hall hQ hw h)
    (fun l p i hw ho hr => ⟨p, l, hw, ho rfl, hr⟩) h hr

theorem QRep.splits {j} (h : QRep L env w Q j) : Splits L w.lk j := by
  obtain ⟨p, l, hw, ho, hr⟩ := h
  intro x a c hs
  have hm := hr.match (Sp := fun _ => False) hall hQ _ hw (Nat.le_refl _) (Or.inl rfl) hs
  obtain ⟨m1, m2⟩ := ho.split _ _ _ hm
  exact ⟨m1.si hall hr, m2.imp_left fun m => m.si hall hr⟩

theorem ctxStrict : Ctx L w.lk (QEl env w Q) (QRep L env w Q) .strict where
  hm := rfl
  hE := fun _ ⟨p, hq, hr⟩ => Rep.tyStrict hall hQ (hQ p hq) hr
  hR := fun _ _ hj => QRep.splits hall hQ hj
end

theorem ctxOff {Q : Pattern D V → Prop} {c} (hall : AllRef env w)
    (hQ : ∀ p, Q p → WF L env Q c false true p) : Ctx L w.lk (QEl env w Q) (fun _ => True) .off where
  hm := rfl
  hE := fun _ ⟨p, hq, hr⟩ => hr.tyOff hall (hQ p hq)
  hR := fun h => by cases h

/-! ### the start pattern -/

theorem Rep.elems (hall : AllRef env w) {p} (h : StartOK env p) :
    ∀ {i}, Rep env w p i → ∃ P, w.lk i = some P ∧ Elems w.lk P := by
  induction h with
  | element => intro i h; cases h with | element _ h => exact ⟨_, h, .element⟩
  | notAllowed => intro i h; cases h with | notAllowed h => exact ⟨_, h, .na⟩
  | @choice ps hne hw ih =>
    clear hne
    induction ps with
    | nil => intro i h; cases h
    | cons p ps ihps =>
      intro i h
      cases h with
      | choiceOne h => exact ih p (by simp) h
      | choiceCons h1 h2 h3 =>
        obtain ⟨x, hx, ex⟩ := ih p (by simp) h1
        obtain ⟨y, hy, ey⟩ := ihps (fun q hq => hw q (by simp_all)) (fun q hq => ih q (by simp_all)) h2
        obtain ⟨pn, qn, _, _, h⟩ := h3
        rcases h with ⟨h1, rfl⟩ | ⟨h1, rfl⟩ | ⟨rfl, rfl⟩ | h
        · exact ⟨_, hy, ey⟩
        · exact ⟨_, hx, ex⟩
        · exact ⟨_, hx, ex⟩
        · exact ⟨_, h, .choice hx hy ex ey⟩
  | ref h1 _ ih =>
    intro i h
    cases h with
    | ref h =>
      obtain ⟨p, j, P, e1, e2, e3, e4, _⟩ := hall _ _ h
      rw [h1] at e1; cases e1
      obtain ⟨P', hP', he⟩ := ih e2
      rw [e3] at hP'; cases hP'
      exact ⟨_, e4, he⟩

theorem Elems.strict {lk : Lk D V} {QE QR : Nat → Prop} {p b k} (h : Elems lk p) :
    Ty lk QE QR .loose b p k → Ty lk QE QR .strict b p k ∧ p.nullable = false := by
  induction h with
  | na => intro _; exact ⟨.notAllowed, rfl⟩
  | element => intro h; cases h with | element h => exact ⟨.element h, rfl⟩
  | choice h1 h2 _ _ ih1 ih2 =>
    intro h
    cases h with
    | choice g1 g2 t1 t2 fl =>
      rw [h1] at g1; cases g1
      rw [h2] at g2; cases g2
      obtain ⟨s1, n1⟩ := ih1 t1
      obtain ⟨s2, n2⟩ := ih2 t2
      refine ⟨.choice h1 h2 s1 s2 ⟨fl.1, fun _ h => ?_⟩, ?_⟩
      · simp [n1, n2] at h
      · have := fl.1
        rw [n1, n2] at this
        simpa [Pat.nullable] using this

/-! ### later stores -/

section
variable {w' : World D V}

theorem FlagWas.mono (hle : Le w.lk w'.lk) (href : w.refs = w'.refs) {p l b}
    (h : FlagWas env w p l b) : FlagWas env w' p l b := by
  rcases h with ⟨P, hP, hb⟩ | ⟨rfl, ⟨P, hP⟩, n, hn, hr, hrec⟩
  · exact Or.inl ⟨P, hle _ _ hP, hb⟩
  · exact Or.inr ⟨rfl, ⟨P, hle _ _ hP⟩, n, hn, href ▸ hr, hrec⟩

theorem ChoiceRep.mono (hle : Le w.lk w'.lk) (href : w.refs = w'.refs) {p q l r i}
    (h : ChoiceRep env w p q l r i) : ChoiceRep env w' p q l r i := by
  obtain ⟨pn, qn, f1, f2, h⟩ := h
  refine ⟨pn, qn, f1.mono hle href, f2.mono hle href, ?_⟩
  rcases h with ⟨h1, h2⟩ | ⟨h1, h2⟩ | h | h
  · exact Or.inl ⟨hle _ _ h1, h2⟩
  · exact Or.inr (Or.inl ⟨hle _ _ h1, h2⟩)
  · exact Or.inr (Or.inr (Or.inl h))
  · exact Or.inr (Or.inr (Or.inr (hle _ _ h)))

theorem InterRep.mono (hle : Le w.lk w'.lk) (href : w.refs = w'.refs) {p q l r i}
    (h : InterRep env w p q l r i) : InterRep env w' p q l r i := by
  obtain ⟨pn, qn, f1, f2, h⟩ := h
  refine ⟨pn, qn, f1.mono hle href, f2.mono hle href, ?_⟩
  rcases h with ⟨h1, h2⟩ | ⟨h1, h2⟩ | ⟨h1, h2⟩ | ⟨h1, h2⟩ | h
  · exact Or.inl ⟨hle _ _ h1, hle _ _ h2⟩
  · exact Or.inr (Or.inl ⟨hle _ _ h1, hle _ _ h2⟩)
  · exact Or.inr (Or.inr (Or.inl ⟨hle _ _ h1, h2⟩))
  · exact Or.inr (Or.inr (Or.inr (Or.inl ⟨hle _ _ h1, h2⟩)))
  · exact Or.inr (Or.inr (Or.inr (Or.inr (hle _ _ h))))

theorem GroupRep.mono (hle : Le w.lk w'.lk) (href : w.refs = w'.refs) {p q l r i}
    (h : GroupRep env w p q l r i) : GroupRep env w' p q l r i := by
  obtain ⟨pn, qn, f1, f2, h⟩ := h
  refine ⟨pn, qn, f1.mono hle href, f2.mono hle href, ?_⟩
  rcases h with ⟨h1, h2⟩ | ⟨h1, h2⟩ | ⟨h1, h2⟩ | ⟨h1, h2⟩ | h
  · exact Or.inl ⟨hle _ _ h1, hle _ _ h2⟩
  · exact Or.inr (Or.inl ⟨hle _ _ h1, hle _ _ h2⟩)
  · exact Or.inr (Or.inr (Or.inl ⟨hle _ _ h1, h2⟩))
  · exact Or.inr (Or.inr (Or.inr (Or.inl ⟨hle _ _ h1, h2⟩)))
  · exact Or.inr (Or.inr (Or.inr (Or.inr (hle _ _ h))))

theorem OneRep.mono (hle : Le w.lk w'.lk) (href : w.refs = w'.refs) {p l i}
    (h : OneRep env w p l i) : OneRep env w' p l i := by
  obtain ⟨pn, f1, h⟩ := h
  exact ⟨pn, f1.mono hle href, hle _ _ h⟩

theorem Rep.mono (hle : Le w.lk w'.lk) (href : w.refs = w'.refs) {p i} (h : Rep env w p i) :
    Rep env w' p i := by
  induction h with
  | choiceOne _ ih => exact .choiceOne ih
  | choiceCons _ _ h3 ih1 ih2 => exact .choiceCons ih1 ih2 (h3.mono hle href)
  | interleaveOne _ ih => exact .interleaveOne ih
  | interleaveCons _ _ h3 ih1 ih2 => exact .interleaveCons ih1 ih2 (h3.mono hle href)
  | groupOne _ ih => exact .groupOne ih
  | groupCons _ _ h3 ih1 ih2 => exact .groupCons ih1 ih2 (h3.mono hle href)
  | mixed _ h2 h3 ih => exact .mixed ih (hle _ _ h2) (h3.mono hle href)
  | empty h => exact .empty (hle _ _ h)
  | text h => exact .text (hle _ _ h)
  | notAllowed h => exact .notAllowed (hle _ _ h)
  | optional _ h2 h3 ih => exact .optional ih (hle _ _ h2) (h3.mono hle href)
  | zeroOrMore _ h2 h3 h4 ih =>
    exact .zeroOrMore ih (h2.mono hle href) (hle _ _ h3) (h4.mono hle href)
  | oneOrMore _ h2 ih => exact .oneOrMore ih (h2.mono hle href)
  | attr _ h2 ih => exact .attr ih (hle _ _ h2)
  | element _ h2 ih => exact .element ih (hle _ _ h2)
  | ref h => exact .ref (href ▸ h)
  | value h => exact .value (hle _ _ h)
  | data h => exact .data (hle _ _ h)
  | dataExcept _ h2 ih => exact .dataExcept ih (hle _ _ h2)
  | list _ h2 ih => exact .list ih (hle _ _ h2)

theorem AllRef.mono (hle : Le w.lk w'.lk) (href : w.refs = w'.refs) (h : AllRef env w) :
    AllRef env w' := by
  intro n i hn
  obtain ⟨p, j, P, h1, h2, h3, h4, h5⟩ := h n i (href ▸ hn)
  exact ⟨p, j, P, h1, h2.mono hle href, hle _ _ h3, hle _ _ h4, h5⟩
end
end Verif
