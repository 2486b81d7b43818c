import Verif.Spec.WellFormed
import Verif.Proof.Bot
/-
What a compiled pattern looks like in the pattern store.
-/
set_option linter.unusedSectionVars false
namespace Verif
variable {D V : Type}

/-- a snapshot of the store: patterns and resolved references -/
structure World (D V : Type) where
  lk : Lk D V
  refs : Nat → Option Nat

mutual
/-- references a pattern may collapse to when it is compiled -/
def crefs : Pattern D V → List Nat
  | .choice ps => crefsL ps
  | .interleave ps => crefsL ps
  | .group ps => crefsL ps
  | .mixed p => crefs p
  | .optional p => crefs p
  | .ref n => [n]
  | _ => []
def crefsL : List (Pattern D V) → List Nat
  | [] => []
  | p :: ps => crefs p ++ crefsL ps
end

section
variable (env : Env D V) (w : World D V)

/-- `b` was the nullability of `l` (the compilation of `p`) when it was looked at -/
def FlagWas (p : Pattern D V) (l : Nat) (b : Bool) : Prop :=
  (∃ P, w.lk l = some P ∧ P.nullable = b) ∨
  (b = false ∧ (∃ P, w.lk l = some P) ∧ ∃ n ∈ crefs p, w.refs n = some l ∧ Recursive env n)

def ChoiceRep (p q : Pattern D V) (l r i : Nat) : Prop :=
  ∃ pn qn, FlagWas env w p l pn ∧ FlagWas env w q r qn ∧
    ((w.lk l = some .notAllowed ∧ i = r) ∨ (w.lk r = some .notAllowed ∧ i = l) ∨ (l = r ∧ i = l) ∨
      w.lk i = some (.choice l r (pn || qn)))

def InterRep (p q : Pattern D V) (l r i : Nat) : Prop :=
  ∃ pn qn, FlagWas env w p l pn ∧ FlagWas env w q r qn ∧
    ((w.lk l = some .notAllowed ∧ w.lk i = some .notAllowed) ∨
      (w.lk r = some .notAllowed ∧ w.lk i = some .notAllowed) ∨
      (w.lk l = some .empty ∧ i = r) ∨ (w.lk r = some .empty ∧ i = l) ∨
      w.lk i = some (.interleave l r (pn && qn)))

def GroupRep (p q : Pattern D V) (l r i : Nat) : Prop :=
  ∃ pn qn, FlagWas env w p l pn ∧ FlagWas env w q r qn ∧
    ((w.lk l = some .notAllowed ∧ w.lk i = some .notAllowed) ∨
      (w.lk r = some .notAllowed ∧ w.lk i = some .notAllowed) ∨
      (w.lk l = some .empty ∧ i = r) ∨ (w.lk r = some .empty ∧ i = l) ∨
      w.lk i = some (.group l r (pn && qn)))

def OneRep (p : Pattern D V) (l i : Nat) : Prop :=
  ∃ pn, FlagWas env w p l pn ∧ w.lk i = some (.oneOrMore l pn)

/-- identity `i` is the compilation of the pattern -/
inductive Rep : Pattern D V → Nat → Prop
  | choiceOne {p i} : Rep p i → Rep (.choice [p]) i
  | choiceCons {p q ps l r i} : Rep p l → Rep (.choice (q :: ps)) r →
      ChoiceRep env w p (.choice (q :: ps)) l r i → Rep (.choice (p :: q :: ps)) i
  | interleaveOne {p i} : Rep p i → Rep (.interleave [p]) i
  | interleaveCons {p q ps l r i} : Rep p l → Rep (.interleave (q :: ps)) r →
      InterRep env w p (.interleave (q :: ps)) l r i → Rep (.interleave (p :: q :: ps)) i
  | groupOne {p i} : Rep p i → Rep (.group [p]) i
  | groupCons {p q ps l r i} : Rep p l → Rep (.group (q :: ps)) r →
      GroupRep env w p (.group (q :: ps)) l r i → Rep (.group (p :: q :: ps)) i
  | mixed {p l t i} : Rep p l → w.lk t = some .text → InterRep env w p .text l t i →
      Rep (.mixed p) i
  | empty {i} : w.lk i = some .empty → Rep .empty i
  | text {i} : w.lk i = some .text → Rep .text i
  | notAllowed {i} : w.lk i = some .notAllowed → Rep .notAllowed i
  | optional {p l e i} : Rep p l → w.lk e = some .empty → ChoiceRep env w p .empty l e i →
      Rep (.optional p) i
  | zeroOrMore {p l o e i} : Rep p l → OneRep env w p l o → w.lk e = some .empty →
      ChoiceRep env w (.oneOrMore p) .empty o e i → Rep (.zeroOrMore p) i
  | oneOrMore {p l i} : Rep p l → OneRep env w p l i → Rep (.oneOrMore p) i
  | attr {nc p j i} : Rep p j → w.lk i = some (.attr nc j) → Rep (.attr nc p) i
  | element {nc p j i} : Rep p j → w.lk i = some (.element nc j) → Rep (.element nc p) i
  | ref {n i} : w.refs n = some i → Rep (.ref n) i
  | value {v i} : w.lk i = some (.datatypeValue v) → Rep (.datatypeValue v) i
  | data {d i} : w.lk i = some (.datatype d) → Rep (.datatypeName d) i
  | dataExcept {d e j i} : Rep e j → w.lk i = some (.datatypeExcept d j) →
      Rep (.datatypeNameExcept d e) i
  | list {p j i} : Rep p j → w.lk i = some (.list j) → Rep (.list p) i

/-- reference `n` (slot `i`) has been resolved to the compilation of its definition -/
def RefOK (n i : Nat) : Prop :=
  ∃ p j P, env[n]? = some p ∧ Rep env w p j ∧ w.lk j = some P ∧ w.lk i = some P ∧
    P.isPlaceholder = false

/-- every reference is resolved -/
def AllRef : Prop := ∀ n i, w.refs n = some i → RefOK env w n i
end

section
variable {env : Env D V} {w : World D V} {QE QR : Nat → Prop} {L : Lib D V} {pm : Bool}

theorem SI.of_eq {lk : Lk D V} {i j a cs} (h : lk i = lk j) : SI L lk pm i a cs ↔ SI L lk pm j a cs := by
  unfold SI; rw [h]

theorem TyI.of_eq {lk : Lk D V} {i j m b k} (h : lk i = lk j) (ht : TyI lk QE QR m b j k) :
    TyI lk QE QR m b i k := by
  obtain ⟨p, hp, ht⟩ := ht
  exact ⟨p, by rw [h]; exact hp, ht⟩

/-! ### meaning of the compiled constructors (same proofs as for the derivatives) -/

theorem ChoiceRep.sem {p q l r i a cs} (h : ChoiceRep env w p q l r i) :
    SI L w.lk pm i a cs ↔ SI L w.lk pm l a cs ∨ SI L w.lk pm r a cs := by
  obtain ⟨pn, qn, _, _, h⟩ := h
  rcases h with ⟨h1, rfl⟩ | ⟨h1, rfl⟩ | ⟨rfl, rfl⟩ | h
  · have := SI.notAllowed (L := L) (pm := pm) (a := a) (cs := cs) h1
    simp [this]
  · have := SI.notAllowed (L := L) (pm := pm) (a := a) (cs := cs) h1
    simp [this]
  · simp
  · constructor
    · rintro ⟨x, hx, hs⟩
      rw [h] at hx; cases hx
      cases hs with
      | choiceL g1 g2 => exact Or.inl ⟨_, g1, g2⟩
      | choiceR g1 g2 => exact Or.inr ⟨_, g1, g2⟩
    · rintro (⟨x, hx, hs⟩ | ⟨x, hx, hs⟩)
      · exact ⟨_, h, .choiceL hx hs⟩
      · exact ⟨_, h, .choiceR hx hs⟩

theorem GroupRep.sem {p q l r i a cs} (h : GroupRep env w p q l r i)
    (hl : ∀ {a cs}, SI L w.lk pm l a cs → ∃ c, cs = [c])
    (hr : ∀ {a cs}, SI L w.lk pm r a cs → ∃ c, cs = [c]) :
    SI L w.lk pm i a cs ↔ ∃ a1 a2 c1 c2, cs = [c1 ++ c2] ∧ SI L w.lk pm l a1 [c1] ∧
      SI L w.lk pm r a2 [c2] ∧ a.Perm (a1 ++ a2) := by
  obtain ⟨pn, qn, _, _, h⟩ := h
  rcases h with ⟨h1, h⟩ | ⟨h2, h⟩ | ⟨h1, rfl⟩ | ⟨h2, rfl⟩ | h
  · constructor
    · intro h'; exact absurd h' (SI.notAllowed h)
    · rintro ⟨a1, a2, c1, c2, _, h', _⟩; exact absurd h' (SI.notAllowed h1)
  · constructor
    · intro h'; exact absurd h' (SI.notAllowed h)
    · rintro ⟨a1, a2, c1, c2, _, _, h', _⟩; exact absurd h' (SI.notAllowed h2)
  · constructor
    · intro h'
      obtain ⟨c, rfl⟩ := hr h'
      exact ⟨[], a, [], c, rfl, (SI.empty h1).mpr ⟨rfl, rfl⟩, h', by simp⟩
    · rintro ⟨a1, a2, c1, c2, rfl, h', ⟨x, hx, hs⟩, hp⟩
      obtain ⟨rfl, h''⟩ := (SI.empty h1).mp h'
      simp at h''; subst h''
      exact ⟨x, hx, hs.perm (by simpa using hp.symm)⟩
  · constructor
    · intro h'
      obtain ⟨c, rfl⟩ := hl h'
      exact ⟨a, [], c, [], by simp, h', (SI.empty h2).mpr ⟨rfl, rfl⟩, by simp⟩
    · rintro ⟨a1, a2, c1, c2, rfl, ⟨x, hx, hs⟩, h', hp⟩
      obtain ⟨rfl, h''⟩ := (SI.empty h2).mp h'
      simp at h''; subst h''
      simp only [List.append_nil] at *
      exact ⟨x, hx, hs.perm hp.symm⟩
  · constructor
    · rintro ⟨x, hx, hs⟩
      rw [h] at hx; cases hx
      cases hs with
      | group g1 g2 s1 s2 hp => exact ⟨_, _, _, _, rfl, ⟨_, g1, s1⟩, ⟨_, g2, s2⟩, hp⟩
    · rintro ⟨a1, a2, c1, c2, rfl, ⟨x, hx, hs⟩, ⟨y, hy, hs'⟩, hp⟩
      exact ⟨_, h, .group hx hy hs hs' hp⟩

theorem InterRep.sem {p q l r i a cs} (h : InterRep env w p q l r i)
    (hl : ∀ {a cs}, SI L w.lk pm l a cs → ∃ c, cs = [c])
    (hr : ∀ {a cs}, SI L w.lk pm r a cs → ∃ c, cs = [c]) :
    SI L w.lk pm i a cs ↔ ∃ a1 a2 c1 c2 c, cs = [c] ∧ SI L w.lk pm l a1 [c1] ∧
      SI L w.lk pm r a2 [c2] ∧ a.Perm (a1 ++ a2) ∧ Shuffle c1 c2 c := by
  obtain ⟨pn, qn, _, _, h⟩ := h
  rcases h with ⟨h1, h⟩ | ⟨h2, h⟩ | ⟨h1, rfl⟩ | ⟨h2, rfl⟩ | h
  · constructor
    · intro h'; exact absurd h' (SI.notAllowed h)
    · rintro ⟨a1, a2, c1, c2, _, _, h', _⟩; exact absurd h' (SI.notAllowed h1)
  · constructor
    · intro h'; exact absurd h' (SI.notAllowed h)
    · rintro ⟨a1, a2, c1, c2, _, _, _, h', _⟩; exact absurd h' (SI.notAllowed h2)
  · constructor
    · intro h'
      obtain ⟨c, rfl⟩ := hr h'
      exact ⟨[], a, [], c, c, rfl, (SI.empty h1).mpr ⟨rfl, rfl⟩, h', by simp, .refl_right c⟩
    · rintro ⟨a1, a2, c1, c2, c, rfl, h', ⟨x, hx, hs⟩, hp, hsh⟩
      obtain ⟨rfl, h''⟩ := (SI.empty h1).mp h'
      simp at h''; subst h''
      obtain rfl := hsh.nil_left
      exact ⟨x, hx, hs.perm (by simpa using hp.symm)⟩
  · constructor
    · intro h'
      obtain ⟨c, rfl⟩ := hl h'
      exact ⟨a, [], c, [], c, rfl, h', (SI.empty h2).mpr ⟨rfl, rfl⟩, by simp, .refl_left c⟩
    · rintro ⟨a1, a2, c1, c2, c, rfl, ⟨x, hx, hs⟩, h', hp, hsh⟩
      obtain ⟨rfl, h''⟩ := (SI.empty h2).mp h'
      simp at h''; subst h''
      obtain rfl := hsh.nil_right
      exact ⟨x, hx, hs.perm (by simpa using hp.symm)⟩
  · constructor
    · rintro ⟨x, hx, hs⟩
      rw [h] at hx; cases hx
      cases hs with
      | interleave g1 g2 s1 s2 hp hsh =>
        exact ⟨_, _, _, _, _, rfl, ⟨_, g1, s1⟩, ⟨_, g2, s2⟩, hp, hsh⟩
    · rintro ⟨a1, a2, c1, c2, c, rfl, ⟨x, hx, hs⟩, ⟨y, hy, hs'⟩, hp, hsh⟩
      exact ⟨_, h, .interleave hx hy hs hs' hp hsh⟩

theorem OneRep.sem {p l i a cs f} (h : OneRep env w p l i) :
    SI L w.lk pm i a cs ↔ S L w.lk pm (.oneOrMore l f) a cs := by
  obtain ⟨pn, _, h⟩ := h
  constructor
  · rintro ⟨x, hx, hs⟩
    rw [h] at hx; cases hx
    exact hs.oneOrMore_flag
  · intro hs
    exact ⟨_, h, hs.oneOrMore_flag⟩

/-! ### typing -/

/-- the flag condition at a use of `l` -/
def FlagOK (w : World D V) (m : Mode) (l : Nat) (b : Bool) : Prop :=
  ∃ P, w.lk l = some P ∧ Fl m b P.nullable

theorem FlagWas.off {p l b} (h : FlagWas env w p l b) : FlagOK w .off l b := by
  rcases h with ⟨P, hP, rfl⟩ | ⟨rfl, ⟨P, hP⟩, _⟩
  · exact ⟨P, hP, Fl.exact _ _⟩
  · exact ⟨P, hP, by simp, by simp⟩

theorem ChoiceRep.ty {p q l r i m b} (h : ChoiceRep env w p q l r i)
    (hfl : ∀ {f}, FlagWas env w p l f → FlagOK w m l f)
    (hfr : ∀ {f}, FlagWas env w q r f → FlagOK w m r f)
    (hl : TyI w.lk QE QR m b l 1) (hr : TyI w.lk QE QR m b r 1) : TyI w.lk QE QR m b i 1 := by
  obtain ⟨pn, qn, f1, f2, h⟩ := h
  rcases h with ⟨h1, rfl⟩ | ⟨h1, rfl⟩ | ⟨rfl, rfl⟩ | h
  · exact hr
  · exact hl
  · exact hl
  · obtain ⟨P, hP, a1, a2⟩ := hfl f1
    obtain ⟨P', hP', b1, b2⟩ := hfr f2
    obtain ⟨x, hx, tx⟩ := hl
    obtain ⟨y, hy, ty⟩ := hr
    rw [hx] at hP; cases hP
    rw [hy] at hP'; cases hP'
    refine ⟨_, h, .choice hx hy tx ty ⟨fun hh => ?_, fun hm hh => ?_⟩⟩
    · simp only [Bool.or_eq_true] at *; rcases hh with hh | hh <;> simp [*]
    · simp only [Bool.or_eq_true] at *; rcases hh with hh | hh <;> simp [*]

theorem InterRep.ty {p q l r i m b} (h : InterRep env w p q l r i)
    (hfl : ∀ {f}, FlagWas env w p l f → FlagOK w m l f)
    (hfr : ∀ {f}, FlagWas env w q r f → FlagOK w m r f)
    (hl : TyI w.lk QE QR m b l 1) (hr : TyI w.lk QE QR m b r 1) : TyI w.lk QE QR m b i 1 := by
  obtain ⟨pn, qn, f1, f2, h⟩ := h
  rcases h with ⟨h1, h⟩ | ⟨h2, h⟩ | ⟨h1, rfl⟩ | ⟨h2, rfl⟩ | h
  · exact tyI_notAllowed h
  · exact tyI_notAllowed h
  · exact hr
  · exact hl
  · obtain ⟨P, hP, a1, a2⟩ := hfl f1
    obtain ⟨P', hP', b1, b2⟩ := hfr f2
    obtain ⟨x, hx, tx⟩ := hl
    obtain ⟨y, hy, ty⟩ := hr
    rw [hx] at hP; cases hP
    rw [hy] at hP'; cases hP'
    refine ⟨_, h, .interleave hx hy tx ty ⟨fun hh => ?_, fun hm hh => ?_⟩⟩
    · simp only [Bool.and_eq_true] at *; simp [*]
    · simp only [Bool.and_eq_true] at *; simp [*]

theorem GroupRep.ty {p q l r i m b} (h : GroupRep env w p q l r i)
    (hfl : ∀ {f}, FlagWas env w p l f → FlagOK w m l f)
    (hfr : ∀ {f}, FlagWas env w q r f → FlagOK w m r f)
    (hl : TyI w.lk QE QR m b l 1) (hr : TyI w.lk QE QR m b r 1) : TyI w.lk QE QR m b i 1 := by
  obtain ⟨pn, qn, f1, f2, h⟩ := h
  rcases h with ⟨h1, h⟩ | ⟨h2, h⟩ | ⟨h1, rfl⟩ | ⟨h2, rfl⟩ | h
  · exact tyI_notAllowed h
  · exact tyI_notAllowed h
  · exact hr
  · exact hl
  · obtain ⟨P, hP, a1, a2⟩ := hfl f1
    obtain ⟨P', hP', b1, b2⟩ := hfr f2
    obtain ⟨x, hx, tx⟩ := hl
    obtain ⟨y, hy, ty⟩ := hr
    rw [hx] at hP; cases hP
    rw [hy] at hP'; cases hP'
    refine ⟨_, h, .group hx hy tx ty ⟨fun hh => ?_, fun hm hh => ?_⟩⟩
    · simp only [Bool.and_eq_true] at *; simp [*]
    · simp only [Bool.and_eq_true] at *; simp [*]

theorem OneRep.ty {p l i m b} (h : OneRep env w p l i)
    (hfl : ∀ {f}, FlagWas env w p l f → FlagOK w m l f)
    (hl : TyI w.lk QE QR m.up b l 1) (hq : QR l) : TyI w.lk QE QR m b i 1 := by
  obtain ⟨pn, f1, h⟩ := h
  obtain ⟨P, hP, a1, a2⟩ := hfl f1
  obtain ⟨x, hx, tx⟩ := hl
  rw [hx] at hP; cases hP
  exact ⟨_, h, .oneOrMore hx tx hq ⟨a1, a2⟩⟩

theorem FlagWas.of_nil {p l b m} (h : FlagWas env w p l b) (hc : crefs p = []) : FlagOK w m l b := by
  rcases h with ⟨P, hP, rfl⟩ | ⟨rfl, _, n, hn, _⟩
  · exact ⟨P, hP, Fl.exact _ _⟩
  · rw [hc] at hn; cases hn

/-- exceptions -/
theorem Rep.ex (hall : AllRef env w) {p} (h : ExOK env p) :
    ∀ {i}, Rep env w p i → ∃ P, w.lk i = some P ∧ EX w.lk P := by
  induction h with
  | value => intro i h; cases h with | value h => exact ⟨_, h, .value⟩
  | data => intro i h; cases h with | data h => exact ⟨_, h, .data⟩
  | dataExcept _ ih =>
    intro i h
    cases h with
    | dataExcept h1 h2 =>
      obtain ⟨P, hP, he⟩ := ih h1
      exact ⟨_, h2, .dataExcept hP he⟩
  | notAllowed => intro i h; cases h with | notAllowed h => exact ⟨_, h, .notAllowed⟩
  | @choice ps hne hw ih =>
    clear hne
    induction ps with
    | nil => intro i h; cases h
    | cons p ps ihps =>
      intro i h
      cases h with
      | choiceOne h => exact ih p (by simp) h
      | choiceCons h1 h2 h3 =>
        obtain ⟨x, hx, ex⟩ := ih p (by simp) h1
        obtain ⟨y, hy, ey⟩ := ihps (fun q hq => hw q (by simp_all)) (fun q hq => ih q (by simp_all)) h2
        obtain ⟨pn, qn, _, _, h⟩ := h3
        rcases h with ⟨h1, rfl⟩ | ⟨h1, rfl⟩ | ⟨rfl, rfl⟩ | h
        · exact ⟨_, hy, ey⟩
        · exact ⟨_, hx, ex⟩
        · exact ⟨_, hx, ex⟩
        · exact ⟨_, h, .choice hx hy ex ey⟩
  | ref h1 _ ih =>
    intro i h
    cases h with
    | ref h =>
      obtain ⟨p, j, P, e1, e2, e3, e4, _⟩ := hall _ _ h
      rw [h1] at e1; cases e1
      obtain ⟨P', hP', he⟩ := ih e2
      rw [e3] at hP'; cases hP'
      exact ⟨_, e4, he⟩

/-- typing of a compiled pattern, in modes `M false` (outside repetitions) and `M true` (inside) -/
theorem Rep.ty {Q : Pattern D V → Prop} {c : Bool} (M : Bool → Mode) (hM : ∀ s, (M s).up = M true)
    (hall : AllRef env w)
    (hE : ∀ p i, Q p → Rep env w p i → QE i)
    (hF : ∀ s l p i b, WF L env Q c s l p → Rep env w p i → FlagWas env w p i b →
      FlagOK w (M s) i b)
    (hR : ∀ l p i, WF L env Q c true l p → (c = true → RepeatOK env p) → Rep env w p i → QR i)
    {s l p} (h : WF L env Q c s l p) :
    ∀ {i}, Rep env w p i → TyI w.lk QE QR (M s) l i 1 := by
  induction h with
  | empty => intro i h; cases h with | empty h => exact tyI_empty h
  | text => intro i h; cases h with | text h => exact tyI_text h
  | notAllowed => intro i h; cases h with | notAllowed h => exact tyI_notAllowed h
  | @choice s l ps hne hw ih =>
    clear hne
    induction ps with
    | nil => intro i h; cases h
    | cons p ps ihps =>
      intro i h
      cases h with
      | choiceOne h => exact ih p (by simp) h
      | @choiceCons _ q ps a b _ h1 h2 h3 =>
        exact h3.ty (hF _ _ _ _ _ (hw _ (by simp)) h1)
          (hF _ _ _ _ _ (.choice (by simp) fun q hq => hw q (by simp_all)) h2)
          (ih _ (by simp) h1)
          (ihps (fun q hq => hw q (by simp_all)) (fun q hq => ih q (by simp_all)) h2)
  | @group s l ps hne hw ih =>
    clear hne
    induction ps with
    | nil => intro i h; cases h
    | cons p ps ihps =>
      intro i h
      cases h with
      | groupOne h => exact ih p (by simp) h
      | @groupCons _ q ps a b _ h1 h2 h3 =>
        exact h3.ty (hF _ _ _ _ _ (hw _ (by simp)) h1)
          (hF _ _ _ _ _ (.group (by simp) fun q hq => hw q (by simp_all)) h2)
          (ih _ (by simp) h1)
          (ihps (fun q hq => hw q (by simp_all)) (fun q hq => ih q (by simp_all)) h2)
  | @interleave s l ps hne hw hlf ih =>
    clear hne
    induction ps with
    | nil => intro i h; cases h
    | cons p ps ihps =>
      intro i h
      cases h with
      | interleaveOne h => exact ih p (by simp) h
      | @interleaveCons _ q ps a b _ h1 h2 h3 =>
        exact h3.ty (hF _ _ _ _ _ (hw _ (by simp)) h1)
          (hF _ _ _ _ _ (.interleave (by simp) (fun q hq => hw q (by simp_all))
            fun q hq => hlf q (by simp_all)) h2)
          (ih _ (by simp) h1)
          (ihps (fun q hq => hw q (by simp_all)) (fun q hq => hlf q (by simp_all))
            (fun q hq => ih q (by simp_all)) h2)
  | mixed hw hlf ih =>
    intro i h
    cases h with
    | mixed h1 h2 h3 =>
      exact h3.ty (hF _ _ _ _ _ hw h1) (fun h => h.of_nil rfl) (ih h1) (tyI_text h2)
  | optional hw ih =>
    intro i h
    cases h with
    | optional h1 h2 h3 =>
      exact h3.ty (hF _ _ _ _ _ hw h1) (fun h => h.of_nil rfl) (ih h1) (tyI_empty h2)
  | @zeroOrMore s l p hw hr ih =>
    intro i h
    cases h with
    | @zeroOrMore _ _ o _ _ h1 h2 h3 h4 =>
      have t1 := ih h1
      have q1 := hR _ _ _ hw hr h1
      have ho : TyI w.lk QE QR (M s) l o 1 := by
        refine h2.ty (fun hf => ?_) (by rw [hM]; exact t1) q1
        obtain ⟨P, hP, f1, f2⟩ := hF _ _ _ _ _ hw h1 hf
        exact ⟨P, hP, f1, fun hs => f2 (by have := hM s; rw [hs] at this; exact this.symm)⟩
      exact h4.ty (fun h => h.of_nil rfl) (fun h => h.of_nil rfl) ho (tyI_empty h3)
  | @oneOrMore s l p hw hr ih =>
    intro i h
    cases h with
    | oneOrMore h1 h2 =>
      have t1 := ih h1
      have q1 := hR _ _ _ hw hr h1
      refine h2.ty (fun hf => ?_) (by rw [hM]; exact t1) q1
      obtain ⟨P, hP, f1, f2⟩ := hF _ _ _ _ _ hw h1 hf
      exact ⟨P, hP, f1, fun hs => f2 (by have := hM s; rw [hs] at this; exact this.symm)⟩
  | @attr s l nc p hw ih =>
    intro i h
    cases h with
    | attr h1 h2 =>
      obtain ⟨P, hP, t⟩ := ih h1
      exact ⟨_, h2, .attr hP (by rw [hM]; exact t)⟩
  | element hq =>
    intro i h
    cases h with
    | element h1 h2 => exact ⟨_, h2, .element (hE _ _ hq h1)⟩
  | ref h1 hw hf ih =>
    intro i h
    cases h with
    | ref h =>
      obtain ⟨p, j, P, e1, e2, e3, e4, _⟩ := hall _ _ h
      rw [h1] at e1; cases e1
      exact (ih e2).of_eq (by rw [e3, e4])
  | value => intro i h; cases h with | value h => exact ⟨_, h, .datatypeValue⟩
  | data => intro i h; cases h with | data h => exact ⟨_, h, .datatype⟩
  | dataExcept he =>
    intro i h
    cases h with
    | dataExcept h1 h2 =>
      obtain ⟨P, hP, ex⟩ := h1.ex hall he
      exact ⟨_, h2, .datatypeExcept hP ex⟩
  | list hw ih =>
    intro i h
    cases h with
    | list h1 h2 =>
      obtain ⟨P, hP, t⟩ := ih h1
      exact ⟨_, h2, .list hP (by rw [hM]; exact t)⟩

/-- in mode `off` nothing else is needed -/
theorem Rep.tyOff {Q : Pattern D V → Prop} {c : Bool} (hall : AllRef env w) {s l p i}
    (h : WF L env Q c s l p) (hr : Rep env w p i) :
    TyI w.lk (fun j => ∃ q, Q q ∧ Rep env w q j) (fun _ => True) .off l i 1 :=
  Rep.ty (fun _ => .off) (fun _ => rfl) hall (fun p _ hq hr => ⟨p, hq, hr⟩)
    (fun _ _ _ _ _ _ _ h => h.off) (fun _ _ _ _ _ _ => trivial) h hr
end
end Verif
