import Verif.Proof.Rel
/-
A typing discipline for store patterns.  `Ty lk QE QR m b p k`: `p` describes a stack of `k`
contents; flags are sound (and, depending on the mode `m`, exact); the pattern is well-founded down
to elements.  `b` says whether `list` may occur.  `QE`/`QR` constrain element contents and bodies of
repetitions.
-/
set_option linter.unusedSectionVars false
namespace Verif
variable {D V : Type}

/-- how exact the nullability flags are -/
inductive Mode where
  /-- flags only sound -/
  | off
  /-- flags exact below repetitions, attributes and lists -/
  | loose
  /-- all flags exact -/
  | strict
  deriving DecidableEq

def Mode.up : Mode → Mode
  | .off => .off
  | _ => .strict
def Mode.lo : Mode → Mode
  | .off => .off
  | _ => .loose

@[simp] theorem Mode.up_up (m : Mode) : m.up.up = m.up := by cases m <;> rfl
@[simp] theorem Mode.up_lo (m : Mode) : m.lo.up = m.up := by cases m <;> rfl
@[simp] theorem Mode.lo_up (m : Mode) : m.up.lo = m.lo := by cases m <;> rfl
@[simp] theorem Mode.lo_lo (m : Mode) : m.lo.lo = m.lo := by cases m <;> rfl

/-- `f` is a correct flag for the truth value `x` -/
def Fl (m : Mode) (f x : Bool) : Prop := (f = true → x = true) ∧ (m = .strict → x = true → f = true)

theorem Fl.exact (m : Mode) (x : Bool) : Fl m x x := ⟨id, fun _ => id⟩
theorem Fl.lo {m : Mode} {f x : Bool} (h : Fl m f x) : Fl m.lo f x :=
  ⟨h.1, fun hm => by cases m <;> cases hm⟩

section
variable (lk : Lk D V)

/-- patterns allowed as exceptions of a data pattern -/
inductive EX : Pat D V → Prop
  | value {v} : EX (.datatypeValue v)
  | data {d} : EX (.datatype d)
  | dataExcept {d e p} : lk e = some p → EX p → EX (.datatypeExcept d e)
  | notAllowed : EX .notAllowed
  | choice {l r f p q} : lk l = some p → lk r = some q → EX p → EX q → EX (.choice l r f)

variable (QE QR : Nat → Prop)

inductive Ty : Mode → Bool → Pat D V → Nat → Prop
  | empty {m b} : Ty m b .empty 1
  | text {m b} : Ty m b .text 1
  | notAllowed {m b k} : Ty m b .notAllowed k
  | choice {m b l r f p q k} : lk l = some p → lk r = some q → Ty m b p k → Ty m b q k →
      Fl m f (p.nullable || q.nullable) → Ty m b (.choice l r f) k
  | group {m b l r f p q} : lk l = some p → lk r = some q → Ty m b p 1 → Ty m b q 1 →
      Fl m f (p.nullable && q.nullable) → Ty m b (.group l r f) 1
  | interleave {m b l r f p q} : lk l = some p → lk r = some q → Ty m b p 1 → Ty m b q 1 →
      Fl m f (p.nullable && q.nullable) → Ty m b (.interleave l r f) 1
  | oneOrMore {m b i f p} : lk i = some p → Ty m.up b p 1 → QR i → Fl m f p.nullable →
      Ty m b (.oneOrMore i f) 1
  | attr {m b nc i p} : lk i = some p → Ty m.up true p 1 → Ty m b (.attr nc i) 1
  | element {m b nc i} : QE i → Ty m b (.element nc i) 1
  | datatype {m b d} : Ty m b (.datatype d) 1
  | datatypeValue {m b v} : Ty m b (.datatypeValue v) 1
  | datatypeExcept {m b d e p} : lk e = some p → EX lk p → Ty m b (.datatypeExcept d e) 1
  | list {m i p} : lk i = some p → Ty m.up false p 1 → Ty m true (.list i) 1
  | after {m b i j p q k} : lk i = some p → lk j = some q → Ty m b p 1 → Ty m.up b q k →
      Ty m b (.after i j) (k + 1)

def TyI (m : Mode) (b : Bool) (i k : Nat) : Prop := ∃ p, lk i = some p ∧ Ty lk QE QR m b p k
end

section
variable {lk : Lk D V} {QE QR : Nat → Prop} {L : Lib D V} {pm : Bool}

theorem Ty.weaken {m b p k} (h : Ty lk QE QR m b p k) : Ty lk QE QR m true p k := by
  induction h with
  | empty => exact .empty
  | text => exact .text
  | notAllowed => exact .notAllowed
  | choice h1 h2 _ _ h5 ih1 ih2 => exact .choice h1 h2 ih1 ih2 h5
  | group h1 h2 _ _ h5 ih1 ih2 => exact .group h1 h2 ih1 ih2 h5
  | interleave h1 h2 _ _ h5 ih1 ih2 => exact .interleave h1 h2 ih1 ih2 h5
  | oneOrMore h1 _ h3 h4 ih => exact .oneOrMore h1 ih h3 h4
  | attr h1 h2 _ => exact .attr h1 h2
  | element h => exact .element h
  | datatype => exact .datatype
  | datatypeValue => exact .datatypeValue
  | datatypeExcept h1 h2 => exact .datatypeExcept h1 h2
  | list h1 h2 _ => exact .list h1 h2
  | after h1 h2 _ _ ih1 ih2 => exact .after h1 h2 ih1 ih2

theorem Ty.lo {m b p k} (h : Ty lk QE QR m b p k) : Ty lk QE QR m.lo b p k := by
  induction h with
  | empty => exact .empty
  | text => exact .text
  | notAllowed => exact .notAllowed
  | choice h1 h2 _ _ h5 ih1 ih2 => exact .choice h1 h2 ih1 ih2 h5.lo
  | group h1 h2 _ _ h5 ih1 ih2 => exact .group h1 h2 ih1 ih2 h5.lo
  | interleave h1 h2 _ _ h5 ih1 ih2 => exact .interleave h1 h2 ih1 ih2 h5.lo
  | oneOrMore h1 h2 h3 h4 ih => exact .oneOrMore h1 (by simpa using h2) h3 h4.lo
  | attr h1 h2 _ => exact .attr h1 (by simpa using h2)
  | element h => exact .element h
  | datatype => exact .datatype
  | datatypeValue => exact .datatypeValue
  | datatypeExcept h1 h2 => exact .datatypeExcept h1 h2
  | list h1 h2 _ => exact .list h1 (by simpa using h2)
  | after h1 h2 _ h4 ih1 ih2 => exact .after h1 h2 ih1 (by simpa using h4)

/-- a set flag is right -/
theorem Ty.null {m b p k} (h : Ty lk QE QR m b p k) (hn : p.nullable = true) :
    S L lk pm p [] [[]] := by
  induction h with
  | empty => exact .empty
  | text => exact .text (by simp)
  | choice h1 h2 _ _ h5 ih1 ih2 =>
    have := h5.1 hn
    simp only [Bool.or_eq_true] at this
    rcases this with h | h
    · exact .choiceL h1 (ih1 h)
    · exact .choiceR h2 (ih2 h)
  | group h1 h2 _ _ h5 ih1 ih2 =>
    have := h5.1 hn
    simp only [Bool.and_eq_true] at this
    exact .group (c1 := []) (c2 := []) h1 h2 (ih1 this.1) (ih2 this.2) (by simp)
  | interleave h1 h2 _ _ h5 ih1 ih2 =>
    have := h5.1 hn
    simp only [Bool.and_eq_true] at this
    exact .interleave h1 h2 (ih1 this.1) (ih2 this.2) (by simp) .nil
  | oneOrMore h1 _ _ h4 ih => exact .one h1 (ih (h4.1 hn))
  | _ => cases hn

theorem Shuffle.nil_inv {α : Type} {a b : List α} (h : Shuffle a b []) : a = [] ∧ b = [] := by
  cases h; exact ⟨rfl, rfl⟩

theorem perm_nil_append {α : Type} {a b : List α} (h : ([] : List α).Perm (a ++ b)) :
    a = [] ∧ b = [] := by
  have := h.nil_eq; simpa using this.symm

/-- in strict mode a nullable pattern has its flag set -/
theorem S.null_flag {p a cs} (h : S L lk pm p a cs) :
    ∀ {b k}, a = [] → cs = [[]] → Ty lk QE QR .strict b p k → p.nullable = true := by
  induction h with
  | empty => intros; rfl
  | text => intros; rfl
  | choiceL h1 _ ih =>
    intro b k ha hc ht
    cases ht with
    | choice g1 g2 t1 t2 fl =>
      rw [g1] at h1; cases h1
      exact fl.2 rfl (by simp [ih ha hc t1])
  | choiceR h1 _ ih =>
    intro b k ha hc ht
    cases ht with
    | choice g1 g2 t1 t2 fl =>
      rw [g2] at h1; cases h1
      exact fl.2 rfl (by simp [ih ha hc t2])
  | group h1 h2 _ _ hp ih1 ih2 =>
    intro b k ha hc ht
    subst ha
    obtain ⟨rfl, rfl⟩ := perm_nil_append hp
    simp at hc
    cases ht with
    | group g1 g2 t1 t2 fl =>
      rw [g1] at h1; cases h1
      rw [g2] at h2; cases h2
      exact fl.2 rfl (by simp [ih1 rfl (by simp [hc]) t1, ih2 rfl (by simp [hc]) t2])
  | interleave h1 h2 _ _ hp hs ih1 ih2 =>
    intro b k ha hc ht
    subst ha
    obtain ⟨rfl, rfl⟩ := perm_nil_append hp
    simp at hc; subst hc
    obtain ⟨rfl, rfl⟩ := hs.nil_inv
    cases ht with
    | interleave g1 g2 t1 t2 fl =>
      rw [g1] at h1; cases h1
      rw [g2] at h2; cases h2
      exact fl.2 rfl (by simp [ih1 rfl rfl t1, ih2 rfl rfl t2])
  | one h1 _ ih =>
    intro b k ha hc ht
    cases ht with
    | oneOrMore g1 t1 _ fl =>
      rw [g1] at h1; cases h1
      exact fl.2 rfl (ih ha hc t1)
  | more h1 _ _ hp ih1 ih2 =>
    intro b k ha hc ht
    subst ha
    obtain ⟨rfl, rfl⟩ := perm_nil_append hp
    simp at hc
    cases ht with
    | oneOrMore g1 t1 _ fl =>
      rw [g1] at h1; cases h1
      exact fl.2 rfl (ih1 rfl (by simp [hc]) t1)
  | list h1 h2 _ _ _ => intro b k ha hc ht; simp at hc; exact absurd hc h2
  | after h1 h2 _ h4 _ _ =>
    intro b k ha hc ht
    simp at hc
    exact absurd hc.2 h4.ne_nil
  | _ => intro b k ha hc ht; simp at ha hc

theorem S.len {p a cs} (h : S L lk pm p a cs) :
    ∀ {m b k}, Ty lk QE QR m b p k → cs.length = k := by
  induction h with
  | choiceL h1 _ ih =>
    intro m b k ht; cases ht with
    | choice g1 g2 t1 t2 fl => rw [g1] at h1; cases h1; exact ih t1
  | choiceR h1 _ ih =>
    intro m b k ht; cases ht with
    | choice g1 g2 t1 t2 fl => rw [g2] at h1; cases h1; exact ih t2
  | after h1 h2 _ _ _ ih2 =>
    intro m b k ht; cases ht with
    | after g1 g2 t1 t2 => rw [g2] at h2; cases h2; simp [ih2 t2]
  | _ => intro m b k ht; cases ht; rfl

theorem SI.len {i a cs m b k} (h : SI L lk pm i a cs) (ht : TyI lk QE QR m b i k) :
    cs.length = k := by
  obtain ⟨p, hp, h⟩ := h
  obtain ⟨q, hq, ht⟩ := ht
  rw [hp] at hq; cases hq
  exact h.len ht

theorem SI.single {i a cs m b} (h : SI L lk pm i a cs) (ht : TyI lk QE QR m b i 1) :
    ∃ c, cs = [c] := by
  have := h.len ht
  match cs, this with
  | [c], _ => exact ⟨c, rfl⟩

/-! ### typing of the smart constructors -/

theorem tyI_empty {m b i} (h : lk i = some .empty) : TyI lk QE QR m b i 1 := ⟨_, h, .empty⟩
theorem tyI_text {m b i} (h : lk i = some .text) : TyI lk QE QR m b i 1 := ⟨_, h, .text⟩
theorem tyI_notAllowed {m b i k} (h : lk i = some .notAllowed) : TyI lk QE QR m b i k :=
  ⟨_, h, .notAllowed⟩

theorem TyI.weaken {m b i k} (h : TyI lk QE QR m b i k) : TyI lk QE QR m true i k :=
  let ⟨p, hp, ht⟩ := h; ⟨p, hp, ht.weaken⟩
theorem TyI.lo {m b i k} (h : TyI lk QE QR m b i k) : TyI lk QE QR m.lo b i k :=
  let ⟨p, hp, ht⟩ := h; ⟨p, hp, ht.lo⟩

theorem ChoiceOf.ty {l r i m b k} (h : ChoiceOf lk l r i) (hl : TyI lk QE QR m b l k)
    (hr : TyI lk QE QR m b r k) : TyI lk QE QR m b i k := by
  obtain ⟨p, q, h1, h2, h⟩ := h
  rcases h with ⟨_, rfl⟩ | ⟨_, rfl⟩ | ⟨_, rfl⟩ | ⟨hna, h⟩
  · exact hr
  · exact hl
  · exact hl
  · obtain ⟨p', hp', tp⟩ := hl
    obtain ⟨q', hq', tq⟩ := hr
    rw [h1] at hp'; cases hp'
    rw [h2] at hq'; cases hq'
    exact ⟨_, h, .choice h1 h2 tp tq (Fl.exact _ _)⟩

theorem GroupOf.ty {l r i m b} (h : GroupOf lk l r i) (hl : TyI lk QE QR m b l 1)
    (hr : TyI lk QE QR m b r 1) : TyI lk QE QR m b i 1 := by
  obtain ⟨p, q, h1, h2, h⟩ := h
  rcases h with ⟨_, h⟩ | ⟨_, h⟩ | ⟨_, rfl⟩ | ⟨_, rfl⟩ | ⟨_, _, h⟩
  · exact tyI_notAllowed h
  · exact tyI_notAllowed h
  · exact hr
  · exact hl
  · obtain ⟨p', hp', tp⟩ := hl
    obtain ⟨q', hq', tq⟩ := hr
    rw [h1] at hp'; cases hp'
    rw [h2] at hq'; cases hq'
    exact ⟨_, h, .group h1 h2 tp tq (Fl.exact _ _)⟩

theorem InterOf.ty {l r i m b} (h : InterOf lk l r i) (hl : TyI lk QE QR m b l 1)
    (hr : TyI lk QE QR m b r 1) : TyI lk QE QR m b i 1 := by
  obtain ⟨p, q, h1, h2, h⟩ := h
  rcases h with ⟨_, h⟩ | ⟨_, h⟩ | ⟨_, rfl⟩ | ⟨_, rfl⟩ | ⟨_, _, h⟩
  · exact tyI_notAllowed h
  · exact tyI_notAllowed h
  · exact hr
  · exact hl
  · obtain ⟨p', hp', tp⟩ := hl
    obtain ⟨q', hq', tq⟩ := hr
    rw [h1] at hp'; cases hp'
    rw [h2] at hq'; cases hq'
    exact ⟨_, h, .interleave h1 h2 tp tq (Fl.exact _ _)⟩

theorem AfterOf.ty {l r i m b k} (h : AfterOf lk l r i) (hl : TyI lk QE QR m b l 1)
    (hr : TyI lk QE QR m.up b r k) : TyI lk QE QR m b i (k + 1) := by
  obtain ⟨p, h1, h⟩ := h
  rcases h with ⟨_, h⟩ | ⟨_, h⟩
  · exact tyI_notAllowed h
  · obtain ⟨p', hp', tp⟩ := hl
    obtain ⟨q', hq', tq⟩ := hr
    rw [h1] at hp'; cases hp'
    exact ⟨_, h, .after h1 hq' tp tq⟩

theorem OneOf.ty {l i m b} (h : OneOf lk l i) (hl : TyI lk QE QR m.up b l 1) (hq : QR l) :
    TyI lk QE QR m b i 1 := by
  obtain ⟨p, h1, h⟩ := h
  obtain ⟨p', hp', tp⟩ := hl
  rw [h1] at hp'; cases hp'
  exact ⟨_, h, .oneOrMore h1 tp hq (Fl.exact _ _)⟩

theorem ListOf.ty {r i m} (h : ListOf lk r i) (hl : TyI lk QE QR m.up false r 1) :
    TyI lk QE QR m true i 1 := by
  obtain ⟨q, h1, h⟩ := h
  obtain ⟨q', h1', tq⟩ := hl
  rw [h1] at h1'; cases h1'
  rcases h with ⟨rfl, rfl⟩ | ⟨rfl, rfl⟩ | ⟨_, l, e, g1, g2, g3⟩ | ⟨_, h⟩
  · exact tyI_notAllowed h1
  · exact tyI_empty h1
  · exact g3.ty ⟨_, g1, .list h1 tq⟩ (tyI_empty g2)
  · exact ⟨_, h, .list h1 tq⟩

/-! ### meaning of the smart constructors -/

theorem SI.notAllowed {i a cs} (h : lk i = some .notAllowed) : ¬ SI L lk pm i a cs := by
  rintro ⟨p, hp, hs⟩
  rw [h] at hp; cases hp
  exact S.notAllowed hs

theorem SI.empty {i a cs} (h : lk i = some .empty) :
    SI L lk pm i a cs ↔ a = [] ∧ cs = [[]] := by
  constructor
  · rintro ⟨p, hp, hs⟩
    rw [h] at hp; cases hp
    cases hs; exact ⟨rfl, rfl⟩
  · rintro ⟨rfl, rfl⟩; exact ⟨_, h, .empty⟩

theorem ChoiceOf.sem {l r i a cs} (h : ChoiceOf lk l r i) :
    SI L lk pm i a cs ↔ SI L lk pm l a cs ∨ SI L lk pm r a cs := by
  obtain ⟨p, q, h1, h2, h⟩ := h
  rcases h with ⟨rfl, rfl⟩ | ⟨rfl, rfl⟩ | ⟨rfl, rfl⟩ | ⟨hna, h⟩
  · have := SI.notAllowed (L := L) (pm := pm) (a := a) (cs := cs) h1
    simp [this]
  · have := SI.notAllowed (L := L) (pm := pm) (a := a) (cs := cs) h2
    simp [this]
  · simp
  · constructor
    · rintro ⟨x, hx, hs⟩
      rw [h] at hx; cases hx
      cases hs with
      | choiceL g1 g2 => exact Or.inl ⟨_, g1, g2⟩
      | choiceR g1 g2 => exact Or.inr ⟨_, g1, g2⟩
    · rintro (⟨x, hx, hs⟩ | ⟨x, hx, hs⟩)
      · exact ⟨_, h, .choiceL hx hs⟩
      · exact ⟨_, h, .choiceR hx hs⟩

theorem GroupOf.sem {l r i m b a cs} (h : GroupOf lk l r i) (hl : TyI lk QE QR m b l 1)
    (hr : TyI lk QE QR m b r 1) :
    SI L lk pm i a cs ↔ ∃ a1 a2 c1 c2, cs = [c1 ++ c2] ∧ SI L lk pm l a1 [c1] ∧
      SI L lk pm r a2 [c2] ∧ a.Perm (a1 ++ a2) := by
  obtain ⟨p, q, h1, h2, h⟩ := h
  rcases h with ⟨rfl, h⟩ | ⟨rfl, h⟩ | ⟨rfl, rfl⟩ | ⟨rfl, rfl⟩ | ⟨_, _, h⟩
  · constructor
    · intro h'; exact absurd h' (SI.notAllowed h)
    · rintro ⟨a1, a2, c1, c2, _, h', _⟩; exact absurd h' (SI.notAllowed h1)
  · constructor
    · intro h'; exact absurd h' (SI.notAllowed h)
    · rintro ⟨a1, a2, c1, c2, _, _, h', _⟩; exact absurd h' (SI.notAllowed h2)
  · constructor
    · intro h'
      obtain ⟨c, rfl⟩ := h'.single hr
      exact ⟨[], a, [], c, rfl, (SI.empty h1).mpr ⟨rfl, rfl⟩, h', by simp⟩
    · rintro ⟨a1, a2, c1, c2, rfl, h', ⟨x, hx, hs⟩, hp⟩
      obtain ⟨rfl, h''⟩ := (SI.empty h1).mp h'
      simp at h''; subst h''
      exact ⟨x, hx, hs.perm (by simpa using hp.symm)⟩
  · constructor
    · intro h'
      obtain ⟨c, rfl⟩ := h'.single hl
      exact ⟨a, [], c, [], by simp, h', (SI.empty h2).mpr ⟨rfl, rfl⟩, by simp⟩
    · rintro ⟨a1, a2, c1, c2, rfl, ⟨x, hx, hs⟩, h', hp⟩
      obtain ⟨rfl, h''⟩ := (SI.empty h2).mp h'
      simp at h''; subst h''
      simp only [List.append_nil] at *
      exact ⟨x, hx, hs.perm hp.symm⟩
  · constructor
    · rintro ⟨x, hx, hs⟩
      rw [h] at hx; cases hx
      cases hs with
      | group g1 g2 s1 s2 hp => exact ⟨_, _, _, _, rfl, ⟨_, g1, s1⟩, ⟨_, g2, s2⟩, hp⟩
    · rintro ⟨a1, a2, c1, c2, rfl, ⟨x, hx, hs⟩, ⟨y, hy, hs'⟩, hp⟩
      exact ⟨_, h, .group hx hy hs hs' hp⟩

theorem InterOf.sem {l r i m b a cs} (h : InterOf lk l r i) (hl : TyI lk QE QR m b l 1)
    (hr : TyI lk QE QR m b r 1) :
    SI L lk pm i a cs ↔ ∃ a1 a2 c1 c2 c, cs = [c] ∧ SI L lk pm l a1 [c1] ∧
      SI L lk pm r a2 [c2] ∧ a.Perm (a1 ++ a2) ∧ Shuffle c1 c2 c := by
  obtain ⟨p, q, h1, h2, h⟩ := h
  rcases h with ⟨rfl, h⟩ | ⟨rfl, h⟩ | ⟨rfl, rfl⟩ | ⟨rfl, rfl⟩ | ⟨_, _, h⟩
  · constructor
    · intro h'; exact absurd h' (SI.notAllowed h)
    · rintro ⟨a1, a2, c1, c2, _, _, h', _⟩; exact absurd h' (SI.notAllowed h1)
  · constructor
    · intro h'; exact absurd h' (SI.notAllowed h)
    · rintro ⟨a1, a2, c1, c2, _, _, _, h', _⟩; exact absurd h' (SI.notAllowed h2)
  · constructor
    · intro h'
      obtain ⟨c, rfl⟩ := h'.single hr
      exact ⟨[], a, [], c, c, rfl, (SI.empty h1).mpr ⟨rfl, rfl⟩, h', by simp, .refl_right c⟩
    · rintro ⟨a1, a2, c1, c2, c, rfl, h', ⟨x, hx, hs⟩, hp, hsh⟩
      obtain ⟨rfl, h''⟩ := (SI.empty h1).mp h'
      simp at h''; subst h''
      obtain rfl := hsh.nil_left
      exact ⟨x, hx, hs.perm (by simpa using hp.symm)⟩
  · constructor
    · intro h'
      obtain ⟨c, rfl⟩ := h'.single hl
      exact ⟨a, [], c, [], c, rfl, h', (SI.empty h2).mpr ⟨rfl, rfl⟩, by simp, .refl_left c⟩
    · rintro ⟨a1, a2, c1, c2, c, rfl, ⟨x, hx, hs⟩, h', hp, hsh⟩
      obtain ⟨rfl, h''⟩ := (SI.empty h2).mp h'
      simp at h''; subst h''
      obtain rfl := hsh.nil_right
      exact ⟨x, hx, hs.perm (by simpa using hp.symm)⟩
  · constructor
    · rintro ⟨x, hx, hs⟩
      rw [h] at hx; cases hx
      cases hs with
      | interleave g1 g2 s1 s2 hp hsh =>
        exact ⟨_, _, _, _, _, rfl, ⟨_, g1, s1⟩, ⟨_, g2, s2⟩, hp, hsh⟩
    · rintro ⟨a1, a2, c1, c2, c, rfl, ⟨x, hx, hs⟩, ⟨y, hy, hs'⟩, hp, hsh⟩
      exact ⟨_, h, .interleave hx hy hs hs' hp hsh⟩

theorem AfterOf.sem {l r i a cs} (h : AfterOf lk l r i) :
    SI L lk pm i a cs ↔ ∃ c cs', cs = c :: cs' ∧ SI L lk pm l a [c] ∧ SI L lk pm r [] cs' := by
  obtain ⟨p, h1, h⟩ := h
  rcases h with ⟨rfl, h⟩ | ⟨_, h⟩
  · constructor
    · intro h'; exact absurd h' (SI.notAllowed h)
    · rintro ⟨c, cs', _, h', _⟩; exact absurd h' (SI.notAllowed h1)
  · constructor
    · rintro ⟨x, hx, hs⟩
      rw [h] at hx; cases hx
      cases hs with
      | after g1 g2 s1 s2 => exact ⟨_, _, rfl, ⟨_, g1, s1⟩, ⟨_, g2, s2⟩⟩
    · rintro ⟨c, cs', rfl, ⟨x, hx, hs⟩, ⟨y, hy, hs'⟩⟩
      exact ⟨_, h, .after hx hy hs hs'⟩

theorem OneOf.sem {l i a cs f} (h : OneOf lk l i) :
    SI L lk pm i a cs ↔ S L lk pm (.oneOrMore l f) a cs := by
  obtain ⟨p, h1, h⟩ := h
  constructor
  · rintro ⟨x, hx, hs⟩
    rw [h] at hx; cases hx
    exact hs.oneOrMore_flag
  · intro hs
    exact ⟨_, h, hs.oneOrMore_flag⟩

end
end Verif
