import Verif.Spec.Grammar
/-
Semantics of store patterns (proof device): what a pattern of the store accepts, as an inductive
predicate over a lookup function `lk`.  `S pm lk p a cs`: pattern `p` accepts attributes `a` for the
innermost open element, and the stack `cs` of remaining contents (innermost first).
`pm = true`: a `list` may be fed several text chunks one after the other (as the code does);
`pm = false`: exactly one.
-/
set_option linter.unusedSectionVars false
namespace Verif
variable {D V : Type}

abbrev Lk (D V : Type) := Nat → Option (Pat D V)

def isTextNode : Node → Prop
  | .text _ => True
  | .elem .. => False

/-- the content does not begin with text -/
def NoTextHead (c : List Node) : Prop := ∀ s c', c ≠ .text s :: c'

/-- `c'` is `c` with some whitespace-only text nodes left out; for `pm = false` no text may follow one that is left out -/
inductive WeakP (pm : Bool) : List Node → List Node → Prop
  | nil : WeakP pm [] []
  | keep {x c c'} : WeakP pm c c' → WeakP pm (x :: c) (x :: c')
  | drop {s c c'} : WsText s → WeakP pm c c' → (pm = false → NoTextHead c') → WeakP pm (.text s :: c) c'

theorem WeakP.weak {pm c c'} (h : WeakP pm c c') : Weak c c' := by
  induction h with
  | nil => exact .nil
  | keep _ ih => exact .keep ih
  | drop h _ _ ih => exact .drop h ih

theorem Weak.toP {c c'} (h : Weak c c') : WeakP true c c' := by
  induction h with
  | nil => exact .nil
  | keep _ ih => exact .keep ih
  | drop h _ ih => exact .drop h ih nofun

theorem WeakP.refl {pm} : ∀ c, WeakP pm c c
  | [] => .nil
  | _ :: c => .keep (WeakP.refl c)

section
variable (L : Lib D V) (lk : Lk D V)

/-- truth value of an exception pattern in the store -/
inductive DM : Pat D V → Str → Bool → Prop
  | value {v s b} : L.validV v s = some b → DM (.datatypeValue v) s b
  | data {d s b} : L.validD d s = some b → DM (.datatype d) s b
  | dataExcept {d e p s b1 b2} : L.validD d s = some b1 → lk e = some p → DM p s b2 →
      DM (.datatypeExcept d e) s (b1 && !b2)
  | notAllowed {s} : DM .notAllowed s false
  | choice {l r f p q s b1 b2} : lk l = some p → lk r = some q → DM p s b1 → DM q s b2 →
      DM (.choice l r f) s (b1 || b2)

inductive S (pm : Bool) : Pat D V → List Attr → List (List Node) → Prop
  | empty : S pm .empty [] [[]]
  | text {c} : (∀ x ∈ c, ∃ s, x = Node.text s) → S pm .text [] [c]
  | choiceL {l r f p a cs} : lk l = some p → S pm p a cs → S pm (.choice l r f) a cs
  | choiceR {l r f p a cs} : lk r = some p → S pm p a cs → S pm (.choice l r f) a cs
  | group {l r f p q a a1 a2 c1 c2} : lk l = some p → lk r = some q →
      S pm p a1 [c1] → S pm q a2 [c2] → a.Perm (a1 ++ a2) → S pm (.group l r f) a [c1 ++ c2]
  | interleave {l r f p q a a1 a2 c1 c2 c} : lk l = some p → lk r = some q →
      S pm p a1 [c1] → S pm q a2 [c2] → a.Perm (a1 ++ a2) → Shuffle c1 c2 c →
      S pm (.interleave l r f) a [c]
  | one {i f p a c} : lk i = some p → S pm p a [c] → S pm (.oneOrMore i f) a [c]
  | more {i f p a a1 a2 c1 c2} : lk i = some p → S pm p a1 [c1] → S pm (.oneOrMore i f) a2 [c2] →
      a.Perm (a1 ++ a2) → S pm (.oneOrMore i f) a [c1 ++ c2]
  | attr {nc i p name v c} : contains nc name = true → lk i = some p → Weak [.text v] c →
      S pm p [] [c] → S pm (.attr nc i) [⟨name, v⟩] [[]]
  | element {nc i p name a kids c} : contains nc name = true → lk i = some p → WeakP pm kids c →
      S pm p a [c] → S pm (.element nc i) [] [[.elem name a kids]]
  | datatype {d s} : L.validD d s = some true → S pm (.datatype d) [] [[.text s]]
  | datatypeValue {v s} : L.validV v s = some true → S pm (.datatypeValue v) [] [[.text s]]
  | datatypeExcept {d e p s} : L.validD d s = some true → lk e = some p → DM L lk p s false →
      S pm (.datatypeExcept d e) [] [[.text s]]
  | list {i p ss} : lk i = some p → ss ≠ [] → (pm = true ∨ ss.length = 1) →
      S pm p [] [(ss.flatMap splitWs).map Node.text] → S pm (.list i) [] [ss.map Node.text]
  | after {i j p q a c cs} : lk i = some p → lk j = some q → S pm p a [c] → S pm q [] cs →
      S pm (.after i j) a (c :: cs)

/-- semantics of an identity -/
def SI (pm : Bool) (i : Nat) (a : List Attr) (cs : List (List Node)) : Prop :=
  ∃ p, lk i = some p ∧ S L lk pm p a cs
end

section
variable {L : Lib D V} {lk : Lk D V} {pm : Bool}

theorem S.ne_nil {p : Pat D V} {a cs} (h : S L lk pm p a cs) : cs ≠ [] := by
  induction h <;> simp_all

theorem S.perm {p : Pat D V} {a cs} (h : S L lk pm p a cs) :
    ∀ {a'}, a.Perm a' → S L lk pm p a' cs := by
  induction h with
  | empty => intro a' h; rw [h.nil_eq.symm]; exact .empty
  | text hc => intro a' h; rw [h.nil_eq.symm]; exact .text hc
  | choiceL h1 _ ih => intro a' h; exact .choiceL h1 (ih h)
  | choiceR h1 _ ih => intro a' h; exact .choiceR h1 (ih h)
  | group h1 h2 hp hq hperm _ _ => intro a' h; exact .group h1 h2 hp hq (h.symm.trans hperm)
  | interleave h1 h2 hp hq hperm hs _ _ =>
    intro a' h; exact .interleave h1 h2 hp hq (h.symm.trans hperm) hs
  | one h1 _ ih => intro a' h; exact .one h1 (ih h)
  | more h1 hp hq hperm _ _ => intro a' h; exact .more h1 hp hq (h.symm.trans hperm)
  | attr h1 h2 h3 h4 _ =>
    intro a' h; rw [List.perm_singleton.mp h.symm]; exact .attr h1 h2 h3 h4
  | element h1 h2 h3 h4 _ => intro a' h; rw [h.nil_eq.symm]; exact .element h1 h2 h3 h4
  | datatype h1 => intro a' h; rw [h.nil_eq.symm]; exact .datatype h1
  | datatypeValue h1 => intro a' h; rw [h.nil_eq.symm]; exact .datatypeValue h1
  | datatypeExcept h1 h2 h3 => intro a' h; rw [h.nil_eq.symm]; exact .datatypeExcept h1 h2 h3
  | list h1 h2 h3 h4 _ => intro a' h; rw [h.nil_eq.symm]; exact .list h1 h2 h3 h4
  | after h1 h2 _ h4 ih _ => intro a' h; exact .after h1 h2 (ih h) h4

/-- the flag of a `oneOrMore` does not matter -/
theorem S.oneOrMore_flag {i f f' a cs} (h : S L lk pm (.oneOrMore i f) a cs) :
    S L lk pm (.oneOrMore i f') a cs := by
  generalize hp : (Pat.oneOrMore i f : Pat D V) = p at h
  induction h with
  | one h1 h2 _ => cases hp; exact .one h1 h2
  | more h1 h2 h3 h4 _ ih => cases hp; exact .more h1 h2 (ih rfl) h4
  | _ => cases hp

theorem S.notAllowed {a cs} : ¬ S L lk pm .notAllowed a cs := by
  intro h; cases h

theorem S.mono_pm {p : Pat D V} {a cs} (h : S L lk false p a cs) : S L lk pm p a cs := by
  induction h with
  | empty => exact .empty
  | text hc => exact .text hc
  | choiceL h1 _ ih => exact .choiceL h1 ih
  | choiceR h1 _ ih => exact .choiceR h1 ih
  | group h1 h2 _ _ hperm ih1 ih2 => exact .group h1 h2 ih1 ih2 hperm
  | interleave h1 h2 _ _ hperm hs ih1 ih2 => exact .interleave h1 h2 ih1 ih2 hperm hs
  | one h1 _ ih => exact .one h1 ih
  | more h1 _ _ hperm ih1 ih2 => exact .more h1 ih1 ih2 hperm
  | attr h1 h2 h3 _ ih => exact .attr h1 h2 h3 ih
  | element h1 h2 h3 _ ih => exact .element h1 h2 (by cases pm; exact h3; exact h3.weak.toP) ih
  | datatype h1 => exact .datatype h1
  | datatypeValue h1 => exact .datatypeValue h1
  | datatypeExcept h1 h2 h3 => exact .datatypeExcept h1 h2 h3
  | list h1 h2 h3 _ ih => exact .list h1 h2 (Or.inr (by simpa using h3)) ih
  | after h1 h2 _ _ ih1 ih2 => exact .after h1 h2 ih1 ih2

end

section
variable {α : Type}
theorem Shuffle.nil_left : ∀ {b c : List α}, Shuffle [] b c → c = b := by
  intro b c h
  generalize ha : ([] : List α) = a at h
  induction h with
  | nil => rfl
  | left _ _ => cases ha
  | right _ ih => rw [ih ha]
theorem Shuffle.nil_right : ∀ {a c : List α}, Shuffle a [] c → c = a := by
  intro a c h
  generalize hb : ([] : List α) = b at h
  induction h with
  | nil => rfl
  | right _ _ => cases hb
  | left _ ih => rw [ih hb]
theorem Shuffle.refl_left : ∀ (a : List α), Shuffle a [] a
  | [] => .nil
  | _ :: a => .left (refl_left a)
theorem Shuffle.refl_right : ∀ (a : List α), Shuffle [] a a
  | [] => .nil
  | _ :: a => .right (refl_right a)
theorem Shuffle.symm {a b c : List α} (h : Shuffle a b c) : Shuffle b a c := by
  induction h with
  | nil => exact .nil
  | left _ ih => exact .right ih
  | right _ ih => exact .left ih
end

theorem Weak.refl : ∀ c, Weak c c
  | [] => .nil
  | _ :: c => .keep (Weak.refl c)

end Verif
