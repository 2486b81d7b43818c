import Verif.Spec.Viable
import Verif.Proof.Live
/-
Live patterns are satisfiable (proof device for C77).
-/
set_option linter.unusedSectionVars false
namespace Verif
open Viable
variable {D V : Type} {L : Lib D V} {lk : Lk D V} {QE : NameClass → Nat → Prop}

/-- the elements of a live pattern match some element -/
def QSat (L : Lib D V) (lk : Lk D V) (QE : NameClass → Nat → Prop) : Prop :=
  ∀ nc i, QE nc i → ∃ nm as kids, Proper (.elem nm as kids) ∧ S L lk true (.element nc i) [] [[.elem nm as kids]]

def NoText (c : List Node) : Prop := ∀ s, Node.text s ∉ c

/-- what is put in to complete a content -/
def Fill (c : List Node) : Prop := ProperL c ∧ (NoText c ∨ ∃ s, c = [.text s])

theorem Viable.ProperL.append {a b : List Node} (ha : ProperL a) (hb : ProperL b) (h : NoText a ∨ NoText b) : ProperL (a ++ b) := by
  induction a with
  | nil => exact hb
  | cons x a ih =>
    simp only [List.cons_append, ProperL] at ha ⊢
    obtain ⟨h1, h2, h3⟩ := ha
    refine ⟨h1, ih h2 (h.imp (fun h s hs => h s (List.mem_cons_of_mem _ hs)) id), ?_⟩
    intro s hx t rest he
    rcases h with h | h
    · subst hx; exact h s (by simp)
    · cases a with
      | nil => rw [List.nil_append] at he; rw [he] at h; exact h t (by simp)
      | cons y a => simp only [List.cons_append, List.cons.injEq] at he; exact h3 s hx t a (by rw [he.1])

theorem NoText.append {a b : List Node} (ha : NoText a) (hb : NoText b) : NoText (a ++ b) := by
  intro s hs
  rcases List.mem_append.mp hs with h | h
  · exact ha s h
  · exact hb s h

theorem noText_nil : NoText [] := fun _ h => nomatch h

theorem Shuffle.append : ∀ (a b : List Node), Shuffle a b (a ++ b)
  | [], b => Shuffle.refl_right b
  | _ :: a, b => .left (Shuffle.append a b)

/-- what live content of each kind can be completed with -/
def Kind (t : Nat) (c : List Node) : Prop :=
  ProperL c ∧ (t = 0 → c = []) ∧ (t ≤ 1 → NoText c) ∧ (NoText c ∨ ∃ s, c = [.text s])

theorem Kind.nil {t} : Kind t [] := ⟨trivial, fun _ => rfl, fun _ => noText_nil, .inl noText_nil⟩

theorem Kind.up {t t' c} (h : Kind t c) (ht : t ≤ t') : Kind t' c :=
  ⟨h.1, fun e => h.2.1 (by omega), fun e => h.2.2.1 (by omega), h.2.2.2⟩

theorem Kind.append {t1 t2 t a b} (h1 : Kind t1 a) (h2 : Kind t2 b) (l1 : t1 ≤ t) (l2 : t2 ≤ t) (g : Grp t1 t2) : Kind t (a ++ b) := by
  rcases g with rfl | rfl | ⟨g1, g2⟩
  · rw [h1.2.1 rfl]; exact h2.up l2
  · rw [h2.2.1 rfl, List.append_nil]; exact h1.up l1
  · have n1 := h1.2.2.1 g1
    have n2 := h2.2.2.1 g2
    refine ⟨h1.1.append h2.1 (.inl n1), fun e => ?_, fun _ => n1.append n2, .inl (n1.append n2)⟩
    rw [h1.2.1 (by omega), h2.2.1 (by omega)]; rfl

theorem Liv.sat (hQ : QSat L lk QE) {o d t} {p : Pat D V} (h : Liv L lk QE o d t p) : o = false → d = false →
    ∃ c, S L lk true p [] [c] ∧ Kind t c := by
  induction h with
  | empty => intro _ _; exact ⟨[], .empty, .nil⟩
  | text h => intro _ _; exact ⟨[], .text nofun, .nil⟩
  | @choice o d t l r f p q h1 h2 _ _ h5 ih1 ih2 =>
    intro ho hd
    rcases Classical.em (Dead lk p) with e | e
    · obtain ⟨c, hc, hk⟩ := ih2 (h5 e) ho hd
      exact ⟨c, .choiceR h2 hc, hk⟩
    · obtain ⟨c, hc, hk⟩ := ih1 e ho hd
      exact ⟨c, .choiceL h1 hc, hk⟩
  | group h1 h2 _ _ l1 l2 g ih1 ih2 =>
    intro ho hd
    obtain ⟨c1, s1, k1⟩ := ih1 ho hd
    obtain ⟨c2, s2, k2⟩ := ih2 ho hd
    exact ⟨_, .group h1 h2 s1 s2 (.refl _), k1.append k2 l1 l2 g⟩
  | interleave h1 h2 _ _ l1 l2 g ih1 ih2 =>
    intro ho hd
    obtain ⟨c1, s1, k1⟩ := ih1 ho hd
    obtain ⟨c2, s2, k2⟩ := ih2 ho hd
    exact ⟨_, .interleave h1 h2 s1 s2 (.refl _) (Shuffle.append c1 c2), k1.append k2 l1 l2 g⟩
  | oneOrMore h1 _ _ l2 ih =>
    intro _ hd
    obtain ⟨c, s, k⟩ := ih rfl hd
    exact ⟨c, .one h1 s, k.up l2⟩
  | atts _ _ _ h4 => intro _ _; exact ⟨[], .choiceR h4 .empty, .nil⟩
  | attr => intro ho; cases ho
  | element h1 h2 =>
    intro _ _
    obtain ⟨nm, as, kids, hp, hs⟩ := hQ _ _ h2
    have nt : NoText [.elem nm as kids] := by intro s h; cases h with | tail _ h => cases h
    exact ⟨_, hs, ⟨hp, trivial, fun s e => nomatch e⟩, fun e => by omega, fun _ => nt, .inl nt⟩
  | leaf _ h2 h3 =>
    intro _ hd
    obtain ⟨s, hs, hm⟩ := h3 hd
    exact ⟨_, hm, ⟨hs, trivial, fun _ _ _ _ => nofun⟩, fun e => by omega, fun e => by omega, .inr ⟨s, rfl⟩⟩

theorem Kind.fill {t c} (h : Kind t c) : Fill c := ⟨h.1, h.2.2.2⟩

/-- a live stack is satisfiable: contents for the open elements, innermost first, and what follows the outermost -/
theorem LivS.sat (hQ : QSat L lk QE) {b o d k} {p : Pat D V} (h : LivS L lk QE b o d k p) : o = false → d = false →
    ∃ cs c, cs.length = k ∧ S L lk true p [] (cs ++ [c]) ∧ (∀ x ∈ cs, Fill x) ∧ Kind b c := by
  induction h with
  | base h =>
    intro _ _
    obtain ⟨c, hs, hk⟩ := h.sat hQ rfl rfl
    exact ⟨[], c, rfl, hs, nofun, hk⟩
  | after h1 h2 h3 _ ih =>
    intro ho hd
    obtain ⟨c, hs, hk⟩ := h3.sat hQ ho hd
    obtain ⟨cs, c0, hl, hs', hf, hk'⟩ := ih rfl rfl
    refine ⟨c :: cs, c0, by simp [hl], .after h1 h2 hs hs', ?_, hk'⟩
    intro x hx
    rcases List.mem_cons.mp hx with rfl | hx
    · exact hk.fill
    · exact hf x hx
  | @choice o d k l r f p q h1 h2 _ _ h5 ih1 ih2 =>
    intro ho hd
    rcases Classical.em (p = .notAllowed) with e | e
    · obtain ⟨cs, c, hl, hs, r⟩ := ih2 (h5 e) ho hd
      exact ⟨cs, c, hl, .choiceR h2 hs, r⟩
    · obtain ⟨cs, c, hl, hs, r⟩ := ih1 e ho hd
      exact ⟨cs, c, hl, .choiceL h1 hs, r⟩

end Verif
