import Verif.Spec.Diagnostic
import Verif.Proof.Spans
/-
The lines of a file.
-/
namespace Verif.Loc
open Verif

theorem fileLines_ne (t : Str) : fileLines t ≠ [] := by
  cases t with
  | nil => nofun
  | cons c cs =>
    unfold fileLines
    split
    · nofun
    · split <;> nofun

theorem fileLines_length (t : Str) : (fileLines t).length = t.count '\n' + 1 := by
  induction t with
  | nil => rfl
  | cons c cs ih =>
    unfold fileLines
    by_cases h : c = '\n'
    · subst h; rw [if_pos rfl, List.length_cons, ih, List.count_cons_self]
    · rw [if_neg h, List.count_cons_of_ne h]
      split
      · rename_i e; exact absurd e (fileLines_ne cs)
      · rename_i l ls e; rw [e] at ih; exact ih

theorem line_lf {c : Char} {t a l b : Str} {k : Nat} (hc : c = '\n') (h : Line t k a l b) : Line (c :: t) (k + 1) (c :: a) l b := by
  obtain ⟨h1, h2, h3, h4⟩ := h
  subst hc
  refine ⟨by rw [h1]; rfl, by rw [List.count_cons_self, h2], .inr ?_, h4⟩
  rcases h3 with rfl | ⟨a', rfl⟩
  · exact ⟨[], rfl⟩
  · exact ⟨_ :: a', rfl⟩

theorem fileLines_line (t : Str) : ∀ k l, (fileLines t)[k]? = some l → ∃ b, Line t k ((fileLines t).take k).flatten l b := by
  induction t with
  | nil =>
    intro k l h
    cases k with
    | zero => cases h; exact ⟨[], rfl, rfl, .inl rfl, .inr ⟨by simp, rfl⟩⟩
    | succ k => cases h
  | cons c cs ih =>
    intro k l h
    by_cases hc : c = '\n'
    · have e : fileLines (c :: cs) = [c] :: fileLines cs := by rw [fileLines.eq_2, if_pos hc]
      rw [e] at h ⊢
      cases k with
      | zero => cases h; exact ⟨cs, rfl, rfl, .inl rfl, .inl ⟨[], by simp [hc], by simp⟩⟩
      | succ k =>
        obtain ⟨b, hb⟩ := ih k l h
        exact ⟨b, line_lf hc hb⟩
    · cases e0 : fileLines cs with
      | nil => exact absurd e0 (fileLines_ne cs)
      | cons l0 ls =>
        have e : fileLines (c :: cs) = (c :: l0) :: ls := by rw [fileLines.eq_2, if_neg hc, e0]
        rw [e] at h ⊢
        rw [e0] at ih
        cases k with
        | zero =>
          cases h
          obtain ⟨b, h1, h2, h3, h4⟩ := ih 0 l0 rfl
          refine ⟨b, ?_, rfl, .inl rfl, ?_⟩
          · simp only [List.take_zero, List.flatten_nil, List.nil_append] at h1
            rw [h1]; rfl
          · rcases h4 with ⟨x, rfl, h4⟩ | ⟨h4, h5⟩
            · exact .inl ⟨c :: x, rfl, by simp [h4, Ne.symm hc]⟩
            · exact .inr ⟨by simp [h4, Ne.symm hc], h5⟩
        | succ k =>
          obtain ⟨b, h1, h2, h3, h4⟩ := ih (k + 1) l h
          simp only [List.take_succ_cons, List.flatten_cons] at h1 h2 h3 ⊢
          refine ⟨b, by rw [h1]; simp, ?_, .inr ?_, h4⟩
          · rw [← h2]; simp [List.count_cons_of_ne hc]
          · rcases h3 with h3 | ⟨a', h3⟩
            · rw [h3] at h2; cases h2
            · exact ⟨c :: a', by rw [List.cons_append, h3]; rfl⟩

theorem line_append {a a' x x' : Str} (h : a ++ x = a' ++ x') (ha : a = [] ∨ ∃ b, a = b ++ ['\n']) (ha' : a' = [] ∨ ∃ b, a' = b ++ ['\n'])
    (hc : a.count '\n' = a'.count '\n') : a = a' := by
  rcases List.append_eq_append_iff.1 h with ⟨y, rfl, _⟩ | ⟨y, rfl, _⟩
  · rw [List.count_append] at hc
    have hy : y.count '\n' = 0 := by omega
    rcases List.eq_nil_or_concat y with rfl | ⟨z, c, rfl⟩
    · simp
    · rcases ha' with h' | ⟨b, h'⟩
      · simp at h'
      · rw [List.concat_eq_append, ← List.append_assoc] at h'
        have := (List.append_inj' h' rfl).2
        cases this
        simp at hy
  · rw [List.count_append] at hc
    have hy : y.count '\n' = 0 := by omega
    rcases List.eq_nil_or_concat y with rfl | ⟨z, c, rfl⟩
    · simp
    · rcases ha with h' | ⟨b, h'⟩
      · simp at h'
      · rw [List.concat_eq_append, ← List.append_assoc] at h'
        have := (List.append_inj' h' rfl).2
        cases this
        simp at hy

theorem mem_split_lf {x y b b' : Str} (h : x ++ '\n' :: b = y ++ '\n' :: b') (hx : '\n' ∉ x) (hy : '\n' ∉ y) : x = y := by
  induction x generalizing y with
  | nil =>
    cases y with
    | nil => rfl
    | cons c y => injection h with h1 h2; subst h1; simp at hy
  | cons c x ih =>
    cases y with
    | nil => injection h with h1 h2; subst h1; simp at hx
    | cons d y =>
      injection h with h1 h2
      rw [h1, ih h2 (fun h => hx (.tail _ h)) (fun h => hy (.tail _ h))]

theorem Line.unique {t a l b a' l' b' : Str} {k : Nat} (h : Line t k a l b) (h' : Line t k a' l' b') : a = a' ∧ l = l' ∧ b = b' := by
  obtain ⟨h1, h2, h3, h4⟩ := h
  obtain ⟨h1', h2', h3', h4'⟩ := h'
  rw [h1, List.append_assoc, List.append_assoc] at h1'
  have e := line_append h1' h3 h3' (h2.trans h2'.symm)
  subst e
  have e2 := List.append_cancel_left h1'
  have e3 : l = l' := by
    rcases h4 with ⟨x, rfl, hx⟩ | ⟨hl, rfl⟩
    · rcases h4' with ⟨y, rfl, hy⟩ | ⟨hl', rfl⟩
      · simp only [List.append_assoc, List.singleton_append] at e2
        rw [mem_split_lf e2 hx hy]
      · exfalso; apply hl'
        rw [List.append_nil] at e2
        rw [← e2]; simp
    · rcases h4' with ⟨y, rfl, hy⟩ | ⟨hl', rfl⟩
      · exfalso; apply hl
        rw [List.append_nil] at e2
        rw [e2]; simp
      · simpa using e2
  subst e3
  exact ⟨rfl, rfl, List.append_cancel_left e2⟩

theorem lineSpan_none {t : Str} {k : Nat} (h : t.count '\n' < k) : lineSpan t k = none := by
  unfold lineSpan
  rw [List.getElem?_eq_none (by rw [fileLines_length]; omega)]

theorem lineSpan_some {t a l b : Str} {k : Nat} (h : Line t k a l b) : lineSpan t k = some (byteLen a, byteLen a + byteLen l) := by
  have hk : k < (fileLines t).length := by
    rw [fileLines_length]
    obtain ⟨h1, h2, _⟩ := h
    rw [h1, List.count_append, List.count_append]; omega
  obtain ⟨b', hb⟩ := fileLines_line t k _ (List.getElem?_eq_getElem hk)
  obtain ⟨e1, e2, _⟩ := hb.unique h
  unfold lineSpan
  rw [List.getElem?_eq_getElem hk]
  simp only [e1, e2]

theorem line_exists {t : Str} {k : Nat} (h : k ≤ t.count '\n') : ∃ a l b, Line t k a l b := by
  have hk : k < (fileLines t).length := by rw [fileLines_length]; omega
  obtain ⟨b', hb⟩ := fileLines_line t k _ (List.getElem?_eq_getElem hk)
  exact ⟨_, _, _, hb⟩

end Verif.Loc
