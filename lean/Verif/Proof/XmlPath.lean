import Verif.Proof.XmlLeaf
/-
Paths relative to `xml:base`.
-/
namespace Verif.XS
open Verif Verif.Rng

theorem splitBack_noSlash {c : Str} (h : '/' ∉ c) : splitBack c = ([], c) := by
  have : c.reverse.takeWhile (· != '/') = c.reverse := by
    have := List.takeWhile_append_of_pos (p := (· != '/')) (l₁ := c.reverse) (l₂ := []) (by
      intro a ha
      have : a ≠ '/' := fun e => h (by rw [← e]; exact List.mem_reverse.1 ha)
      simpa using this)
    simpa using this
  unfold splitBack
  rw [this, List.reverse_reverse]
  simp

theorem splitBack_slash {d c : Str} (h : '/' ∉ c) : splitBack (d ++ '/' :: c) = (d, c) := by
  have : (d ++ '/' :: c).reverse.takeWhile (· != '/') = c.reverse := by
    rw [List.reverse_append, List.reverse_cons, List.append_assoc]
    rw [List.takeWhile_append_of_pos]
    · simp
    · intro a ha
      have : a ≠ '/' := fun e => h (by rw [← e]; exact List.mem_reverse.1 ha)
      simpa using this
  unfold splitBack
  rw [this, List.reverse_reverse]
  have e1 : (d ++ '/' :: c).length - c.length = d.length + 1 := by simp; omega
  have e2 : d ++ '/' :: c = (d ++ ['/']) ++ c := by simp
  have e3 : List.take (d.length + 1) (d ++ '/' :: c) = d ++ ['/'] := by
    rw [e2, List.take_left' (by simp)]
  simp only [e1, e3, List.dropLast_concat]

/-- a directory without its last slash (but the root stays) -/
theorem dir_shape {d : Str} (h : Dir d) : d = [] ∨ ∃ k, (∀ x, lenBeforeBody (d ++ x) = k) ∧
    (d = ['/'] ∧ k = 1 ∨ ∃ e, d = e ++ ['/'] ∧ e ≠ [] ∧ k ≤ e.length) := by
  induction h with
  | none => exact .inl rfl
  | root => exact .inr ⟨1, fun x => rfl, .inl ⟨rfl, rfl⟩⟩
  | here => exact .inr ⟨1, fun x => rfl, .inr ⟨['.'], rfl, by simp, Nat.le_refl _⟩⟩
  | @step d c hd hc hn hp ih =>
    right
    rcases ih with rfl | ⟨k, h1, h2⟩
    · refine ⟨0, ?_, .inr ⟨c, by simp, hn, Nat.zero_le _⟩⟩
      intro x
      cases c with
      | nil => exact absurd rfl hn
      | cons a c =>
        have ha : a ≠ '/' := fun e => hc (by rw [e]; exact List.mem_cons_self ..)
        cases c with
        | nil =>
          have hd : a ≠ '.' := fun e => hp (by rw [e])
          show lenBeforeBody (a :: '/' :: x) = 0
          unfold lenBeforeBody
          split <;> simp_all
        | cons b c =>
          have hb : b ≠ '/' := fun e => hc (by rw [e]; simp)
          show lenBeforeBody (a :: b :: (c ++ ['/'] ++ x)) = 0
          unfold lenBeforeBody
          split <;> simp_all
    · refine ⟨k, fun x => by rw [List.append_assoc, List.append_assoc]; exact h1 _, .inr ⟨d ++ c, rfl, by simp [hn], ?_⟩⟩
      rcases h2 with ⟨rfl, rfl⟩ | ⟨e, rfl, _, hk⟩
      · simp
      · simp; omega

/-- a directory without its last slash (but the root stays) -/
def strip (d : Str) : Str := if d = ['/'] then ['/'] else d.dropLast

theorem back_of {d c : Str} (h : Dir d) (hc : '/' ∉ c) (hn : c ≠ []) (hp : c ≠ ['.']) :
    lenBeforeBody (d ++ c) < (d ++ c).length ∧ (splitBack ((d ++ c).drop (lenBeforeBody (d ++ c)))).2 = c ∧
    (d ++ c).take (lenBeforeBody (d ++ c)) ++ (splitBack ((d ++ c).drop (lenBeforeBody (d ++ c)))).1 = strip d := by
  rcases dir_shape h with rfl | ⟨k, h1, h2⟩
  · have e0 : lenBeforeBody ([] ++ c) = 0 := by
      rw [List.nil_append]
      cases c with
      | nil => exact absurd rfl hn
      | cons a c =>
        have ha : a ≠ '/' := fun e => hc (by rw [e]; exact List.mem_cons_self ..)
        cases c with
        | nil =>
          have hd : a ≠ '.' := fun e => hp (by rw [e])
          unfold lenBeforeBody
          split <;> simp_all
        | cons b c =>
          have hb : b ≠ '/' := fun e => hc (by rw [e]; simp)
          unfold lenBeforeBody
          split <;> simp_all
    rw [e0]
    simp only [List.nil_append, List.drop_zero, List.take_zero, splitBack_noSlash hc]
    exact ⟨List.length_pos_iff.2 hn, trivial, rfl⟩
  · rw [h1 c]
    rcases h2 with ⟨rfl, rfl⟩ | ⟨e, rfl, he, hk⟩
    · simp only [List.cons_append, List.nil_append, List.drop_succ_cons, List.drop_zero, splitBack_noSlash hc]
      exact ⟨by simp; exact List.length_pos_iff.2 hn, trivial, rfl⟩
    · have e1 : (e ++ ['/'] ++ c).drop k = e.drop k ++ '/' :: c := by
        rw [List.append_assoc, List.drop_append_of_le_length hk]; rfl
      have e2 : (e ++ ['/'] ++ c).take k = e.take k := by
        rw [List.append_assoc, List.take_append_of_le_length hk]
      rw [e1, e2, splitBack_slash hc]
      refine ⟨by simp; omega, rfl, ?_⟩
      have : ¬ e ++ ['/'] = ['/'] := by
        intro h
        apply he
        simpa using h
      simp [strip, this]

theorem trimRight_of {d c : Str} (h : Dir d) (hc : '/' ∉ c) (hn : c ≠ []) (hp : c ≠ ['.']) (n : Nat) :
    trimRight n (d ++ c) = d ++ c := by
  cases n with
  | zero => rfl
  | succ n =>
    obtain ⟨h1, h2, _⟩ := back_of h hc hn hp
    unfold trimRight
    simp only []
    rw [if_neg (by omega)]
    cases hs : splitBack (List.drop (lenBeforeBody (d ++ c)) (d ++ c)) with
    | mk rest comp =>
      rw [hs] at h2
      simp only at h2
      subst h2
      have : realComponent comp = true := by simp [realComponent, hn, hp]
      simp only [this, if_true]

theorem trimRight_strip {d : Str} (h : Dir d) (n : Nat) : trimRight n (strip d) = strip d := by
  cases h with
  | none => cases n <;> rfl
  | root => cases n <;> rfl
  | here => cases n <;> rfl
  | @step d c h1 h2 h3 h4 =>
    have : strip (d ++ c ++ ['/']) = d ++ c := by
      unfold strip
      rw [if_neg, List.dropLast_concat]
      intro e
      have h0 := congrArg List.length e
      have hl := List.length_pos_iff.2 h3
      simp only [List.length_append, List.length_cons, List.length_nil] at h0
      omega
    rw [this]
    exact trimRight_of h1 h2 h3 h4 n

theorem parentPath_of {d c : Str} (h : Dir d) (hc : '/' ∉ c) (hn : c ≠ []) (hp : c ≠ ['.']) :
    parentPath (d ++ c) = some (strip d) := by
  obtain ⟨h1, h2, h3⟩ := back_of h hc hn hp
  unfold parentPath
  simp only [trimRight_of h hc hn hp]
  rw [if_neg (by omega), h3]
  simp only [trimRight_strip h]

theorem strip_push {d : Str} (h : Dir d) {r : Str} (hr : ¬ r.head? = some '/') : pushPath (strip d) r = d ++ r := by
  unfold pushPath
  rw [if_neg hr]
  cases h with
  | none => rfl
  | root => rfl
  | here => rfl
  | @step d c h1 h2 h3 h4 =>
    have : strip (d ++ c ++ ['/']) = d ++ c := by
      unfold strip
      rw [if_neg, List.dropLast_concat]
      intro e
      have h0 := congrArg List.length e
      have hl := List.length_pos_iff.2 h3
      simp only [List.length_append, List.length_cons, List.length_nil] at h0
      omega
    rw [this, if_neg]
    · simp
    · rintro (e | e)
      · simp [h3] at e
      · rw [List.getLast?_append] at e
        cases hl : c.getLast? with
        | none => exact h3 (List.getLast?_eq_none_iff.1 hl)
        | some a =>
          rw [hl, Option.some_or] at e
          cases e
          exact h2 (List.mem_of_getLast? hl)

theorem head_absolute {p : Str} : p.head? = some '/' ↔ Absolute p := by
  cases p with
  | nil => exact ⟨fun h => (by cases h), fun ⟨_, h⟩ => (by cases h)⟩
  | cons c p => exact ⟨fun h => ⟨p, by simp at h; rw [h]⟩, fun ⟨r, h⟩ => by cases h; rfl⟩

theorem dir_last {d : Str} (h : Dir d) (hn : d ≠ []) : d.getLast? = some '/' := by
  cases h with
  | none => exact absurd rfl hn
  | root => rfl
  | here => rfl
  | step => simp

theorem resolve_merged {b r : Str} {h : Str} (hm : Merged b h r) (ha : ¬ Absolute h) : resolve (some b) h = r := by
  have hh : ¬ h.head? = some '/' := fun e => ha (head_absolute.1 e)
  obtain ⟨hd, hl, hp⟩ := hm
  next dir last =>
  unfold resolve
  rw [if_neg hh]
  simp only
  by_cases hn : last = []
  · subst hn
    rw [List.append_nil]
    by_cases hdn : dir = []
    · subst hdn
      simp [popPath, parentPath, trimRight, lenBeforeBody, pushPath, hh]
    · rw [if_pos (dir_last hd hdn)]
      unfold pushPath
      rw [if_neg hh, if_pos (.inr (dir_last hd hdn))]
  · rw [if_neg]
    · unfold popPath
      rw [parentPath_of hd hl hn hp]
      exact strip_push hd hh
    · rw [List.getLast?_append]
      cases hg : last.getLast? with
      | none => exact absurd (List.getLast?_eq_none_iff.1 hg) hn
      | some a =>
        rw [Option.some_or]
        intro e
        cases e
        exact hl (List.mem_of_getLast? hg)

theorem resolve_absolute {b : Option Str} {h : Str} (ha : Absolute h) : resolve b h = h := by
  unfold resolve
  rw [if_pos (head_absolute.2 ha)]

theorem resolve_none {h : Str} : resolve none h = h := by
  unfold resolve
  split <;> rfl

theorem baseAtt_none {as : List TAttr} : baseAtt as = none ↔ NoBase as := by
  unfold baseAtt NoBase
  rw [Option.map_eq_none_iff, List.find?_eq_none]
  constructor
  · intro h a ha hn hk
    exact h a ha (by rw [hn, hk]; decide)
  · intro h a ha hc
    rw [Bool.and_eq_true, beq_iff_eq, beq_iff_eq] at hc
    exact h a ha hc.1 hc.2

theorem baseAtt_some {as : List TAttr} {v : Str} : baseAtt as = some v ↔ HasBase as v := by
  unfold baseAtt HasBase
  constructor
  · intro h
    obtain ⟨a, ha, rfl⟩ := Option.map_eq_some_iff.1 h
    rw [List.find?_eq_some_iff_append] at ha
    obtain ⟨h1, pre, post, rfl, h2⟩ := ha
    rw [Bool.and_eq_true, beq_iff_eq, beq_iff_eq] at h1
    obtain ⟨ns, name, val⟩ := a
    simp only at h1
    refine ⟨pre, post, by rw [← h1.1, ← h1.2], fun b hb hn hk => ?_⟩
    have := h2 b hb
    rw [hn, hk] at this
    exact absurd this (by decide)
  · rintro ⟨pre, post, rfl, h⟩
    rw [Option.map_eq_some_iff]
    refine ⟨⟨some "http://www.w3.org/XML/1998/namespace".toList, "base".toList, v⟩, ?_, rfl⟩
    rw [List.find?_eq_some_iff_append]
    refine ⟨by rw [Bool.and_eq_true, beq_iff_eq, beq_iff_eq]; exact ⟨rfl, rfl⟩, pre, post, rfl, fun b hb => ?_⟩
    have := h b hb
    cases hc : (b.ns == some "http://www.w3.org/XML/1998/namespace".toList && b.name == "base".toList) with
    | false => rfl
    | true =>
      rw [Bool.and_eq_true, beq_iff_eq, beq_iff_eq] at hc
      exact absurd hc.2 (this hc.1)

/-- the base path at an element, as `rebase_path` computes it -/
def baseOf (cx : Anc) : Option Str := (cx.filterMap baseAtt).reverse.foldl (fun r b => some (resolve r b)) none

theorem baseOf_cons (as : List TAttr) (up : Anc) : baseOf (as :: up) =
    match baseAtt as with
    | none => baseOf up
    | some v => some (resolve (baseOf up) v) := by
  unfold baseOf
  rw [List.filterMap_cons]
  cases baseAtt as with
  | none => rfl
  | some v => simp [List.foldl_append]

theorem base_is {cx : Anc} {b : Option Str} (h : Base cx b) : baseOf cx = b := by
  induction h with
  | none => rfl
  | inherit hn _ ih => rw [baseOf_cons, baseAtt_none.2 hn]; exact ih
  | first hb _ ih => rw [baseOf_cons, baseAtt_some.2 hb]; simp only [ih, resolve_none]
  | absolute hb ha _ ih => rw [baseOf_cons, baseAtt_some.2 hb]; simp only [resolve_absolute ha]
  | relative hb ha _ hm ih => rw [baseOf_cons, baseAtt_some.2 hb]; simp only [ih, resolve_merged hm ha]

theorem href_is {cx : Anc} {h r : Str} (hh : Href cx h r) : rebasePath cx h = r := by
  show resolve (baseOf cx) h = r
  cases hh with
  | plain hb => rw [base_is hb, resolve_none]
  | absolute _ ha => exact resolve_absolute ha
  | relative hb ha hm => rw [base_is hb]; exact resolve_merged hm ha

end Verif.XS
