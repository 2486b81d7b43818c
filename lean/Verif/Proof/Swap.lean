import Verif.Spec.Swap
/-
Replacing elements by others that match the same patterns.
-/
namespace Verif.Swap
variable {D V : Type} {L : Lib D V} {env : Env D V} {x y : Node}

theorem swapped_append {c1 c2 : List Node} : ∀ {c'}, Swapped x y (c1 ++ c2) c' →
    ∃ c1' c2', c' = c1' ++ c2' ∧ Swapped x y c1 c1' ∧ Swapped x y c2 c2' := by
  induction c1 with
  | nil => exact fun {c'} h => ⟨[], c', rfl, .nil, h⟩
  | cons n c1 ih =>
    intro c' h
    generalize hc : n :: c1 ++ c2 = c at h
    cases h with
    | nil => cases hc
    | same h => cases hc; obtain ⟨a, b, rfl, h1, h2⟩ := ih h; exact ⟨_ :: a, b, rfl, .same h1, h2⟩
    | swap h => cases hc; obtain ⟨a, b, rfl, h1, h2⟩ := ih h; exact ⟨_ :: a, b, rfl, .swap h1, h2⟩
    | inside hk h => cases hc; obtain ⟨a, b, rfl, h1, h2⟩ := ih h; exact ⟨_ :: a, b, rfl, .inside hk h1, h2⟩

theorem swapped_shuffle {c1 c2 c : List Node} (hs : Shuffle c1 c2 c) : ∀ {c'}, Swapped x y c c' →
    ∃ c1' c2', Shuffle c1' c2' c' ∧ Swapped x y c1 c1' ∧ Swapped x y c2 c2' := by
  induction hs with
  | nil => intro c' h; cases h; exact ⟨[], [], .nil, .nil, .nil⟩
  | left _ ih =>
    intro c' h
    cases h with
    | same h => obtain ⟨a, b, hs, h1, h2⟩ := ih h; exact ⟨_, _, .left hs, .same h1, h2⟩
    | swap h => obtain ⟨a, b, hs, h1, h2⟩ := ih h; exact ⟨_, _, .left hs, .swap h1, h2⟩
    | inside hk h => obtain ⟨a, b, hs, h1, h2⟩ := ih h; exact ⟨_, _, .left hs, .inside hk h1, h2⟩
  | right _ ih =>
    intro c' h
    cases h with
    | same h => obtain ⟨a, b, hs, h1, h2⟩ := ih h; exact ⟨_, _, .right hs, h1, .same h2⟩
    | swap h => obtain ⟨a, b, hs, h1, h2⟩ := ih h; exact ⟨_, _, .right hs, h1, .swap h2⟩
    | inside hk h => obtain ⟨a, b, hs, h1, h2⟩ := ih h; exact ⟨_, _, .right hs, h1, .inside hk h2⟩

theorem swapped_texts (hx : ∃ nm as k, x = Node.elem nm as k) {c c' : List Node} (h : Swapped x y c c') :
    (∀ n ∈ c, ∃ s, n = Node.text s) → c' = c := by
  induction h with
  | nil => exact fun _ => rfl
  | same _ ih => exact fun ht => by rw [ih fun n hn => ht n (.tail _ hn)]
  | swap _ ih =>
    intro ht
    obtain ⟨s, hs⟩ := ht x (.head _)
    obtain ⟨nm, as, k, rfl⟩ := hx
    cases hs
  | inside _ _ _ ih => intro ht; obtain ⟨s, hs⟩ := ht _ (.head _); cases hs

theorem swapped_text (hx : ∃ nm as k, x = Node.elem nm as k) {s : Str} {c' : List Node} (h : Swapped x y [.text s] c') : c' = [.text s] :=
  swapped_texts hx h fun n hn => ⟨s, List.mem_singleton.1 hn⟩

theorem swapped_weak (hx : ∃ nm as k, x = Node.elem nm as k) {k c : List Node} (hw : Weak k c) : ∀ {k'}, Swapped x y k k' →
    ∃ c', Weak k' c' ∧ Swapped x y c c' := by
  induction hw with
  | nil => intro k' h; cases h; exact ⟨[], .nil, .nil⟩
  | keep _ ih =>
    intro k' h
    cases h with
    | same h => obtain ⟨c', h1, h2⟩ := ih h; exact ⟨_, .keep h1, .same h2⟩
    | swap h => obtain ⟨c', h1, h2⟩ := ih h; exact ⟨_, .keep h1, .swap h2⟩
    | inside hk h => obtain ⟨c', h1, h2⟩ := ih h; exact ⟨_, .keep h1, .inside hk h2⟩
  | drop hs _ ih =>
    intro k' h
    obtain ⟨nm, as, k, rfl⟩ := hx
    cases h with
    | same h => obtain ⟨c', h1, h2⟩ := ih h; exact ⟨c', .drop hs h1, h2⟩

theorem swapped_match (hx : ∃ nm as k, x = Node.elem nm as k) {p : Pattern D V} {a c} (hm : Match L env p a c) :
    Fits L env p x y → ∀ {c'}, Swapped x y c c' → Match L env p a c' := by
  induction hm with
  | empty => intro _ c' h; cases h; exact .empty
  | text hc => intro _ c' h; rw [swapped_texts hx h hc]; exact .text hc
  | choice hp _ ih => intro hf c' h; exact .choice hp (ih (fun nc q hq => hf nc q (.choice hp hq)) h)
  | groupNil => intro _ c' h; cases h; exact .groupNil
  | groupCons _ _ hp ih1 ih2 =>
    intro hf c' h
    obtain ⟨c1, c2, rfl, h1, h2⟩ := swapped_append h
    refine .groupCons (ih1 (fun nc q hq => hf nc q (.group (.head _) hq)) h1) (ih2 (fun nc q hq => hf nc q ?_) h2) hp
    cases hq with | group hm hq => exact .group (.tail _ hm) hq
  | interleaveNil => intro _ c' h; cases h; exact .interleaveNil
  | interleaveCons _ _ hp hs ih1 ih2 =>
    intro hf c' h
    obtain ⟨c1, c2, hs', h1, h2⟩ := swapped_shuffle hs h
    refine .interleaveCons (ih1 (fun nc q hq => hf nc q (.interleave (.head _) hq)) h1) (ih2 (fun nc q hq => hf nc q ?_) h2) hp hs'
    cases hq with | interleave hm hq => exact .interleave (.tail _ hm) hq
  | mixed _ hc hs ih =>
    intro hf c' h
    obtain ⟨c1, c2, hs', h1, h2⟩ := swapped_shuffle hs h
    obtain rfl := swapped_texts hx h2 hc
    exact .mixed (ih (fun nc q hq => hf nc q (.mixed hq)) h1) hc hs'
  | optionalNone => intro _ c' h; cases h; exact .optionalNone
  | optionalSome _ ih => intro hf c' h; exact .optionalSome (ih (fun nc q hq => hf nc q (.optional hq)) h)
  | zeroOrMoreNil => intro _ c' h; cases h; exact .zeroOrMoreNil
  | zeroOrMoreCons _ _ hp ih1 ih2 =>
    intro hf c' h
    obtain ⟨c1, c2, rfl, h1, h2⟩ := swapped_append h
    exact .zeroOrMoreCons (ih1 (fun nc q hq => hf nc q (.zeroOrMore hq)) h1) (ih2 hf h2) hp
  | oneOrMore _ _ hp ih1 ih2 =>
    intro hf c' h
    obtain ⟨c1, c2, rfl, h1, h2⟩ := swapped_append h
    refine .oneOrMore (ih1 (fun nc q hq => hf nc q (.oneOrMore hq)) h1) (ih2 (fun nc q hq => hf nc q ?_) h2) hp
    cases hq with | zeroOrMore hq => exact .oneOrMore hq
  | attr hn hw hm _ => intro _ c' h; cases h; exact .attr hn hw hm
  | element hn hw hm ih =>
    intro hf c' h
    cases h with
    | same h => cases h; exact .element hn hw hm
    | swap h => cases h; exact hf _ _ .here (.element hn hw hm)
    | inside hk h =>
      cases h
      obtain ⟨c', h1, h2⟩ := swapped_weak hx hw hk
      exact .element hn h1 (ih (fun nc q hq => hf nc q (.element hq)) h2)
  | ref hn _ ih => intro hf c' h; exact .ref hn (ih (fun nc q hq => hf nc q (.ref hn hq)) h)
  | value hv => intro _ c' h; rw [swapped_text hx h]; exact .value hv
  | data hv => intro _ c' h; rw [swapped_text hx h]; exact .data hv
  | dataExcept hv he => intro _ c' h; rw [swapped_text hx h]; exact .dataExcept hv he
  | list hw hm _ => intro _ c' h; rw [swapped_text hx h]; exact .list hw hm

end Verif.Swap
