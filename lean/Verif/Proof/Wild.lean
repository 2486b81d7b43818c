import Verif.Spec.Wild
/-
Where anything may be, everything matches.
-/
namespace Verif.Wild
variable {D V : Type} {L : Lib D V} {env : Env D V} {nm : QName}

theorem weak_id : ∀ k : List Node, Weak k k
  | [] => .nil
  | _ :: k => .keep (weak_id k)

theorem attrs_match {ps : List (Pattern D V)} (ha : .attr .anyName .text ∈ ps) : ∀ as : List Attr,
    Match L env (.zeroOrMore (.choice ps)) as []
  | [] => .zeroOrMoreNil
  | a :: as => .zeroOrMoreCons (a1 := [a]) (c1 := []) (.choice ha (.attr trivial (weak_id _) (.text fun x hx => ⟨_, List.mem_singleton.1 hx⟩)))
      (attrs_match ha as) (.refl _)

mutual
theorem node_match {n : Nat} (h : Anything env n) : ∀ x : Node, ∃ p, (p = .element .anyName (.ref n) ∨ p = .text) ∧ Match L env p [] [x]
  | .text s => ⟨.text, .inr rfl, .text fun x hx => ⟨s, List.mem_singleton.1 hx⟩⟩
  | .elem _ as k => ⟨_, .inl rfl, .element trivial (weak_id k) (anything_match h as k)⟩
theorem nodes_match {n : Nat} (h : Anything env n) {ps : List (Pattern D V)} (he : .element .anyName (.ref n) ∈ ps)
    (ha : .attr .anyName .text ∈ ps) (ht : .text ∈ ps) : ∀ (c : List Node) (as : List Attr), Match L env (.zeroOrMore (.choice ps)) as c
  | [], as => attrs_match ha as
  | x :: c, as => by
    obtain ⟨p, hp, hm⟩ := node_match h x
    exact .zeroOrMoreCons (a1 := []) (c1 := [x]) (.choice (by rcases hp with rfl | rfl <;> assumption) hm) (nodes_match h he ha ht c as) (.refl _)
/-- anything matches -/
theorem anything_match {n : Nat} (h : Anything env n) (as : List Attr) (c : List Node) : Match L env (.ref n) as c := by
  obtain ⟨ps, hn, he, ha, ht⟩ := id h
  exact .ref hn (nodes_match h he ha ht c as)
end

theorem changed_append {c1 c2 : List Node} : ∀ {c'}, Changed nm (c1 ++ c2) c' →
    ∃ c1' c2', c' = c1' ++ c2' ∧ Changed nm c1 c1' ∧ Changed nm c2 c2' := by
  induction c1 with
  | nil => exact fun {c'} h => ⟨[], c', rfl, .nil, h⟩
  | cons n c1 ih =>
    intro c' h
    generalize hc : n :: c1 ++ c2 = c at h
    cases h with
    | nil => cases hc
    | same h => cases hc; obtain ⟨a, b, rfl, h1, h2⟩ := ih h; exact ⟨_ :: a, b, rfl, .same h1, h2⟩
    | inside hk h => cases hc; obtain ⟨a, b, rfl, h1, h2⟩ := ih h; exact ⟨_ :: a, b, rfl, .inside hk h1, h2⟩
    | here h => cases hc; obtain ⟨a, b, rfl, h1, h2⟩ := ih h; exact ⟨_ :: a, b, rfl, .here h1, h2⟩

theorem changed_shuffle {c1 c2 c : List Node} (hs : Shuffle c1 c2 c) : ∀ {c'}, Changed nm c c' →
    ∃ c1' c2', Shuffle c1' c2' c' ∧ Changed nm c1 c1' ∧ Changed nm c2 c2' := by
  induction hs with
  | nil => intro c' h; cases h; exact ⟨[], [], .nil, .nil, .nil⟩
  | left _ ih =>
    intro c' h
    cases h with
    | same h => obtain ⟨a, b, hs, h1, h2⟩ := ih h; exact ⟨_, _, .left hs, .same h1, h2⟩
    | inside hk h => obtain ⟨a, b, hs, h1, h2⟩ := ih h; exact ⟨_, _, .left hs, .inside hk h1, h2⟩
    | here h => obtain ⟨a, b, hs, h1, h2⟩ := ih h; exact ⟨_, _, .left hs, .here h1, h2⟩
  | right _ ih =>
    intro c' h
    cases h with
    | same h => obtain ⟨a, b, hs, h1, h2⟩ := ih h; exact ⟨_, _, .right hs, h1, .same h2⟩
    | inside hk h => obtain ⟨a, b, hs, h1, h2⟩ := ih h; exact ⟨_, _, .right hs, h1, .inside hk h2⟩
    | here h => obtain ⟨a, b, hs, h1, h2⟩ := ih h; exact ⟨_, _, .right hs, h1, .here h2⟩

theorem changed_texts {c c' : List Node} (h : Changed nm c c') : (∀ n ∈ c, ∃ s, n = Node.text s) → c' = c := by
  induction h with
  | nil => exact fun _ => rfl
  | same _ ih => exact fun ht => by rw [ih fun n hn => ht n (.tail _ hn)]
  | inside => intro ht; obtain ⟨s, hs⟩ := ht _ (.head _); cases hs
  | here => intro ht; obtain ⟨s, hs⟩ := ht _ (.head _); cases hs

theorem changed_text {s : Str} {c' : List Node} (h : Changed nm [.text s] c') : c' = [.text s] :=
  changed_texts h fun n hn => ⟨s, List.mem_singleton.1 hn⟩

theorem changed_weak {k c : List Node} (hw : Weak k c) : ∀ {k'}, Changed nm k k' → ∃ c', Weak k' c' ∧ Changed nm c c' := by
  induction hw with
  | nil => intro k' h; cases h; exact ⟨[], .nil, .nil⟩
  | keep _ ih =>
    intro k' h
    cases h with
    | same h => obtain ⟨c', h1, h2⟩ := ih h; exact ⟨_, .keep h1, .same h2⟩
    | inside hk h => obtain ⟨c', h1, h2⟩ := ih h; exact ⟨_, .keep h1, .inside hk h2⟩
    | here h => obtain ⟨c', h1, h2⟩ := ih h; exact ⟨_, .keep h1, .here h2⟩
  | drop hs _ ih =>
    intro k' h
    cases h with
    | same h => obtain ⟨c', h1, h2⟩ := ih h; exact ⟨c', .drop hs h1, h2⟩

theorem changed_match {p : Pattern D V} {a c} (hm : Match L env p a c) :
    AnythingIn env p nm → ∀ {c'}, Changed nm c c' → Match L env p a c' := by
  induction hm with
  | empty => intro _ c' h; cases h; exact .empty
  | text hc => intro _ c' h; rw [changed_texts h hc]; exact .text hc
  | choice hp _ ih => intro hf c' h; exact .choice hp (ih (fun nc q hq => hf nc q (.choice hp hq)) h)
  | groupNil => intro _ c' h; cases h; exact .groupNil
  | groupCons _ _ hp ih1 ih2 =>
    intro hf c' h
    obtain ⟨c1, c2, rfl, h1, h2⟩ := changed_append h
    refine .groupCons (ih1 (fun nc q hq => hf nc q (.group (.head _) hq)) h1) (ih2 (fun nc q hq => hf nc q ?_) h2) hp
    cases hq with | group hm hq => exact .group (.tail _ hm) hq
  | interleaveNil => intro _ c' h; cases h; exact .interleaveNil
  | interleaveCons _ _ hp hs ih1 ih2 =>
    intro hf c' h
    obtain ⟨c1, c2, hs', h1, h2⟩ := changed_shuffle hs h
    refine .interleaveCons (ih1 (fun nc q hq => hf nc q (.interleave (.head _) hq)) h1) (ih2 (fun nc q hq => hf nc q ?_) h2) hp hs'
    cases hq with | interleave hm hq => exact .interleave (.tail _ hm) hq
  | mixed _ hc hs ih =>
    intro hf c' h
    obtain ⟨c1, c2, hs', h1, h2⟩ := changed_shuffle hs h
    obtain rfl := changed_texts h2 hc
    exact .mixed (ih (fun nc q hq => hf nc q (.mixed hq)) h1) hc hs'
  | optionalNone => intro _ c' h; cases h; exact .optionalNone
  | optionalSome _ ih => intro hf c' h; exact .optionalSome (ih (fun nc q hq => hf nc q (.optional hq)) h)
  | zeroOrMoreNil => intro _ c' h; cases h; exact .zeroOrMoreNil
  | zeroOrMoreCons _ _ hp ih1 ih2 =>
    intro hf c' h
    obtain ⟨c1, c2, rfl, h1, h2⟩ := changed_append h
    exact .zeroOrMoreCons (ih1 (fun nc q hq => hf nc q (.zeroOrMore hq)) h1) (ih2 hf h2) hp
  | oneOrMore _ _ hp ih1 ih2 =>
    intro hf c' h
    obtain ⟨c1, c2, rfl, h1, h2⟩ := changed_append h
    refine .oneOrMore (ih1 (fun nc q hq => hf nc q (.oneOrMore hq)) h1) (ih2 (fun nc q hq => hf nc q ?_) h2) hp
    cases hq with | zeroOrMore hq => exact .oneOrMore hq
  | attr hn hw hm _ => intro _ c' h; cases h; exact .attr hn hw hm
  | element hn hw hm ih =>
    intro hf c' h
    cases h with
    | same h => cases h; exact .element hn hw hm
    | inside hk h =>
      cases h
      obtain ⟨c', h1, h2⟩ := changed_weak hw hk
      exact .element hn h1 (ih (fun nc q hq => hf nc q (.element hq)) h2)
    | here h =>
      cases h
      obtain ⟨n, rfl, hw⟩ := hf _ _ .here hn
      exact .element hn (weak_id _) (anything_match hw _ _)
  | ref hn _ ih => intro hf c' h; exact .ref hn (ih (fun nc q hq => hf nc q (.ref hn hq)) h)
  | value hv => intro _ c' h; rw [changed_text h]; exact .value hv
  | data hv => intro _ c' h; rw [changed_text h]; exact .data hv
  | dataExcept hv he => intro _ c' h; rw [changed_text h]; exact .dataExcept hv he
  | list hw hm _ => intro _ c' h; rw [changed_text h]; exact .list hw hm

end Verif.Wild
