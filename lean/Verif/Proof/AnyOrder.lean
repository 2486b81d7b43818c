import Verif.Spec.AnyOrder
import Verif.Proof.Records
/-
In unordered content the order does not matter.
-/
namespace Verif.AnyOrder
open Mixed Records
variable {D V : Type} {L : Lib D V} {env : Env D V} {nm : QName}

theorem perm_weak {k k' : List Node} (h : k.Perm k') : ∀ {c}, Weak k c → ∃ c', Weak k' c' ∧ c.Perm c' := by
  induction h with
  | nil => intro c hw; cases hw; exact ⟨[], .nil, .refl _⟩
  | cons x _ ih =>
    intro c hw
    cases hw with
    | keep hw => obtain ⟨c', h1, h2⟩ := ih hw; exact ⟨_, .keep h1, h2.cons _⟩
    | drop hs hw => obtain ⟨c', h1, h2⟩ := ih hw; exact ⟨_, .drop hs h1, h2⟩
  | swap x y l =>
    intro c hw
    cases hw with
    | keep hw =>
      cases hw with
      | keep hw => exact ⟨_, .keep (.keep hw), .swap _ _ _⟩
      | drop hs hw => exact ⟨_, .drop hs (.keep hw), .refl _⟩
    | drop hs hw =>
      cases hw with
      | keep hw => exact ⟨_, .keep (.drop hs hw), .refl _⟩
      | drop hs' hw => exact ⟨_, .drop hs' (.drop hs hw), .refl _⟩
  | trans _ _ ih1 ih2 =>
    intro c hw
    obtain ⟨c1, h1, h2⟩ := ih1 hw
    obtain ⟨c2, h3, h4⟩ := ih2 h1
    exact ⟨c2, h3, h2.trans h4⟩

theorem perm_shuffle {α : Type} {c c' : List α} (h : c.Perm c') : ∀ {a b}, Shuffle a b c → ∃ a' b', Shuffle a' b' c' ∧ a.Perm a' ∧ b.Perm b' := by
  induction h with
  | nil => intro a b hs; cases hs; exact ⟨[], [], .nil, .refl _, .refl _⟩
  | cons x _ ih =>
    intro a b hs
    cases hs with
    | left hs => obtain ⟨a', b', h1, h2, h3⟩ := ih hs; exact ⟨_, _, .left h1, h2.cons _, h3⟩
    | right hs => obtain ⟨a', b', h1, h2, h3⟩ := ih hs; exact ⟨_, _, .right h1, h2, h3.cons _⟩
  | swap x y l =>
    intro a b hs
    cases hs with
    | left hs =>
      cases hs with
      | left hs => exact ⟨_, _, .left (.left hs), .swap _ _ _, .refl _⟩
      | right hs => exact ⟨_, _, .right (.left hs), .refl _, .refl _⟩
    | right hs =>
      cases hs with
      | left hs => exact ⟨_, _, .left (.right hs), .refl _, .refl _⟩
      | right hs => exact ⟨_, _, .right (.right hs), .refl _, .swap _ _ _⟩
  | trans _ _ ih1 ih2 =>
    intro a b hs
    obtain ⟨a1, b1, h1, h2, h3⟩ := ih1 hs
    obtain ⟨a2, b2, h4, h5, h6⟩ := ih2 h1
    exact ⟨a2, b2, h4, h2.trans h5, h3.trans h6⟩

theorem one_perm {p : Pattern D V} (h : Record env p) {a : List Attr} {c c' : List Node} (hm : Match L env (.oneOrMore p) a c) (hp : c.Perm c') :
    Match L env (.oneOrMore p) a c' := by
  cases hm with
  | oneOrMore h1 h2 ha =>
    obtain ⟨rfl, nm, as, k, rfl⟩ := record_one h h1
    obtain ⟨rfl, h3⟩ := (zero_iff h).1 h2
    have h4 : ∀ x ∈ c', (∃ nm as k, x = Node.elem nm as k) ∧ Match L env p [] [x] := by
      intro x hx
      have hx := hp.mem_iff.2 hx
      cases hx with
      | head => exact ⟨⟨_, _, _, rfl⟩, h1⟩
      | tail _ hx => exact h3 x hx
    cases c' with
    | nil => have := hp.eq_nil; cases this
    | cons x c' =>
      exact .oneOrMore (c1 := [x]) (h4 x (.head _)).2 ((zero_iff h).2 ⟨rfl, fun y hy => h4 y (.tail _ hy)⟩) ha

theorem texts_perm {c c' : List Node} (h : c.Perm c') (ht : ∀ n ∈ c, ∃ s, n = Node.text s) : ∀ n ∈ c', ∃ s, n = Node.text s :=
  fun n hn => ht n (h.mem_iff.2 hn)

theorem group_perm {p : Pattern D V} {bs : List (Pattern D V)} (hp : ∀ {a c c'}, Match L env p a c → c.Perm c' → Match L env p a c')
    (hb : ∀ q ∈ bs, Attributes env q) : ∀ {as : List (Pattern D V)}, (∀ q ∈ as, Attributes env q) → ∀ {a c c'},
    Match L env (.group (as ++ p :: bs)) a c → c.Perm c' → Match L env (.group (as ++ p :: bs)) a c'
  | [], _, a, c, c', hm, he => by
    cases hm with
    | groupCons h1 h2 hq =>
      obtain rfl := no_content h2 (.group hb)
      rw [List.append_nil] at he
      have := Match.groupCons (hp h1 he) h2 hq
      rwa [List.append_nil] at this
  | q :: as, ha, a, c, c', hm, he => by
    cases hm with
    | groupCons h1 h2 hq =>
      obtain rfl := no_content h1 (ha _ (.head _))
      exact .groupCons (c1 := []) h1 (group_perm hp hb (fun r hr => ha r (.tail _ hr)) h2 he) hq

theorem interleave_perm : ∀ {ps : List (Pattern D V)}, (∀ p ∈ ps, ∀ {a c c'}, Match L env p a c → c.Perm c' → Match L env p a c') →
    ∀ {a c c'}, Match L env (.interleave ps) a c → c.Perm c' → Match L env (.interleave ps) a c'
  | [], _, a, c, c', hm, he => by
    cases hm
    obtain rfl := he.symm.eq_nil
    exact .interleaveNil
  | p :: ps, h, a, c, c', hm, he => by
    cases hm with
    | interleaveCons h1 h2 hq hs =>
      obtain ⟨a', b', h3, h4, h5⟩ := perm_shuffle he hs
      exact .interleaveCons (h p (.head _) h1 h4) (interleave_perm (fun r hr => h r (.tail _ hr)) h2 h5) hq h3

/-- in unordered content the order does not matter -/
theorem unordered_match {q : Pattern D V} (hq : Unordered env q) : ∀ {a c c'}, Match L env q a c → c.Perm c' → Match L env q a c' := by
  induction hq with
  | empty => intro a c c' hm he; cases hm; obtain rfl := he.symm.eq_nil; exact .empty
  | text => intro a c c' hm he; cases hm with | text hc => exact .text (texts_perm he hc)
  | notAllowed => intro a c c' hm he; cases hm
  | value => intro a c c' hm he; cases hm with | value hv => obtain rfl := List.singleton_perm.1 he; exact .value hv
  | data => intro a c c' hm he; cases hm with | data hv => obtain rfl := List.singleton_perm.1 he; exact .data hv
  | dataExcept => intro a c c' hm he; cases hm with | dataExcept hv hx => obtain rfl := List.singleton_perm.1 he; exact .dataExcept hv hx
  | list => intro a c c' hm he; cases hm with | list hw hx => obtain rfl := List.singleton_perm.1 he; exact .list hw hx
  | attr => intro a c c' hm he; cases hm with | attr h1 h2 h3 => obtain rfl := he.symm.eq_nil; exact .attr h1 h2 h3
  | element => intro a c c' hm he; cases hm with | element h1 h2 h3 => obtain rfl := List.singleton_perm.1 he; exact .element h1 h2 h3
  | choice _ ih => intro a c c' hm he; cases hm with | choice hp hm => exact .choice hp (ih _ hp hm he)
  | interleave _ ih => exact fun hm he => interleave_perm ih hm he
  | mixed _ ih =>
    intro a c c' hm he
    cases hm with
    | mixed h1 hc hs =>
      obtain ⟨a', b', h3, h4, h5⟩ := perm_shuffle he hs
      exact .mixed (ih h1 h4) (texts_perm h5 hc) h3
  | optional _ ih =>
    intro a c c' hm he
    cases hm with
    | optionalNone => obtain rfl := he.symm.eq_nil; exact .optionalNone
    | optionalSome hm => exact .optionalSome (ih hm he)
  | zeroOrMore h =>
    intro a c c' hm he
    rw [zero_iff h] at hm ⊢
    exact ⟨hm.1, fun x hx => hm.2 x (he.mem_iff.2 hx)⟩
  | oneOrMore h => exact fun hm he => one_perm h hm he
  | group ha _ hb ih => exact fun hm he => group_perm ih hb ha hm he
  | ref hn _ ih =>
    intro a c c' hm he
    cases hm with
    | ref hn' hm => rw [hn] at hn'; cases hn'; exact .ref hn (ih hm he)

/-! ### anywhere -/

theorem permuted_append {c1 c2 : List Node} : ∀ {c'}, Permuted nm (c1 ++ c2) c' →
    ∃ c1' c2', c' = c1' ++ c2' ∧ Permuted nm c1 c1' ∧ Permuted nm c2 c2' := by
  induction c1 with
  | nil => exact fun {c'} h => ⟨[], c', rfl, .nil, h⟩
  | cons n c1 ih =>
    intro c' h
    generalize hc : n :: c1 ++ c2 = c at h
    cases h with
    | nil => cases hc
    | same h => cases hc; obtain ⟨a, b, rfl, h1, h2⟩ := ih h; exact ⟨_ :: a, b, rfl, .same h1, h2⟩
    | inside hk h => cases hc; obtain ⟨a, b, rfl, h1, h2⟩ := ih h; exact ⟨_ :: a, b, rfl, .inside hk h1, h2⟩
    | here hk he h => cases hc; obtain ⟨a, b, rfl, h1, h2⟩ := ih h; exact ⟨_ :: a, b, rfl, .here hk he h1, h2⟩

theorem permuted_shuffle {c1 c2 c : List Node} (hs : Shuffle c1 c2 c) : ∀ {c'}, Permuted nm c c' →
    ∃ c1' c2', Shuffle c1' c2' c' ∧ Permuted nm c1 c1' ∧ Permuted nm c2 c2' := by
  induction hs with
  | nil => intro c' h; cases h; exact ⟨[], [], .nil, .nil, .nil⟩
  | left _ ih =>
    intro c' h
    cases h with
    | same h => obtain ⟨a, b, hs, h1, h2⟩ := ih h; exact ⟨_, _, .left hs, .same h1, h2⟩
    | inside hk h => obtain ⟨a, b, hs, h1, h2⟩ := ih h; exact ⟨_, _, .left hs, .inside hk h1, h2⟩
    | here hk he h => obtain ⟨a, b, hs, h1, h2⟩ := ih h; exact ⟨_, _, .left hs, .here hk he h1, h2⟩
  | right _ ih =>
    intro c' h
    cases h with
    | same h => obtain ⟨a, b, hs, h1, h2⟩ := ih h; exact ⟨_, _, .right hs, h1, .same h2⟩
    | inside hk h => obtain ⟨a, b, hs, h1, h2⟩ := ih h; exact ⟨_, _, .right hs, h1, .inside hk h2⟩
    | here hk he h => obtain ⟨a, b, hs, h1, h2⟩ := ih h; exact ⟨_, _, .right hs, h1, .here hk he h2⟩

theorem permuted_texts {c c' : List Node} (h : Permuted nm c c') : (∀ n ∈ c, ∃ s, n = Node.text s) → c' = c := by
  induction h with
  | nil => exact fun _ => rfl
  | same _ ih => exact fun ht => by rw [ih fun n hn => ht n (.tail _ hn)]
  | inside => intro ht; obtain ⟨s, hs⟩ := ht _ (.head _); cases hs
  | here => intro ht; obtain ⟨s, hs⟩ := ht _ (.head _); cases hs

theorem permuted_text {s : Str} {c' : List Node} (h : Permuted nm [.text s] c') : c' = [.text s] :=
  permuted_texts h fun n hn => ⟨s, List.mem_singleton.1 hn⟩

theorem permuted_weak {k c : List Node} (hw : Weak k c) : ∀ {k'}, Permuted nm k k' → ∃ c', Weak k' c' ∧ Permuted nm c c' := by
  induction hw with
  | nil => intro k' h; cases h; exact ⟨[], .nil, .nil⟩
  | keep _ ih =>
    intro k' h
    cases h with
    | same h => obtain ⟨c', h1, h2⟩ := ih h; exact ⟨_, .keep h1, .same h2⟩
    | inside hk h => obtain ⟨c', h1, h2⟩ := ih h; exact ⟨_, .keep h1, .inside hk h2⟩
    | here hk he h => obtain ⟨c', h1, h2⟩ := ih h; exact ⟨_, .keep h1, .here hk he h2⟩
  | drop hs _ ih =>
    intro k' h
    cases h with
    | same h => obtain ⟨c', h1, h2⟩ := ih h; exact ⟨c', .drop hs h1, h2⟩

theorem permuted_match {p : Pattern D V} {a c} (hm : Match L env p a c) :
    UnorderedIn env p nm → ∀ {c'}, Permuted nm c c' → Match L env p a c' := by
  induction hm with
  | empty => intro _ c' h; cases h; exact .empty
  | text hc => intro _ c' h; rw [permuted_texts h hc]; exact .text hc
  | choice hp _ ih => intro hf c' h; exact .choice hp (ih (fun nc q hq => hf nc q (.choice hp hq)) h)
  | groupNil => intro _ c' h; cases h; exact .groupNil
  | groupCons _ _ hp ih1 ih2 =>
    intro hf c' h
    obtain ⟨c1, c2, rfl, h1, h2⟩ := permuted_append h
    refine .groupCons (ih1 (fun nc q hq => hf nc q (.group (.head _) hq)) h1) (ih2 (fun nc q hq => hf nc q ?_) h2) hp
    cases hq with | group hm hq => exact .group (.tail _ hm) hq
  | interleaveNil => intro _ c' h; cases h; exact .interleaveNil
  | interleaveCons _ _ hp hs ih1 ih2 =>
    intro hf c' h
    obtain ⟨c1, c2, hs', h1, h2⟩ := permuted_shuffle hs h
    refine .interleaveCons (ih1 (fun nc q hq => hf nc q (.interleave (.head _) hq)) h1) (ih2 (fun nc q hq => hf nc q ?_) h2) hp hs'
    cases hq with | interleave hm hq => exact .interleave (.tail _ hm) hq
  | mixed _ hc hs ih =>
    intro hf c' h
    obtain ⟨c1, c2, hs', h1, h2⟩ := permuted_shuffle hs h
    obtain rfl := permuted_texts h2 hc
    exact .mixed (ih (fun nc q hq => hf nc q (.mixed hq)) h1) hc hs'
  | optionalNone => intro _ c' h; cases h; exact .optionalNone
  | optionalSome _ ih => intro hf c' h; exact .optionalSome (ih (fun nc q hq => hf nc q (.optional hq)) h)
  | zeroOrMoreNil => intro _ c' h; cases h; exact .zeroOrMoreNil
  | zeroOrMoreCons _ _ hp ih1 ih2 =>
    intro hf c' h
    obtain ⟨c1, c2, rfl, h1, h2⟩ := permuted_append h
    exact .zeroOrMoreCons (ih1 (fun nc q hq => hf nc q (.zeroOrMore hq)) h1) (ih2 hf h2) hp
  | oneOrMore _ _ hp ih1 ih2 =>
    intro hf c' h
    obtain ⟨c1, c2, rfl, h1, h2⟩ := permuted_append h
    refine .oneOrMore (ih1 (fun nc q hq => hf nc q (.oneOrMore hq)) h1) (ih2 (fun nc q hq => hf nc q ?_) h2) hp
    cases hq with | zeroOrMore hq => exact .oneOrMore hq
  | attr hn hw hm _ => intro _ c' h; cases h; exact .attr hn hw hm
  | element hn hw hm ih =>
    intro hf c' h
    cases h with
    | same h => cases h; exact .element hn hw hm
    | inside hk h =>
      cases h
      obtain ⟨c', h1, h2⟩ := permuted_weak hw hk
      exact .element hn h1 (ih (fun nc q hq => hf nc q (.element hq)) h2)
    | here hk he h =>
      cases h
      obtain ⟨c', h1, h2⟩ := permuted_weak hw hk
      have h3 := ih (fun nc q hq => hf nc q (.element hq)) h2
      obtain ⟨c'', h4, h5⟩ := perm_weak he h1
      exact .element hn h4 (unordered_match (hf _ _ .here hn) h3 h5)
  | ref hn _ ih => intro hf c' h; exact .ref hn (ih (fun nc q hq => hf nc q (.ref hn hq)) h)
  | value hv => intro _ c' h; rw [permuted_text h]; exact .value hv
  | data hv => intro _ c' h; rw [permuted_text h]; exact .data hv
  | dataExcept hv he => intro _ c' h; rw [permuted_text h]; exact .dataExcept hv he
  | list hw hm _ => intro _ c' h; rw [permuted_text h]; exact .list hw hm

end Verif.AnyOrder
