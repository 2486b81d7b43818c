import Verif.Spec.Mixed
/-
In mixed content, character data does not matter.
-/
namespace Verif.Mixed
variable {D V : Type} {L : Lib D V} {env : Env D V} {nm : QName}

theorem elems_append {a b : List Node} : elems (a ++ b) = elems a ++ elems b := by
  induction a with
  | nil => rfl
  | cons n a ih => cases n <;> simp only [List.cons_append, elems, ih]

theorem elems_texts {c : List Node} (h : ∀ n ∈ c, ∃ s, n = Node.text s) : elems c = [] := by
  induction c with
  | nil => rfl
  | cons n c ih =>
    obtain ⟨s, rfl⟩ := h n (.head _)
    exact ih fun m hm => h m (.tail _ hm)

theorem texts_of_elems {c : List Node} (h : elems c = []) : ∀ n ∈ c, ∃ s, n = Node.text s := by
  induction c with
  | nil => intro n hn; cases hn
  | cons n c ih =>
    cases n with
    | text s =>
      intro n hn
      cases hn with
      | head => exact ⟨s, rfl⟩
      | tail _ hn => exact ih h n hn
    | elem => simp only [elems] at h; cases h

theorem elems_shuffle {c1 c2 c : List Node} (h : Shuffle c1 c2 c) : Shuffle (elems c1) (elems c2) (elems c) := by
  induction h with
  | nil => exact .nil
  | @left x _ _ _ _ ih => cases x with | text => exact ih | elem => exact .left ih
  | @right x _ _ _ _ ih => cases x with | text => exact ih | elem => exact .right ih

theorem shuffle_none {α : Type} {a c : List α} (h : Shuffle a [] c) : c = a := by
  generalize hb : ([] : List α) = b at h
  induction h with
  | nil => rfl
  | left _ ih => rw [ih hb]
  | right => cases hb
theorem shuffle_none_left {α : Type} {b c : List α} (h : Shuffle [] b c) : c = b := by
  generalize ha : ([] : List α) = a at h
  induction h with
  | nil => rfl
  | left => cases ha
  | right _ ih => rw [ih ha]
theorem shuffle_id {α : Type} : ∀ c : List α, Shuffle c [] c
  | [] => .nil
  | _ :: c => .left (shuffle_id c)
theorem shuffle_id_left {α : Type} : ∀ c : List α, Shuffle [] c c
  | [] => .nil
  | _ :: c => .right (shuffle_id_left c)

/-- where only text is asked for, character data may be left out -/
theorem strip {p : Pattern D V} {a c} (hm : Match L env p a c) : OnlyText env p → Match L env p a (elems c) := by
  induction hm with
  | empty => exact fun _ => .empty
  | text hc => intro _; rw [elems_texts hc]; exact .text nofun
  | choice hp _ ih => intro h; cases h with | choice h => exact .choice hp (ih (h _ hp))
  | groupNil => exact fun _ => .groupNil
  | groupCons _ _ hp ih1 ih2 =>
    intro h
    cases h with
    | group h =>
      rw [elems_append]
      exact .groupCons (ih1 (h _ (.head _))) (ih2 (.group fun q hq => h q (.tail _ hq))) hp
  | interleaveNil => exact fun _ => .interleaveNil
  | interleaveCons _ _ hp hs ih1 ih2 =>
    intro h
    cases h with
    | interleave h =>
      exact .interleaveCons (ih1 (h _ (.head _))) (ih2 (.interleave fun q hq => h q (.tail _ hq))) hp (elems_shuffle hs)
  | mixed _ hc hs ih =>
    intro h
    cases h with
    | mixed h =>
      have hs' := elems_shuffle hs
      rw [elems_texts hc] at hs'
      exact .mixed (c2 := []) (ih h) nofun hs'
  | optionalNone => exact fun _ => .optionalNone
  | optionalSome _ ih => intro h; cases h with | optional h => exact .optionalSome (ih h)
  | zeroOrMoreNil => exact fun _ => .zeroOrMoreNil
  | zeroOrMoreCons _ _ hp ih1 ih2 =>
    intro h
    rw [elems_append]
    exact .zeroOrMoreCons (ih1 (by cases h with | zeroOrMore h => exact h)) (ih2 h) hp
  | oneOrMore _ _ hp ih1 ih2 =>
    intro h
    cases h with
    | oneOrMore h =>
      rw [elems_append]
      exact .oneOrMore (ih1 h) (ih2 (.zeroOrMore h)) hp
  | attr hn hw hm _ => exact fun _ => .attr hn hw hm
  | element hn hw hm _ => exact fun _ => .element hn hw hm
  | ref hn _ ih => intro h; cases h with | ref hn' h => rw [hn] at hn'; cases hn'; exact .ref hn (ih h)
  | value => intro h; cases h
  | data => intro h; cases h
  | dataExcept => intro h; cases h
  | list => intro h; cases h

theorem no_content {p : Pattern D V} {a c} (hm : Match L env p a c) : Attributes env p → c = [] := by
  induction hm with
  | empty => exact fun _ => rfl
  | text => intro h; cases h
  | choice hp _ ih => intro h; cases h with | choice h => exact ih (h _ hp)
  | groupNil => exact fun _ => rfl
  | groupCons _ _ _ ih1 ih2 =>
    intro h
    cases h with
    | group h => rw [ih1 (h _ (.head _)), ih2 (.group fun q hq => h q (.tail _ hq))]; rfl
  | interleaveNil => exact fun _ => rfl
  | interleaveCons _ _ _ hs ih1 ih2 =>
    intro h
    cases h with
    | interleave h =>
      rw [ih1 (h _ (.head _)), ih2 (.interleave fun q hq => h q (.tail _ hq))] at hs
      exact shuffle_none hs
  | mixed => intro h; cases h
  | optionalNone => exact fun _ => rfl
  | optionalSome _ ih => intro h; cases h with | optional h => exact ih h
  | zeroOrMoreNil => exact fun _ => rfl
  | zeroOrMoreCons _ _ _ ih1 ih2 =>
    intro h
    rw [ih2 h, ih1 (by cases h with | zeroOrMore h => exact h)]; rfl
  | oneOrMore _ _ _ ih1 ih2 => intro h; cases h with | oneOrMore h => rw [ih1 h, ih2 (.zeroOrMore h)]; rfl
  | attr => exact fun _ => rfl
  | element => intro h; cases h
  | ref hn _ ih => intro h; cases h with | ref hn' h => rw [hn] at hn'; cases hn'; exact ih h
  | value => intro h; cases h
  | data => intro h; cases h
  | dataExcept => intro h; cases h
  | list => intro h; cases h

/-- the texts among some nodes -/
def texts : List Node → List Node
  | [] => []
  | .text s :: c => .text s :: texts c
  | .elem .. :: c => texts c
theorem texts_are : ∀ c : List Node, ∀ n ∈ texts c, ∃ s, n = Node.text s
  | [], _, h => by cases h
  | .text s :: c, n, h => by
    cases h with
    | head => exact ⟨s, rfl⟩
    | tail _ h => exact texts_are c n h
  | .elem .. :: c, n, h => texts_are c n h
theorem parts : ∀ c : List Node, Shuffle (elems c) (texts c) c
  | [] => .nil
  | .text _ :: c => .right (parts c)
  | .elem .. :: c => .left (parts c)

/-- a group of patterns that match attributes, but for one -/
theorem group_one {p : Pattern D V} {bs : List (Pattern D V)} (hp : ∀ {a c c'}, Match L env p a c → elems c' = elems c → Match L env p a c')
    (hb : ∀ q ∈ bs, Attributes env q) : ∀ {as : List (Pattern D V)}, (∀ q ∈ as, Attributes env q) → ∀ {a c c'},
    Match L env (.group (as ++ p :: bs)) a c → elems c' = elems c → Match L env (.group (as ++ p :: bs)) a c'
  | [], _, a, c, c', hm, he => by
    cases hm with
    | groupCons h1 h2 hq =>
      obtain rfl := no_content h2 (.group hb)
      rw [List.append_nil] at he
      have := Match.groupCons (hp h1 he) h2 hq
      rwa [List.append_nil] at this
  | q :: as, ha, a, c, c', hm, he => by
    cases hm with
    | groupCons h1 h2 hq =>
      obtain rfl := no_content h1 (ha _ (.head _))
      exact .groupCons (c1 := []) h1 (group_one hp hb (fun r hr => ha r (.tail _ hr)) h2 he) hq

theorem interleave_one {p : Pattern D V} {bs : List (Pattern D V)} (hp : ∀ {a c c'}, Match L env p a c → elems c' = elems c → Match L env p a c')
    (hb : ∀ q ∈ bs, Attributes env q) : ∀ {as : List (Pattern D V)}, (∀ q ∈ as, Attributes env q) → ∀ {a c c'},
    Match L env (.interleave (as ++ p :: bs)) a c → elems c' = elems c → Match L env (.interleave (as ++ p :: bs)) a c'
  | [], _, a, c, c', hm, he => by
    cases hm with
    | interleaveCons h1 h2 hq hs =>
      obtain rfl := no_content h2 (.interleave hb)
      obtain rfl := shuffle_none hs
      exact .interleaveCons (hp h1 he) h2 hq (shuffle_id _)
  | q :: as, ha, a, c, c', hm, he => by
    cases hm with
    | interleaveCons h1 h2 hq hs =>
      obtain rfl := no_content h1 (ha _ (.head _))
      obtain rfl := shuffle_none_left hs
      exact .interleaveCons h1 (interleave_one hp hb (fun r hr => ha r (.tail _ hr)) h2 he) hq (shuffle_id_left _)

/-- in mixed content only the elements count -/
theorem mixes_match {q : Pattern D V} (hq : Mixes env q) : ∀ {a c c'}, Match L env q a c → elems c' = elems c → Match L env q a c' := by
  induction hq with
  | text =>
    intro a c c' hm he
    cases hm with
    | text hc => rw [elems_texts hc] at he; exact .text (texts_of_elems he)
  | mixed ho =>
    intro a c c' hm he
    cases hm with
    | mixed h1 hc hs =>
      have hs' := elems_shuffle hs
      rw [elems_texts hc] at hs'
      have h2 := strip h1 ho
      rw [← shuffle_none hs', ← he] at h2
      exact .mixed h2 (texts_are c') (parts c')
  | group ha _ hb ih => exact fun hm he => group_one ih hb ha hm he
  | interleave ha _ hb ih => exact fun hm he => interleave_one ih hb ha hm he
  | choice _ ih => intro a c c' hm he; cases hm with | choice hp hm => exact .choice hp (ih _ hp hm he)
  | ref hn _ ih =>
    intro a c c' hm he
    cases hm with
    | ref hn' hm => rw [hn] at hn'; cases hn'; exact .ref hn (ih hm he)

/-! ### edits anywhere -/

theorem edited_append {c1 c2 : List Node} : ∀ {c'}, Edited nm (c1 ++ c2) c' →
    ∃ c1' c2', c' = c1' ++ c2' ∧ Edited nm c1 c1' ∧ Edited nm c2 c2' := by
  induction c1 with
  | nil => exact fun {c'} h => ⟨[], c', rfl, .nil, h⟩
  | cons n c1 ih =>
    intro c' h
    generalize hc : n :: c1 ++ c2 = c at h
    cases h with
    | nil => cases hc
    | same h => cases hc; obtain ⟨a, b, rfl, h1, h2⟩ := ih h; exact ⟨_ :: a, b, rfl, .same h1, h2⟩
    | inside hk h => cases hc; obtain ⟨a, b, rfl, h1, h2⟩ := ih h; exact ⟨_ :: a, b, rfl, .inside hk h1, h2⟩
    | here hk he h => cases hc; obtain ⟨a, b, rfl, h1, h2⟩ := ih h; exact ⟨_ :: a, b, rfl, .here hk he h1, h2⟩

theorem edited_shuffle {c1 c2 c : List Node} (hs : Shuffle c1 c2 c) : ∀ {c'}, Edited nm c c' →
    ∃ c1' c2', Shuffle c1' c2' c' ∧ Edited nm c1 c1' ∧ Edited nm c2 c2' := by
  induction hs with
  | nil => intro c' h; cases h; exact ⟨[], [], .nil, .nil, .nil⟩
  | left _ ih =>
    intro c' h
    cases h with
    | same h => obtain ⟨a, b, hs, h1, h2⟩ := ih h; exact ⟨_, _, .left hs, .same h1, h2⟩
    | inside hk h => obtain ⟨a, b, hs, h1, h2⟩ := ih h; exact ⟨_, _, .left hs, .inside hk h1, h2⟩
    | here hk he h => obtain ⟨a, b, hs, h1, h2⟩ := ih h; exact ⟨_, _, .left hs, .here hk he h1, h2⟩
  | right _ ih =>
    intro c' h
    cases h with
    | same h => obtain ⟨a, b, hs, h1, h2⟩ := ih h; exact ⟨_, _, .right hs, h1, .same h2⟩
    | inside hk h => obtain ⟨a, b, hs, h1, h2⟩ := ih h; exact ⟨_, _, .right hs, h1, .inside hk h2⟩
    | here hk he h => obtain ⟨a, b, hs, h1, h2⟩ := ih h; exact ⟨_, _, .right hs, h1, .here hk he h2⟩

theorem edited_texts {c c' : List Node} (h : Edited nm c c') : (∀ n ∈ c, ∃ s, n = Node.text s) → c' = c := by
  induction h with
  | nil => exact fun _ => rfl
  | same _ ih => exact fun ht => by rw [ih fun n hn => ht n (.tail _ hn)]
  | inside => intro ht; obtain ⟨s, hs⟩ := ht _ (.head _); cases hs
  | here => intro ht; obtain ⟨s, hs⟩ := ht _ (.head _); cases hs

theorem edited_text {s : Str} {c' : List Node} (h : Edited nm [.text s] c') : c' = [.text s] :=
  edited_texts h fun n hn => ⟨s, List.mem_singleton.1 hn⟩

theorem edited_weak {k c : List Node} (hw : Weak k c) : ∀ {k'}, Edited nm k k' → ∃ c', Weak k' c' ∧ Edited nm c c' := by
  induction hw with
  | nil => intro k' h; cases h; exact ⟨[], .nil, .nil⟩
  | keep _ ih =>
    intro k' h
    cases h with
    | same h => obtain ⟨c', h1, h2⟩ := ih h; exact ⟨_, .keep h1, .same h2⟩
    | inside hk h => obtain ⟨c', h1, h2⟩ := ih h; exact ⟨_, .keep h1, .inside hk h2⟩
    | here hk he h => obtain ⟨c', h1, h2⟩ := ih h; exact ⟨_, .keep h1, .here hk he h2⟩
  | drop hs _ ih =>
    intro k' h
    cases h with
    | same h => obtain ⟨c', h1, h2⟩ := ih h; exact ⟨c', .drop hs h1, h2⟩

theorem weak_elems {k c : List Node} (h : Weak k c) : elems c = elems k := by
  induction h with
  | nil => rfl
  | @keep x _ _ _ ih => cases x <;> simp only [elems, ih]
  | drop _ _ ih => exact ih
theorem weak_id : ∀ k : List Node, Weak k k
  | [] => .nil
  | _ :: k => .keep (weak_id k)

theorem edited_match {p : Pattern D V} {a c} (hm : Match L env p a c) :
    MixedIn env p nm → ∀ {c'}, Edited nm c c' → Match L env p a c' := by
  induction hm with
  | empty => intro _ c' h; cases h; exact .empty
  | text hc => intro _ c' h; rw [edited_texts h hc]; exact .text hc
  | choice hp _ ih => intro hf c' h; exact .choice hp (ih (fun nc q hq => hf nc q (.choice hp hq)) h)
  | groupNil => intro _ c' h; cases h; exact .groupNil
  | groupCons _ _ hp ih1 ih2 =>
    intro hf c' h
    obtain ⟨c1, c2, rfl, h1, h2⟩ := edited_append h
    refine .groupCons (ih1 (fun nc q hq => hf nc q (.group (.head _) hq)) h1) (ih2 (fun nc q hq => hf nc q ?_) h2) hp
    cases hq with | group hm hq => exact .group (.tail _ hm) hq
  | interleaveNil => intro _ c' h; cases h; exact .interleaveNil
  | interleaveCons _ _ hp hs ih1 ih2 =>
    intro hf c' h
    obtain ⟨c1, c2, hs', h1, h2⟩ := edited_shuffle hs h
    refine .interleaveCons (ih1 (fun nc q hq => hf nc q (.interleave (.head _) hq)) h1) (ih2 (fun nc q hq => hf nc q ?_) h2) hp hs'
    cases hq with | interleave hm hq => exact .interleave (.tail _ hm) hq
  | mixed _ hc hs ih =>
    intro hf c' h
    obtain ⟨c1, c2, hs', h1, h2⟩ := edited_shuffle hs h
    obtain rfl := edited_texts h2 hc
    exact .mixed (ih (fun nc q hq => hf nc q (.mixed hq)) h1) hc hs'
  | optionalNone => intro _ c' h; cases h; exact .optionalNone
  | optionalSome _ ih => intro hf c' h; exact .optionalSome (ih (fun nc q hq => hf nc q (.optional hq)) h)
  | zeroOrMoreNil => intro _ c' h; cases h; exact .zeroOrMoreNil
  | zeroOrMoreCons _ _ hp ih1 ih2 =>
    intro hf c' h
    obtain ⟨c1, c2, rfl, h1, h2⟩ := edited_append h
    exact .zeroOrMoreCons (ih1 (fun nc q hq => hf nc q (.zeroOrMore hq)) h1) (ih2 hf h2) hp
  | oneOrMore _ _ hp ih1 ih2 =>
    intro hf c' h
    obtain ⟨c1, c2, rfl, h1, h2⟩ := edited_append h
    refine .oneOrMore (ih1 (fun nc q hq => hf nc q (.oneOrMore hq)) h1) (ih2 (fun nc q hq => hf nc q ?_) h2) hp
    cases hq with | zeroOrMore hq => exact .oneOrMore hq
  | attr hn hw hm _ => intro _ c' h; cases h; exact .attr hn hw hm
  | element hn hw hm ih =>
    intro hf c' h
    cases h with
    | same h => cases h; exact .element hn hw hm
    | inside hk h =>
      cases h
      obtain ⟨c', h1, h2⟩ := edited_weak hw hk
      exact .element hn h1 (ih (fun nc q hq => hf nc q (.element hq)) h2)
    | here hk he h =>
      cases h
      obtain ⟨c', h1, h2⟩ := edited_weak hw hk
      have h3 := ih (fun nc q hq => hf nc q (.element hq)) h2
      exact .element hn (weak_id _) (mixes_match (hf _ _ .here hn) h3 (he.trans (weak_elems h1).symm))
  | ref hn _ ih => intro hf c' h; exact .ref hn (ih (fun nc q hq => hf nc q (.ref hn hq)) h)
  | value hv => intro _ c' h; rw [edited_text h]; exact .value hv
  | data hv => intro _ c' h; rw [edited_text h]; exact .data hv
  | dataExcept hv he => intro _ c' h; rw [edited_text h]; exact .dataExcept hv he
  | list hw hm _ => intro _ c' h; rw [edited_text h]; exact .list hw hm

end Verif.Mixed
