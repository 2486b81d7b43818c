import Verif.Spec.Reword
/-
Replacing data by data that the schema does not tell apart.
-/
namespace Verif.Reword
variable {D V : Type} {L : Lib D V} {env : Env D V} {R : Str → Str → Prop}

theorem values_refl : ∀ as : List Attr, Values R as as
  | [] => .nil
  | _ :: as => .same (values_refl as)
theorem refl : ∀ c : List Node, Reworded R c c
  | [] => .nil
  | _ :: c => .same (refl c)

theorem values_append {c1 c2 : List Attr} : ∀ {c'}, Values R (c1 ++ c2) c' →
    ∃ c1' c2', c' = c1' ++ c2' ∧ Values R c1 c1' ∧ Values R c2 c2' := by
  induction c1 with
  | nil => exact fun {c'} h => ⟨[], c', rfl, .nil, h⟩
  | cons n c1 ih =>
    intro c' h
    generalize hc : n :: c1 ++ c2 = c at h
    cases h with
    | nil => cases hc
    | same h => cases hc; obtain ⟨a, b, rfl, h1, h2⟩ := ih h; exact ⟨_ :: a, b, rfl, .same h1, h2⟩
    | value hr h => cases hc; obtain ⟨a, b, rfl, h1, h2⟩ := ih h; exact ⟨_ :: a, b, rfl, .value hr h1, h2⟩

/-- one attribute -/
inductive One (R : Str → Str → Prop) : Attr → Attr → Prop
  | same {a} : One R a a
  | value {nm s t} : R s t → One R ⟨nm, s⟩ ⟨nm, t⟩

theorem values_cons {a : Attr} {as bs : List Attr} (h : Values R (a :: as) bs) : ∃ b bs', bs = b :: bs' ∧ One R a b ∧ Values R as bs' := by
  cases h with
  | same h => exact ⟨_, _, rfl, .same, h⟩
  | value hr h => exact ⟨_, _, rfl, .value hr, h⟩
theorem one_cons {a b : Attr} {as bs : List Attr} (h : One R a b) (hs : Values R as bs) : Values R (a :: as) (b :: bs) := by
  cases h with
  | same => exact .same hs
  | value hr => exact .value hr hs

theorem values_perm {a b : List Attr} (hp : a.Perm b) : ∀ {a'}, Values R a a' → ∃ b', Values R b b' ∧ a'.Perm b' := by
  induction hp with
  | nil => intro a' h; exact ⟨a', h, .refl _⟩
  | cons x _ ih =>
    intro a' h
    obtain ⟨y, ys, rfl, h1, h2⟩ := values_cons h
    obtain ⟨b', h3, h4⟩ := ih h2
    exact ⟨y :: b', one_cons h1 h3, h4.cons _⟩
  | swap x y l =>
    intro a' h
    obtain ⟨u, us, rfl, h1, h2⟩ := values_cons h
    obtain ⟨v, vs, rfl, h3, h4⟩ := values_cons h2
    exact ⟨v :: u :: vs, one_cons h3 (one_cons h1 h4), .swap ..⟩
  | trans _ _ ih1 ih2 =>
    intro a' h
    obtain ⟨b', h1, h2⟩ := ih1 h
    obtain ⟨c', h3, h4⟩ := ih2 h1
    exact ⟨c', h3, h2.trans h4⟩

theorem values_split {a a1 a2 a' : List Attr} (hp : a.Perm (a1 ++ a2)) (h : Values R a a') :
    ∃ a1' a2', a'.Perm (a1' ++ a2') ∧ Values R a1 a1' ∧ Values R a2 a2' := by
  obtain ⟨b, h1, h2⟩ := values_perm hp h
  obtain ⟨b1, b2, rfl, h3, h4⟩ := values_append h1
  exact ⟨b1, b2, h2, h3, h4⟩

theorem append {c1 c2 : List Node} : ∀ {c'}, Reworded R (c1 ++ c2) c' →
    ∃ c1' c2', c' = c1' ++ c2' ∧ Reworded R c1 c1' ∧ Reworded R c2 c2' := by
  induction c1 with
  | nil => exact fun {c'} h => ⟨[], c', rfl, .nil, h⟩
  | cons n c1 ih =>
    intro c' h
    generalize hc : n :: c1 ++ c2 = c at h
    cases h with
    | nil => cases hc
    | same h => cases hc; obtain ⟨a, b, rfl, h1, h2⟩ := ih h; exact ⟨_ :: a, b, rfl, .same h1, h2⟩
    | text hr h => cases hc; obtain ⟨a, b, rfl, h1, h2⟩ := ih h; exact ⟨_ :: a, b, rfl, .text hr h1, h2⟩
    | elem ha hk h => cases hc; obtain ⟨a, b, rfl, h1, h2⟩ := ih h; exact ⟨_ :: a, b, rfl, .elem ha hk h1, h2⟩

theorem shuffle {c1 c2 c : List Node} (hs : Shuffle c1 c2 c) : ∀ {c'}, Reworded R c c' →
    ∃ c1' c2', Shuffle c1' c2' c' ∧ Reworded R c1 c1' ∧ Reworded R c2 c2' := by
  induction hs with
  | nil => intro c' h; cases h; exact ⟨[], [], .nil, .nil, .nil⟩
  | left _ ih =>
    intro c' h
    cases h with
    | same h => obtain ⟨a, b, hs, h1, h2⟩ := ih h; exact ⟨_, _, .left hs, .same h1, h2⟩
    | text hr h => obtain ⟨a, b, hs, h1, h2⟩ := ih h; exact ⟨_, _, .left hs, .text hr h1, h2⟩
    | elem ha hk h => obtain ⟨a, b, hs, h1, h2⟩ := ih h; exact ⟨_, _, .left hs, .elem ha hk h1, h2⟩
  | right _ ih =>
    intro c' h
    cases h with
    | same h => obtain ⟨a, b, hs, h1, h2⟩ := ih h; exact ⟨_, _, .right hs, h1, .same h2⟩
    | text hr h => obtain ⟨a, b, hs, h1, h2⟩ := ih h; exact ⟨_, _, .right hs, h1, .text hr h2⟩
    | elem ha hk h => obtain ⟨a, b, hs, h1, h2⟩ := ih h; exact ⟨_, _, .right hs, h1, .elem ha hk h2⟩

theorem texts {c c' : List Node} (h : Reworded R c c') : (∀ n ∈ c, ∃ s, n = Node.text s) → ∀ n ∈ c', ∃ s, n = Node.text s := by
  induction h with
  | nil => exact fun h => h
  | same _ ih =>
    intro ht n hn
    cases hn with
    | head => exact ht _ (.head _)
    | tail _ hn => exact ih (fun m hm => ht m (.tail _ hm)) n hn
  | text _ _ ih =>
    intro ht n hn
    cases hn with
    | head => exact ⟨_, rfl⟩
    | tail _ hn => exact ih (fun m hm => ht m (.tail _ hm)) n hn
  | elem => intro ht; obtain ⟨s, hs⟩ := ht _ (.head _); cases hs

theorem single {s : Str} {c' : List Node} (h : Reworded R [.text s] c') : ∃ t, c' = [.text t] ∧ (t = s ∨ R s t) := by
  cases h with
  | same h => cases h; exact ⟨s, rfl, .inl rfl⟩
  | text hr h => cases h; exact ⟨_, rfl, .inr hr⟩

theorem weak (hw : ∀ s t, R s t → WsText s → WsText t) {k c : List Node} (h : Weak k c) : ∀ {k'}, Reworded R k k' →
    ∃ c', Weak k' c' ∧ Reworded R c c' := by
  induction h with
  | nil => intro k' h; cases h; exact ⟨[], .nil, .nil⟩
  | keep _ ih =>
    intro k' h
    cases h with
    | same h => obtain ⟨c', h1, h2⟩ := ih h; exact ⟨_, .keep h1, .same h2⟩
    | text hr h => obtain ⟨c', h1, h2⟩ := ih h; exact ⟨_, .keep h1, .text hr h2⟩
    | elem ha hk h => obtain ⟨c', h1, h2⟩ := ih h; exact ⟨_, .keep h1, .elem ha hk h2⟩
  | drop hs _ ih =>
    intro k' h
    cases h with
    | same h => obtain ⟨c', h1, h2⟩ := ih h; exact ⟨c', .drop hs h1, h2⟩
    | text hr h => obtain ⟨c', h1, h2⟩ := ih h; exact ⟨c', .drop (hw _ _ hr hs) h1, h2⟩

theorem except {e : Pattern D V} {s t : Str} {b : Bool} (h : ExMatch L env e s b) : (∀ l, Asks env e l → Agree L l s t) → ExMatch L env e t b := by
  induction h with
  | value h => intro hl; exact .value ((hl _ .value).symm.trans h)
  | data h => intro hl; exact .data ((hl _ .data).symm.trans h)
  | dataExcept h _ ih => intro hl; exact .dataExcept ((hl _ .dataOf).symm.trans h) (ih fun l h => hl l (.except h))
  | notAllowed => exact fun _ => .notAllowed
  | choiceNil => exact fun _ => .choiceNil
  | choiceCons _ _ ih1 ih2 =>
    intro hl
    refine .choiceCons (ih1 fun l h => hl l (.choice (.head _) h)) (ih2 fun l h => hl l ?_)
    cases h with | choice hm h => exact .choice (.tail _ hm) h
  | ref hn _ ih => intro hl; exact .ref hn (ih fun l h => hl l (.ref hn h))

theorem reworded_match (hw : ∀ s t, R s t → WsText s → WsText t) {p : Pattern D V} {a c} (hm : Match L env p a c) :
    (∀ l, Asks env p l → ∀ s t, R s t → Agree L l s t) → ∀ {a' c'}, Values R a a' → Reworded R c c' → Match L env p a' c' := by
  induction hm with
  | empty => intro _ a' c' ha h; cases ha; cases h; exact .empty
  | text hc => intro _ a' c' ha h; cases ha; exact .text (texts h hc)
  | choice hp _ ih => intro hf a' c' ha h; exact .choice hp (ih (fun l hl => hf l (.choice hp hl)) ha h)
  | groupNil => intro _ a' c' ha h; cases ha; cases h; exact .groupNil
  | groupCons _ _ hp ih1 ih2 =>
    intro hf a' c' ha h
    obtain ⟨c1, c2, rfl, h1, h2⟩ := append h
    obtain ⟨a1, a2, hp', h3, h4⟩ := values_split hp ha
    refine .groupCons (ih1 (fun l hl => hf l (.group (.head _) hl)) h3 h1) (ih2 (fun l hl => hf l ?_) h4 h2) hp'
    cases hl with | group hm hl => exact .group (.tail _ hm) hl
  | interleaveNil => intro _ a' c' ha h; cases ha; cases h; exact .interleaveNil
  | interleaveCons _ _ hp hs ih1 ih2 =>
    intro hf a' c' ha h
    obtain ⟨c1, c2, hs', h1, h2⟩ := shuffle hs h
    obtain ⟨a1, a2, hp', h3, h4⟩ := values_split hp ha
    refine .interleaveCons (ih1 (fun l hl => hf l (.interleave (.head _) hl)) h3 h1) (ih2 (fun l hl => hf l ?_) h4 h2) hp' hs'
    cases hl with | interleave hm hl => exact .interleave (.tail _ hm) hl
  | mixed _ hc hs ih =>
    intro hf a' c' ha h
    obtain ⟨c1, c2, hs', h1, h2⟩ := shuffle hs h
    exact .mixed (ih (fun l hl => hf l (.mixed hl)) ha h1) (texts h2 hc) hs'
  | optionalNone => intro _ a' c' ha h; cases ha; cases h; exact .optionalNone
  | optionalSome _ ih => intro hf a' c' ha h; exact .optionalSome (ih (fun l hl => hf l (.optional hl)) ha h)
  | zeroOrMoreNil => intro _ a' c' ha h; cases ha; cases h; exact .zeroOrMoreNil
  | zeroOrMoreCons _ _ hp ih1 ih2 =>
    intro hf a' c' ha h
    obtain ⟨c1, c2, rfl, h1, h2⟩ := append h
    obtain ⟨a1, a2, hp', h3, h4⟩ := values_split hp ha
    exact .zeroOrMoreCons (ih1 (fun l hl => hf l (.zeroOrMore hl)) h3 h1) (ih2 hf h4 h2) hp'
  | oneOrMore _ _ hp ih1 ih2 =>
    intro hf a' c' ha h
    obtain ⟨c1, c2, rfl, h1, h2⟩ := append h
    obtain ⟨a1, a2, hp', h3, h4⟩ := values_split hp ha
    refine .oneOrMore (ih1 (fun l hl => hf l (.oneOrMore hl)) h3 h1) (ih2 (fun l hl => hf l ?_) h4 h2) hp'
    cases hl with | zeroOrMore hl => exact .oneOrMore hl
  | attr hn hk hm ih =>
    intro hf a' c' ha h
    cases h
    cases ha with
    | same ha => cases ha; exact .attr hn hk hm
    | value hr ha =>
      cases ha
      obtain ⟨c1, h1, h2⟩ := weak hw hk (.text hr .nil)
      exact .attr hn h1 (ih (fun l hl => hf l (.attr hl)) .nil h2)
  | element hn hk hm ih =>
    intro hf a' c' ha h
    cases ha
    cases h with
    | same h => cases h; exact .element hn hk hm
    | elem ha hk' h =>
      cases h
      obtain ⟨c1, h1, h2⟩ := weak hw hk hk'
      exact .element hn h1 (ih (fun l hl => hf l (.element hl)) ha h2)
  | ref hn _ ih => intro hf a' c' ha h; exact .ref hn (ih (fun l hl => hf l (.ref hn hl)) ha h)
  | value hv =>
    intro hf a' c' ha h
    cases ha
    obtain ⟨t, rfl, rfl | hr⟩ := single h
    · exact .value hv
    · exact .value ((hf _ .value _ _ hr).symm.trans hv)
  | data hv =>
    intro hf a' c' ha h
    cases ha
    obtain ⟨t, rfl, rfl | hr⟩ := single h
    · exact .data hv
    · exact .data ((hf _ .data _ _ hr).symm.trans hv)
  | dataExcept hv he =>
    intro hf a' c' ha h
    cases ha
    obtain ⟨t, rfl, rfl | hr⟩ := single h
    · exact .dataExcept hv he
    · exact .dataExcept ((hf _ .dataOf _ _ hr).symm.trans hv) (except he fun l hl => hf l (.except hl) _ _ hr)
  | list hws hm _ =>
    intro hf a' c' ha h
    cases ha
    obtain ⟨t, rfl, rfl | hr⟩ := single h
    · exact .list hws hm
    · exact .list ((hf _ .list _ _ hr _).1 hws) hm

end Verif.Reword
