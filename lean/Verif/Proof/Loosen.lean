import Verif.Spec.Loosen
/-
What matches a schema matches its loosened versions.
-/
namespace Verif.Loosen
variable {D V : Type} {L : Lib D V} {env env' : Env D V} {ρ : Nat → Nat}

theorem shuffle_nil {α : Type} : ∀ (c : List α), Shuffle c [] c
  | [] => .nil
  | _ :: c => .left (shuffle_nil c)
theorem shuffle_nil_left {α : Type} : ∀ (c : List α), Shuffle [] c c
  | [] => .nil
  | _ :: c => .right (shuffle_nil_left c)

theorem MayBeLeftOut.empty {q : Pattern D V} (h : MayBeLeftOut q) : Match L env q [] [] := by
  cases h with
  | optional => exact .optionalNone
  | zeroOrMore => exact .zeroOrMoreNil

theorem group_one {q : Pattern D V} {a c} (h : Match L env q a c) : Match L env (.group [q]) a c := by
  have := Match.groupCons h .groupNil (a := a) (by simp)
  rwa [List.append_nil] at this
theorem interleave_one {q : Pattern D V} {a c} (h : Match L env q a c) : Match L env (.interleave [q]) a c :=
  .interleaveCons h .interleaveNil (by simp) (shuffle_nil c)

theorem group_insert {q : Pattern D V} (hq : Match L env q [] []) {bs : List (Pattern D V)} : ∀ {as : List (Pattern D V)} {a c},
    Match L env (.group (as ++ bs)) a c → Match L env (.group (as ++ q :: bs)) a c
  | [], a, c, h => .groupCons (c1 := []) hq h (by simp)
  | _ :: as, a, c, h => by
    cases h with
    | groupCons h1 h2 hp => exact .groupCons h1 (group_insert hq h2) hp
theorem interleave_insert {q : Pattern D V} (hq : Match L env q [] []) {bs : List (Pattern D V)} : ∀ {as : List (Pattern D V)} {a c},
    Match L env (.interleave (as ++ bs)) a c → Match L env (.interleave (as ++ q :: bs)) a c
  | [], a, c, h => .interleaveCons hq h (by simp) (shuffle_nil_left c)
  | _ :: as, a, c, h => by
    cases h with
    | interleaveCons h1 h2 hp hs => exact .interleaveCons h1 (interleave_insert hq h2) hp hs

theorem many_one {q : Pattern D V} {a c} (h : Match L env q a c) : Match L env (.zeroOrMore q) a c := by
  have := Match.zeroOrMoreCons h .zeroOrMoreNil (a := a) (by simp)
  rwa [List.append_nil] at this

theorem Wider.match {p q : Pattern D V} {a c} (h : Wider env p q) (hm : Match L env p a c) : Match L env q a c := by
  induction h generalizing a c with
  | refl => exact hm
  | choice _ hq ih => exact .choice hq (ih hm)
  | optional _ ih => exact .optionalSome (ih hm)
  | oneOrMore _ ih =>
    have := Match.oneOrMore (ih hm) .zeroOrMoreNil (a := a) (by simp)
    rwa [List.append_nil] at this
  | zeroOrMore _ ih => exact many_one (ih hm)
  | repeatable _ ih =>
    cases ih hm with
    | optionalNone => exact .zeroOrMoreNil
    | optionalSome h => exact many_one h
  | omissible _ ih =>
    cases ih hm with
    | oneOrMore h1 h2 hp => exact .zeroOrMoreCons h1 h2 hp
  | leftOut _ hq ih =>
    cases ih hm
    exact hq.empty
  | mixed _ ih => exact .mixed (c2 := []) (ih hm) nofun (shuffle_nil _)
  | ref _ hn ih => exact .ref hn (ih hm)
  | group _ ih => exact group_one (ih hm)
  | member _ hq ih => exact group_insert hq.empty (ih hm)
  | interleave _ ih => exact interleave_one (ih hm)
  | strand _ hq ih => exact interleave_insert hq.empty (ih hm)
  | noExcept _ ih =>
    cases ih hm with
    | dataExcept h _ => exact .data h
  | textEmpty _ ih =>
    cases ih hm
    exact .text nofun
  | textData _ ih =>
    cases ih hm
    exact .text fun x hx => ⟨_, List.mem_singleton.1 hx⟩
  | textValue _ ih =>
    cases ih hm
    exact .text fun x hx => ⟨_, List.mem_singleton.1 hx⟩
  | textList _ ih =>
    cases ih hm
    exact .text fun x hx => ⟨_, List.mem_singleton.1 hx⟩

theorem ExMatch.plain {e : Pattern D V} {s b} (h : ExMatch L env e s b) : e.refs = [] → ExMatch L env' e s b := by
  induction h with
  | value h => exact fun _ => .value h
  | data h => exact fun _ => .data h
  | dataExcept h _ ih => exact fun hr => .dataExcept h (ih hr)
  | notAllowed => exact fun _ => .notAllowed
  | choiceNil => exact fun _ => .choiceNil
  | choiceCons _ _ ih1 ih2 =>
    intro hr
    rw [Pattern.refs, refsL, List.append_eq_nil_iff] at hr
    exact .choiceCons (ih1 hr.1) (ih2 hr.2)
  | ref _ _ _ => intro hr; rw [Pattern.refs] at hr; cases hr

theorem Looser.match (hd : ∀ n p, env[n]? = some p → ∃ q, env'[ρ n]? = some q ∧ Looser env env' ρ p q) {p : Pattern D V} {a c}
    (hm : Match L env p a c) : ∀ {r}, Looser env env' ρ p r → Match L env' r a c := by
  induction hm with
  | empty => intro r h; cases h with | empty w => exact w.match .empty
  | text hc => intro r h; cases h with | text w => exact w.match (.text hc)
  | choice hp _ ih => intro r h; cases h with | choice h => exact ih (h _ hp)
  | groupNil =>
    intro r h
    cases h with
    | group hl _ w => cases List.length_eq_zero_iff.1 hl.symm; exact w.match .groupNil
  | groupCons _ _ hp ih1 ih2 =>
    intro r h
    cases h with
    | @group _ qs _ hl h w =>
      match qs, hl, h, w with
      | q :: qs, hl, h, w =>
        exact w.match (.groupCons (ih1 (h 0 _ q rfl rfl))
          (ih2 (.group (Nat.succ.inj hl) (fun i p q hp hq => h (i + 1) p q hp hq) .refl)) hp)
  | interleaveNil =>
    intro r h
    cases h with
    | interleave hl _ w => cases List.length_eq_zero_iff.1 hl.symm; exact w.match .interleaveNil
  | interleaveCons _ _ hp hs ih1 ih2 =>
    intro r h
    cases h with
    | @interleave _ qs _ hl h w =>
      match qs, hl, h, w with
      | q :: qs, hl, h, w =>
        exact w.match (.interleaveCons (ih1 (h 0 _ q rfl rfl))
          (ih2 (.interleave (Nat.succ.inj hl) (fun i p q hp hq => h (i + 1) p q hp hq) .refl)) hp hs)
  | mixed _ hc hs ih => intro r h; cases h with | mixed h w => exact w.match (.mixed (ih h) hc hs)
  | optionalNone => intro r h; cases h with | optional h w => exact w.match .optionalNone
  | optionalSome _ ih => intro r h; cases h with | optional h w => exact w.match (.optionalSome (ih h))
  | zeroOrMoreNil => intro r h; cases h with | zeroOrMore h w => exact w.match .zeroOrMoreNil
  | zeroOrMoreCons _ _ hp ih1 ih2 =>
    intro r h
    cases h with | zeroOrMore h w => exact w.match (.zeroOrMoreCons (ih1 h) (ih2 (.zeroOrMore h .refl)) hp)
  | oneOrMore _ _ hp ih1 ih2 =>
    intro r h
    cases h with | oneOrMore h w => exact w.match (.oneOrMore (ih1 h) (ih2 (.zeroOrMore h .refl)) hp)
  | attr hn hw _ ih => intro r h; cases h with | attr hi h w => exact w.match (.attr (hi _ hn) hw (ih h))
  | element hn hw _ ih => intro r h; cases h with | element hi h w => exact w.match (.element (hi _ hn) hw (ih h))
  | ref hn _ ih =>
    intro r h
    cases h with
    | ref w =>
      obtain ⟨q, hq, hl⟩ := hd _ _ hn
      exact w.match (.ref hq (ih hl))
    | inline hn' h => rw [hn] at hn'; cases hn'; exact ih h
  | value hv => intro r h; cases h with | value w => exact w.match (.value hv)
  | data hv => intro r h; cases h with | data w => exact w.match (.data hv)
  | dataExcept hv he => intro r h; cases h with | dataExcept hr w => exact w.match (.dataExcept hv (ExMatch.plain he hr))
  | list hw _ ih => intro r h; cases h with | list h w => exact w.match (.list hw (ih h))

end Verif.Loosen
