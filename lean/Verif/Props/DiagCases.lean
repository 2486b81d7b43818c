import Verif.Props.Diagnostic
/-
Concrete cases for C46, C65, C66.
-/
namespace Verif.Ex
open Verif Loc

/-- `element a { empty }` -/
def leaf (c : Char) : Pattern Unit Str := .element (.named [] [c]) .empty

/-- `element r { p }` -/
def inR (p : Pattern Unit Str) : Pattern Unit Str := .element (.named [] ['r']) p

/-- the items of `<r><c/>` -/
def rItems (c : Char) : List Loc.Event :=
  [.token (.elementStart ⟨1, []⟩ ⟨1, ['r']⟩ ⟨0, "<r".toList⟩), .token (.elementEnd .open ⟨2, ['>']⟩),
   .token (.elementStart ⟨4, []⟩ ⟨4, [c]⟩ ⟨3, ['<', c]⟩), .token (.elementEnd .empty ⟨4 + byteLen [c], "/>".toList⟩)]

def rText (c : Char) : Str := "<r><".toList ++ [c] ++ "/>".toList

theorem rItems_in (c : Char) : TokensIn (rText c) (rItems c) := by
  intro t ht p hp
  simp only [rItems, List.mem_cons, List.not_mem_nil, or_false, Loc.Event.token.injEq] at ht
  rcases ht with rfl | rfl | rfl | rfl
  · simp only [Token.spans, List.mem_cons, List.not_mem_nil, or_false] at hp
    rcases hp with rfl | rfl | rfl
    · exact ⟨['<'], "r><".toList ++ [c] ++ "/>".toList, rfl, rfl⟩
    · exact ⟨['<'], "><".toList ++ [c] ++ "/>".toList, rfl, rfl⟩
    · exact ⟨[], "><".toList ++ [c] ++ "/>".toList, rfl, rfl⟩
  · cases List.mem_singleton.1 hp
    exact ⟨"<r".toList, "<".toList ++ [c] ++ "/>".toList, rfl, rfl⟩
  · simp only [Token.spans, List.mem_cons, List.not_mem_nil, or_false] at hp
    rcases hp with rfl | rfl | rfl
    · exact ⟨"<r><".toList, [c] ++ "/>".toList, rfl, rfl⟩
    · exact ⟨"<r><".toList, "/>".toList, rfl, rfl⟩
    · exact ⟨"<r>".toList, "/>".toList, rfl, rfl⟩
  · simp only [Token.spans, End.spans, List.mem_cons, List.not_mem_nil, or_false] at hp
    cases hp
    exact ⟨"<r><".toList ++ [c], [], rfl, by rw [byteLen_append]; rfl⟩

/-- the results of reading `<r><c/>` -/
def rRun (p : Pattern Unit Str) (c : Char) : Option (List (Except Err Unit) × Loc.State Unit Str) :=
  match Loc.newValidator [] 20 (inR p) with
  | .error _ => none
  | .ok s =>
    match Loc.runEvents lib 20 (rItems c) s with
    | .error _ => none
    | .ok x => some x

/-- the result for the last item, and the diagnostics made of its error -/
def rLast (p : Pattern Unit Str) (c : Char) : Option (Except Err Unit × Option (List Diag)) :=
  match rRun p c with
  | none => none
  | some (rs, s) =>
    match rs.getLast? with
    | some (.error e) =>
      (match Loc.diagnostic id 20 (rText c) e s with
      | .error _ => none
      | .ok (ds, _) => some (.error e, ds))
    | some (.ok ()) => some (.ok (), none)
    | none => none

/-- the error shown for the name `c` -/
def refused (c : Char) : Except Err Unit := .error (.notAllowed (.elementStart .none ⟨4, [c]⟩ ⟨4, [c]⟩))

/-- its diagnostics, expecting these elements -/
def advice (expected : Str) : List Diag :=
  [⟨.error, .notExpectedHere "element-start".toList, some (4, 5)⟩, ⟨.help, .expected ("Element ".toList ++ expected), none⟩]

/-- C46, names that are missing.  Where `a?, b` is expected, `<b/>` is accepted, but if something else comes only `a` is named. -/
theorem C46_names_missing : rLast (.group [.optional (leaf 'a'), leaf 'b']) 'b' = some (.ok (), none) ∧
    rLast (.group [.optional (leaf 'a'), leaf 'b']) 'c' = some (refused 'c', some (advice "a".toList)) := by
  constructor <;> decide +kernel

/-- C46, names that are wrong.  Where `a, b` is expected, `<b/>` is refused, and the diagnostic of that error says that `b` or `a` is
expected. -/
theorem C46_names_wrong : rLast (.group [leaf 'a', leaf 'b']) 'b' = some (refused 'b', some (advice "b a".toList)) := by
  decide +kernel

/-- a choice of six: four are named -/
theorem C46_names_counted : rLast (.choice [leaf 'a', leaf 'b', leaf 'd', leaf 'e', leaf 'f', leaf 'g']) 'c' =
    some (refused 'c', some (advice "g f e d .. or one of 2 more".toList)) := by
  decide +kernel

/-! The theorems applied to `element r { a | b }` and the document `<r><c/>`. -/

def ab : Pattern Unit Str := .choice [leaf 'a', leaf 'b']

theorem ab_ok : SchemaOK lib [] (inR ab) true := by
  refine ⟨fun p => p = ab ∨ p = .empty, ?_, .element (.inl rfl)⟩
  rintro p (rfl | rfl)
  · refine .choice (by simp) ?_
    intro p hp
    simp only [List.mem_cons, List.not_mem_nil, or_false] at hp
    rcases hp with rfl | rfl <;> exact .element (.inr rfl)
  · exact .empty

theorem rRun_some {p : Pattern Unit Str} {c : Char} {x} (h : rRun p c = some x) : ∃ s0, Loc.newValidator [] 20 (inR p) = .ok s0 ∧
    Loc.runEvents lib 20 (rItems c) s0 = .ok x := by
  unfold rRun at h
  split at h
  · cases h
  · rename_i s hs
    split at h
    · cases h
    · rename_i x' hr; cases h; exact ⟨s, hs, hr⟩

/-- the error reported for `<c/>`, and the diagnostics theorem applied to it -/
theorem C65_case : ∃ rs s, rRun ab 'c' = some (rs, s) ∧ rs[3]? = some (refused 'c') ∧
    ∃ N p names help, s.numbered s.cur = some p ∧ (∀ nc, nc ∈ names ↔ ∃ j, Offered s.numbered p nc j) ∧
      help = [⟨.help, if names = [] then .removeThis else .expected (expectation names), none⟩] ∧
      ∀ m, N ≤ m → Loc.diagnostic id m (rText 'c') (.notAllowed (.elementStart .none ⟨4, ['c']⟩ ⟨4, ['c']⟩)) s =
        .ok (some (⟨.error, .notExpectedHere "element-start".toList, some (4, 5)⟩ :: help), s) := by
  have h : ((rRun ab 'c').map fun x => x.1[3]?) = some (some (refused 'c')) := by decide +kernel
  cases hr : rRun ab 'c' with
  | none => rw [hr] at h; cases h
  | some x =>
    obtain ⟨rs, s⟩ := x
    rw [hr] at h
    have h3 : rs[3]? = some (refused 'c') := Option.some.inj h
    refine ⟨rs, s, rfl, h3, ?_⟩
    obtain ⟨s0, h1, h2⟩ := rRun_some hr
    exact C65_errors_are_diagnosed (before := (rItems 'c').take 3) (after := []) ab_ok ⟨20, 20, s0, _, _, h1, h2⟩ (fun l => .refl l) h1 h2 rfl (rItems_in 'c') h3 nofun

/-- the state of the validator before the `/>` of `<r><c/>` -/
def rState (p : Pattern Unit Str) (c : Char) : Option (Loc.State Unit Str) :=
  match Loc.newValidator [] 20 (inR p) with
  | .error _ => none
  | .ok s =>
    match Loc.runEvents lib 20 ((rItems c).take 3) s with
    | .error _ => none
    | .ok (_, s) => some s

theorem rState_reached {p : Pattern Unit Str} {c : Char} {s : Loc.State Unit Str} (h : rState p c = some s) : Reached lib [] (inR p) s := by
  unfold rState at h
  split at h
  · cases h
  · rename_i s0 hs
    split at h
    · cases h
    · rename_i rs s' hr; cases h; exact ⟨20, 20, s0, _, rs, hs, hr⟩

/-- what a case needs to know of a state -/
def rFacts (s : Loc.State Unit Str) : List (Option (Pat Unit Str)) × Nat × List (Sp × Sp) :=
  ((List.range 8).map s.numbered, s.cur, s.stack.map fun e => (e.pre, e.loc))

/-- the result for `/>` -/
def rClose (s : Loc.State Unit Str) : Option (Except Err Unit) :=
  match Loc.validate lib 20 (.elementEnd .empty ⟨5, "/>".toList⟩) s with
  | .error _ => none
  | .ok (r, _) => some r

theorem rClose_some {s : Loc.State Unit Str} {r : Except Err Unit} (h : rClose s = some r) :
    ∃ s', Loc.validate lib 20 (.elementEnd .empty ⟨5, "/>".toList⟩) s = .ok (r, s') := by
  unfold rClose at h
  split at h
  · cases h
  · rename_i r' s' hr; cases h; exact ⟨s', hr⟩

theorem rState_some {p : Pattern Unit Str} {c : Char} {x : List (Option (Pat Unit Str)) × Nat × List (Sp × Sp)} {y : Except Err Unit}
    (h : (rState p c).map rFacts = some x) (h' : (rState p c).bind rClose = some y) : ∃ s, rState p c = some s ∧ rFacts s = x ∧ rClose s = some y := by
  cases hr : rState p c with
  | none => rw [hr] at h; cases h
  | some s => rw [hr] at h h'; cases h; exact ⟨s, rfl, rfl, h'⟩

theorem rStack {s : Loc.State Unit Str} {a b : Sp} {l : List (Sp × Sp)} (h : (s.stack.map fun e => (e.pre, e.loc)) = (a, b) :: l) :
    ∃ el els, s.stack = el :: els ∧ el.pre = a ∧ el.loc = b := by
  cases hs : s.stack with
  | nil => rw [hs] at h; cases h
  | cons el els => rw [hs] at h; cases h; exact ⟨el, els, rfl, rfl, rfl⟩

theorem range8 {α : Type} {f : Nat → α} {l : List α} (h : (List.range 8).map f = l) : [f 0, f 1, f 2, f 3, f 4, f 5, f 6, f 7] = l := h

/-- `a | b` and `<b/>`: no sequence, so `b` is on offer as it is accepted -/
theorem C46_complete_case : ∃ s p, rState ab 'b' = some s ∧ s.numbered s.cur = some p ∧
    (∃ nc j, Offered s.numbered p nc j ∧ contains nc ⟨none, ['b']⟩ = true) := by
  have h : (rState ab 'b').map rFacts = some ([some .empty, some (.element (.named [] ['b']) 0), some (.element (.named [] ['a']) 0),
      some (.choice 2 1 false), some (.element (.named [] ['r']) 3), some (.after 3 0), none, none], 5, [(⟨4, []⟩, ⟨4, ['b']⟩), (⟨1, []⟩, ⟨1, ['r']⟩)]) := by
    decide +kernel
  obtain ⟨s, hs, hf, hc⟩ := rState_some h (y := .ok ()) (by decide +kernel)
  obtain ⟨h1, h2⟩ := Prod.mk.inj hf
  obtain ⟨h2, h3⟩ := Prod.mk.inj h2
  have h1 := range8 h1
  simp only [List.cons.injEq, and_true] at h1
  obtain ⟨e0, e1, e2, e3, e4, e5, -⟩ := h1
  obtain ⟨el, els, k1, k2, k3⟩ := rStack h3
  obtain ⟨s', hv⟩ := rClose_some hc
  have hp : s.numbered s.cur = some (.after 3 0) := by rw [h2]; exact e5
  refine ⟨s, _, hs, hp, ?_⟩
  have := C46_accepted_names_are_listed_partial ab_ok (rState_reached hs) k1 (ns := none) (by unfold Loc.tryLookupNs; rw [k2]; rfl) (e := .empty) trivial hv hp ?_ nofun
  · rw [k3] at this; exact this
  · intro l r f q hg
    exfalso
    cases hg with
    | after g hg =>
      rw [e3] at g; cases g
      cases hg with
      | choiceL g hg => rw [e2] at g; cases g; cases hg
      | choiceR g hg => rw [e1] at g; cases g; cases hg

/-- `a?, b?` -/
def optAB : Pattern Unit Str := .group [.optional (leaf 'a'), .optional (leaf 'b')]

theorem optAB_ok : SchemaOK lib [] (inR optAB) true := by
  refine ⟨fun p => p = optAB ∨ p = .empty, ?_, .element (.inl rfl)⟩
  rintro p (rfl | rfl)
  · refine .group (by simp) ?_
    intro p hp
    simp only [List.mem_cons, List.not_mem_nil, or_false] at hp
    rcases hp with rfl | rfl <;> exact .optional (.element (.inr rfl))
  · exact .empty

/-- `a?, b?` and `<a/>`: the left side may be empty, so `a`, which is on offer, is accepted -/
theorem C46_sound_case : ∃ s p r, rState optAB 'a' = some s ∧ s.numbered s.cur = some p ∧ Offered s.numbered p (.named [] ['a']) 0 ∧
    rClose s = some r ∧ ∀ a b d, r ≠ .error (.notAllowed (.elementStart a b d)) := by
  have h : (rState optAB 'a').map rFacts = some ([some .empty, some (.element (.named [] ['b']) 0), some (.choice 1 0 true),
      some (.element (.named [] ['a']) 0), some (.choice 3 0 true), some (.group 4 2 true), some (.element (.named [] ['r']) 5), some (.after 5 0)], 7,
      [(⟨4, []⟩, ⟨4, ['a']⟩), (⟨1, []⟩, ⟨1, ['r']⟩)]) := by
    decide +kernel
  obtain ⟨s, hs, hf, hc⟩ := rState_some h (y := .ok ()) (by decide +kernel)
  obtain ⟨h1, h2⟩ := Prod.mk.inj hf
  obtain ⟨h2, h3⟩ := Prod.mk.inj h2
  have h1 := range8 h1
  simp only [List.cons.injEq, and_true] at h1
  obtain ⟨e0, e1, e2, e3, e4, e5, e6, e7⟩ := h1
  obtain ⟨el, els, k1, k2, k3⟩ := rStack h3
  obtain ⟨s', hv⟩ := rClose_some hc
  have hp : s.numbered s.cur = some (.after 5 0) := by rw [h2]; exact e7
  have ho : Offered s.numbered (.after 5 0) (.named [] ['a']) 0 := .after e5 (.groupL e4 (.choiceL e3 .element))
  have part : ∀ q, Part s.numbered (.after 5 0) q → q ∈ [.after 5 0, .group 4 2 true, .choice 3 0 true, .choice 1 0 true, .element (.named [] ['a']) 0,
      .element (.named [] ['b']) 0, (.empty : Pat Unit Str)] := by
    have leaf : ∀ {p q : Pat Unit Str}, Part s.numbered p q → (p = .empty ∨ ∃ nc j, p = .element nc j) → q = p := by
      intro p q hg hp
      rcases hp with rfl | ⟨nc, j, rfl⟩ <;> cases hg <;> rfl
    intro q hg
    cases hg with
    | refl => simp
    | after g hg =>
      rw [e5] at g; cases g
      cases hg with
      | refl => simp
      | groupL g hg =>
        rw [e4] at g; cases g
        cases hg with
        | refl => simp
        | choiceL g hg => rw [e3] at g; cases g; rw [leaf hg (.inr ⟨_, _, rfl⟩)]; simp
        | choiceR g hg => rw [e0] at g; cases g; rw [leaf hg (.inl rfl)]; simp
      | groupR g hg =>
        rw [e2] at g; cases g
        cases hg with
        | refl => simp
        | choiceL g hg => rw [e1] at g; cases g; rw [leaf hg (.inr ⟨_, _, rfl⟩)]; simp
        | choiceR g hg => rw [e0] at g; cases g; rw [leaf hg (.inl rfl)]; simp
  refine ⟨s, _, _, hs, hp, ho, hc, ?_⟩
  refine C46_listed_names_are_accepted_partial optAB_ok (rState_reached hs) k1 (ns := none) (by unfold Loc.tryLookupNs; rw [k2]; rfl) (e := .empty) trivial hv hp
    ?_ ?_ ho (by rw [k3]; rfl) e0 nofun
  · intro l r f q hg hl
    have := part _ hg
    simp only [List.mem_cons, List.not_mem_nil, or_false, reduceCtorEq, false_or, Pat.group.injEq] at this
    obtain ⟨rfl, rfl, rfl⟩ := this
    rw [e4] at hl; cases hl; rfl
  · intro j hg
    have := part _ hg
    simp at this

/-- C66: an error in the only line of a document (row 1) cannot be shown; an error in the first of two lines is shown in the second -/
theorem C66_case (s : Loc.State Unit Str) :
    Loc.diagnostic id 0 "<a".toList (.xml 1 3) s = .ok (none, s) ∧
    Loc.diagnostic id 0 "<a b\n></a>".toList (.xml 1 5) s = .ok (some [⟨.error, .xmlError, some (6, 6)⟩], s) :=
  ⟨(C66_syntax_errors 0 1 3 s).1 (by decide), rfl⟩

end Verif.Ex
