import Verif.Spec.Described
/-
Whatever matches is described.
-/
namespace Verif.Described
variable {D V : Type} {L : Lib D V} {env : Env D V}

theorem nodes_mono {q q' : Pattern D V} {c : List Node} (h : DescribedNodes env L q c) (hq : ∀ p, At env q p → At env q' p) :
    DescribedNodes env L q' c := by
  induction h with
  | nil => exact .nil
  | space hw _ ih => exact .space hw (ih hq)
  | text h1 h2 _ ih => exact .text (hq _ h1) h2 (ih hq)
  | elem h1 h2 h3 h4 h5 _ _ ih => exact .elem (hq _ h1) h2 h3 h4 h5 (ih hq)

theorem attr_mono {q q' : Pattern D V} {a : Attr} (h : DescribedAttr env L q a) (hq : ∀ p, At env q p → At env q' p) :
    DescribedAttr env L q' a := by
  obtain ⟨nc, p, h1, h2⟩ := h
  exact ⟨nc, p, hq _ h1, h2⟩

theorem nodes_cons {q : Pattern D V} {x : Node} {c c' : List Node} (h : DescribedNodes env L q (x :: c)) (h' : DescribedNodes env L q c') :
    DescribedNodes env L q (x :: c') := by
  cases h with
  | space hw _ => exact .space hw h'
  | text h1 h2 _ => exact .text h1 h2 h'
  | elem h1 h2 h3 h4 h5 _ => exact .elem h1 h2 h3 h4 h5 h'

theorem nodes_tail {q : Pattern D V} {x : Node} {c : List Node} (h : DescribedNodes env L q (x :: c)) : DescribedNodes env L q c := by
  cases h with
  | space _ h => exact h
  | text _ _ h => exact h
  | elem _ _ _ _ _ h => exact h

theorem nodes_append {q : Pattern D V} {c2 : List Node} (h2 : DescribedNodes env L q c2) :
    ∀ {c1}, DescribedNodes env L q c1 → DescribedNodes env L q (c1 ++ c2)
  | [], _ => h2
  | _ :: _, h => nodes_cons h (nodes_append h2 (nodes_tail h))

theorem nodes_shuffle {q : Pattern D V} {c1 c2 c : List Node} (h : Shuffle c1 c2 c) (h1 : DescribedNodes env L q c1)
    (h2 : DescribedNodes env L q c2) : DescribedNodes env L q c := by
  induction h with
  | nil => exact .nil
  | left _ ih => exact nodes_cons h1 (ih (nodes_tail h1) h2)
  | right _ ih => exact nodes_cons h2 (ih h1 (nodes_tail h2))

theorem nodes_weak {q : Pattern D V} {c c' : List Node} (h : Weak c c') (h1 : DescribedNodes env L q c') : DescribedNodes env L q c := by
  induction h with
  | nil => exact .nil
  | keep _ ih => exact nodes_cons h1 (ih (nodes_tail h1))
  | drop hw _ ih => exact .space hw (ih h1)

theorem nodes_texts {q p : Pattern D V} {c : List Node} (hp : At env q p) (hf : ForText p) (h : ∀ n ∈ c, ∃ s, n = Node.text s) :
    DescribedNodes env L q c := by
  induction c with
  | nil => exact .nil
  | cons n c ih =>
    obtain ⟨s, rfl⟩ := h n (.head _)
    exact .text hp hf (ih fun m hm => h m (.tail _ hm))

def Both (env : Env D V) (L : Lib D V) (q : Pattern D V) (as : List Attr) (c : List Node) : Prop :=
  (∀ a ∈ as, DescribedAttr env L q a) ∧ DescribedNodes env L q c

theorem Both.mono {q q' : Pattern D V} {as c} (h : Both env L q as c) (hq : ∀ p, At env q p → At env q' p) : Both env L q' as c :=
  ⟨fun a ha => attr_mono (h.1 a ha) hq, nodes_mono h.2 hq⟩

theorem Both.perm {q : Pattern D V} {as as1 as2 c} (h1 : ∀ a ∈ as1, DescribedAttr env L q a) (h2 : ∀ a ∈ as2, DescribedAttr env L q a)
    (hp : as.Perm (as1 ++ as2)) (hc : DescribedNodes env L q c) : Both env L q as c :=
  ⟨fun a ha => (List.mem_append.1 (hp.mem_iff.1 ha)).elim (h1 a) (h2 a), hc⟩

theorem at_group_tail {q : Pattern D V} {qs p} (h : At env (.group qs) p) (hp : p ≠ .group qs) : At env (.group (q :: qs)) p := by
  cases h with
  | here => exact absurd rfl hp
  | group hm h => exact .group (.tail _ hm) h

theorem at_interleave_tail {q : Pattern D V} {qs p} (h : At env (.interleave qs) p) (hp : p ≠ .interleave qs) :
    At env (.interleave (q :: qs)) p := by
  cases h with
  | here => exact absurd rfl hp
  | interleave hm h => exact .interleave (.tail _ hm) h

/-- only attributes, elements and patterns for text count -/
theorem nodes_mono' {q q' : Pattern D V} {c : List Node} (h : DescribedNodes env L q c)
    (hq : ∀ p, At env q p → (ForText p ∨ (∃ nc r, p = .element nc r)) → At env q' p) : DescribedNodes env L q' c := by
  induction h with
  | nil => exact .nil
  | space hw _ ih => exact .space hw (ih hq)
  | text h1 h2 _ ih => exact .text (hq _ h1 (.inl h2)) h2 (ih hq)
  | elem h1 h2 h3 h4 h5 _ _ ih => exact .elem (hq _ h1 (.inr ⟨_, _, rfl⟩)) h2 h3 h4 h5 (ih hq)

theorem group_tail {q : Pattern D V} {qs as c} (h : Both env L (.group qs) as c) : Both env L (.group (q :: qs)) as c := by
  refine ⟨fun a ha => ?_, nodes_mono' h.2 fun p hp hf => at_group_tail hp ?_⟩
  · obtain ⟨nc, p, h1, h2⟩ := h.1 a ha
    exact ⟨nc, p, at_group_tail h1 nofun, h2⟩
  · rintro rfl
    rcases hf with hf | ⟨_, _, hf⟩ <;> cases hf

theorem interleave_tail {q : Pattern D V} {qs as c} (h : Both env L (.interleave qs) as c) : Both env L (.interleave (q :: qs)) as c := by
  refine ⟨fun a ha => ?_, nodes_mono' h.2 fun p hp hf => at_interleave_tail hp ?_⟩
  · obtain ⟨nc, p, h1, h2⟩ := h.1 a ha
    exact ⟨nc, p, at_interleave_tail h1 nofun, h2⟩
  · rintro rfl
    rcases hf with hf | ⟨_, _, hf⟩ <;> cases hf

theorem one_zero {q : Pattern D V} {as c} (h : Both env L (.zeroOrMore q) as c) : Both env L (.oneOrMore q) as c := by
  have key : ∀ p, At env (.zeroOrMore q) p → p ≠ .zeroOrMore q → At env (.oneOrMore q) p := by
    intro p hp hn
    cases hp with
    | here => exact absurd rfl hn
    | zeroOrMore hp => exact .oneOrMore hp
  refine ⟨fun a ha => ?_, nodes_mono' h.2 fun p hp hf => key p hp ?_⟩
  · obtain ⟨nc, p, h1, h2⟩ := h.1 a ha
    exact ⟨nc, p, key _ h1 nofun, h2⟩
  · rintro rfl
    rcases hf with hf | ⟨_, _, hf⟩ <;> cases hf

theorem match_both {p : Pattern D V} {a c} (hm : Match L env p a c) : Both env L p a c := by
  induction hm with
  | empty => exact ⟨nofun, .nil⟩
  | text hc => exact ⟨nofun, nodes_texts .here .text hc⟩
  | choice hp _ ih => exact ih.mono fun _ => .choice hp
  | groupNil => exact ⟨nofun, .nil⟩
  | @groupCons q qs _ _ _ _ _ _ _ hp ih1 ih2 =>
    have ih1 := ih1.mono (q' := .group (q :: qs)) fun _ => .group (.head _)
    have ih2 := group_tail (q := q) ih2
    exact Both.perm ih1.1 ih2.1 hp (nodes_append ih2.2 ih1.2)
  | interleaveNil => exact ⟨nofun, .nil⟩
  | @interleaveCons q qs _ _ _ _ _ _ _ _ hp hs ih1 ih2 =>
    have ih1 := ih1.mono (q' := .interleave (q :: qs)) fun _ => .interleave (.head _)
    have ih2 := interleave_tail (q := q) ih2
    exact Both.perm ih1.1 ih2.1 hp (nodes_shuffle hs ih1.2 ih2.2)
  | mixed _ hc hs ih =>
    have ih := ih.mono fun _ => At.mixed
    exact ⟨ih.1, nodes_shuffle hs ih.2 (nodes_texts .here .mixed hc)⟩
  | optionalNone => exact ⟨nofun, .nil⟩
  | optionalSome _ ih => exact ih.mono fun _ => .optional
  | zeroOrMoreNil => exact ⟨nofun, .nil⟩
  | zeroOrMoreCons _ _ hp ih1 ih2 =>
    have ih1 := ih1.mono fun _ => At.zeroOrMore
    exact Both.perm ih1.1 ih2.1 hp (nodes_append ih2.2 ih1.2)
  | oneOrMore _ _ hp ih1 ih2 =>
    have ih1 := ih1.mono fun _ => At.oneOrMore
    have ih2 := one_zero ih2
    exact Both.perm ih1.1 ih2.1 hp (nodes_append ih2.2 ih1.2)
  | attr hn hw hm _ =>
    refine ⟨fun a ha => ?_, .nil⟩
    obtain rfl := List.mem_singleton.1 ha
    exact ⟨_, _, .here, hn, .attr hn hw hm⟩
  | element hn hw hm ih => exact ⟨nofun, .elem .here hn (.element hn hw hm) ih.1 (nodes_weak hw ih.2) .nil⟩
  | ref hn _ ih => exact ih.mono fun _ => .ref hn
  | value => exact ⟨nofun, .text .here .value .nil⟩
  | data => exact ⟨nofun, .text .here .data .nil⟩
  | dataExcept => exact ⟨nofun, .text .here .dataExcept .nil⟩
  | list => exact ⟨nofun, .text .here .list .nil⟩

theorem elemIn_of_at {q p : Pattern D V} (h : At env q p) : ∀ {nc r}, ElemIn env p nc r → ElemIn env q nc r := by
  induction h with
  | here => exact id
  | choice hq _ ih => exact fun he => .choice hq (ih he)
  | group hq _ ih => exact fun he => .group hq (ih he)
  | interleave hq _ ih => exact fun he => .interleave hq (ih he)
  | mixed _ ih => exact fun he => .mixed (ih he)
  | optional _ ih => exact fun he => .optional (ih he)
  | zeroOrMore _ ih => exact fun he => .zeroOrMore (ih he)
  | oneOrMore _ ih => exact fun he => .oneOrMore (ih he)
  | ref hn _ ih => exact fun he => .ref hn (ih he)

theorem occurs_described {q : Pattern D V} {c : List Node} {nm : QName} {as : List Attr} {kids : List Node} (h : DescribedNodes env L q c)
    (ho : ElementIn nm as kids c) : ∃ nc r, ElemIn env q nc r ∧ nc.Has nm.expanded ∧ (∀ a ∈ as, DescribedAttr env L r a) ∧
      Match L env (.element nc r) [] [.elem nm as kids] := by
  induction h with
  | nil => cases ho
  | space _ _ ih => cases ho with | later ho => exact ih ho
  | text _ _ _ ih => cases ho with | later ho => exact ih ho
  | elem h1 h2 h3 h4 _ _ ih1 ih2 =>
    cases ho with
    | here => exact ⟨_, _, elemIn_of_at h1 .here, h2, h4, h3⟩
    | inside ho =>
      obtain ⟨nc, r, h, h'⟩ := ih1 ho
      exact ⟨nc, r, elemIn_of_at h1 (.element h), h'⟩
    | later ho => exact ih2 ho

end Verif.Described
