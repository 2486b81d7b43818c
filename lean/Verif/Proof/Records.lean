import Verif.Spec.Records
import Verif.Proof.Mixed
import Verif.Proof.Required
/-
Documents that are lists of records are judged record by record.
-/
namespace Verif.Records
open Mixed
variable {D V : Type} {L : Lib D V} {env : Env D V}

theorem record_one {p : Pattern D V} (h : Record env p) : ∀ {a c}, Match L env p a c → a = [] ∧ ∃ nm as k, c = [.elem nm as k] := by
  induction h with
  | element => intro _ _ hm; cases hm; exact ⟨rfl, _, _, _, rfl⟩
  | choice _ ih => intro _ _ hm; cases hm with | choice hp hm => exact ih _ hp hm
  | ref hn _ ih => intro _ _ hm; cases hm with | ref hn' hm => rw [hn] at hn'; cases hn'; exact ih hm

theorem zero_iff {p : Pattern D V} (h : Record env p) {a : List Attr} : ∀ {c}, Match L env (.zeroOrMore p) a c ↔
    a = [] ∧ (∀ x ∈ c, (∃ nm as k, x = Node.elem nm as k) ∧ Match L env p [] [x]) := by
  intro c
  constructor
  · intro hm
    generalize hq : Pattern.zeroOrMore p = q at hm
    induction hm with
    | zeroOrMoreNil => exact ⟨rfl, nofun⟩
    | zeroOrMoreCons h1 _ hp _ ih =>
      cases hq
      obtain ⟨rfl, h2⟩ := ih rfl
      obtain ⟨rfl, nm, as, k, rfl⟩ := record_one h h1
      refine ⟨hp.eq_nil, fun x hx => ?_⟩
      cases hx with
      | head => exact ⟨⟨_, _, _, rfl⟩, h1⟩
      | tail _ hx => exact h2 x hx
    | _ => cases hq
  · rintro ⟨rfl, h2⟩
    induction c with
    | nil => exact .zeroOrMoreNil
    | cons x c ih => exact .zeroOrMoreCons (a1 := []) (a2 := []) (c1 := [x]) (h2 x (.head _)).2 (ih fun y hy => h2 y (.tail _ hy)) (.refl _)

theorem repeated_iff {p : Pattern D V} (h : Repeated env p) {a : List Attr} : ∀ {c}, Match L env p a c ↔
    a = [] ∧ ∀ x ∈ c, (∃ nm as k, x = Node.elem nm as k) ∧ Match L env p [] [x] := by
  induction h with
  | zeroOrMore h =>
    intro c
    rw [zero_iff h]
    refine and_congr_right fun _ => forall_congr' fun x => imp_congr_right fun _ => and_congr_right fun hx => ?_
    rw [zero_iff h]
    constructor
    · exact fun hm => ⟨rfl, fun y hy => by rw [List.mem_singleton.1 hy]; exact ⟨hx, hm⟩⟩
    · exact fun hm => (hm.2 x (.head _)).2
  | ref hn _ ih =>
    have key : ∀ {a c}, Match L env (.ref _) a c ↔ Match L env _ a c := fun {a c} =>
      ⟨fun hm => by cases hm with | ref hn' hm => rw [hn] at hn'; cases hn'; exact hm, fun hm => .ref hn hm⟩
    intro c
    rw [key, ih]
    simp only [key]

theorem group_app {as : List (Pattern D V)} {p : Pattern D V} (h : ∀ q ∈ as, Attributes env q) (hp : Repeated env p) : ∀ {a c},
    Match L env (.group (as ++ [p])) a c ↔ Match L env (.group as) a [] ∧ Match L env p [] c := by
  induction as with
  | nil =>
    intro a c
    constructor
    · intro hm
      cases hm with
      | groupCons h1 h2 hperm =>
        cases h2
        obtain ⟨rfl, _⟩ := (repeated_iff hp).1 h1
        have hperm := hperm.eq_nil
        subst hperm
        rw [List.append_nil]
        exact ⟨.groupNil, h1⟩
    · rintro ⟨h1, h2⟩
      cases h1
      have := Match.groupCons (a := []) h2 (Match.groupNil (L := L) (env := env)) (.refl _)
      rw [List.append_nil] at this
      exact this
  | cons q as ih =>
    intro a c
    have ih := @ih fun r hr => h r (.tail _ hr)
    constructor
    · intro hm
      cases hm with
      | groupCons h1 h2 hperm =>
        obtain ⟨h3, h4⟩ := ih.1 h2
        obtain rfl := no_content h1 (h _ (.head _))
        exact ⟨.groupCons (c1 := []) (c2 := []) h1 h3 hperm, h4⟩
    · rintro ⟨h1, h2⟩
      generalize hn : ([] : List Node) = n at h1
      cases h1 with
      | groupCons h3 h4 hperm =>
        obtain ⟨rfl, rfl⟩ := List.append_eq_nil_iff.1 hn.symm
        exact .groupCons (c1 := []) h3 (ih.2 ⟨h4, h2⟩) hperm

/-- content is judged record by record -/
theorem listing_iff {q : Pattern D V} (h : Listing env q) : ∀ {a c}, Match L env q a c ↔
    Match L env q a [] ∧ ∀ x ∈ c, (∃ nm as k, x = Node.elem nm as k) ∧ Match L env q a [x] := by
  induction h with
  | records h =>
    intro a c
    rw [repeated_iff h]
    constructor
    · rintro ⟨rfl, h2⟩
      exact ⟨(repeated_iff h).2 ⟨rfl, nofun⟩, h2⟩
    · rintro ⟨h1, h2⟩
      obtain ⟨rfl, _⟩ := (repeated_iff h).1 h1
      exact ⟨rfl, h2⟩
  | group ha h =>
    intro a c
    simp only [group_app ha h]
    constructor
    · rintro ⟨h1, h2⟩
      refine ⟨⟨h1, (repeated_iff h).2 ⟨rfl, nofun⟩⟩, fun x hx => ?_⟩
      obtain ⟨h3, h4⟩ := ((repeated_iff h).1 h2).2 x hx
      exact ⟨h3, h1, h4⟩
    · rintro ⟨⟨h1, _⟩, h2⟩
      exact ⟨h1, (repeated_iff h).2 ⟨rfl, fun x hx => ⟨(h2 x hx).1, (h2 x hx).2.2⟩⟩⟩
  | ref hn _ ih =>
    have key : ∀ {a c}, Match L env (.ref _) a c ↔ Match L env _ a c := fun {a c} =>
      ⟨fun hm => by cases hm with | ref hn' hm => rw [hn] at hn'; cases hn'; exact hm, fun hm => .ref hn hm⟩
    intro a c
    rw [key, ih]
    simp only [key]

theorem weak_elems {c c' : List Node} (h : Weak c c') : (∀ x ∈ c', ∃ nm as k, x = Node.elem nm as k) →
    (∀ s, Node.text s ∈ c → WsText s) ∧ c' = elems c := by
  induction h with
  | nil => exact fun _ => ⟨nofun, rfl⟩
  | @keep x c c' _ ih =>
    intro hx
    obtain ⟨h1, h2⟩ := ih fun y hy => hx y (.tail _ hy)
    obtain ⟨nm, as, k, rfl⟩ := hx x (.head _)
    refine ⟨fun s hs => ?_, by rw [h2]; rfl⟩
    cases hs with | tail _ hs => exact h1 s hs
  | drop hw _ ih =>
    intro hx
    obtain ⟨h1, h2⟩ := ih hx
    refine ⟨fun s hs => ?_, h2⟩
    cases hs with
    | head => exact hw
    | tail _ hs => exact h1 s hs

theorem elems_weak : ∀ {c : List Node}, (∀ s, Node.text s ∈ c → WsText s) → Weak c (elems c)
  | [], _ => .nil
  | .text s :: c, h => .drop (h s (.head _)) (elems_weak fun t ht => h t (.tail _ ht))
  | .elem .. :: c, h => .keep (elems_weak fun t ht => h t (.tail _ ht))

theorem elems_are : ∀ {c : List Node} {x}, x ∈ elems c → x ∈ c ∧ ∃ nm as k, x = Node.elem nm as k
  | [], _, h => by cases h
  | .text s :: c, x, h => ⟨.tail _ (elems_are (c := c) h).1, (elems_are (c := c) h).2⟩
  | .elem .. :: c, x, h => by
    cases h with
    | head => exact ⟨.head _, _, _, _, rfl⟩
    | tail _ h => exact ⟨.tail _ (elems_are h).1, (elems_are h).2⟩

theorem elem_mem : ∀ {c : List Node} {nm as k}, Node.elem nm as k ∈ c → Node.elem nm as k ∈ elems c
  | .text s :: c, _, _, _, h => by cases h with | tail _ h => exact elem_mem (c := c) h
  | .elem .. :: c, _, _, _, h => by
    cases h with
    | head => exact .head _
    | tail _ h => exact .tail _ (elem_mem h)

/-- and so are documents -/
theorem root_iff {p : Pattern D V} (h : Root env p) {nm : QName} {as : List Attr} : ∀ {k}, Match L env p [] [.elem nm as k] ↔
    Match L env p [] [.elem nm as []] ∧ ∀ x ∈ k, (∃ s, x = Node.text s ∧ WsText s) ∨
      ((∃ m bs l, x = Node.elem m bs l) ∧ Match L env p [] [.elem nm as [x]]) := by
  induction h with
  | element h =>
    intro k
    constructor
    · intro hm
      cases hm with
      | element hn hw hm =>
        obtain ⟨h1, h2⟩ := (listing_iff h).1 hm
        obtain ⟨h3, rfl⟩ := weak_elems hw fun x hx => (h2 x hx).1
        refine ⟨.element hn .nil h1, fun x hx => ?_⟩
        cases x with
        | text s => exact .inl ⟨s, rfl, h3 s hx⟩
        | elem m bs l => exact .inr ⟨⟨_, _, _, rfl⟩, .element hn (.keep .nil) (h2 _ (elem_mem hx)).2⟩
    · rintro ⟨h1, h2⟩
      cases h1 with
      | element hn hw hm =>
        cases hw
        refine .element hn (elems_weak fun s hs => ?_) ((listing_iff h).2 ⟨hm, fun x hx => ?_⟩)
        · rcases h2 _ hs with ⟨t, ht, hw⟩ | ⟨⟨_, _, _, ht⟩, _⟩
          · cases ht; exact hw
          · cases ht
        · obtain ⟨hx, m, bs, l, rfl⟩ := elems_are hx
          refine ⟨⟨_, _, _, rfl⟩, ?_⟩
          rcases h2 _ hx with ⟨t, ht, _⟩ | ⟨_, h4⟩
          · cases ht
          · cases h4 with
            | element _ hw hm' => cases hw with | keep hw => cases hw; exact hm'
  | ref hn _ ih =>
    have key : ∀ {a c}, Match L env (.ref _) a c ↔ Match L env _ a c := fun {a c} =>
      ⟨fun hm => by cases hm with | ref hn' hm => rw [hn] at hn'; cases hn'; exact hm, fun hm => .ref hn hm⟩
    intro k
    rw [key, ih]
    simp only [key]

end Verif.Records
