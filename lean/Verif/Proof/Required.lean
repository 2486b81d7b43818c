import Verif.Spec.Required
import Verif.Proof.Described
/-
What is required is there.
-/
namespace Verif.Required
open Described
variable {D V : Type} {L : Lib D V} {env : Env D V} {t : Pattern D V → Prop}

theorem shuffle_mem {α : Type} {a b c : List α} (h : Shuffle a b c) : (∀ x ∈ a, x ∈ c) ∧ ∀ x ∈ b, x ∈ c := by
  induction h with
  | nil => exact ⟨nofun, nofun⟩
  | left _ ih =>
    exact ⟨fun x hx => by
      cases hx with
      | head => exact .head _
      | tail _ hx => exact .tail _ (ih.1 x hx), fun x hx => .tail _ (ih.2 x hx)⟩
  | right _ ih =>
    exact ⟨fun x hx => .tail _ (ih.1 x hx), fun x hx => by
      cases hx with
      | head => exact .head _
      | tail _ hx => exact .tail _ (ih.2 x hx)⟩

/-- part of the attributes and child nodes matches one of the patterns `t` -/
def There (L : Lib D V) (env : Env D V) (t : Pattern D V → Prop) (as : List Attr) (c : List Node) : Prop :=
  ∃ p bs k, t p ∧ Match L env p bs k ∧ (∀ a ∈ bs, a ∈ as) ∧ ∀ x ∈ k, x ∈ c

theorem There.mono {as as' : List Attr} {c c' : List Node} (h : There L env t as c) (ha : ∀ a ∈ as, a ∈ as') (hc : ∀ x ∈ c, x ∈ c') :
    There L env t as' c' := by
  obtain ⟨p, bs, k, h1, h2, h3, h4⟩ := h
  exact ⟨p, bs, k, h1, h2, fun a h => ha a (h3 a h), fun x h => hc x (h4 x h)⟩

theorem left {as as1 as2 : List Attr} (hp : as.Perm (as1 ++ as2)) : ∀ a ∈ as1, a ∈ as :=
  fun _ ha => hp.mem_iff.2 (List.mem_append_left _ ha)
theorem right {as as1 as2 : List Attr} (hp : as.Perm (as1 ++ as2)) : ∀ a ∈ as2, a ∈ as :=
  fun _ ha => hp.mem_iff.2 (List.mem_append_right _ ha)

theorem group_there {ps : List (Pattern D V)} : ∀ {as c}, Match L env (.group ps) as c → ∀ p ∈ ps,
    ∃ bs k, Match L env p bs k ∧ (∀ a ∈ bs, a ∈ as) ∧ ∀ x ∈ k, x ∈ c := by
  induction ps with
  | nil => intro _ _ _ p hp; cases hp
  | cons q ps ih =>
    intro as c hm p hp
    cases hm with
    | groupCons h1 h2 hperm =>
      cases hp with
      | head => exact ⟨_, _, h1, left hperm, fun x hx => List.mem_append_left _ hx⟩
      | tail _ hp =>
        obtain ⟨bs, k, h, h', h''⟩ := ih h2 p hp
        exact ⟨bs, k, h, fun a ha => right hperm a (h' a ha), fun x hx => List.mem_append_right _ (h'' x hx)⟩

theorem interleave_there {ps : List (Pattern D V)} : ∀ {as c}, Match L env (.interleave ps) as c → ∀ p ∈ ps,
    ∃ bs k, Match L env p bs k ∧ (∀ a ∈ bs, a ∈ as) ∧ ∀ x ∈ k, x ∈ c := by
  induction ps with
  | nil => intro _ _ _ p hp; cases hp
  | cons q ps ih =>
    intro as c hm p hp
    cases hm with
    | interleaveCons h1 h2 hperm hs =>
      cases hp with
      | head => exact ⟨_, _, h1, left hperm, (shuffle_mem hs).1⟩
      | tail _ hp =>
        obtain ⟨bs, k, h, h', h''⟩ := ih h2 p hp
        exact ⟨bs, k, h, fun a ha => right hperm a (h' a ha), fun x hx => (shuffle_mem hs).2 x (h'' x hx)⟩

theorem required_there {q : Pattern D V} (h : Demands env t q) : ∀ {as c}, Match L env q as c → There L env t as c := by
  induction h with
  | here h => exact fun hm => ⟨_, _, _, h, hm, fun _ => id, fun _ => id⟩
  | notAllowed => intro _ _ hm; cases hm
  | choice _ ih => intro _ _ hm; cases hm with | choice hp hm => exact ih _ hp hm
  | group hp _ ih =>
    intro _ _ hm
    obtain ⟨bs, k, h1, h2, h3⟩ := group_there hm _ hp
    exact (ih h1).mono h2 h3
  | interleave hp _ ih =>
    intro _ _ hm
    obtain ⟨bs, k, h1, h2, h3⟩ := interleave_there hm _ hp
    exact (ih h1).mono h2 h3
  | mixed _ ih => intro _ _ hm; cases hm with | mixed hm _ hs => exact (ih hm).mono (fun _ => id) (shuffle_mem hs).1
  | oneOrMore _ ih =>
    intro _ _ hm
    cases hm with | oneOrMore h1 _ hp => exact (ih h1).mono (left hp) fun x hx => List.mem_append_left _ hx
  | ref hn _ ih => intro _ _ hm; cases hm with | ref hn' hm => rw [hn] at hn'; cases hn'; exact ih hm

theorem weak_mem {c c' : List Node} (h : Weak c c') : ∀ x ∈ c', x ∈ c := by
  induction h with
  | nil => exact nofun
  | keep _ ih =>
    intro x hx
    cases hx with
    | head => exact .head _
    | tail _ hx => exact .tail _ (ih x hx)
  | drop _ _ ih => exact fun x hx => .tail _ (ih x hx)

theorem element_there {nc : NameClass} {r : Pattern D V} {nm as k} (h : Demands env t r)
    (hm : Match L env (.element nc r) [] [.elem nm as k]) : There L env t as k := by
  cases hm with
  | element _ hw hm => exact (required_there h hm).mono (fun _ => id) (weak_mem hw)

theorem attr_there {N : Str × Str → Prop} {as : List Attr} {c} (h : There L env (AttributeOf N) as c) : ∃ a ∈ as, N a.name.expanded := by
  obtain ⟨p, bs, k, ⟨nc, q, rfl, hN⟩, hm, h1, h2⟩ := h
  cases hm with
  | attr hn _ _ => exact ⟨_, h1 _ (.head _), hN _ hn⟩

theorem elem_there {N : Str × Str → Prop} {as : List Attr} {c} (h : There L env (ElementOf N) as c) :
    ∃ m bs k, Node.elem m bs k ∈ c ∧ N m.expanded := by
  obtain ⟨p, bs, k, ⟨nc, q, rfl, hN⟩, hm, h1, h2⟩ := h
  cases hm with
  | element hn _ _ => exact ⟨_, _, _, h2 _ (.head _), hN _ hn⟩

end Verif.Required
