import Verif.Proof.Split
import Verif.Proof.Doc
/-
Documents whose character data is read in several pieces.
-/
set_option linter.unusedSectionVars false
namespace Verif.Split
variable {D V : Type} {L : Lib D V} {env : Env D V}

/-- node by node: the elements' content is joined on the right -/
inductive Pre (Sp : QName → Prop) : List Node → List Node → Prop
  | nil : Pre Sp [] []
  | text {s c c'} : Pre Sp c c' → Pre Sp (.text s :: c) (.text s :: c')
  | elem {b nm as k k' c c'} : (b = true → Sp nm) → Ch Sp b k k' → Pre Sp c c' → Pre Sp (.elem nm as k :: c) (.elem nm as k' :: c')

theorem Pre.ch {Sp b r n} (h : Pre Sp r n) : (b = false → FlatNA r) → Ch Sp b r (joinText n) := by
  induction h with
  | nil => intro _; exact .nil
  | @text s c c' h ih =>
    intro hf
    have ih := ih fun e => (hf e).right (a := [_])
    simp only [joinText]
    generalize joinText c' = j at ih
    cases ih with
    | nil =>
      have := Ch.run (Sp := Sp) (b := b) (ts := [s]) (c := []) (c' := []) (by simp) (by simp) (by intro s c; simp) .nil
      simpa using this
    | @elem _ _ nm as k k' c c' h1 h2 h3 =>
      have := Ch.run (Sp := Sp) (b := b) (ts := [s]) (by simp) (by simp) (by intro s c; simp) (Ch.elem (as := as) h1 h2 h3)
      simpa using this
    | @run _ ts c2 c3 h1 h2 h3 h4 =>
      refine Ch.run (ts := s :: ts) (by simp) (fun e => ?_) h3 h4
      cases ts with
      | nil => exact absurd rfl h1
      | cons t ts => exact absurd rfl (hf e [] s t _)
  | elem h1 h2 _ ih =>
    intro hf
    simp only [joinText]
    exact .elem h1 h2 (ih fun e => (hf e).right (a := [_]))

theorem pieces_flat {f scope xs rs} (h : Pieces f scope xs rs) : ∀ {prev}, ¬ brokenText prev xs →
    FlatNA rs ∧ (prev = true → NoTextHead rs) := by
  induction h with
  | nil => intro prev _; exact ⟨by intro x s t y; simp, fun _ s c => by simp⟩
  | text _ _ ih =>
    intro prev h
    simp only [brokenText, not_or] at h
    obtain ⟨h1, h2⟩ := ih h.2
    exact ⟨flatNA_cons h1 fun _ _ => h2 rfl, fun e => absurd e h.1⟩
  | cdata _ ih =>
    intro prev h
    simp only [brokenText, not_or] at h
    obtain ⟨h1, h2⟩ := ih h.2
    exact ⟨flatNA_cons h1 fun _ _ => h2 rfl, fun e => absurd e h.1⟩
  | comment _ ih => intro prev h; simp only [brokenText] at h; exact ih h
  | pi _ ih => intro prev h; simp only [brokenText] at h; exact ih h
  | elem _ _ _ _ _ _ ih =>
    intro prev h
    simp only [brokenText] at h
    exact ⟨flatNA_cons (ih h).1 nofun, fun _ s c => nofun⟩

theorem resolves_pre {f scope xs ns} {Sp : QName → Prop} (h : Resolves f scope xs ns) : (∀ nm, BrokenIn scope xs nm → Sp nm) →
    ∃ rs, Pieces f scope xs rs ∧ Pre Sp rs ns := by
  induction h with
  | nil => intro _; exact ⟨[], .nil, .nil⟩
  | text h _ ih => intro hb; obtain ⟨rs, h1, h2⟩ := ih fun nm h => hb nm (.later h); exact ⟨_, .text h h1, .text h2⟩
  | cdata _ ih => intro hb; obtain ⟨rs, h1, h2⟩ := ih fun nm h => hb nm (.later h); exact ⟨_, .cdata h1, .text h2⟩
  | comment _ ih => intro hb; obtain ⟨rs, h1, h2⟩ := ih fun nm h => hb nm (.later h); exact ⟨_, .comment h1, h2⟩
  | pi _ ih => intro hb; obtain ⟨rs, h1, h2⟩ := ih fun nm h => hb nm (.later h); exact ⟨_, .pi h1, h2⟩
  | @elem scope pre loc atts sc kids kns nm as xs ns h1 h2 h3 h4 _ ih1 ih2 =>
    intro hb
    obtain ⟨rs, g1, g2⟩ := ih2 fun nm h => hb nm (.later h)
    obtain ⟨ks, k1, k2⟩ := ih1 fun nm h => hb nm (.inside h)
    refine ⟨.elem nm as ks :: rs, .elem h1 h2 k1 h4 g1, ?_⟩
    cases Classical.em (brokenText false kids) with
    | inl hbr => exact .elem (b := true) (fun _ => hb nm (.here h1 hbr)) (k2.ch nofun) g2
    | inr hbr => exact .elem (b := false) nofun (k2.ch fun _ => (pieces_flat k1 hbr).1) g2

/-- the root element of a document in pieces -/
theorem root_pieces {d : XDoc} {nm as kids} (hm : d.Means (.elem nm as kids)) :
    ∃ k b, Pieces d.entities [("xml".toList, xmlUri)] [d.root] [.elem nm as k] ∧ (b = true → d.Broken nm) ∧
      Ch d.Broken b k kids := by
  obtain ⟨rs, h1, h2⟩ := resolves_pre (Sp := d.Broken) hm fun nm h => h
  cases h2 with
  | elem hb hc h => cases h; exact ⟨_, _, h1, hb, hc⟩

variable [DecidableEq D] [DecidableEq V]

/-- soundness in pieces -/
theorem sound {Sp : QName → Prop} {start : Pattern D V} {c fuel n i r st st' nm as k kids b}
    (hs : SchemaOK L env start c) (h0 : StartOK env start) (ho : OnlyIn env Sp start)
    (hc : compile env fuel start Store.init = .ok (i, st)) (hb : b = true → Sp nm) (hch : Ch Sp b k kids)
    (hr : runR L n i (Node.elem nm as k).events st = .ok (some r, st')) : Match L env start [] [.elem nm as kids] := by
  have hm := tree_sound' hs h0 (fun nc q h nm hn hp => (ho nc q h nm hn hp).listFree) hc (Sp := Sp)
    (hna := (Ch.elem (b := false) (as := as) hb hch .nil).fine.1) hr
  exact (match_sub (E := E2 Sp) (b := false) (pm := true) hE2 hm ho nofun (.elem ⟨b, hb, hch⟩ .nil)).toMatch

/-- completeness in pieces -/
theorem complete {Sp : QName → Prop} {start : Pattern D V} {fuel n i o st st' nm as k kids b}
    (hs : SchemaOK L env start true) (h0 : StartOK env start) (ho : OnlyIn env Sp start)
    (hc : compile env fuel start Store.init = .ok (i, st)) (hb : b = true → Sp nm) (hch : Ch Sp b k kids)
    (hr : runR L n i (Node.elem nm as k).events st = .ok (o, st')) (hm : Match L env start [] [.elem nm as kids]) :
    ∃ r, o = some r :=
  tree_complete' hs h0 hc hr (match_sub (E := E1 Sp) (b := false) (pm := false) hE1 hm ho nofun (.elem ⟨b, hb, hch⟩ .nil))

end Verif.Split
