import Verif.Proof.Strict
import Verif.Proof.Compiled
/-
Soundness and completeness of a run over the resolved events of one element, from a compiled schema.
-/
set_option linter.unusedSectionVars false
namespace Verif
variable {D V : Type} [DecidableEq D] [DecidableEq V] {L : Lib D V} {env : Env D V}

theorem Weak.nilInv {c} (h : Weak [] c) : c = [] := by cases h; rfl

theorem Weak.elemInv {nm as kids c} (h : Weak [.elem nm as kids] c) : c = [.elem nm as kids] := by
  cases h with
  | keep h => rw [h.nilInv]

theorem WeakL.elemInv {pm nm as kids cs} (h : WeakL pm [[.elem nm as kids]] cs) :
    cs = [[.elem nm as kids]] := by
  cases h with
  | cons h1 h2 => cases h2; rw [h1.weak.elemInv]

theorem SchemaOK.guarded {start : Pattern D V} {c} (h : SchemaOK L env start c) : AllGuarded env start := by
  obtain ⟨Q, hQ, hw⟩ := h
  exact Pos.guarded hQ (Or.inl ⟨_, _, hw⟩)

theorem tree_sound' {Sp : QName → Prop} {start : Pattern D V} {c fuel n i r st st' nm as kids}
    (hs : SchemaOK L env start c) (h0 : StartOK env start) (hsp : SpOK env Sp start)
    (hc : compile env fuel start Store.init = .ok (i, st))
    (hna : (Node.elem nm as kids).Fine Sp)
    (hr : runR L n i (Node.elem nm as kids).events st = .ok (some r, st')) :
    Match L env start [] [.elem nm as kids] := by
  obtain ⟨hrep, hall, hmemo⟩ := compile_rep hs.guarded hc
  obtain ⟨Q, hQ, hw⟩ := hs
  obtain ⟨_, hle, hrun⟩ := ok_run_node L n _ _ _ _ _ hmemo hr
  obtain ⟨_, _, hroot⟩ := ok_root L n _ _ _ _ _ _ _ hmemo hr
  let w : World D V := ⟨st'.lk, st.world.refs⟩
  have hrep' : Rep env w start i := Rep.mono (w := st.world) (w' := w) hle rfl hrep
  have hall' : AllRef env w := AllRef.mono (w := st.world) (w' := w) hle rfl hall
  have hty := hrep'.tyOff hall' hw
  obtain ⟨P, hP, he⟩ := hrep'.elems hall' h0
  obtain ⟨q, hq, hnull⟩ := hroot _ (Le.refl _) P r hP he rfl
  obtain ⟨h1, _⟩ := hrun _ (Le.refl _) _ _ _ 0 (ctxOff hall' hQ) hty
  obtain ⟨⟨q', hq', tq⟩, h2⟩ := h1 r rfl
  rw [hq] at hq'; cases hq'
  have hsi : SI L st'.lk true r [] [[]] := ⟨q, hq, tq.null hnull⟩
  obtain ⟨cs', hw', hsi'⟩ := h2 [] [] ⟨_, WeakL.refl _, hsi⟩
  rw [WeakL.elemInv hw'] at hsi'
  refine (hrep'.match hall' hQ _ hw (Nat.le_refl _) (Or.inr ⟨hsp, ?_, Or.inr ?_⟩) hsi').toMatch
  · intro x hx; simp at hx; subst hx; exact hna
  · intro x s t y h
    cases x with
    | nil => cases h
    | cons a x => simp at h

theorem tree_sound {start : Pattern D V} {c fuel n i r st st' nm as kids}
    (hs : SchemaOK L env start c) (h0 : StartOK env start)
    (hc : compile env fuel start Store.init = .ok (i, st))
    (hna : (Node.elem nm as kids).NoAdj)
    (hr : runR L n i (Node.elem nm as kids).events st = .ok (some r, st')) :
    Match L env start [] [.elem nm as kids] :=
  tree_sound' (Sp := fun _ => False) hs h0 (fun _ _ _ _ _ h => h.elim) hc hna.fine hr

theorem tree_complete' {start : Pattern D V} {fuel n i o st st' nm as kids}
    (hs : SchemaOK L env start true) (h0 : StartOK env start)
    (hc : compile env fuel start Store.init = .ok (i, st))
    (hr : runR L n i (Node.elem nm as kids).events st = .ok (o, st'))
    (hm : MatchP L env false start [] [.elem nm as kids]) : ∃ r, o = some r := by
  obtain ⟨hrep, hall, hmemo⟩ := compile_rep hs.guarded hc
  obtain ⟨Q, hQ, hw⟩ := hs
  obtain ⟨_, hle, hrun⟩ := ok_run_node L n _ _ _ _ _ hmemo hr
  let w : World D V := ⟨st'.lk, st.world.refs⟩
  have hrep' : Rep env w start i := Rep.mono (w := st.world) (w' := w) hle rfl hrep
  have hall' : AllRef env w := AllRef.mono (w := st.world) (w' := w) hle rfl hall
  obtain ⟨P, hP, hty⟩ := Rep.tyStrict hall' hQ hw hrep'
  obtain ⟨P', hP', he⟩ := hrep'.elems hall' h0
  rw [hP] at hP'; cases hP'
  have hsi := hm.si hall' hrep'
  obtain ⟨_, h2⟩ := hrun _ (Le.refl _) _ _ _ 0 (ctxStrict hall' hQ) ⟨P, hP, (he.strict hty).1⟩
  obtain ⟨r, hr, _⟩ := h2 rfl [] [] ⟨_, WeakL.refl _, hsi⟩
  exact ⟨r, hr⟩

theorem WeakP.ofNoAdj {c c'} (h : Weak c c') : NoAdjL c → WeakP false c c' := by
  induction h with
  | nil => exact fun _ => .nil
  | keep _ ih => exact fun hn => by simp only [NoAdjL] at hn; exact .keep (ih hn.2.1)
  | drop h1 h2 ih =>
    intro hn
    simp only [NoAdjL] at hn
    refine .drop h1 (ih hn.2.1) fun _ => h2.noTextHead fun t r => hn.2.2 _ rfl t r

theorem NoAdjL.append {a b} (h : NoAdjL (a ++ b)) : NoAdjL a ∧ NoAdjL b := by
  induction a with
  | nil => exact ⟨by simp [NoAdjL], h⟩
  | cons x a ih =>
    simp only [List.cons_append, NoAdjL] at h ⊢
    obtain ⟨h1, h2⟩ := ih h.2.1
    refine ⟨⟨h.1, h1, fun s e t r ha => h.2.2 s e t (r ++ b) (by rw [ha]; rfl)⟩, h2⟩

/-- no two adjacent text nodes below this level -/
def Deep (c : List Node) : Prop := ∀ x ∈ c, x.NoAdj

theorem NoAdjL.deep : ∀ {c}, NoAdjL c → Deep c
  | [], _ => by simp [Deep]
  | n :: ns, h => by
    simp only [NoAdjL] at h
    intro x hx
    rcases List.mem_cons.mp hx with rfl | hx
    · exact h.1
    · exact NoAdjL.deep h.2.1 x hx

theorem Match.ofNoAdj {p : Pattern D V} {a c} (h : Match L env p a c) : Deep c → MatchP L env false p a c := by
  induction h with
  | empty => intro _; exact .empty
  | text h => intro _; exact .text h
  | choice h _ ih => intro hd; exact .choice h (ih hd)
  | groupNil => intro _; exact .groupNil
  | groupCons _ _ h ih1 ih2 =>
    intro hd; exact .groupCons (ih1 fun x hx => hd x (by simp [hx])) (ih2 fun x hx => hd x (by simp [hx])) h
  | interleaveNil => intro _; exact .interleaveNil
  | interleaveCons _ _ h h' ih1 ih2 =>
    intro hd
    exact .interleaveCons (ih1 fun x hx => hd x (h'.mem_left x hx)) (ih2 fun x hx => hd x (h'.symm.mem_left x hx)) h h'
  | mixed _ h h' ih => intro hd; exact .mixed (ih fun x hx => hd x (h'.mem_left x hx)) h h'
  | optionalNone => intro _; exact .optionalNone
  | optionalSome _ ih => intro hd; exact .optionalSome (ih hd)
  | zeroOrMoreNil => intro _; exact .zeroOrMoreNil
  | zeroOrMoreCons _ _ h ih1 ih2 =>
    intro hd; exact .zeroOrMoreCons (ih1 fun x hx => hd x (by simp [hx])) (ih2 fun x hx => hd x (by simp [hx])) h
  | oneOrMore _ _ h ih1 ih2 =>
    intro hd; exact .oneOrMore (ih1 fun x hx => hd x (by simp [hx])) (ih2 fun x hx => hd x (by simp [hx])) h
  | attr h h' _ ih =>
    intro hd
    refine .attr h h' (ih fun x hx => ?_)
    have := h'.mem x hx
    simp at this; subst this; simp [Node.NoAdj]
  | element h h' _ ih =>
    intro hd
    have hk := hd _ (List.mem_singleton.mpr rfl)
    simp only [Node.NoAdj] at hk
    exact .element h (.ofNoAdj h' hk) (ih fun x hx => hk.deep x (h'.mem x hx))
  | ref h _ ih => intro hd; exact .ref h (ih hd)
  | value h => intro _; exact .value h
  | data h => intro _; exact .data h
  | dataExcept h h' => intro _; exact .dataExcept h h'
  | list h _ ih =>
    intro hd
    refine .list h (ih fun x hx => ?_)
    obtain ⟨y, _, rfl⟩ := List.mem_map.mp hx
    simp [Node.NoAdj]

theorem tree_complete {start : Pattern D V} {fuel n i o st st' nm as kids}
    (hs : SchemaOK L env start true) (h0 : StartOK env start)
    (hc : compile env fuel start Store.init = .ok (i, st))
    (hna : (Node.elem nm as kids).NoAdj)
    (hr : runR L n i (Node.elem nm as kids).events st = .ok (o, st'))
    (hm : Match L env start [] [.elem nm as kids]) : ∃ r, o = some r :=
  tree_complete' hs h0 hc hr (hm.ofNoAdj fun x hx => by simp at hx; subst hx; exact hna)

end Verif
