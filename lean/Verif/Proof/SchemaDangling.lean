import Verif.Spec.Faults
import Verif.Proof.SchemaRefs
import Verif.Proof.SchemaCheck
/-
A failing `check` means a dangling reference in the source.
-/
namespace Verif

section
variable {F : Files} {x : Ext} {look : Nat → Str → Option Nat} {G : Nat → List Nat → List Defn → Prop}

variable (F look G) in
/-- the name of cell `k` leads to nothing -/
def BadCell (k : Nat) : Prop := ∀ s ss ds gs id, G s ss ds → Chain G ss gs → look s id = some k →
  ∀ e, Dangling F (ds :: gs) e (.ident id)

theorem Tr.dangling {ss e p q} (h : Tr F x look G ss e p q) : ∀ {gs}, Chain G ss gs → ∀ k ∈ q.refs, BadCell F look G k →
    Dangling F gs e p := by
  induction h with
  | element _ _ ih => intro gs hc k hk hb; exact .element (ih hc k hk hb)
  | «attribute» _ _ ih => intro gs hc k hk hb; exact .attribute (ih hc k hk hb)
  | list _ ih => intro gs hc k hk hb; exact .list (ih hc k hk hb)
  | mixed _ ih => intro gs hc k hk hb; exact .mixed (ih hc k hk hb)
  | ident h =>
    intro gs hc k hk hb
    cases hc with
    | cons a b => cases List.mem_singleton.mp hk; exact hb _ _ _ _ _ a b h _
  | parent h =>
    intro gs hc k hk hb
    cases hc with
    | cons a b =>
      cases b with
      | cons a b => cases List.mem_singleton.mp hk; exact .parent (hb _ _ _ _ _ a b h _)
  | empty => intro gs hc k hk; cases hk
  | text => intro gs hc k hk; cases hk
  | notAllowed => intro gs hc k hk; cases hk
  | externalPattern h1 h2 h3 _ ih => intro gs hc k hk hb; exact .externalPattern h1 h2 h3 (ih hc k hk hb)
  | externalGrammar h1 h2 h3 _ ih => intro gs hc k hk hb; exact .externalGrammar h1 h2 h3 (ih hc k hk hb)
  | grammar hg hex hbs _ hm ih =>
    intro gs hc k hk hbad
    obtain ⟨b, hb, hk⟩ := hm.refsOf k hk
    obtain ⟨b', hb', rfl⟩ := List.mem_map.mp hb
    have hd : b'.1 ∈ named _ "start".toList := hbs ▸ List.mem_map.mpr ⟨b', hb', rfl⟩
    exact .grammar hex hd (ih b' hb' (.cons hg hc) k hk hbad)
  | paren _ ih => intro gs hc k hk hb; exact .paren (ih hc k hk hb)
  | seq _ _ ih1 ih2 =>
    intro gs hc k hk hb
    rw [Pattern.refs, refsL_append, refsL_groupMembers, refsL_groupMembers] at hk
    rcases List.mem_append.mp hk with hk | hk
    · exact .seqLeft (ih1 hc k hk hb)
    · exact .seqRight (ih2 hc k hk hb)
  | inter _ _ ih1 ih2 =>
    intro gs hc k hk hb
    rw [Pattern.refs, refsL_append, refsL_interleaveMembers, refsL_interleaveMembers] at hk
    rcases List.mem_append.mp hk with hk | hk
    · exact .interLeft (ih1 hc k hk hb)
    · exact .interRight (ih2 hc k hk hb)
  | choice _ _ ih1 ih2 =>
    intro gs hc k hk hb
    rw [Pattern.refs, refsL_append, refsL_choiceMembers, refsL_choiceMembers] at hk
    rcases List.mem_append.mp hk with hk | hk
    · exact .choiceLeft (ih1 hc k hk hb)
    · exact .choiceRight (ih2 hc k hk hb)
  | optional _ ih => intro gs hc k hk hb; exact .optional (ih hc k hk hb)
  | zeroOrMore _ ih => intro gs hc k hk hb; exact .zeroOrMore (ih hc k hk hb)
  | oneOrMore _ ih => intro gs hc k hk hb; exact .oneOrMore (ih hc k hk hb)
  | value _ _ => intro gs hc k hk; cases hk
  | data _ _ => intro gs hc k hk; cases hk
  | dataExcept _ _ _ ih => intro gs hc k hk hb; exact .except (ih hc k hk hb)

end

section
variable {F : Files} {x : Ext} {st : CState} {G : Nat → List Nat → List Defn → Prop}

theorem GoodS.badEmpty (g : GoodS F x st G) {k : Nat} (h : st.cell k = none) : BadCell F st.look G k := by
  intro s ss ds gs id hg hc hl e
  rcases g.full s ss ds hg id (fun k' hl' => by rw [hl] at hl'; cases hl'; exact h) with h' | ⟨rfl, h'⟩
  · exact .missing h'
  · refine .innerStart fun e => ?_
    subst e; cases hc; exact h' rfl

theorem GoodS.badRef (g : GoodS F x st G) {k j : Nat} {r : DefineRule} (hr : st.cell k = some r) (hj : j ∈ r.pattern.refs)
    (hb : BadCell F st.look G j) : BadCell F st.look G k := by
  intro s ss ds gs id hg hc hl e
  obtain ⟨bs, h1, h2, h3⟩ := g.closed s ss ds hg id k r hl hr
  obtain ⟨b, hbm, hk⟩ := h3.refsOf j hj
  obtain ⟨b', hb', rfl⟩ := List.mem_map.mp hbm
  have hd : b'.1 ∈ named ds id := h1 ▸ List.mem_map.mpr ⟨b', hb', rfl⟩
  exact .follow hd ((h2 b' hb').dangling (.cons hg hc) j hk hb)

theorem checkAll_err {f : List Nat → MPattern → Except CFault (List Nat)} {e : CFault} : ∀ {ps : List MPattern}
    {seen : List Nat}, checkAll f seen ps = .error e → ∃ p ∈ ps, ∃ s, f s p = .error e
  | [], _, h => nomatch h
  | p :: ps, seen, h => by
    unfold checkAll at h
    cases h1 : f seen p with
    | error e' =>
      rw [h1] at h
      cases h
      exact ⟨p, by simp, seen, h1⟩
    | ok s =>
      rw [h1] at h
      obtain ⟨q, hq, h'⟩ := checkAll_err (ps := ps) h
      exact ⟨q, by simp [hq], h'⟩

/-- why `check` fails -/
theorem check_err (g : GoodS F x st G) {e : CFault} : ∀ {m : Nat} {p : MPattern} {seen : List Nat},
    check st.cells m seen p = .error e →
    e = .fuel ∨ (e = .err (.undefinedReference []) ∧ ∃ k ∈ p.refs, BadCell F st.look G k)
  | 0, _, _, h => by cases h; exact .inl rfl
  | n + 1, p, seen, h => by
    have hall : ∀ {ps : List MPattern}, checkAll (check st.cells n) seen ps = .error e →
        e = .fuel ∨ (e = .err (.undefinedReference []) ∧ ∃ k ∈ refsL ps, BadCell F st.look G k) := by
      intro ps h
      obtain ⟨p, hp, s, h⟩ := checkAll_err h
      rcases check_err g h with h | ⟨h, k, hk, hb⟩
      · exact .inl h
      · exact .inr ⟨h, k, mem_refsL.mpr ⟨p, hp, hk⟩, hb⟩
    cases p with
    | choice v => exact hall h
    | interleave v => exact hall h
    | group v => exact hall h
    | mixed p => exact check_err g (m := n) (p := p) h
    | optional p => exact check_err g (m := n) (p := p) h
    | zeroOrMore p => exact check_err g (m := n) (p := p) h
    | oneOrMore p => exact check_err g (m := n) (p := p) h
    | attr _ p => exact check_err g (m := n) (p := p) h
    | element _ p => exact check_err g (m := n) (p := p) h
    | list p => exact check_err g (m := n) (p := p) h
    | datatypeNameExcept _ p => exact check_err g (m := n) (p := p) h
    | empty => cases h
    | text => cases h
    | notAllowed => cases h
    | datatypeValue _ => cases h
    | datatypeName _ => cases h
    | ref k =>
      simp only [check] at h
      split at h
      · cases h
      · split at h
        · rename_i r hr
          rcases check_err g h with h | ⟨h, j, hj, hb⟩
          · exact .inl h
          · exact .inr ⟨h, k, by simp [Pattern.refs], g.badRef hr hj hb⟩
        · rename_i hr
          cases h
          exact .inr ⟨rfl, k, by simp [Pattern.refs], g.badEmpty hr⟩

end
end Verif
