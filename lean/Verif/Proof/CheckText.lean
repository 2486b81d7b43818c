import Verif.Proof.CheckBound
/-
The tests of C88 for interrupted character data are exact: `textSchema` decides whether any element of the schema asks for data.
-/
namespace Verif.Check
variable {D V : Type} {L : Lib D V} {env : Env D V} {Q : Pattern D V → Prop} {c : Bool}

theorem exOK_noElem {p : Pattern D V} (h : ExOK env p) : ∀ {nc q}, ¬ ElemIn env p nc q := by
  induction h with
  | value => exact fun h => by cases h
  | data => exact fun h => by cases h
  | dataExcept _ _ => exact fun h => by cases h
  | notAllowed => exact fun h => by cases h
  | choice _ _ ih => intro nc q h; cases h with | choice hm h => exact ih _ hm h
  | ref h1 _ ih => intro nc q h; cases h with | ref h2 h => rw [h1] at h2; cases h2; exact ih h

mutual
theorem exOK_refs : ∀ {p : Pattern D V}, ExOK env p → ∀ m ∈ p.refs, ExOK env (.ref m)
  | .choice ps, h => by
    cases h with
    | choice _ h => rw [Pattern.refs]; exact exOK_refsL h
  | .datatypeNameExcept _ e, h => by
    cases h with
    | dataExcept h => rw [Pattern.refs]; exact exOK_refs h
  | .ref _, h => fun m hm => by rw [Pattern.refs] at hm; cases List.mem_singleton.1 hm; exact h
  | .datatypeValue _, _ => nofun
  | .datatypeName _, _ => nofun
  | .notAllowed, _ => nofun
  | .empty, h => by cases h
  | .text, h => by cases h
  | .group _, h => by cases h
  | .interleave _, h => by cases h
  | .mixed _, h => by cases h
  | .optional _, h => by cases h
  | .zeroOrMore _, h => by cases h
  | .oneOrMore _, h => by cases h
  | .attr _ _, h => by cases h
  | .element _ _, h => by cases h
  | .list _, h => by cases h
theorem exOK_refsL : ∀ {ps : List (Pattern D V)}, (∀ p ∈ ps, ExOK env p) → ∀ m ∈ refsL ps, ExOK env (.ref m)
  | [], _ => nofun
  | p :: ps, h => by
    intro m hm
    rw [refsL] at hm
    rcases List.mem_append.1 hm with hm | hm
    · exact exOK_refs (h p List.mem_cons_self) m hm
    · exact exOK_refsL (fun q hq => h q (List.mem_cons_of_mem _ hq)) m hm
end

/-- what stands in `p`, or in a definition it mentions, stands in `p` -/
def Lifts (env : Env D V) (p : Pattern D V) : Prop :=
  (∀ q ∈ contents p, ∃ nc, ElemIn env p nc q) ∧ ∀ m ∈ p.refs, ∀ nc q, ElemIn env (.ref m) nc q → ElemIn env p nc q

def LiftsL (env : Env D V) (ps : List (Pattern D V)) : Prop :=
  (∀ q ∈ contentsL ps, ∃ p ∈ ps, ∃ nc, ElemIn env p nc q) ∧ ∀ m ∈ refsL ps, ∀ nc q, ElemIn env (.ref m) nc q → ∃ p ∈ ps, ElemIn env p nc q

theorem Lifts.wrap {p p' : Pattern D V} (h : Lifts env p) (e1 : contents p' = contents p) (e2 : p'.refs = p.refs)
    (hw : ∀ nc q, ElemIn env p nc q → ElemIn env p' nc q) : Lifts env p' :=
  ⟨fun q hq => (h.1 q (e1 ▸ hq)).imp fun nc => hw nc q, fun m hm nc q he => hw nc q (h.2 m (e2 ▸ hm) nc q he)⟩

theorem LiftsL.wrap {ps : List (Pattern D V)} {p' : Pattern D V} (h : LiftsL env ps) (e1 : contents p' = contentsL ps) (e2 : p'.refs = refsL ps)
    (hw : ∀ p ∈ ps, ∀ nc q, ElemIn env p nc q → ElemIn env p' nc q) : Lifts env p' :=
  ⟨fun q hq => by obtain ⟨p, hp, nc, he⟩ := h.1 q (e1 ▸ hq); exact ⟨nc, hw p hp nc q he⟩,
   fun m hm nc q he => by obtain ⟨p, hp, he⟩ := h.2 m (e2 ▸ hm) nc q he; exact hw p hp nc q he⟩

section
variable (hQ : ∀ p, Q p → WF L env Q c false true p)
include hQ
mutual
theorem wf_lifts : ∀ {p : Pattern D V} {s l}, WF L env Q c s l p → Lifts env p
  | .choice ps, _, _, h => by
    cases h with
    | choice _ h => exact (wf_liftsL h).wrap rfl rfl fun p hp nc q => .choice hp
  | .group ps, _, _, h => by
    cases h with
    | group _ h => exact (wf_liftsL h).wrap rfl rfl fun p hp nc q => .group hp
  | .interleave ps, _, _, h => by
    cases h with
    | interleave _ h => exact (wf_liftsL h).wrap rfl rfl fun p hp nc q => .interleave hp
  | .mixed p, _, _, h => by
    cases h with
    | mixed h => exact (wf_lifts h).wrap rfl rfl fun nc q => .mixed
  | .optional p, _, _, h => by
    cases h with
    | optional h => exact (wf_lifts h).wrap rfl rfl fun nc q => .optional
  | .zeroOrMore p, _, _, h => by
    cases h with
    | zeroOrMore h => exact (wf_lifts h).wrap rfl rfl fun nc q => .zeroOrMore
  | .oneOrMore p, _, _, h => by
    cases h with
    | oneOrMore h => exact (wf_lifts h).wrap rfl rfl fun nc q => .oneOrMore
  | .attr _ p, _, _, h => by
    cases h with
    | attr h => exact (wf_lifts h).wrap rfl rfl fun nc q => .attr
  | .element nc p, _, _, h => by
    cases h with
    | element h =>
      have ih := wf_lifts (hQ p h)
      refine ⟨fun q hq => ?_, fun m hm nc q he => .element (ih.2 m hm nc q he)⟩
      rw [contents] at hq
      rcases List.mem_cons.1 hq with hq | hq
      · rw [hq]; exact ⟨nc, .here⟩
      · exact (ih.1 q hq).imp fun _ => .element
  | .datatypeNameExcept _ e, _, _, h => by
    cases h with
    | dataExcept h =>
      refine ⟨fun q hq => ?_, fun m hm nc q he => absurd he (exOK_noElem (exOK_refs h m hm))⟩
      rw [contents, exOK_contents h] at hq
      cases hq
  | .list p, _, _, h => by
    cases h with
    | list h => exact (wf_lifts h).wrap rfl rfl fun nc q => .list
  | .ref n, _, _, _ => ⟨nofun, fun m hm nc q he => by rw [Pattern.refs] at hm; cases List.mem_singleton.1 hm; exact he⟩
  | .datatypeValue _, _, _, _ => ⟨nofun, nofun⟩
  | .datatypeName _, _, _, _ => ⟨nofun, nofun⟩
  | .notAllowed, _, _, _ => ⟨nofun, nofun⟩
  | .empty, _, _, _ => ⟨nofun, nofun⟩
  | .text, _, _, _ => ⟨nofun, nofun⟩
theorem wf_liftsL : ∀ {ps : List (Pattern D V)} {s l}, (∀ p ∈ ps, WF L env Q c s l p) → LiftsL env ps
  | [], _, _, _ => ⟨nofun, nofun⟩
  | p :: ps, _, _, h => by
    have h1 := wf_lifts (h p List.mem_cons_self)
    have h2 := wf_liftsL fun q hq => h q (List.mem_cons_of_mem _ hq)
    refine ⟨fun q hq => ?_, fun m hm nc q he => ?_⟩
    · rw [contentsL] at hq
      rcases List.mem_append.1 hq with hq | hq
      · exact ⟨p, List.mem_cons_self, h1.1 q hq⟩
      · obtain ⟨p', hp, h⟩ := h2.1 q hq
        exact ⟨p', List.mem_cons_of_mem _ hp, h⟩
    · rw [refsL] at hm
      rcases List.mem_append.1 hm with hm | hm
      · exact ⟨p, List.mem_cons_self, h1.2 m hm nc q he⟩
      · obtain ⟨p', hp, h⟩ := h2.2 m hm nc q he
        exact ⟨p', List.mem_cons_of_mem _ hp, h⟩
end

theorem uses_elemIn [DecidableEq D] [DecidableEq V] {p : Pattern D V} {n} (hu : Uses env p n) : Pos L env Q c p → ∀ {b nc q}, env[n]? = some b → ElemIn env b nc q → ElemIn env p nc q := by
  induction hu with
  | here h =>
    intro hp b nc q hb he
    rcases hp with ⟨s, l, hp⟩ | hp
    · exact (wf_lifts hQ hp).2 _ h nc q (.ref hb he)
    · exact absurd (.ref hb he) (exOK_noElem (exOK_refs hp _ h))
  | there h1 h2 _ ih =>
    intro hp b nc q hb he
    have := ih ((pos_refs hQ _ hp _ h1).sub (fun s l h => by cases h with | ref g1 g2 _ => rw [h2] at g1; cases g1; exact ⟨_, _, g2⟩)
      (fun h => by cases h with | ref g1 g2 => rw [h2] at g1; cases g1; exact g2)) hb he
    rcases hp with ⟨s, l, hp⟩ | hp
    · exact (wf_lifts hQ hp).2 _ h1 nc q (.ref h2 this)
    · exact absurd (.ref h2 this) (exOK_noElem (exOK_refs hp _ h1))
end

theorem onlyTextAll_of {o : Nat → Bool} : ∀ {ps : List (Pattern D V)}, ps.all (onlyText o) = onlyTextAll o ps
  | [] => rfl
  | p :: ps => by rw [List.all_cons, onlyTextAll, onlyTextAll_of]

theorem onlyText_complete {p : Pattern D V} (h : OnlyText env p) : Ev fun k => onlyText (deep env onlyText k) p := by
  induction h with
  | choice _ ih => exact (Ev.all ih).imp fun k hk => by rw [onlyText, ← onlyTextAll_of]; exact hk
  | group _ ih => exact (Ev.all ih).imp fun k hk => by rw [onlyText, ← onlyTextAll_of]; exact hk
  | interleave _ ih => exact (Ev.all ih).imp fun k hk => by rw [onlyText, ← onlyTextAll_of]; exact hk
  | mixed _ ih => exact ih.imp fun k hk => by rw [onlyText]; exact hk
  | optional _ ih => exact ih.imp fun k hk => by rw [onlyText]; exact hk
  | zeroOrMore _ ih => exact ih.imp fun k hk => by rw [onlyText]; exact hk
  | oneOrMore _ ih => exact ih.imp fun k hk => by rw [onlyText]; exact hk
  | ref he _ ih => exact Ev.succ (ih.imp fun k hk => by rw [onlyText, deep, he]; exact hk)
  | _ => exact .always fun _ => rfl

theorem textSchema_elems {k : Nat} {start : Pattern D V} (h : textSchema env k start = true) {nc q} (he : ElemIn env start nc q) : OnlyText env q := by
  rw [textSchema, Bool.and_eq_true] at h
  have h1 := List.all_eq_true.1 h.2
  have : q ∈ contentsL (bodies env k start) := elemIn_contents (T := (· ∈ contentsL (bodies env k start))) (S := (· ∈ reach env k start.refs))
    (used_sound h.1) he (closed_sound h.1).1 (fun q hq => contentsL_mem List.mem_cons_self hq)
  exact onlyText_sound (deep_sound (fun _ ho => onlyText_sound ho) k) q (h1 q this)

theorem textSchema_decides [DecidableEq D] [DecidableEq V] {start : Pattern D V} (hs : SchemaOK L env start c) :
    textSchema env (depth env) start = true ↔ ∀ nc q, ElemIn env start nc q → OnlyText env q := by
  refine ⟨fun h nc q he => textSchema_elems h he, fun h => ?_⟩
  obtain ⟨Q, hQ, hw⟩ := hs
  rw [textSchema, Bool.and_eq_true]
  refine ⟨closed_at ?_, List.all_eq_true.2 fun q hq => ?_⟩
  · have := missing_le (env := env) start.refs
    unfold depth; omega
  · have ht : OnlyText env q := by
      obtain ⟨p, hp, hq⟩ := mem_contentsL hq
      rcases List.mem_cons.1 hp with hp | hp
      · rw [hp] at hq
        obtain ⟨nc, he⟩ := (wf_lifts hQ hw).1 q hq
        exact h nc q he
      · obtain ⟨n, hn, hp⟩ := List.mem_filterMap.1 hp
        have hu := reach_uses _ (fun m hm => .here hm) n hn
        rcases Pos.uses hQ hu (.inl ⟨_, _, hw⟩) with ⟨s, l, h'⟩ | h'
        · cases h' with
          | ref he h' =>
            rw [hp] at he; cases he
            obtain ⟨nc, he⟩ := (wf_lifts hQ h').1 q hq
            exact h nc q (uses_elemIn hQ hu (.inl ⟨_, _, hw⟩) hp he)
        · cases h' with
          | ref he h' => rw [hp] at he; cases he; rw [exOK_contents h'] at hq; cases hq
    obtain ⟨N, hN⟩ := onlyText_complete ht
    have : onlyText (deep env onlyText (depth env + N)) q = true := hN (depth env + N) (by omega)
    rwa [deep_settles' (env := env) (k := depth env + N) (fun _ _ => onlyText_mono) (by omega)] at this

/-! ### documents -/

theorem broken_iff : ∀ {xs : List XNode} {prev : Bool}, broken prev xs = true ↔ brokenText prev xs
  | [], _ => by simp [broken, brokenText]
  | .text _ :: xs, prev => by rw [broken, Bool.or_eq_true, broken_iff, brokenText]
  | .cdata _ :: xs, prev => by rw [broken, Bool.or_eq_true, broken_iff, brokenText]
  | .comment :: xs, prev => by rw [broken, broken_iff, brokenText]
  | .pi :: xs, prev => by rw [broken, broken_iff, brokenText]
  | .elem _ _ _ _ _ :: xs, prev => by rw [broken, broken_iff, brokenText]

end Verif.Check
