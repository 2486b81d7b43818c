import Verif.Proof.Union
import Verif.Props.Checked
/-
C93: schemas put together as alternatives.
-/
namespace Verif
section
variable {D V : Type} [DecidableEq D] [DecidableEq V] {L : Lib D V} {env : Env D V} {ps : List (Pattern D V)}
  {fuel n : Nat} {s0 s' : VState D V} {d : XDoc} {r : Except VErr Unit}

omit [DecidableEq D] [DecidableEq V] in
/-- C93.  Well-formed schemas, put together as alternatives, are a well-formed schema. -/
theorem C93_alternatives_well_formed {c : Bool} (hne : ps ≠ []) (h : ∀ p ∈ ps, SchemaOK L env p c ∧ StartOK env p) :
    SchemaOK L env (.choice ps) c ∧ StartOK env (.choice ps) :=
  ⟨Union.schemaOK hne fun p hp => (h p hp).1, .choice hne fun p hp => (h p hp).2⟩

/-- C93.  With several start patterns as alternatives, the validator accepts exactly the documents that it accepts with one of them. -/
theorem C93_accepted_iff_accepted_by_one (hne : ps ≠ []) (h : ∀ p ∈ ps, SchemaOK L env p true ∧ StartOK env p) (hg : d.Proper)
    (hb : ∀ p ∈ ps, d.SeenBreaksOnlyText env p)
    (hnew : newValidator env fuel (.choice ps) = .ok s0) (hrun : runToks L n d.toks s0 = .ok (r, s'))
    {fuels ns : Pattern D V → Nat} {v v' : Pattern D V → VState D V} {rs : Pattern D V → Except VErr Unit}
    (hruns : ∀ p ∈ ps, newValidator env (fuels p) p = .ok (v p) ∧ runToks L (ns p) d.toks (v p) = .ok (rs p, v' p)) :
    r = .ok () ↔ ∃ p ∈ ps, rs p = .ok () := by
  obtain ⟨hs, h0⟩ := C93_alternatives_well_formed hne h
  rw [C83_accepted_iff hs h0 hg (Union.breaks hb) hnew hrun]
  constructor
  · rintro ⟨node, h1, h2⟩
    cases h2 with
    | choice hp h2 =>
      exact ⟨_, hp, (C83_accepted_iff (h _ hp).1 (h _ hp).2 hg (hb _ hp) (hruns _ hp).1 (hruns _ hp).2).2 ⟨node, h1, h2⟩⟩
  · rintro ⟨p, hp, hr⟩
    obtain ⟨node, h1, h2⟩ := (C83_accepted_iff (h p hp).1 (h p hp).2 hg (hb p hp) (hruns p hp).1 (hruns p hp).2).1 hr
    exact ⟨node, h1, .choice hp h2⟩

/-- C93.  So neither the order of the alternatives nor repetitions matter. -/
theorem C93_order_and_repetition {qs : List (Pattern D V)} {fuel' n' : Nat} {t0 t' : VState D V} {r' : Except VErr Unit}
    (hne : ps ≠ []) (h : ∀ p ∈ ps, SchemaOK L env p true ∧ StartOK env p) (hg : d.Proper) (hb : ∀ p ∈ ps, d.SeenBreaksOnlyText env p)
    (hsame : ∀ p, p ∈ ps ↔ p ∈ qs)
    (hnew : newValidator env fuel (.choice ps) = .ok s0) (hrun : runToks L n d.toks s0 = .ok (r, s'))
    (hnew' : newValidator env fuel' (.choice qs) = .ok t0) (hrun' : runToks L n' d.toks t0 = .ok (r', t')) :
    r = .ok () ↔ r' = .ok () := by
  have hne' : qs ≠ [] := by
    obtain ⟨p, hp⟩ := List.exists_mem_of_ne_nil ps hne
    exact List.ne_nil_of_mem ((hsame p).1 hp)
  obtain ⟨hs, h0⟩ := C93_alternatives_well_formed hne h
  obtain ⟨hs', h0'⟩ := C93_alternatives_well_formed (ps := qs) hne' fun p hp => h p ((hsame p).2 hp)
  rw [C83_accepted_iff hs h0 hg (Union.breaks hb) hnew hrun,
    C83_accepted_iff hs' h0' hg (Union.breaks fun p hp => hb p ((hsame p).2 hp)) hnew' hrun']
  have key : ∀ node, Match L env (.choice ps) [] [node] ↔ Match L env (.choice qs) [] [node] := fun node =>
    ⟨fun hm => by cases hm with | choice hp hm => exact .choice ((hsame _).1 hp) hm,
     fun hm => by cases hm with | choice hp hm => exact .choice ((hsame _).2 hp) hm⟩
  simp only [key]
end

/-! ### a case -/
namespace UnionEx
open Ex

/-- `start = doc` and `start = item`, with the definitions of Props/Example -/
theorem C93_case : (∀ p ∈ [.ref 0, .ref 1], SchemaOK lib env p true ∧ StartOK env p) ∧ doc.Proper ∧
    ∀ p ∈ [.ref 0, .ref 1], doc.SeenBreaksOnlyText env p := by
  refine ⟨fun p hp => ?_, by simp [XDoc.Proper, XDoc.root, doc, item, properL, XNode.proper], fun _ _ => Check.whole_breaks (by decide)⟩
  simp only [List.mem_cons, List.not_mem_nil, or_false] at hp
  rcases hp with rfl | rfl <;> exact Check.schema_sound (k := 10) (by decide)

/-- the document of Props/Example is accepted with both as alternatives -/
theorem C93_case_accepted {n m : Nat} {t0 t' : VState Unit Str} {r : Except VErr Unit}
    (hnew : newValidator env n (.choice [.ref 0, .ref 1]) = .ok t0) (hrun : runToks lib m doc.toks t0 = .ok (r, t')) : r = .ok () := by
  obtain ⟨s, h⟩ := accepted
  obtain ⟨h1, h2, h3⟩ := C93_case
  obtain ⟨hs, h0⟩ := C93_alternatives_well_formed (by simp) h1
  obtain ⟨node, h4, h5⟩ := C83_accepted_documents_match schemaOK.relax startOK h2 (h3 (.ref 0) (by simp)) new_ok h
  exact (C83_accepted_iff hs h0 h2 (Union.breaks h3) hnew hrun).2 ⟨node, h4, .choice (by simp [start]) h5⟩

end UnionEx
end Verif
