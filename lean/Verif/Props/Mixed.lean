import Verif.Proof.Mixed
import Verif.Props.Checked
/-
C98: mixed content.  Character data in it may be added, removed and changed.
-/
namespace Verif
open Mixed
section
variable {D V : Type} {L : Lib D V} {env : Env D V} {start : Pattern D V} {nm : QName} {node node' : Node}

/-- C98.  In mixed content only the elements count: whatever character data is added to them, removed or changed. -/
theorem C98_only_elements_count {q : Pattern D V} {a : List Attr} {c c' : List Node} (h : Mixes env q) (he : elems c' = elems c) :
    Match L env q a c ↔ Match L env q a c' := ⟨fun hm => mixes_match h hm he, fun hm => mixes_match h hm he.symm⟩

/-- C98.  If wherever the schema describes an element called `nm` its content is mixed, then in a matching document character data in
elements `nm`, at any depth, may be added, removed and changed. -/
theorem C98_edited_documents_match (hx : MixedIn env start nm) (h : Edited nm [node] [node']) (hm : Match L env start [] [node]) :
    Match L env start [] [node'] := edited_match hm hx h

variable [DecidableEq D] [DecidableEq V] {fuel n m : Nat} {s0 s' t' : VState D V} {d d' : XDoc} {r r' : Except VErr Unit}

/-- C98.  And the validator, if it accepted the document, accepts it then. -/
theorem C98_accepted_stays_accepted (hs : SchemaOK L env start true) (h0 : StartOK env start) (hg : d.Proper) (hg' : d'.Proper)
    (hb : d.SeenBreaksOnlyText env start) (hb' : d'.SeenBreaksOnlyText env start) (hd : d.Seen node) (hd' : d'.Seen node')
    (hx : MixedIn env start nm) (h : Edited nm [node] [node'])
    (hnew : newValidator env fuel start = .ok s0) (hrun : runToks L n d.toks s0 = .ok (.ok (), s'))
    (hrun' : runToks L m d'.toks s0 = .ok (r', t')) : r' = .ok () := by
  obtain ⟨x, h1, h2⟩ := C83_accepted_documents_match hs.relax h0 hg hb hnew hrun
  obtain rfl := C83_read_in_one_way hd h1
  exact C83_documents_matching_as_read_accepted hs h0 hg' hb' hd' hnew hrun' (C98_edited_documents_match hx h h2)
end

/-! ### a case -/
namespace MixedEx

theorem notDoc {nm : QName} (h : nm.expanded = (['u'], ['d', 'o', 'c'])) : ¬ Ex.itemName.Has nm.expanded := by
  intro h'
  have h' : nm.expanded = (['u'], ['i', 't', 'e', 'm']) := h'
  rw [h] at h'
  exact absurd h' (by decide)

theorem inItem {p : Pattern Unit Str} {nc q} (h : ElemIn Ex.env p nc q) :
    (p = .ref 1 ∨ p = .zeroOrMore (.ref 1) ∨ p = .element Ex.itemName Ex.itemBody ∨ p = Ex.itemBody ∨
      p = .attr (.named [] ['k']) (.datatypeValue ['a'])) → nc = Ex.itemName := by
  induction h with
  | here => intro h; rcases h with h | h | h | h | h <;> cases h; rfl
  | element _ ih => intro h; rcases h with h | h | h | h | h <;> cases h; exact ih (.inr (.inr (.inr (.inl rfl))))
  | choice => intro h; rcases h with h | h | h | h | h <;> cases h
  | group hp _ ih =>
    intro h
    rcases h with h | h | h | h | h <;> cases h
    simp only [List.mem_cons, List.not_mem_nil, or_false] at hp
    rcases hp with rfl | rfl
    · exact ih (.inr (.inr (.inr (.inr rfl))))
    · exact ih (.inr (.inl rfl))
  | interleave => intro h; rcases h with h | h | h | h | h <;> cases h
  | mixed => intro h; rcases h with h | h | h | h | h <;> cases h
  | optional => intro h; rcases h with h | h | h | h | h <;> cases h
  | zeroOrMore _ ih => intro h; rcases h with h | h | h | h | h <;> cases h; exact ih (.inl rfl)
  | oneOrMore => intro h; rcases h with h | h | h | h | h <;> cases h
  | attr hq _ =>
    intro h
    rcases h with h | h | h | h | h <;> cases h
    cases hq
  | list => intro h; rcases h with h | h | h | h | h <;> cases h
  | ref hn _ ih =>
    intro h
    rcases h with h | h | h | h | h <;> cases h
    cases hn
    exact ih (.inr (.inr (.inl rfl)))

/-- in the schema of Props/Example, `p:doc` has mixed content -/
theorem C98_case : MixedIn Ex.env Ex.start ⟨some ['u'], ['d', 'o', 'c']⟩ := by
  have hm : Mixes Ex.env Ex.docBody := by
    refine .group (as := [_]) (bs := []) (fun q hq => ?_) (.mixed (.zeroOrMore (.ref (p := .element Ex.itemName Ex.itemBody) rfl .element))) nofun
    rw [List.mem_singleton.1 hq]
    exact .attr
  intro nc q he hn
  cases he with
  | ref h0 he =>
    cases h0
    cases he with
    | here => exact hm
    | element he =>
      refine absurd ?_ (notDoc (nm := ⟨some ['u'], ['d', 'o', 'c']⟩) rfl)
      suffices nc = Ex.itemName by rw [this] at hn; exact hn
      cases he with
      | group hp he =>
        simp only [List.mem_cons, List.not_mem_nil, or_false] at hp
        rcases hp with rfl | rfl
        · cases he with | attr he => cases he
        · cases he with | mixed he => exact inItem he (.inr (.inl rfl))

/-- so the document of Props/Example may have other text around its items -/
theorem C98_case_match : Match Ex.lib Ex.env Ex.start [] [.elem ⟨some ['u'], ['d', 'o', 'c']⟩ [⟨⟨none, ['i', 'd']⟩, ['7']⟩]
    [.text ['s', 'e', 'e'], Ex.itemNode [], .text ['.'], Ex.itemNode [Ex.itemNode []]]] := by
  obtain ⟨s, h⟩ := Ex.accepted
  have h1 := C01_accepted_documents_match Ex.schemaOK.relax Ex.startOK Ex.tame Ex.means Ex.new_ok h
  refine C98_edited_documents_match C98_case ?_ h1
  exact .here (.same (.same (.same .nil))) rfl .nil

end MixedEx
end Verif
