import Verif.Proof.Records
import Verif.Props.Swap
/-
C101: documents that are lists of records are judged record by record.
-/
namespace Verif
open Records
section
variable {D V : Type} {L : Lib D V} {env : Env D V} {start : Pattern D V} {nm : QName} {as : List Attr} {k k' : List Node}

/-- C101.  If the root element's content is attributes and any number of records (each of them one element), then a document matches
exactly if it does without its records, and with each of them alone; besides there may only be white space. -/
theorem C101_judged_record_by_record (h : Root env start) : Match L env start [] [.elem nm as k] ↔
    Match L env start [] [.elem nm as []] ∧ ∀ x ∈ k, (∃ s, x = Node.text s ∧ WsText s) ∨
      ((∃ m bs l, x = Node.elem m bs l) ∧ Match L env start [] [.elem nm as [x]]) := root_iff h

variable [DecidableEq D] [DecidableEq V] {fuel n : Nat} {s0 s' : VState D V} {d : XDoc} {r : Except VErr Unit}

/-- the validator, beginning with `s0`, accepts the (well-formed) document `d`, which is read as `node` -/
structure Records.AcceptedAs (L : Lib D V) (env : Env D V) (start : Pattern D V) (s0 : VState D V) (d : XDoc) (node : Node) : Prop where
  proper : d.Proper
  breaks : d.SeenBreaksOnlyText env start
  seen : d.Seen node
  accepted : ∃ n s', runToks L n d.toks s0 = .ok (.ok (), s')

theorem Records.AcceptedAs.matches {node : Node} (hs : SchemaOK L env start false) (h0 : StartOK env start)
    (hnew : newValidator env fuel start = .ok s0) (h : AcceptedAs L env start s0 d node) : Match L env start [] [node] := by
  obtain ⟨n, s', hrun⟩ := h.accepted
  obtain ⟨x, h1, h2⟩ := C83_accepted_documents_match hs h0 h.proper h.breaks hnew hrun
  obtain rfl := C83_read_in_one_way h.seen h1
  exact h2

/-- C101.  Accepted documents with the same root tag can be split, filtered and merged, and their records reordered and repeated: a
document made of records of accepted documents and white space is accepted. -/
theorem C101_split_filtered_merged (hs : SchemaOK L env start true) (h0 : StartOK env start) (hroot : Root env start)
    (hg : d.Proper) (hb : d.SeenBreaksOnlyText env start) (hd : d.Seen (.elem nm as k'))
    (hnew : newValidator env fuel start = .ok s0) (hrun : runToks L n d.toks s0 = .ok (r, s'))
    (hsome : ∃ d1 k, AcceptedAs L env start s0 d1 (.elem nm as k))
    (h : ∀ x ∈ k', (∃ s, x = Node.text s ∧ WsText s) ∨ ∃ d1 k, AcceptedAs L env start s0 d1 (.elem nm as k) ∧ x ∈ k) : r = .ok () := by
  refine C83_documents_matching_as_read_accepted hs h0 hg hb hd hnew hrun ((root_iff hroot).2 ⟨?_, fun x hx => ?_⟩)
  · obtain ⟨d1, k, h1⟩ := hsome
    exact ((root_iff hroot).1 (h1.matches hs.relax h0 hnew)).1
  · rcases h x hx with h | ⟨d1, k, h1, hk⟩
    · exact .inl h
    · exact ((root_iff hroot).1 (h1.matches hs.relax h0 hnew)).2 x hk

/-- C101.  If a document is refused, then its root tag is wrong, or there is character data among the records, or one of the records is
wrong by itself. -/
theorem C101_one_is_to_blame {e : VErr} (hs : SchemaOK L env start true) (h0 : StartOK env start) (hroot : Root env start)
    (hg : d.Proper) (hb : d.SeenBreaksOnlyText env start) (hd : d.Seen (.elem nm as k))
    (hnew : newValidator env fuel start = .ok s0) (hrun : runToks L n d.toks s0 = .ok (.error e, s')) :
    ¬ Match L env start [] [.elem nm as []] ∨ (∃ s, Node.text s ∈ k ∧ ¬ WsText s) ∨
      ∃ m bs l, Node.elem m bs l ∈ k ∧ ¬ Match L env start [] [.elem nm as [.elem m bs l]] := by
  apply Classical.byContradiction
  intro hno
  simp only [not_or, Classical.not_not, not_exists, not_and] at hno
  obtain ⟨h1, h2, h3⟩ := hno
  have := C83_documents_matching_as_read_accepted hs h0 hg hb hd hnew hrun ((root_iff hroot).2 ⟨h1, fun x hx => by
    cases x with
    | text s => exact .inl ⟨s, rfl, h2 s hx⟩
    | elem m bs l => exact .inr ⟨⟨_, _, _, rfl⟩, h3 m bs l hx⟩⟩)
  cases this
end

/-! ### a case -/
namespace RecordsEx
open SwapEx

/-- in the schema `element r { element a { text }* }` the elements `a` are records -/
theorem C101_case : Root ([] : Env Unit Str) start := .element (.records (.zeroOrMore .element))

/-- `<r> <a>t</a></r>` -/
def doc1 : XDoc := ⟨[], [], ['r'], [], false, [.cdata [' '], .elem [] ['a'] [] false [.cdata ['t']]], []⟩

/-- so, as `<r><a/><a>t</a></r>` is accepted, `doc1` is -/
theorem C101_case_accepted {fuel n m : Nat} {s0 s' t' : VState Unit Str} {r : Except VErr Unit}
    (hnew : newValidator [] fuel start = .ok s0) (hrun : runToks Ex.lib n (doc [.cdata ['t']]).toks s0 = .ok (.ok (), s'))
    (hrun' : runToks Ex.lib m doc1.toks s0 = .ok (r, t')) :
    r = .ok () := by
  obtain ⟨hs, h0⟩ := Check.schema_sound (L := Ex.lib) (env := []) (k := 10) (start := start) (by decide)
  have hseen : doc1.Seen
      (el 'r' [.text [' '], el 'a' [.text ['t']]]) := by
    have h2 := Seen.elem (ents := doc1.lastEntities)
      (read := []) (pre := []) (loc := ['a']) (atts := []) (sc := false) (kids := [.cdata ['t']]) (nm := ⟨none, ['a']⟩) (by decide) .nil (.cdata .nil) .nil
    exact Seen.elem (read := []) (pre := []) (loc := ['r']) (atts := []) (sc := false) (nm := ⟨none, ['r']⟩) (by decide) .nil (.cdata h2) .nil
  have hacc : AcceptedAs Ex.lib [] start s0 (doc [.cdata ['t']]) (el 'r' [el 'a' [], el 'a' [.text ['t']]]) :=
    ⟨by simp [XDoc.Proper, XDoc.root, doc, properL, XNode.proper], Check.whole_breaks (by decide), docSeen (.cdata .nil) rfl, _, _, hrun⟩
  refine C101_split_filtered_merged hs h0 C101_case ?_ (Check.whole_breaks (by decide)) hseen hnew hrun' ⟨_, _, hacc⟩ fun x hx => ?_
  · simp [XDoc.Proper, XDoc.root, doc1, properL, XNode.proper]
  · cases hx with
    | head => exact .inl ⟨_, rfl, by intro c hc; rw [List.mem_singleton.1 hc]; decide⟩
    | tail _ hx => exact .inr ⟨_, _, hacc, by rw [List.mem_singleton.1 hx]; exact .tail _ (.head _)⟩
end RecordsEx
end Verif
