import Verif.Proof.Swap
import Verif.Props.Checked
/-
C94: elements in the place of others.  Whether an element is right where it stands depends only on which of the schema's `element`
patterns it matches by itself.
-/
namespace Verif
open Swap
section
variable {D V : Type} {L : Lib D V} {env : Env D V} {start : Pattern D V} {x y node node' : Node}

/-- C94.  If `y` matches, by itself, every `element` of the schema that the element `x` matches, then in a matching document elements `x`
may be replaced by `y`, wherever they stand and however many of them. -/
theorem C94_replacing_elements (hx : ∃ nm as k, x = Node.elem nm as k) (hf : Fits L env start x y) (h : Swapped x y [node] [node'])
    (hm : Match L env start [] [node]) : Match L env start [] [node'] := swapped_match hx hm hf h

variable [DecidableEq D] [DecidableEq V] {fuel n m : Nat} {s0 s' t' : VState D V} {d d' : XDoc} {r r' : Except VErr Unit}

/-- C94.  The validator accepts the new document if it accepted the old one. -/
theorem C94_accepted_stays_accepted (hs : SchemaOK L env start true) (h0 : StartOK env start) (hg : d.Proper) (hg' : d'.Proper)
    (hb : d.SeenBreaksOnlyText env start) (hb' : d'.SeenBreaksOnlyText env start) (hd : d.Seen node) (hd' : d'.Seen node')
    (hx : ∃ nm as k, x = Node.elem nm as k) (hf : Fits L env start x y) (h : Swapped x y [node] [node'])
    (hnew : newValidator env fuel start = .ok s0) (hrun : runToks L n d.toks s0 = .ok (.ok (), s'))
    (hrun' : runToks L m d'.toks s0 = .ok (r', t')) : r' = .ok () := by
  obtain ⟨node1, h1, h2⟩ := C83_accepted_documents_match hs.relax h0 hg hb hnew hrun
  obtain rfl := C83_read_in_one_way hd h1
  exact C83_documents_matching_as_read_accepted hs h0 hg' hb' hd' hnew hrun' (C94_replacing_elements hx hf h h2)

theorem Swap.Swapped.symm {c c' : List Node} (h : Swapped x y c c') : Swapped y x c' c := by
  induction h with
  | nil => exact .nil
  | same _ ih => exact .same ih
  | swap _ ih => exact .swap ih
  | inside _ _ ih1 ih2 => exact .inside ih1 ih2

/-- C94.  If two elements match the same `element`s of the schema, exchanging them changes no verdict. -/
theorem C94_exchanging_elements (hs : SchemaOK L env start true) (h0 : StartOK env start) (hg : d.Proper) (hg' : d'.Proper)
    (hb : d.SeenBreaksOnlyText env start) (hb' : d'.SeenBreaksOnlyText env start) (hd : d.Seen node) (hd' : d'.Seen node')
    (hx : ∃ nm as k, x = Node.elem nm as k) (hy : ∃ nm as k, y = Node.elem nm as k)
    (hf : ∀ nc q, ElemIn env start nc q → (Match L env (.element nc q) [] [x] ↔ Match L env (.element nc q) [] [y]))
    (h : Swapped x y [node] [node'])
    (hnew : newValidator env fuel start = .ok s0) (hrun : runToks L n d.toks s0 = .ok (r, s'))
    (hrun' : runToks L m d'.toks s0 = .ok (r', t')) : r = .ok () ↔ r' = .ok () :=
  ⟨fun hr => C94_accepted_stays_accepted hs h0 hg hg' hb hb' hd hd' hx (fun nc q he => (hf nc q he).1) h hnew (hr ▸ hrun) hrun',
   fun hr => C94_accepted_stays_accepted hs h0 hg' hg hb' hb hd' hd hy (fun nc q he => (hf nc q he).2) h.symm hnew (hr ▸ hrun') hrun⟩
end

/-! ### a case -/
namespace SwapEx

/-- `element r { element a { text }* }` -/
def a : Pattern Unit Str := .element (.named [] ['a']) .text
def start : Pattern Unit Str := .element (.named [] ['r']) (.zeroOrMore a)
def el (c : Char) (k : List Node) : Node := .elem ⟨none, [c]⟩ [] k

/-- `<a>t</a>` matches what `<a/>` does -/
theorem C94_case_fits : Fits Ex.lib [] start (el 'a' []) (el 'a' [.text ['t']]) := by
  intro nc q he hm
  generalize hc : [el 'a' []] = c at hm
  cases he with
  | here =>
    cases hm with
    | element hn => cases hc; have hn : (([] : Str), ['a']) = ([], ['r']) := hn; exact absurd hn (by decide)
  | element he =>
    cases he with
    | zeroOrMore he =>
      cases he with
      | here => exact .element rfl (.keep .nil) (.text fun x hx => ⟨_, List.mem_singleton.1 hx⟩)
      | element he => cases he

/-- `<r><a/><a></a></r>` and `<r><a/><a><![CDATA[t]]></a></r>` -/
def doc (k : List XNode) : XDoc := ⟨[], [], ['r'], [], false, [.elem [] ['a'] [] true [], .elem [] ['a'] [] false k], []⟩

theorem docSeen {k : List XNode} {ns : List Node} (h : Seen (doc k).lastEntities [] k ns) (hj : joinText ns = ns) :
    (doc k).Seen (el 'r' [el 'a' [], el 'a' ns]) := by
  have h2 := Seen.elem (read := []) (pre := []) (loc := ['a']) (atts := []) (sc := false) (nm := ⟨none, ['a']⟩) (by decide) .nil h .nil
  rw [hj] at h2
  have h3 := Seen.elem (read := []) (pre := []) (loc := ['a']) (atts := []) (sc := true) (kids := []) (nm := ⟨none, ['a']⟩) (by decide) .nil .nil h2
  exact Seen.elem (read := []) (pre := []) (loc := ['r']) (atts := []) (sc := false) (nm := ⟨none, ['r']⟩) (by decide) .nil h3 .nil

theorem C94_case : Swapped (el 'a' []) (el 'a' [.text ['t']]) [el 'r' [el 'a' [], el 'a' []]] [el 'r' [el 'a' [], el 'a' [.text ['t']]]] :=
  .inside (.same (.swap .nil)) .nil

/-- the theorem applied -/
theorem C94_case_accepted {fuel n m : Nat} {s0 s' t' : VState Unit Str} {r : Except VErr Unit}
    (hnew : newValidator [] fuel start = .ok s0) (hrun : runToks Ex.lib n (doc []).toks s0 = .ok (.ok (), s'))
    (hrun' : runToks Ex.lib m (doc [.cdata ['t']]).toks s0 = .ok (r, t')) : r = .ok () := by
  obtain ⟨hs, h0⟩ := Check.schema_sound (L := Ex.lib) (env := []) (k := 10) (start := start) (by decide)
  refine C94_accepted_stays_accepted hs h0 ?_ ?_ (Check.whole_breaks (by decide)) (Check.whole_breaks (by decide))
    (docSeen .nil rfl) (docSeen ?_ rfl) ⟨_, _, _, rfl⟩ C94_case_fits C94_case hnew hrun hrun'
  · simp [XDoc.Proper, XDoc.root, doc, properL, XNode.proper]
  · simp [XDoc.Proper, XDoc.root, doc, properL, XNode.proper]
  · exact .cdata .nil

end SwapEx
end Verif
