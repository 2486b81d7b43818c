import Verif.Proof.AnyOrder
import Verif.Props.Checked
/-
C102: where the schema prescribes no order, the order does not matter.
-/
namespace Verif
open AnyOrder
section
variable {D V : Type} {L : Lib D V} {env : Env D V} {start : Pattern D V} {nm : QName} {node node' : Node}

/-- C102.  Unordered content matches whatever the order of the child nodes is. -/
theorem C102_any_order {q : Pattern D V} {a : List Attr} {c c' : List Node} (h : Unordered env q) (hp : c.Perm c') :
    Match L env q a c ↔ Match L env q a c' := ⟨fun hm => unordered_match h hm hp, fun hm => unordered_match h hm hp.symm⟩

/-- C102.  If wherever the schema describes an element called `nm` its content is unordered, then in a matching document the child nodes
of elements `nm`, at any depth, may be put in any order. -/
theorem C102_permuted_documents_match (hx : UnorderedIn env start nm) (h : Permuted nm [node] [node']) (hm : Match L env start [] [node]) :
    Match L env start [] [node'] := permuted_match hm hx h

variable [DecidableEq D] [DecidableEq V] {fuel n m : Nat} {s0 s' t' : VState D V} {d d' : XDoc} {r r' : Except VErr Unit}

/-- C102.  And the validator, if it accepted the document, accepts it then. -/
theorem C102_accepted_stays_accepted (hs : SchemaOK L env start true) (h0 : StartOK env start) (hg : d.Proper) (hg' : d'.Proper)
    (hb : d.SeenBreaksOnlyText env start) (hb' : d'.SeenBreaksOnlyText env start) (hd : d.Seen node) (hd' : d'.Seen node')
    (hx : UnorderedIn env start nm) (h : Permuted nm [node] [node'])
    (hnew : newValidator env fuel start = .ok s0) (hrun : runToks L n d.toks s0 = .ok (.ok (), s'))
    (hrun' : runToks L m d'.toks s0 = .ok (r', t')) : r' = .ok () := by
  obtain ⟨x, h1, h2⟩ := C83_accepted_documents_match hs.relax h0 hg hb hnew hrun
  obtain rfl := C83_read_in_one_way hd h1
  exact C83_documents_matching_as_read_accepted hs h0 hg' hb' hd' hnew hrun' (C102_permuted_documents_match hx h h2)
end

/-! ### a case -/
namespace AnyOrderEx

def a : Pattern Unit Str := .element (.named [] ['a']) .empty
def b : Pattern Unit Str := .element (.named [] ['b']) .empty
/-- `element r { a? & b+ }` -/
def start : Pattern Unit Str := .element (.named [] ['r']) (.interleave [.optional a, .oneOrMore b])
def el (c : Char) (k : List Node) : Node := .elem ⟨none, [c]⟩ [] k

theorem C102_case : UnorderedIn ([] : Env Unit Str) start ⟨none, ['r']⟩ := by
  intro nc q h hn
  have wrong : ∀ {c : Char}, c ≠ 'r' → ¬ (NameClass.named [] [c]).Has (QName.expanded ⟨none, ['r']⟩) := by
    intro c hc h
    have h : (([] : Str), ['r']) = ([], [c]) := h
    exact hc (List.cons.inj (Prod.mk.inj h).2).1.symm
  cases h with
  | here =>
    refine .interleave fun p hp => ?_
    simp only [List.mem_cons, List.not_mem_nil, or_false] at hp
    rcases hp with rfl | rfl
    · exact .optional .element
    · exact .oneOrMore .element
  | element h =>
    cases h with
    | interleave hp h =>
      simp only [List.mem_cons, List.not_mem_nil, or_false] at hp
      rcases hp with rfl | rfl
      · cases h with
        | optional h =>
          cases h with
          | here => exact absurd hn (wrong (by decide))
          | element h => cases h
      · cases h with
        | oneOrMore h =>
          cases h with
          | here => exact absurd hn (wrong (by decide))
          | element h => cases h

/-- `<r>` with these elements in it -/
def doc (k : List Char) : XDoc := ⟨[], [], ['r'], [], false, k.map fun c => .elem [] [c] [] true [], []⟩

theorem kidsSeen {ents} : ∀ k : List Char, (∀ c ∈ k, c = 'a' ∨ c = 'b') →
    Seen ents [] (k.map fun c => XNode.elem [] [c] [] true []) (k.map fun c => el c [])
  | [], _ => .nil
  | c :: k, h => .elem (by rcases h c (.head _) with rfl | rfl <;> decide) .nil .nil (kidsSeen k fun x hx => h x (.tail _ hx))

/-- so, as `<r><a/><b/><b/></r>` is accepted, `<r><b/><a/><b/></r>` is -/
theorem C102_case_accepted {fuel n m : Nat} {s0 s' t' : VState Unit Str} {r : Except VErr Unit}
    (hnew : newValidator [] fuel start = .ok s0) (hrun : runToks Ex.lib n (doc ['a', 'b', 'b']).toks s0 = .ok (.ok (), s'))
    (hrun' : runToks Ex.lib m (doc ['b', 'a', 'b']).toks s0 = .ok (r, t')) : r = .ok () := by
  obtain ⟨hs, h0⟩ := Check.schema_sound (L := Ex.lib) (env := []) (k := 10) (start := start) (by decide)
  have h1 : (doc ['a', 'b', 'b']).Seen (el 'r' [el 'a' [], el 'b' [], el 'b' []]) :=
    Seen.elem (read := []) (pre := []) (loc := ['r']) (atts := []) (sc := false) (nm := ⟨none, ['r']⟩) (by decide) .nil
      (kidsSeen ['a', 'b', 'b'] (by decide)) .nil
  have h2 : (doc ['b', 'a', 'b']).Seen (el 'r' [el 'b' [], el 'a' [], el 'b' []]) :=
    Seen.elem (read := []) (pre := []) (loc := ['r']) (atts := []) (sc := false) (nm := ⟨none, ['r']⟩) (by decide) .nil
      (kidsSeen ['b', 'a', 'b'] (by decide)) .nil
  refine C102_accepted_stays_accepted hs h0 ?_ ?_ (Check.whole_breaks (by decide)) (Check.whole_breaks (by decide)) h1 h2 C102_case
    (.here (.same (.same (.same .nil))) (.swap _ _ _) .nil) hnew hrun hrun'
  · simp [XDoc.Proper, XDoc.root, doc, properL, XNode.proper]
  · simp [XDoc.Proper, XDoc.root, doc, properL, XNode.proper]
end AnyOrderEx
end Verif
