import Verif.Proof.Wild
import Verif.Props.Checked
/-
C103: where the schema allows anything, everything is accepted.
-/
namespace Verif
open Wild
section
variable {D V : Type} {L : Lib D V} {env : Env D V} {start : Pattern D V} {nm : QName} {node node' : Node}

/-- C103.  `anything` matches any attributes and any content. -/
theorem C103_anything_matches {n : Nat} (h : Anything env n) (as : List Attr) (c : List Node) : Match L env (.ref n) as c :=
  anything_match h as c

/-- C103.  If wherever the schema describes an element called `nm` anything may be in it, then in a matching document the attributes and
the content of elements `nm`, at any depth, may be replaced by any others. -/
theorem C103_changed_documents_match (hx : AnythingIn env start nm) (h : Changed nm [node] [node']) (hm : Match L env start [] [node]) :
    Match L env start [] [node'] := changed_match hm hx h

variable [DecidableEq D] [DecidableEq V] {fuel n m : Nat} {s0 s' t' : VState D V} {d d' : XDoc} {r r' : Except VErr Unit}

/-- C103.  And the validator, if it accepted the document, accepts it then. -/
theorem C103_accepted_stays_accepted (hs : SchemaOK L env start true) (h0 : StartOK env start) (hg : d.Proper) (hg' : d'.Proper)
    (hb : d.SeenBreaksOnlyText env start) (hb' : d'.SeenBreaksOnlyText env start) (hd : d.Seen node) (hd' : d'.Seen node')
    (hx : AnythingIn env start nm) (h : Changed nm [node] [node'])
    (hnew : newValidator env fuel start = .ok s0) (hrun : runToks L n d.toks s0 = .ok (.ok (), s'))
    (hrun' : runToks L m d'.toks s0 = .ok (r', t')) : r' = .ok () := by
  obtain ⟨x, h1, h2⟩ := C83_accepted_documents_match hs.relax h0 hg hb hnew hrun
  obtain rfl := C83_read_in_one_way hd h1
  exact C83_documents_matching_as_read_accepted hs h0 hg' hb' hd' hnew hrun' (C103_changed_documents_match hx h h2)
end

/-! ### cases -/
namespace WildEx
variable {D V : Type}

/-- `start = element * { anything }  anything = (element * { anything } | attribute * { text } | text)*` -/
def env : Env D V := [.zeroOrMore (.choice [.element .anyName (.ref 0), .attr .anyName .text, .text])]
def start : Pattern D V := .element .anyName (.ref 0)

theorem C103_case : Anything (env : Env D V) 0 := ⟨_, rfl, .head _, .tail _ (.head _), .tail _ (.tail _ (.head _))⟩

theorem contents {p : Pattern D V} {nc q} (h : ElemIn env p nc q) :
    (p = start ∨ p = .ref 0 ∨ p = .zeroOrMore (.choice [start, .attr .anyName .text, .text]) ∨ p = .choice [start, .attr .anyName .text, .text]) →
    q = .ref 0 := by
  induction h with
  | here => rintro (h | h | h | h) <;> cases h; rfl
  | element _ ih => rintro (h | h | h | h) <;> cases h; exact ih (.inr (.inl rfl))
  | choice hp h ih =>
    rintro (hc | hc | hc | hc) <;> cases hc
    simp only [List.mem_cons, List.not_mem_nil, or_false] at hp
    rcases hp with rfl | rfl | rfl
    · exact ih (.inl rfl)
    · cases h with | attr h => cases h
    · cases h
  | zeroOrMore _ ih => rintro (h | h | h | h) <;> cases h; exact ih (.inr (.inr (.inr rfl)))
  | ref hn _ ih => rintro (h | h | h | h) <;> cases h; cases hn; exact ih (.inr (.inr (.inl rfl)))
  | _ => rintro (h | h | h | h) <;> cases h

theorem onlyText : OnlyText (env : Env D V) (.ref 0) := by
  refine .ref rfl (.zeroOrMore (.choice fun p hp => ?_))
  simp only [List.mem_cons, List.not_mem_nil, or_false] at hp
  rcases hp with rfl | rfl | rfl
  · exact .element
  · exact .attr
  · exact .text

variable {L : Lib D V} [DecidableEq D] [DecidableEq V] {fuel n : Nat} {s0 s' : VState D V} {d : XDoc} {r : Except VErr Unit} {node : Node}

/-- C103.  With the schema that allows everything, every document whose names and references can be resolved is accepted. -/
theorem C103_open_schema_accepts_everything (hg : d.Proper) (hd : d.Seen node) (hnew : newValidator env fuel start = .ok s0)
    (hrun : runToks L n d.toks s0 = .ok (r, s')) : r = .ok () := by
  obtain ⟨hs, h0⟩ := Check.schema_sound (L := L) (env := env) (k := 2) (start := start) (by rfl)
  refine C83_documents_matching_as_read_accepted hs h0 hg (fun nm nc q _ he _ => ?_) hd hnew hrun ?_
  · rw [contents he (.inl rfl)]; exact onlyText
  · obtain ⟨rs, hk⟩ := Look.seen_pieces hd
    obtain ⟨nm, as, k, rfl⟩ := Look.root_elem hk
    obtain ⟨b, kids, hm, _, _⟩ := Look.root_join hk
    obtain rfl := C83_read_in_one_way hd hm
    exact .element (nc := .anyName) trivial (weak_id _) (anything_match C103_case _ _)

/-- there is such a validator, and it accepts the document of Props/Example -/
theorem C103_case_accepted : (match newValidator (env : Env Unit Str) 10 start with
    | .ok s => (match runToks Ex.lib 50 Ex.doc.toks s with | .ok (.ok (), _) => true | _ => false) | _ => false) = true := by
  decide +kernel
end WildEx
end Verif
