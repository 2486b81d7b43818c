import Verif.Proof.Reword
import Verif.Props.Checked
/-
C97: data that the schema does not tell apart can be exchanged.
-/
namespace Verif
open Reword
section
variable {D V : Type} {L : Lib D V} {env : Env D V} {start : Pattern D V} {node node' : Node}

/-- C97.  In a matching document, character data and attribute values may be replaced, anywhere, by others that the schema does not tell
apart from them. -/
theorem C97_rewording_keeps_matching (h : Reworded (Alike L env start) [node] [node']) (hm : Match L env start [] [node]) :
    Match L env start [] [node'] :=
  reworded_match (fun _ _ h => h.2.1) hm (fun l hl _ _ h => h.1 l hl) .nil h

theorem Reword.Alike.symm {s t : Str} (h : Alike L env start s t) : Alike L env start t s := by
  refine ⟨fun l hl => ?_, h.2.symm⟩
  have := h.1 l hl
  cases l <;> first | exact Eq.symm this | exact fun ws => (this ws).symm | trivial

theorem Reword.Values.symm {R : Str → Str → Prop} (hR : ∀ s t, R s t → R t s) {a b : List Attr} (h : Values R a b) : Values R b a := by
  induction h with
  | nil => exact .nil
  | same _ ih => exact .same ih
  | value hr _ ih => exact .value (hR _ _ hr) ih

theorem Reword.Reworded.symm {R : Str → Str → Prop} (hR : ∀ s t, R s t → R t s) {a b : List Node} (h : Reworded R a b) : Reworded R b a := by
  induction h with
  | nil => exact .nil
  | same _ ih => exact .same ih
  | text hr _ ih => exact .text (hR _ _ hr) ih
  | elem ha _ _ ih1 ih2 => exact .elem (ha.symm hR) ih1 ih2

/-- C97.  So whether a document matches does not depend on which of them it has. -/
theorem C97_reworded_match_alike (h : Reworded (Alike L env start) [node] [node']) :
    Match L env start [] [node] ↔ Match L env start [] [node'] :=
  ⟨C97_rewording_keeps_matching h, C97_rewording_keeps_matching (h.symm fun _ _ h => h.symm)⟩

variable [DecidableEq D] [DecidableEq V] {fuel n m : Nat} {s0 s' t' : VState D V} {d d' : XDoc} {r r' : Except VErr Unit}

/-- C97.  The validator accepts one if and only if it accepts the other. -/
theorem C97_same_verdict (hs : SchemaOK L env start true) (h0 : StartOK env start) (hg : d.Proper) (hg' : d'.Proper)
    (hb : d.SeenBreaksOnlyText env start) (hb' : d'.SeenBreaksOnlyText env start) (hd : d.Seen node) (hd' : d'.Seen node')
    (h : Reworded (Alike L env start) [node] [node'])
    (hnew : newValidator env fuel start = .ok s0) (hrun : runToks L n d.toks s0 = .ok (r, s'))
    (hrun' : runToks L m d'.toks s0 = .ok (r', t')) : r = .ok () ↔ r' = .ok () := by
  rw [C83_accepted_iff hs h0 hg hb hnew hrun, C83_accepted_iff hs h0 hg' hb' hnew hrun']
  constructor
  · rintro ⟨x, h1, h2⟩
    obtain rfl := C83_read_in_one_way hd h1
    exact ⟨_, hd', C97_rewording_keeps_matching h h2⟩
  · rintro ⟨x, h1, h2⟩
    obtain rfl := C83_read_in_one_way hd' h1
    exact ⟨_, hd, (C97_reworded_match_alike h).2 h2⟩
end

/-! ### a case -/
namespace RewordEx
open Needed

/-- to `element r { "a" }`, `" a "` is `"a"` -/
theorem C97_case : Alike (stdLib Ex.ext) [] (mel 'r' (token 'a')) ['a'] " a ".toList := by
  refine ⟨fun l hl => ?_, ?_⟩
  · cases hl with
    | element h =>
      cases h
      show (stdLib Ex.ext).validV _ _ = (stdLib Ex.ext).validV _ _
      decide
  · constructor
    · intro h; exact absurd (h 'a' (by decide)) (by decide)
    · intro h; exact absurd (h 'a' (by decide)) (by decide)

/-- so `<r> a </r>` matches as `<r>a</r>` does -/
theorem C97_case_match : Match (stdLib Ex.ext) [] (mel 'r' (token 'a')) [] [.elem ⟨none, ['r']⟩ [] [.text ['a']]] ∧
    Match (stdLib Ex.ext) [] (mel 'r' (token 'a')) [] [.elem ⟨none, ['r']⟩ [] [.text " a ".toList]] := by
  have h : Match (stdLib Ex.ext) [] (mel 'r' (token 'a')) [] [.elem ⟨none, ['r']⟩ [] [.text ['a']]] :=
    .element rfl (.keep .nil) (.value (by decide))
  exact ⟨h, C97_rewording_keeps_matching (.elem .nil (.text C97_case .nil) .nil) h⟩

/-- but to `element r { string "a" }` it is not -/
theorem C97_case_apart : ¬ Alike Ex.lib [] (.element (.named [] ['r']) (.datatypeValue ['a'])) ['a'] " a ".toList := by
  intro h
  have : Ex.lib.validV ['a'] ['a'] = Ex.lib.validV ['a'] " a ".toList := h.1 _ (.element .value)
  exact absurd this (by decide)

end RewordEx
end Verif
