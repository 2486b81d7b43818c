import Verif.Spec.CompactErrors
import Verif.Proof.CompactViable5
import Verif.Props.Compact
import Verif.Props.ToolSpans
/-
C72: where the parser of the compact syntax gives up.
-/
namespace Verif.ECompact
open Verif Rnc At

/-- **C72**: with the places of errors the parser does what it does without. -/
theorem C72_same_outcome (t : Str) : (readCompact t).plain = Verif.readCompact t := plain_parseCompact _ t

theorem parse_gaveUp {n k : Nat} {t : Str} (h : parseCompact n t = .error k) : ∃ l, (compactSchema n t).GaveUp l ∧ k = byteLen t - byteLen l := by
  unfold parseCompact at h
  cases e : compactSchema n t with
  | err l => rw [e] at h; cases h; exact ⟨l, .err, rfl⟩
  | fail l => rw [e] at h; cases h; exact ⟨l, .fail, rfl⟩
  | _ => rw [e] at h; cases h

/-- **C72**: the place of a syntax error is between two characters, and the text before it is the beginning of a schema; but the whole
text is none. -/
theorem C72_right_up_to_the_error {t : Str} {k : Nat} (h : readCompact t = .error k) : RightUpTo t k ∧ ∀ s, ¬ Schema True s t := by
  constructor
  · obtain ⟨l, hl, rfl⟩ := parse_gaveUp h
    obtain ⟨u, v, s, rfl, hs⟩ := compactSchema_gives hl
    exact ⟨u, l, rfl, by rw [LCompact.byteLen_append]; omega, v, s, hs⟩
  · intro s hs
    have h1 := C58_every_spelling_is_read hs
    rw [← C72_same_outcome, h] at h1
    cases h1

theorem _root_.Verif.Rnc.BeginsSchema.prefix {u u' : Str} (h : BeginsSchema u) (hp : u' <+: u) : BeginsSchema u' := by
  obtain ⟨x, rfl⟩ := hp
  obtain ⟨v, s, h⟩ := h
  exact ⟨x ++ v, s, by rw [← List.append_assoc]; exact h⟩

/-- **C72**: the fault is not before the place of the error: if no schema begins with the text up to some point, that point is after the
place. -/
theorem C72_fault_is_not_before {t u rest : Str} {k : Nat} (h : readCompact t = .error k) (e : t = u ++ rest) (hu : ¬ BeginsSchema u) :
    k < byteLen u := by
  obtain ⟨⟨u', rest', e', rfl, hb⟩, _⟩ := C72_right_up_to_the_error h
  apply Classical.byContradiction
  intro hk
  have : u <+: u' ∨ u' <+: u := List.prefix_or_prefix_of_prefix (l₃ := t) ⟨rest, e.symm⟩ ⟨rest', e'.symm⟩
  rcases this with hp | ⟨x, rfl⟩
  · exact hu (Rnc.BeginsSchema.prefix hb hp)
  · rw [LCompact.byteLen_append] at hk
    cases x with
    | nil => exact hu (by simpa using hb)
    | cons c cs =>
      have : 0 < byteLen (c :: cs) := by
        have := Char.utf8Size_pos c
        simp only [byteLen, List.map_cons, List.sum_cons]
        omega
      omega

/-- **C72**: a file on which the parser neither gives up nor panics is read, and the other way round. -/
theorem C72_gives_up_iff {t : Str} : (∃ k, readCompact t = .error k) ↔ Verif.readCompact t = .error := by
  rw [← C72_same_outcome]
  cases readCompact t with
  | error k => exact ⟨fun _ => rfl, fun _ => ⟨k, rfl⟩⟩
  | _ => exact ⟨fun ⟨_, h⟩ => (by cases h), fun h => (by cases h)⟩

/-- where the parser gives up on a file -/
def syntaxAt (text : Str → Option Str) (f : Str) : Nat :=
  match text f with
  | some t => givesUpAt t
  | none => 0

theorem givesUpAt_cut (t : Str) : ∃ u w, t = u ++ w ∧ givesUpAt t = byteLen u ∧ ((∃ k, readCompact t = .error k) → BeginsSchema u) := by
  unfold givesUpAt
  cases h : readCompact t with
  | error k =>
    obtain ⟨⟨u, w, e, hk, hb⟩, _⟩ := C72_right_up_to_the_error h
    exact ⟨u, w, e, hk.symm, fun _ => hb⟩
  | _ => exact ⟨[], t, rfl, rfl, fun ⟨k, hk⟩ => by cases hk⟩

/-- **C72**: what C70 assumes of the parser is true. -/
theorem C72_gives_up_inside (text : Str → Option Str) : GivesUpInside text (syntaxAt text) := by
  intro f t ht
  obtain ⟨u, w, e, hk, _⟩ := givesUpAt_cut t
  refine ⟨w, u, [], by simp [e], ?_, ?_⟩
  · simp only [syntaxAt, ht, hk]
  · rw [e, LCompact.byteLen_append]

section
variable {text : Str → Option Str} {join : Str → Str → Option Str} {name : Str} {x : Ext} {n m : Nat}

/-- **C72**, C70: the diagnostic of a syntax error, in whatever file it is: its first label begins where the file stops being the beginning of a
schema, or before that, and goes on to the end of the file. -/
theorem C72_syntax_diagnostic {l : List (Str × LSchema)} (hl : LFaithful (LCompact.compactFiles text join) l) {e : LErr} {f : Str} {d : SDiag}
    (h : At.compileFile (LCompact.compactFiles text join) x n m name (.fresh l) = .error (.err e)) (he : e.innermost = .load f .parse)
    (hd : diagnostic (LCompact.compactFiles text join) (syntaxAt text) e = some d) :
    d.message = "Parse error" ∧ ∃ s ls, d.labels = ⟨s, .primary, none⟩ :: ls ∧ s.file = f ∧ FaultInside text s := by
  obtain ⟨g, hb⟩ := (C68_errors_point_at_the_fault hl h).innermost
  rw [he] at hb
  have hload : (LCompact.compactFiles text join).load f = .error .parse := by cases hb; assumption
  obtain ⟨d', h1, h2, _, ls, h3, _⟩ := C70_include_labels hd
  rw [he] at h1
  cases h1
  refine ⟨h2, _, ls, h3, rfl, ?_⟩
  simp only [LCompact.compactFiles] at hload
  cases ht : text f with
  | none => rw [ht] at hload; cases hload
  | some t =>
    rw [ht] at hload
    dsimp only at hload
    have hr : ∃ k, readCompact t = .error k := by
      rw [C72_gives_up_iff, ← At.C69_same_tree]
      have hf := C58_parser_terminates t
      rw [← At.C69_same_tree] at hf
      cases e : LCompact.readCompact t with
      | fuel => rw [e] at hf; exact absurd rfl hf
      | error => rfl
      | _ => rw [e] at hload; cases hload
    obtain ⟨u, w, e, hk, hb⟩ := givesUpAt_cut t
    refine ⟨t, u, w, ht, e, ?_, ?_, hb hr⟩
    · simp only [syntaxAt, ht, hk]
    · simp only [LCompact.compactFiles, ht]

variable {dump : SDiag → Bool} {order : List (Pat Datatypes DatatypeValues) → List (Pat Datatypes DatatypeValues)}
  {emits : Str → List Loc.Diag → Bool} {fuel : Nat} {xmls : List Tool.XmlFile}

/-- **C72**, C45, C70: the tool with positions, diagnostics and the places of syntax errors ends exactly as without.  Nothing is assumed of the parser
any more. -/
theorem C72_tool_exact (hx : NoExternalGrammar (LCompact.compactFiles text join) name) (hp : ParentsAtHome (LCompact.compactFiles text join) name)
    (hd : PrintsSchema text dump) :
    runTool (LCompact.compactFiles text join) x (syntaxAt text) dump order emits fuel n name xmls =
      Tool.run (Verif.compactFiles text join) x order emits fuel n name xmls :=
  C70_tool_exact hx hp (C72_gives_up_inside text) hd

end
end Verif.ECompact
