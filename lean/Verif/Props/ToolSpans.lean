import Verif.Props.SchemaDiag
/-
C70, C45: the command line tool with the positions and diagnostics of schemas.
-/
namespace Verif.At
open Verif

section
variable {F : LFiles} {x : Ext} {sa : Str → Nat} {dump : SDiag → Bool}
  {order : List (Pat Datatypes DatatypeValues) → List (Pat Datatypes DatatypeValues)} {emits : Str → List Loc.Diag → Bool} {fuel n : Nat} {name : Str}
  {xmls : List Tool.XmlFile}

theorem diagnosable_of_some {e : LErr} {d : SDiag} (h : diagnostic F sa e = some d) :
    Tool.panicked e.plain = false ∧ Tool.diagnosable e.plain = true := by
  induction e generalizing d with
  | inInclude s e ih =>
    rw [diagnostic_inInclude] at h
    obtain ⟨d', h, _⟩ := Option.map_eq_some_iff.1 h
    exact ih h
  | load f k => cases k <;> cases h <;> exact ⟨rfl, rfl⟩
  | datatypePrefixAlreadyDefined p => cases h
  | datatype s k =>
    cases s with
    | none => cases h
    | some s =>
      cases k with
      | unsupportedLibrary => exact ⟨rfl, rfl⟩
      | relax k => cases k <;> exact ⟨rfl, rfl⟩
      | xsd k =>
        cases k with
        | facet k => cases k <;> cases h <;> exact ⟨rfl, rfl⟩
        | _ => exact ⟨rfl, rfl⟩
  | _ => exact ⟨rfl, rfl⟩

theorem speechless_plain {e : LErr} (h : Speechless e.innermost) : Tool.panicked e.plain = true ∨ Tool.diagnosable e.plain = false := by
  induction e with
  | inInclude s e ih => exact ih h
  | _ => cases h <;> first | exact .inl rfl | exact .inr rfl

/-- **C45**, C70: with positions and diagnostics the tool ends as without (C45 to C47 say how), or it panics. -/
theorem C70_tool_agrees : runTool F x sa dump order emits fuel n name xmls = Tool.run F.plain x order emits fuel n name xmls ∨
    runTool F x sa dump order emits fuel n name xmls = .panic := by
  have h := C67_positions_change_nothing (F := F) (x := x) (n := fuel) (m := fuel) (name := name) (l := []) nofun
  have e0 : Verif.compileFile F.plain x fuel fuel name (.fresh (plainLoaded [])) = Verif.compileFile F.plain x fuel fuel name CState.init := rfl
  rw [e0] at h
  unfold runTool Tool.run
  cases hc : compileFile F x fuel fuel name (.fresh []) with
  | ok r =>
    obtain ⟨k, st⟩ := r
    rw [hc] at h
    dsimp only at h ⊢
    rw [h]
    exact .inl rfl
  | error e =>
    rw [hc] at h
    cases e with
    | fuel => dsimp only at h ⊢; rw [h]; exact .inl rfl
    | panic p => exact .inr rfl
    | subspan b => exact .inr rfl
    | err e =>
      dsimp only at h ⊢
      cases hd : diagnostic F sa e with
      | none => exact .inr rfl
      | some d =>
        dsimp only
        cases hp : dump d with
        | false => exact .inr rfl
        | true =>
          left
          obtain ⟨h1, h2⟩ := diagnosable_of_some hd
          rcases h with h | ⟨s, id, rfl, h⟩
          · rw [h]; simp [h1, h2]
          · rw [h]; rfl
end

section
variable {text : Str → Option Str} {join : Str → Str → Option Str} {x : Ext} {sa : Str → Nat} {dump : SDiag → Bool}
  {order : List (Pat Datatypes DatatypeValues) → List (Pat Datatypes DatatypeValues)} {emits : Str → List Loc.Diag → Bool} {fuel n : Nat} {name : Str}
  {xmls : List Tool.XmlFile}

/-- **C45**, C70: for schemas that use no grammar by `external`, and `parent` only in the first file, the tool with positions and
diagnostics ends exactly as without. -/
theorem C70_tool_exact (hx : NoExternalGrammar (LCompact.compactFiles text join) name) (hp : ParentsAtHome (LCompact.compactFiles text join) name)
    (hs : GivesUpInside text sa) (hd : PrintsSchema text dump) :
    runTool (LCompact.compactFiles text join) x sa dump order emits fuel n name xmls =
      Tool.run (Verif.compactFiles text join) x order emits fuel n name xmls := by
  have h := C67_positions_change_nothing (F := LCompact.compactFiles text join) (x := x) (n := fuel) (m := fuel) (name := name) (l := []) nofun
  rw [compactFiles_plain] at h
  have e0 : Verif.compileFile (Verif.compactFiles text join) x fuel fuel name (.fresh (plainLoaded [])) =
    Verif.compileFile (Verif.compactFiles text join) x fuel fuel name CState.init := rfl
  rw [e0] at h
  unfold runTool Tool.run
  cases hc : compileFile (LCompact.compactFiles text join) x fuel fuel name (.fresh []) with
  | ok r =>
    obtain ⟨k, st⟩ := r
    rw [hc] at h
    dsimp only at h ⊢
    rw [h]
    rfl
  | error e =>
    rw [hc] at h
    cases e with
    | fuel => dsimp only at h ⊢; rw [h]
    | panic p => dsimp only at h ⊢; rw [h]
    | subspan b => exact (C69_no_position_panics hx hp b hc).elim
    | err e =>
      dsimp only at h ⊢
      cases hd' : diagnostic (LCompact.compactFiles text join) sa e with
      | none =>
        have h1 := (C70_panics_iff (l := []) nofun hc).1 hd'
        rcases h with h | ⟨s, id, rfl, h⟩
        · rw [h]
          rcases speechless_plain h1 with h1 | h1 <;> simp [h1]
        · cases h1
      | some d =>
        obtain ⟨h1, h2⟩ := diagnosable_of_some hd'
        have h3 := hd d ((C70_diagnostics_point_at_the_fault hx hp hc hd').quotes hs)
        rcases h with h | ⟨s, id, rfl, h⟩
        · rw [h]; simp [h1, h2, h3]
        · rw [h]; simp [h3, Tool.panicked, Tool.diagnosable]

/-- an error with positions is one without -/
theorem plain_error {n m : Nat} {e : LErr} (h : compileFile (LCompact.compactFiles text join) x n m name (.fresh []) = .error (.err e))
    (hne : ∀ s id, e ≠ .undefinedReference s id) :
    Verif.compileFile (Verif.compactFiles text join) x n m name CState.init = .error (.err e.plain) := by
  have h2 := C67_positions_change_nothing (F := LCompact.compactFiles text join) (x := x) (n := n) (m := m) (name := name) (l := []) nofun
  rw [h, compactFiles_plain] at h2
  rcases h2 with h2 | ⟨s, id, h2, _⟩
  · exact h2
  · exact (hne s id h2).elim

end
end Verif.At
