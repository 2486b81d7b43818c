import Verif.Model.Schema
/-
Specification: defining one name several times in one grammar.
-/
namespace Verif

/-- at most one `=`, and not both `|=` and `&=` -/
def Compatible (bs : List (AssignMethod × MPattern)) : Prop :=
  (bs.countP fun b => b.1 = .assign) ≤ 1 ∧
    ¬ ((∃ b ∈ bs, b.1 = .choice) ∧ ∃ b ∈ bs, b.1 = .interleave)

/-- the two ways a further definition can be refused -/
def MergeRefusal (id : Str) (e : CFault) : Prop :=
  e = .err (.duplicateDefinition id) ∨ e = .err .mixesChoiceAndInterleave

/-- Define `id` in a grammar several times, one definition after the other. -/
def defineAll (scope : Nat) (id : Str) : List (AssignMethod × MPattern) → CM Unit
  | [] => pure ()
  | b :: bs => do
    defineIn scope id (ruleOf b.1 b.2)
    defineAll scope id bs

/-- the rule `id` has in a grammar, if any -/
def CState.ruleFor (st : CState) (scope : Nat) (id : Str) : Option DefineRule :=
  ((st.refs scope).lookup id).bind st.cell

/-- the state is consistent: names lead to existing cells -/
def CState.Names (st : CState) (scope : Nat) : Prop :=
  scope < st.scopes.length ∧ ∀ x k, (st.refs scope).lookup x = some k → k < st.cells.length

end Verif
