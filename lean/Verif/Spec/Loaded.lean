import Verif.Spec.Places
/-
Specification of the files that a schema uses (C76).
-/
namespace Verif

/-- an `external` or an `include` at this very place is about the file `f` -/
inductive NamesFile (F : Files) : Place → Str → Prop
  | external {w path inherit f} : F.join w.env.file path = some f → NamesFile F (.pat w (.external path inherit)) f
  | includes {w is path inherit os f} : .include path inherit os ∈ is → F.join w.env.file path = some f → NamesFile F (.items w is) f

/-- the schema in the file `file` uses the file `f` -/
def UsesFile (F : Files) (file f : Str) : Prop := f = file ∨ ∃ pl, Occurs F file pl ∧ NamesFile F pl f

end Verif
