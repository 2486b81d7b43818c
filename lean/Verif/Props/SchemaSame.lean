import Verif.Proof.SchemaSame
import Verif.Props.SchemaFindings
/-
C40: `default namespace` has no effect.  C56: what has been compiled before has no effect.
-/
namespace Verif
variable {F F' : Files} {x : Ext} {n m : Nat} {name : Str} {l l' : List (Str × SSchema)}

/-- a file without its `default namespace = "…"` declarations -/
def SSchema.withoutDefaultNs (s : SSchema) : SSchema :=
  { s with decls := s.decls.filter fun d => match d with | .defaultNamespace none (some _) => false | _ => true }

/-- the files without their `default namespace = "…"` declarations -/
def Files.withoutDefaultNs (F : Files) : Files where
  load f := match F.load f with
    | .ok s => .ok s.withoutDefaultNs
    | .error e => .error e
  join := F.join

/-- the outcome of a compilation as far as the caller can see it: the compiled rules and the start rule, or the error -/
def seen {α : Type} : Except CFault (α × CState) → Except CFault (α × List (Option DefineRule))
  | .ok (a, st) => .ok (a, st.cells)
  | .error e => .error e

theorem SameOut.seen {α : Type} {r r' : Except CFault (α × CState)} (h : SameOut F F' Eq r r') : Verif.seen r' = Verif.seen r := by
  cases r with
  | ok a =>
    obtain ⟨a, st⟩ := a
    cases r' with
    | ok b =>
      obtain ⟨b, st'⟩ := b
      obtain ⟨rfl, hs⟩ := h
      simp only [Verif.seen, hs.cells]
    | error e => exact h.elim
  | error e =>
    cases r' with
    | ok b => exact h.elim
    | error e' => cases (show e' = e from h); rfl

/-- **C40**: removing every `default namespace = "…"` declaration from every file of a schema changes nothing: the
compiled schema, or the error, is the same.  (It should: the declaration is what puts unprefixed element names into a
namespace.) -/
theorem C40_default_namespace_ignored (hl : Faithful F l) (hl' : Faithful F.withoutDefaultNs l') :
    seen (compileFile F.withoutDefaultNs x n m name (.fresh l')) = seen (compileFile F x n m name (.fresh l)) := by
  refine (same_compileFile (x := x) ?_ n m name (.fresh l) (.fresh l') ⟨rfl, rfl, rfl, hl, hl'⟩).seen
  refine ⟨rfl, fun f => ?_⟩
  simp only [Files.withoutDefaultNs]
  cases F.load f with
  | error e => exact rfl
  | ok s =>
    refine ⟨rfl, ?_⟩
    simp only [SSchema.withoutDefaultNs]
    generalize s.decls = ds
    induction ds with
    | nil => exact fun _ => rfl
    | cons d ds ih =>
      intro c
      match d with
      | .defaultNamespace none (some u) =>
        rw [List.filter_cons_of_neg (by simp), ih]
        rfl
      | .defaultNamespace none none | .defaultNamespace (some _) _ | .namespace _ _ | .datatypes _ _ =>
        rw [List.filter_cons_of_pos (by simp)]
        simp only [compileDeclarations]
        cases compileDeclaration c _ with
        | ok c' => exact ih c'
        | error e => rfl

/-- **C56**: files loaded earlier by the same compiler (and unchanged since) have no influence on the result. -/
theorem C56_cache_has_no_effect (hl : Faithful F l) :
    seen (compileFile F x n m name (.fresh l)) = seen (compileFile F x n m name (.fresh [])) :=
  (same_compileFile (x := x) (.refl F) n m name (.fresh []) (.fresh l) ⟨rfl, rfl, rfl, nofun, hl⟩).seen

/-- **C56**, in general: two sets of files with the same contents give the same result. -/
theorem C56_only_contents_matter (hj : F'.join = F.join) (hl : ∀ f, F'.load f = F.load f) (h : Faithful F l) (h' : Faithful F' l') :
    seen (compileFile F' x n m name (.fresh l')) = seen (compileFile F x n m name (.fresh l)) :=
  (same_compileFile (x := x) ⟨hj, fun f => by
    rw [hl f]
    cases F.load f with
    | ok s => exact ⟨rfl, fun _ => rfl⟩
    | error e => exact rfl⟩ n m name (.fresh l) (.fresh l') ⟨rfl, rfl, rfl, h, h'⟩).seen

/-- a warm cache: the file it holds is not loaded again -/
theorem Ex.C56_case : Faithful (Ex.dir Ex.loopFiles) [(Ex.str "inc", ⟨[], .grammar [.div [.include (Ex.str "main") none []]]⟩)] := by
  intro f s h
  simp only [List.lookup] at h
  split at h
  · cases h; rename_i he; rw [beq_iff_eq.mp he]; rfl
  · cases h

end Verif
