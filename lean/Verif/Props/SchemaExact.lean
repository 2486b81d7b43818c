import Verif.Proof.SchemaRejects
import Verif.Props.SchemaFaults
import Verif.Props.SchemaFindings
/-
C57: a schema compiles exactly if it has no fault (`SchemaFault` of Spec/Faults).
-/
namespace Verif
variable {F : Files} {x : Ext} {n m : Nat} {name : Str} {l : List (Str × SSchema)} {e : CFault}

/-- **C57**: a schema that compiles has no fault.  Whatever is on the list of `SchemaFault`, anywhere in the schema or
in the files it uses, prevents the schema from being accepted. -/
theorem C57_compiled_schemas_are_faultless (hl : Faithful F l) {k : Nat} {st : CState}
    (h : compileFile F x n m name (.fresh l) = .ok (k, st)) : ∀ e, ¬ SchemaFault F x name e :=
  compileFile_faultless (good_fresh hl) h

/-- **C57**: compiling comes to an end with a success exactly if the schema has no fault and is not endless (see
`C38_finite_schemas_are_not_endless`). -/
theorem C57_compiles_iff_faultless (hl : Faithful F l) :
    (∃ n m k st, compileFile F x n m name (.fresh l) = .ok (k, st)) ↔ (∀ e, ¬ SchemaFault F x name e) ∧ ¬ Endless F name := by
  constructor
  · rintro ⟨n, m, k, st, h⟩
    exact ⟨C57_compiled_schemas_are_faultless hl h, fun he => C38_endless_schemas_never_compile hl he h⟩
  · rintro ⟨hno, hne⟩
    obtain ⟨N, k, st, h⟩ := C54_faultless_schema_compiles hl hne hno
    exact ⟨N, N, k, st, h N (Nat.le_refl _) N (Nat.le_refl _)⟩

/-- **C57**, **C38**: compiling an endless schema never comes to an end (in the code: the stack overflows), unless the compiler meets a fault of
the schema on its way. -/
theorem C57_endless_schemas_diverge (hl : Faithful F l) (he : Endless F name) :
    compileFile F x n m name (.fresh l) = .error .fuel ∨
      ∃ e, compileFile F x n m name (.fresh l) = .error e ∧ SchemaFault F x name e.core := by
  cases h : compileFile F x n m name (.fresh l) with
  | ok r => exact absurd h (C38_endless_schemas_never_compile hl he)
  | error e =>
    rcases C54_errors_are_explained hl h with rfl | hs
    · exact .inl rfl
    · exact .inr ⟨e, rfl, hs⟩

/-- **C57**, the three outcomes, without conditions: when compiling a schema ends, it ends with a success if the schema
has no fault, and otherwise with an error or a panic that stands for one of its faults. -/
theorem C57_outcome_is_the_fault (hl : Faithful F l) (hf : compileFile F x n m name (.fresh l) ≠ .error .fuel) :
    ((∃ k st, compileFile F x n m name (.fresh l) = .ok (k, st)) ∧ ∀ e, ¬ SchemaFault F x name e) ∨
    (∃ e, compileFile F x n m name (.fresh l) = .error e ∧ SchemaFault F x name e.core) := by
  cases h : compileFile F x n m name (.fresh l) with
  | ok r => exact .inl ⟨⟨r.1, r.2, rfl⟩, C57_compiled_schemas_are_faultless hl h⟩
  | error e =>
    rcases C54_errors_are_explained hl h with rfl | hs
    · exact absurd h hf
    · exact .inr ⟨e, rfl, hs⟩

/-- **C57**: a schema with a single kind of fault is refused with exactly that error. -/
theorem C57_only_fault_is_reported (hl : Faithful F l) (hf : compileFile F x n m name (.fresh l) ≠ .error .fuel)
    (hs : SchemaFault F x name e) (honly : ∀ e', SchemaFault F x name e' → e' = e) :
    ∃ e', compileFile F x n m name (.fresh l) = .error e' ∧ e'.core = e := by
  rcases C57_outcome_is_the_fault hl hf with ⟨_, h⟩ | ⟨e', h, h'⟩
  · exact absurd hs (h e)
  · exact ⟨e', h, honly _ h'⟩

namespace Ex

/-- a schema with an include, an override, combined definitions, a nested grammar and a reference to its parent -/
def goodFiles : List (Str × SSchema) :=
  [(str "main", ⟨[.namespace (str "p") (some (str "urn:p"))], .grammar [
      .include (str "inc") none [.define (str "b") .assign .text],
      def' "start" (.element (.cname (str "p") (str "r")) (.seq (.ident (str "a")) (.grammar [
        def' "start" (el "q" (.parent (str "b")))])))]⟩),
   (str "inc", ⟨[], .grammar [.define (str "a") .choice (el "x" (.ident (str "b"))), .define (str "a") .choice (.ident (str "b")),
      def' "b" .empty]⟩)]

/-- whether `main` compiles -/
def compiles (fs : List (Str × SSchema)) : Bool :=
  match outcome fs with
  | .ok _ => true
  | .error _ => false

theorem compiles_faultless (fs : List (Str × SSchema)) (h : compiles fs = true) : ∀ e, ¬ SchemaFault (dir fs) ext (str "main") e := by
  unfold compiles outcome at h
  cases hc : compileFile (dir fs) ext 30 30 (str "main") (.fresh []) with
  | ok r => exact C57_compiled_schemas_are_faultless faithful_nil hc
  | error e => rw [hc] at h; cases h

theorem compiles_not_endless (fs : List (Str × SSchema)) (h : compiles fs = true) : ¬ Endless (dir fs) (str "main") := by
  intro he
  unfold compiles outcome at h
  cases hc : compileFile (dir fs) ext 30 30 (str "main") (.fresh []) with
  | ok r => exact C38_endless_schemas_never_compile faithful_nil he hc
  | error e => rw [hc] at h; cases h

/-- a schema that uses a grammar by `external` need not be endless -/
theorem C38_case_external : ¬ Endless (dir [(str "main", ⟨[], .grammar [def' "start" (el "r" (.external (str "g") none))]⟩),
    (str "g", ⟨[], .grammar [def' "start" (el "s" .empty)]⟩)]) (str "main") :=
  compiles_not_endless _ (by decide +kernel)

/-- both parts of `C57_compiles_iff_faultless` hold of the schema `goodFiles` -/
theorem C57_case_not_endless : ¬ Endless (dir goodFiles) (str "main") := compiles_not_endless goodFiles (by decide +kernel)

/-- it compiles, hence has no fault: the hypothesis of `C54_faultless_schema_compiles` can be met -/
theorem C57_case_good : ∀ e, ¬ SchemaFault (dir goodFiles) ext (str "main") e :=
  compiles_faultless goodFiles (by decide +kernel)

/-- a fault that is not on the way: the definition `b` is used nowhere and refers to a name that is not defined.  The
schema is refused all the same. -/
theorem C57_case_unused : ∀ n m k st, compileFile (dir [(str "main", ⟨[], .grammar [def' "start" (el "r" .empty),
      def' "b" (el "x" (.ident (str "c")))]⟩)]) ext n m (str "main") (.fresh []) ≠ .ok (k, st) := by
  intro n m k st h
  refine C57_compiled_schemas_are_faultless faithful_nil h _ (.undefined (id := str "c") (pl := .items (.top (str "main") [])
    [def' "start" (el "r" .empty), def' "b" (el "x" (.ident (str "c")))]) rfl (.grammar rfl (.define (.define .nil))) (.grammar (s := ⟨[], .grammar _⟩) rfl rfl)
    (.same (.define (.tail _ (.head _))) (fun h => h) (.same .element (fun h => h) .ident)) rfl)

end Ex
end Verif
