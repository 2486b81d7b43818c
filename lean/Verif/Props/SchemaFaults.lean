import Verif.Proof.SchemaFails
import Verif.Props.SchemaTerm
/-
C54: what a failing compilation says about the schema.
-/
namespace Verif
variable {F : Files} {x : Ext} {n m : Nat} {name : Str} {l : List (Str × SSchema)} {e : CFault}

/-- **C54**: when compiling a schema fails, with an error or a panic, the schema has a fault that the error names:
an undeclared prefix that is really not declared, a name that really has no definition, two definitions that really
clash, …  (`e.core` is the error without "in include" around it; `fuel` is no outcome of the program, see C38.) -/
theorem C54_errors_are_explained (hl : Faithful F l) (h : compileFile F x n m name (.fresh l) = .error e) :
    e = .fuel ∨ SchemaFault F x name e.core := compileFile_fail (good_fresh hl) h

/-- **C54**, read the other way: a schema without a fault compiles, provided compiling it comes to an end; the
condition for that is that of `C38_terminates_unless_endless`. -/
theorem C54_faultless_schema_compiles (hl : Faithful F l) (hne : ¬ Endless F name) (hno : ∀ e, ¬ SchemaFault F x name e) :
    ∃ N k st, ∀ n, N ≤ n → ∀ m, N ≤ m → compileFile F x n m name (.fresh l) = .ok (k, st) := by
  obtain ⟨N, R, hR, h⟩ := C38_terminates_unless_endless (x := x) hl hne
  cases R with
  | ok r => exact ⟨N, r.1, r.2, h⟩
  | error e =>
    rcases C54_errors_are_explained hl (h N (Nat.le_refl _) N (Nat.le_refl _)) with rfl | hf
    · exact absurd rfl hR
    · exact absurd hf (hno _)

/-! ### panics -/

/-- the constructs at which the compiler panics -/
inductive PanicCause (F : Files) (x : Ext) (name : Str) : SPanic → Prop
  /-- `include` in a file whose name has no directory -/
  | includeNoParent {w is path i os} : Occurs F name (.items w is) → .include path i os ∈ is →
      F.join w.env.file path = none → PanicCause F x name .noParentDir
  /-- `external` in such a file -/
  | externalNoParent {w path} : Occurs F name (.pat w (.external path none)) → F.join w.env.file path = none →
      PanicCause F x name .noParentDir
  /-- `namespace p = inherit` or `default namespace = inherit` in the file itself … -/
  | inheritTop {s p} : F.load name = .ok s → (.namespace p none ∈ s.decls ∨ ∃ q, .defaultNamespace q none ∈ s.decls) →
      PanicCause F x name .inheritNamespace
  /-- … or in an included file -/
  | inheritIncluded {w is path i os f s p} : Occurs F name (.items w is) → .include path i os ∈ is →
      F.join w.env.file path = some f → F.load f = .ok s →
      (.namespace p none ∈ s.decls ∨ ∃ q, .defaultNamespace q none ∈ s.decls) → PanicCause F x name .inheritNamespace
  /-- `div` among the overrides of an `include` -/
  | overrideDiv {w is path i os} : Occurs F name (.items w is) → .include path i os ∈ is → .div ∈ os →
      PanicCause F x name .includeDiv
  /-- a name overridden twice -/
  | overrideTwice {w is path i os} : Occurs F name (.items w is) → .include path i os ∈ is →
      ¬ (overrideNames os).Nodup → PanicCause F x name .redefinedOverride
  /-- `external` with `inherit` -/
  | externalInherit {w path i} : Occurs F name (.pat w (.external path (some i))) → PanicCause F x name .externalInherit
  /-- a value whose datatype library panics (C52) … -/
  | value {w ty lit n} : Occurs F name (.pat w (.value ty lit)) → w.env.dt (ty.getD .token) = some n →
      datatypeValueOf n lit = .panic → PanicCause F x name .datatype
  /-- … or a type with parameters for which it does -/
  | data {w ty ps n} : (Occurs F name (.pat w (.data ty ps)) ∨ ∃ ex, Occurs F name (.pat w (.dataExcept ty ps ex))) →
      w.env.dt ty = some n → datatypeNameOf x n ps = .panic → PanicCause F x name .datatype

theorem CFault.core_panic {p : SPanic} (h : CFault.core e = .panic p) : e = .panic p := by
  cases e with
  | err _ => cases h
  | panic _ => exact h
  | fuel => cases h

theorem Clash.not_panic {ds : List Defn} {p : SPanic} : ¬ Clash ds (.panic p) := nofun

theorem DeclFault.panic {ds : List SDecl} {p : SPanic} (h : DeclFault ds (.panic p)) :
    p = .inheritNamespace ∧ ((∃ q, SDecl.namespace q none ∈ ds) ∨ ∃ q, .defaultNamespace q none ∈ ds) := by
  cases h with
  | inheritPrefix h => exact ⟨rfl, .inl ⟨_, h⟩⟩
  | inheritDefault h => exact ⟨rfl, .inr ⟨_, h⟩⟩

theorem SchemaFault.panic {p : SPanic} (h : SchemaFault F x name (.panic p)) : PanicCause F x name p := by
  cases h with
  | decls hs hd =>
    obtain ⟨rfl, hd'⟩ := hd.panic
    rcases hd' with ⟨q, hq⟩ | hd'
    · exact .inheritTop hs (.inl hq)
    · exact .inheritTop (p := []) hs (.inr hd')
  | clash _ _ _ h => exact absurd h Clash.not_panic
  | place ho hf =>
    rename_i pl
    cases pl with
    | pat w q =>
      cases hf with
      | externalInherit => exact .externalInherit ho
      | externalPath h => exact .externalNoParent ho h
      | clash _ _ h => exact absurd h Clash.not_panic
      | valuePanic a b => exact .value ho a b
      | dataPanic a b => exact .data (.inl ho) a b
      | exceptPanic a b => exact .data (.inr ⟨_, ho⟩) a b
    | items w is =>
      obtain ⟨i, hi, hf⟩ := hf
      cases hf with
      | path h => exact .includeNoParent ho hi h
      | decls hj hs hd =>
        obtain ⟨rfl, hd'⟩ := hd.panic
        rcases hd' with ⟨q, hq⟩ | hd'
        · exact .inheritIncluded ho hi hj hs (.inl hq)
        · exact .inheritIncluded (p := []) ho hi hj hs (.inr hd')
      | overrideDiv h => exact .overrideDiv ho hi h
      | overrideTwice h => exact .overrideTwice ho hi h

/-- **C54**: the compiler panics only at the constructs of `PanicCause`. -/
theorem C54_panics (hl : Faithful F l) {p : SPanic} (h : compileFile F x n m name (.fresh l) = .error (.panic p)) :
    PanicCause F x name p := by
  rcases C54_errors_are_explained hl h with h | h
  · cases h
  · exact h.panic

/-- **C54**: the compiler's internal checks (`unreachable!`, and the panics of `append_choice` and
`append_interleave` on a rule of the wrong kind) never fire, whatever the schema. -/
theorem C54_internal_panics_unreachable (hl : Faithful F l) :
    compileFile F x n m name (.fresh l) ≠ .error (.panic .unreachable) ∧
    compileFile F x n m name (.fresh l) ≠ .error (.panic .notCombinable) := by
  constructor <;> (intro h; have := C54_panics hl h; cases this)

/-! ### some errors, in full -/

/-- **C54**: "undefined namespace prefix" names a prefix that occurs in a name class, or after `inherit =` of an
`include`, and is not known there. -/
theorem C54_undefined_prefix (hl : Faithful F l) {pre : Str}
    (h : compileFile F x n m name (.fresh l) = .error e) (he : e.core = .err (.undefinedNamespacePrefix pre)) :
    (∃ w nc p, (Occurs F name (.pat w (.element nc p)) ∨ Occurs F name (.pat w (.attribute nc p))) ∧ pre ∈ nc.prefixes ∧
      w.known.lookup pre = none) ∨
    (∃ w is path os, Occurs F name (.items w is) ∧ .include path (some pre) os ∈ is ∧ w.known.lookup pre = none) := by
  rcases C54_errors_are_explained hl h with rfl | hf
  · cases he
  rw [he] at hf
  cases hf with
  | decls _ hd => cases hd
  | clash _ _ _ h => cases h
  | place ho hf =>
    rename_i pl
    cases pl with
    | pat w q =>
      cases hf with
      | elementName a b => exact .inl ⟨w, _, _, .inl ho, a, b⟩
      | attributeName a b => exact .inl ⟨w, _, _, .inr ho, a, b⟩
      | clash _ _ h => cases h
    | items w is =>
      obtain ⟨i, hi, hf⟩ := hf
      cases hf with
      | inheritPrefix h => exact .inr ⟨w, is, _, _, ho, hi, h⟩
      | decls _ _ hd => cases hd

/-- **C54**: "recursive reference" names a definition that refers to itself outside of an element. -/
theorem C54_recursive_reference (hl : Faithful F l) {id : Str}
    (h : compileFile F x n m name (.fresh l) = .error e) (he : e.core = .err (.recursiveReference id)) :
    ∃ w, (Occurs F name (.pat w (.ident id)) ∧ w.self = some id) ∨ (Occurs F name (.pat w (.parent id)) ∧ w.outer = some (some id)) := by
  rcases C54_errors_are_explained hl h with rfl | hf
  · cases he
  rw [he] at hf
  cases hf with
  | decls _ hd => cases hd
  | clash _ _ _ h => cases h
  | place ho hf =>
    rename_i pl
    cases pl with
    | pat w q =>
      cases hf with
      | selfReference a => exact ⟨w, .inl ⟨ho, a⟩⟩
      | parentSelfReference a => exact ⟨w, .inr ⟨ho, a⟩⟩
      | clash _ _ h => cases h
    | items w is =>
      obtain ⟨i, hi, hf⟩ := hf
      cases hf with
      | decls _ _ hd => cases hd

/-- **C54**: "recursive include" names a file that is already being included (or, for `external`, used). -/
theorem C54_recursive_include (hl : Faithful F l) {f : Str}
    (h : compileFile F x n m name (.fresh l) = .error e) (he : e.core = .err (.recursiveInclude f)) :
    (∃ w is path i os, Occurs F name (.items w is) ∧ .include path i os ∈ is ∧ F.join w.env.file path = some f ∧ f ∈ w.files) ∨
    (∃ w path, Occurs F name (.pat w (.external path none)) ∧ F.join w.env.file path = some f ∧ f ∈ w.files) := by
  rcases C54_errors_are_explained hl h with rfl | hf
  · cases he
  rw [he] at hf
  cases hf with
  | decls _ hd => cases hd
  | clash _ _ _ h => cases h
  | place ho hf =>
    rename_i pl
    cases pl with
    | pat w q =>
      cases hf with
      | externalLoop a b => exact .inr ⟨w, _, ho, a, b⟩
      | clash _ _ h => cases h
    | items w is =>
      obtain ⟨i, hi, hf⟩ := hf
      cases hf with
      | loop a b => exact .inl ⟨w, is, _, _, _, ho, hi, a, b⟩
      | decls _ _ hd => cases hd

namespace Ex

/-- one schema for each: an undeclared prefix inside an included file, a clash across two files, a panic -/
theorem C54_cases :
    outcome [(str "main", ⟨[], .grammar [.include (str "inc") none []]⟩),
      (str "inc", ⟨[], .grammar [def' "start" (.element (.cname (str "p") (str "r")) .empty)]⟩)] =
      .error (.err (.inInclude (.undefinedNamespacePrefix (str "p")))) ∧
    outcome [(str "main", ⟨[], .grammar [.include (str "inc") none [], def' "start" (el "r" .empty)]⟩),
      (str "inc", ⟨[], .grammar [def' "start" (el "r" .text)]⟩)] = .error (.err (.duplicateDefinition (str "start"))) ∧
    outcome [(str "main", ⟨[], .grammar [.include (str "inc") none [.define (str "a") .assign .text, .define (str "a") .assign .text]]⟩),
      (str "inc", ⟨[], .grammar [def' "a" (el "r" .text)]⟩)] = .error (.panic .redefinedOverride) := ⟨rfl, rfl, rfl⟩

end Ex
end Verif
