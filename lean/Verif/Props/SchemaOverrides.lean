import Verif.Proof.SchemaEvery
import Verif.Spec.Faults
import Verif.Props.SchemaFindings
/-
C35: include and overrides.
-/
namespace Verif
variable {F : Files} {x : Ext} {n m k : Nat} {name : Str} {st : CState} {l : List (Str × SSchema)}

theorem overrideDefs_names (e : NEnv) : ∀ os, (overrideDefs e os).map (·.name) = overrideNames os
  | [] => rfl
  | .define id how p :: os => by simp only [overrideDefs, overrideNames, List.map_cons, overrideDefs_names e os]
  | .div :: os => overrideDefs_names e os
  | .annotation :: os => overrideDefs_names e os

/-- what `notOverridden` leaves of a name -/
theorem named_notOverridden (os ds : List Defn) (y : Str) :
    named (notOverridden os ds) y = if y ∈ os.map (·.name) then [] else named ds y := by
  simp only [named, notOverridden, List.filter_filter]
  split
  · rename_i h
    obtain ⟨o, ho, rfl⟩ := List.mem_map.mp h
    refine List.filter_eq_nil_iff.mpr fun d _ => ?_
    simp only [Bool.and_eq_true, decide_eq_true_eq, Bool.not_eq_true', not_and]
    intro hd
    simp only [hd, List.any_eq_false, decide_eq_true_eq]
    exact fun h => absurd rfl (h o ho)
  · rename_i h
    refine List.filter_congr fun d _ => ?_
    by_cases hd : d.name = y
    · have : (os.any fun o => decide (o.name = d.name)) = false := by
        rw [List.any_eq_false]
        intro o ho he
        exact h (List.mem_map.mpr ⟨o, ho, by rw [← hd]; simpa using he⟩)
      rw [this]; simp [hd]
    · simp [hd]

theorem named_none {ds : List Defn} {y : Str} (h : y ∉ ds.map (·.name)) : named ds y = [] := by
  refine List.filter_eq_nil_iff.mpr fun d hd => ?_
  simp only [decide_eq_true_eq]
  exact fun e => h (List.mem_map.mpr ⟨d, hd, e⟩)

/-- What an `include` means: the definitions of the included file (expanded at its own place), with exactly those of
overridden names replaced by the overrides. -/
structure Included (F : Files) (e : NEnv) (path : Str) (i : Option Str) (os : List SOverride) (D : List Defn) : Prop where
  out : ∃ f s items ds, F.join e.file path = some f ∧ F.load f = .ok s ∧ s.Grammar items ∧
    Expands F (includeEnv e f i s.decls) items ds ∧
    (∀ y, named D y = if y ∈ overrideNames os then named (overrideDefs e os) y else named ds y) ∧
    ∀ y ∈ overrideNames os, ∃ d ∈ ds, d.name = y

theorem included_of_expands {e : NEnv} {path : Str} {i : Option Str} {os : List SOverride} {rest : List SItem} {D : List Defn}
    (h : Expands F e (.include path i os :: rest) D) :
    ∃ D1 D2, D = D1 ++ D2 ∧ Included F e path i os D1 ∧ Expands F e rest D2 := by
  cases h with
  | «include» a b c d f g =>
    rename_i f' s items ds ds'
    refine ⟨_, ds', rfl, ⟨f', s, items, ds, a, b, c, d, fun y => ?_, fun y hy => ?_⟩, g⟩
    · rw [named_append, named_notOverridden, overrideDefs_names]
      split
      · rw [List.append_nil]
      · rename_i hy
        rw [named_none (by rw [overrideDefs_names]; exact hy), List.nil_append]
    · rw [← overrideDefs_names e] at hy
      obtain ⟨o, ho, rfl⟩ := List.mem_map.mp hy
      exact f o ho

theorem expands_mem {e : NEnv} {i : SItem} : ∀ {is : List SItem} {D : List Defn}, i ∈ is → Expands F e is D →
    ∃ rest D', Expands F e (i :: rest) D'
  | j :: is, D, hi, h => by
    rcases List.mem_cons.mp hi with rfl | hi'
    · exact ⟨is, D, h⟩
    · cases h with
      | define h => exact expands_mem hi' h
      | div _ h => exact expands_mem hi' h
      | «annotation» h => exact expands_mem hi' h
      | «include» _ _ _ _ _ h => exact expands_mem hi' h

/-- **C35**: wherever a schema that compiles has an `include`, it stands for the definitions of the included file with
exactly the overridden ones replaced; every override overrides something. -/
theorem C35_overrides_replace (hl : Faithful F l) (h : compileFile F x n m name (.fresh l) = .ok (k, st))
    {w : Where} {is : List SItem} {path : Str} {i : Option Str} {os : List SOverride} (ho : Occurs F name (.items w is))
    (hi : .include path i os ∈ is) : ∃ D, Expands F w.env [.include path i os] D ∧ Included F w.env path i os D := by
  obtain ⟨ds, he⟩ := (compileFile_passed (good_fresh hl) h _ ho).expands
  obtain ⟨rest, D', he⟩ := expands_mem hi he
  cases he with
  | «include» a b c d f g =>
    have he := Expands.include a b c d f .nil (F := F) (e := w.env)
    obtain ⟨D1, D2, hD, hinc, h2⟩ := included_of_expands he
    cases h2
    refine ⟨_, he, ?_⟩
    rw [hD, List.append_nil]; exact hinc

/-- **C35**: an override of something the included file does not define, anywhere in the schema, keeps it from
compiling. -/
theorem C35_override_must_exist (hl : Faithful F l) {w : Where} {is : List SItem} {path f : Str} {i : Option Str} {os : List SOverride}
    {s : SSchema} {items : List SItem} (ho : Occurs F name (.items w is)) (hi : .include path i os ∈ is)
    (hj : F.join w.env.file path = some f) (hs : F.load f = .ok s) (hg : s.Grammar items) {y : Str} (hy : y ∈ overrideNames os)
    (hno : ∀ ds, Expands F (includeEnv w.env f i s.decls) items ds → ∀ d ∈ ds, d.name ≠ y) :
    compileFile F x n m name (.fresh l) ≠ .ok (k, st) := by
  intro h
  obtain ⟨D, _, f', s', items', ds, a, b, c, d, _, e⟩ := C35_overrides_replace hl h ho hi
  rw [hj] at a; cases a
  rw [hs] at b; cases b
  cases hg.det c
  obtain ⟨d', h1, h2⟩ := e y hy
  exact hno ds d d' h1 h2

/-- **C35**, for documents: a top-level grammar that begins with an `include` accepts what the definitions of the
included file, with the overridden ones replaced, and the definitions that follow describe. -/
theorem C35_documents (hl : Faithful F l) (h : compileFile F x n m name (.fresh l) = .ok (k, st))
    {decls : List SDecl} {path : Str} {i : Option Str} {os : List SOverride} {rest : List SItem}
    (hm : F.load name = .ok ⟨decls, .grammar (.include path i os :: rest)⟩) :
    ∃ r D1 D2, st.cell k = some r ∧ Included F (rootEnv name decls) path i os D1 ∧ Expands F (rootEnv name decls) rest D2 ∧
      ∀ node, Match (stdLib x) st.env r.pattern [] [node] ↔
        SMatch F x [D1 ++ D2] (.pat (rootEnv name decls) (.ident "start".toList)) [] [node] := by
  obtain ⟨r, hr, hiff⟩ := C53_compiled_schema_means_its_source hl h
  obtain ⟨s, hd⟩ := compileFile_spec (good_fresh hl) h
  obtain ⟨_, _, ds, _, _, _, hs, hfd, _⟩ := hd.out
  rw [hm] at hs; cases hs
  have hfd0 := hfd
  cases hfd with
  | pattern hb => cases hb
  | grammar hb he =>
    cases hb
    obtain ⟨D1, D2, rfl, hinc, h2⟩ := included_of_expands he
    refine ⟨r, D1, D2, hr, hinc, h2, fun node => ?_⟩
    rw [hiff]
    constructor
    · rintro ⟨s', ds', hs', hfd', h⟩
      rw [hm] at hs'; cases hs'
      rw [hfd0.det hfd']; exact h
    · exact fun h => ⟨_, _, hm, hfd0, h⟩

namespace Ex

/-- `include "inc" { b = empty }` where `inc` has `start = a  a = …  b = …`: only `b` is replaced -/
theorem C35_case : outcome [(str "main", ⟨[], .grammar [.include (str "inc") none [.define (str "b") .assign (el "new" .empty)]]⟩),
      (str "inc", ⟨[], .grammar [def' "start" (el "r" (.seq (.ident (str "a")) (.ident (str "b")))), def' "a" (el "old" .empty),
        .div [def' "b" (el "old" .text)]]⟩)] =
    .ok [some (.assignCombine none (.element (.named [] (str "new")) .empty)), some (.assignCombine none (.element (.named [] (str "old")) .empty)),
      some (.assignCombine none (.element (.named [] (str "r")) (.group [.ref 1, .ref 0])))] := rfl

def missFiles : List (Str × SSchema) :=
  [(str "main", ⟨[], .grammar [.include (str "inc") none [.define (str "c") .assign .empty]]⟩),
   (str "inc", ⟨[], .grammar [def' "start" (el "r" .empty)]⟩)]

/-- an override of `c`, which the included file does not define -/
theorem C35_missing_case : (∀ n m k st, compileFile (dir missFiles) ext n m (str "main") (.fresh []) ≠ .ok (k, st)) ∧
    outcome missFiles = .error (.err (.overrideMissingFromInclude (str "c"))) := by
  refine ⟨fun n m k st => ?_, rfl⟩
  refine C35_override_must_exist (f := str "inc") (s := ⟨[], .grammar [def' "start" (el "r" .empty)]⟩)
    (items := [def' "start" (el "r" .empty)]) (y := str "c") faithful_nil (root_items (fs := missFiles) rfl) (.head _) rfl rfl .grammar (.head _) ?_
  intro ds h d hd
  cases h with
  | define h =>
    cases h
    cases List.mem_singleton.mp hd
    decide

end Ex
end Verif
