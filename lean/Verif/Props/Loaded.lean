import Verif.Proof.Loaded
import Verif.Props.SchemaExact
import Verif.Props.SchemaSpans
/-
C76: the files a compiler has loaded.
-/
namespace Verif
variable {F : Files} {x : Ext} {n m k : Nat} {name : Str} {st0 st : CState}

/-- **C76**: after a schema was compiled, the files that the compiler has loaded are those it had loaded before and exactly those
that the schema uses: its own file and whatever an `include` or `external` somewhere in these files is about, also in definitions
that nothing refers to.  None is there twice, and each has the contents it would be loaded with. -/
theorem C76_loaded_files (hl : Faithful F st0.loaded) (h : compileFile F x n m name st0 = .ok (k, st)) :
    (∀ f, f ∈ st.loaded.map (·.1) ↔ f ∈ st0.loaded.map (·.1) ∨ UsesFile F name f) ∧
    ((st0.loaded.map (·.1)).Nodup → (st.loaded.map (·.1)).Nodup) ∧
    (∀ f s, st.loaded.lookup f = some s ↔ f ∈ st.loaded.map (·.1) ∧ F.load f = .ok s) := by
  obtain ⟨h1, h2, h3⟩ := Loads.adds_compileFile st0 k st hl h
  refine ⟨h2, h3, fun f s => ⟨fun hs => ⟨?_, h1 f s hs⟩, ?_⟩⟩
  · apply Classical.byContradiction
    intro hn
    rw [lookup_none_iff.mpr hn] at hs; cases hs
  · rintro ⟨hm, hs⟩
    cases hk : st.loaded.lookup f with
    | none => exact absurd hm (lookup_none_iff.mp hk)
    | some s' => have := h1 f s' hk; rw [hs] at this; cases this; rfl

/-- **C76**, for a new compiler: exactly the files that the schema uses, each once. -/
theorem C76_new_compiler (h : compileFile F x n m name (.fresh []) = .ok (k, st)) :
    (∀ f, f ∈ st.loaded.map (·.1) ↔ UsesFile F name f) ∧ (st.loaded.map (·.1)).Nodup := by
  obtain ⟨h1, h2, _⟩ := C76_loaded_files (show Faithful F (CState.fresh []).loaded from nofun) h
  refine ⟨fun f => ?_, h2 List.nodup_nil⟩
  rw [h1]
  exact ⟨fun h => h.elim nofun id, .inr⟩

/-- **C76**: every file that a schema which compiles uses can be loaded. -/
theorem C76_used_files_load (h : compileFile F x n m name (.fresh []) = .ok (k, st)) {f : Str} (hf : UsesFile F name f) :
    ∃ s, F.load f = .ok s := by
  obtain ⟨_, _, h3⟩ := C76_loaded_files (show Faithful F (CState.fresh []).loaded from nofun) h
  have hm := ((C76_new_compiler h).1 f).mpr hf
  cases hk : st.loaded.lookup f with
  | none => exact absurd hm (lookup_none_iff.mp hk)
  | some s => exact ⟨s, ((h3 f s).mp hk).2⟩

/-- **C76**: compiling a schema again with the same compiler loads nothing. -/
theorem C76_again_loads_nothing {st1 st' : CState} {n' m' k' : Nat} (hl : Faithful F st0.loaded)
    (h : compileFile F x n m name st0 = .ok (k, st)) (hst : st1.loaded = st.loaded)
    (h' : compileFile F x n' m' name st1 = .ok (k', st')) (f : Str) :
    f ∈ st'.loaded.map (·.1) ↔ f ∈ st.loaded.map (·.1) := by
  obtain ⟨h1, _, h3⟩ := C76_loaded_files hl h
  have hf : Faithful F st1.loaded := by rw [hst]; exact fun f s hs => ((h3 f s).mp hs).2
  rw [(C76_loaded_files hf h').1, hst]
  exact ⟨fun h => h.elim id fun hu => (h1 f).mpr (.inr hu), .inl⟩

/-- **C76**, with positions: the same of the compiler as it is. -/
theorem C76_with_positions {F : At.LFiles} {l : List (Str × At.LSchema)} {st : At.LState} (hl : At.LFaithful F l)
    (h : At.compileFile F x n m name (.fresh l) = .ok (k, st)) :
    (∀ f, f ∈ st.loaded.map (·.1) ↔ f ∈ l.map (·.1) ∨ UsesFile F.plain name f) ∧
    ((l.map (·.1)).Nodup → (st.loaded.map (·.1)).Nodup) := by
  have hp := At.C67_positions_change_nothing (x := x) (n := n) (m := m) (name := name) hl
  rw [h] at hp
  obtain ⟨h1, h2, _⟩ := C76_loaded_files hl.plain hp
  have e1 : st.plain.loaded.map (·.1) = st.loaded.map (·.1) := by
    show (st.loaded.map fun f => (f.1, f.2.plain)).map (·.1) = _
    rw [List.map_map]; rfl
  have e2 : (CState.fresh (At.plainLoaded l)).loaded.map (·.1) = l.map (·.1) := by
    show (l.map fun f => (f.1, f.2.plain)).map (·.1) = _
    rw [List.map_map]; rfl
  rw [e1, e2] at h1 h2
  exact ⟨h1, h2⟩

namespace Ex
/-- the files loaded when `main` is compiled -/
def loadedNames (fs : List (Str × SSchema)) : Option (List Str) :=
  match compileFile (dir fs) ext 30 30 (str "main") (.fresh []) with
  | .ok (_, st) => some (st.loaded.map (·.1))
  | .error _ => none

/-- an include, an external in a definition that nothing refers to, the same file used twice, and a file that is not used -/
def usedFiles : List (Str × SSchema) :=
  [(str "main", ⟨[], .grammar [.include (str "inc") none [], def' "start" (el "r" (.ident (str "a"))),
      def' "unused" (.seq (.external (str "ext") none) (.external (str "ext") none))]⟩),
   (str "inc", ⟨[], .grammar [def' "a" (.external (str "deep") none)]⟩),
   (str "ext", ⟨[], .pattern (el "x" .empty)⟩),
   (str "deep", ⟨[], .pattern (el "y" .empty)⟩),
   (str "other", ⟨[], .pattern (el "z" .empty)⟩)]

theorem C76_case_loaded : loadedNames usedFiles = some [str "ext", str "deep", str "inc", str "main"] := by decide +kernel

/-- so the schema uses exactly these files -/
theorem C76_case_uses (f : Str) : UsesFile (dir usedFiles) (str "main") f ↔ f ∈ [str "ext", str "deep", str "inc", str "main"] := by
  have h := C76_case_loaded
  unfold loadedNames at h
  cases hc : compileFile (dir usedFiles) ext 30 30 (str "main") (.fresh []) with
  | error e => rw [hc] at h; cases h
  | ok r =>
    rw [hc] at h
    rw [← (C76_new_compiler hc).1 f]
    show f ∈ r.2.loaded.map (·.1) ↔ _
    rw [show r.2.loaded.map (·.1) = _ from Option.some.inj h]
end Ex

end Verif
