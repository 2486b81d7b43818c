import Verif.Proof.SchemaPlaced
import Verif.Props.SchemaFaults
/-
C67: what the source positions change about compiling a schema; C68: where the errors of the schema compiler point.
-/
namespace Verif.At
open Verif

variable {F : LFiles} {x : Ext} {n m : Nat} {name : Str} {l : List (Str × LSchema)}

/-- the files loaded before are those of `F` -/
def LFaithful (F : LFiles) (l : List (Str × LSchema)) : Prop := ∀ f s, l.lookup f = some s → F.load f = .ok s

/-- the loaded files without positions -/
def plainLoaded (l : List (Str × LSchema)) : List (Str × SSchema) := l.map fun f => (f.1, f.2.plain)

theorem LFaithful.plain (h : LFaithful F l) : Faithful F.plain (plainLoaded l) := by
  intro f s hs
  unfold plainLoaded at hs
  rw [lookup_map] at hs
  cases hl : l.lookup f with
  | none => rw [hl] at hs; cases hs
  | some s' =>
    rw [hl] at hs
    cases hs
    simp only [LFiles.plain, h f s' hl]

/-- **C67**: compiling with positions comes to the same as compiling without: the same start rule and the same definitions, the same
error (at some position), the same panic; except that it panics at a position that lies outside the file it is taken for.  (An
undefined reference is reported with its name, which `Model/Schema` leaves out in one case.) -/
theorem C67_positions_change_nothing (hl : LFaithful F l) :
    match compileFile F x n m name (.fresh l), Verif.compileFile F.plain x n m name (.fresh (plainLoaded l)) with
    | .ok (k, st), q => q = .ok (k, st.plain)
    | .error (.err e), q => q = .error (.err e.plain) ∨
        ∃ s id, e = .undefinedReference s id ∧ q = .error (.err (.undefinedReference []))
    | .error (.panic p), q => q = .error (.panic p)
    | .error .fuel, q => q = .error .fuel
    | .error (.subspan _), _ => Misplaced F name := by
  have h1 := compileFile_sim F x n m name (.fresh l)
  have h2 := compileFile_fine (F := F) (x := x) (name := name) n m (.fresh l) (.fresh hl)
  have e : (LState.fresh l).plain = .fresh (plainLoaded l) := rfl
  rw [e] at h1
  generalize Verif.compileFile F.plain x n m name (.fresh (plainLoaded l)) = q at h1
  cases hr : compileFile F x n m name (.fresh l) with
  | ok r =>
    rw [hr] at h1
    rcases h1 with h1 | ⟨_, _, h, _⟩
    · exact h1
    · cases h
  | error e =>
    rw [hr] at h1 h2
    cases e with
    | err e =>
      rcases h1 with h1 | ⟨s, id, h, h'⟩
      · exact .inl (h1.1 _ rfl)
      · cases h; exact .inr ⟨s, id, rfl, h'⟩
    | panic p =>
      rcases h1 with h1 | ⟨s, id, h, h'⟩
      · exact h1.1 _ rfl
      · cases h
    | fuel =>
      rcases h1 with h1 | ⟨s, id, h, h'⟩
      · exact h1.1 _ rfl
      · cases h
    | subspan b =>
      cases b with
      | true => exact h2
      | false =>
        obtain ⟨m, f, r, _, hm, hn⟩ := h2
        exact ⟨m, f, r, f, hm, .inl rfl, hn⟩

/-- **C67**: a schema compiles with positions exactly if it does without and every position that is recorded (of elements,
attributes, references, definitions, includes and externals) lies in the file it is taken for. -/
theorem C67_compiles_iff (hl : LFaithful F l) :
    (∃ k st, compileFile F x n m name (.fresh l) = .ok (k, st)) ↔
      (∃ k st, Verif.compileFile F.plain x n m name (.fresh (plainLoaded l)) = .ok (k, st)) ∧ AllPlaced F name := by
  have h1 := compileFile_sim F x n m name (.fresh l)
  have h2 := compileFile_fine (F := F) (x := x) (name := name) n m (.fresh l) (.fresh hl)
  have e : (LState.fresh l).plain = .fresh (plainLoaded l) := rfl
  rw [e] at h1
  constructor
  · rintro ⟨k, st, h⟩
    refine ⟨?_, compileFile_placed (.fresh hl) h⟩
    rw [h] at h1
    rcases h1 with h1 | ⟨_, _, h, _⟩
    · exact ⟨_, _, h1⟩
    · cases h
  · rintro ⟨⟨k, st, h⟩, hp⟩
    rw [h] at h1
    cases hr : compileFile F x n m name (.fresh l) with
    | ok r => exact ⟨r.1, r.2, rfl⟩
    | error e =>
      rw [hr] at h1 h2
      rcases h1 with h1 | ⟨_, _, _, h⟩
      · cases e with
        | err e => cases h1.1 _ rfl
        | panic p => cases h1.1 _ rfl
        | fuel => cases h1.1 _ rfl
        | subspan b =>
          cases b with
          | true => obtain ⟨_, h⟩ := h1.2 rfl; cases h
          | false =>
            obtain ⟨m, f, r, hr, hm, hn⟩ := h2
            exact (hn (hp m f r hr hm)).elim
      · cases h

/-- without an external grammar positions are taken for positions of the file they stand in -/
theorem NoExternalGrammar.own (hx : NoExternalGrammar F name) {a : LPlace} (ho : LOccurs F name a) : a.file = a.src := by
  induction ho with
  | pattern => rfl
  | grammar => rfl
  | inside ho hw ih =>
    cases hw with
    | externalGrammar hj hl hb => exact (hx _ _ _ _ _ _ _ _ ho hj hl hb).elim
    | externalPattern => rfl
    | included => rfl
    | _ => exact ih

/-- **C67**: without an external grammar the positions never keep a schema from compiling. -/
theorem C67_positions_do_not_matter (hl : LFaithful F l) (ho : OwnPlaced F name) (hx : NoExternalGrammar F name) :
    (∃ k st, compileFile F x n m name (.fresh l) = .ok (k, st)) ↔
      ∃ k st, Verif.compileFile F.plain x n m name (.fresh (plainLoaded l)) = .ok (k, st) := by
  rw [C67_compiles_iff hl]
  refine ⟨fun h => h.1, fun h => ⟨h, ?_⟩⟩
  rintro m f r _ ⟨src, t, hoc, hh⟩
  have : f = src := hx.own hoc
  subst this
  exact ho _ _ _ _ _ hoc hh

/-- **C67**: if in addition `parent` is used in the file of the schema only, for names that are defined there, no position leads to a
panic, whatever is wrong with the schema. -/
theorem C67_no_position_panics (hl : LFaithful F l) (ho : OwnPlaced F name) (hx : NoExternalGrammar F name) (hp : ParentsAtHome F name) :
    ∀ b, compileFile F x n m name (.fresh l) ≠ .error (.subspan b) := by
  intro b h
  have := C67_positions_change_nothing (x := x) (n := n) (m := m) (name := name) hl
  rw [h] at this
  obtain ⟨mk, g, r, f, ⟨src, t, hoc, hh⟩, hf, hn⟩ := this
  have : g = src := hx.own hoc
  subst this
  have hin := ho _ _ _ _ _ hoc hh
  rcases hf with rfl | ⟨id, rfl, hf⟩
  · exact hn hin
  · obtain ⟨ht, hr⟩ : ∃ r, t = .pat (.parent r id) := by
      cases hh with
      | parent => exact ⟨_, rfl⟩
      | valueType h | dataType h | exceptType h => cases h
    subst hr
    obtain ⟨rfl, hd⟩ := hp _ _ _ _ hoc
    rcases hf with rfl | ⟨r', hm⟩
    · exact hn hin
    · have := hd _ _ hm; subst this; exact hn hin

/-- **C67**, what goes wrong: the positions in a grammar file that is used by `external` are taken for positions of the file
that uses it.  If one of them lies beyond its end, compiling panics although there is nothing wrong with the schema. -/
theorem C67_external_grammar_panics (hl : LFaithful F l)
    (hok : ∃ k st, Verif.compileFile F.plain x n m name (.fresh (plainLoaded l)) = .ok (k, st))
    {f src : Str} {t : LTree} (ho : LOccurs F name ⟨f, src, t⟩) {mk : Mark} {r : Rg} (hh : t.Has mk r) (hr : mk.Recorded)
    (hlong : F.size f < r.hi) : ∃ b, compileFile F x n m name (.fresh l) = .error (.subspan b) := by
  have hsame := C67_positions_change_nothing (x := x) (n := n) (m := m) (name := name) hl
  have hiff := C67_compiles_iff (x := x) (n := n) (m := m) (name := name) hl
  obtain ⟨k, st, hq⟩ := hok
  rw [hq] at hsame
  cases hc : compileFile F x n m name (.fresh l) with
  | ok res =>
    have := (hiff.mp ⟨res.1, res.2, hc⟩).2 mk f r hr ⟨src, t, ho, hh⟩
    exact absurd this.2 (by omega)
  | error e =>
    rw [hc] at hsame
    cases e with
    | err e =>
      rcases hsame with h | ⟨_, _, _, h⟩ <;> cases h
    | panic p => cases hsame
    | fuel => cases hsame
    | subspan b => exact ⟨b, rfl⟩

/-- **C68**: every error of the schema compiler points at what is wrong: see `Blames`. -/
theorem C68_errors_point_at_the_fault (hl : LFaithful F l) {e : LErr} (h : compileFile F x n m name (.fresh l) = .error (.err e)) :
    Blames F x name name e := by
  have h2 := compileFile_fine (F := F) (x := x) (name := name) n m (.fresh l) (.fresh hl)
  rw [h] at h2
  exact h2

end Verif.At
