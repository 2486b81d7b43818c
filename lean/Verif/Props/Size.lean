import Verif.Proof.SizeLow
import Verif.Props.ToolJudges
/-
C91: how large a schema may be.  The patterns kept when a validator is built are at most those written in the schema, so a schema with less
than 65536 patterns never hits the limit before validation begins.
-/
namespace Verif
open Size Sure Loc Tool

section
variable {D V : Type} [DecidableEq D] [DecidableEq V] {env : Env D V} {start : Pattern D V}

/-- C91.  A schema with less than 65536 patterns does not hit the limit when a validator for it is built; the validator then keeps at most
as many patterns as the schema has. -/
theorem C91_small_schemas_fit (h : weight start + weights env < 65536) (n : Nat) :
    newValidator env n start ≠ .error .capacity ∧
    ∀ s0, newValidator env n start = .ok s0 → s0.store.pats.length ≤ weight start + weights env :=
  newValidator_cost h

/-- C91.  A validator for such a schema can always be built, if the schema passes the tests. -/
theorem C91_small_schemas_have_validators {L : Lib D V} (hs : SchemaOK L env start false) (ha : NoAlias env start)
    (h : weight start + weights env < 65536) :
    ∃ N s0, (∀ n, N ≤ n → newValidator env n start = .ok s0) ∧ s0.store.pats.length ≤ weight start + weights env := by
  obtain ⟨N, r0, h1, h2⟩ := C07_building_terminates env start
  have hN := h2 N (Nat.le_refl _)
  obtain ⟨c1, c2⟩ := C91_small_schemas_fit h N
  cases r0 with
  | error e =>
    rcases (C06_no_internal_panic (L := L) hs ha N).1 e hN with rfl | rfl
    · exact absurd rfl h1
    · exact absurd hN c1
  | ok s0 => exact ⟨N, s0, h2, c2 s0 hN⟩

/-- C91.  All elements and attributes of different names are kept: there are no more of them than patterns. -/
theorem C91_names_are_kept {n : Nat} {s0 : VState D V} (h : newValidator env n start = .ok s0)
    {l : List (NameClass ⊕ NameClass)} (hn : l.Nodup) (hl : ∀ x ∈ l, Mentions env start x) :
    l.length ≤ s0.store.pats.length ∧ s0.store.pats.length ≤ 65536 := newValidator_mentions h hn hl

/-- C91.  So for a schema that mentions more than 65536 elements and attributes of different names, itself or in the definitions it uses,
no validator can be built: if it passes the tests, building always ends with the panic of the pattern limit. -/
theorem C91_large_schemas_abort {L : Lib D V} (hs : SchemaOK L env start false) (ha : NoAlias env start)
    {l : List (NameClass ⊕ NameClass)} (hn : l.Nodup) (hl : ∀ x ∈ l, Mentions env start x) (hlen : 65536 < l.length) :
    ∃ N, ∀ n, N ≤ n → newValidator env n start = .error .capacity := by
  obtain ⟨N, r0, h1, h2⟩ := C07_building_terminates env start
  have hN := h2 N (Nat.le_refl _)
  cases r0 with
  | error e =>
    rcases (C06_no_internal_panic (L := L) hs ha N).1 e hN with rfl | rfl
    · exact absurd rfl h1
    · exact ⟨N, h2⟩
  | ok s0 =>
    obtain ⟨a, b⟩ := C91_names_are_kept hN hn hl
    omega
end

section
variable {x : Ext} {fuel m k j : Nat} {name : Str} {F : Files} {st : CState} {rule : DefineRule}

/-- C91.  With C89: for a schema that passes the tests and has less than 65536 patterns a validator is built, and any document is judged
rightly, unless too many patterns come up on the way. -/
theorem C91_small_schemas_judge (hc : compileFile F x fuel m name (.fresh []) = .ok (k, st)) (hk : st.cell k = some rule)
    (hs : Check.schema st.env j rule.pattern = true) (ha : Check.noAlias st.env j rule.pattern = true)
    (hw : allWritten st.env j rule.pattern = true) (h : weight rule.pattern + weights st.env < 65536) :
    ∃ N s0, (∀ n, N ≤ n → newValidator st.env n rule.pattern = .ok s0) ∧
      ∀ d : XDoc, d.Proper → (Check.textSchema st.env j rule.pattern || Check.whole d.root) = true →
        ∃ M r, (∀ m, M ≤ m → runToks (stdLib x) m d.toks s0 = r) ∧
          (r = .error .capacity ∨
            (∃ s', r = .ok (.ok (), s')) ∧ ReadMatches F x name d ∨
            (∃ e s', r = .ok (.error e, s')) ∧ ¬ ReadMatches F x name d) := by
  obtain ⟨N, r0, h1, h2⟩ := C89_every_document_is_judged hc hk hs ha hw
  rcases h2 with rfl | ⟨s0, rfl, h2⟩
  · exact absurd (h1 N (Nat.le_refl _)) (C91_small_schemas_fit h N).1
  · exact ⟨N, s0, h1, h2⟩

/-- C91.  With C90: of the hindrances to the tool the schema's size is none. -/
theorem C91_tool_not_hindered {L : Lib Datatypes DatatypeValues} {n : Nat} {env : Env Datatypes DatatypeValues}
    {start : Pattern Datatypes DatatypeValues} {f : Tool.XmlFile} (h : weight start + weights env < 65536) (hf : Hindrance L n env start f) :
    ∃ text items s0, f = .doc text items ∧ Loc.newValidator env n start = .ok s0 ∧
      (Loc.runEvents L n items s0 = .error .capacity ∨ ∃ before i e s, RefusesAt L n s0 items before i e s ∧ BadNumber i e) := by
  cases hf with
  | schemaLimit hn =>
    refine absurd ?_ (C91_small_schemas_fit h n).1
    rw [Loc.newValidator_plain, hn]; rfl
  | @limit text items s0 hn hr => exact ⟨text, items, s0, rfl, hn, .inl hr⟩
  | @number text items s0 before i e s hn hr hb => exact ⟨text, items, s0, rfl, hn, .inr ⟨before, i, e, s, hr, hb⟩⟩
end

/-! ### cases -/
namespace SizeEx
open Needed

/-- `start = element r { attribute k { xsd:boolean }, list { string "a", (string "b" | xsd:language)+ } }` has 14 patterns -/
theorem C91_case : weight SureEx.asking + weights ([] : Env Datatypes DatatypeValues) = 14 := by decide

theorem C91_case_applied : ∃ N s0, (∀ n, N ≤ n → newValidator [] n SureEx.asking = .ok s0) ∧ s0.store.pats.length ≤ 14 := by
  have := C91_small_schemas_have_validators (env := []) (start := SureEx.asking) (L := stdLib Ex.ext)
    (Check.schema_sound (k := 2) (by decide)).1.relax (Check.noAlias_sound (k := 2) (by decide)) (by rw [C91_case]; decide)
  rwa [C91_case] at this

/-- `start = a`, `a = element r { a*, element s { text }? }` -/
def tree : Env Unit Unit := [.element (.named [] ['r']) (.group [.zeroOrMore (.ref 0), .optional (.element (.named [] ['s']) .text)])]

/-- the bound is close: 11 patterns at most, and 9 are kept -/
theorem C91_case_close : weight (.ref 0 : Pattern Unit Unit) + weights tree = 11 ∧
    (match newValidator tree 20 (.ref 0) with | .ok s0 => s0.store.pats.length | .error _ => 0) = 9 := by
  refine ⟨by decide, by decide +kernel⟩

/-- `element n₀ { empty }`, `element n₁ { empty }`, … below `element r`: the name of the `i`th is `i` times the letter a -/
def wide (k : Nat) : Pattern Unit Unit :=
  .element (.named [] ['r']) (.choice ((List.range (k + 1)).map fun i => .element (.named [] (List.replicate i 'a')) .empty))

def wideNames (k : Nat) : List (NameClass ⊕ NameClass) := (List.range (k + 1)).map fun i => .inl (.named [] (List.replicate i 'a'))

theorem wideNames_nodup (k : Nat) : (wideNames k).Nodup := by
  refine List.Pairwise.map _ ?_ List.nodup_range
  intro a b hab h
  refine hab ?_
  injection h with h
  injection h with _ h
  have := congrArg List.length h
  simpa using this

theorem wide_mentions (k : Nat) : ∀ x ∈ wideNames k, Mentions [] (wide k) x := by
  intro x hx
  refine .inl (List.mem_cons_of_mem _ ?_)
  show x ∈ namedL _
  unfold wideNames at hx
  revert hx
  generalize List.range (k + 1) = l
  induction l with
  | nil => exact fun h => h
  | cons i l ih =>
    intro hx
    rcases List.mem_cons.1 hx with rfl | hx
    · exact List.mem_append.2 (.inl List.mem_cons_self)
    · exact List.mem_append.2 (.inr (ih hx))

/-- a schema with 65537 elements has no validator, whatever the model's budget -/
theorem C91_case_large (n : Nat) (s0 : VState Unit Unit) : newValidator [] n (wide 65536) ≠ .ok s0 := fun h => by
  obtain ⟨a, b⟩ := C91_names_are_kept h (wideNames_nodup 65536) (wide_mentions 65536)
  simp only [wideNames, List.length_map, List.length_range] at a
  omega

/-- it passes the tests, so building ends with the panic -/
theorem C91_case_large_aborts : ∃ N, ∀ n, N ≤ n → newValidator [] n (wide 65536) = .error .capacity := by
  refine C91_large_schemas_abort (L := SureEx.dumb) ⟨fun p => p = .empty ∨ ∃ l : List Nat, l ≠ [] ∧
      p = .choice (l.map fun i => .element (.named [] (List.replicate i 'a')) .empty), ?_, ?_⟩ (fun n _ q _ _ h => by cases h)
    (wideNames_nodup 65536) (wide_mentions 65536) (by simp only [wideNames, List.length_map, List.length_range]; omega)
  · rintro p (rfl | ⟨l, hl, rfl⟩)
    · exact .empty
    · refine .choice (fun h => hl (List.map_eq_nil_iff.1 h)) fun p hp => ?_
      obtain ⟨i, _, rfl⟩ := List.mem_map.1 hp
      exact .element (.inl rfl)
  · refine .element (.inr ⟨List.range 65537, fun h => ?_, rfl⟩)
    have := congrArg List.length h
    rw [List.length_range] at this
    cases this

end SizeEx
end Verif
