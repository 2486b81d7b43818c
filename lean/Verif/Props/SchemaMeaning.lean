import Verif.Proof.SchemaRefs
import Verif.Proof.SchemaPlaces
import Verif.Props.Validation
/-
C53: a compiled schema means what its source files say.  C33: no dangling references.
-/
namespace Verif
variable {F : Files} {x : Ext} {n m k : Nat} {name : Str} {st : CState}

/-- a compiler (M:665-684) that has loaded the files `l` and starts a compilation -/
def CState.fresh (l : List (Str × SSchema)) : CState := ⟨[], [], [], l⟩

theorem fresh_look {l : List (Str × SSchema)} (s : Nat) (id : Str) : (CState.fresh l).look s id = none := by
  simp [CState.look, CState.refs, CState.fresh]

theorem good_fresh {l : List (Str × SSchema)} (h : Faithful F l) : GoodS F x (CState.fresh l) fun _ _ _ => False where
  toWFS := {
    bound := fun s id k hk => by rw [fresh_look] at hk; cases hk
    inj := fun s id s' id' k hk => by rw [fresh_look] at hk; cases hk
    cache := h
    mem := fun s id k hk => by simp [CState.fresh, CState.refs] at hk
    ovn := fun o => by simp [CState.fresh, CState.ov] }
  gb := nofun
  closed := nofun
  full := nofun
  took := nofun

/-- **C53**: a schema that compiles has a start rule, and a document element matches the compiled rule exactly if it
matches the schema as written: names looked up in the definitions of the enclosing grammars, `|=` and `&=`
combined, included files brought in with their overridden definitions replaced. -/
theorem C53_compiled_schema_means_its_source {l : List (Str × SSchema)} (hl : Faithful F l)
    (h : compileFile F x n m name (.fresh l) = .ok (k, st)) :
    ∃ r, st.cell k = some r ∧ ∀ node, Match (stdLib x) st.env r.pattern [] [node] ↔ SchemaMatches F x name node := by
  obtain ⟨s, hd⟩ := compileFile_spec (good_fresh hl) h
  obtain ⟨_, _, _, r, _, _, _, _, _, _, hr, _⟩ := hd.out
  refine ⟨r, hr, fun node => ?_⟩
  obtain ⟨r', hr', h⟩ := hd.same node
  rw [hr] at hr'; cases hr'
  exact h

/-- **C53**, end to end: for a well-formed schema, a document the validator accepts matches the schema as written. -/
theorem C53_accepted_documents_match_source {l : List (Str × SSchema)} (hl : Faithful F l)
    (h : compileFile F x n m name (.fresh l) = .ok (k, st)) {r : DefineRule} (hr : st.cell k = some r)
    (hs : SchemaOK (stdLib x) st.env r.pattern false) (h0 : StartOK st.env r.pattern)
    {d : XDoc} {node : Node} (ht : d.Tame) (hm : d.Means node)
    {fuel n' : Nat} {s0 s' : VState Datatypes DatatypeValues}
    (hnew : newValidator st.env fuel r.pattern = .ok s0) (hrun : runToks (stdLib x) n' d.toks s0 = .ok (.ok (), s')) :
    SchemaMatches F x name node := by
  obtain ⟨r', hr', hiff⟩ := C53_compiled_schema_means_its_source hl h
  rw [hr] at hr'; cases hr'
  exact (hiff node).mp (C01_accepted_documents_match hs h0 ht hm hnew hrun)

/-- **C53**, end to end: for a well-formed schema, a document that matches the schema as written is not rejected. -/
theorem C53_matching_documents_accepted {l : List (Str × SSchema)} (hl : Faithful F l)
    (h : compileFile F x n m name (.fresh l) = .ok (k, st)) {r : DefineRule} (hr : st.cell k = some r)
    (hs : SchemaOK (stdLib x) st.env r.pattern true) (h0 : StartOK st.env r.pattern)
    {d : XDoc} {node : Node} (ht : d.Tame) (hm : d.Means node)
    {fuel n' : Nat} {s0 s' : VState Datatypes DatatypeValues} {res : Except VErr Unit}
    (hnew : newValidator st.env fuel r.pattern = .ok s0) (hrun : runToks (stdLib x) n' d.toks s0 = .ok (res, s'))
    (hmatch : SchemaMatches F x name node) : res = .ok () := by
  obtain ⟨r', hr', hiff⟩ := C53_compiled_schema_means_its_source hl h
  rw [hr] at hr'; cases hr'
  exact C02_matching_documents_accepted hs h0 ht hm hnew hrun ((hiff node).mpr hmatch)

/-- **C33**: in a schema that compiles every definition the start rule mentions, directly or through other
definitions, is there, and so the validator can be built from it: it never runs into an unresolved reference or an
empty choice, group or interleave. -/
theorem C33_no_dangling_references {l : List (Str × SSchema)} (hl : Faithful F l)
    (h : compileFile F x n m name (.fresh l) = .ok (k, st)) :
    ∃ r, st.cell k = some r ∧ (∀ j, Uses st.env r.pattern j → ∃ r', st.cell j = some r' ∧ st.env[j]? = some r'.pattern) ∧
      ∀ fuel, newValidator st.env fuel r.pattern ≠ .error .missingDef ∧
        newValidator st.env fuel r.pattern ≠ .error .unwrapNone := by
  obtain ⟨s, hd⟩ := compileFile_spec (good_fresh hl) h
  obtain ⟨G, sc, ds, r, S, g, hs, hfd, hg, hk, hr, hS, hSk⟩ := hd.out
  have ho : Origin st.look G k := ⟨sc, [], ds, [], _, hg, .nil, hk⟩
  obtain ⟨hsol, hor⟩ := ho.rule g.closed hr
  have hall : ∀ j ∈ r.pattern.refs, S j ∧ Origin st.look G j := by
    obtain ⟨r', a, _, c⟩ := hS.1 _ hSk
    rw [hr] at a; cases a
    exact fun j hj => ⟨c j hj, hor j hj⟩
  have hu : ∀ j, Uses st.env r.pattern j → ∃ r', st.cell j = some r' ∧ st.env[j]? = some r'.pattern ∧ Solid r'.pattern :=
    fun j hj => Uses.sound g.closed hS hj hall
  refine ⟨r, hr, fun j hj => ?_, fun fuel => ?_⟩
  · obtain ⟨r', a, b, _⟩ := hu j hj
    exact ⟨r', a, b⟩
  · have := nogap_compile (env := st.env) fuel r.pattern hsol (fun j hj => by
      obtain ⟨r', _, b, c⟩ := hu j hj; exact ⟨_, b, c⟩) Store.init
    unfold newValidator
    cases hc : compile st.env fuel r.pattern Store.init with
    | error e => rw [hc] at this; simpa using this
    | ok p => simp

/-! ### a concrete schema

main.rnc:   include "inc.rnc" { item = element item { text } }
            start |= element extra { empty }
inc.rnc:    start = element doc { item* }
            item = notAllowed
-/
namespace Ex

def incFile : SSchema := ⟨[], .grammar [
  .define "start".toList .assign (.element (.ident "doc".toList) (.zeroOrMore (.ident "item".toList))),
  .define "item".toList .assign .notAllowed]⟩
def mainFile : SSchema := ⟨[], .grammar [
  .include "inc.rnc".toList none [.define "item".toList .assign (.element (.ident "item".toList) .text)],
  .define "start".toList .choice (.element (.ident "extra".toList) .empty)]⟩

def files : Files where
  load f := if f = "main.rnc".toList then .ok mainFile else if f = "inc.rnc".toList then .ok incFile else .error .io
  join _ lit := some lit

/-- no datatypes of the standard library are used -/
def ext : Ext := ⟨fun _ => false, fun _ _ => false, fun _ => none, fun _ => none, fun _ => false, fun _ => false, fun _ => false⟩

def itemRule : MPattern := .element (.named [] "item".toList) .text
def docRule : MPattern := .element (.named [] "doc".toList) (.zeroOrMore (.ref 0))
def extraRule : MPattern := .element (.named [] "extra".toList) .empty
def startRule : MPattern := .choice [docRule, .choice [extraRule]]

theorem compiled : ∃ st, compileFile files ext 10 10 "main.rnc".toList (.fresh []) = .ok (1, st) ∧
    st.cells = [some (.assignCombine none itemRule), some (.assignCombine (some .choice) startRule)] := ⟨_, rfl, rfl⟩

theorem faithfulNil : Faithful files [] := nofun

/-- the compiled schema meets the conditions of the end-to-end theorems -/
theorem C53_wellFormed {env : Env Datatypes DatatypeValues} (he : env = [itemRule, startRule]) :
    SchemaOK (stdLib ext) env startRule true ∧ StartOK env startRule := by
  subst he
  have nofresh : Fresh (stdLib ext) [itemRule, startRule] 0 := by
    rintro ⟨q, hq, hu⟩
    simp only [List.getElem?_cons_zero, Option.some.injEq] at hq
    subst hq
    cases hu with
    | here h => simp [itemRule, Pattern.refs] at h
    | there h => simp [itemRule, Pattern.refs] at h
  constructor
  · refine ⟨fun p => p = .text ∨ p = .empty ∨ p = .zeroOrMore (.ref 0), ?_, ?_⟩
    · rintro p (rfl | rfl | rfl)
      · exact .text
      · exact .empty
      · exact .zeroOrMore (.ref (p := itemRule) rfl (.element (.inl rfl)) fun _ _ => nofresh)
          fun _ => .ref (p := itemRule) rfl (.free .element)
    · refine .choice (by simp) fun p hp => ?_
      simp only [List.mem_cons, List.not_mem_nil, or_false] at hp
      rcases hp with rfl | rfl
      · exact .element (.inr (.inr rfl))
      · refine .choice (by simp) fun p hp => ?_
        simp only [List.mem_cons, List.not_mem_nil, or_false] at hp
        subst hp
        exact .element (.inr (.inl rfl))
  · refine .choice (by simp) fun p hp => ?_
    simp only [List.mem_cons, List.not_mem_nil, or_false] at hp
    rcases hp with rfl | rfl
    · exact .element
    · refine .choice (by simp) fun p hp => ?_
      simp only [List.mem_cons, List.not_mem_nil, or_false] at hp
      subst hp
      exact .element

/-- `<doc><item>t</item></doc>` matches the schema as written, thanks to the override; `<item>t</item>` does not. -/
theorem C53_case :
    SchemaMatches files ext "main.rnc".toList (.elem ⟨none, "doc".toList⟩ [] [.elem ⟨none, "item".toList⟩ [] [.text ['t']]]) ∧
    ¬ SchemaMatches files ext "main.rnc".toList (.elem ⟨none, "item".toList⟩ [] [.text ['t']]) := by
  obtain ⟨st, h, hc⟩ := compiled
  obtain ⟨r, hr, hiff⟩ := C53_compiled_schema_means_its_source faithfulNil h
  have hr' : r = .assignCombine (some .choice) startRule := by
    simp only [CState.cell, hc] at hr
    cases hr; rfl
  subst hr'
  have he : st.env = [itemRule, startRule] := by simp [CState.env, hc, DefineRule.pattern]
  rw [he] at hiff
  rw [← hiff, ← hiff]
  constructor
  · have hi : Match (stdLib ext) [itemRule, startRule] itemRule [] [.elem ⟨none, "item".toList⟩ [] [.text ['t']]] :=
      .element rfl (.keep .nil) (.text (by simp))
    refine .choice (p := docRule) (by simp) (.element rfl (.keep .nil) ?_)
    exact .zeroOrMoreCons (a1 := []) (a2 := []) (c2 := []) (.ref (p := itemRule) rfl hi) .zeroOrMoreNil (.refl _)
  · intro h
    cases h with
    | choice hp h =>
      simp only [List.mem_cons, List.not_mem_nil, or_false] at hp
      rcases hp with rfl | rfl
      · cases h with
        | element h => cases h
      · cases h with
        | choice hp h =>
          simp only [List.mem_cons, List.not_mem_nil, or_false] at hp
          subst hp
          cases h with
          | element h => cases h

end Ex

end Verif
