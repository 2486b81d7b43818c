import Verif.Proof.SchemaTerm
import Verif.Props.SchemaFindings
/-
C38: compiling a schema comes to an end.
-/
namespace Verif
variable {F : Files} {x : Ext} {name : Str} {l : List (Str × SSchema)}

/-- **C38**: compiling a schema comes to an end, with a result that is not the exhaustion of the model's fuel, unless there is an endless way
of the compiler into the schema. -/
theorem C38_terminates_unless_endless (hl : Faithful F l) (hne : ¬ Endless F name) :
    ∃ N R, R ≠ .error .fuel ∧ ∀ n, N ≤ n → ∀ m, N ≤ m → compileFile F x n m name (.fresh l) = R :=
  settles_file hne _ hl

/-- **C38**: such a schema never compiles: it is refused for something the compiler meets before, or compiling does not end. -/
theorem C38_endless_schemas_never_compile (hl : Faithful F l) (he : Endless F name) {n m k : Nat} {st : CState} :
    compileFile F x n m name (.fresh l) ≠ .ok (k, st) := by
  intro h
  obtain ⟨way, h0, hs⟩ := he
  exact DoneAt.no_way (fun i => (hs i).within) 0 ((compileFile_done hl rfl h).2 _ h0)

/-- **C38**: if only finitely many file names can be loaded, an endless way uses grammars by `external` over and over again. -/
theorem C38_endless_ways_use_grammars {U : List Str} (hU : ∀ f s, F.load f = .ok s → f ∈ U) {way : Nat → Place}
    (hs : ∀ i, Deeper F (way i) (way (i + 1))) (i : Nat) :
    ∃ j, i ≤ j ∧ ∃ w path inh f s is, way j = .pat w (.external path inh) ∧ F.join w.env.file path = some f ∧ F.load f = .ok s ∧
      s.body = .grammar is := way_uses_grammars hs hU i

/-- **C38**: there is no endless way if only finitely many file names can be loaded and no `external` of the schema leads to a grammar file:
whatever the includes, cyclic or not. -/
theorem C38_finite_schemas_are_not_endless {U : List Str} (hU : ∀ f s, F.load f = .ok s → f ∈ U)
    (hext : ∀ w path i f s is, Occurs F name (.pat w (.external path i)) → F.join w.env.file path = some f →
      F.load f = .ok s → s.body ≠ .grammar is) : ¬ Endless F name := by
  rintro ⟨way, h0, hs⟩
  obtain ⟨j, _, w, path, inh, f, s, is, hj, h1, h2, h3⟩ := C38_endless_ways_use_grammars hU hs 0
  exact hext w path inh f s is (hj ▸ way_occurs h0 hs j) h1 h2 h3

/-- **C38**: so compiling comes to an end in this case. -/
theorem C38_compilation_terminates (hl : Faithful F l) {U : List Str} (hU : ∀ f s, F.load f = .ok s → f ∈ U)
    (hext : ∀ w path i f s is, Occurs F name (.pat w (.external path i)) → F.join w.env.file path = some f →
      F.load f = .ok s → s.body ≠ .grammar is) :
    ∃ N R, R ≠ .error .fuel ∧ ∀ n, N ≤ n → ∀ m, N ≤ m → compileFile F x n m name (.fresh l) = R :=
  C38_terminates_unless_endless hl (C38_finite_schemas_are_not_endless hU hext)

namespace Ex

theorem dir_finite (fs : List (Str × SSchema)) (f : Str) (s : SSchema) (h : (dir fs).load f = .ok s) : f ∈ fs.map (·.1) := by
  simp only [dir] at h
  split at h
  · rename_i s' hs
    obtain ⟨l1, l2, rfl, _⟩ := List.lookup_eq_some_iff.mp hs
    simp
  · cases h

/-- the patterns and grammar contents of `loopFiles` -/
def LoopPlace : Place → Prop
  | .pat _ p => p = el "r" .empty ∨ p = .empty
  | .items _ is => is = [.include (str "inc") none [], def' "start" (el "r" .empty)] ∨ is = [.div [.include (str "main") none []]] ∨
        is = [.include (str "main") none []]

/-- two files including each other: the hypotheses hold -/
theorem C38_terminates_case : ∃ N R, R ≠ .error .fuel ∧ ∀ n, N ≤ n → ∀ m, N ≤ m →
    compileFile (dir loopFiles) ext n m (str "main") (.fresh []) = R := by
  refine C38_compilation_terminates faithful_nil (dir_finite loopFiles) fun w path i f s is ho hj hl hb => ?_
  -- no place of these files is an `external`
  have key : ∀ pl : Place, Occurs (dir loopFiles) (str "main") pl → LoopPlace pl := by
    rintro pl ⟨a, ha, hin⟩
    have h0 : LoopPlace a := by
      cases ha with
      | pattern h1 h2 => cases h1; cases h2
      | grammar h1 h2 => cases h1; cases h2; exact .inl rfl
    clear ha
    induction hin with
    | refl => exact h0
    | step hw _ ih =>
      refine ih ?_
      clear ih
      have hload : ∀ f s is, (dir loopFiles).load f = .ok s → s.Grammar is →
          is = [.include (str "inc") none [], def' "start" (el "r" .empty)] ∨ is = [.div [.include (str "main") none []]] := by
        intro f s is h hg
        have hm : (f, s) ∈ loopFiles := by
          simp only [dir] at h
          split at h
          · rename_i s' hs
            cases h
            obtain ⟨l1, l2, h, _⟩ := List.lookup_eq_some_iff.mp hs
            rw [h]; simp
          · cases h
        simp only [loopFiles, List.mem_cons, Prod.mk.injEq, List.not_mem_nil, or_false] at hm
        rcases hm with ⟨rfl, rfl⟩ | ⟨rfl, rfl⟩
        · cases hg; exact .inl rfl
        · cases hg; exact .inr rfl
      cases hw with
      | element => rcases h0 with h | h <;> cases h; exact .inr rfl
      | define hm =>
        rcases h0 with rfl | rfl | rfl
        · simp only [List.mem_cons, reduceCtorEq, false_or, List.not_mem_nil, or_false, def'] at hm
          cases hm; exact .inl rfl
        · simp at hm
        · simp at hm
      | div hm =>
        rcases h0 with rfl | rfl | rfl
        · simp [def'] at hm
        · simp only [List.mem_cons, List.not_mem_nil, or_false] at hm
          cases hm; exact .inr (.inr rfl)
        · simp at hm
      | included hm hj hl hg =>
        rcases hload _ _ _ hl hg with h | h
        · exact .inl h
        · exact .inr (.inl h)
      | override hm hj ho =>
        rcases h0 with rfl | rfl | rfl
        · simp only [List.mem_cons, reduceCtorEq, or_false, List.not_mem_nil, def'] at hm
          cases hm; cases ho
        · simp at hm
        · simp only [List.mem_cons, List.not_mem_nil, or_false] at hm
          cases hm; cases ho
      | _ => rcases h0 with h | h <;> cases h
  rcases key _ ho with h | h <;> cases h

/-! ### what keeps it from ending -/

def selfFiles : List (Str × SSchema) := [(str "main", ⟨[], .grammar [def' "start" (.external (str "main") none)]⟩)]

theorem self_external {st : CState} (hs : Faithful (dir selfFiles) st.loaded) : ∀ n (c : SCtx) (f : Str), c.filesOf = [] → c.file = some f →
    compilePattern (dir selfFiles) ext n c (.external (str "main") none) st = .error .fuel := by
  intro n
  induction n using Nat.strongRecOn generalizing st with
  | ind n ih =>
    intro c f hc hf
    match n with
    | 0 => rfl
    | n + 1 =>
      have hp : includePath (dir selfFiles) c (str "main") = .ok (str "main") := by simp only [includePath, hf, dir]
      have hg : ∃ st1, getSchema (dir selfFiles) (str "main") st = .ok (⟨[], .grammar [def' "start" (.external (str "main") none)]⟩, st1) ∧
          Faithful (dir selfFiles) st1.loaded := by
        cases h : getSchema (dir selfFiles) (str "main") st with
        | ok r =>
          obtain ⟨s, st1⟩ := r
          obtain ⟨h1, h2⟩ := getSchema_faithful hs h
          cases h1
          exact ⟨st1, rfl, h2⟩
        | error e =>
          unfold getSchema at h
          split at h
          · cases h
          · cases h
      obtain ⟨st1, hg, hs1⟩ := hg
      have hck : c.checkInclude (str "main") = .ok () := SCtx.checkInclude_ok.mpr (by rw [hc]; exact nofun)
      simp only [compilePattern, compileExternal, Bind.bind, CM.bind, CM.lift, hp, CM.inInclude, hg, newInclude, hck, newGrammar]
      have hdef : ∀ (st : CState), Faithful (dir selfFiles) st.loaded → ∀ s, compileItem (dir selfFiles) ext n (.grammar c s)
          (def' "start" (.external (str "main") none)) st = .error .fuel := by
        intro st2 hs2 s
        match n with
        | 0 => rfl
        | n + 1 =>
          have := ih n (by omega) hs2 (.define (.grammar c s) (str "start")) f hc hf
          simp only [def', compileItem, compileDefine, Bind.bind, CM.bind]
          rw [show (str "start") = "start".toList from rfl] at this
          rw [this]
      simp only [compileContents, Bind.bind, CM.bind]
      rw [hdef _ (by exact hs1)]

/-- the way of `start = external "main"` in the file `main` -/
def selfWay (w : Where) : Nat → Place
  | 0 => .items w [def' "start" (.external (str "main") none)]
  | 1 => .pat (w.define "start".toList) (.external (str "main") none)
  | n + 2 => selfWay (w.define "start".toList).grammar n

theorem selfWay_descends : ∀ (n : Nat) (w : Where), w.files = [] → Deeper (dir selfFiles) (selfWay w n) (selfWay w (n + 1))
  | 0, w, _ => .inner (.define (.head _)) rfl nofun
  | 1, w, hw => .grammar (f := str "main") rfl rfl rfl (by rw [show (w.define "start".toList).files = [] from hw]; exact nofun)
  | n + 2, w, hw => selfWay_descends n (w.define "start".toList).grammar hw

/-- it is endless -/
theorem C38_case_endless : Endless (dir selfFiles) (str "main") :=
  ⟨selfWay (.top (str "main") []), .grammar (s := ⟨[], .grammar [def' "start" (.external (str "main") none)]⟩) rfl rfl, fun i => selfWay_descends i _ rfl⟩

/-- **C38**, not detected: a grammar file that uses itself by `external`.  `start = external "main"` in the file
`main`: compiling never ends (in the code: until the stack is exhausted). -/
theorem C38_external_grammar_cycle_diverges (n m : Nat) :
    compileFile (dir selfFiles) ext n m (str "main") (.fresh []) = .error .fuel := by
  rw [compileFile_body]
  match n with
  | 0 => rfl
  | n + 1 =>
    have h := self_external (st := ⟨[], [[]], [], [(str "main", ⟨[], .grammar [def' "start" (.external (str "main") none)]⟩)]⟩)
      (fun f s h => by
        simp only [List.lookup] at h
        split at h
        · cases h; rename_i he; rw [beq_iff_eq.mp he]; rfl
        · cases h) n (.define (.root (str "main") 0 [("xml".toList, xmlNs)] [("xsd".toList, xsdUri)]) (str "start")) (str "main") rfl rfl
    have : compileBody (dir selfFiles) ext (n + 1) (str "main") (.fresh []) = .error .fuel := by
      show CM.bind (compileContents _ _ _) _ _ = _
      simp only [compileContents, Bind.bind, CM.bind, def', compileItem, compileDefine]
      rw [show (str "start") = "start".toList from rfl] at h
      rw [show (CState.fresh []) = ⟨[], [], [], []⟩ from rfl]
      dsimp only
      erw [h]
    simp only [CM.bind, this]

/-- every file can be loaded, and consists of an include whose path is longer than the file's own: names are compared
as they are written, `sub/../a` is not `a` -/
def deepFiles : Files := ⟨fun _ => .ok ⟨[], .grammar [.include (str "x") none []]⟩, fun f lit => some (f ++ lit)⟩

theorem deep_include : ∀ n (st : CState) (c : SCtx) (f : Str), Faithful deepFiles st.loaded → c.file = some f → (∀ g ∈ c.filesOf, g.length ≤ f.length) →
    compileItem deepFiles ext n c (.include (str "x") none []) st = .error .fuel
  | 0, _, _, _, _, _, _ => rfl
  | n + 1, st, c, f, hs, hf, hg => by
    have hp : includePath deepFiles c (str "x") = .ok (f ++ str "x") := by simp only [includePath, hf, deepFiles]
    have hsch : ∃ st1, getSchema deepFiles (f ++ str "x") st = .ok (⟨[], .grammar [.include (str "x") none []]⟩, st1) ∧ Faithful deepFiles st1.loaded := by
      cases h : getSchema deepFiles (f ++ str "x") st with
      | ok r =>
        obtain ⟨s, st1⟩ := r
        obtain ⟨h1, h2⟩ := getSchema_faithful hs h
        cases h1
        exact ⟨st1, rfl, h2⟩
      | error e =>
        unfold getSchema at h
        split at h
        · cases h
        · cases h
    obtain ⟨st1, hsch, hs1⟩ := hsch
    have hck : c.checkInclude (f ++ str "x") = .ok () := SCtx.checkInclude_ok.mpr fun h => by
      have := hg _ h
      simp [str] at this
      omega
    have ih := fun st h => deep_include n st (.incl c (f ++ str "x") st1.overrides.length [("xml".toList, xmlNs)] [("xsd".toList, xsdUri)])
      (f ++ str "x") h rfl fun g hg' => by
        rcases List.mem_cons.mp hg' with rfl | hg'
        · exact Nat.le_refl _
        · have := hg g hg'; simp; omega
    simp only [compileItem, compileInclude, Bind.bind, CM.bind, CM.lift, hp, CM.inInclude, hsch, newInclude, hck, inheritNs, compileOverrides,
      compileSchema, compileDeclarations, compileContents, Pure.pure]
    rw [ih _ (by exact hs1)]

/-- **C38**, the first hypothesis is needed: with unboundedly many names for files, an include chain need not end. -/
theorem C38_unboundedly_many_names_diverge (n m : Nat) : compileFile deepFiles ext n m (str "main") (.fresh []) = .error .fuel := by
  have h := deep_include n ⟨[], [[]], [], [(str "main", ⟨[], .grammar [.include (str "x") none []]⟩)]⟩
    (.root (str "main") 0 [("xml".toList, xmlNs)] [("xsd".toList, xsdUri)]) (str "main") (fun f s h => by
      simp only [List.lookup] at h
      split at h
      · cases h; rfl
      · cases h) rfl nofun
  have : compileBody deepFiles ext n (str "main") (.fresh []) = .error .fuel := by
    show CM.bind (compileContents _ _ _) _ _ = _
    simp only [compileContents, Bind.bind, CM.bind]
    rw [show (CState.fresh []) = ⟨[], [], [], []⟩ from rfl]
    dsimp only
    erw [h]
  simp only [compileFile_body, CM.bind, this]

end Ex
end Verif
