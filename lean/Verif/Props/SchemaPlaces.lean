import Verif.Props.SchemaMeaning
/-
C36, C37, C38, C39: what is checked at every place of a schema.  `Occurs F name pl`: `pl` is a place of the schema in
the file `name`, reached through any number of definitions, nested grammars, included and external files.
-/
namespace Verif
variable {F : Files} {x : Ext} {n m k : Nat} {name : Str} {st : CState} {l : List (Str × SSchema)}

theorem SPattern.Mentions.inside {id : Str} {p : SPattern} (h : p.Mentions id) : ∀ {w : Where}, w.self = some id →
    ∃ w', w'.self = some id ∧ Inside F (.pat w p) (.pat w' (.ident id)) := by
  induction h with
  | here => exact fun {w} h => ⟨w, h, .refl⟩
  | «attribute» _ ih => intro w h; obtain ⟨w', a, b⟩ := ih (w := w.attribute) h; exact ⟨w', a, .step .attribute b⟩
  | list _ ih => intro w h; obtain ⟨w', a, b⟩ := ih h; exact ⟨w', a, .step .list b⟩
  | mixed _ ih => intro w h; obtain ⟨w', a, b⟩ := ih h; exact ⟨w', a, .step .mixed b⟩
  | paren _ ih => intro w h; obtain ⟨w', a, b⟩ := ih h; exact ⟨w', a, .step .paren b⟩
  | optional _ ih => intro w h; obtain ⟨w', a, b⟩ := ih h; exact ⟨w', a, .step .optional b⟩
  | zeroOrMore _ ih => intro w h; obtain ⟨w', a, b⟩ := ih h; exact ⟨w', a, .step .zeroOrMore b⟩
  | oneOrMore _ ih => intro w h; obtain ⟨w', a, b⟩ := ih h; exact ⟨w', a, .step .oneOrMore b⟩
  | seqLeft _ ih => intro w h; obtain ⟨w', a, b⟩ := ih h; exact ⟨w', a, .step .seqLeft b⟩
  | seqRight _ ih => intro w h; obtain ⟨w', a, b⟩ := ih h; exact ⟨w', a, .step .seqRight b⟩
  | interLeft _ ih => intro w h; obtain ⟨w', a, b⟩ := ih h; exact ⟨w', a, .step .interLeft b⟩
  | interRight _ ih => intro w h; obtain ⟨w', a, b⟩ := ih h; exact ⟨w', a, .step .interRight b⟩
  | choiceLeft _ ih => intro w h; obtain ⟨w', a, b⟩ := ih h; exact ⟨w', a, .step .choiceLeft b⟩
  | choiceRight _ ih => intro w h; obtain ⟨w', a, b⟩ := ih h; exact ⟨w', a, .step .choiceRight b⟩
  | except _ ih => intro w h; obtain ⟨w', a, b⟩ := ih h; exact ⟨w', a, .step .except b⟩

theorem SPattern.HasElement.inside {p : SPattern} (h : p.HasElement) : ∀ {w : Where}, w.attr = true →
    ∃ w' nc q, w'.attr = true ∧ Inside F (.pat w p) (.pat w' (.element nc q)) := by
  induction h with
  | here => exact fun {w} h => ⟨w, _, _, h, .refl⟩
  | «attribute» _ ih => intro w h; obtain ⟨w', nc, q, a, b⟩ := ih (w := w.attribute) rfl; exact ⟨w', nc, q, a, .step .attribute b⟩
  | list _ ih => intro w h; obtain ⟨w', nc, q, a, b⟩ := ih h; exact ⟨w', nc, q, a, .step .list b⟩
  | mixed _ ih => intro w h; obtain ⟨w', nc, q, a, b⟩ := ih h; exact ⟨w', nc, q, a, .step .mixed b⟩
  | paren _ ih => intro w h; obtain ⟨w', nc, q, a, b⟩ := ih h; exact ⟨w', nc, q, a, .step .paren b⟩
  | optional _ ih => intro w h; obtain ⟨w', nc, q, a, b⟩ := ih h; exact ⟨w', nc, q, a, .step .optional b⟩
  | zeroOrMore _ ih => intro w h; obtain ⟨w', nc, q, a, b⟩ := ih h; exact ⟨w', nc, q, a, .step .zeroOrMore b⟩
  | oneOrMore _ ih => intro w h; obtain ⟨w', nc, q, a, b⟩ := ih h; exact ⟨w', nc, q, a, .step .oneOrMore b⟩
  | seqLeft _ ih => intro w h; obtain ⟨w', nc, q, a, b⟩ := ih h; exact ⟨w', nc, q, a, .step .seqLeft b⟩
  | seqRight _ ih => intro w h; obtain ⟨w', nc, q, a, b⟩ := ih h; exact ⟨w', nc, q, a, .step .seqRight b⟩
  | interLeft _ ih => intro w h; obtain ⟨w', nc, q, a, b⟩ := ih h; exact ⟨w', nc, q, a, .step .interLeft b⟩
  | interRight _ ih => intro w h; obtain ⟨w', nc, q, a, b⟩ := ih h; exact ⟨w', nc, q, a, .step .interRight b⟩
  | choiceLeft _ ih => intro w h; obtain ⟨w', nc, q, a, b⟩ := ih h; exact ⟨w', nc, q, a, .step .choiceLeft b⟩
  | choiceRight _ ih => intro w h; obtain ⟨w', nc, q, a, b⟩ := ih h; exact ⟨w', nc, q, a, .step .choiceRight b⟩
  | except _ ih => intro w h; obtain ⟨w', nc, q, a, b⟩ := ih h; exact ⟨w', nc, q, a, .step .except b⟩

/-- **C36**: a definition, anywhere in the schema, whose body mentions its own name with no element or nested grammar
in between keeps the schema from compiling. -/
theorem C36_self_reference_rejected (hl : Faithful F l) {w : Where} {is : List SItem} {id : Str} {how : AssignMethod} {p : SPattern}
    (ho : Occurs F name (.items w is)) (hd : .define id how p ∈ is) (hm : p.Mentions id) :
    compileFile F x n m name (.fresh l) ≠ .ok (k, st) := by
  intro h
  obtain ⟨w', a, b⟩ := hm.inside (F := F) (w := w.define id) rfl
  exact (compileFile_places hl rfl h).2 _ (ho.inside (.step (.define hd) b)) a

/-- **C36**, in an override. -/
theorem C36_self_reference_in_override_rejected (hl : Faithful F l) {w : Where} {is : List SItem} {path f : Str} {i : Option Str}
    {os : List SOverride} {id : Str} {how : AssignMethod} {p : SPattern} (ho : Occurs F name (.items w is))
    (hi : .include path i os ∈ is) (hj : F.join w.env.file path = some f) (hd : .define id how p ∈ os) (hm : p.Mentions id) :
    compileFile F x n m name (.fresh l) ≠ .ok (k, st) := by
  intro h
  obtain ⟨w', a, b⟩ := hm.inside (F := F) (w := (w.override f i).define id) rfl
  exact (compileFile_places hl rfl h).2 _ (ho.inside (.step (.override hi hj hd) b)) a

/-- **C36**, the error: at the offending reference it is `RecursiveReference`, naming the definition. -/
theorem C36_error {c : SCtx} {w : Where} (hc : c.Fits w) {id : Str} (hs : w.self = some id) (n : Nat) (st : CState) :
    compilePattern F x (n + 1) c (.ident id) st = .error (.err (.recursiveReference id)) := by
  have : c.checkRefRecursion id = .error (.err (.recursiveReference id)) := by
    have h : c.selfOf = some id := by rw [hc.self, hs]
    clear hc hs
    induction c with
    | define p i => cases h; simp [SCtx.checkRefRecursion]
    | «attribute» p ih => exact ih h
    | _ => cases h
  simp only [compilePattern, SCtx.acquireRef, this]
  rfl

/-- **C37**: an attribute, anywhere in the schema, whose content contains an element (not through a reference or a
nested grammar) keeps the schema from compiling. -/
theorem C37_element_in_attribute_rejected (hl : Faithful F l) {w : Where} {nc : SNameClass} {p : SPattern}
    (ho : Occurs F name (.pat w (.attribute nc p))) (he : p.HasElement) :
    compileFile F x n m name (.fresh l) ≠ .ok (k, st) := by
  intro h
  obtain ⟨w', nc', q, a, b⟩ := he.inside (F := F) (w := w.attribute) rfl
  have := (compileFile_places hl rfl h).2 _ (ho.inside (.step .attribute b))
  rw [this.1] at a; cases a

/-- **C37**, also when a file used by `external` has the element: wherever the specification's `attr` flag is set. -/
theorem C37_element_in_attribute_rejected_anywhere (hl : Faithful F l) {w : Where} {nc : SNameClass} {p : SPattern}
    (ho : Occurs F name (.pat w (.element nc p))) (hw : w.attr = true) :
    compileFile F x n m name (.fresh l) ≠ .ok (k, st) := by
  intro h
  have := (compileFile_places hl rfl h).2 _ ho
  rw [this.1] at hw; cases hw

/-- **C38**: an `include` of a file that is already being included, at any depth, keeps the schema from compiling. -/
theorem C38_recursive_include_rejected (hl : Faithful F l) {w : Where} {is : List SItem} {path f : Str} {i : Option Str}
    {os : List SOverride} (ho : Occurs F name (.items w is)) (hi : .include path i os ∈ is)
    (hj : F.join w.env.file path = some f) (hf : f ∈ w.files) : compileFile F x n m name (.fresh l) ≠ .ok (k, st) := by
  intro h
  obtain ⟨f', _, _, hj', _, _, hn, _⟩ := (compileFile_places hl rfl h).2 _ ho _ hi
  rw [hj] at hj'; cases hj'
  exact hn hf

/-- **C38**, likewise for `external`. -/
theorem C38_recursive_external_rejected (hl : Faithful F l) {w : Where} {path f : Str} {i : Option Str}
    (ho : Occurs F name (.pat w (.external path i))) (hj : F.join w.env.file path = some f) (hf : f ∈ w.files) :
    compileFile F x n m name (.fresh l) ≠ .ok (k, st) := by
  intro h
  obtain ⟨_, f', _, hj', _, hn⟩ := (compileFile_places hl rfl h).2 _ ho
  rw [hj] at hj'; cases hj'
  exact hn hf

/-- **C38**, the error: opening a file that is already being included is `RecursiveInclude`, naming the file; any
other file is opened. -/
theorem C38_error {c : SCtx} {w : Where} (hc : c.Fits w) (f : Str) (st : CState) :
    (f ∈ w.files → newInclude c f st = .error (.err (.recursiveInclude f))) ∧
    (f ∉ w.files → ∃ r, newInclude c f st = .ok r) := by
  rw [← hc.files]
  unfold newInclude
  constructor
  · intro h
    cases hk : c.checkInclude f with
    | ok u => exact absurd h (SCtx.checkInclude_ok.mp hk)
    | error e => rw [SCtx.checkInclude_err hk]
  · intro h
    rw [SCtx.checkInclude_ok.mpr h]
    exact ⟨_, rfl⟩

/-- **C39**: in a schema that compiles every prefix in the name of an element or attribute, every datatype prefix, and
every inherited prefix is declared where it is used. -/
theorem C39_prefixes_declared (hl : Faithful F l) (h : compileFile F x n m name (.fresh l) = .ok (k, st)) :
    (∀ w nc p, Occurs F name (.pat w (.element nc p)) → nc.Declared w.env) ∧
    (∀ w nc p, Occurs F name (.pat w (.attribute nc p)) → nc.Declared w.env) ∧
    (∀ w pre t lit, Occurs F name (.pat w (.value (some (.cname pre t)) lit)) → ∃ u, w.env.dts.lookup pre = some u) ∧
    (∀ w pre t ps, Occurs F name (.pat w (.data (.cname pre t) ps)) → ∃ u, w.env.dts.lookup pre = some u) ∧
    (∀ w pre t ps ex, Occurs F name (.pat w (.dataExcept (.cname pre t) ps ex)) → ∃ u, w.env.dts.lookup pre = some u) ∧
    (∀ w is path pre os, Occurs F name (.items w is) → .include path (some pre) os ∈ is → ∃ u, w.env.ns.lookup pre = some u) := by
  have hall := (compileFile_places hl rfl h).2
  refine ⟨fun w nc p ho => (hall _ ho).2.1, fun w nc p ho => (hall _ ho).1, fun w pre t lit ho => ?_, fun w pre t ps ho => ?_,
    fun w pre t ps ex ho => ?_, fun w is path pre os ho hi => ?_⟩
  · obtain ⟨n, v, hn, _⟩ := hall _ ho
    simp only [NEnv.dt, Option.getD_some, Option.map_eq_some_iff] at hn
    exact hn.imp fun _ h => h.1
  · obtain ⟨n, v, hn, _⟩ := hall _ ho
    simp only [NEnv.dt, Option.map_eq_some_iff] at hn
    exact hn.imp fun _ h => h.1
  · obtain ⟨n, v, hn, _⟩ := hall _ ho
    simp only [NEnv.dt, Option.map_eq_some_iff] at hn
    exact hn.imp fun _ h => h.1
  · obtain ⟨_, _, _, _, _, _, _, _, hp, _⟩ := hall _ ho _ hi
    exact (hp pre rfl).imp fun _ h => h.1

/-- **C39**, what the implementation asks for beyond that: in the overrides of an include (`w.names` there) only `xml` and
the inherited prefix can be used, although the including file may have declared others. -/
theorem C39_prefixes_known (hl : Faithful F l) (h : compileFile F x n m name (.fresh l) = .ok (k, st)) :
    (∀ w nc p, Occurs F name (.pat w (.element nc p)) → nc.Declared w.names) ∧
    (∀ w nc p, Occurs F name (.pat w (.attribute nc p)) → nc.Declared w.names) ∧
    (∀ w is path pre os, Occurs F name (.items w is) → .include path (some pre) os ∈ is → ∃ u, w.known.lookup pre = some u) := by
  have hall := (compileFile_places hl rfl h).2
  refine ⟨fun w nc p ho => (hall _ ho).2.2, fun w nc p ho => (hall _ ho).2, fun w is path pre os ho hi => ?_⟩
  obtain ⟨_, _, _, _, _, _, _, _, hp, _⟩ := hall _ ho _ hi
  exact (hp pre rfl).imp fun _ h => h.2

/-- **C39**: neither the top-level file nor any included file declares a datatype prefix twice or redeclares `xsd`. -/
theorem C39_datatype_prefixes_once (hl : Faithful F l) (h : compileFile F x n m name (.fresh l) = .ok (k, st)) :
    (∃ s, F.load name = .ok s ∧ ("xsd".toList :: (declDts s.decls).map (·.1)).Nodup) ∧
    (∀ w is path i os f s, Occurs F name (.items w is) → .include path i os ∈ is → F.join w.env.file path = some f →
      F.load f = .ok s → ("xsd".toList :: (declDts s.decls).map (·.1)).Nodup) := by
  obtain ⟨⟨s, hs, hd⟩, hall⟩ := compileFile_places hl rfl h
  refine ⟨⟨s, hs, hd.2.2⟩, fun w is path i os f s ho hi hj hlo => ?_⟩
  obtain ⟨f', s', _, hj', hlo', _, _, hd, _⟩ := hall _ ho _ hi
  rw [hj] at hj'; cases hj'
  rw [hlo] at hlo'; cases hlo'
  exact hd.2.2

/-- **C39**, the error: the second declaration of a datatype prefix is refused, naming the prefix. -/
theorem C39_duplicate_datatype_prefix {f : Str} {s : Nat} {ns dts : List (Str × Str)} {p u : Str} (h : p ∈ dts.map (·.1)) :
    compileDeclaration (.root f s ns dts) (.datatypes p u) = .error (.err (.datatypePrefixAlreadyDefined p)) := by
  simp only [compileDeclaration, SCtx.declareDatatype]
  cases hl : dts.lookup p with
  | none => exact absurd h (lookup_none_iff.mp hl)
  | some v => rfl

/-- **C39**: after the declarations of a file, a namespace prefix stands for its first declaration; `xml` cannot be
redeclared. -/
theorem C39_first_namespace_declaration_wins {f : Str} {s : Nat} {ds : List SDecl} {c : SCtx}
    (h : compileDeclarations (.root f s [("xml".toList, xmlNs)] [("xsd".toList, xsdUri)]) ds = .ok c) (p : Str) :
    c.nsUri p = (("xml".toList, xmlNs) :: declNs ds).lookup p ∧ c.dtUri p = (("xsd".toList, xsdUri) :: declDts ds).lookup p := by
  cases compileDeclarations_root h with
  | root a b => exact ⟨a p, b p⟩

/-- `xml` and `xsd` stand for their standard namespaces -/
def Where.Standard (w : Where) : Prop :=
  w.env.ns.lookup "xml".toList = some "http://www.w3.org/XML/1998/namespace".toList ∧
  w.names.ns.lookup "xml".toList = some "http://www.w3.org/XML/1998/namespace".toList ∧
  w.env.dts.lookup "xsd".toList = some "http://www.w3.org/2001/XMLSchema-datatypes".toList

/-- the place stands where this holds -/
def Place.At (P : Where → Prop) : Place → Prop
  | .pat w _ => P w
  | .items w _ => P w

theorem Within.standard {a b : Place} (h : Within F a b) (ha : a.At Where.Standard) : b.At Where.Standard := by
  cases h with
  | externalPattern => exact ⟨rfl, rfl, rfl⟩
  | included => exact ⟨rfl, rfl, rfl⟩
  | override => exact ⟨ha.1, rfl, ha.2.2⟩
  | _ => exact ha

/-- **C39**: everywhere in a schema, in all its files and overrides, the prefix `xml` stands for the XML namespace and the datatype
prefix `xsd` for the library of XML Schema, without being declared and whatever is declared. -/
theorem C39_predeclared_prefixes {pl : Place} (h : Occurs F name pl) : pl.At Where.Standard := by
  obtain ⟨a, ha, hi⟩ := h
  have hs : a.At Where.Standard := by cases ha <;> exact ⟨rfl, rfl, rfl⟩
  clear ha
  induction hi with
  | refl => exact hs
  | step h1 _ ih => exact ih (h1.standard hs)

/-- a schema with such places -/
example : Occurs Ex.files "main.rnc".toList (.items (.top "main.rnc".toList []) [
    .include "inc.rnc".toList none [.define "item".toList .assign (.element (.ident "item".toList) .text)],
    .define "start".toList .choice (.element (.ident "extra".toList) .empty)]) :=
  ⟨_, .grammar (s := Ex.mainFile) rfl rfl, .refl⟩

end Verif
