import Verif.Props.SchemaPlaces
/-
Concrete schemas: the hypotheses of C36–C39 are met, and (C40, C55) what the compiler gets wrong or leaves unchecked.
-/
namespace Verif.Ex
open Verif

/-- a directory of files; `join` ignores the including file -/
def dir (l : List (Str × SSchema)) : Files where
  load f := match l.lookup f with
    | some s => .ok s
    | none => .error .io
  join _ lit := some lit

def str (s : String) : Str := s.toList
def el (n : String) (p : SPattern) : SPattern := .element (.ident n.toList) p
def def' (n : String) (p : SPattern) : SItem := .define n.toList .assign p

/-- the outcome of compiling `main` -/
def outcome (fs : List (Str × SSchema)) : Except CFault (List (Option DefineRule)) :=
  match compileFile (dir fs) ext 30 30 (str "main") (.fresh []) with
  | .ok (_, st) => .ok st.cells
  | .error e => .error e

theorem faithful_nil {fs : List (Str × SSchema)} : Faithful (dir fs) [] := nofun

theorem root_items {fs : List (Str × SSchema)} {ds : List SDecl} {is : List SItem} (h : fs.lookup (str "main") = some ⟨ds, .grammar is⟩) :
    Occurs (dir fs) (str "main") (.items (.top (str "main") ds) is) :=
  ⟨_, .grammar (s := ⟨ds, .grammar is⟩) (by simp [dir, h]) rfl, .refl⟩

/-! ### C36 -/

/-- `start = a   a = attribute x { (a | text)* }` is refused -/
theorem C36_case : ∀ n m k st, compileFile (dir [(str "main", ⟨[], .grammar [def' "start" (.ident (str "a")),
      def' "a" (.attribute (.ident (str "x")) (.zeroOrMore (.choice (.ident (str "a")) .text)))]⟩)]) ext n m (str "main") (.fresh []) ≠ .ok (k, st) :=
  fun _ _ _ _ => C36_self_reference_rejected faithful_nil (root_items rfl) (.tail _ (.head _))
    (.attribute (.zeroOrMore (.choiceLeft .here)))

/-- **C36**, what is not detected: a cycle through two definitions.  `start = element r { a }   a = b | empty
b = a | empty` compiles.  (The validator then never answers, see `C07_unguarded_recursion_diverges`.) -/
theorem C36_longer_cycles_accepted :
    outcome [(str "main", ⟨[], .grammar [def' "start" (el "r" (.ident (str "a"))), def' "a" (.choice (.ident (str "b")) .empty),
      def' "b" (.choice (.ident (str "a")) .empty)]⟩)] =
    .ok [some (.assignCombine none (.choice [.ref 2, .empty])), some (.assignCombine none (.element (.named [] (str "r")) (.ref 0))),
      some (.assignCombine none (.choice [.ref 0, .empty]))] := rfl

/-! ### C37 -/

/-- `start = element r { attribute x { (text | element y { empty })? } }` is refused -/
theorem C37_case : ∀ n m k st, compileFile (dir [(str "main", ⟨[], .grammar [def' "start" (el "r"
      (.attribute (.ident (str "x")) (.optional (.choice .text (el "y" .empty)))))]⟩)]) ext n m (str "main") (.fresh []) ≠ .ok (k, st) :=
  fun _ _ _ _ => C37_element_in_attribute_rejected (nc := .ident (str "x")) faithful_nil
    ((root_items rfl).inside (.step (.define (.head _)) (.step .element .refl))) (.optional (.choiceRight .here))

/-- **C37**, what is not detected: the element is behind a reference.  `start = element r { attribute x { a } }
a = element y { empty }` compiles. -/
theorem C37_through_reference_accepted :
    ∃ cells, outcome [(str "main", ⟨[], .grammar [def' "start" (el "r" (.attribute (.ident (str "x")) (.ident (str "a")))),
      def' "a" (el "y" .empty)]⟩)] = .ok cells := ⟨_, rfl⟩

/-! ### C38 -/

def loopFiles : List (Str × SSchema) :=
  [(str "main", ⟨[], .grammar [.include (str "inc") none [], def' "start" (el "r" .empty)]⟩),
   (str "inc", ⟨[], .grammar [.div [.include (str "main") none []]]⟩)]

/-- `main` includes `inc`, `inc` includes `main`: refused, when `inc` is reached for the second time (the top-level
file is not among the files being included) -/
theorem C38_case : (∀ n m k st, compileFile (dir loopFiles) ext n m (str "main") (.fresh []) ≠ .ok (k, st)) ∧
    outcome loopFiles = .error (.err (.inInclude (.inInclude (.recursiveInclude (str "inc"))))) := by
  refine ⟨fun n m k st => ?_, rfl⟩
  have h1 : Occurs (dir loopFiles) (str "main") _ := (root_items (fs := loopFiles) rfl).inside
    (.step (.included (path := str "inc") (inherit := none) (os := []) (f := str "inc")
      (s := ⟨[], .grammar [.div [.include (str "main") none []]]⟩) (.head _) rfl rfl .grammar)
    (.step (.div (.head _)) (.step (.included (path := str "main") (inherit := none) (os := []) (f := str "main")
      (s := ⟨[], .grammar [.include (str "inc") none [], def' "start" (el "r" .empty)]⟩) (.head _) rfl rfl .grammar) .refl)))
  exact C38_recursive_include_rejected faithful_nil h1 (.head _) rfl (.tail _ (.head _))

/-! ### C39 -/

/-- `namespace p = "u"   namespace p = "v"   datatypes d = "w"   start = element p:r { empty }`: `p` is `u` -/
theorem C39_case : outcome [(str "main", ⟨[.namespace (str "p") (some (str "u")), .namespace (str "p") (some (str "v")), .datatypes (str "d") (str "w")],
      .grammar [def' "start" (.element (.cname (str "p") (str "r")) .empty)]⟩)] =
    .ok [some (.assignCombine none (.element (.named (str "u") (str "r")) .empty))] := rfl

/-- an undeclared prefix, a datatype prefix declared twice, `xsd` redeclared -/
theorem C39_errors :
    outcome [(str "main", ⟨[], .grammar [def' "start" (.element (.cname (str "p") (str "r")) .empty)]⟩)] =
      .error (.err (.undefinedNamespacePrefix (str "p"))) ∧
    outcome [(str "main", ⟨[.datatypes (str "d") (str "w"), .datatypes (str "d") (str "w")], .grammar [def' "start" (el "r" .empty)]⟩)] =
      .error (.err (.datatypePrefixAlreadyDefined (str "d"))) ∧
    outcome [(str "main", ⟨[.datatypes (str "xsd") (str "w")], .grammar [def' "start" (el "r" .empty)]⟩)] =
      .error (.err (.datatypePrefixAlreadyDefined (str "xsd"))) := ⟨rfl, rfl, rfl⟩

/-- `namespace p = "u"   include "inc" { b = element p:new { empty } }`: the prefix `p` is declared in this very file, but
in the override only an inherited prefix is known; with `inherit = p` the schema compiles -/
theorem C39_override_prefixes (i : Option Str) (h : i = none ∨ i = some (str "p")) :
    outcome [(str "main", ⟨[.namespace (str "p") (some (str "u"))], .grammar [.include (str "inc") i
        [.define (str "start") .assign (.element (.cname (str "p") (str "new")) .empty)]]⟩),
      (str "inc", ⟨[], .grammar [def' "start" .empty]⟩)] =
    match i with
    | none => .error (.err (.inInclude (.undefinedNamespacePrefix (str "p"))))
    | some _ => .ok [some (.assignCombine none (.element (.named (str "u") (str "new")) .empty))] := by
  rcases h with rfl | rfl <;> rfl

/-! ### C40 -/

/-- what the compiler makes of an unprefixed element name, whatever the declarations: a name in no namespace -/
theorem C40_unprefixed_names (c : SCtx) (isElement : Bool) (id : Str) :
    compileNameclass c isElement (.ident id) = .ok (.named [] id) := by
  cases isElement <;> rfl

/-- `default namespace = "u"   start = element r { empty }` accepts `<r/>`, in no namespace -/
theorem C40_case : outcome [(str "main", ⟨[.defaultNamespace none (some (str "u"))], .grammar [def' "start" (el "r" .empty)]⟩)] =
    .ok [some (.assignCombine none (.element (.named [] (str "r")) .empty))] := rfl

/-! ### C55 -/

/-- **C55** (a): the declarations of a file used by `external` are not read: a prefix declared there is undeclared. -/
theorem C55_external_declarations_ignored :
    outcome [(str "main", ⟨[], .pattern (.external (str "ext") none)⟩),
      (str "ext", ⟨[.namespace (str "p") (some (str "u"))], .pattern (.element (.cname (str "p") (str "r")) .empty)⟩)] =
    .error (.err (.inInclude (.undefinedNamespacePrefix (str "p")))) := rfl

/-- **C55** (b): a grammar used by `external` is read with the prefixes of the using file. -/
theorem C55_external_grammar_uses_callers_prefixes :
    outcome [(str "main", ⟨[.namespace (str "p") (some (str "caller"))], .grammar [def' "start" (.external (str "ext") none)]⟩),
      (str "ext", ⟨[.namespace (str "p") (some (str "own"))], .grammar [def' "start" (.element (.cname (str "p") (str "r")) .empty)]⟩)] =
    .ok [none, some (.assignCombine none (.element (.named (str "caller") (str "r")) .empty))] := rfl

/-- **C55** (c): a nested grammar whose definitions refer to its own `start` is refused as having an undefined
reference: `start` is moved out of the grammar. -/
theorem C55_nested_grammar_start_unusable :
    outcome [(str "main", ⟨[], .grammar [def' "start" (.grammar [def' "start" (el "r" (.optional (.ident (str "start"))))])]⟩)] =
    .error (.err (.undefinedReference [])) := rfl

/-- **C55** (d): in an override the prefixes of the file it is written in are not known. -/
theorem C55_override_prefixes_unknown :
    outcome [(str "main", ⟨[.namespace (str "p") (some (str "u"))],
        .grammar [.include (str "inc") none [.define (str "a") .assign (.element (.cname (str "p") (str "r")) .empty)]]⟩),
      (str "inc", ⟨[], .grammar [def' "start" (.ident (str "a")), def' "a" .notAllowed]⟩)] =
    .error (.err (.inInclude (.undefinedNamespacePrefix (str "p")))) := rfl

end Verif.Ex
