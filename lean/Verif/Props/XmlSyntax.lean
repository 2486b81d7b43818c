import Verif.Proof.XmlMain
import Verif.Proof.XmlPath
import Verif.Proof.XmlNoise
import Verif.Proof.XmlMono
import Verif.Props.SchemaMeaning
/-
C44 (references to files), C59 (reading schemas in the XML syntax), C60 (what does not matter in a schema document) and C62
(ill-formed schema documents).
-/
namespace Verif
open XS Rng

/-! ### C59 -/

variable {ok : Str → Bool}

/-- **C59**: every document that is a way of writing a schema is read, as that schema. -/
theorem C59_every_spelling_is_read {root : TNode} {s : SSchema} (h : Schema (fun v => ok v = true) Href root s) :
    parseXml ok root = some s := parseXml_iff.2 (h.mono fun _ _ _ hp => (href_is hp).symm)

/-- **C59**: what is read is a way of writing the schema that results (paths that RFC 3986 and `Href` leave open apart). -/
theorem C59_what_is_read_is_a_spelling {root : TNode} {s : SSchema} (h : parseXml ok root = some s) :
    Schema (fun v => ok v = true) (fun cx h r => ∀ r', Href cx h r' → r = r') root s :=
  (parseXml_iff.1 h).mono (by intro cx h r e r' hp; exact Eq.trans e (href_is hp))

/-- **C59**: no document is a way of writing two schemas. -/
theorem C59_unambiguous {lib : Str → Prop} {root : TNode} {s s' : SSchema} (h : Schema lib Href root s) (h' : Schema lib Href root s') : s = s' := by
  classical
  have e : lib = fun v => (fun v => decide (lib v)) v = true := by funext v; simp
  rw [e] at h h'
  have := (C59_every_spelling_is_read h).symm.trans (C59_every_spelling_is_read h')
  cases this; rfl

/-- The files of a schema in the XML syntax: M:647-663 `Files::load`, M:48-65 `Syntax::parse`. -/
def xmlFiles (ok : Str → Bool) (text : Str → Option (Str × SchemaDoc)) : Files where
  load f := match text f with
    | none => .error .io
    | some (t, d) => match readXml ok t d with
      | .ok s => .ok s
      | .panic => .error .panic
      | .error => .error .parse
  join := joinPath

/-- the documents are ways of writing the schemas -/
def WrittenXml (ok : Str → Bool) (text : Str → Option (Str × SchemaDoc)) (sch : Str → Except LoadErr SSchema) : Prop :=
  ∀ f, (text f = none ∧ sch f = .error .io) ∨
    ∃ t root s, text f = some (t, .tree root) ∧ sch f = .ok s ∧ Schema (fun v => ok v = true) Href root s

/-- **C59**: compiling the documents is compiling what they say. -/
theorem C59_documents_compile_as_schemas {text : Str → Option (Str × SchemaDoc)} {sch : Str → Except LoadErr SSchema} (h : WrittenXml ok text sch) :
    xmlFiles ok text = ⟨sch, joinPath⟩ := by
  unfold xmlFiles
  congr
  funext f
  rcases h f with ⟨h1, h2⟩ | ⟨t, root, s, h1, h2, h3⟩
  · rw [h1, h2]
  · rw [h1, h2]
    simp only [readXml, C59_every_spelling_is_read h3]

/-- **C59**, C53: the schema compiled from documents means what the documents say. -/
theorem C59_compiled_documents_mean_what_they_say {text : Str → Option (Str × SchemaDoc)} {sch : Str → Except LoadErr SSchema} {x : Ext} {n m k : Nat}
    {st : CState} {name : Str} (h : WrittenXml ok text sch) (hc : compileFile (xmlFiles ok text) x n m name (.fresh []) = .ok (k, st)) :
    ∃ r, st.cell k = some r ∧ ∀ node, Match (stdLib x) st.env r.pattern [] [node] ↔ SchemaMatches ⟨sch, joinPath⟩ x name node := by
  rw [C59_documents_compile_as_schemas h] at hc
  exact C53_compiled_schema_means_its_source (l := []) (fun _ _ h => by cases h) hc

/-! ### C60 -/

/-- **C60**: foreign elements, foreign attributes, comments, processing instructions, character data between elements, the order of
attributes and unused prefix declarations do not matter. -/
theorem C60_noise_is_ignored {root root' : TNode} (h : SameBut [root] [root']) : parseXml ok root = parseXml ok root' := parse_same h

/-! ### C44 -/

/-- **C44**: an `href` stands for the path that the `xml:base` attributes around it and RFC 3986 give it. -/
theorem C44_href {cx : Anc} {h r : Str} (hh : Href cx h r) : rebasePath cx h = r := href_is hh

/-- **C44**: a relative reference is resolved against the directory of the file it stands in. -/
theorem C44_relative_path {dir last h : Str} (hd : Dir dir) (h1 : '/' ∉ last) (h2 : last ≠ []) (h3 : last ≠ ['.']) (hh : ¬ Absolute h) :
    joinPath (dir ++ last) h = some (dir ++ h) := by
  unfold joinPath
  rw [parentPath_of hd h1 h2 h3, Option.map_some, strip_push hd fun e => hh (head_absolute.1 e)]

/-- **C44**: an absolute one stands for itself. -/
theorem C44_absolute_path {dir last h : Str} (hd : Dir dir) (h1 : '/' ∉ last) (h2 : last ≠ []) (h3 : last ≠ ['.']) (hh : Absolute h) :
    joinPath (dir ++ last) h = some h := by
  unfold joinPath
  rw [parentPath_of hd h1 h2 h3, Option.map_some]
  unfold pushPath
  rw [if_pos (head_absolute.2 hh)]

/-- **C44**: so an `include` or `externalRef` element in the file `dir/last`, all of whose `xml:base` attributes are absent, loads
`dir/h`. -/
theorem C44_plain_reference {cx : Anc} {dir last h : Str} (hb : Base cx none) (hd : Dir dir) (h1 : '/' ∉ last) (h2 : last ≠ []) (h3 : last ≠ ['.'])
    (hh : ¬ Absolute h) : joinPath (dir ++ last) (rebasePath cx h) = some (dir ++ h) := by
  rw [C44_href (.plain hb), C44_relative_path hd h1 h2 h3 hh]

/-! ### C62 -/

theorem span_fold (ls : List Str) : ∀ a : Nat × Nat, a.2 ≤ a.1 →
    (ls.foldl (fun a l => (a.1 + byteLen (stripCr l), byteLen (stripCr l))) a).2 ≤ (ls.foldl (fun a l => (a.1 + byteLen (stripCr l), byteLen (stripCr l))) a).1 := by
  induction ls with
  | nil => intro a h; exact h
  | cons l ls ih => intro a _; exact ih _ (Nat.le_add_left _ _)

/-- **C62**: every ill-formed schema document makes the program panic: whatever the text and the place of the error (columns count
from one). -/
theorem C62_ill_formed_schema_panics {text : Str} {row col : Nat} (hc : 1 ≤ col) : readXml ok text (.illFormed row col) = .panic := by
  have h := span_fold ((textLines text).take row) (0, 0) (Nat.le_refl _)
  unfold readXml errorSpan
  dsimp only
  split
  · rfl
  · rename_i b e he
    split at he
    · rename_i hcl
      cases he
      rw [subspan, if_neg]
      omega
    · cases he

/-- **C62**: a well-formed document never does: it is read as what it says, or refused if it says nothing. -/
theorem C62_well_formed_schema (ok : Str → Bool) (text : Str) (root : TNode) :
    (∃ s, readXml ok text (.tree root) = .ok s ∧ Schema (fun v => ok v = true) (fun cx h r => ∀ r', Href cx h r' → r = r') root s) ∨
      (readXml ok text (.tree root) = .error ∧ ∀ s, ¬ Schema (fun v => ok v = true) Href root s) := by
  cases h : parseXml ok root with
  | some s => exact .inl ⟨s, by simp only [readXml, h], C59_what_is_read_is_a_spelling h⟩
  | none =>
    refine .inr ⟨by simp only [readXml, h], fun s hs => ?_⟩
    rw [C59_every_spelling_is_read hs] at h
    cases h

end Verif
