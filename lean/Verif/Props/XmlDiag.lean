import Verif.Model.XmlDiag
import Verif.Spec.XmlDiag
import Verif.Props.XmlSpans
import Verif.Props.SchemaDiag
/-
C73: the diagnostics of schemas in the XML syntax.
-/
namespace Verif.RngAt
open Verif Verif.At Verif.LXml Verif.Rng

variable {uri : Str → UriKind} {text : Str → Option (Str × LDoc)} {name : Str} {x : Ext} {n m : Nat}

theorem xmlDiagnostic_inInclude {s : Span} {e : LErr} : xmlDiagnostic uri text (.inInclude s e) = (xmlDiagnostic uri text e).map (wrap s) := by
  simp only [xmlDiagnostic]
  cases xmlDiagnostic uri text e <;> rfl

/-- errors that are not of the parser have the same diagnostic in both syntaxes -/
theorem xmlDiagnostic_other {e : LErr} (h1 : ∀ s e', e ≠ .inInclude s e') (h2 : ∀ f, e ≠ .load f .parse) :
    xmlDiagnostic uri text e = diagnostic (LXml.xmlFiles uri text) (fun _ => 0) e := by
  cases e with
  | inInclude s e => exact (h1 s e rfl).elim
  | load f k => cases k <;> first | exact (h2 f rfl).elim | rfl
  | _ => rfl

theorem load_cases {f : Str} {k : LoadErr} (h : (LXml.xmlFiles uri text).load f = .error k) :
    (text f = none ∧ k = .io) ∨ ∃ t d, text f = some (t, d) ∧
      ((LXml.readXml uri t d = .panic ∧ k = .panic) ∨ (∃ e, LXml.readXml uri t d = .error e ∧ k = .parse) ∨ ∃ r, LXml.readXml uri t d = .xmlError r ∧ k = .parse) := by
  simp only [LXml.xmlFiles] at h
  cases ht : text f with
  | none => rw [ht] at h; cases h; exact .inl ⟨rfl, rfl⟩
  | some p =>
    obtain ⟨t, d⟩ := p
    rw [ht] at h
    dsimp only at h
    refine .inr ⟨t, d, rfl, ?_⟩
    cases hr : LXml.readXml uri t d with
    | ok s => rw [hr] at h; cases h
    | panic => rw [hr] at h; cases h; exact .inl ⟨rfl, rfl⟩
    | error e => rw [hr] at h; cases h; exact .inr (.inl ⟨e, rfl, rfl⟩)
    | xmlError r => rw [hr] at h; cases h; exact .inr (.inr ⟨r, rfl, rfl⟩)

theorem refusal_some {f : Str} (h : (LXml.xmlFiles uri text).load f = .error .parse) : ∃ p, refusal uri text f = some p := by
  rcases load_cases h with ⟨_, hk⟩ | ⟨t, d, ht, ⟨_, hk⟩ | ⟨e, hr, _⟩ | ⟨r, hr, _⟩⟩
  · cases hk
  · cases hk
  · exact ⟨.inl e, by unfold refusal; rw [ht]; dsimp only; rw [hr]⟩
  · exact ⟨.inr r, by unfold refusal; rw [ht]; dsimp only; rw [hr]⟩

theorem xmlDiagnostic_isSome {e : LErr} : (xmlDiagnostic uri text e).isSome = (xmlDiagnostic uri text e.innermost).isSome := by
  induction e with
  | inInclude s e ih => rw [xmlDiagnostic_inInclude, Option.isSome_map, ih]; rfl
  | _ => rfl

/-- **C73**: there is a diagnostic for every error of the compiler of XML schemas, except (it panics) for the same two kinds of errors as in
the compact syntax (C70). -/
theorem C73_panics_iff {e : LErr} (h : At.compileFile (LXml.xmlFiles uri text) x n m name (.fresh []) = .error (.err e)) :
    xmlDiagnostic uri text e = none ↔ Speechless e.innermost := by
  have e1 : xmlDiagnostic uri text e = none ↔ xmlDiagnostic uri text e.innermost = none := by
    have := xmlDiagnostic_isSome (uri := uri) (text := text) (e := e)
    cases h1 : xmlDiagnostic uri text e <;> cases h2 : xmlDiagnostic uri text e.innermost <;> simp [h1, h2] at this ⊢
  have e2 := C70_panics_iff (sa := fun _ => 0) (l := []) nofun h
  have e3 : diagnostic (LXml.xmlFiles uri text) (fun _ => 0) e = none ↔ diagnostic (LXml.xmlFiles uri text) (fun _ => 0) e.innermost = none := by
    have := diagnostic_isSome (F := LXml.xmlFiles uri text) (sa := fun _ => 0) (e := e)
    cases h1 : diagnostic (LXml.xmlFiles uri text) (fun _ => 0) e <;> cases h2 : diagnostic (LXml.xmlFiles uri text) (fun _ => 0) e.innermost <;>
      simp [h1, h2] at this ⊢
  obtain ⟨g, hb⟩ := (C68_errors_point_at_the_fault (l := []) nofun h).innermost
  by_cases hl : ∃ f, e.innermost = .load f .parse
  · obtain ⟨f, hl⟩ := hl
    rw [e1, hl]
    rw [hl] at hb
    cases hb with
    | load hb =>
      obtain ⟨p, hp⟩ := refusal_some hb
      simp only [xmlDiagnostic, hp]
      exact ⟨nofun, nofun⟩
  · rw [e1, xmlDiagnostic_other innermost_not_include (fun f hf => hl ⟨f, hf⟩), ← e3, e2]

/-- **C73**: the first label is the primary one, all others are secondary; only an unreadable file that is not included has no label. -/
theorem C73_one_primary {e : LErr} {d : SDiag} (h : xmlDiagnostic uri text e = some d) :
    (∃ l ls, d.labels = l :: ls ∧ l.style = .primary ∧ ∀ l' ∈ ls, l'.style = .secondary) ∨ (d.labels = [] ∧ ∃ f, e = .load f .io) := by
  induction e generalizing d with
  | inInclude s e ih =>
    rw [xmlDiagnostic_inInclude] at h
    obtain ⟨d', he, rfl⟩ := Option.map_eq_some_iff.1 h
    left
    rcases ih he with ⟨l, ls, h1, h2, h3⟩ | ⟨h1, _⟩
    · refine ⟨l, ls ++ [⟨s, .secondary, some "as included here"⟩], by simp [wrap, h1], h2, ?_⟩
      intro l' hl
      rcases List.mem_append.1 hl with hl | hl
      · exact h3 l' hl
      · rw [List.mem_singleton.1 hl]
    · exact ⟨⟨s, .primary, some "as included here"⟩, [], by simp [wrap, h1], rfl, nofun⟩
  | load f k =>
    cases k with
    | io => cases h; exact .inr ⟨rfl, f, rfl⟩
    | panic => cases h
    | parse =>
      simp only [xmlDiagnostic] at h
      obtain ⟨p, _, rfl⟩ := Option.map_eq_some_iff.1 h
      left
      rcases p with (⟨r, msg⟩ | ⟨r, msg⟩) | r <;> exact ⟨_, [], rfl, rfl, nofun⟩
  | _ => exact C70_one_primary (F := LXml.xmlFiles uri text) (sa := fun _ => 0) h

/-- **C73**: after the labels of the error itself there is one for every include that led to it, innermost first. -/
theorem C73_include_labels {e : LErr} {d : SDiag} (h : xmlDiagnostic uri text e = some d) :
    ∃ d', xmlDiagnostic uri text e.innermost = some d' ∧ d.message = d'.message ∧ d.about = d'.about ∧
      ∃ ls, d.labels = d'.labels ++ ls ∧ ls.map (·.span) = e.chain.reverse ∧ ∀ l ∈ ls, l.words = some "as included here" := by
  induction e generalizing d with
  | inInclude s e ih =>
    rw [xmlDiagnostic_inInclude] at h
    obtain ⟨d1, he, rfl⟩ := Option.map_eq_some_iff.1 h
    obtain ⟨d', h1, h2, h3, ls, h4, h5, h6⟩ := ih he
    refine ⟨d', h1, h2, h3, ls ++ [⟨s, if d1.labels.isEmpty then .primary else .secondary, some "as included here"⟩], ?_, ?_, ?_⟩
    · simp [wrap, h4]
    · simp [LErr.chain, h5]
    · intro l hl
      rcases List.mem_append.1 hl with hl | hl
      · exact h6 l hl
      · rw [List.mem_singleton.1 hl]
  | _ => exact ⟨d, h, rfl, rfl, [], by simp, rfl, nofun⟩

theorem readable_xml {f : Str} (h : At.Readable (LXml.xmlFiles uri text) f) : ∃ t d, text f = some (t, d) := by
  obtain ⟨s, hs⟩ := h
  obtain ⟨t, root, ht, _⟩ := load_xml hs
  exact ⟨t, _, ht⟩

theorem whole_xml {f : Str} (h : At.Readable (LXml.xmlFiles uri text) f) : WholeXml text f (whole (LXml.xmlFiles uri text) f) := by
  obtain ⟨t, d, ht⟩ := readable_xml h
  refine ⟨t, d, ht, ?_⟩
  simp only [whole, LXml.xmlFiles, ht]

/-- what the parser refuses has the fault it is refused for -/
theorem refused_fault (hd : Depicted text) {f t : Str} {doc : LDoc} (ht : text f = some (t, doc)) {e : XErr} (h : LXml.readXml uri t doc = .error e) :
    ∃ root, doc = .tree root ∧ RngAt.Fault uri root e := by
  cases doc with
  | tree root =>
    rcases C71_well_formed_never_panics (uri := uri) (hd _ _ _ ht) with ⟨s, h1, _⟩ | ⟨e', h1, h2⟩
    · rw [h1] at h; cases h
    · rw [h1] at h; cases h; exact ⟨root, rfl, h2⟩
  | illFormed row col =>
    unfold LXml.readXml at h
    dsimp only at h
    split at h
    · cases h
    · split at h <;> cases h

section
variable (hd : Depicted text) (hu : AllUnprefixed text) (hx : NoExternalGrammar (LXml.xmlFiles uri text) name)
  (hi : ∀ f t row col, text f = some (t, .illFormed row col) → 1 ≤ col)
include hd hu hx

theorem showsAt {mk : Mark} {s : Span} (h : Shown (LXml.xmlFiles uri text) name mk s) : ShowsAt text mk s := by
  obtain ⟨txt, ht, hs⟩ := shown_shows hd hu hx h
  unfold textsOf at ht
  obtain ⟨⟨t, d⟩, ht2, rfl⟩ := Option.map_eq_some_iff.1 ht
  exact ⟨t, d, ht2, hs⟩

theorem atXmlDefinition {id : Str} {s : Span} (h : Defines (LXml.xmlFiles uri text) name id s) : AtXmlDefinition text name id s := by
  rcases h with h | ⟨rfl, rfl, sch, p, h, _⟩
  · exact .shown (showsAt hd hu hx h)
  · obtain ⟨t, d, ht⟩ := readable_xml ⟨_, h⟩
    exact .pattern ht

/-- a reference to the parent grammar, reported for the file `name` -/
theorem showsAt_parent (hp : ParentsAtHome (LXml.xmlFiles uri text) name) {id g : Str} {r : Rg} (hm : Marked (LXml.xmlFiles uri text) name (.parent id) g r) :
    ShowsAt text (.parent id) ⟨name, r.lo, r.hi⟩ := by
  obtain ⟨src, t, ho, hh⟩ := hm
  obtain ⟨txt, ht, hr⟩ := C71_marks_are_shown hd hu ho hh
  obtain ⟨r', rfl⟩ : ∃ r, t = .pat (.parent r id) := by
    cases hh with
    | parent => exact ⟨_, rfl⟩
    | valueType h | dataType h | exceptType h => cases h
  rw [(hp _ _ _ _ ho).1] at ht
  unfold textsOf at ht
  obtain ⟨⟨t, d⟩, ht2, rfl⟩ := Option.map_eq_some_iff.1 ht
  exact ⟨t, d, ht2, hr⟩

include hi

theorem xexplains_of_blames (hp : ParentsAtHome (LXml.xmlFiles uri text) name) {g : Str} {e : LErr} (h : Blames (LXml.xmlFiles uri text) x name g e) :
    ∀ d, xmlDiagnostic uri text e = some d → XExplains uri text name x g d := by
  induction h with
  | @load g e h =>
    intro d hdg
    rcases load_cases h with ⟨ht, rfl⟩ | ⟨t, doc, ht, ⟨_, rfl⟩ | ⟨e, hr, rfl⟩ | ⟨r, hr, rfl⟩⟩
    · cases hdg; exact .unreadable ht
    · cases hdg
    · simp only [xmlDiagnostic, refusal, ht, hr, Option.map_some, Option.some.injEq] at hdg
      subst hdg
      obtain ⟨root, rfl, hf⟩ := refused_fault hd ht hr
      have := XExplains.refused (uri := uri) (text := text) (name := name) (x := x) ht hf
      cases e <;> exact this
    · exfalso
      cases doc with
      | tree root =>
        rcases C71_well_formed_never_panics (uri := uri) (hd _ _ _ ht) with ⟨s, h1, _⟩ | ⟨e', h1, h2⟩
        · rw [h1] at hr; cases hr
        · rw [h1] at hr; cases hr
      | illFormed row col =>
        rw [C71_ill_formed_panics (hi _ _ _ _ ht)] at hr
        cases hr
  | included hf hs hj _ ih =>
    intro d hdg
    rw [xmlDiagnostic_inInclude] at hdg
    obtain ⟨d', hd', rfl⟩ := Option.map_eq_some_iff.1 hdg
    exact .included hf (.inl (showsAt hd hu hx hs)) hj (ih d' hd') (by cases d'.labels <;> simp)
  | external hf hs hj _ ih =>
    intro d hdg
    rw [xmlDiagnostic_inInclude] at hdg
    obtain ⟨d', hd', rfl⟩ := Option.map_eq_some_iff.1 hdg
    exact .included hf (.inr (showsAt hd hu hx hs)) hj (ih d' hd') (by cases d'.labels <;> simp)
  | override hf hs _ ih =>
    intro d hdg
    rw [xmlDiagnostic_inInclude] at hdg
    obtain ⟨d', hd', rfl⟩ := Option.map_eq_some_iff.1 hdg
    exact .override hf (.inl (showsAt hd hu hx hs)) (ih d' hd') (by cases d'.labels <;> simp)
  | duplicateDefinition h1 h2 => intro d hdg; cases hdg; exact .duplicate (atXmlDefinition hd hu hx h1) (atXmlDefinition hd hu hx h2)
  | nsPrefix hf hs => intro d hdg; cases hdg; exact .nsPrefix hf (showsAt hd hu hx hs)
  | undefinedReference hs =>
    intro d hdg; cases hdg
    exact .undefined (hs.imp (showsAt hd hu hx) (showsAt hd hu hx))
  | undefinedInGrammar hg => intro d hdg; cases hdg; exact .undefinedSomewhere ⟨readable_xml hg, rfl⟩
  | dtPrefix hf hs =>
    intro d hdg
    obtain ⟨t, d, _, hsh⟩ := showsAt hd hu hx hs
    cases hsh
  | datatypePrefix => intro d hdg; cases hdg
  | noStart hg => intro d hdg; cases hdg; exact .noStart (whole_xml hg) (.inl rfl)
  | noStartExternal _ _ hj hg => intro d hdg; cases hdg; exact .noStart (whole_xml hg) (.inr ⟨_, hj⟩)
  | noStartGrammar hf hs => intro d hdg; cases hdg; exact .noStartGrammar hf (showsAt hd hu hx hs)
  | mixes h1 h2 => intro d hdg; cases hdg; exact .mixes (atXmlDefinition hd hu hx h1) (atXmlDefinition hd hu hx h2)
  | noParent hm _ => intro d hdg; cases hdg; exact .noParent (showsAt_parent hd hu hx hp hm)
  | datatype hf hm hs =>
    intro d hdg
    have hs := showsAt hd hu hx hs
    cases hm with
    | library => cases hdg; exact .library hf hs
    | unknown => cases hdg; exact .nameUnknown hf hs
    | noParams => cases hdg; exact .paramNotAllowed hf hs
    | unsupported => cases hdg; exact .unsupported hf hs
    | invalidValue => cases hdg; exact .invalidValue hf hs
    | @facet e _ _ _ _ h1 h2 =>
      cases e with
      | conflicting => cases hdg
      | _ => cases hdg; exact .facet hf (.facet h1 h2) hs (by decide)
  | datatypeLibrary hg => intro d hdg; cases hdg; exact .librarySomewhere ⟨readable_xml hg, rfl⟩
  | conflictingFacet => intro d hdg; cases hdg
  | recursiveReference hf hf' hs hs' =>
    intro d hdg; cases hdg
    exact .recursive (.inl (showsAt hd hu hx hs)) (by rw [hf, hf']) (showsAt hd hu hx hs')
  | @recursiveParent g id s s' hm hf hs' =>
    intro d hdg; cases hdg
    have hq := showsAt_parent hd hu hx hp hm
    obtain ⟨src, t, ho, hh⟩ := hm
    obtain ⟨r', rfl⟩ : ∃ r, t = .pat (.parent r id) := by
      cases hh with
      | parent => exact ⟨_, rfl⟩
      | valueType h | dataType h | exceptType h => cases h
    have e : s'.file = name := (hp _ _ _ _ ho).2 _ _ hs'.1
    refine .recursive (.inr ?_) hf.symm (showsAt hd hu hx hs')
    have : s = ⟨name, s.lo, s.hi⟩ := by rw [← e, ← hf]
    rw [this]; exact hq
  | elementInAttribute hs hf hs' => intro d hdg; cases hdg; exact .elementInAttribute hf (showsAt hd hu hx hs') (showsAt hd hu hx hs)
  | recursiveInclude hf hs hj =>
    intro d hdg; cases hdg
    exact .recursiveInclude hf (hs.imp (showsAt hd hu hx) (showsAt hd hu hx)) hj
  | notGrammar hg => intro d hdg; cases hdg; exact .notGrammar ⟨readable_xml hg, rfl⟩
  | overrideMissing hs _ _ hj hg => intro d hdg; cases hdg; exact .overrideMissing (showsAt hd hu hx hs) hj (whole_xml hg)

/-- **C73**: the labels of the diagnostic of a schema in the XML syntax point at what the message is about, see `XExplains`; what the
parser refuses a document for is a fault of the document, and the label is where that fault is. -/
theorem C73_diagnostics_point_at_the_fault (hp : ParentsAtHome (LXml.xmlFiles uri text) name) {e : LErr} {d : SDiag}
    (h : At.compileFile (LXml.xmlFiles uri text) x n m name (.fresh []) = .error (.err e)) (hdg : xmlDiagnostic uri text e = some d) :
    XExplains uri text name x name d :=
  xexplains_of_blames hd hu hx hi hp (C68_errors_point_at_the_fault (l := []) nofun h) d hdg

end

theorem Shows.cut {t : Str} {mk : Mark} {r : Rg} (h : Shows t mk r) (hm : ∀ pre, mk ≠ .nsPrefix pre) : ∃ w, Cut t r w := by
  cases h with
  | noLibrary => exact ⟨[], [], t, rfl, rfl, rfl⟩
  | nsPrefix => exact (hm _ rfl).elim
  | element h | «attribute» h | start h | grammar h | param h => exact ⟨_, h⟩
  | ref h | parent h | define h | external h | «include» h | library h | typeName h => exact ⟨_, h⟩

theorem ShowsAt.quotes {mk : Mark} {s : Span} (h : ShowsAt text mk s) (hm : ∀ pre, mk ≠ .nsPrefix pre) : ∃ w, Quotes (textsOf text) s w := by
  obtain ⟨t, d, ht, hs⟩ := h
  obtain ⟨w, hw⟩ := hs.cut hm
  exact ⟨w, t, by unfold textsOf; rw [ht]; rfl, hw⟩

theorem AtXmlDefinition.quotes {id : Str} {s : Span} (h : AtXmlDefinition text name id s) : ∃ w, Quotes (textsOf text) s w := by
  cases h with
  | shown h => exact h.quotes nofun
  | @pattern t d ht => exact ⟨[], t, by unfold textsOf; rw [ht]; rfl, [], t, rfl, rfl, rfl⟩

theorem WholeXml.quotes {f : Str} {s : Span} (h : WholeXml text f s) : ∃ w, Quotes (textsOf text) s w := by
  obtain ⟨t, d, ht, rfl⟩ := h
  exact ⟨t, t, by unfold textsOf; rw [ht]; rfl, [], [], by simp, rfl, by simp [byteLen]⟩

theorem XmlBeginning.quotes {f : Str} {s : Span} (h : XmlBeginning text f s) : ∃ w, Quotes (textsOf text) s w := by
  obtain ⟨⟨t, d, ht⟩, rfl⟩ := h
  exact ⟨[], t, by unfold textsOf; rw [ht]; rfl, [], t, rfl, rfl, rfl⟩

theorem ShowsHref.quotes {path : Str} {s : Span} (h : ShowsHref text path s) : ∃ w, Quotes (textsOf text) s w := by
  rcases h with h | h <;> exact ShowsAt.quotes h nofun

/-- the messages whose label is counted, not measured: it may begin or end inside a character -/
def Counted (d : SDiag) : Prop :=
  d.message = "Undefined namespace prefix {}" ∨ (d.message = "Expected: {}" ∨ d.message = "Unexpected {}") ∧ ∃ w ∈ counted, d.about = some w.toList

/-- **C73**: every label of such a diagnostic is a range of whole characters of its file; but for undefined prefixes and the messages about
names with wrong characters. -/
theorem XExplains.quotes (hd : Depicted text) {g : Str} {d : SDiag} (h : XExplains uri text name x g d) (hc : ¬ Counted d) :
    ∀ l ∈ d.labels, ∃ w, Quotes (textsOf text) l.span w := by
  have one : ∀ {s : Span} {st : Style} {w : Option String}, (∃ w, Quotes (textsOf text) s w) →
      ∀ l ∈ [(⟨s, st, w⟩ : Label)], ∃ w, Quotes (textsOf text) l.span w := by
    intro s st w h l hl; rw [List.mem_singleton.1 hl]; exact h
  have two : ∀ {s s' : Span} {st st' : Style} {w w' : Option String}, (∃ w, Quotes (textsOf text) s w) → (∃ w, Quotes (textsOf text) s' w) →
      ∀ l ∈ [(⟨s, st, w⟩ : Label), ⟨s', st', w'⟩], ∃ w, Quotes (textsOf text) l.span w := by
    intro s s' st st' w w' h h' l hl
    rcases List.mem_cons.1 hl with rfl | hl
    · exact h
    · rw [List.mem_singleton.1 hl]; exact h'
  induction h with
  | unreadable _ => exact nofun
  | @refused g t root e ht hf =>
    have hm : msgOf e ∉ counted := fun hm => hc (.inr ⟨by cases e <;> simp [headOf], msgOf e, hm, rfl⟩)
    obtain ⟨w, hw⟩ := C71_errors_show_a_piece hf (hd _ _ _ ht) hm
    exact one ⟨w, t, by unfold textsOf; rw [ht]; rfl, hw⟩
  | included _ hl _ _ _ ih =>
    intro l hm
    rcases List.mem_append.1 hm with hm | hm
    · exact ih hc l hm
    · rw [List.mem_singleton.1 hm]; exact hl.quotes
  | override _ hl _ _ ih =>
    intro l hm
    rcases List.mem_append.1 hm with hm | hm
    · exact ih hc l hm
    · rw [List.mem_singleton.1 hm]; exact hl.quotes
  | undefined h => rcases h with h | h <;> exact one (h.quotes nofun)
  | undefinedSomewhere h => exact one h.quotes
  | noParent h => exact one (h.quotes nofun)
  | nsPrefix => exact (hc (.inl rfl)).elim
  | library _ h => exact one (h.quotes nofun)
  | librarySomewhere h => exact one h.quotes
  | paramNotAllowed _ h => exact one (h.quotes nofun)
  | nameUnknown _ h => exact one (h.quotes nofun)
  | unsupported _ h => exact one (h.quotes nofun)
  | invalidValue _ h => exact one (h.quotes nofun)
  | facet _ _ h _ => exact one (h.quotes nofun)
  | recursive h _ h' => rcases h with h | h <;> exact two (h.quotes nofun) (h'.quotes nofun)
  | duplicate h h' => exact two h.quotes h'.quotes
  | mixes h h' => exact two h.quotes h'.quotes
  | noStart h _ => exact one h.quotes
  | noStartGrammar _ h => exact one (h.quotes nofun)
  | elementInAttribute _ h h' => exact two (h.quotes nofun) (h'.quotes nofun)
  | recursiveInclude _ h _ => exact one h.quotes
  | notGrammar h => exact one h.quotes
  | overrideMissing h _ h' => exact two (h.quotes nofun) h'.quotes

/-- **C73**: `dump_diagnostic` prints (does not panic): if the emitter prints whatever has labels of whole characters, the error is not one
there is no message for, and the message not one of those whose place is counted. -/
theorem C73_errors_are_printed (hd : Depicted text) (hu : AllUnprefixed text) (hx : NoExternalGrammar (LXml.xmlFiles uri text) name)
    (hi : ∀ f t row col, text f = some (t, .illFormed row col) → 1 ≤ col) (hp : ParentsAtHome (LXml.xmlFiles uri text) name)
    {dump : SDiag → Bool} (hdump : PrintsSchema (textsOf text) dump) {e : LErr}
    (h : At.compileFile (LXml.xmlFiles uri text) x n m name (.fresh []) = .error (.err e)) (hs : ¬ Speechless e.innermost) :
    ∃ d, xmlDiagnostic uri text e = some d ∧ (¬ Counted d → dump d = true) := by
  cases hdg : xmlDiagnostic uri text e with
  | none => exact (hs ((C73_panics_iff h).1 hdg)).elim
  | some d =>
    exact ⟨d, rfl, fun hc => hdump d ((C73_diagnostics_point_at_the_fault hd hu hx hi hp h hdg).quotes hd hc)⟩

end Verif.RngAt
