import Verif.Spec.SchemaDiag
import Verif.Props.CompactSpans
import Verif.Props.Tool
/-
C70: the diagnostics of the schema compiler.
-/
namespace Verif.At
open Verif

section
variable {F : LFiles} {x : Ext} {n m : Nat} {name : Str} {sa : Str → Nat}

/-- the label of an include -/
def wrap (s : Span) (d : SDiag) : SDiag :=
  { d with labels := d.labels ++ [⟨s, if d.labels.isEmpty then .primary else .secondary, some "as included here"⟩] }

theorem diagnostic_inInclude {s : Span} {e : LErr} : diagnostic F sa (.inInclude s e) = (diagnostic F sa e).map (wrap s) := by
  simp only [diagnostic]
  cases diagnostic F sa e <;> rfl

theorem diagnostic_isSome {e : LErr} : (diagnostic F sa e).isSome = (diagnostic F sa e.innermost).isSome := by
  induction e with
  | inInclude s e ih => rw [diagnostic_inInclude, Option.isSome_map, ih]; rfl
  | _ => rfl

theorem Blames.innermost {g : Str} {e : LErr} (h : Blames F x name g e) : ∃ g', Blames F x name g' e.innermost := by
  induction h with
  | included _ _ _ _ ih => exact ih
  | external _ _ _ _ ih => exact ih
  | override _ _ _ ih => exact ih
  | load h => exact ⟨_, .load h⟩
  | duplicateDefinition h1 h2 => exact ⟨name, .duplicateDefinition h1 h2⟩
  | nsPrefix h1 h2 => exact ⟨_, .nsPrefix h1 h2⟩
  | undefinedReference h => exact ⟨name, .undefinedReference h⟩
  | undefinedInGrammar h => exact ⟨_, .undefinedInGrammar h⟩
  | dtPrefix h1 h2 => exact ⟨_, .dtPrefix h1 h2⟩
  | datatypePrefix => exact ⟨name, .datatypePrefix⟩
  | noStart h => exact ⟨_, .noStart h⟩
  | noStartExternal h1 h2 h3 h4 => exact ⟨_, .noStartExternal h1 h2 h3 h4⟩
  | noStartGrammar h1 h2 => exact ⟨_, .noStartGrammar h1 h2⟩
  | mixes h1 h2 => exact ⟨name, .mixes h1 h2⟩
  | noParent h1 h2 => exact ⟨_, .noParent h1 h2⟩
  | datatype h1 h2 h3 => exact ⟨_, .datatype h1 h2 h3⟩
  | datatypeLibrary h => exact ⟨_, .datatypeLibrary h⟩
  | conflictingFacet => exact ⟨name, .conflictingFacet⟩
  | recursiveReference h1 h2 h3 h4 => exact ⟨_, .recursiveReference h1 h2 h3 h4⟩
  | recursiveParent h1 h2 h3 => exact ⟨_, .recursiveParent h1 h2 h3⟩
  | elementInAttribute h1 h2 h3 => exact ⟨_, .elementInAttribute h1 h2 h3⟩
  | recursiveInclude h1 h2 h3 => exact ⟨_, .recursiveInclude h1 h2 h3⟩
  | notGrammar h => exact ⟨_, .notGrammar h⟩
  | overrideMissing h1 h2 h3 h4 h5 => exact ⟨_, .overrideMissing h1 h2 h3 h4 h5⟩

theorem innermost_not_include {e : LErr} : ∀ s e', e.innermost ≠ .inInclude s e' := by
  induction e with
  | inInclude s e ih => exact ih
  | _ => nofun

/-- **C70**: there is a diagnostic for every error of the schema compiler, except (it panics) for two kinds of errors: parameters of a
datatype that contradict each other, and a datatype prefix declared twice; in whatever file. -/
theorem C70_panics_iff {l : List (Str × LSchema)} (hl : LFaithful F l) {e : LErr} (h : compileFile F x n m name (.fresh l) = .error (.err e)) :
    diagnostic F sa e = none ↔ Speechless e.innermost := by
  have hb := C68_errors_point_at_the_fault hl h
  obtain ⟨g, hb⟩ := hb.innermost
  have e1 : diagnostic F sa e = none ↔ diagnostic F sa e.innermost = none := by
    have := diagnostic_isSome (F := F) (sa := sa) (e := e)
    cases h1 : diagnostic F sa e <;> cases h2 : diagnostic F sa e.innermost <;> simp [h1, h2] at this ⊢
  rw [e1]
  have hne := @innermost_not_include e
  generalize e.innermost = i at *
  cases i with
  | inInclude s e' => exact (hne s e' rfl).elim
  | load f k => cases k <;> first | exact ⟨fun _ => .parser, fun _ => rfl⟩ | exact ⟨nofun, nofun⟩
  | datatypePrefixAlreadyDefined p => exact ⟨fun _ => .datatypePrefix, fun _ => rfl⟩
  | datatype s k =>
    cases s with
    | none => cases hb; exact ⟨fun _ => .conflictingFacet, fun _ => rfl⟩
    | some s =>
      cases k with
      | unsupportedLibrary => exact ⟨nofun, nofun⟩
      | relax k => cases k <;> exact ⟨nofun, nofun⟩
      | xsd k =>
        cases k with
        | facet k => cases k <;> first | exact ⟨fun _ => .conflictingFacet, fun _ => rfl⟩ | exact ⟨nofun, nofun⟩
        | _ => exact ⟨nofun, nofun⟩
  | _ => exact ⟨nofun, nofun⟩

/-- **C70**: the first label is the primary one, all others are secondary; only an unreadable file that is not included has no label. -/
theorem C70_one_primary {e : LErr} {d : SDiag} (h : diagnostic F sa e = some d) :
    (∃ l ls, d.labels = l :: ls ∧ l.style = .primary ∧ ∀ l' ∈ ls, l'.style = .secondary) ∨ (d.labels = [] ∧ ∃ f, e = .load f .io) := by
  induction e generalizing d with
  | inInclude s e ih =>
    rw [diagnostic_inInclude] at h
    cases he : diagnostic F sa e with
    | none => rw [he] at h; cases h
    | some d' =>
      rw [he] at h
      cases h
      left
      rcases ih he with ⟨l, ls, h1, h2, h3⟩ | ⟨h1, _⟩
      · refine ⟨l, ls ++ [⟨s, .secondary, some "as included here"⟩], by simp [wrap, h1], h2, ?_⟩
        intro l' hl
        rcases List.mem_append.1 hl with hl | hl
        · exact h3 l' hl
        · rw [List.mem_singleton.1 hl]
      · exact ⟨⟨s, .primary, some "as included here"⟩, [], by simp [wrap, h1], rfl, nofun⟩
  | load f k => cases k <;> cases h
                · exact .inr ⟨rfl, f, rfl⟩
                · exact .inl ⟨_, [], rfl, rfl, nofun⟩
  | datatypePrefixAlreadyDefined p => cases h
  | datatype s k =>
    cases s with
    | none => cases h
    | some s =>
      left
      cases k with
      | unsupportedLibrary => cases h; exact ⟨_, [], rfl, rfl, nofun⟩
      | relax k => cases k <;> cases h <;> exact ⟨_, [], rfl, rfl, nofun⟩
      | xsd k =>
        cases k with
        | facet k => cases k <;> cases h <;> exact ⟨_, [], rfl, rfl, nofun⟩
        | _ => cases h; exact ⟨_, [], rfl, rfl, nofun⟩
  | recursiveReference | duplicateDefinition | mixesChoiceAndInterleave | elementAsChildOfAttribute | overrideMissingFromInclude =>
    cases h
    exact .inl ⟨_, _, rfl, rfl, by intro l hl; rw [List.mem_singleton.1 hl]; rfl⟩
  | _ => cases h; exact .inl ⟨_, [], rfl, rfl, nofun⟩

/-- **C70**: after the labels of the error itself there is one for every include that led to it, innermost first. -/
theorem C70_include_labels {e : LErr} {d : SDiag} (h : diagnostic F sa e = some d) :
    ∃ d', diagnostic F sa e.innermost = some d' ∧ d.message = d'.message ∧ d.about = d'.about ∧
      ∃ ls, d.labels = d'.labels ++ ls ∧ ls.map (·.span) = e.chain.reverse ∧ ∀ l ∈ ls, l.words = some "as included here" := by
  induction e generalizing d with
  | inInclude s e ih =>
    rw [diagnostic_inInclude] at h
    cases he : diagnostic F sa e with
    | none => rw [he] at h; cases h
    | some d1 =>
      rw [he] at h
      cases h
      obtain ⟨d', h1, h2, h3, ls, h4, h5, h6⟩ := ih he
      refine ⟨d', h1, h2, h3, ls ++ [⟨s, if d1.labels.isEmpty then .primary else .secondary, some "as included here"⟩], ?_, ?_, ?_⟩
      · simp [wrap, h4]
      · simp [LErr.chain, h5]
      · intro l hl
        rcases List.mem_append.1 hl with hl | hl
        · exact h6 l hl
        · rw [List.mem_singleton.1 hl]
  | _ => exact ⟨d, h, rfl, rfl, [], by simp, rfl, nofun⟩

end

section
variable {text : Str → Option Str} {join : Str → Str → Option Str} {name : Str} {x : Ext} {n m : Nat} {sa : Str → Nat}

theorem readable_text {f : Str} (h : Readable (LCompact.compactFiles text join) f) : ∃ t, text f = some t := by
  obtain ⟨s, hs⟩ := h
  obtain ⟨t, ht, _⟩ := load_ok hs
  exact ⟨t, ht⟩

theorem whole_file {f : Str} (h : Readable (LCompact.compactFiles text join) f) : WholeFile text f (whole (LCompact.compactFiles text join) f) := by
  obtain ⟨t, ht⟩ := readable_text h
  refine ⟨t, ht, ?_⟩
  simp only [whole, LCompact.compactFiles, ht]

section
variable (hx : NoExternalGrammar (LCompact.compactFiles text join) name)
include hx

theorem atDefinition_shown {id : Str} {s : Span} (h : Shown (LCompact.compactFiles text join) name (.define id) s) : AtDefinition text name id s := by
  obtain ⟨txt, t, ht, hr⟩ := C69_shown_is_read hx h
  cases hr with
  | define hc => exact .name ⟨txt, ht, hc⟩
  | start h1 h2 h3 =>
    obtain ⟨f, lo, hi⟩ := s
    rename_i r'
    obtain ⟨lo', hi'⟩ := r'
    cases h3
    have : hi = lo := by
      obtain ⟨_, _, _, h4, h5⟩ := h1
      simp only [byteLen, Nat.add_zero] at h4 h5
      rw [h4, h5]; rfl
    subst this
    exact .start (k' := hi') ⟨txt, ht, h2⟩

theorem atDefinition {id : Str} {s : Span} (h : Defines (LCompact.compactFiles text join) name id s) : AtDefinition text name id s := by
  rcases h with h | ⟨rfl, rfl, sch, p, h, _⟩
  · exact atDefinition_shown hx h
  · exact .pattern (readable_text ⟨_, h⟩)

theorem shows_include {lit : Str} {s : Span} (h : Shown (LCompact.compactFiles text join) name (.include lit) s) : ShowsLiteral text lit s := by
  obtain ⟨txt, t, ht, hr⟩ := C69_shown_is_read hx h
  cases hr with
  | «include» hc hl => exact ⟨_, hl, txt, ht, hc⟩

theorem shows_external {lit : Str} {s : Span} (h : Shown (LCompact.compactFiles text join) name (.external lit) s) : ShowsLiteral text lit s := by
  obtain ⟨txt, t, ht, hr⟩ := C69_shown_is_read hx h
  cases hr with
  | external hc hl => exact ⟨_, hl, txt, ht, hc⟩

theorem shows_part {mk : Mark} {s : Span} (h : Shown (LCompact.compactFiles text join) name mk s) : ShowsPart text join name mk s := by
  obtain ⟨⟨src, t, ho, hh⟩, _⟩ := h
  have e : s.file = src := hx.own ho
  subst e
  obtain ⟨txt, ht, hr⟩ := C69_marks_are_read ho hh
  exact ⟨t, txt, ho, hh, ht, hr⟩

/-- a reference to the parent grammar, reported for the file `f` -/
theorem quotes_parent (hp : ParentsAtHome (LCompact.compactFiles text join) name) {id g : Str} {r : Rg}
    (hm : Marked (LCompact.compactFiles text join) name (.parent id) g r) : Quotes text ⟨name, r.lo, r.hi⟩ id ∧ Rnc.Ident id := by
  obtain ⟨src, t, ho, hh⟩ := hm
  obtain ⟨txt, ht, hr⟩ := C69_marks_are_read ho hh
  cases hr with
  | parent hc hi =>
    obtain ⟨r', rfl⟩ : ∃ r, t = .pat (.parent r id) := by
      cases hh with
      | parent => exact ⟨_, rfl⟩
      | valueType h | dataType h | exceptType h => cases h
    refine ⟨⟨txt, ?_, hc⟩, hi⟩
    rw [(hp _ _ _ _ ho).1] at ht
    exact ht

theorem explains_of_blames (hp : ParentsAtHome (LCompact.compactFiles text join) name) {g : Str} {e : LErr}
    (h : Blames (LCompact.compactFiles text join) x name g e) :
    ∀ d, diagnostic (LCompact.compactFiles text join) sa e = some d → Explains text join name x sa g d := by
  induction h with
  | load h =>
    intro d hd
    rename_i g e
    simp only [LCompact.compactFiles] at h
    cases ht : text g with
    | none =>
      rw [ht] at h
      cases h; cases hd; exact .unreadable ht
    | some t =>
      rw [ht] at h
      dsimp only at h
      have hs : (LCompact.compactFiles text join).size g = byteLen t := by simp only [LCompact.compactFiles, ht]
      cases hr : LCompact.readCompact t with
      | ok s => rw [hr] at h; cases h
      | panic => rw [hr] at h; cases h; cases hd
      | _ =>
        rw [hr] at h; cases h
        simp only [diagnostic, Option.some.injEq, hs] at hd
        subst hd
        exact .syntaxError ht (by rw [hr]; nofun)
  | included hf hs hj _ ih =>
    intro d hd
    rw [diagnostic_inInclude] at hd
    obtain ⟨d', hd', rfl⟩ := Option.map_eq_some_iff.1 hd
    exact .included hf (shows_include hx hs) hj (ih d' hd') (by cases d'.labels <;> simp)
  | external hf hs hj _ ih =>
    intro d hd
    rw [diagnostic_inInclude] at hd
    obtain ⟨d', hd', rfl⟩ := Option.map_eq_some_iff.1 hd
    exact .included hf (shows_external hx hs) hj (ih d' hd') (by cases d'.labels <;> simp)
  | override hf hs _ ih =>
    intro d hd
    rw [diagnostic_inInclude] at hd
    obtain ⟨d', hd', rfl⟩ := Option.map_eq_some_iff.1 hd
    exact .override hf (shows_include hx hs) (ih d' hd') (by cases d'.labels <;> simp)
  | duplicateDefinition h1 h2 => intro d hd; cases hd; exact .duplicate (atDefinition hx h1) (atDefinition hx h2)
  | nsPrefix hf hs =>
    intro d hd; cases hd
    obtain ⟨txt, t, ht, hr⟩ := C69_shown_is_read hx hs
    cases hr with
    | nsPrefix hc => exact .nsPrefix hf ⟨txt, ht, hc⟩
  | undefinedReference hs =>
    intro d hd; cases hd
    refine .undefined ?_
    rcases hs with hs | hs
    · obtain ⟨txt, t, ht, hr⟩ := C69_shown_is_read hx hs
      cases hr with
      | ref hc => exact ⟨txt, ht, hc⟩
    · obtain ⟨txt, t, ht, hr⟩ := C69_shown_is_read hx hs
      cases hr with
      | parent hc => exact ⟨txt, ht, hc⟩
  | undefinedInGrammar hg => intro d hd; cases hd; exact .undefinedSomewhere ⟨readable_text hg, rfl⟩
  | dtPrefix hf hs =>
    intro d hd; cases hd
    obtain ⟨txt, t, ht, hr⟩ := C69_shown_is_read hx hs
    cases hr with
    | dtPrefix hc => exact .dtPrefix hf ⟨txt, ht, hc⟩
  | datatypePrefix => intro d hd; cases hd
  | noStart hg => intro d hd; cases hd; exact .noStart (whole_file hg) (.inl rfl)
  | noStartExternal _ _ hj hg => intro d hd; cases hd; exact .noStart (whole_file hg) (.inr ⟨_, hj⟩)
  | noStartGrammar hf hs =>
    intro d hd; cases hd
    obtain ⟨txt, t, ht, hr⟩ := C69_shown_is_read hx hs
    cases hr with
    | grammar hc hg => exact .noStartGrammar hf hg ⟨txt, ht, hc⟩
  | mixes h1 h2 => intro d hd; cases hd; exact .mixes (atDefinition hx h1) (atDefinition hx h2)
  | noParent hm _ =>
    intro d hd; cases hd
    obtain ⟨h1, h2⟩ := quotes_parent hx hp hm
    exact .noParent h1 h2
  | datatype hf hm hs =>
    intro d hd
    have hs := shows_part hx hs
    cases hm with
    | library => cases hd; exact .library hf hs
    | unknown => cases hd; exact .nameUnknown hf hs
    | noParams => cases hd; exact .paramNotAllowed hf hs
    | unsupported => cases hd; exact .unsupported hf hs
    | invalidValue => cases hd; exact .invalidValue hf hs
    | @facet e _ _ _ _ h1 h2 =>
      cases e with
      | conflicting => cases hd
      | _ => cases hd; exact .facet hf (.facet h1 h2) hs (by decide)
  | datatypeLibrary hg => intro d hd; cases hd; exact .librarySomewhere ⟨readable_text hg, rfl⟩
  | conflictingFacet => intro d hd; cases hd
  | recursiveReference hf hf' hs hs' =>
    intro d hd; cases hd
    obtain ⟨txt, t, ht, hr⟩ := C69_shown_is_read hx hs
    cases hr with
    | ref hc => exact .recursive ⟨txt, ht, hc⟩ (by rw [hf, hf']) (atDefinition_shown hx hs')
  | recursiveParent hm hf hs' =>
    intro d hd; cases hd
    rename_i g id s s'
    have hq := (quotes_parent hx hp hm).1
    obtain ⟨src, t, ho, hh⟩ := hm
    obtain ⟨r', rfl⟩ : ∃ r, t = .pat (.parent r id) := by
      cases hh with
      | parent => exact ⟨_, rfl⟩
      | valueType h | dataType h | exceptType h => cases h
    have e : s'.file = name := (hp _ _ _ _ ho).2 _ _ hs'.1
    refine .recursive ?_ hf.symm (atDefinition_shown hx hs')
    have : s = ⟨name, s.lo, s.hi⟩ := by rw [← e, ← hf]
    rw [this]; exact hq
  | elementInAttribute hs hf hs' =>
    intro d hd; cases hd
    obtain ⟨txt, t, ht, hr⟩ := C69_shown_is_read hx hs
    obtain ⟨txt', t', ht', hr'⟩ := C69_shown_is_read hx hs'
    cases hr with
    | «attribute» hc hp =>
      cases hr' with
      | element hc' hp' => exact .elementInAttribute hf hp' ⟨txt', ht', hc'⟩ hp ⟨txt, ht, hc⟩
  | recursiveInclude hf hs hj =>
    intro d hd; cases hd
    exact .recursiveInclude hf (hs.elim (shows_include hx) (shows_external hx)) hj
  | notGrammar hg => intro d hd; cases hd; exact .notGrammar ⟨readable_text hg, rfl⟩
  | overrideMissing hs _ _ hj hg => intro d hd; cases hd; exact .overrideMissing (atDefinition_shown hx hs) hj (whole_file hg)

/-- **C70**: the labels of the diagnostic of a schema point at what the message is about, see `Explains`. -/
theorem C70_diagnostics_point_at_the_fault (hp : ParentsAtHome (LCompact.compactFiles text join) name) {e : LErr} {d : SDiag}
    (h : compileFile (LCompact.compactFiles text join) x n m name (.fresh []) = .error (.err e))
    (hd : diagnostic (LCompact.compactFiles text join) sa e = some d) : Explains text join name x sa name d :=
  explains_of_blames hx hp (C68_errors_point_at_the_fault (l := []) nofun h) d hd

end

theorem AtDefinition.quotes {id : Str} {s : Span} (h : AtDefinition text name id s) : ∃ w, Quotes text s w := by
  cases h with
  | name h => exact ⟨_, h⟩
  | start h =>
    obtain ⟨txt, ht, pre, post, h1, h2, _⟩ := h
    refine ⟨[], txt, ht, pre, "start".toList ++ post, ?_, h2, h2⟩
    rw [h1]; simp
  | pattern h =>
    obtain ⟨t, ht⟩ := h
    exact ⟨[], t, ht, [], t, rfl, rfl, rfl⟩

theorem WholeFile.quotes {f : Str} {s : Span} (h : WholeFile text f s) : ∃ w, Quotes text s w := by
  obtain ⟨t, ht, rfl⟩ := h
  exact ⟨t, t, ht, [], [], by simp, rfl, by simp [byteLen]⟩

theorem Beginning.quotes {f : Str} {s : Span} (h : Beginning text f s) : ∃ w, Quotes text s w := by
  obtain ⟨⟨t, ht⟩, rfl⟩ := h
  exact ⟨[], t, ht, [], t, rfl, rfl, rfl⟩

theorem ShowsPart.quotes {mk : Mark} {s : Span} (h : ShowsPart text join name mk s) : ∃ w, Quotes text s w := by
  obtain ⟨t, txt, _, _, ht, hr⟩ := h
  obtain ⟨w, hc⟩ := hr.cut
  exact ⟨w, txt, ht, hc⟩

/-- **C70**: every label of such a diagnostic is a range of whole characters of its file. -/
theorem Explains.quotes (hs : GivesUpInside text sa) {g : Str} {d : SDiag} (h : Explains text join name x sa g d) :
    ∀ l ∈ d.labels, ∃ w, Quotes text l.span w := by
  have one : ∀ {s : Span} {st : Style} {w : Option String}, (∃ w, Quotes text s w) → ∀ l ∈ [(⟨s, st, w⟩ : Label)], ∃ w, Quotes text l.span w := by
    intro s st w h l hl; rw [List.mem_singleton.1 hl]; exact h
  have two : ∀ {s s' : Span} {st st' : Style} {w w' : Option String}, (∃ w, Quotes text s w) → (∃ w, Quotes text s' w) →
      ∀ l ∈ [(⟨s, st, w⟩ : Label), ⟨s', st', w'⟩], ∃ w, Quotes text l.span w := by
    intro s s' st st' w w' h h' l hl
    rcases List.mem_cons.1 hl with rfl | hl
    · exact h
    · rw [List.mem_singleton.1 hl]; exact h'
  induction h with
  | unreadable _ => exact nofun
  | syntaxError ht _ =>
    obtain ⟨w, hw⟩ := hs _ _ ht
    exact one ⟨w, _, ht, hw⟩
  | included _ hl _ _ _ ih =>
    intro l hm
    rcases List.mem_append.1 hm with hm | hm
    · exact ih l hm
    · rw [List.mem_singleton.1 hm]; obtain ⟨w, _, hq⟩ := hl; exact ⟨w, hq⟩
  | override _ hl _ _ ih =>
    intro l hm
    rcases List.mem_append.1 hm with hm | hm
    · exact ih l hm
    · rw [List.mem_singleton.1 hm]; obtain ⟨w, _, hq⟩ := hl; exact ⟨w, hq⟩
  | undefined h => exact one ⟨_, h⟩
  | undefinedSomewhere h => exact one h.quotes
  | noParent h _ => exact one ⟨_, h⟩
  | nsPrefix _ h => exact one ⟨_, h⟩
  | dtPrefix _ h => exact one ⟨_, h⟩
  | library _ h => exact one h.quotes
  | librarySomewhere h => exact one h.quotes
  | paramNotAllowed _ h => exact one h.quotes
  | nameUnknown _ h => exact one h.quotes
  | unsupported _ h => exact one h.quotes
  | invalidValue _ h => exact one h.quotes
  | facet _ _ h _ => exact one h.quotes
  | recursive h _ h' => exact two ⟨_, h⟩ h'.quotes
  | duplicate h h' => exact two h.quotes h'.quotes
  | mixes h h' => exact two h.quotes h'.quotes
  | noStart h _ => exact one h.quotes
  | noStartGrammar _ _ h => exact one ⟨_, h⟩
  | elementInAttribute _ _ h _ h' => exact two ⟨_, h⟩ ⟨_, h'⟩
  | recursiveInclude _ h _ => obtain ⟨w, _, hq⟩ := h; exact one ⟨w, hq⟩
  | notGrammar h => exact one h.quotes
  | overrideMissing h _ h' => exact two h.quotes h'.quotes

end
end Verif.At
