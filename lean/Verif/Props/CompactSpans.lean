import Verif.Proof.CompactReads
import Verif.Props.Compact
import Verif.Props.SchemaSpans
/-
C69: the positions the compact parser puts into the syntax tree, and what they mean for the errors of the schema compiler.
-/
namespace Verif.At
open Verif

variable {text : Str → Option Str} {join : Str → Str → Option Str} {name : Str}

/-- **C69**: with positions the same is read as without; the same texts are refused and the same texts lead to a panic. -/
theorem C69_same_tree (t : Str) : (LCompact.readCompact t).plain = readCompact t := LCompact.parse_er _ t

/-- **C69**: every position in the syntax tree of a text shows what it stands for, see `Reads`. -/
theorem C69_positions_show_the_source {t : Str} {s : LSchema} (h : LCompact.readCompact t = .ok s) {b : LTree} (hb : PartOf s.root b)
    {m : Mark} {r : Rg} (hm : b.Has m r) : Reads t b m r := LCompact.parse_good h b hb m r hm

/-- there is always something to be seen -/
theorem Reads.cut {t : Str} {b : LTree} {m : Mark} {r : Rg} (h : Reads t b m r) : ∃ s, Cut t r s := by
  cases h with
  | start h => exact ⟨_, h⟩
  | library _ h => exact ⟨_, h⟩
  | typeName _ h => exact ⟨_, h⟩
  | nsPrefix h => exact ⟨_, h⟩
  | dtPrefix h => exact ⟨_, h⟩
  | _ h _ => exact ⟨_, h⟩

theorem Cut.inside {t s : Str} {r : Rg} (h : Cut t r s) : r.lo ≤ r.hi ∧ r.hi ≤ byteLen t := by
  obtain ⟨pre, post, rfl, h1, h2⟩ := h
  rw [h1, h2, LCompact.byteLen_append, LCompact.byteLen_append]
  omega

/-- what is at a range is determined by the range -/
theorem Cut.unique {t s s' : Str} {r : Rg} (h : Cut t r s) (h' : Cut t r s') : s = s' := by
  obtain ⟨pre, post, rfl, h1, h2⟩ := h
  obtain ⟨pre', post', e, h3, h4⟩ := h'
  have pos : ∀ c : Char, 0 < c.utf8Size := Char.utf8Size_pos
  have len0 : ∀ a : Str, byteLen a = 0 → a = [] := by
    intro a ha
    cases a with
    | nil => rfl
    | cons c cs => simp [byteLen] at ha; have := pos c; omega
  have key : ∀ (a b : Str) (a' b' : Str), a ++ b = a' ++ b' → byteLen a = byteLen a' → a = a' := by
    intro a
    induction a with
    | nil => intro b a' b' _ h; rw [len0 a' (by rw [← h]; rfl)]
    | cons c cs ih =>
      intro b a' b' e h
      cases a' with
      | nil => rw [len0 (c :: cs) (by rw [h]; rfl)]
      | cons d ds =>
        injection e with e1 e2
        subst e1
        rw [ih b ds b' e2 (by simp [byteLen] at h ⊢; omega)]
  have e1 : pre = pre' := key pre (s ++ post) pre' (s' ++ post') (by simpa using e) (by omega)
  subst e1
  exact key s post s' post' (by simpa using e) (by omega)

theorem PartOf.snoc {a b c : LTree} (h : PartOf a b) (hc : Inside b c) : PartOf a c := by
  induction h with
  | refl => exact .step hc .refl
  | step h1 _ ih => exact .step h1 (ih hc)

/-- every place of a schema is a part of the file it stands in -/
theorem LOccurs.part {F : LFiles} {a : LPlace} (h : LOccurs F name a) : ∃ s, F.load a.src = .ok s ∧ PartOf s.root a.tree := by
  induction h with
  | pattern hl hb => exact ⟨_, hl, by rw [LSchema.root, hb]; exact .refl⟩
  | grammar hl hb => exact ⟨_, hl, by rw [LSchema.root, hb]; exact .refl⟩
  | inside _ hw ih =>
    obtain ⟨s, hs, hp⟩ := ih
    cases hw with
    | element => exact ⟨s, hs, hp.snoc .element⟩
    | «attribute» => exact ⟨s, hs, hp.snoc .attribute⟩
    | list => exact ⟨s, hs, hp.snoc .list⟩
    | mixed => exact ⟨s, hs, hp.snoc .mixed⟩
    | paren => exact ⟨s, hs, hp.snoc .paren⟩
    | «optional» => exact ⟨s, hs, hp.snoc .optional⟩
    | zeroOrMore => exact ⟨s, hs, hp.snoc .zeroOrMore⟩
    | oneOrMore => exact ⟨s, hs, hp.snoc .oneOrMore⟩
    | seqLeft => exact ⟨s, hs, hp.snoc .seqLeft⟩
    | seqRight => exact ⟨s, hs, hp.snoc .seqRight⟩
    | interLeft => exact ⟨s, hs, hp.snoc .interLeft⟩
    | interRight => exact ⟨s, hs, hp.snoc .interRight⟩
    | choiceLeft => exact ⟨s, hs, hp.snoc .choiceLeft⟩
    | choiceRight => exact ⟨s, hs, hp.snoc .choiceRight⟩
    | except => exact ⟨s, hs, hp.snoc .except⟩
    | grammar => exact ⟨s, hs, hp.snoc .grammar⟩
    | externalPattern _ hl hb => exact ⟨_, hl, by rw [LSchema.root, hb]; exact .refl⟩
    | externalGrammar _ hl hb => exact ⟨_, hl, by rw [LSchema.root, hb]; exact .refl⟩
    | define hm => exact ⟨s, hs, hp.snoc (.define hm)⟩
    | div hm => exact ⟨s, hs, hp.snoc (.div hm)⟩
    | included _ _ hl hg =>
      refine ⟨_, hl, ?_⟩
      cases hg with
      | grammar => exact .refl
      | pattern => exact .step .grammar .refl
    | override hm ho => exact ⟨s, hs, hp.snoc (.override hm ho)⟩

theorem load_ok {f : Str} {s : LSchema} (h : (LCompact.compactFiles text join).load f = .ok s) : ∃ t, text f = some t ∧ LCompact.readCompact t = .ok s := by
  simp only [LCompact.compactFiles] at h
  split at h
  · cases h
  · next t ht =>
    split at h
    · next s' hs => cases h; exact ⟨t, ht, hs⟩
    · cases h
    · cases h

/-- **C69**: everything that stands somewhere in a schema can be read there in the text of its file. -/
theorem C69_marks_are_read {f src : Str} {t : LTree} (ho : LOccurs (LCompact.compactFiles text join) name ⟨f, src, t⟩) {m : Mark} {r : Rg} (hm : t.Has m r) :
    ∃ txt, text src = some txt ∧ Reads txt t m r := by
  obtain ⟨s, hs, hp⟩ := ho.part
  obtain ⟨txt, ht, hr⟩ := load_ok hs
  exact ⟨txt, ht, C69_positions_show_the_source hr hp hm⟩

/-- **C69**: every position lies in the file it stands in. -/
theorem C69_positions_lie_in_their_file : OwnPlaced (LCompact.compactFiles text join) name := by
  intro f src t m r ho hm
  obtain ⟨txt, ht, hr⟩ := C69_marks_are_read ho hm
  obtain ⟨s, hc⟩ := hr.cut
  obtain ⟨h1, h2⟩ := hc.inside
  refine ⟨h1, ?_⟩
  simp only [LCompact.compactFiles, ht]
  exact h2

/-- without positions these are the files of `Model/Compact` -/
theorem compactFiles_plain : (LCompact.compactFiles text join).plain = Verif.compactFiles text join := by
  unfold LFiles.plain LCompact.compactFiles Verif.compactFiles
  congr 1
  funext f
  dsimp only
  cases text f with
  | none => rfl
  | some t =>
    have := C69_same_tree t
    dsimp only
    generalize LCompact.readCompact t = x at *
    generalize readCompact t = y at *
    subst this
    cases x <;> rfl

variable {x : Ext} {n m : Nat}

/-- **C69**, C67: texts that use no grammar by `external` compile exactly if they do without positions. -/
theorem C69_texts_compile (hx : NoExternalGrammar (LCompact.compactFiles text join) name) :
    (∃ k st, compileFile (LCompact.compactFiles text join) x n m name (.fresh []) = .ok (k, st)) ↔
      ∃ k st, Verif.compileFile (Verif.compactFiles text join) x n m name (.fresh []) = .ok (k, st) := by
  rw [← compactFiles_plain]
  exact C67_positions_do_not_matter (l := []) nofun C69_positions_lie_in_their_file hx

/-- **C69**, C67: texts that use no grammar by `external`, and `parent` only in the first file for names defined there, never lead to
a panic over a position. -/
theorem C69_no_position_panics (hx : NoExternalGrammar (LCompact.compactFiles text join) name) (hp : ParentsAtHome (LCompact.compactFiles text join) name) :
    ∀ b, compileFile (LCompact.compactFiles text join) x n m name (.fresh []) ≠ .error (.subspan b) :=
  C67_no_position_panics (l := []) nofun C69_positions_lie_in_their_file hx hp

/-- **C69**, C68: without a grammar used by `external`, what an error points at can be read there. -/
theorem C69_shown_is_read (hx : NoExternalGrammar (LCompact.compactFiles text join) name) {mk : Mark} {s : Span}
    (h : Shown (LCompact.compactFiles text join) name mk s) : ∃ txt t, text s.file = some txt ∧ Reads txt t mk ⟨s.lo, s.hi⟩ := by
  obtain ⟨⟨src, t, ho, hh⟩, _⟩ := h
  have e : s.file = src := hx.own ho
  obtain ⟨txt, ht, hr⟩ := C69_marks_are_read ho hh
  exact ⟨txt, t, by rw [e]; exact ht, hr⟩

/-- **C69**, C68: the position of an undefined prefix is one where the prefix stands. -/
theorem C69_undefined_prefix_is_quoted (hx : NoExternalGrammar (LCompact.compactFiles text join) name) {s : Span} {pre : Str}
    (h : compileFile (LCompact.compactFiles text join) x n m name (.fresh []) = .error (.err (.undefinedNamespacePrefix s pre))) :
    s.file = name ∧ Quotes text s pre := by
  have := C68_errors_point_at_the_fault (l := []) nofun h
  cases this with
  | nsPrefix hf hs =>
    obtain ⟨txt, t, ht, hr⟩ := C69_shown_is_read hx hs
    cases hr with
    | nsPrefix hc => exact ⟨hf, txt, ht, hc⟩

/-- **C69**, C68: likewise in an included file, however deep; the positions of the includes show the literals that lead to it. -/
theorem C69_included_prefix_is_quoted (hx : NoExternalGrammar (LCompact.compactFiles text join) name) {s s' : Span} {pre : Str}
    (h : compileFile (LCompact.compactFiles text join) x n m name (.fresh []) = .error (.err (.inInclude s (.undefinedNamespacePrefix s' pre)))) :
    s.file = name ∧ Quotes text s' pre ∧ ∃ lit w, Rnc.Literal lit w ∧ Quotes text s w ∧ (join name lit = some s'.file ∨ s'.file = name) := by
  have := C68_errors_point_at_the_fault (l := []) nofun h
  have pick : ∀ {s : Span} {pre : Str}, Shown (LCompact.compactFiles text join) name (.nsPrefix pre) s → Quotes text s pre := by
    intro s pre hs
    obtain ⟨txt, t, ht, hr⟩ := C69_shown_is_read hx hs
    cases hr with
    | nsPrefix hc => exact ⟨txt, ht, hc⟩
  have lits : ∀ {s : Span} {lit : Str}, (Shown (LCompact.compactFiles text join) name (.include lit) s ∨ Shown (LCompact.compactFiles text join) name (.external lit) s) →
      ∃ w, Rnc.Literal lit w ∧ Quotes text s w := by
    rintro s lit (hs | hs)
    · obtain ⟨txt, t, ht, hr⟩ := C69_shown_is_read hx hs
      cases hr with
      | «include» hc hl => exact ⟨_, hl, txt, ht, hc⟩
    · obtain ⟨txt, t, ht, hr⟩ := C69_shown_is_read hx hs
      cases hr with
      | external hc hl => exact ⟨_, hl, txt, ht, hc⟩
  cases this with
  | included hf hs hj hb =>
    obtain ⟨w, hl, hq⟩ := lits (.inl hs)
    cases hb with
    | nsPrefix hf' hs' => exact ⟨hf, pick hs', _, w, hl, hq, .inl (by rw [hf']; exact hj)⟩
  | external hf hs hj hb =>
    obtain ⟨w, hl, hq⟩ := lits (.inr hs)
    cases hb with
    | nsPrefix hf' hs' => exact ⟨hf, pick hs', _, w, hl, hq, .inl (by rw [hf']; exact hj)⟩
  | override hf hs hb =>
    obtain ⟨w, hl, hq⟩ := lits (.inl hs)
    cases hb with
    | nsPrefix hf' hs' => exact ⟨hf, pick hs', _, w, hl, hq, .inr hf'⟩

/-- **C69**, C68: a recursive reference is reported with the place of the reference and the place of the definition, both of which
show the name. -/
theorem C69_recursion_is_quoted (hx : NoExternalGrammar (LCompact.compactFiles text join) name) (hp : ParentsAtHome (LCompact.compactFiles text join) name)
    {id : Str} {s s' : Span} (h : compileFile (LCompact.compactFiles text join) x n m name (.fresh []) = .error (.err (.recursiveReference id s s'))) :
    Quotes text s id ∧ (Quotes text s' id ∨ id = "start".toList) := by
  have := C68_errors_point_at_the_fault (l := []) nofun h
  have dfn : ∀ {s : Span} {id : Str}, Shown (LCompact.compactFiles text join) name (.define id) s → Quotes text s id ∨ id = "start".toList := by
    intro s id hs
    obtain ⟨txt, t, ht, hr⟩ := C69_shown_is_read hx hs
    cases hr with
    | define hc => exact .inl ⟨txt, ht, hc⟩
    | start => exact .inr rfl
  cases this with
  | recursiveReference hf hf' hs hs' =>
    refine ⟨?_, dfn hs'⟩
    obtain ⟨txt, t, ht, hr⟩ := C69_shown_is_read hx hs
    cases hr with
    | ref hc => exact ⟨txt, ht, hc⟩
  | recursiveParent hm hf hs' =>
    refine ⟨?_, dfn hs'⟩
    obtain ⟨src, t, ho, hh⟩ := hm
    obtain ⟨txt, ht, hr⟩ := C69_marks_are_read ho hh
    have e : name = src := hx.own ho
    cases hr with
    | parent hc =>
      obtain ⟨r, rfl⟩ : ∃ r, t = .pat (.parent r id) := by
        cases hh with
        | parent => exact ⟨_, rfl⟩
        | valueType h | dataType h | exceptType h => cases h
      have : s'.file = name := (hp _ _ _ _ ho).2 _ _ hs'.1
      refine ⟨txt, ?_, hc⟩
      rw [hf, this, e]; exact ht

/-- **C69**, C68: if there is an element inside an attribute, the attribute and the element are shown, each from its keyword to its
closing brace. -/
theorem C69_element_in_attribute_is_quoted (hx : NoExternalGrammar (LCompact.compactFiles text join) name) {s s' : Span}
    (h : compileFile (LCompact.compactFiles text join) x n m name (.fresh []) = .error (.err (.elementAsChildOfAttribute s s'))) :
    ∃ c p w c' p' w', Rnc.Prim False (.attribute c p) w ∧ Quotes text s w ∧ Rnc.Prim False (.element c' p') w' ∧ Quotes text s' w' := by
  have := C68_errors_point_at_the_fault (l := []) nofun h
  cases this with
  | elementInAttribute hs hf hs' =>
    obtain ⟨txt, t, ht, hr⟩ := C69_shown_is_read hx hs
    obtain ⟨txt', t', ht', hr'⟩ := C69_shown_is_read hx hs'
    cases hr with
    | «attribute» hc hp =>
      cases hr' with
      | element hc' hp' => exact ⟨_, _, _, _, _, _, hp, ⟨txt, ht, hc⟩, hp', ⟨txt', ht', hc'⟩⟩

end Verif.At
