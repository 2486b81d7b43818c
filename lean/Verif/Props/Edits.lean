import Verif.Props.Validation
import Verif.Proof.Edits
import Verif.Proof.Algebra
/-
C08, C09, C22, C23: rewritings of the document or of the schema that do not change the verdict.
The verdict of a run that ends normally is `r = .ok ()` (accepted) or an error; a run may also abort
on the pattern limit, which is C05/C06.
-/
namespace Verif
variable {D V : Type} [DecidableEq D] [DecidableEq V] {L : Lib D V} {env env' : Env D V}
  {start start' : Pattern D V} {fuel fuel' n n' : Nat} {s0 s0' s1 s2 : VState D V} {d d' : XDoc} {node : Node}
  {r r' : Except VErr Unit}

theorem verdict_iff (hs : SchemaOK L env start true) (h0 : StartOK env start) (ht : d.Tame) (hm : d.Means node)
    (hnew : newValidator env fuel start = .ok s0) (hrun : runToks L n d.toks s0 = .ok (r, s1)) :
    r = .ok () ↔ Match L env start [] [node] := by
  constructor
  · rintro rfl; exact C01_accepted_documents_match hs.relax h0 ht hm hnew hrun
  · exact C02_matching_documents_accepted hs h0 ht hm hnew hrun

/-- C08.  Documents that differ in the order of attributes only get the same verdict. -/
theorem C08_attribute_order (hd : d.SameButAttrOrder d') (hs : SchemaOK L env start true) (h0 : StartOK env start)
    (ht : d.Tame) (hm : d.Means node) (hnew : newValidator env fuel start = .ok s0)
    (hrun : runToks L n d.toks s0 = .ok (r, s1)) (hrun' : runToks L n' d'.toks s0 = .ok (r', s2)) :
    r = .ok () ↔ r' = .ok () := by
  obtain ⟨node', hm', ho⟩ := hd.means ht hm
  obtain ⟨node'', hm'', ho'⟩ := XDoc.SameButAttrOrder.means (d := d') (d' := d) ⟨hd.1.symm, hd.2.symm⟩ (hd.tame ht) hm'
  rw [verdict_iff hs h0 (hd.tame ht) hm' hnew hrun']
  constructor
  · intro h; exact ((verdict_iff hs h0 ht hm hnew hrun).mp h).nodeOrder ho
  · intro h; exact (verdict_iff hs h0 ht hm'' hnew hrun).mpr (h.nodeOrder ho')

/-- the example document with the root's attributes swapped -/
def Ex.swapped : XDoc := { Ex.doc with atts := [⟨xmlnsStr, ['p'], ['u']⟩, ⟨[], ['i', 'd'], ['7']⟩] }

example : Ex.doc.SameButAttrOrder Ex.swapped ∧ Ex.swapped.atts ≠ Ex.doc.atts ∧
    ∃ r s, runToks Ex.lib 50 Ex.swapped.toks Ex.v0 = .ok (r, s) ∧ r = .ok () := by
  have hd : Ex.doc.SameButAttrOrder Ex.swapped := ⟨rfl, .elem (.swap _ _ _) (by
    simp only [Ex.swapped, Ex.doc]; exact .same (.same (.same (.same .nil)))) .nil⟩
  refine ⟨hd, by decide, ?_⟩
  have : (match runToks Ex.lib 50 Ex.swapped.toks Ex.v0 with | .ok _ => true | _ => false) = true := by
    decide +kernel
  split at this
  · rename_i x h
    obtain ⟨r, s⟩ := x
    obtain ⟨s', hacc⟩ := Ex.accepted
    exact ⟨r, s, h, (C08_attribute_order hd Ex.schemaOK Ex.startOK Ex.tame Ex.means Ex.new_ok hacc h).mp rfl⟩
  · cases this

/-- C09.  Without `data`, `value` and `list` in element content, inserting whitespace-only text in
element content changes nothing (and so neither does removing it). -/
theorem C09_whitespace_insignificant (hd : d.WsInserted d') (hs : SchemaOK L env start true) (h0 : StartOK env start)
    (hnd : start.noData = true) (hne : ∀ p ∈ env, p.noData = true)
    (ht : d.Tame) (ht' : d'.Tame) (hm : d.Means node) (hnew : newValidator env fuel start = .ok s0)
    (hrun : runToks L n d.toks s0 = .ok (r, s1)) (hrun' : runToks L n' d'.toks s0 = .ok (r', s2)) :
    r = .ok () ↔ r' = .ok () := by
  obtain ⟨node', hm', hw⟩ := hd.means ht ht' hm
  rw [verdict_iff hs h0 ht hm hnew hrun, verdict_iff hs h0 ht' hm' hnew hrun']
  exact ⟨fun h => h.wsInsert hw, fun h => h.wsRemove hne hnd hw.ws⟩

/-- C09, insertion: even with `data`, `value` and `list`, inserting whitespace-only text in element
content never makes an accepted document rejected. -/
theorem C09_inserting_whitespace (hd : d.WsInserted d') (hs : SchemaOK L env start true) (h0 : StartOK env start)
    (ht : d.Tame) (ht' : d'.Tame) (hm : d.Means node) (hnew : newValidator env fuel start = .ok s0)
    (hrun : runToks L n d.toks s0 = .ok (.ok (), s1)) (hrun' : runToks L n' d'.toks s0 = .ok (r', s2)) :
    r' = .ok () := by
  obtain ⟨node', hm', hw⟩ := hd.means ht ht' hm
  rw [verdict_iff hs h0 ht' hm' hnew hrun']
  exact ((verdict_iff hs h0 ht hm hnew hrun).mp rfl).wsInsert hw

/-- the example document with whitespace before the first item and inside it -/
def Ex.spaced : XDoc := { Ex.doc with
  kids := [.text [' ', '\n'], Ex.item false [.text ['\t']], .comment, Ex.item false [Ex.item false []], .cdata ['&', 'x']] }

theorem Ex.spaced_ok : Ex.doc.WsInserted Ex.spaced ∧ Ex.spaced.Tame := by
  refine ⟨⟨rfl, rfl, rfl, rfl, ?_, nofun⟩, ?_⟩
  · refine .ins (by unfold WsText; decide) ?_
    exact .elem (.ins (by unfold WsText; decide) .nil) nofun (.same (.same (.same .nil)))
  · refine ⟨⟨by decide, by decide, by decide, ?_, ?_⟩, by decide⟩
    · simp [XDoc.root, Ex.spaced, Ex.doc, allTextsL, XNode.allTexts, Ex.item, TextOK]
    · simp [XDoc.root, Ex.spaced, Ex.doc, unsplitL, Ex.item]

/-- the hypotheses of C09 hold of the example schema and the two documents -/
example : Ex.doc.WsInserted Ex.spaced ∧ Ex.doc.Tame ∧ Ex.spaced.Tame ∧ SchemaOK Ex.lib Ex.env Ex.start true ∧
    StartOK Ex.env Ex.start ∧ Ex.start.noData = true ∧ (∀ p ∈ Ex.env, p.noData = true) ∧ Ex.doc.Means Ex.node :=
  ⟨Ex.spaced_ok.1, Ex.tame, Ex.spaced_ok.2, Ex.schemaOK, Ex.startOK, rfl, by decide, Ex.means⟩

/-! ### C22 -/

omit [DecidableEq D] [DecidableEq V] in
/-- C22, the laws: both sides match the same attributes and content, in every grammar. -/
theorem C22_laws :
    (∀ p q : Pattern D V, MatchEq (.choice [p, q]) (.choice [q, p])) ∧
    (∀ p q : Pattern D V, MatchEq (.interleave [p, q]) (.interleave [q, p])) ∧
    (∀ p : Pattern D V, MatchEq (.optional p) (.choice [p, .empty])) ∧
    (∀ p : Pattern D V, MatchEq (.zeroOrMore p) (.choice [.oneOrMore p, .empty])) ∧
    (∀ p : Pattern D V, MatchEq (.mixed p) (.interleave [p, .text])) ∧
    (∀ p q r : Pattern D V, MatchEq (.group [.group [p, q], r]) (.group [p, .group [q, r]])) ∧
    (∀ p q r : Pattern D V, MatchEq (.choice [.choice [p, q], r]) (.choice [p, .choice [q, r]])) ∧
    (∀ p q r : Pattern D V, MatchEq (.interleave [.interleave [p, q], r]) (.interleave [p, .interleave [q, r]])) ∧
    (∀ p : Pattern D V, MatchEq (.choice [.notAllowed, p]) p) ∧
    (∀ p : Pattern D V, MatchEq (.group [.notAllowed, p]) .notAllowed ∧ MatchEq (.group [p, .notAllowed]) .notAllowed) ∧
    (∀ p : Pattern D V, MatchEq (.interleave [.notAllowed, p]) .notAllowed) ∧
    (∀ p : Pattern D V, MatchEq (.group [.empty, p]) p ∧ MatchEq (.group [p, .empty]) p) ∧
    (∀ p : Pattern D V, MatchEq (.interleave [.empty, p]) p) := by
  refine ⟨fun p q => matchEq_choice_perm (.swap _ _ _), fun p q => matchEq_inter_perm (.swap _ _ _),
    matchEq_optional, matchEq_zeroOrMore, matchEq_mixed, fun p q r => ?_, fun p q r => ?_, fun p q r => ?_,
    fun p => (matchEq_choice_notAllowed [p]).trans (matchEq_choice_one p),
    fun p => ⟨matchEq_group_notAllowed [] [p], matchEq_group_notAllowed [p] []⟩,
    fun p => matchEq_inter_notAllowed [] [p],
    fun p => ⟨(matchEq_group_empty [] [p]).trans (matchEq_group_one p),
      (matchEq_group_empty [p] []).trans (matchEq_group_one p)⟩,
    fun p => (matchEq_inter_empty [] [p]).trans (matchEq_inter_one p)⟩
  · exact (matchEq_group_flat [] [p, q] [r]).trans (matchEq_group_flat [p] [q, r] []).symm
  · exact (matchEq_choice_flat [] [p, q] [r]).trans (matchEq_choice_flat [p] [q, r] []).symm
  · exact (matchEq_inter_flat [] [p, q] [r]).trans (matchEq_inter_flat [p] [q, r] []).symm

omit [DecidableEq D] [DecidableEq V] in
/-- C22, congruence: equivalent patterns may replace one another inside any pattern (exceptions of
datatypes aside). -/
theorem C22_congruence {p q : Pattern D V} {ps qs : List (Pattern D V)} (h : MatchEq p q) (hl : MatchEqL ps qs) (nc : NameClass) :
    MatchEq (.choice ps) (.choice qs) ∧ MatchEq (.group ps) (.group qs) ∧ MatchEq (.interleave ps) (.interleave qs) ∧
    MatchEq (.mixed p) (.mixed q) ∧ MatchEq (.optional p) (.optional q) ∧ MatchEq (.zeroOrMore p) (.zeroOrMore q) ∧
    MatchEq (.oneOrMore p) (.oneOrMore q) ∧ MatchEq (.attr nc p) (.attr nc q) ∧
    MatchEq (.element nc p) (.element nc q) ∧ MatchEq (.list p) (.list q) :=
  ⟨.choice hl, .group hl, .interleave hl, h.mixed, h.optional, h.zeroOrMore, h.oneOrMore, h.attr, h.element, h.list⟩

/-- C22.  The validators of two schemas with pairwise equivalent definitions give the same verdict on
every document.  (`plainEx`: no references inside exceptions of datatypes.) -/
theorem C22_equivalent_schemas_same_verdict (he : EnvEq env env') (hse : MatchEq start start')
    (hx : start.plainEx = true ∧ (∀ p ∈ env, p.plainEx = true)) (hx' : start'.plainEx = true ∧ ∀ p ∈ env', p.plainEx = true)
    (hs : SchemaOK L env start true) (h0 : StartOK env start) (hs' : SchemaOK L env' start' true) (h0' : StartOK env' start')
    (ht : d.Tame) (hm : d.Means node)
    (hnew : newValidator env fuel start = .ok s0) (hrun : runToks L n d.toks s0 = .ok (r, s1))
    (hnew' : newValidator env' fuel' start' = .ok s0') (hrun' : runToks L n' d.toks s0' = .ok (r', s2)) :
    r = .ok () ↔ r' = .ok () := by
  rw [verdict_iff hs h0 ht hm hnew hrun, verdict_iff hs' h0' ht hm hnew' hrun']
  constructor
  · intro h
    exact (hse _ _ _ _).mp (h.envEq (fun n p hp => he.other hp) (Or.inr hx.2) (Or.inr hx.1))
  · intro h
    exact (hse _ _ _ _).mpr (h.envEq (fun n p hp => he.symm.other hp) (Or.inr hx'.2) (Or.inr hx'.1))

/-- the example schema with `mixed` spelled out -/
def Ex.docBody2 : Pattern Unit Str :=
  .group [.attr (.named [] ['i', 'd']) .text, .interleave [.zeroOrMore (.ref 1), .text]]
def Ex.env2 : Env Unit Str := [.element Ex.docName Ex.docBody2, .element Ex.itemName Ex.itemBody]

theorem Ex.env2_eq : EnvEq Ex.env Ex.env2 := by
  refine ⟨rfl, fun n p q hp hq => ?_⟩
  match n, hp, hq with
  | 0, hp, hq =>
    cases hp; cases hq
    exact .element (.group (.cons (.refl _) (.cons (matchEq_mixed _) .nil)))
  | 1, hp, hq => cases hp; cases hq; exact .refl _

theorem Ex.fresh2 : Fresh Ex.lib Ex.env2 1 := by
  intro _ h
  cases h with
  | ref h1 h2 =>
    simp [Ex.env2] at h1
    subst h1
    generalize hc : ([] : List Node) = c at h2
    cases h2 with
    | element => cases hc

theorem Ex.schemaOK2 : SchemaOK Ex.lib Ex.env2 Ex.start true := by
  have items : ∀ s l, WF Ex.lib Ex.env2 (fun p => p = Ex.docBody2 ∨ p = Ex.itemBody) true s l (.zeroOrMore (.ref 1)) := fun _ _ =>
    .zeroOrMore (.ref (p := .element Ex.itemName Ex.itemBody) rfl (.element (Or.inr rfl)) fun _ _ => Ex.fresh2)
      fun _ => .ref (p := .element Ex.itemName Ex.itemBody) rfl (.free .element)
  refine ⟨fun p => p = Ex.docBody2 ∨ p = Ex.itemBody, ?_, ?_⟩
  · rintro p (rfl | rfl)
    · refine .group (by simp) ?_
      intro p hp
      simp at hp
      rcases hp with rfl | rfl
      · exact .attr .text
      · refine .interleave (by simp) ?_ ?_
        · intro p hp
          simp at hp
          rcases hp with rfl | rfl
          · exact items _ _
          · exact .text
        · intro p hp
          simp at hp
          rcases hp with rfl | rfl
          · exact .zeroOrMore (.ref (p := .element Ex.itemName Ex.itemBody) rfl .element)
          · exact .text
    · refine .group (by simp) ?_
      intro p hp
      simp at hp
      rcases hp with rfl | rfl
      · exact .attr .value
      · exact items _ _
  · exact .ref (p := .element Ex.docName Ex.docBody2) rfl (.element (Or.inl rfl)) (by simp)

/-- the hypotheses of C22 hold of the two example schemas -/
example : EnvEq Ex.env Ex.env2 ∧ (Ex.start.plainEx = true ∧ ∀ p ∈ Ex.env, p.plainEx = true) ∧
    (Ex.start.plainEx = true ∧ ∀ p ∈ Ex.env2, p.plainEx = true) ∧ SchemaOK Ex.lib Ex.env2 Ex.start true ∧
    StartOK Ex.env2 Ex.start :=
  ⟨Ex.env2_eq, ⟨rfl, by decide⟩, ⟨rfl, by decide⟩, Ex.schemaOK2, .ref (p := .element Ex.docName Ex.docBody2) rfl .element⟩

/-! ### C23 -/

/-- C23.  Replacing any references in the schema by the definitions they refer to, in any number of
definitions at once, does not change the verdict on any document. -/
theorem C23_references_mean_definitions (he : UnfoldsEnv env env') (hse : Unfolds env start start')
    (hs : SchemaOK L env start true) (h0 : StartOK env start) (hs' : SchemaOK L env' start' true) (h0' : StartOK env' start')
    (ht : d.Tame) (hm : d.Means node)
    (hnew : newValidator env fuel start = .ok s0) (hrun : runToks L n d.toks s0 = .ok (r, s1))
    (hnew' : newValidator env' fuel' start' = .ok s0') (hrun' : runToks L n' d.toks s0' = .ok (r', s2)) :
    r = .ok () ↔ r' = .ok () := by
  rw [verdict_iff hs h0 ht hm hnew hrun, verdict_iff hs' h0' ht hm hnew' hrun']
  exact ⟨fun h => h.unfolds he hse, fun h => h.folds he hse⟩

/-- C23, the start pattern alone: validating against a reference to definition `k` is validating against
the definition. -/
theorem C23_start_reference {k : Nat} {q : Pattern D V} (hk : env[k]? = some q)
    (hs : SchemaOK L env (.ref k) true) (h0 : StartOK env (.ref k)) (hs' : SchemaOK L env q true)
    (ht : d.Tame) (hm : d.Means node)
    (hnew : newValidator env fuel (.ref k) = .ok s0) (hrun : runToks L n d.toks s0 = .ok (r, s1))
    (hnew' : newValidator env fuel' q = .ok s0') (hrun' : runToks L n' d.toks s0' = .ok (r', s2)) :
    r = .ok () ↔ r' = .ok () := by
  refine C23_references_mean_definitions (UnfoldsL.refl env env) (.unfold hk) hs h0 hs' ?_ ht hm hnew hrun hnew' hrun'
  cases h0 with
  | ref h1 h2 => rw [hk] at h1; cases h1; exact h2

/-- the example schema with the reference to `item` in `doc` and the one in `start` replaced -/
def Ex.docBody3 : Pattern Unit Str :=
  .group [.attr (.named [] ['i', 'd']) .text, .mixed (.zeroOrMore (.element Ex.itemName Ex.itemBody))]
def Ex.env3 : Env Unit Str := [.element Ex.docName Ex.docBody3, .element Ex.itemName Ex.itemBody]
def Ex.start3 : Pattern Unit Str := .element Ex.docName Ex.docBody

theorem Ex.fresh3 : Fresh Ex.lib Ex.env3 1 := by
  intro _ h
  cases h with
  | ref h1 h2 =>
    simp [Ex.env3] at h1
    subst h1
    generalize hc : ([] : List Node) = c at h2
    cases h2 with
    | element => cases hc

theorem Ex.schemaOK3 : SchemaOK Ex.lib Ex.env3 Ex.start3 true := by
  let Q : Pattern Unit Str → Prop := fun p => p = Ex.docBody ∨ p = Ex.itemBody
  have items : ∀ s l, WF Ex.lib Ex.env3 Q true s l (.zeroOrMore (.ref 1)) := fun _ _ =>
    .zeroOrMore (.ref (p := .element Ex.itemName Ex.itemBody) rfl (.element (Or.inr rfl)) fun _ _ => Ex.fresh3)
      fun _ => .ref (p := .element Ex.itemName Ex.itemBody) rfl (.free .element)
  refine ⟨Q, ?_, .element (Or.inl rfl)⟩
  rintro p (rfl | rfl)
  · refine .group (by simp) ?_
    intro p hp
    simp at hp
    rcases hp with rfl | rfl
    · exact .attr .text
    · exact .mixed (items _ _) (.zeroOrMore (.ref (p := .element Ex.itemName Ex.itemBody) rfl .element))
  · refine .group (by simp) ?_
    intro p hp
    simp at hp
    rcases hp with rfl | rfl
    · exact .attr .value
    · exact items _ _

/-- the hypotheses of C23 hold of the two example schemas -/
example : UnfoldsEnv Ex.env Ex.env3 ∧ Unfolds Ex.env Ex.start Ex.start3 ∧ SchemaOK Ex.lib Ex.env3 Ex.start3 true ∧
    StartOK Ex.env3 Ex.start3 :=
  ⟨.cons (.element (.group (.cons (.attr .text) (.cons (.mixed (.zeroOrMore (.unfold rfl))) .nil))))
    (.cons (.refl _ _) .nil), .unfold rfl, Ex.schemaOK3, .element⟩

end Verif
