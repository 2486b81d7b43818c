import Verif.Proof.SchemaBlame
/-
The positions in the errors of the schema compiler: patterns, grammars, files.
-/
namespace Verif.At
open Verif

section
variable {F : LFiles} {x : Ext} {name : Str} {g : Str}

theorem getSchema_fine (f : Str) : Tri (Sound F name) (getSchema F f) (fun s => F.load f = .ok s) (Fine F x name f) := by
  intro st hs
  unfold getSchema
  cases hl : st.loaded.lookup f with
  | some s => exact ⟨hs.loaded f s hl, hs⟩
  | none =>
    cases hf : F.load f with
    | error e => exact Blames.load hf
    | ok s =>
      refine ⟨rfl, ?_, hs.names, hs.overrides⟩
      intro f' s' h
      simp only [List.lookup] at h
      split at h
      · next he => cases h; rw [eq_of_beq he]; exact hf
      · exact hs.loaded f' s' h

theorem includePath_fine {c : LCtx} (hf : c.file = some g) (lit : Str) :
    Pro (includePath F c lit) (fun h => F.join g lit = some h) (Fine F x name g) := by
  unfold includePath
  rw [hf]
  dsimp only
  split
  · next h => exact h
  · trivial

theorem checkInclude_fine {c : LCtx} {s : Span} {f : Str} (h : Fine F x name g (.err (.recursiveInclude f s))) :
    Pro (c.checkInclude s f) (fun _ => True) (Fine F x name g) := by
  induction c with
  | root => trivial
  | incl p f' o ns dts ih =>
    unfold LCtx.checkInclude
    split
    · exact h
    · exact ih
  | inclOverrides p ih => exact ih
  | grammar p s ih => exact ih
  | define p r id ih => exact ih
  | element p ih => exact ih
  | «attribute» p s ih => exact ih

theorem newInclude_fine {c : LCtx} {s : Span} {f : Str} (h : Fine F x name g (.err (.recursiveInclude f s))) :
    Tri (Sound F name) (newInclude c s f) (fun inc => ∃ o ns dts, inc = .incl c f o ns dts) (Fine F x name g) := by
  intro st hs
  have hc := checkInclude_fine (c := c) h
  unfold newInclude
  cases hk : c.checkInclude s f with
  | error e => rw [hk] at hc; exact hc
  | ok u =>
    refine ⟨⟨_, _, _, rfl⟩, hs.loaded, hs.names, ?_⟩
    intro o n s' b hm
    by_cases ho : o < st.overrides.length
    · exact hs.overrides o n s' b (by simpa [LState.ov, List.getD, List.getElem?_append_left ho] using hm)
    · by_cases he : o = st.overrides.length
      · subst he; simp [LState.ov, List.getD] at hm
      · have : (st.overrides ++ [[]])[o]? = none := List.getElem?_eq_none (by simp; omega)
        simp [LState.ov, List.getD, this] at hm

theorem newScope {st : LState} (hs : Sound F name st) : Sound F name { st with scopes := st.scopes ++ [[]] } where
  loaded := hs.loaded
  overrides := hs.overrides
  names := by
    obtain ⟨N, h1, h2⟩ := hs.names
    refine ⟨N, ?_, h2⟩
    intro i id k hk
    refine h1 i id k ?_
    by_cases ho : i < st.scopes.length
    · simpa [LState.refs, List.getD, List.getElem?_append_left ho] using hk
    · by_cases he : i = st.scopes.length
      · subst he; simp [LState.refs, List.getD] at hk
      · have : (st.scopes ++ [[]])[i]? = none := List.getElem?_eq_none (by simp; omega)
        simp [LState.refs, List.getD, this] at hk

theorem newGrammar_fine (c : LCtx) {Q : LFault → Prop} : Tri (Sound F name) (newGrammar c) (fun ch => ∃ k, ch = .grammar c k) Q :=
  fun _ hs => ⟨⟨_, rfl⟩, newScope hs⟩

/-- the declarations leave the file of a context and what it stands for as they are -/
theorem declarations_fine (ds : List SDecl) : ∀ (c : LCtx), Stands F name c → c.file = some g →
    Pro (compileDeclarations c ds) (fun c' => Stands F name c' ∧ c'.file = some g ∧
      ((∃ p f o ns dts, c = .incl p f o ns dts) → ∃ p f o ns dts, c' = .incl p f o ns dts)) (Fine F x name g) := by
  induction ds with
  | nil => intro c hc hf; exact ⟨hc, hf, fun h => h⟩
  | cons d ds ih =>
    intro c hc hf
    have h1 : ∀ p u, Pro (c.declareNamespace p u) (fun c' => Stands F name c' ∧ c'.file = some g ∧
        ((∃ p f o ns dts, c = .incl p f o ns dts) → ∃ p f o ns dts, c' = .incl p f o ns dts)) (Fine F x name g) := by
      intro p u
      cases c with
      | root f s ns dts =>
        simp only [LCtx.declareNamespace]
        split <;> exact ⟨hc, hf, fun ⟨_, _, _, _, _, h⟩ => by cases h⟩
      | incl q f o ns dts =>
        simp only [LCtx.declareNamespace]
        split <;> exact ⟨hc, hf, fun _ => ⟨_, _, _, _, _, rfl⟩⟩
      | _ => trivial
    have h2 : ∀ p u, Pro (c.declareDatatype p u) (fun c' => Stands F name c' ∧ c'.file = some g ∧
        ((∃ p f o ns dts, c = .incl p f o ns dts) → ∃ p f o ns dts, c' = .incl p f o ns dts)) (Fine F x name g) := by
      intro p u
      cases c with
      | root f s ns dts =>
        simp only [LCtx.declareDatatype]
        split
        · exact Blames.datatypePrefix
        · exact ⟨hc, hf, fun ⟨_, _, _, _, _, h⟩ => by cases h⟩
      | incl q f o ns dts =>
        simp only [LCtx.declareDatatype]
        split
        · exact Blames.datatypePrefix
        · exact ⟨hc, hf, fun _ => ⟨_, _, _, _, _, rfl⟩⟩
      | _ => trivial
    refine pro_bind (P := fun c' => Stands F name c' ∧ c'.file = some g ∧
      ((∃ p f o ns dts, c = .incl p f o ns dts) → ∃ p f o ns dts, c' = .incl p f o ns dts)) ?_ ?_
    · cases d with
      | «namespace» p u =>
        cases u with
        | none => trivial
        | some u => exact h1 p u
      | defaultNamespace p u =>
        cases u with
        | none => cases p <;> trivial
        | some u =>
          cases p with
          | none => exact ⟨hc, hf, fun h => h⟩
          | some p => exact h1 p u
      | datatypes p u => exact h2 p u
    · rintro c' ⟨hc', hf', hi⟩
      exact pro_mono (ih c' hc' hf') (fun _ h => ⟨h.1, h.2.1, fun h' => h.2.2 (hi h')⟩) fun _ h => h

/-- what is shown of `compilePattern` -/
def FineP (F : LFiles) (x : Ext) (name : Str) (cp : LCtx → LPat → LM CPat) : Prop :=
  ∀ c p g src, Stands F name c → c.file = some g → LOccurs F name ⟨g, src, .pat p⟩ →
    Tri (Sound F name) (cp c p) (·.All (RefAt F name)) (Fine F x name g)

/-- what is shown of `compileItem` -/
def FineI (F : LFiles) (x : Ext) (name : Str) (ci : LCtx → LItem → LM Unit) : Prop :=
  ∀ c i g src is, Stands F name c → c.file = some g → LOccurs F name ⟨g, src, .items is⟩ → i ∈ is →
    Tri (Sound F name) (ci c i) (fun _ => True) (Fine F x name g)

section
variable {cp : LCtx → LPat → LM CPat} {ci : LCtx → LItem → LM Unit} (hp : FineP F x name cp) (hi : FineI F x name ci)

include hp in
theorem compileDefine_fine {c : LCtx} {src : Str} (hc : Stands F name c) (hf : c.file = some g) {r : Rg} {id : Str} {how : AssignMethod} {body : LPat}
    (hm : Marked F name (.define id) g r) (ho : LOccurs F name ⟨g, src, .pat body⟩) :
    Tri (Sound F name) (compileDefine F cp c r id how body) (fun _ => True) (Fine F x name g) := by
  refine tri_bind (hp (.define c r id) body g src ⟨hc, g, hf, hm⟩ hf ho) fun q hq => ?_
  refine tri_convert hf hm (by constructor) fun hs => ?_
  exact defineRule_fine c (by rw [ruleOf_at]; exact hs) (CRule.all_of hq)

include hi in
theorem compileContents_fine {c : LCtx} {src : Str} (hc : Stands F name c) (hf : c.file = some g) {is : List LItem}
    (ho : LOccurs F name ⟨g, src, .items is⟩) : ∀ is', (∀ i ∈ is', i ∈ is) →
    Tri (Sound F name) (compileContents ci c is') (fun _ => True) (Fine F x name g)
  | [], _ => tri_pure _ trivial
  | i :: is', h => tri_bind (hi c i g src is hc hf ho (h i (.head _))) fun _ _ =>
      compileContents_fine hc hf ho is' fun j hj => h j (.tail _ hj)

include hi in
/-- an included file -/
theorem compileSchema_incl {c : LCtx} {h : Str} (hc : Stands F name c) (hf : c.file = some h) (hinc : ∃ p f o ns dts, c = .incl p f o ns dts)
    {s : LSchema} (ho : ∀ is, s.Grammar is → LOccurs F name ⟨h, h, .items is⟩) (hrd : Readable F h) :
    Tri (Sound F name) (compileSchema F cp ci c s) (fun _ => True) (Fine F x name h) := by
  obtain ⟨ds, b⟩ := s
  refine tri_bind (tri_lift (declarations_fine ds c hc hf)) ?_
  rintro c' ⟨hc', hf', hi'⟩
  cases b with
  | grammar is => exact compileContents_fine hi hc' hf' (ho is .grammar) is fun _ h => h
  | pattern p =>
    obtain ⟨q, f, o, ns, dts, rfl⟩ := hi' hinc
    have key : Tri (Sound F name) (do
        let at_ ← LM.lift ((LCtx.incl q f o ns dts).convert F.size ⟨0, 0⟩)
        LM.fail (.err (.includedFileMustBeGrammar at_)) : LM Unit) (fun _ => True) (Fine F x name h) :=
      tri_convert0 hf' (tri_fail _ (.notGrammar hrd))
    cases p with
    | grammar r is => exact compileContents_fine hi hc' hf' (ho is .pattern) is fun _ h => h
    | _ => exact key

include hp in
theorem compileOverrides_fine {c : LCtx} {src : Str} {s : Span} {lit : Str} (hc : Stands F name c) (hf : c.file = some g)
    (hs : s.file = g) (hsh : Shown F name (.include lit) s) : ∀ os : List LOverride,
    (∀ r id how body, .define r id how body ∈ os → Marked F name (.define id) g r ∧ LOccurs F name ⟨g, src, .pat body⟩) →
    Tri (Sound F name) (compileOverrides F cp s c os) (fun _ => True) (Fine F x name g)
  | [], _ => tri_pure _ trivial
  | o :: os, h => by
    have rest := compileOverrides_fine hc hf hs hsh os fun r id how body hm => h r id how body (.tail _ hm)
    cases o with
    | define r id how body =>
      have hd := h r id how body (.head _)
      refine tri_bind (P := fun _ => True) ?_ fun _ _ => rest
      refine tri_inInclude (compileDefine_fine hp hc hf hd.1 hd.2) (fun e he => .override hs hsh he) fun e hne he => ?_
      cases e with
      | err e => exact (hne e rfl).elim
      | subspan b => cases b <;> exact he
      | _ => exact he
    | div => exact tri_bind (P := fun _ => True) (tri_fail (.panic .includeDiv) trivial) fun _ _ => rest
    | «annotation» => exact tri_bind (P := fun _ => True) (tri_pure () trivial) fun _ _ => rest

theorem checkOvs_fine {s : Span} {h : Str} {lit : Str} (hs : s.file = g) (hsh : Shown F name (.include lit) s) (hj : F.join g lit = some h) (hrd : Readable F h) (o : Nat) :
    Tri (Sound F name) (checkOvs (fileSpan F h) o) (fun _ => True) (Fine F x name g) := by
  intro st hst
  have key : ∀ l : List (Str × Span × Bool), (∀ n s b, (n, s, b) ∈ l → Shown F name (.define n) s) →
      Pro (checkOverrides (fileSpan F h) l) (fun _ => True) (Fine F x name g) := by
    intro l
    induction l with
    | nil => intro _; trivial
    | cons p l ih =>
      obtain ⟨n, s', b⟩ := p
      intro hl
      unfold checkOverrides
      split
      · exact ih fun n s b hm => hl n s b (.tail _ hm)
      · exact Blames.overrideMissing (hl n s' b (.head _)) hs hsh hj hrd
  have key := key (st.ov o) (hst.overrides o)
  unfold checkOvs
  cases hk : checkOverrides (fileSpan F h) (st.ov o) with
  | ok u => exact ⟨trivial, hst⟩
  | error e => rw [hk] at key; exact key

theorem inheritNs_fine {c inc : LCtx} (hf : c.file = some g) {h : Str} {o : Nat} {ns dts : List (Str × Str)} (hinc : inc = .incl c h o ns dts)
    {i : Option (Rg × Str)} (hm : ∀ r pre, i = some (r, pre) → Marked F name (.nsPrefix pre) g r) :
    Pro (inheritNs F c inc i) (fun inc' => ∃ o ns dts, inc' = .incl c h o ns dts) (Fine F x name g) := by
  subst hinc
  cases i with
  | none => exact ⟨_, _, _, rfl⟩
  | some i =>
    obtain ⟨r, pre⟩ := i
    simp only [inheritNs]
    cases c.nsUri pre with
    | none => exact pro_report hf (hm r pre rfl) fun h => .nsPrefix rfl h
    | some u =>
      simp only [LCtx.declareNamespace]
      split <;> exact ⟨_, _, _, rfl⟩

include hp hi in
theorem compileInclude_fine {c : LCtx} {src : Str} (hc : Stands F name c) (hf : c.file = some g) {r : Rg} {lit : Str} {inh : Option (Rg × Str)}
    {os : List LOverride} {is : List LItem} (ho : LOccurs F name ⟨g, src, .items is⟩) (hmem : .include r lit inh os ∈ is) :
    Tri (Sound F name) (compileInclude F cp ci c r lit inh os) (fun _ => True) (Fine F x name g) := by
  refine tri_bind (tri_lift (includePath_fine hf lit)) fun h hj => ?_
  refine tri_convert hf (marked_of ho (.include hmem)) (by constructor) fun hsh => ?_
  have wrap : ∀ e, (∀ e', e ≠ .err e') → Fine F x name h e → Fine F x name g e := by
    intro e hne he
    cases e with
    | err e => exact (hne e rfl).elim
    | subspan b => cases b <;> exact he
    | _ => exact he
  refine tri_bind (tri_inInclude (getSchema_fine h) (fun e he => .included rfl hsh hj he) wrap) fun s hs => ?_
  refine tri_bind (newInclude_fine (.recursiveInclude rfl (.inl hsh) hj)) ?_
  rintro inc ⟨o, ns, dts, hinc⟩
  refine tri_bind (tri_lift (inheritNs_fine hf hinc fun r' pre he => marked_of ho (.inherit (he ▸ hmem)))) ?_
  rintro inc' ⟨o', ns', dts', rfl⟩
  refine tri_bind (compileOverrides_fine hp (c := .inclOverrides (.incl c h o' ns' dts')) (src := src) ⟨hc, _, _, _, _, _, rfl⟩ hf rfl hsh os
    fun r id how body hm => ⟨marked_of ho (.override hmem hm), .inside ho (.override hmem hm)⟩) fun _ _ => ?_
  refine tri_bind (tri_inInclude (compileSchema_incl hi (c := .incl c h o' ns' dts') hc rfl ⟨_, _, _, _, _, rfl⟩
    (fun is' hg => .inside ho (.included hmem hj hs hg)) ⟨_, hs⟩) (fun e he => .included rfl hsh hj he) wrap) fun _ _ => ?_
  exact checkOvs_fine rfl hsh hj ⟨_, hs⟩ o'

theorem takeStart_fine {s : Except LFault Span} {scope : Nat} (h : ∀ s', s = .ok s' → Fine F x name g (.err (.startRuleNotDefined s')))
    (he : ∀ e, s = .error e → Fine F x name g e) :
    Tri (Sound F name) (takeStart s scope) (·.All (RefAt F name)) (Fine F x name g) := by
  intro st hst
  unfold takeStart
  cases hk : (st.refs scope).lookup "start".toList with
  | none =>
    cases s with
    | ok s => exact h s rfl
    | error e => exact he e rfl
  | some k =>
    dsimp only
    cases hc : st.cell k with
    | none =>
      cases s with
      | ok s => exact h s rfl
      | error e => exact he e rfl
    | some r =>
      obtain ⟨N, h1, h2⟩ := hst.names
      exact ⟨(h2 k r hc).2, hst.setCell (lookup_mem hk) none fun _ h => by cases h⟩

theorem checkDefined_fine {st : LState} {s : Span} (h : ∀ id, Fine F x name g (.err (.undefinedReference s id))) (l : List (Str × Nat)) :
    Pro (checkDefined st s l) (fun _ => True) (Fine F x name g) := by
  induction l with
  | nil => trivial
  | cons p l ih =>
    obtain ⟨n, k⟩ := p
    simp only [checkDefined]
    cases st.cell k with
    | none => exact h n
    | some r => exact ih

theorem checkScope_fine {s : Span} (h : ∀ id, Fine F x name g (.err (.undefinedReference s id))) (scope : Nat) :
    Tri (Sound F name) (checkScope s scope) (fun _ => True) (Fine F x name g) := by
  intro st hst
  have key := checkDefined_fine (st := st) h (st.refs scope)
  unfold checkScope
  cases hk : checkDefined st s (st.refs scope) with
  | ok u => exact ⟨trivial, hst⟩
  | error e => rw [hk] at key; exact key

include hp hi in
theorem compileExternal_fine {c : LCtx} {src : Str} (hc : Stands F name c) (hf : c.file = some g) {r : Rg} {lit : Str} {inh : Option Str}
    (ho : LOccurs F name ⟨g, src, .pat (.external r lit inh)⟩) :
    Tri (Sound F name) (compileExternal F cp ci c r lit inh) (·.All (RefAt F name)) (Fine F x name g) := by
  cases inh with
  | some i => exact tri_fail _ trivial
  | none =>
    refine tri_bind (tri_lift (includePath_fine hf lit)) fun h hj => ?_
    refine tri_convert hf (marked_of ho .external) (by constructor) fun hsh => ?_
    have wrap : ∀ e, (∀ e', e ≠ .err e') → Fine F x name h e → Fine F x name g e := by
      intro e hne he
      cases e with
      | err e => exact (hne e rfl).elim
      | subspan b => cases b <;> exact he
      | _ => exact he
    refine tri_bind (tri_inInclude (getSchema_fine h) (fun e he => .external rfl hsh hj he) wrap) fun s hs => ?_
    refine tri_bind (newInclude_fine (.recursiveInclude rfl (.inr hsh) hj)) ?_
    rintro inc ⟨o, ns, dts, rfl⟩
    obtain ⟨ds, b⟩ := s
    cases b with
    | pattern p =>
      exact tri_inInclude (hp (.incl c h o ns dts) p h h hc rfl (.inside ho (.externalPattern hj hs rfl))) (fun e he => .external rfl hsh hj he) wrap
    | grammar is =>
      refine tri_bind (newGrammar_fine c) ?_
      rintro ch ⟨k, rfl⟩
      refine tri_bind (compileContents_fine hi (c := .grammar c k) (src := h) hc hf (.inside ho (.externalGrammar hj hs rfl)) is fun _ h => h) fun _ _ => ?_
      refine tri_convert0 (c := .grammar c k) hf ?_
      refine tri_bind (checkScope_fine (fun id => .undefinedInGrammar ho.readable) k) fun _ _ => ?_
      exact takeStart_fine (fun s' he => by cases he; exact .noStartExternal rfl hsh hj ⟨_, hs⟩) fun _ h => by cases h

include hi in
theorem compileGrammarPattern_fine {c : LCtx} {src : Str} (hc : Stands F name c) (hf : c.file = some g) {r : Rg} {is : List LItem}
    (ho : LOccurs F name ⟨g, src, .pat (.grammar r is)⟩) :
    Tri (Sound F name) (compileGrammarPattern F ci c r is) (·.All (RefAt F name)) (Fine F x name g) := by
  refine tri_bind (newGrammar_fine c) ?_
  rintro ch ⟨k, rfl⟩
  refine tri_bind (compileContents_fine hi (c := .grammar c k) (src := src) hc hf (.inside ho .grammar) is fun _ h => h) fun _ _ => ?_
  have hm := marked_of ho .grammar
  refine takeStart_fine (fun s' he => ?_) fun e he => ?_
  · unfold LCtx.convert at he
    rw [hf] at he
    dsimp only at he
    split at he
    · next hin => cases he; exact .noStartGrammar rfl ⟨hm, hin⟩
    · cases he
  · unfold LCtx.convert at he
    rw [hf] at he
    dsimp only at he
    split at he
    · cases he
    · next hin => cases he; exact ⟨_, _, _, _, hm, .inl rfl, hin⟩
end

theorem groupMembers_all {P : Span → Str → Prop} {q : CPat} (h : q.All P) : allPats P (groupMembers q) := by
  cases q with
  | group ps => exact h
  | _ => exact ⟨h, trivial⟩

theorem interleaveMembers_all {P : Span → Str → Prop} {q : CPat} (h : q.All P) : allPats P (interleaveMembers q) := by
  cases q with
  | interleave ps => exact h
  | _ => exact ⟨h, trivial⟩

theorem choiceMembers_all {P : Span → Str → Prop} {q : CPat} (h : q.All P) : allPats P (choiceMembers q) := by
  cases q with
  | choice ps => exact h
  | _ => exact ⟨h, trivial⟩

theorem parentAttribute_shown : ∀ {c : LCtx} {s : Span}, Stands F name c → c.parentAttribute = some s → Shown F name .attribute s
  | .root _ _ _ _, _, _, h => nomatch h
  | .grammar _ _, _, _, h => nomatch h
  | .attribute _ _, _, hc, h => by cases h; exact hc.2
  | .incl p _ _ _ _, _, hc, h => parentAttribute_shown (c := p) hc h
  | .inclOverrides p, _, hc, h => parentAttribute_shown (c := p) hc.1 h
  | .define p _ _, _, hc, h => parentAttribute_shown (c := p) hc.1 h
  | .element p, _, hc, h => parentAttribute_shown (c := p) hc h

mutual
theorem compilePattern_fine (F : LFiles) (x : Ext) (name : Str) : ∀ n, FineP F x name (compilePattern F x n)
  | 0, _, _, _, _, _, _, _ => tri_fail _ trivial
  | n + 1, c, pat, g, src, hc, hf, ho => by
    have hp := compilePattern_fine F x name n
    have hi := compileItem_fine F x name n
    cases pat with
    | element r nc p =>
      refine tri_bind (tri_lift (compileNameclass_fine hf nc fun r' pre h => marked_of ho (.elementName h))) fun nc' _ => ?_
      refine tri_convert hf (marked_of ho .element) (by constructor) fun hsh => ?_
      cases h : c.parentAttribute with
      | some a => exact tri_fail _ (.elementInAttribute (parentAttribute_shown hc h) rfl hsh)
      | none => exact tri_bind (hp (.element c) p g src hc hf (.inside ho .element)) fun q hq => tri_pure _ hq
    | «attribute» r nc p =>
      refine tri_bind (tri_lift (compileNameclass_fine hf nc fun r' pre h => marked_of ho (.attributeName h))) fun nc' _ => ?_
      refine tri_convert hf (marked_of ho .attribute) (by constructor) fun hsh => ?_
      exact tri_bind (hp (.attribute c _) p g src ⟨hc, hsh⟩ hf (.inside ho .attribute)) fun q hq => tri_pure _ hq
    | list p => exact tri_bind (hp c p g src hc hf (.inside ho .list)) fun q hq => tri_pure _ hq
    | mixed p => exact tri_bind (hp c p g src hc hf (.inside ho .mixed)) fun q hq => tri_pure _ hq
    | ident r i =>
      refine tri_convert hf (marked_of ho .ref) (by constructor) fun hsh => ?_
      exact tri_bind (acquireRef_fine hc hf (marked_of ho .ref)) fun k _ => tri_pure _ (.inl hsh)
    | parent r i =>
      refine tri_convert hf (marked_of ho .parent) (by constructor) fun hsh => ?_
      exact tri_bind (acquireParentRef_fine hc (marked_of ho .parent)) fun k _ => tri_pure _ (.inr hsh)
    | empty => exact tri_pure _ trivial
    | text => exact tri_pure _ trivial
    | notAllowed => exact tri_pure _ trivial
    | external r path i => exact compileExternal_fine hp hi hc hf ho
    | grammar r is => exact compileGrammarPattern_fine hi hc hf ho
    | paren p => exact hp c p g src hc hf (.inside ho .paren)
    | seq a b =>
      exact tri_bind (hp c a g src hc hf (.inside ho .seqLeft)) fun q hq => tri_bind (hp c b g src hc hf (.inside ho .seqRight)) fun q' hq' =>
        tri_pure (CPat.group _) (allPats_append (groupMembers_all hq) (groupMembers_all hq'))
    | inter a b =>
      exact tri_bind (hp c a g src hc hf (.inside ho .interLeft)) fun q hq => tri_bind (hp c b g src hc hf (.inside ho .interRight)) fun q' hq' =>
        tri_pure (CPat.interleave _) (allPats_append (interleaveMembers_all hq) (interleaveMembers_all hq'))
    | choice a b =>
      exact tri_bind (hp c a g src hc hf (.inside ho .choiceLeft)) fun q hq => tri_bind (hp c b g src hc hf (.inside ho .choiceRight)) fun q' hq' =>
        tri_pure (CPat.choice _) (allPats_append (choiceMembers_all hq) (choiceMembers_all hq'))
    | «optional» p => exact tri_bind (hp c p g src hc hf (.inside ho .optional)) fun q hq => tri_pure _ hq
    | zeroOrMore p => exact tri_bind (hp c p g src hc hf (.inside ho .zeroOrMore)) fun q hq => tri_pure _ hq
    | oneOrMore p => exact tri_bind (hp c p g src hc hf (.inside ho .oneOrMore)) fun q hq => tri_pure _ hq
    | value ty lit =>
      refine tri_bind (tri_lift (datatypeValue_fine hf (ty.getD .token) (fun m r h => ?_) lit)) fun v _ => tri_pure _ trivial
      cases ty with
      | none => cases h
      | some ty => exact marked_of ho (.valueType h)
    | data ty ps =>
      refine tri_bind (tri_lift (datatypeName_fine hf ho.readable ty ps (fun m r h => marked_of ho (.dataType h)) fun before q after he => ?_)) fun v _ => tri_pure _ trivial
      subst he; exact marked_of ho .dataParam
    | dataExcept ty ps ex =>
      refine tri_bind (tri_lift (datatypeName_fine hf ho.readable ty ps (fun m r h => marked_of ho (.exceptType h)) fun before q after he => ?_)) fun v _ => ?_
      · subst he; exact marked_of ho .exceptParam
      · exact tri_bind (hp c ex g src hc hf (.inside ho .except)) fun q hq => tri_pure _ hq
theorem compileItem_fine (F : LFiles) (x : Ext) (name : Str) : ∀ n, FineI F x name (compileItem F x n)
  | 0, _, _, _, _, _, _, _, _, _ => tri_fail _ trivial
  | n + 1, c, i, g, src, is, hc, hf, ho, hm => by
    have hp := compilePattern_fine F x name n
    have hi := compileItem_fine F x name n
    cases i with
    | define r id how body => exact compileDefine_fine hp hc hf (marked_of ho (.define hm)) (.inside ho (.define hm))
    | div is' => exact compileContents_fine hi hc hf (.inside ho (.div hm)) is' fun _ h => h
    | «include» r path inh os => exact compileInclude_fine hp hi hc hf ho hm
    | «annotation» => exact tri_pure _ trivial
end

/-! ### the whole schema -/

theorem checkAll_fine {cells : List (Option CRule)} {n : Nat} {P : Span → Str → Prop} {Q : LFault → Prop}
    (h : ∀ seen p, CPat.All P p → Pro (check cells n seen p) (fun _ => True) Q) :
    ∀ (ps : List CPat) (seen : List Nat), allPats P ps → Pro (checkAll (check cells n) seen ps) (fun _ => True) Q
  | [], _, _ => trivial
  | p :: ps, seen, hp => pro_bind (h seen p hp.1) fun seen' _ => checkAll_fine h ps seen' hp.2

theorem check_fine {cells : List (Option CRule)} (hcells : ∀ k r, cells.getD k none = some r → r.pattern.All (RefAt F name)) :
    ∀ (n : Nat) (seen : List Nat) (p : CPat), p.All (RefAt F name) → Pro (check cells n seen p) (fun _ => True) (Fine F x name g)
  | 0, _, _, _ => trivial
  | n + 1, seen, p, hp => by
    have ih := check_fine hcells n
    cases p with
    | choice v => exact checkAll_fine ih v seen hp
    | interleave v => exact checkAll_fine ih v seen hp
    | group v => exact checkAll_fine ih v seen hp
    | mixed p => exact ih seen p hp
    | «optional» p => exact ih seen p hp
    | zeroOrMore p => exact ih seen p hp
    | oneOrMore p => exact ih seen p hp
    | attr nc p => exact ih seen p hp
    | element nc p => exact ih seen p hp
    | list p => exact ih seen p hp
    | empty => trivial
    | text => trivial
    | notAllowed => trivial
    | datatypeValue v => trivial
    | datatypeName d => trivial
    | datatypeNameExcept d e => exact ih seen e hp
    | ref s id k =>
      simp only [check]
      split
      · trivial
      · split
        · next r hr => exact ih _ _ (hcells k r hr)
        · exact Blames.undefinedReference hp

theorem finishCompile_fine (hrd : Readable F name) (m scope : Nat) : Tri (Sound F name) (finishCompile F m name scope) (fun _ => True) (Fine F x name name) := by
  intro st hst
  have key := checkDefined_fine (F := F) (x := x) (name := name) (st := st) (s := ⟨name, 0, 0⟩) (fun id => .undefinedInGrammar hrd) (st.refs scope)
  unfold finishCompile
  cases hk : checkDefined st ⟨name, 0, 0⟩ (st.refs scope) with
  | error e => rw [hk] at key; exact key
  | ok u =>
    dsimp only
    cases hl : (st.refs scope).lookup "start".toList with
    | none => exact Blames.noStart hrd
    | some k =>
      dsimp only
      cases hc : st.cell k with
      | none => trivial
      | some r =>
        dsimp only
        obtain ⟨N, h1, h2⟩ := hst.names
        have := check_fine (F := F) (x := x) (name := name) (g := name) (cells := st.cells) (fun k r h => (h2 k r h).2) m [] r.pattern (h2 k r hc).2
        cases hk : check st.cells m [] r.pattern with
        | error e => rw [hk] at this; exact this
        | ok l => exact ⟨trivial, hst⟩

/-- the declarations leave the root of the contexts a root -/
theorem declarations_root {name : Str} : ∀ (ds : List SDecl) k ns dts c', compileDeclarations (.root name k ns dts) ds = .ok c' →
    ∃ k ns dts, c' = .root name k ns dts := by
  intro ds
  induction ds with
  | nil => intro k ns dts c' h; cases h; exact ⟨_, _, _, rfl⟩
  | cons d ds ih =>
    intro k ns dts c' h
    have h1 : ∀ p u, ∃ ns', LCtx.declareNamespace (.root name k ns dts) p u = .ok (.root name k ns' dts) := by
      intro p u
      simp only [LCtx.declareNamespace]
      split <;> exact ⟨_, rfl⟩
    have step : ∃ k ns dts, compileDeclarations (.root name k ns dts) ds = .ok c' := by
      cases d with
      | «namespace» p u =>
        cases u with
        | none => cases h
        | some u =>
          obtain ⟨ns', h1⟩ := h1 p u
          simp only [compileDeclarations, compileDeclaration, h1] at h
          exact ⟨_, _, _, h⟩
      | defaultNamespace p u =>
        cases u with
        | none => cases p <;> cases h
        | some u =>
          cases p with
          | none => exact ⟨_, _, _, h⟩
          | some p =>
            obtain ⟨ns', h1⟩ := h1 p u
            simp only [compileDeclarations, compileDeclaration, h1] at h
            exact ⟨_, _, _, h⟩
      | datatypes p u =>
        simp only [compileDeclarations, compileDeclaration, LCtx.declareDatatype] at h
        by_cases hb : (dts.lookup p).isSome = true
        · rw [if_pos hb] at h; cases h
        · rw [if_neg hb] at h; exact ⟨_, _, _, h⟩
    obtain ⟨k', ns', dts', h⟩ := step
    exact ih _ _ _ _ h

theorem compileFile_fine (n m : Nat) : Tri (Sound F name) (compileFile F x n m name) (fun _ => True) (Fine F x name name) := by
  refine tri_bind (getSchema_fine name) fun s hs => ?_
  have hroot : Tri (Sound F name) (newRoot name) (fun c => ∃ k ns dts, c = .root name k ns dts) (Fine F x name name) :=
    fun st hst => ⟨⟨_, _, _, rfl⟩, newScope hst⟩
  refine tri_bind hroot ?_
  rintro c ⟨k, ns, dts, rfl⟩
  refine tri_bind (P := fun _ => True) ?_ fun _ _ => finishCompile_fine ⟨_, hs⟩ m k
  have hp := compilePattern_fine F x name n
  have hi := compileItem_fine F x name n
  obtain ⟨ds, b⟩ := s
  refine tri_bind (P := fun c' => Stands F name c' ∧ c'.file = some name ∧ ∃ k ns dts, c' = .root name k ns dts) (tri_lift ?_) ?_
  · cases hd : compileDeclarations (.root name k ns dts) ds with
    | error e =>
      have := declarations_fine (F := F) (x := x) (name := name) (g := name) ds (.root name k ns dts) rfl rfl
      rw [hd] at this; exact this
    | ok c' =>
      obtain ⟨k', ns', dts', rfl⟩ := declarations_root ds k ns dts c' hd
      exact ⟨rfl, rfl, _, _, _, rfl⟩
  · rintro _ ⟨hc, hf, k', ns', dts', rfl⟩
    cases b with
    | grammar is => exact compileContents_fine hi hc hf (.grammar hs rfl) is fun _ h => h
    | pattern p =>
      refine tri_bind (hp (.root name k' ns' dts') p name name hc hf (.pattern hs rfl)) fun q hq => ?_
      refine tri_convert0 (c := .root name k' ns' dts') hf ?_
      exact defineIn_fine k' (.inr ⟨rfl, rfl, _, p, hs, rfl⟩) hq

end
end Verif.At
