import Verif.Proof.Opaque
/-
Renaming keeps schemas well-formed.
-/
namespace Verif.Opaque
variable {D V : Type} {L : Lib D V} {env : Env D V} {ρ : Renaming}

theorem env_get {n : Nat} {p : Pattern D V} (h : env[n]? = some p) : (env.map (pattern ρ))[n]? = some (pattern ρ p) := by
  rw [List.getElem?_map, h]; rfl

mutual
theorem pattern_refs : ∀ p : Pattern D V, (pattern ρ p).refs = p.refs
  | .choice ps => by simp only [pattern, Pattern.refs, patterns_refs ps]
  | .interleave ps => by simp only [pattern, Pattern.refs, patterns_refs ps]
  | .group ps => by simp only [pattern, Pattern.refs, patterns_refs ps]
  | .mixed p => by simp only [pattern, Pattern.refs, pattern_refs p]
  | .empty => by simp only [pattern]
  | .text => by simp only [pattern]
  | .notAllowed => by simp only [pattern]
  | .optional p => by simp only [pattern, Pattern.refs, pattern_refs p]
  | .zeroOrMore p => by simp only [pattern, Pattern.refs, pattern_refs p]
  | .oneOrMore p => by simp only [pattern, Pattern.refs, pattern_refs p]
  | .attr nc p => by simp only [pattern, Pattern.refs, pattern_refs p]
  | .element nc p => by simp only [pattern, Pattern.refs, pattern_refs p]
  | .ref n => by simp only [pattern]
  | .datatypeValue v => by simp only [pattern, Pattern.refs]
  | .datatypeName d => by simp only [pattern, Pattern.refs]
  | .datatypeNameExcept d e => by simp only [pattern, Pattern.refs, pattern_refs e]
  | .list p => by simp only [pattern, Pattern.refs, pattern_refs p]
theorem patterns_refs : ∀ ps : List (Pattern D V), refsL (patterns ρ ps) = refsL ps
  | [] => by simp only [patterns]
  | p :: ps => by simp only [patterns, refsL, pattern_refs p, patterns_refs ps]
end

theorem uses_ren {p : Pattern D V} {n : Nat} (h : Uses env p n) : Uses (env.map (pattern ρ)) (pattern ρ p) n := by
  induction h with
  | here h => exact .here (by rw [pattern_refs]; exact h)
  | there h hm _ ih => exact .there (by rw [pattern_refs]; exact h) (env_get hm) ih

theorem recursive_ren {n : Nat} (h : Recursive env n) : Recursive (env.map (pattern ρ)) n := by
  obtain ⟨q, hq, hu⟩ := h
  exact ⟨_, env_get hq, uses_ren hu⟩

theorem fresh_ren {n : Nat} (h : Fresh L env n) : Fresh L (env.map (pattern ρ)) n := by
  intro hr hm
  have hr' := recursive_ren (ρ := ρ.back) hr
  have hm' := match_ren (ρ := ρ.back) hm
  rw [env_back] at hr' hm'
  rw [pattern, nodes] at hm'
  exact h hr' hm'

theorem all_ren {P : Pattern D V → Prop} {ps : List (Pattern D V)} (h : ∀ p ∈ ps, P (pattern ρ p)) : ∀ p ∈ patterns ρ ps, P p := by
  intro p hp
  rw [patterns_map] at hp
  obtain ⟨q, hq, rfl⟩ := List.mem_map.1 hp
  exact h q hq

theorem ne_ren {ps : List (Pattern D V)} (h : ps ≠ []) : patterns ρ ps ≠ [] := by
  rw [patterns_map]; intro he; exact h (List.map_eq_nil_iff.1 he)

theorem exOK_ren {p : Pattern D V} (h : ExOK env p) : ExOK (env.map (pattern ρ)) (pattern ρ p) := by
  induction h with
  | value => rw [pattern]; exact .value
  | data => rw [pattern]; exact .data
  | dataExcept _ ih => rw [pattern]; exact .dataExcept ih
  | notAllowed => rw [pattern]; exact .notAllowed
  | choice h _ ih => rw [pattern]; exact .choice (ne_ren h) (all_ren ih)
  | ref h _ ih => rw [pattern]; exact .ref (env_get h) ih

theorem listFree_ren {p : Pattern D V} (h : ListFree env p) : ListFree (env.map (pattern ρ)) (pattern ρ p) := by
  induction h with
  | empty => rw [pattern]; exact .empty
  | text => rw [pattern]; exact .text
  | notAllowed => rw [pattern]; exact .notAllowed
  | choice _ ih => rw [pattern]; exact .choice (all_ren ih)
  | group _ ih => rw [pattern]; exact .group (all_ren ih)
  | interleave _ ih => rw [pattern]; exact .interleave (all_ren ih)
  | mixed _ ih => rw [pattern]; exact .mixed ih
  | optional _ ih => rw [pattern]; exact .optional ih
  | zeroOrMore _ ih => rw [pattern]; exact .zeroOrMore ih
  | oneOrMore _ ih => rw [pattern]; exact .oneOrMore ih
  | attr => rw [pattern]; exact .attr
  | element => rw [pattern]; exact .element
  | value => rw [pattern]; exact .value
  | data => rw [pattern]; exact .data
  | dataExcept => rw [pattern]; exact .dataExcept
  | ref h _ ih => rw [pattern]; exact .ref (env_get h) ih

theorem attrFree_ren {p : Pattern D V} (h : AttrFree env p) : AttrFree (env.map (pattern ρ)) (pattern ρ p) := by
  induction h with
  | empty => rw [pattern]; exact .empty
  | text => rw [pattern]; exact .text
  | notAllowed => rw [pattern]; exact .notAllowed
  | choice _ ih => rw [pattern]; exact .choice (all_ren ih)
  | group _ ih => rw [pattern]; exact .group (all_ren ih)
  | interleave _ ih => rw [pattern]; exact .interleave (all_ren ih)
  | mixed _ ih => rw [pattern]; exact .mixed ih
  | optional _ ih => rw [pattern]; exact .optional ih
  | zeroOrMore _ ih => rw [pattern]; exact .zeroOrMore ih
  | oneOrMore _ ih => rw [pattern]; exact .oneOrMore ih
  | element => rw [pattern]; exact .element
  | value => rw [pattern]; exact .value
  | data => rw [pattern]; exact .data
  | dataExcept => rw [pattern]; exact .dataExcept
  | list => rw [pattern]; exact .list
  | ref h _ ih => rw [pattern]; exact .ref (env_get h) ih

theorem repeatOK_ren {p : Pattern D V} (h : RepeatOK env p) : RepeatOK (env.map (pattern ρ)) (pattern ρ p) := by
  induction h with
  | free h => exact .free (attrFree_ren h)
  | attr => rw [pattern]; exact .attr
  | choice _ ih => rw [pattern]; exact .choice (all_ren ih)
  | optional _ ih => rw [pattern]; exact .optional ih
  | zeroOrMore _ ih => rw [pattern]; exact .zeroOrMore ih
  | oneOrMore _ ih => rw [pattern]; exact .oneOrMore ih
  | ref h _ ih => rw [pattern]; exact .ref (env_get h) ih

theorem wf_ren {Q : Pattern D V → Prop} {c s l p} (h : WF L env Q c s l p) :
    WF L (env.map (pattern ρ)) (fun q => ∃ p, Q p ∧ q = pattern ρ p) c s l (pattern ρ p) := by
  induction h with
  | empty => rw [pattern]; exact .empty
  | text => rw [pattern]; exact .text
  | notAllowed => rw [pattern]; exact .notAllowed
  | choice h _ ih => rw [pattern]; exact .choice (ne_ren h) (all_ren ih)
  | group h _ ih => rw [pattern]; exact .group (ne_ren h) (all_ren ih)
  | interleave h _ hl ih => rw [pattern]; exact .interleave (ne_ren h) (all_ren ih) (all_ren fun p hp => listFree_ren (hl p hp))
  | mixed _ hl ih => rw [pattern]; exact .mixed ih (listFree_ren hl)
  | optional _ ih => rw [pattern]; exact .optional ih
  | zeroOrMore _ hr ih => rw [pattern]; exact .zeroOrMore ih fun hc => repeatOK_ren (hr hc)
  | oneOrMore _ hr ih => rw [pattern]; exact .oneOrMore ih fun hc => repeatOK_ren (hr hc)
  | attr _ ih => rw [pattern]; exact .attr ih
  | element h => rw [pattern]; exact .element ⟨_, h, rfl⟩
  | ref h _ hf ih => rw [pattern]; exact .ref (env_get h) ih fun hc hs => fresh_ren (hf hc hs)
  | value => rw [pattern]; exact .value
  | data => rw [pattern]; exact .data
  | dataExcept h => rw [pattern]; exact .dataExcept (exOK_ren h)
  | list _ ih => rw [pattern]; exact .list ih

theorem schemaOK_ren {start : Pattern D V} {c : Bool} (h : SchemaOK L env start c) :
    SchemaOK L (env.map (pattern ρ)) (pattern ρ start) c := by
  obtain ⟨Q, hQ, hw⟩ := h
  refine ⟨_, ?_, wf_ren hw⟩
  rintro _ ⟨p, hp, rfl⟩
  exact wf_ren (hQ p hp)

theorem startOK_ren {start : Pattern D V} (h : StartOK env start) : StartOK (env.map (pattern ρ)) (pattern ρ start) := by
  induction h with
  | element => rw [pattern]; exact .element
  | notAllowed => rw [pattern]; exact .notAllowed
  | choice h _ ih => rw [pattern]; exact .choice (ne_ren h) (all_ren ih)
  | ref h _ ih => rw [pattern]; exact .ref (env_get h) ih

theorem mem_ren {p : Pattern D V} {ps : List (Pattern D V)} (h : p ∈ ps) : pattern ρ p ∈ patterns ρ ps := by
  rw [patterns_map]; exact List.mem_map_of_mem h

theorem elemIn_ren {p : Pattern D V} {nc q} (h : ElemIn env p nc q) :
    ElemIn (env.map (pattern ρ)) (pattern ρ p) (names ρ nc) (pattern ρ q) := by
  induction h with
  | here => rw [pattern]; exact .here
  | element _ ih => rw [pattern]; exact .element ih
  | choice hp _ ih => rw [pattern]; exact .choice (mem_ren hp) ih
  | group hp _ ih => rw [pattern]; exact .group (mem_ren hp) ih
  | interleave hp _ ih => rw [pattern]; exact .interleave (mem_ren hp) ih
  | mixed _ ih => rw [pattern]; exact .mixed ih
  | optional _ ih => rw [pattern]; exact .optional ih
  | zeroOrMore _ ih => rw [pattern]; exact .zeroOrMore ih
  | oneOrMore _ ih => rw [pattern]; exact .oneOrMore ih
  | attr _ ih => rw [pattern]; exact .attr ih
  | list _ ih => rw [pattern]; exact .list ih
  | ref h _ ih => rw [pattern]; exact .ref (env_get h) ih

theorem onlyText_ren {p : Pattern D V} (h : OnlyText env p) : OnlyText (env.map (pattern ρ)) (pattern ρ p) := by
  induction h with
  | empty => rw [pattern]; exact .empty
  | text => rw [pattern]; exact .text
  | notAllowed => rw [pattern]; exact .notAllowed
  | choice _ ih => rw [pattern]; exact .choice (all_ren ih)
  | group _ ih => rw [pattern]; exact .group (all_ren ih)
  | interleave _ ih => rw [pattern]; exact .interleave (all_ren ih)
  | mixed _ ih => rw [pattern]; exact .mixed ih
  | optional _ ih => rw [pattern]; exact .optional ih
  | zeroOrMore _ ih => rw [pattern]; exact .zeroOrMore ih
  | oneOrMore _ ih => rw [pattern]; exact .oneOrMore ih
  | attr => rw [pattern]; exact .attr
  | element => rw [pattern]; exact .element
  | ref h _ ih => rw [pattern]; exact .ref (env_get h) ih

theorem brokenText_ren : ∀ {xs : List XNode} {b : Bool}, brokenText b xs → brokenText b (pieces ρ xs)
  | [], _, h => by rw [brokenText] at h; exact h.elim
  | .text _ :: xs, b, h => by
    rw [brokenText] at h; rw [pieces, piece, brokenText]
    exact h.imp id brokenText_ren
  | .cdata _ :: xs, b, h => by
    rw [brokenText] at h; rw [pieces, piece, brokenText]
    exact h.imp id brokenText_ren
  | .comment :: xs, b, h => by
    rw [brokenText] at h; rw [pieces, piece, brokenText]
    exact brokenText_ren h
  | .pi :: xs, b, h => by
    rw [brokenText] at h; rw [pieces, piece, brokenText]
    exact brokenText_ren h
  | .elem .. :: xs, b, h => by
    rw [brokenText] at h; rw [pieces, piece, brokenText]
    exact brokenText_ren h

theorem seenBroken_ren {read : List (Str × Str)} {xs : List XNode} {nm : QName} (h : SeenBroken read xs nm) :
    SeenBroken (read.map (decl ρ)) (pieces ρ xs) (qname ρ nm) := by
  induction h with
  | here hn hb =>
    rw [pieces, piece]
    have hn' := seenName_ren (ρ := ρ) hn
    rw [List.map_append, ← nsDecls_ren] at hn'
    exact .here hn' (brokenText_ren hb)
  | inside _ ih =>
    rw [pieces, piece]
    rw [List.map_append, ← nsDecls_ren] at ih
    exact .inside ih
  | later _ ih =>
    rw [pieces]
    rw [List.map_append, ← piece_decls] at ih
    exact .later ih

theorem root_ren (d : XDoc) : pieces ρ [d.root] = [(doc ρ d).root] := by
  simp only [XDoc.root, pieces, piece, doc]

theorem breaks_ren {start : Pattern D V} {d : XDoc} (h : d.SeenBreaksOnlyText env start) :
    (doc ρ d).SeenBreaksOnlyText (env.map (pattern ρ)) (pattern ρ start) := by
  intro nm nc q hb he hn
  have hb' := seenBroken_ren (ρ := ρ.back) hb
  rw [root_ren, doc_back] at hb'
  have he' := elemIn_ren (ρ := ρ.back) he
  rw [env_back, pattern_back] at he'
  have := onlyText_ren (ρ := ρ) (h _ _ _ hb' he' (has_qname hn))
  have hq : pattern ρ (pattern ρ.back q) = q := pattern_back (ρ := ρ.back) q
  rwa [hq] at this

end Verif.Opaque
