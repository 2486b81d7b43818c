import Verif.Spec.Opaque
/-
Renaming does not matter.
-/
namespace Verif.Opaque
variable {D V : Type} {L : Lib D V} {env : Env D V} {ρ : Renaming}

/-- the other way round -/
def Renaming.back (ρ : Renaming) : Renaming where
  uri := ρ.uriBack
  loc := ρ.locBack
  uriBack := ρ.uri
  locBack := ρ.loc
  uri_back := ρ.back_uri
  back_uri := ρ.uri_back
  loc_back := ρ.back_loc
  back_loc := ρ.loc_back
  uri_none := by have := ρ.uri_back []; rwa [ρ.uri_none] at this
  loc_xmlns := by have := ρ.loc_back "xmlns".toList; rwa [ρ.loc_xmlns] at this

theorem uri_inj {a b : Str} : ρ.uri a = ρ.uri b ↔ a = b :=
  ⟨fun h => by rw [← ρ.uri_back a, h, ρ.uri_back], fun h => by rw [h]⟩
theorem loc_inj {a b : Str} : ρ.loc a = ρ.loc b ↔ a = b :=
  ⟨fun h => by rw [← ρ.loc_back a, h, ρ.loc_back], fun h => by rw [h]⟩

/-! ### there and back -/

theorem names_back : ∀ nc : NameClass, names ρ.back (names ρ nc) = nc
  | .named ns n => by simp only [names, Renaming.back, ρ.uri_back, ρ.loc_back]
  | .nsName ns => by simp only [names, Renaming.back, ρ.uri_back]
  | .nsNameExcept ns ex => by rw [names, names, names_back ex]; simp only [Renaming.back, ρ.uri_back]
  | .anyName => rfl
  | .anyNameExcept ex => by rw [names, names, names_back ex]
  | .alt a b => by rw [names, names, names_back a, names_back b]

mutual
theorem pattern_back : ∀ p : Pattern D V, pattern ρ.back (pattern ρ p) = p
  | .choice ps => by rw [pattern, pattern, patterns_back ps]
  | .interleave ps => by rw [pattern, pattern, patterns_back ps]
  | .group ps => by rw [pattern, pattern, patterns_back ps]
  | .mixed p => by rw [pattern, pattern, pattern_back p]
  | .empty => by rw [pattern, pattern]
  | .text => by rw [pattern, pattern]
  | .notAllowed => by rw [pattern, pattern]
  | .optional p => by rw [pattern, pattern, pattern_back p]
  | .zeroOrMore p => by rw [pattern, pattern, pattern_back p]
  | .oneOrMore p => by rw [pattern, pattern, pattern_back p]
  | .attr nc p => by rw [pattern, pattern, pattern_back p, names_back]
  | .element nc p => by rw [pattern, pattern, pattern_back p, names_back]
  | .ref n => by rw [pattern, pattern]
  | .datatypeValue v => by rw [pattern, pattern]
  | .datatypeName d => by rw [pattern, pattern]
  | .datatypeNameExcept d e => by rw [pattern, pattern, pattern_back e]
  | .list p => by rw [pattern, pattern, pattern_back p]
theorem patterns_back : ∀ ps : List (Pattern D V), patterns ρ.back (patterns ρ ps) = ps
  | [] => by rw [patterns, patterns]
  | p :: ps => by rw [patterns, patterns, pattern_back p, patterns_back ps]
end

theorem attr_back (a : RawAttr) : attr ρ.back (attr ρ a) = a := by
  obtain ⟨pre, loc, v⟩ := a
  have h2 : ∀ s, ρ.back.loc (ρ.loc s) = s := ρ.loc_back
  have h1 : ∀ s, ρ.back.uri (ρ.uri s) = s := ρ.uri_back
  have h3 : ρ.loc loc = "xmlns".toList ↔ loc = "xmlns".toList := by
    conv => lhs; rw [← ρ.loc_xmlns]
    exact loc_inj
  by_cases h : pre = "xmlns".toList ∨ (pre = [] ∧ loc = "xmlns".toList)
  · simp only [attr, if_pos h, h1]
  · have h' : ¬ (pre = "xmlns".toList ∨ (pre = [] ∧ ρ.loc loc = "xmlns".toList)) := by rw [h3]; exact h
    simp only [attr, if_neg h, if_neg h', h2]

theorem attrs_back (as : List RawAttr) : (as.map (attr ρ)).map (attr ρ.back) = as := by
  rw [List.map_map]
  conv => rhs; rw [← List.map_id as]
  exact List.map_congr_left fun a _ => attr_back a

mutual
theorem piece_back : ∀ x : XNode, piece ρ.back (piece ρ x) = x
  | .text s => by rw [piece, piece]
  | .cdata s => by rw [piece, piece]
  | .comment => by rw [piece, piece]
  | .pi => by rw [piece, piece]
  | .elem pre loc atts sc kids => by
    rw [piece, piece, pieces_back kids, attrs_back]
    simp only [Renaming.back, ρ.loc_back]
theorem pieces_back : ∀ xs : List XNode, pieces ρ.back (pieces ρ xs) = xs
  | [] => by rw [pieces, pieces]
  | x :: xs => by rw [pieces, pieces, piece_back x, pieces_back xs]
end

theorem doc_back (d : XDoc) : doc ρ.back (doc ρ d) = d := by
  obtain ⟨pr, pre, loc, atts, sc, kids, ep⟩ := d
  simp only [doc, pieces_back, attrs_back]
  simp only [Renaming.back, ρ.loc_back]

theorem env_back (env : Env D V) : (env.map (pattern ρ)).map (pattern ρ.back) = env := by
  rw [List.map_map]
  conv => rhs; rw [← List.map_id env]
  exact List.map_congr_left fun p _ => pattern_back p

/-! ### matching -/

theorem names_has {x : Str × Str} : ∀ nc : NameClass, (names ρ nc).Has (ρ.uri x.1, ρ.loc x.2) ↔ nc.Has x
  | .named ns n => by
    simp only [names, NameClass.Has, Prod.mk.injEq, uri_inj, loc_inj]
    exact ⟨fun h => Prod.ext h.1 h.2, fun h => by rw [h]; exact ⟨rfl, rfl⟩⟩
  | .nsName ns => by simp only [names, NameClass.Has, uri_inj]
  | .nsNameExcept ns ex => by simp only [names, NameClass.Has, uri_inj, names_has ex]
  | .anyName => Iff.rfl
  | .anyNameExcept ex => by simp only [names, NameClass.Has, names_has ex]
  | .alt a b => by simp only [names, NameClass.Has, names_has a, names_has b]

theorem expanded_qname (q : QName) : (qname ρ q).expanded = (ρ.uri q.expanded.1, ρ.loc q.expanded.2) := by
  obtain ⟨ns, l⟩ := q
  cases ns with
  | none => simp only [qname, QName.expanded, Option.map_none, Option.getD_none, ρ.uri_none]
  | some u => rfl

theorem has_qname {nc : NameClass} {q : QName} (h : nc.Has q.expanded) : (names ρ nc).Has (qname ρ q).expanded := by
  rw [expanded_qname]; exact (names_has nc).2 h

theorem patterns_map : ∀ ps : List (Pattern D V), patterns ρ ps = ps.map (pattern ρ)
  | [] => by rw [patterns]; rfl
  | p :: ps => by rw [patterns, patterns_map ps]; rfl
theorem nodes_map : ∀ ns : List Node, nodes ρ ns = ns.map (node ρ)
  | [] => by rw [nodes]; rfl
  | p :: ps => by rw [nodes, nodes_map ps]; rfl

theorem nodes_append {c1 c2 : List Node} : nodes ρ (c1 ++ c2) = nodes ρ c1 ++ nodes ρ c2 := by simp only [nodes_map, List.map_append]

theorem nodes_texts {c : List Node} (h : ∀ x ∈ c, ∃ s, x = Node.text s) : nodes ρ c = c := by
  induction c with
  | nil => rw [nodes]
  | cons x c ih =>
    obtain ⟨s, rfl⟩ := h x (.head _)
    rw [nodes, node, ih fun y hy => h y (.tail _ hy)]

theorem nodes_shuffle {c1 c2 c : List Node} (h : Shuffle c1 c2 c) : Shuffle (nodes ρ c1) (nodes ρ c2) (nodes ρ c) := by
  induction h with
  | nil => rw [nodes]; exact .nil
  | left _ ih => rw [nodes, nodes]; exact .left ih
  | right _ ih => rw [nodes, nodes]; exact .right ih

theorem nodes_weak {c c' : List Node} (h : Weak c c') : Weak (nodes ρ c) (nodes ρ c') := by
  induction h with
  | nil => rw [nodes]; exact .nil
  | keep _ ih => rw [nodes, nodes]; exact .keep ih
  | drop hs _ ih => rw [nodes, node]; exact .drop hs ih

theorem ex_match {e : Pattern D V} {s b} (h : ExMatch L env e s b) : ExMatch L (env.map (pattern ρ)) (pattern ρ e) s b := by
  induction h with
  | value h => rw [pattern]; exact .value h
  | data h => rw [pattern]; exact .data h
  | dataExcept h _ ih => rw [pattern]; exact .dataExcept h ih
  | notAllowed => rw [pattern]; exact .notAllowed
  | choiceNil => rw [pattern, patterns]; exact .choiceNil
  | choiceCons _ _ ih1 ih2 => rw [pattern] at ih2 ⊢; rw [patterns]; exact .choiceCons ih1 ih2
  | ref h _ ih => rw [pattern]; exact .ref (by rw [List.getElem?_map, h]; rfl) ih

theorem perm_map {a a1 a2 : List Attr} (h : a.Perm (a1 ++ a2)) : (a.map (att ρ)).Perm (a1.map (att ρ) ++ a2.map (att ρ)) := by
  rw [← List.map_append]; exact h.map _

theorem match_ren {p : Pattern D V} {a c} (h : Match L env p a c) :
    Match L (env.map (pattern ρ)) (pattern ρ p) (a.map (att ρ)) (nodes ρ c) := by
  induction h with
  | empty => rw [pattern, nodes]; exact .empty
  | text hc => rw [pattern, nodes_texts hc]; exact .text hc
  | choice hp _ ih => rw [pattern, patterns_map]; exact .choice (List.mem_map_of_mem hp) ih
  | groupNil => rw [pattern, patterns, nodes]; exact .groupNil
  | groupCons _ _ hp ih1 ih2 =>
    rw [pattern] at ih2 ⊢
    rw [patterns, nodes_append]
    exact .groupCons ih1 ih2 (perm_map hp)
  | interleaveNil => rw [pattern, patterns, nodes]; exact .interleaveNil
  | interleaveCons _ _ hp hs ih1 ih2 =>
    rw [pattern] at ih2 ⊢
    rw [patterns]
    exact .interleaveCons ih1 ih2 (perm_map hp) (nodes_shuffle hs)
  | mixed _ hc hs ih =>
    rw [pattern]
    refine .mixed ih ?_ (nodes_shuffle hs)
    rw [nodes_texts hc]; exact hc
  | optionalNone => rw [pattern, nodes]; exact .optionalNone
  | optionalSome _ ih => rw [pattern]; exact .optionalSome ih
  | zeroOrMoreNil => rw [pattern, nodes]; exact .zeroOrMoreNil
  | zeroOrMoreCons _ _ hp ih1 ih2 =>
    rw [pattern] at ih2 ⊢
    rw [nodes_append]
    exact .zeroOrMoreCons ih1 ih2 (perm_map hp)
  | oneOrMore _ _ hp ih1 ih2 =>
    rw [pattern] at ih2
    rw [pattern]
    rw [nodes_append]
    exact .oneOrMore ih1 ih2 (perm_map hp)
  | attr hn hw _ ih =>
    rw [pattern, nodes]
    have hw' := nodes_weak (ρ := ρ) hw
    rw [nodes, node, nodes] at hw'
    exact .attr (has_qname hn) hw' ih
  | element hn hw _ ih =>
    rw [pattern, nodes, node, nodes]
    exact .element (has_qname hn) (nodes_weak hw) ih
  | ref hn _ ih => rw [pattern]; exact .ref (by rw [List.getElem?_map, hn]; rfl) ih
  | value hv => rw [pattern, nodes, node, nodes]; exact .value hv
  | data hv => rw [pattern, nodes, node, nodes]; exact .data hv
  | dataExcept hv he => rw [pattern, nodes, node, nodes]; exact .dataExcept hv (ex_match he)
  | @list _ _ ws hw _ ih =>
    rw [pattern, nodes, node, nodes]
    rw [nodes_texts fun x hx => by obtain ⟨w, _, rfl⟩ := List.mem_map.1 hx; exact ⟨w, rfl⟩] at ih
    exact .list hw ih

/-! ### documents -/

/-- declarations -/
def decl (ρ : Renaming) (x : Str × Str) : Str × Str := (x.1, ρ.uri x.2)

theorem nsDecls_ren : ∀ as : List RawAttr, nsDecls (as.map (attr ρ)) = (nsDecls as).map (decl ρ)
  | [] => rfl
  | ⟨pre, loc, v⟩ :: as => by
    have h3 : ρ.loc loc = "xmlns".toList ↔ loc = "xmlns".toList := by
      conv => lhs; rw [← ρ.loc_xmlns]
      exact loc_inj
    have ih := nsDecls_ren as
    rw [List.map_cons]
    have hx : xmlnsStr = "xmlns".toList := rfl
    by_cases h : pre = "xmlns".toList
    · simp only [attr, nsDecls, hx, h, true_or, if_true, ih, List.map_cons, decl]
    · by_cases h' : pre = [] ∧ loc = "xmlns".toList
      · simp only [attr, nsDecls, hx, h, h', false_or, if_true, if_false, ih, List.map_cons, and_self, decl]
        simp [decl]
      · have h'' : ¬ (pre = [] ∧ ρ.loc loc = "xmlns".toList) := by rw [h3]; exact h'
        simp only [attr, nsDecls, hx, h, h', h'', false_or, if_false, ih, List.map_cons, decl]

theorem plainAtts_ren : ∀ as : List RawAttr, plainAtts (as.map (attr ρ)) = (plainAtts as).map fun a => ⟨a.pre, ρ.loc a.loc, a.value⟩
  | [] => rfl
  | ⟨pre, loc, v⟩ :: as => by
    have h3 : ρ.loc loc = "xmlns".toList ↔ loc = "xmlns".toList := by
      conv => lhs; rw [← ρ.loc_xmlns]
      exact loc_inj
    have ih := plainAtts_ren as
    rw [List.map_cons]
    have hx : xmlnsStr = "xmlns".toList := rfl
    by_cases h : pre = "xmlns".toList
    · simp only [attr, plainAtts, hx, h, true_or, if_true, ih, List.map_cons]
    · by_cases h' : pre = [] ∧ loc = "xmlns".toList
      · simp only [attr, plainAtts, hx, h, h', false_or, if_true, if_false, ih, List.map_cons, and_self]
        simp
      · have h'' : ¬ (pre = [] ∧ ρ.loc loc = "xmlns".toList) := by rw [h3]; exact h'
        simp only [attr, plainAtts, hx, h, h', h'', false_or, if_false, ih, List.map_cons]

theorem lookup_ren {pre : Str} : ∀ read : List (Str × Str), (read.map (decl ρ)).lookup pre = (read.lookup pre).map ρ.uri
  | [] => rfl
  | (p, u) :: read => by
    rw [List.map_cons, decl, List.lookup_cons, List.lookup_cons, lookup_ren read]
    cases pre == p <;> rfl

theorem seenName_ren {read : List (Str × Str)} {pre loc : Str} {nm : QName} (h : seenName read pre loc = some nm) :
    seenName (read.map (decl ρ)) pre (ρ.loc loc) = some (qname ρ nm) := by
  unfold seenName at h ⊢
  split at h
  · rename_i hp; rw [if_pos hp]; cases h; rfl
  · rename_i hp
    rw [if_neg hp, lookup_ren]
    cases hl : read.lookup pre with
    | none => rw [hl] at h; cases h
    | some u => rw [hl] at h; cases h; rfl

theorem seenAtts_ren {read : List (Str × Str)} {as : List RawAttr} {bs : List Attr} (h : SeenAtts read as bs) :
    SeenAtts (read.map (decl ρ)) (as.map fun a => ⟨a.pre, ρ.loc a.loc, a.value⟩) (bs.map (att ρ)) := by
  induction h with
  | nil => exact .nil
  | cons hn _ ih => exact .cons (seenName_ren hn) ih

mutual
theorem piece_decls : ∀ x : XNode, (piece ρ x).decls = x.decls.map (decl ρ)
  | .text s => by simp only [piece, XNode.decls, List.map_nil]
  | .cdata s => by simp only [piece, XNode.decls, List.map_nil]
  | .comment => by simp only [piece, XNode.decls, List.map_nil]
  | .pi => by simp only [piece, XNode.decls, List.map_nil]
  | .elem pre loc atts sc kids => by rw [piece, XNode.decls, XNode.decls, pieces_decls kids, nsDecls_ren, List.map_append]
theorem pieces_decls : ∀ xs : List XNode, declsL (pieces ρ xs) = (declsL xs).map (decl ρ)
  | [] => by rw [pieces, declsL]; rfl
  | x :: xs => by rw [pieces, declsL, declsL, pieces_decls xs, piece_decls x, List.map_append]
end

theorem joinText_ren : ∀ ns : List Node, joinText (nodes ρ ns) = nodes ρ (joinText ns)
  | [] => by rw [nodes, joinText, nodes]
  | .elem nm as k :: ns => by rw [nodes, node, joinText, joinText_ren ns, joinText, nodes, node]; all_goals simp
  | .text s :: ns => by
    rw [nodes, node, joinText, joinText_ren ns, joinText]
    cases joinText ns with
    | nil => simp only [nodes, node]
    | cons x xs => cases x <;> simp only [nodes, node]

theorem seen_ren {ents : Str → Option Str} {read : List (Str × Str)} {xs : List XNode} {ns : List Node} (h : Seen ents read xs ns) :
    Seen ents (read.map (decl ρ)) (pieces ρ xs) (nodes ρ ns) := by
  induction h with
  | nil => rw [pieces, nodes]; exact .nil
  | text ht _ ih => rw [pieces, piece, nodes, node]; exact .text ht ih
  | cdata _ ih => rw [pieces, piece, nodes, node]; exact .cdata ih
  | comment _ ih => rw [pieces, piece]; exact .comment ih
  | pi _ ih => rw [pieces, piece]; exact .pi ih
  | elem hn ha _ _ ihk ih =>
    rw [pieces, piece, nodes, node, ← joinText_ren]
    have hn' := seenName_ren (ρ := ρ) hn
    have ha' := seenAtts_ren (ρ := ρ) ha
    simp only [List.map_append, ← nsDecls_ren, ← pieces_decls, ← plainAtts_ren] at hn' ha' ihk ih
    exact .elem hn' ha' ihk ih

theorem seen_doc {d : XDoc} {n : Node} (h : d.Seen n) : (doc ρ d).Seen (node ρ n) := by
  have := seen_ren (ρ := ρ) h
  rw [pieces, nodes, pieces, nodes] at this
  unfold XDoc.root at this
  rw [piece] at this
  exact this

mutual
theorem piece_proper : ∀ x : XNode, x.proper → (piece ρ x).proper
  | .text s, _ => by rw [piece, XNode.proper]; trivial
  | .cdata s, _ => by rw [piece, XNode.proper]; trivial
  | .comment, _ => by rw [piece, XNode.proper]; trivial
  | .pi, _ => by rw [piece, XNode.proper]; trivial
  | .elem pre loc atts sc kids, h => by
    rw [XNode.proper] at h
    rw [piece, XNode.proper]
    exact ⟨fun hs => by rw [h.1 hs, pieces], pieces_proper kids h.2⟩
theorem pieces_proper : ∀ xs : List XNode, properL xs → properL (pieces ρ xs)
  | [], _ => by rw [pieces, properL]; trivial
  | x :: xs, h => by rw [properL] at h; rw [pieces, properL]; exact ⟨piece_proper x h.1, pieces_proper xs h.2⟩
end

theorem proper_doc {d : XDoc} (h : d.Proper) : (doc ρ d).Proper := by
  have := pieces_proper (ρ := ρ) [d.root] h
  unfold XDoc.root at this
  rw [pieces, piece, pieces] at this
  exact this

end Verif.Opaque
