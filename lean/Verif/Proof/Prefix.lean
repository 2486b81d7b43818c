import Verif.Spec.Prefix
/-
Replacing prefixes does not change how a document is read.
-/
namespace Verif.Prefix
variable {π : Change}

/-- the other way round -/
def Change.inv (π : Change) : Change where
  to := π.back
  back := π.to
  to_back := π.back_to
  back_to := π.to_back
  none := by have := π.to_back []; rwa [π.none] at this
  xmlns := by have := π.to_back "xmlns".toList; rwa [π.xmlns] at this

theorem to_inj {a b : Str} : π.to a = π.to b ↔ a = b :=
  ⟨fun h => by rw [← π.to_back a, h, π.to_back], fun h => by rw [h]⟩
theorem to_nil {a : Str} : π.to a = [] ↔ a = [] := by
  conv => lhs; rw [← π.none]
  exact to_inj
theorem to_xmlns {a : Str} : π.to a = "xmlns".toList ↔ a = "xmlns".toList := by
  conv => lhs; rw [← π.xmlns]
  exact to_inj

theorem attr_back (a : RawAttr) : attr π.inv (attr π a) = a := by
  obtain ⟨pre, loc, v⟩ := a
  have h2 : ∀ s, π.inv.to (π.to s) = s := π.to_back
  by_cases h : pre = "xmlns".toList
  · simp only [attr, if_pos h, h2]
  · have h' : ¬ π.to pre = "xmlns".toList := by rw [to_xmlns]; exact h
    simp only [attr, if_neg h, if_neg h', h2]

theorem attrs_back (as : List RawAttr) : (as.map (attr π)).map (attr π.inv) = as := by
  rw [List.map_map]
  conv => rhs; rw [← List.map_id as]
  exact List.map_congr_left fun a _ => attr_back a

mutual
theorem piece_back : ∀ x : XNode, piece π.inv (piece π x) = x
  | .text s => by rw [piece, piece]
  | .cdata s => by rw [piece, piece]
  | .comment => by rw [piece, piece]
  | .pi => by rw [piece, piece]
  | .elem pre loc atts sc kids => by
    rw [piece, piece, pieces_back kids, attrs_back]
    simp only [Change.inv, π.to_back]
theorem pieces_back : ∀ xs : List XNode, pieces π.inv (pieces π xs) = xs
  | [] => by rw [pieces, pieces]
  | x :: xs => by rw [pieces, pieces, piece_back x, pieces_back xs]
end

theorem doc_back (d : XDoc) : doc π.inv (doc π d) = d := by
  obtain ⟨pr, pre, loc, atts, sc, kids, ep⟩ := d
  simp only [doc, pieces_back, attrs_back]
  simp only [Change.inv, π.to_back]

/-- declarations -/
def decl (π : Change) (x : Str × Str) : Str × Str := (π.to x.1, x.2)

theorem nsDecls_ren : ∀ as : List RawAttr, nsDecls (as.map (attr π)) = (nsDecls as).map (decl π)
  | [] => rfl
  | ⟨pre, loc, v⟩ :: as => by
    have ih := nsDecls_ren as
    have hx : xmlnsStr = "xmlns".toList := rfl
    by_cases h : pre = "xmlns".toList
    · simp only [attr, nsDecls, hx, h, if_true, ih, List.map_cons, decl]
    · have h1 : ¬ π.to pre = "xmlns".toList := by rw [to_xmlns]; exact h
      by_cases h' : pre = [] ∧ loc = "xmlns".toList
      · have h2 : π.to pre = [] ∧ loc = "xmlns".toList := by rw [to_nil]; exact h'
        simp only [attr, nsDecls, hx, if_neg h, if_neg h1, if_pos h', if_pos h2, ih, List.map_cons, decl, π.none]
      · have h2 : ¬ (π.to pre = [] ∧ loc = "xmlns".toList) := by rw [to_nil]; exact h'
        simp only [attr, nsDecls, hx, if_neg h, if_neg h1, if_neg h', if_neg h2, ih, List.map_cons]

theorem plainAtts_ren : ∀ as : List RawAttr, plainAtts (as.map (attr π)) = (plainAtts as).map fun a => ⟨π.to a.pre, a.loc, a.value⟩
  | [] => rfl
  | ⟨pre, loc, v⟩ :: as => by
    have ih := plainAtts_ren as
    have hx : xmlnsStr = "xmlns".toList := rfl
    by_cases h : pre = "xmlns".toList
    · simp only [attr, plainAtts, hx, h, if_true, ih, List.map_cons]
    · have h1 : ¬ π.to pre = "xmlns".toList := by rw [to_xmlns]; exact h
      by_cases h' : pre = [] ∧ loc = "xmlns".toList
      · have h2 : π.to pre = [] ∧ loc = "xmlns".toList := by rw [to_nil]; exact h'
        simp only [attr, plainAtts, hx, if_neg h, if_neg h1, if_pos h', if_pos h2, ih, List.map_cons]
      · have h2 : ¬ (π.to pre = [] ∧ loc = "xmlns".toList) := by rw [to_nil]; exact h'
        simp only [attr, plainAtts, hx, if_neg h, if_neg h1, if_neg h', if_neg h2, ih, List.map_cons]

theorem lookup_ren {pre : Str} : ∀ read : List (Str × Str), (read.map (decl π)).lookup (π.to pre) = read.lookup pre
  | [] => rfl
  | (p, u) :: read => by
    rw [List.map_cons, decl, List.lookup_cons, List.lookup_cons, lookup_ren read]
    have : (π.to pre == π.to p) = (pre == p) := by
      rw [Bool.eq_iff_iff, beq_iff_eq, beq_iff_eq]; exact to_inj
    rw [this]

theorem seenName_ren {read : List (Str × Str)} {pre loc : Str} :
    seenName (read.map (decl π)) (π.to pre) loc = seenName read pre loc := by
  unfold seenName
  rw [lookup_ren]
  by_cases h : pre = []
  · rw [if_pos h, if_pos (to_nil.2 h)]
  · rw [if_neg h, if_neg (mt to_nil.1 h)]

theorem seenAtts_ren {read : List (Str × Str)} {as : List RawAttr} {bs : List Attr} (h : SeenAtts read as bs) :
    SeenAtts (read.map (decl π)) (as.map fun a => ⟨π.to a.pre, a.loc, a.value⟩) bs := by
  induction h with
  | nil => exact .nil
  | cons hn _ ih => exact .cons (seenName_ren.trans hn) ih

mutual
theorem piece_decls : ∀ x : XNode, (piece π x).decls = x.decls.map (decl π)
  | .text s => by simp only [piece, XNode.decls, List.map_nil]
  | .cdata s => by simp only [piece, XNode.decls, List.map_nil]
  | .comment => by simp only [piece, XNode.decls, List.map_nil]
  | .pi => by simp only [piece, XNode.decls, List.map_nil]
  | .elem pre loc atts sc kids => by rw [piece, XNode.decls, XNode.decls, pieces_decls kids, nsDecls_ren, List.map_append]
theorem pieces_decls : ∀ xs : List XNode, declsL (pieces π xs) = (declsL xs).map (decl π)
  | [] => by rw [pieces, declsL]; rfl
  | x :: xs => by rw [pieces, declsL, declsL, pieces_decls xs, piece_decls x, List.map_append]
end

theorem seen_ren {ents : Str → Option Str} {read : List (Str × Str)} {xs : List XNode} {ns : List Node} (h : Seen ents read xs ns) :
    Seen ents (read.map (decl π)) (pieces π xs) ns := by
  induction h with
  | nil => rw [pieces]; exact .nil
  | text ht _ ih => rw [pieces, piece]; exact .text ht ih
  | cdata _ ih => rw [pieces, piece]; exact .cdata ih
  | comment _ ih => rw [pieces, piece]; exact .comment ih
  | pi _ ih => rw [pieces, piece]; exact .pi ih
  | elem hn ha _ _ ihk ih =>
    rw [pieces, piece]
    have hn' := (seenName_ren (π := π)).trans hn
    have ha' := seenAtts_ren (π := π) ha
    simp only [List.map_append, ← nsDecls_ren, ← pieces_decls, ← plainAtts_ren] at hn' ha' ihk ih
    exact .elem hn' ha' ihk ih

theorem root_ren (d : XDoc) : pieces π [d.root] = [(doc π d).root] := by
  simp only [XDoc.root, pieces, piece, doc]

theorem seen_doc {d : XDoc} {n : Node} (h : d.Seen n) : (doc π d).Seen n := by
  have := seen_ren (π := π) h
  rw [root_ren] at this
  exact this

mutual
theorem piece_proper : ∀ x : XNode, x.proper → (piece π x).proper
  | .text s, _ => by rw [piece, XNode.proper]; trivial
  | .cdata s, _ => by rw [piece, XNode.proper]; trivial
  | .comment, _ => by rw [piece, XNode.proper]; trivial
  | .pi, _ => by rw [piece, XNode.proper]; trivial
  | .elem pre loc atts sc kids, h => by
    rw [XNode.proper] at h
    rw [piece, XNode.proper]
    exact ⟨fun hs => by rw [h.1 hs, pieces], pieces_proper kids h.2⟩
theorem pieces_proper : ∀ xs : List XNode, properL xs → properL (pieces π xs)
  | [], _ => by rw [pieces, properL]; trivial
  | x :: xs, h => by rw [properL] at h; rw [pieces, properL]; exact ⟨piece_proper x h.1, pieces_proper xs h.2⟩
end

theorem proper_doc {d : XDoc} (h : d.Proper) : (doc π d).Proper := by
  have := pieces_proper (π := π) [d.root] h
  rw [root_ren] at this
  exact this

theorem brokenText_ren : ∀ {xs : List XNode} {b : Bool}, brokenText b xs → brokenText b (pieces π xs)
  | [], _, h => by rw [brokenText] at h; exact h.elim
  | .text _ :: xs, b, h => by
    rw [brokenText] at h; rw [pieces, piece, brokenText]
    exact h.imp id brokenText_ren
  | .cdata _ :: xs, b, h => by
    rw [brokenText] at h; rw [pieces, piece, brokenText]
    exact h.imp id brokenText_ren
  | .comment :: xs, b, h => by
    rw [brokenText] at h; rw [pieces, piece, brokenText]
    exact brokenText_ren h
  | .pi :: xs, b, h => by
    rw [brokenText] at h; rw [pieces, piece, brokenText]
    exact brokenText_ren h
  | .elem .. :: xs, b, h => by
    rw [brokenText] at h; rw [pieces, piece, brokenText]
    exact brokenText_ren h

theorem seenBroken_ren {read : List (Str × Str)} {xs : List XNode} {nm : QName} (h : SeenBroken read xs nm) :
    SeenBroken (read.map (decl π)) (pieces π xs) nm := by
  induction h with
  | here hn hb =>
    rw [pieces, piece]
    have hn' := (seenName_ren (π := π)).trans hn
    rw [List.map_append, ← nsDecls_ren] at hn'
    exact .here hn' (brokenText_ren hb)
  | inside _ ih =>
    rw [pieces, piece]
    rw [List.map_append, ← nsDecls_ren] at ih
    exact .inside ih
  | later _ ih =>
    rw [pieces]
    rw [List.map_append, ← piece_decls] at ih
    exact .later ih

theorem breaks_ren {D V : Type} {env : Env D V} {start : Pattern D V} {d : XDoc} (h : d.SeenBreaksOnlyText env start) :
    (doc π d).SeenBreaksOnlyText env start := by
  intro nm nc q hb he hn
  have hb' := seenBroken_ren (π := π.inv) hb
  rw [root_ren, doc_back] at hb'
  exact h _ _ _ hb' he hn

end Verif.Prefix
