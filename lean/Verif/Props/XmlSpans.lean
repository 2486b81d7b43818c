import Verif.Proof.XmlPlaced
import Verif.Proof.XmlFault
import Verif.Props.XmlSyntax
/-
C71: the errors and positions of the reader of the XML schema syntax, and what they mean for the errors of the schema compiler.

The trees of roxmltree with their ranges are given; that they are those of the text is the hypothesis `Depicts`.
-/
namespace Verif.RngAt
open Verif Verif.At Verif.LXml Verif.Rng

variable {uri : Str → UriKind} {root : LNode} {text : Str}

/-! ### one document -/

/-- the acceptable URIs of datatype libraries -/
abbrev fine (uri : Str → UriKind) : Str → Bool := okOf uri

/-- **C71**: with positions the same is read as without, and the same documents are refused. -/
theorem C71_same_tree (root : LNode) :
    XS.parseXml (fine uri) root.plain = (match LXml.parse uri root with | .ok s => some s.plain | .error _ => none) := by
  rw [← parse_plain]
  cases LXml.parse uri root <;> rfl

/-- **C71**: the error with which a document is refused names a fault that the document has, and says where it is. -/
theorem C71_errors_name_faults {e : XErr} (h : LXml.parse uri root = .error e) : RngAt.Fault uri root e := parse_fault h

/-- **C71**: a document is read exactly if it has no fault. -/
theorem C71_read_iff_no_fault : (∃ s, LXml.parse uri root = .ok s) ↔ ∀ e, ¬ RngAt.Fault uri root e := by
  constructor
  · rintro ⟨s, h⟩ e; exact ok_no_fault h
  · intro h
    cases hp : LXml.parse uri root with
    | ok s => exact ⟨s, rfl⟩
    | error e => exact absurd (parse_fault hp) (h e)

theorem fine_eq : (fun v => okOf uri v = true) = fun v => uri v = .fine := by
  funext v; unfold okOf; simp only [decide_eq_true_eq]

/-- **C71**, C59: a document that is a way of writing a schema has no fault. -/
theorem C71_schemas_have_no_fault {s : SSchema} (h : Schema (fun v => uri v = .fine) Href root.plain s) (e : XErr) : ¬ RngAt.Fault uri root e := by
  rw [← fine_eq] at h
  have := C59_every_spelling_is_read h
  rw [C71_same_tree] at this
  cases hp : LXml.parse uri root with
  | ok s' => exact ok_no_fault hp
  | error e => rw [hp] at this; cases this

/-- **C71**, C59: a document without fault is a way of writing a schema (paths that RFC 3986 and `Href` leave open apart). -/
theorem C71_faultless_is_schema (h : ∀ e, ¬ RngAt.Fault uri root e) :
    ∃ s, Schema (fun v => uri v = .fine) (fun cx h r => ∀ r', Href cx h r' → r = r') root.plain s := by
  obtain ⟨s, hs⟩ := C71_read_iff_no_fault.2 h
  refine ⟨s.plain, ?_⟩
  rw [← fine_eq]
  exact C59_what_is_read_is_a_spelling (by rw [C71_same_tree, hs])

/-- **C71**: every position of the syntax tree is that of the node or attribute of the document it comes from, see `Stands`. -/
theorem C71_positions_stand {s : LSchema} (h : LXml.parse uri root = .ok s) {b : LTree} (hb : PartOf s.root b) {m : Mark} {r : Rg} (hm : b.Has m r) :
    Stands root m r := parse_stands h b m r hb hm

/-- every position of the document lies in its text -/
theorem Stands.inside {m : Mark} {r : Rg} (h : Stands root m r) (hd : Depicts text root) : r.lo ≤ r.hi ∧ r.hi ≤ byteLen text := stands_fits hd h

theorem value_cut {cx : LAnc} {n : LNode} {as : List LAttr} {a : LAttr} (hd : Depicts text root) (hn : Descends root cx n) (h : ∃ k, LHasAttr k as a)
    (he : ∃ r ns name sc kids, n = .element r ns name sc as kids) : ∃ raw, Cut text a.valueAt raw ∧ RngAt.Decodes raw a.value := by
  obtain ⟨r, ns, name, sc, kids, rfl⟩ := he
  obtain ⟨k, h⟩ := h
  exact written_value (depicts_atts (depicts_desc hd hn).1 (has_mem h))

/-- what follows the `<` -/
theorem cut_tag {r : Rg} {name rest : Str} (h : Cut text r ('<' :: name ++ rest)) : Cut text (tagRange r (byteLen name)) name := by
  obtain ⟨pre, post, ht, h1, h2⟩ := h
  have e : byteLen ['<'] = 1 := rfl
  refine ⟨pre ++ ['<'], rest ++ post, by rw [ht]; simp, ?_, ?_⟩
  · show r.lo + 1 = _
    rw [bl_append, e, h1]
  · show r.lo + 1 + _ = _
    rw [bl_append, e, h1]

/-- the first character of an element -/
theorem cut_lt {r : Rg} {w : Str} (h : Cut text r ('<' :: w)) : Cut text ⟨r.lo, r.lo + 1⟩ "<".toList := by
  obtain ⟨pre, post, ht, h1, h2⟩ := h
  refine ⟨pre, w ++ post, by rw [ht]; simp, h1, ?_⟩
  show r.lo + 1 = _
  rw [h1]; rfl

theorem Depicts.lt {r : Rg} {ns : Option Str} {name : Str} {sc : List (Option Str × Str)} {as : List LAttr} {kids : List LNode}
    (h : Depicts text (.element r ns name sc as kids)) : Cut text ⟨r.lo, r.lo + 1⟩ "<".toList := by
  cases h with
  | element h => exact cut_lt (by simpa using h)

theorem nameIn_noLt {v n : Str} (h : NameIn v n) : n ≠ [] ∧ '<' ∉ n := by
  obtain ⟨_, c, cs, rfl, h1, h2⟩ := h
  have hs : ¬ NameStart '<' := by unfold NameStart; decide
  have hc : ¬ NameChar '<' := by unfold NameChar NameStart; decide
  refine ⟨nofun, fun hm => ?_⟩
  rcases List.mem_cons.1 hm with rfl | hm
  · exact hs h1
  · exact hc (h2 _ hm)

/-- **C71**: if no tag has a prefix, then every position of the syntax tree shows what it stands for, see `Shows`. -/
theorem C71_positions_show_the_source {s : LSchema} (h : LXml.parse uri root = .ok s) (hd : Depicts text root) (hu : Unprefixed text root)
    {b : LTree} (hb : PartOf s.root b) {m : Mark} {r : Rg} (hm : b.Has m r) : Shows text m r := by
  have hs := C71_positions_stand h hb hm
  cases hs with
  | element hn => obtain ⟨rest, hc⟩ := hu _ _ _ _ _ _ _ hn; exact .element (cut_tag hc)
  | «attribute» hn => obtain ⟨rest, hc⟩ := hu _ _ _ _ _ _ _ hn; exact .attribute (cut_tag hc)
  | start hn => obtain ⟨rest, hc⟩ := hu _ _ _ _ _ _ _ hn; exact .start (cut_tag hc)
  | grammar hn => obtain ⟨rest, hc⟩ := hu _ _ _ _ _ _ _ hn; exact .grammar hc
  | param hn => obtain ⟨rest, hc⟩ := hu _ _ _ _ _ _ _ hn; exact .param hc
  | ref hn ha hi => obtain ⟨raw, h1, h2⟩ := value_cut hd hn ⟨_, ha⟩ ⟨_, _, _, _, _, rfl⟩; exact .ref h1 h2 hi
  | parent hn ha hi => obtain ⟨raw, h1, h2⟩ := value_cut hd hn ⟨_, ha⟩ ⟨_, _, _, _, _, rfl⟩; exact .parent h1 h2 hi
  | define hn ha hi => obtain ⟨raw, h1, h2⟩ := value_cut hd hn ⟨_, ha⟩ ⟨_, _, _, _, _, rfl⟩; exact .define h1 h2 hi
  | external hn ha hi => obtain ⟨raw, h1, h2⟩ := value_cut hd hn ⟨_, ha⟩ ⟨_, _, _, _, _, rfl⟩; exact .external h1 h2 hi
  | «include» hn ha hi => obtain ⟨raw, h1, h2⟩ := value_cut hd hn ⟨_, ha⟩ ⟨_, _, _, _, _, rfl⟩; exact .include h1 h2 hi
  | @library _ _ _ _ _ _ a _ hn ha =>
    obtain ⟨as', h1, h2⟩ := nearest_mem ha
    have hw : RngAt.Written text a := by
      rcases List.mem_cons.1 h1 with rfl | h1
      · exact depicts_atts (depicts_desc hd hn).1 h2
      · exact (depicts_desc hd hn).2 _ h1 _ h2
    obtain ⟨raw, h3, h4⟩ := written_value hw
    exact .library h3 h4
  | noLibrary => exact .noLibrary
  | typeName _ hn ha => obtain ⟨raw, h1, h2⟩ := value_cut hd hn ⟨_, ha⟩ ⟨_, _, _, _, _, rfl⟩; exact .typeName h1 h2
  | nsPrefix hn _ hi => exact .nsPrefix (depicts_desc hd hn).1.lt (nameIn_noLt hi).1 (nameIn_noLt hi).2

/-- **C71**: every fault is at a place of the text. -/
theorem C71_error_positions_in_file {e : XErr} (h : RngAt.Fault uri root e) (hd : Depicts text root) :
    e.at_.lo ≤ e.at_.hi ∧ e.at_.hi ≤ byteLen text := fault_fits h hd

/-- **C71**: a document that roxmltree accepts is read, or refused with an error that names a fault and its place: it leads to no
panic. -/
theorem C71_well_formed_never_panics (hd : Depicts text root) :
    (∃ s, LXml.readXml uri text (.tree root) = .ok s ∧ LXml.parse uri root = .ok s) ∨
      ∃ e, LXml.readXml uri text (.tree root) = .error e ∧ RngAt.Fault uri root e := by
  unfold LXml.readXml
  dsimp only
  cases h : LXml.parse uri root with
  | ok s => exact .inl ⟨s, rfl, rfl⟩
  | error e =>
    have := C71_error_positions_in_file (C71_errors_name_faults h) hd
    refine .inr ⟨e, ?_, C71_errors_name_faults h⟩
    dsimp only
    rw [XS.subspan, if_pos this]

/-- **C71**, C62: an ill-formed document always leads to a panic. -/
theorem C71_ill_formed_panics {row col : Nat} (hc : 1 ≤ col) : LXml.readXml uri text (.illFormed row col) = .panic := by
  have h := C62_ill_formed_schema_panics (ok := fine uri) (text := text) (row := row) hc
  unfold XS.readXml at h
  unfold LXml.readXml
  dsimp only at h ⊢
  split
  · rfl
  · next b e he =>
    rw [he] at h
    dsimp only at h
    split at h
    · next hs => rw [hs]
    · cases h

/-! ### where errors are -/

/-- The messages whose position is computed from the length of what is written, see `C71_wrong_character_is_shown`. -/
def counted : List String := ["Expected identifier", "Unexpected character within identifier", "Unexpected character for NcName", "Unknown namespace prefix"]

/-- **C71**: all other errors are at a piece of the text. -/
theorem C71_errors_show_a_piece {e : XErr} (h : RngAt.Fault uri root e) (hd : Depicts text root) (hm : msgOf e ∉ counted) : ∃ w, Cut text e.at_ w := by
  have bad : ∀ {msg : String} {r : Rg} {v : Str}, BadName msg r v e → msg ∈ counted → False := by
    intro msg r v hb hc
    cases hb with
    | empty => exact hm (List.mem_cons_self ..)
    | char => exact hm hc
  have hid : "Unexpected character within identifier" ∈ counted := .tail _ (.head _)
  have hnc : "Unexpected character for NcName" ∈ counted := .tail _ (.tail _ (.head _))
  cases h with
  | root => exact depicts_at hd
  | @inside role cx n e hx hw =>
    have hn : Depicts text n := (depicts_desc hd (expects_desc hx)).1
    have here : ∃ w, Cut text n.at_ w := depicts_at hn
    have attAt : ∀ {a : LAttr}, RngAt.Written text a → ∃ w, Cut text a.at_ w := fun h => by
      obtain ⟨_, _, _, _, h, _⟩ := h; exact ⟨_, h⟩
    have valAt : ∀ {a : LAttr}, RngAt.Written text a → ∃ w, Cut text a.valueAt w := fun h => by
      obtain ⟨_, h, _⟩ := written_value h; exact ⟨_, h⟩
    have ident : ∀ {a : LAttr}, BadIdent a e → RngAt.Written text a → ∃ w, Cut text e.at_ w := by
      intro a hb hwr
      cases hb with
      | colon => exact valAt hwr
      | name hb => exact (bad hb hid).elim
    have qname : ∀ {a : LAttr} {sc : List (Option Str × Str)}, BadQName sc a e → ∃ w, Cut text e.at_ w := by
      intro a sc hb
      cases hb with
      | pre => exact (hm (.tail _ (.tail _ (.tail _ (.head _))))).elim
      | loc _ _ hb => exact (bad hb hnc).elim
      | plain _ hb => exact (bad hb hnc).elim
    cases hw with
    | library ha => exact valAt (depicts_atts hn (has_mem ha))
    | fragment ha => exact valAt (depicts_atts hn (has_mem ha))
    | attr _ ha => exact attAt (depicts_atts hn ha)
    | badName _ ha hb => exact qname hb
    | xmlns ha => exact valAt (depicts_atts hn (has_mem ha))
    | xmlnsNs ha => exact attAt (depicts_atts hn (has_mem ha))
    | moreInAttribute _ hf hf' => exact depicts_at (depicts_kid hn (hf.post hf'.mem))
    | moreAfterAttributeName _ hf hf' hf'' => exact depicts_at (depicts_kid hn (hf.post (hf'.post hf''.mem)))
    | child _ hf => exact depicts_at (depicts_kid hn hf.mem)
    | refName _ ha hb => exact ident hb (depicts_atts hn (has_mem ha))
    | @valueChild _ _ _ _ _ k _ _ => exact depicts_at (depicts_kid (k := k) hn (by simp))
    | typeName _ ha hb => exact (bad hb hnc).elim
    | @notParam _ _ _ _ _ r' name' sc' as' kids' _ => exact depicts_at (depicts_kid (k := lel r' name' sc' as' kids') hn (by simp))
    | @noException _ _ _ _ _ r' sc' as' kids' _ => exact depicts_at (depicts_kid (k := lel r' "except".toList sc' as' kids') hn (by simp))
    | afterException _ hf =>
      have := hf.mem
      exact depicts_at (depicts_kid hn (by simp [this]))
    | combine _ _ ha => exact valAt (depicts_atts hn (has_mem ha))
    | startAttr _ ha => exact attAt (depicts_atts hn ha)
    | moreInStart _ hf hf' => exact depicts_at (depicts_kid hn (hf.post hf'.mem))
    | defineName _ ha hb => exact ident hb (depicts_atts hn (has_mem ha))
    | paramName ha hb => exact ident hb (depicts_atts hn (has_mem ha))
    | @nameElement _ _ _ _ _ _ k _ _ => exact depicts_at (depicts_kid (k := k) hn (by simp))
    | namePrefix _ hb => exact (bad hb hnc).elim
    | nameLocal _ hb => exact (bad hb hnc).elim
    | namePlain _ hb => exact (bad hb hnc).elim
    | notExcept _ hf => exact depicts_at (depicts_kid hn hf.mem)
    | afterExcept _ hf hf' => exact depicts_at (depicts_kid hn (hf.post hf'.mem))
    | noExcept _ hf => exact depicts_at (depicts_kid hn hf.mem)
    | _ => exact here

/-- the attribute of an identifier with a wrong character -/
theorem ident_fault {e : XErr} (h : RngAt.Fault uri root e) (hm : msgOf e = "Unexpected character within identifier") :
    ∃ cx r' name sc as kids a, Descends root cx (lel r' name sc as kids) ∧ a ∈ as ∧ BadName "Unexpected character within identifier" a.valueAt a.value e := by
  cases h with
  | root => exact absurd hm (by simp [msgOf])
  | inside hx hw =>
    have nob : ∀ {r : Rg} {v : Str}, ¬ BadName "Unexpected character for NcName" r v e := by
      intro _ _ hb; cases hb <;> exact absurd hm (by simp [msgOf])
    have noq : ∀ {a : LAttr} {sc : List (Option Str × Str)}, ¬ BadQName sc a e := by
      intro a sc hb
      cases hb with
      | pre => exact absurd hm (by simp [msgOf])
      | loc _ _ hb => exact nob hb
      | plain _ hb => exact nob hb
    have idt : ∀ {a : LAttr}, BadIdent a e → BadName "Unexpected character within identifier" a.valueAt a.value e := by
      intro a hb
      cases hb with
      | colon => exact absurd hm (by simp [msgOf])
      | name hb => exact hb
    cases hw with
    | badName _ _ hb => exact (noq hb).elim
    | refName _ ha hb => exact ⟨_, _, _, _, _, _, _, expects_desc hx, has_mem ha, idt hb⟩
    | typeName _ _ hb => exact (nob hb).elim
    | defineName _ ha hb => exact ⟨_, _, _, _, _, _, _, expects_desc hx, has_mem ha, idt hb⟩
    | paramName ha hb => exact ⟨_, _, _, _, _, _, _, expects_desc hx, has_mem ha, idt hb⟩
    | namePrefix _ hb => exact (nob hb).elim
    | nameLocal _ hb => exact (nob hb).elim
    | namePlain _ hb => exact (nob hb).elim
    | notItem hr => rcases hr with rfl | rfl <;> exact absurd hm (by simp [msgOf, Role.expected])
    | _ => exact absurd hm (by simp [msgOf])

/-- two pieces of text that begin at the same place -/
theorem cut_same {r r' : Rg} {a b : Str} (h : Cut text r a) (h' : Cut text r' b) (he : r.lo = r'.lo) : ∃ x y, a ++ x = b ++ y := by
  obtain ⟨p, q, ht, h1, _⟩ := h
  obtain ⟨p', q', ht', h1', _⟩ := h'
  have c1 : Cut text ⟨0, r.lo⟩ p := ⟨[], a ++ q, by rw [ht]; simp, rfl, by rw [h1]; exact (Nat.zero_add _).symm⟩
  have c2 : Cut text ⟨0, r.lo⟩ p' := ⟨[], b ++ q', by rw [ht']; simp, rfl, by rw [he, h1']; exact (Nat.zero_add _).symm⟩
  have e := c1.unique c2
  subst e
  refine ⟨q, q', ?_⟩
  rw [ht, List.append_assoc, List.append_assoc] at ht'
  exact List.append_cancel_left ht'

/-- part of a piece of text -/
theorem cut_part {r : Rg} {a b c : Str} (h : Cut text r (a ++ b ++ c)) : Cut text ⟨r.lo + byteLen a, r.lo + byteLen a + byteLen b⟩ b := by
  obtain ⟨p, q, ht, h1, _⟩ := h
  refine ⟨p ++ a, c ++ q, by rw [ht]; simp, ?_, ?_⟩
  · rw [bl_append, h1]
  · rw [bl_append, h1]

/-- a character of more than one byte is not shown by a range of one byte -/
theorem cut_wide {r : Rg} {a b w : Str} {c : Char} (h : Cut text r (a ++ c :: b)) (hc : 1 < c.utf8Size) :
    ¬ Cut text ⟨r.lo + byteLen a, r.lo + byteLen a + 1⟩ w := by
  intro h'
  have h1 : Cut text ⟨r.lo + byteLen a, r.lo + byteLen a + byteLen (c :: b)⟩ (c :: b) := cut_part (c := []) (by simpa using h)
  obtain ⟨x, y, e⟩ := cut_same h1 h' rfl
  obtain ⟨p, q, _, h2, h3⟩ := h'
  dsimp only at h2 h3
  cases w with
  | nil => rw [bl_nil] at h3; omega
  | cons d ds =>
    injection e with e1 e2
    subst e1
    rw [bl_cons] at h3
    omega

/-- **C71**: the position of a wrong character of an identifier shows it, if the name is written without references and begins with the
quote, and the character is one byte.  If it is more, then the position does **not** show anything: it cuts the character. -/
theorem C71_wrong_character_is_shown {e : XErr} (h : RngAt.Fault uri root e) (hm : msgOf e = "Unexpected character within identifier") (hd : Depicts text root) :
    ∃ cx r name sc as kids a raw, Descends root cx (lel r name sc as kids) ∧ a ∈ as ∧ Cut text a.valueAt raw ∧ RngAt.Decodes raw a.value ∧
      (raw = a.value → (∀ c rest, raw = c :: rest → ¬ White c) → ∃ x c y, a.value = x ++ c :: y ∧ (x = [] ∧ ¬ NameStart c ∨ NCName x ∧ ¬ NameChar c) ∧
        (c.utf8Size = 1 → Cut text e.at_ [c]) ∧ (1 < c.utf8Size → ∀ w, ¬ Cut text e.at_ w)) := by
  obtain ⟨cx, r, name, sc, as, kids, a, h1, h2, h3⟩ := ident_fault h hm
  obtain ⟨raw, h4, h5⟩ := written_value (depicts_atts (depicts_desc hd h1).1 h2)
  refine ⟨cx, r, name, sc, as, kids, a, raw, h1, h2, h4, h5, ?_⟩
  intro hr hw
  cases h3 with
  | empty => exact absurd hm (by simp [msgOf])
  | @char x c y ht hb =>
    obtain ⟨b1, b2, hv, hb1, hb2, _⟩ := ht
    have e1 : b1 = [] := by
      cases b1 with
      | nil => rfl
      | cons d ds => exact absurd (hb1 d (List.mem_cons_self ..)) (hw d (ds ++ (x ++ c :: y) ++ b2) (by rw [hr, hv]; simp))
    subst e1
    have hv' : a.value = x ++ c :: (y ++ b2) := by rw [hv]; simp
    rw [hr, hv'] at h4
    refine ⟨x, c, y ++ b2, hv', hb, ?_, ?_⟩
    · intro hc
      have := cut_part (a := x) (b := [c]) (c := y ++ b2) (by simpa using h4)
      have e2 : byteLen [c] = 1 := by rw [bl_cons, hc]; rfl
      rw [e2] at this
      exact this
    · intro hc w; exact cut_wide h4 hc

/-- the attribute with the unknown prefix -/
theorem prefix_fault {e : XErr} (h : RngAt.Fault uri root e) (hm : msgOf e = "Unknown namespace prefix") :
    ∃ cx r' name sc as kids a v w p, Descends root cx (lel r' name sc as kids) ∧ LHasAttr "name".toList as a ∧ a.value = v ++ ':' :: w ∧ ':' ∉ v ∧ Trimmed v p ∧
      (∀ u, ¬ PrefixIn sc p u) ∧ e = .unexpected ⟨a.valueAt.lo, a.valueAt.lo + byteLen v⟩ "Unknown namespace prefix" := by
  cases h with
  | root => exact absurd hm (by simp [msgOf])
  | inside hx hw =>
    have nob : ∀ {m : String} {r : Rg} {v : Str}, m ≠ "Unknown namespace prefix" → ¬ BadName m r v e := by
      intro _ _ _ hn hb
      cases hb with
      | empty => exact absurd hm (by simp [msgOf])
      | char => exact hn hm
    have noi : ∀ {a : LAttr}, ¬ BadIdent a e := by
      intro a hb
      cases hb with
      | colon => exact absurd hm (by simp [msgOf])
      | name hb => exact nob (by decide) hb
    cases hw with
    | badName _ ha hb =>
      cases hb with
      | pre h1 h2 h3 h4 => exact ⟨_, _, _, _, _, _, _, _, _, _, expects_desc hx, ha, h1, h2, h3, h4, rfl⟩
      | loc _ _ hb => exact (nob (by decide) hb).elim
      | plain _ hb => exact (nob (by decide) hb).elim
    | refName _ ha hb => exact (noi hb).elim
    | typeName _ _ hb => exact (nob (by decide) hb).elim
    | defineName _ ha hb => exact (noi hb).elim
    | paramName ha hb => exact (noi hb).elim
    | namePrefix _ hb => exact (nob (by decide) hb).elim
    | nameLocal _ hb => exact (nob (by decide) hb).elim
    | namePlain _ hb => exact (nob (by decide) hb).elim
    | notItem hr => rcases hr with rfl | rfl <;> exact absurd hm (by simp [msgOf, Role.expected])
    | _ => exact absurd hm (by simp [msgOf])

/-- **C71**: the position of an unknown prefix in a `name` attribute shows the prefix (with the white space around it), if it is
written without references. -/
theorem C71_unknown_prefix_is_shown {e : XErr} (h : RngAt.Fault uri root e) (hm : msgOf e = "Unknown namespace prefix") (hd : Depicts text root) :
    ∃ cx r name sc as kids a raw v w p, Descends root cx (lel r name sc as kids) ∧ LHasAttr "name".toList as a ∧ Cut text a.valueAt raw ∧
      RngAt.Decodes raw a.value ∧ a.value = v ++ ':' :: w ∧ Trimmed v p ∧ (∀ u, ¬ PrefixIn sc p u) ∧ (raw = a.value → Cut text e.at_ v) := by
  obtain ⟨cx, r, name, sc, as, kids, a, v, w, p, h1, h2, h3, h4, h5, h6, rfl⟩ := prefix_fault h hm
  obtain ⟨raw, h7, h8⟩ := written_value (depicts_atts (depicts_desc hd h1).1 (has_mem h2))
  refine ⟨cx, r, name, sc, as, kids, a, raw, v, w, p, h1, h2, h7, h8, h3, h5, h6, ?_⟩
  intro hr
  rw [hr, h3] at h7
  have := cut_part (a := []) (b := v) (c := ':' :: w) (by simpa using h7)
  show Cut text ⟨_, _⟩ v
  simpa [bl_nil] using this

/-! ### files -/

section
variable {text : Str → Option (Str × LDoc)} {name : Str}

/-- the trees are those of the texts -/
def Depicted (text : Str → Option (Str × LDoc)) : Prop := ∀ f t root, text f = some (t, .tree root) → Depicts t root

/-- the texts alone -/
def textsOf (text : Str → Option (Str × LDoc)) (f : Str) : Option Str := (text f).map Prod.fst

def _root_.Verif.LXml.LDoc.plain : LDoc → XS.SchemaDoc
  | .tree root => .tree root.plain
  | .illFormed row col => .illFormed row col

/-- the files without positions -/
def plainTexts (text : Str → Option (Str × LDoc)) (f : Str) : Option (Str × XS.SchemaDoc) := (text f).map fun p => (p.1, p.2.plain)

theorem load_xml {f : Str} {s : LSchema} (h : (LXml.xmlFiles uri text).load f = .ok s) :
    ∃ t root, text f = some (t, .tree root) ∧ LXml.parse uri root = .ok s := by
  simp only [LXml.xmlFiles] at h
  cases ht : text f with
  | none => rw [ht] at h; cases h
  | some p =>
    obtain ⟨t, d⟩ := p
    rw [ht] at h
    dsimp only at h
    cases d with
    | tree root =>
      refine ⟨t, root, rfl, ?_⟩
      unfold LXml.readXml at h
      dsimp only at h
      cases hp : LXml.parse uri root with
      | ok s' => rw [hp] at h; cases h; rfl
      | error e =>
        rw [hp] at h
        dsimp only at h
        cases hs : XS.subspan (byteLen t) e.at_.lo e.at_.hi with
        | none => rw [hs] at h; cases h
        | some _ => rw [hs] at h; cases h
    | illFormed row col =>
      unfold LXml.readXml at h
      dsimp only at h
      cases he : XS.errorSpan t row col with
      | none => rw [he] at h; cases h
      | some p =>
        obtain ⟨b, e⟩ := p
        rw [he] at h
        dsimp only at h
        cases hs : XS.subspan (byteLen t) b e with
        | none => rw [hs] at h; cases h
        | some _ => rw [hs] at h; cases h

/-- everything that stands somewhere in a schema stands there in its file -/
theorem C71_marks_stand {f src : Str} {t : LTree} (ho : LOccurs (LXml.xmlFiles uri text) name ⟨f, src, t⟩) {m : Mark} {r : Rg} (hm : t.Has m r) :
    ∃ txt root, text src = some (txt, .tree root) ∧ Stands root m r := by
  obtain ⟨s, hs, hp⟩ := ho.part
  obtain ⟨txt, root, ht, hr⟩ := load_xml hs
  exact ⟨txt, root, ht, C71_positions_stand hr hp hm⟩

/-- **C71**: every position lies in the file it stands in. -/
theorem C71_positions_lie_in_their_file (hd : Depicted text) : OwnPlaced (LXml.xmlFiles uri text) name := by
  intro f src t m r ho hm
  obtain ⟨txt, root, ht, hr⟩ := C71_marks_stand ho hm
  have := hr.inside (hd _ _ _ ht)
  refine ⟨this.1, ?_⟩
  simp only [LXml.xmlFiles, ht]
  exact this.2

/-- without positions these are the files of `Model/XmlSyntax` -/
theorem xmlFiles_plain (hd : Depicted text) : (LXml.xmlFiles uri text).plain = Verif.xmlFiles (fine uri) (plainTexts text) := by
  unfold LFiles.plain LXml.xmlFiles Verif.xmlFiles
  congr 1
  funext f
  unfold plainTexts
  dsimp only
  cases ht : text f with
  | none => rfl
  | some p =>
    obtain ⟨t, d⟩ := p
    simp only [Option.map_some]
    cases d with
    | tree root =>
      have hs := C71_same_tree (uri := uri) root
      simp only [LDoc.plain, XS.readXml, hs]
      rcases C71_well_formed_never_panics (uri := uri) (hd _ _ _ ht) with ⟨s, h1, h2⟩ | ⟨e, h1, h2⟩
      · rw [h1, h2]
      · rw [h1]
        cases hp : LXml.parse uri root with
        | ok s => exact absurd h2 (ok_no_fault hp)
        | error e' => rfl
    | illFormed row col =>
      simp only [LDoc.plain, XS.readXml, LXml.readXml]
      cases he : XS.errorSpan t row col with
      | none => rfl
      | some p =>
        obtain ⟨b, e⟩ := p
        dsimp only
        cases hs : XS.subspan (byteLen t) b e <;> rfl

variable {x : Ext} {n m : Nat}

/-- **C71**, C67: documents that use no grammar by `externalRef` compile exactly if they do without positions. -/
theorem C71_documents_compile (hd : Depicted text) (hx : NoExternalGrammar (LXml.xmlFiles uri text) name) :
    (∃ k st, At.compileFile (LXml.xmlFiles uri text) x n m name (.fresh []) = .ok (k, st)) ↔
      ∃ k st, Verif.compileFile (Verif.xmlFiles (fine uri) (plainTexts text)) x n m name (.fresh []) = .ok (k, st) := by
  rw [← xmlFiles_plain hd]
  exact C67_positions_do_not_matter (l := []) nofun (C71_positions_lie_in_their_file hd) hx

/-- **C71**, C67: documents that use no grammar by `externalRef`, and `parentRef` only in the first file for names defined there, never
lead to a panic over a position. -/
theorem C71_no_position_panics (hd : Depicted text) (hx : NoExternalGrammar (LXml.xmlFiles uri text) name) (hp : ParentsAtHome (LXml.xmlFiles uri text) name) :
    ∀ b, At.compileFile (LXml.xmlFiles uri text) x n m name (.fresh []) ≠ .error (.subspan b) :=
  C67_no_position_panics (l := []) nofun (C71_positions_lie_in_their_file hd) hx hp

theorem shown_stands (hx : NoExternalGrammar (LXml.xmlFiles uri text) name) {mk : Mark} {s : Span} (h : Shown (LXml.xmlFiles uri text) name mk s) :
    ∃ txt root, text s.file = some (txt, .tree root) ∧ Stands root mk ⟨s.lo, s.hi⟩ := by
  obtain ⟨⟨src, t, ho, hh⟩, _⟩ := h
  have e : s.file = src := hx.own ho
  obtain ⟨txt, root, ht, hr⟩ := C71_marks_stand ho hh
  exact ⟨txt, root, by rw [e]; exact ht, hr⟩

/-- **C71**, what goes wrong: the position of an undefined prefix is **never** one where the prefix stands: it begins with the `<` of an
element. -/
theorem C71_undefined_prefix_is_misplaced (hd : Depicted text) (hx : NoExternalGrammar (LXml.xmlFiles uri text) name) {s : Span} {pre : Str}
    (h : At.compileFile (LXml.xmlFiles uri text) x n m name (.fresh []) = .error (.err (.undefinedNamespacePrefix s pre))) :
    s.file = name ∧ Quotes (textsOf text) ⟨s.file, s.lo, s.lo + 1⟩ "<".toList ∧ ¬ Quotes (textsOf text) s pre := by
  have := C68_errors_point_at_the_fault (l := []) nofun h
  cases this with
  | nsPrefix hf hs =>
    obtain ⟨txt, root, ht, hr⟩ := shown_stands hx hs
    have ht' : textsOf text s.file = some txt := by unfold textsOf; rw [ht]; rfl
    generalize hg : (⟨s.lo, s.hi⟩ : Rg) = g at hr
    cases hr with
    | nsPrefix hn _ hi =>
      have hlt := (depicts_desc (hd _ _ _ ht) hn).1.lt
      injection hg with e1 e2
      rw [← e1] at hlt
      refine ⟨hf, ⟨txt, ht', hlt⟩, ?_⟩
      rintro ⟨txt', ht'', hc⟩
      rw [ht'] at ht''
      cases ht''
      obtain ⟨a, b, e⟩ := cut_same hlt hc rfl
      obtain ⟨h1, h2⟩ := nameIn_noLt hi
      cases pre with
      | nil => exact h1 rfl
      | cons c cs =>
        injection e with e3 _
        have e4 : '<' = c := e3
        exact h2 (by rw [e4]; exact List.mem_cons_self ..)

/-- the attribute value at a position of a file stands for the name `id` -/
def QuotesName (text : Str → Option Str) (s : Span) (id : Str) : Prop := ∃ raw v, Quotes text s raw ∧ RngAt.Decodes raw v ∧ NameIn v id

/-- no tag of any document has a prefix -/
def AllUnprefixed (text : Str → Option (Str × LDoc)) : Prop := ∀ f t root, text f = some (t, .tree root) → Unprefixed t root

/-- **C71**: with unprefixed tags, everything that stands somewhere in a schema is shown there by the text of its file. -/
theorem C71_marks_are_shown (hd : Depicted text) (hu : AllUnprefixed text) {f src : Str} {t : LTree} (ho : LOccurs (LXml.xmlFiles uri text) name ⟨f, src, t⟩) {m : Mark} {r : Rg}
    (hm : t.Has m r) : ∃ txt, textsOf text src = some txt ∧ Shows txt m r := by
  obtain ⟨s, hs, hp⟩ := ho.part
  obtain ⟨txt, root, ht, hr⟩ := load_xml hs
  exact ⟨txt, by unfold textsOf; rw [ht]; rfl, C71_positions_show_the_source hr (hd _ _ _ ht) (hu _ _ _ ht) hp hm⟩

theorem shown_shows (hd : Depicted text) (hu : AllUnprefixed text) (hx : NoExternalGrammar (LXml.xmlFiles uri text) name) {mk : Mark} {s : Span}
    (h : Shown (LXml.xmlFiles uri text) name mk s) : ∃ txt, textsOf text s.file = some txt ∧ Shows txt mk ⟨s.lo, s.hi⟩ := by
  obtain ⟨⟨src, t, ho, hh⟩, _⟩ := h
  have e : s.file = src := hx.own ho
  obtain ⟨txt, ht, hr⟩ := C71_marks_are_shown hd hu ho hh
  exact ⟨txt, by rw [e]; exact ht, hr⟩

/-- **C71**, C68: a recursive reference is reported with the place of the reference and the place of the definition, both of which
show the name (or the tag `start`). -/
theorem C71_recursion_is_quoted (hd : Depicted text) (hu : AllUnprefixed text) (hx : NoExternalGrammar (LXml.xmlFiles uri text) name)
    (hp : ParentsAtHome (LXml.xmlFiles uri text) name) {id : Str} {s s' : Span}
    (h : At.compileFile (LXml.xmlFiles uri text) x n m name (.fresh []) = .error (.err (.recursiveReference id s s'))) :
    QuotesName (textsOf text) s id ∧ (QuotesName (textsOf text) s' id ∨ id = "start".toList ∧ Quotes (textsOf text) s' id) := by
  have := C68_errors_point_at_the_fault (l := []) nofun h
  have dfn : ∀ {s : Span} {id : Str}, Shown (LXml.xmlFiles uri text) name (.define id) s →
      QuotesName (textsOf text) s id ∨ id = "start".toList ∧ Quotes (textsOf text) s id := by
    intro s id hs
    obtain ⟨txt, ht, hr⟩ := shown_shows hd hu hx hs
    cases hr with
    | define hc hv hn => exact .inl ⟨_, _, ⟨txt, ht, hc⟩, hv, hn⟩
    | start hc => exact .inr ⟨rfl, txt, ht, hc⟩
  cases this with
  | recursiveReference hf hf' hs hs' =>
    refine ⟨?_, dfn hs'⟩
    obtain ⟨txt, ht, hr⟩ := shown_shows hd hu hx hs
    cases hr with
    | ref hc hv hn => exact ⟨_, _, ⟨txt, ht, hc⟩, hv, hn⟩
  | recursiveParent hm hf hs' =>
    refine ⟨?_, dfn hs'⟩
    obtain ⟨src, t, ho, hh⟩ := hm
    obtain ⟨txt, ht, hr⟩ := C71_marks_are_shown hd hu ho hh
    have e : name = src := hx.own ho
    cases hr with
    | parent hc hv hn =>
      obtain ⟨r, rfl⟩ : ∃ r, t = .pat (.parent r id) := by
        cases hh with
        | parent => exact ⟨_, rfl⟩
        | valueType h | dataType h | exceptType h => cases h
      have : s'.file = name := (hp _ _ _ _ ho).2 _ _ hs'.1
      refine ⟨_, _, ⟨txt, ?_, hc⟩, hv, hn⟩
      rw [hf, this, e]; exact ht

/-- **C71**, C68: if there is an element inside an attribute, the names of the two tags are shown. -/
theorem C71_element_in_attribute_is_quoted (hd : Depicted text) (hu : AllUnprefixed text) (hx : NoExternalGrammar (LXml.xmlFiles uri text) name) {s s' : Span}
    (h : At.compileFile (LXml.xmlFiles uri text) x n m name (.fresh []) = .error (.err (.elementAsChildOfAttribute s s'))) :
    Quotes (textsOf text) s "attribute".toList ∧ Quotes (textsOf text) s' "element".toList := by
  have := C68_errors_point_at_the_fault (l := []) nofun h
  cases this with
  | elementInAttribute hs hf hs' =>
    obtain ⟨txt, ht, hr⟩ := shown_shows hd hu hx hs
    obtain ⟨txt', ht', hr'⟩ := shown_shows hd hu hx hs'
    cases hr with
    | «attribute» hc =>
      cases hr' with
      | element hc' => exact ⟨⟨txt, ht, hc⟩, ⟨txt', ht', hc'⟩⟩

end

/-- **C71**, what goes wrong: the position of an element whose tag has a prefix shows the beginning of the prefix, not the name of the
tag. -/
theorem C71_prefixed_tag_is_not_shown {r : Rg} {p rest : Str} (hc : Cut text r ('<' :: p ++ ':' :: "element".toList ++ rest)) (hp : ∀ q, p ≠ "element".toList ++ q) :
    ¬ Cut text (tagRange r 7) "element".toList := by
  intro h
  have h1 := cut_part (a := ['<']) (b := p ++ ':' :: "element".toList ++ rest) (c := []) (by simpa using hc)
  obtain ⟨x, y, e⟩ := cut_same h h1 rfl
  rw [List.append_assoc, List.append_assoc] at e
  rcases List.append_eq_append_iff.1 e with ⟨z, h2, h3⟩ | ⟨z, h2, h3⟩
  · exact hp z h2
  · have : (':' : Char) ∈ "element".toList := by
      cases z with
      | nil => exact absurd (by simpa using h2.symm) (hp [])
      | cons c cs =>
        injection h3 with h4 _
        rw [h2, ← h4]
        simp
    exact absurd this (by decide)

end Verif.RngAt
