import Verif.Spec.XmlSyntax
import Verif.Props.Lexical
/-
The XML reader and its specification agree on attributes, names, literals.
-/
namespace Verif.XS
open Verif Verif.Rng

theorem isRngNs_iff {ns : Option Str} : isRngNs ns = true ↔ ns = some rngNs := by
  cases ns with
  | none => simp [isRngNs]
  | some u => simp [isRngNs]

theorem isRngNode_iff {k : TNode} : isRngNode k = true ↔ IsRng k := by
  cases k with
  | element ns name sc as kids =>
    simp only [isRngNode, isRngNs_iff]
    constructor
    · rintro rfl; exact ⟨name, sc, as, kids, rfl⟩
    · rintro ⟨_, _, _, _, h⟩; injection h
  | _ => simp only [isRngNode]; exact ⟨fun h => (by cases h), fun ⟨_, _, _, _, h⟩ => by cases h⟩

theorem isRngNode_false {k : TNode} : isRngNode k = false ↔ ¬ IsRng k := by
  rw [← isRngNode_iff]; cases isRngNode k <;> simp

theorem isElement_iff {k : TNode} : isElement k = true ↔ IsElement k := by
  cases k with
  | element ns name sc as kids => exact ⟨fun _ => ⟨ns, name, sc, as, kids, rfl⟩, fun _ => rfl⟩
  | _ => simp only [isElement]; exact ⟨fun h => (by cases h), fun ⟨_, _, _, _, _, h⟩ => by cases h⟩

theorem att_none {k : Str} {as : List TAttr} : att k as = none ↔ NoAttr k as := by
  unfold att NoAttr
  rw [Option.map_eq_none_iff, List.find?_eq_none]
  constructor
  · intro h a ha hn hk
    exact h a ha (by simp [hn, hk])
  · intro h a ha hc
    simp only [Bool.and_eq_true, beq_iff_eq] at hc
    exact h a ha hc.1 hc.2

theorem att_some {k : Str} {as : List TAttr} {v : Str} : att k as = some v ↔ HasAttr k as v := by
  induction as with
  | nil =>
    constructor
    · intro h; simp [att] at h
    · rintro ⟨pre, post, h, _⟩
      cases pre <;> cases h
  | cons a as ih =>
    obtain ⟨ns, name, val⟩ := a
    by_cases hc : ns = none ∧ name = k
    · obtain ⟨rfl, rfl⟩ := hc
      have e : att name (⟨none, name, val⟩ :: as) = some val := by simp [att]
      rw [e]
      constructor
      · intro h; cases h; exact ⟨[], as, rfl, fun a ha => by cases ha⟩
      · rintro ⟨pre, post, h, hn⟩
        cases pre with
        | nil => cases h; rfl
        | cons b pre => cases h; exact absurd rfl (hn _ (List.mem_cons_self ..) rfl)
    · have e : att k (⟨ns, name, val⟩ :: as) = att k as := by
        unfold att
        rw [List.find?_cons_of_neg]
        simp only [Bool.and_eq_true, beq_iff_eq]
        exact hc
      rw [e, ih]
      constructor
      · rintro ⟨pre, post, h, hn⟩
        refine ⟨⟨ns, name, val⟩ :: pre, post, by rw [h]; rfl, ?_⟩
        intro b hb hbn
        rcases List.mem_cons.1 hb with rfl | hb
        · exact fun hk => hc ⟨hbn, hk⟩
        · exact hn b hb hbn
      · rintro ⟨pre, post, h, hn⟩
        cases pre with
        | nil => cases h; exact absurd ⟨rfl, rfl⟩ hc
        | cons b pre =>
          cases h
          exact ⟨pre, post, rfl, fun c hcm => hn c (List.mem_cons_of_mem _ hcm)⟩

theorem noAttsExcept_iff {names : List Str} {as : List TAttr} {u : Unit} : noAttsExcept names as = some u ↔ OnlyAttrs names as := by
  unfold noAttsExcept
  cases h : as.any fun a => isRngAtt a && !names.contains a.name with
  | true =>
    simp only [if_true]
    constructor
    · intro h; cases h
    · intro ho
      obtain ⟨a, ha, hc⟩ := List.any_eq_true.1 h
      simp only [Bool.and_eq_true, isRngAtt, Bool.or_eq_true, isRngNs_iff] at hc
      have := ho a ha (hc.1.imp (by cases a.ns <;> simp) id)
      simp [this] at hc
  | false =>
    simp only [Bool.false_eq_true, if_false, true_iff]
    intro a ha hr
    have := List.any_eq_false.1 h a ha
    simp only [Bool.and_eq_true, not_and, isRngAtt, Bool.or_eq_true, isRngNs_iff, Bool.not_eq_true'] at this
    have := this (hr.imp (by intro e; rw [e]; rfl) id)
    simpa using this

theorem nearest_iff {k : Str} {cx : Anc} {u : Str} : (nearest k cx).getD [] = u ↔ Nearest k cx u := by
  induction cx with
  | nil =>
    constructor
    · rintro rfl; exact .none
    · intro h; cases h; rfl
  | cons as up ih =>
    unfold nearest
    cases h : att k as with
    | some v =>
      simp only [Option.getD_some]
      constructor
      · rintro rfl; exact .here (att_some.1 h)
      · intro hn
        cases hn with
        | here ha => rw [att_some.2 ha] at h; cases h; rfl
        | up hno _ => rw [att_none.2 hno] at h; cases h
    | none =>
      show (nearest k up).getD [] = u ↔ _
      rw [ih]
      constructor
      · intro hn; exact .up (att_none.1 h) hn
      · intro hn
        cases hn with
        | here ha => rw [att_some.2 ha] at h; cases h
        | up _ hn => exact hn

theorem getNs_iff {cx : Anc} {u : Str} : getNs cx = u ↔ Nearest "ns".toList cx u := nearest_iff
theorem getLib_iff {cx : Anc} {u : Str} : getLib cx = u ↔ Nearest "datatypeLibrary".toList cx u := nearest_iff

theorem nearest_fun {k : Str} {cx : Anc} {u v : Str} (h : Nearest k cx u) (h' : Nearest k cx v) : u = v := by
  rw [← nearest_iff] at h h'; rw [← h, ← h']

theorem nearest_total (k : Str) (cx : Anc) : ∃ u, Nearest k cx u := ⟨_, nearest_iff.1 rfl⟩

/-! ### white space and names -/

theorem trimWs_iff {c : Char} : trimWs c = true ↔ White c := by
  unfold trimWs inR White
  simp only [Bool.or_eq_true, Bool.and_eq_true, decide_eq_true_eq, List.mem_cons, List.not_mem_nil, or_false]
  omega

theorem trimWs_false {c : Char} : trimWs c = false ↔ ¬ White c := by
  rw [← trimWs_iff]; cases trimWs c <;> simp

theorem dropWhile_split {p : Char → Bool} (s : Str) :
    ∃ a, s = a ++ s.dropWhile p ∧ (∀ c ∈ a, p c = true) ∧ ∀ c r, s.dropWhile p = c :: r → p c = false := by
  induction s with
  | nil => exact ⟨[], rfl, fun c h => (by cases h), fun c r h => by cases h⟩
  | cons d s ih =>
    rw [List.dropWhile_cons]
    cases h : p d with
    | true =>
      obtain ⟨a, h1, h2, h3⟩ := ih
      simp only [if_true]
      refine ⟨d :: a, by rw [List.cons_append, ← h1], ?_, h3⟩
      intro c hc
      rcases List.mem_cons.1 hc with rfl | hc
      · exact h
      · exact h2 c hc
    | false =>
      simp only [Bool.false_eq_true, if_false]
      exact ⟨[], rfl, fun c h => (by cases h), fun c r e => by cases e; exact h⟩

theorem dropWhile_of {p : Char → Bool} {a t : Str} (h : ∀ c ∈ a, p c = true) (ht : ∀ c r, t = c :: r → p c = false) :
    (a ++ t).dropWhile p = t := by
  induction a with
  | nil =>
    cases t with
    | nil => rfl
    | cons c r => rw [List.nil_append, List.dropWhile_cons, ht c r rfl]; rfl
  | cons d a ih =>
    rw [List.cons_append, List.dropWhile_cons, h d (List.mem_cons_self ..)]
    simp only [if_true]
    exact ih fun c hc => h c (List.mem_cons_of_mem _ hc)

theorem trim_iff {s t : Str} : trim s = t ↔ Trimmed s t := by
  constructor
  · intro h
    obtain ⟨a, h1, h2, h3⟩ := dropWhile_split (p := trimWs) s
    obtain ⟨b, g1, g2, g3⟩ := dropWhile_split (p := trimWs) (s.dropWhile trimWs).reverse
    have ht : t.reverse = ((s.dropWhile trimWs).reverse).dropWhile trimWs := by
      rw [← h]; unfold trim; rw [List.reverse_reverse]
    rw [← ht] at g1 g3
    have e : s.dropWhile trimWs = t ++ b.reverse := by
      have := congrArg List.reverse g1
      rw [List.reverse_reverse, List.reverse_append, List.reverse_reverse] at this
      exact this
    refine ⟨a, b.reverse, by rw [List.append_assoc, ← e]; exact h1, fun c hc => trimWs_iff.1 (h2 c hc),
      fun c hc => trimWs_iff.1 (g2 c (List.mem_reverse.1 hc)), ?_, ?_⟩
    · intro c r hcr
      exact trimWs_false.1 (h3 c (r ++ b.reverse) (by rw [e, hcr]; rfl))
    · intro r c hcr
      exact trimWs_false.1 (g3 c r.reverse (by rw [hcr, List.reverse_append]; rfl))
  · rintro ⟨a, b, rfl, ha, hb, h1, h2⟩
    have wa : ∀ c ∈ a, trimWs c = true := fun c hc => trimWs_iff.2 (ha c hc)
    have wb : ∀ c ∈ b, trimWs c = true := fun c hc => trimWs_iff.2 (hb c hc)
    unfold trim
    cases t with
    | nil =>
      have e : (a ++ [] ++ b).dropWhile trimWs = [] := by
        have := dropWhile_of (p := trimWs) (a := a ++ [] ++ b) (t := []) (by
          intro c hc
          rw [List.append_nil] at hc
          rcases List.mem_append.1 hc with hc | hc
          · exact wa c hc
          · exact wb c hc) (fun c r h => by cases h)
        rwa [List.append_nil] at this
      rw [e]; rfl
    | cons c r =>
      rw [List.append_assoc, dropWhile_of wa (by
        intro c' r' h'
        cases h'
        exact trimWs_false.2 (h1 _ _ rfl))]
      rw [List.reverse_append, dropWhile_of (fun d hd => wb d (List.mem_reverse.1 hd)) (by
        intro d q hq
        have := congrArg List.reverse hq
        rw [List.reverse_reverse, List.reverse_cons] at this
        exact trimWs_false.2 (h2 _ _ this)), List.reverse_reverse]

theorem trimmed_fun {s t t' : Str} (h : Trimmed s t) (h' : Trimmed s t') : t = t' := by
  rw [← trim_iff] at h h'; rw [← h, ← h']

theorem trim_trim (s : Str) : trim (trim s) = trim s := by
  rw [trim_iff]
  obtain ⟨a, b, _, _, _, h1, h2⟩ := trim_iff.1 (rfl : trim s = trim s)
  exact ⟨[], [], by simp, fun c h => (by cases h), fun c h => (by cases h), h1, h2⟩

theorem xmlNcname_trim (s : Str) : xmlNcname (trim s) = xmlNcname s := by
  unfold xmlNcname; rw [trim_trim]

theorem xmlNcname_iff {s n : Str} : xmlNcname s = some n ↔ NameIn s n := by
  unfold NameIn
  rw [← trim_iff]
  have key := (C31_same_names (trim_trim s)).2
  rw [xmlNcname_trim] at key
  constructor
  · intro h
    have hN := key.2.1 ⟨n, h⟩
    have h' := key.1.2 hN
    rw [h] at h'
    cases h'
    exact ⟨rfl, hN⟩
  · rintro ⟨rfl, hN⟩
    exact key.1.2 hN

theorem colon_not_nameChar : ¬ NameChar ':' := by
  unfold NameChar NameStart
  decide

theorem nameStart_nameChar {c : Char} (h : NameStart c) : NameChar c := Or.inl h

theorem ncname_chars {n : Str} (h : NCName n) : ∀ c ∈ n, NameChar c := by
  obtain ⟨c, cs, rfl, hc, hcs⟩ := h
  intro d hd
  rcases List.mem_cons.1 hd with rfl | hd
  · exact nameStart_nameChar hc
  · exact hcs d hd

theorem nameIn_no_colon {s n : Str} (h : NameIn s n) : ':' ∉ s := by
  obtain ⟨⟨a, b, rfl, ha, hb, _, _⟩, hn⟩ := h
  intro hm
  rcases List.mem_append.1 hm with hm | hm
  · rcases List.mem_append.1 hm with hm | hm
    · exact absurd (ha _ hm) (by unfold White; decide)
    · exact colon_not_nameChar (ncname_chars hn _ hm)
  · exact absurd (hb _ hm) (by unfold White; decide)

theorem attrNcname_iff {s n : Str} : attrNcname s = some n ↔ NameIn s n := by
  unfold attrNcname
  rw [xmlNcname_trim]
  constructor
  · intro h
    split at h
    · cases h
    · exact xmlNcname_iff.1 h
  · intro h
    have : s.contains ':' = false := by
      cases hc : s.contains ':' with
      | false => rfl
      | true => exact absurd (by simpa using hc) (nameIn_no_colon h)
    rw [if_neg (by rw [this]; simp)]
    exact xmlNcname_iff.2 h

theorem lookupNs_iff {sc : List (Option Str × Str)} {p u : Str} : lookupNs sc p = some u ↔ PrefixIn sc p u := by
  unfold lookupNs
  by_cases hp : p = "xml".toList
  · rw [if_pos hp]
    subst hp
    constructor
    · intro h; cases h; exact .xml
    · intro h
      cases h with
      | xml => rfl
      | declared h => exact absurd rfl h
  · rw [if_neg hp]
    constructor
    · intro h
      obtain ⟨d, hd, rfl⟩ := Option.map_eq_some_iff.1 h
      rw [List.find?_eq_some_iff_append] at hd
      obtain ⟨h1, pre, post, rfl, h2⟩ := hd
      obtain ⟨d1, d2⟩ := d
      have : d1 = some p := by simpa using h1
      subst this
      refine .declared hp rfl fun d hd => ?_
      have := h2 d hd
      simpa using this
    · intro h
      cases h with
      | xml => exact absurd rfl hp
      | @declared _ _ pre post _ hs hn =>
        rw [Option.map_eq_some_iff]
        refine ⟨(some p, u), ?_, rfl⟩
        rw [List.find?_eq_some_iff_append]
        refine ⟨by simp, pre, post, hs, fun d hd => ?_⟩
        simpa using hn d hd

theorem splitColon_none {v : Str} : splitColon v = none ↔ ':' ∉ v := by
  unfold splitColon
  simp

theorem takeWhile_colon {a : Str} (b : Str) (h : ':' ∉ a) :
    (a ++ ':' :: b).takeWhile (· != ':') = a ∧ (a ++ ':' :: b).dropWhile (· != ':') = ':' :: b := by
  induction a with
  | nil => simp
  | cons c a ih =>
    have hc : c ≠ ':' := fun e => h (by rw [e]; exact List.mem_cons_self ..)
    have := ih fun hm => h (List.mem_cons_of_mem _ hm)
    constructor
    · rw [List.cons_append, List.takeWhile_cons, if_pos (by simp [hc]), this.1]
    · rw [List.cons_append, List.dropWhile_cons, if_pos (by simp [hc]), this.2]

theorem splitColon_some {v a b : Str} : splitColon v = some (a, b) ↔ v = a ++ ':' :: b ∧ ':' ∉ a := by
  constructor
  · intro h
    unfold splitColon at h
    split at h
    next hc =>
      obtain ⟨a', b', rfl, hn⟩ : ∃ a' b', v = a' ++ ':' :: b' ∧ ':' ∉ a' := by
        have hm : ':' ∈ v := by simpa using hc
        clear h hc
        induction v with
        | nil => cases hm
        | cons c v ih =>
          by_cases e : c = ':'
          · exact ⟨[], v, by rw [e]; rfl, by simp⟩
          · obtain ⟨a', b', rfl, hn⟩ := ih (by
              rcases List.mem_cons.1 hm with h | h
              · exact absurd h.symm e
              · exact h)
            refine ⟨c :: a', b', rfl, ?_⟩
            intro hm'
            rcases List.mem_cons.1 hm' with h | h
            · exact e h.symm
            · exact hn h
      rw [(takeWhile_colon b' hn).1, (takeWhile_colon b' hn).2] at h
      cases h
      exact ⟨rfl, hn⟩
    · cases h
  · rintro ⟨rfl, hn⟩
    unfold splitColon
    rw [if_pos (by simp), (takeWhile_colon b hn).1, (takeWhile_colon b hn).2]
    rfl

theorem qnameAtt_iff {sc : List (Option Str × Str)} {cx : Anc} {v : Str} {c : SNameClass} :
    qnameAtt sc cx v = some c ↔ NameAttr sc cx v c := by
  unfold qnameAtt
  cases h : splitColon v with
  | none =>
    have hn := splitColon_none.1 h
    constructor
    · intro hh
      obtain ⟨l, h1, h2⟩ := Option.bind_eq_some_iff.1 hh
      cases h2
      exact .plain (xmlNcname_iff.1 h1) (getNs_iff.1 rfl)
    · intro hh
      cases hh with
      | plain h1 h2 => rw [← getNs_iff] at h2; subst h2; simp [xmlNcname_iff.2 h1]
      | prefixed _ _ _ _ => exact absurd (by simp) hn
  | some ab =>
    obtain ⟨a, b⟩ := ab
    obtain ⟨rfl, hn⟩ := splitColon_some.1 h
    constructor
    · intro hh
      obtain ⟨u, h1, h2⟩ := Option.bind_eq_some_iff.1 hh
      obtain ⟨l, h3, h4⟩ := Option.bind_eq_some_iff.1 h2
      cases h4
      exact .prefixed hn (trim_iff.1 rfl) (lookupNs_iff.1 h1) (xmlNcname_iff.1 h3)
    · intro hh
      generalize hv : a ++ ':' :: b = v at hh
      cases hh with
      | plain h1 h2 => subst hv; exact absurd (by simp) (nameIn_no_colon h1)
      | prefixed h1 h2 h3 h4 =>
        rw [hv, splitColon_some.2 ⟨rfl, h1⟩] at h
        cases h
        simp [trim_iff.2 h2, lookupNs_iff.2 h3, xmlNcname_iff.2 h4]

theorem noElementKids_iff {kids : List TNode} {u : Unit} : noElementKids kids = some u ↔ NoElement kids := by
  unfold noElementKids NoElement
  cases h : kids.any isElement with
  | true =>
    obtain ⟨k, hk, hc⟩ := List.any_eq_true.1 h
    simp only [if_true]
    exact ⟨fun h => (by cases h), fun hn => absurd (isElement_iff.1 hc) (hn k hk)⟩
  | false =>
    simp only [Bool.false_eq_true, if_false, true_iff]
    intro k hk hc
    exact List.any_eq_false.1 h k hk (isElement_iff.2 hc)

theorem noRngKids_iff {kids : List TNode} {u : Unit} : noRngKids kids = some u ↔ NoRng kids := by
  unfold noRngKids NoRng
  cases h : kids.any isRngNode with
  | true =>
    obtain ⟨k, hk, hc⟩ := List.any_eq_true.1 h
    simp only [if_true]
    exact ⟨fun h => (by cases h), fun hn => absurd (isRngNode_iff.1 hc) (hn k hk)⟩
  | false =>
    simp only [Bool.false_eq_true, if_false, true_iff]
    intro k hk hc
    exact List.any_eq_false.1 h k hk (isRngNode_iff.2 hc)

theorem elementText_iff {kids : List TNode} {s : Str} : elementText kids = some s ↔ ∃ rest, kids = .text s :: rest := by
  cases kids with
  | nil => simp [elementText]
  | cons k ks => cases k <;> simp [elementText]

theorem qnameEl_iff {cx : Anc} {kids : List TNode} {c : SNameClass} : qnameEl cx kids = some c ↔ NameElem cx kids c := by
  constructor
  · intro h0
    unfold qnameEl at h0
    obtain ⟨_, h1, h3⟩ := Option.bind_eq_some_iff.1 h0
    obtain ⟨v, h2, h⟩ := Option.bind_eq_some_iff.1 h3
    clear h0 h3
    obtain ⟨rest, rfl⟩ := elementText_iff.1 h2
    have hr : ∀ k ∈ rest, ¬ IsElement k := fun k hk => noElementKids_iff.1 h1 k (List.mem_cons_of_mem _ hk)
    cases hs : splitColon v with
    | none =>
      rw [hs] at h
      obtain ⟨l, h3, h4⟩ := Option.bind_eq_some_iff.1 h
      cases h4
      exact .plain hr (xmlNcname_iff.1 h3) (getNs_iff.1 rfl)
    | some ab =>
      obtain ⟨a, b⟩ := ab
      rw [hs] at h
      obtain ⟨rfl, hn⟩ := splitColon_some.1 hs
      obtain ⟨p, h3, h⟩ := Option.bind_eq_some_iff.1 h
      obtain ⟨l, h4, h5⟩ := Option.bind_eq_some_iff.1 h
      cases h5
      rw [xmlNcname_trim] at h3 h4
      exact .prefixed hr (xmlNcname_iff.1 h3) (xmlNcname_iff.1 h4)
  · intro h
    have key : ∀ {v : Str} {rest : List TNode}, (∀ k ∈ rest, ¬ IsElement k) → noElementKids (.text v :: rest) = some () := by
      intro v rest hr
      rw [noElementKids_iff]
      intro k hk
      rcases List.mem_cons.1 hk with rfl | hk
      · exact fun ⟨_, _, _, _, _, h⟩ => by cases h
      · exact hr k hk
    unfold qnameEl
    cases h with
    | plain hr h1 h2 =>
      rw [← getNs_iff] at h2
      subst h2
      simp [key hr, elementText, splitColon_none.2 (nameIn_no_colon h1), xmlNcname_iff.2 h1]
    | prefixed hr h1 h2 =>
      simp [key hr, elementText, splitColon_some.2 ⟨rfl, nameIn_no_colon h1⟩, xmlNcname_trim, xmlNcname_iff.2 h1,
        xmlNcname_iff.2 h2]

theorem foldl1_iff {α : Type} {op : α → α → α} {as : List α} {x : α} : foldl1 op as = some x ↔ Joined op as x := by
  constructor
  · cases as with
    | nil => intro h; cases h
    | cons a as =>
      intro h
      unfold foldl1 at h
      injection h with h
      subst h
      have : ∀ (bs pre : List α) (y : α), Joined op pre y → Joined op (pre ++ bs) (bs.foldl op y) := by
        intro bs
        induction bs with
        | nil => intro pre y h; simpa using h
        | cons b bs ih =>
          intro pre y h
          have := ih (pre ++ [b]) (op y b) (.more h)
          simpa using this
      exact this as [a] a .one
  · intro h
    induction h with
    | one => rfl
    | @more as x a _ ih =>
      cases as with
      | nil => cases ih
      | cons b bs =>
        injection ih with ih
        show some ((bs ++ [a]).foldl op b) = some (op x a)
        rw [List.foldl_append, ih]
        rfl

/-! ### leaves of the pattern syntax -/

theorem literal_iff {k : TNode} {ks : List TNode} {s : Str} : nodeText k = some s ↔ Literal (k :: ks) s := by
  cases k with
  | text t => exact ⟨fun h => by cases h; exact .text, fun h => by cases h; rfl⟩
  | comment t => exact ⟨fun h => by cases h; exact .comment, fun h => by cases h; rfl⟩
  | pi t v => exact ⟨fun h => (by cases h), fun h => by cases h⟩
  | element ns name sc as kids =>
    show elementText kids = some s ↔ _
    rw [elementText_iff]
    exact ⟨fun ⟨rest, h⟩ => by subst h; exact .element, fun h => by cases h; exact ⟨_, rfl⟩⟩

theorem checkStandardAttrs_iff {ok : Str → Bool} {as : List TAttr} {u : Unit} :
    checkStandardAttrs ok as = some u ↔ LibOk (fun v => ok v = true) as := by
  unfold checkStandardAttrs LibOk
  cases h : att "datatypeLibrary".toList as with
  | none =>
    simp only [true_iff]
    intro v hv
    rw [att_some.2 hv] at h
    cases h
  | some v =>
    cases v with
    | nil =>
      simp only [true_iff]
      intro v hv
      rw [att_some.2 hv] at h
      cases h
      exact .inl rfl
    | cons c r =>
      constructor
      · intro hh v hv
        rw [att_some.2 hv] at h
        cases h
        by_cases ho : ok (c :: r) = true
        · exact .inr ho
        · simp [ho] at hh
      · intro hh
        rcases hh _ (att_some.1 h) with hh | hh
        · cases hh
        · simp [hh]

theorem refName_iff {as : List TAttr} {kids : List TNode} {n : Str} : refName as kids = some n ↔ RefTo as kids n := by
  unfold refName
  constructor
  · intro h
    obtain ⟨_, h1, h⟩ := Option.bind_eq_some_iff.1 h
    obtain ⟨v, h2, h3⟩ := Option.bind_eq_some_iff.1 h
    exact .mk (att_some.1 h2) (attrNcname_iff.1 h3) (noRngKids_iff.1 h1)
  · intro h
    cases h with
    | mk h1 h2 h3 => simp only [Option.bind_eq_bind, Option.bind_some, noRngKids_iff (u := ()).2 h3, att_some.2 h1, attrNcname_iff.2 h2]

theorem bare_iff {p q : SPattern} {as : List TAttr} {kids : List TNode} :
    bare p as kids = some q ↔ p = q ∧ OnlyAttrs [] as ∧ NoRng kids := by
  unfold bare
  constructor
  · intro h
    obtain ⟨_, h1, h⟩ := Option.bind_eq_some_iff.1 h
    obtain ⟨v, h2, h3⟩ := Option.bind_eq_some_iff.1 h
    cases h3
    exact ⟨rfl, noAttsExcept_iff.1 h1, noRngKids_iff.1 h2⟩
  · rintro ⟨rfl, h1, h2⟩
    simp [noRngKids_iff (u := ()).2 h2, noAttsExcept_iff (u := ()).2 h1]

theorem valueType_iff {cx : Anc} {as : List TAttr} {kids : List TNode} {p : SPattern} :
    value cx as kids = some p ↔
      NoElement kids ∧ ∃ t s, ValueType cx as t ∧ (kids = [] ∧ s = [] ∨ Literal kids s) ∧ p = .value t s := by
  constructor
  · intro h
    unfold value at h
    obtain ⟨_, h1, h⟩ := Option.bind_eq_some_iff.1 h
    obtain ⟨s, h2, h⟩ := Option.bind_eq_some_iff.1 h
    have hl : kids = [] ∧ s = [] ∨ Literal kids s := by
      cases kids with
      | nil => cases h2; exact .inl ⟨rfl, rfl⟩
      | cons k ks => exact .inr (literal_iff.1 h2)
    refine ⟨noElementKids_iff.1 h1, ?_⟩
    cases ha : att "type".toList as with
    | none =>
      rw [ha] at h
      cases h
      exact ⟨none, s, .none (att_none.1 ha), hl, rfl⟩
    | some t =>
      rw [ha] at h
      obtain ⟨n, h3, h4⟩ := Option.bind_eq_some_iff.1 h
      cases h4
      exact ⟨_, s, .some (att_some.1 ha) (xmlNcname_iff.1 h3) (getLib_iff.1 rfl), hl, rfl⟩
  · rintro ⟨h1, t, s, h2, h3, rfl⟩
    unfold value
    rw [noElementKids_iff (u := ()).2 h1]
    have hs : valueText kids = some s := by
      rcases h3 with ⟨rfl, rfl⟩ | h3
      · rfl
      · cases kids with
        | nil => cases h3
        | cons k ks => exact literal_iff.2 h3
    simp only [Option.bind_eq_bind, Option.bind_some]
    rw [hs]
    cases h2 with
    | none h => simp only [Option.bind_eq_bind, Option.bind_some, att_none.2 h]
    | some ha hn hl =>
      rw [← getLib_iff] at hl
      subst hl
      simp only [Option.bind_eq_bind, Option.bind_some, att_some.2 ha, xmlNcname_iff.2 hn]

theorem token_ncname : NCName "token".toList := by
  have := (C31_same_names (s := "token".toList) (by decide)).2.2.1 ⟨_, rfl⟩
  exact this

theorem dataType_iff {cx : Anc} {as : List TAttr} {t : SDtName} : dataType cx as = some t ↔ DataType cx as t := by
  unfold dataType
  constructor
  · intro h
    obtain ⟨v, h1, h⟩ := Option.bind_eq_some_iff.1 h
    split at h
    next ht => cases h; exact .token (att_some.1 h1) (trim_iff.1 ht)
    next ht =>
      obtain ⟨n, h3, h4⟩ := Option.bind_eq_some_iff.1 h
      cases h4
      rw [xmlNcname_trim] at h3
      have hn := xmlNcname_iff.1 h3
      exact .other (att_some.1 h1) hn (fun e => ht (by rw [trim_iff.2 hn.1, e])) (getLib_iff.1 rfl)
  · intro h
    cases h with
    | token h1 h2 => simp only [Option.bind_eq_bind, Option.bind_some, att_some.2 h1, trim_iff.2 h2, if_true]
    | other h1 h2 h3 h4 =>
      rw [← getLib_iff] at h4
      subst h4
      have : ¬ trim _ = "token".toList := fun e => h3 ((trim_iff.2 h2.1).symm.trans e)
      rw [att_some.2 h1]
      simp only [Option.bind_eq_bind, Option.bind_some]
      rw [if_neg this, xmlNcname_trim, xmlNcname_iff.2 h2]
      rfl

theorem combine_iff {as : List TAttr} {m : AssignMethod} : combine as = some m ↔ Combine as m := by
  unfold combine
  cases h : att "combine".toList as with
  | none =>
    constructor
    · intro hh; cases hh; exact .none (att_none.1 h)
    · intro hh
      cases hh with
      | none _ => rfl
      | choice ha _ => rw [att_some.2 ha] at h; cases h
      | interleave ha _ => rw [att_some.2 ha] at h; cases h
  | some v =>
    show (if trim v = _ then _ else _) = _ ↔ _
    constructor
    · intro hh
      split at hh
      next hc => cases hh; exact .choice (att_some.1 h) (trim_iff.1 hc)
      next =>
        split at hh
        next hc => cases hh; exact .interleave (att_some.1 h) (trim_iff.1 hc)
        next => cases hh
    · intro hh
      cases hh with
      | none hn => rw [att_none.2 hn] at h; cases h
      | choice ha ht =>
        rw [att_some.2 ha] at h; cases h
        rw [if_pos (trim_iff.2 ht)]
      | interleave ha ht =>
        rw [att_some.2 ha] at h; cases h
        rw [trim_iff.2 ht]
        rfl

theorem param_iff {as : List TAttr} {kids : List TNode} {q : Param} :
    param as kids = some q ↔ ∃ v n s, HasAttr "name".toList as v ∧ NameIn v n ∧ Literal kids s ∧ q = ⟨n, s⟩ := by
  unfold param
  constructor
  · intro h
    obtain ⟨v, h1, h⟩ := Option.bind_eq_some_iff.1 h
    obtain ⟨n, h2, h⟩ := Option.bind_eq_some_iff.1 h
    cases kids with
    | nil => cases h
    | cons k ks =>
      obtain ⟨s, h3, h4⟩ := Option.bind_eq_some_iff.1 h
      cases h4
      exact ⟨v, n, s, att_some.1 h1, attrNcname_iff.1 h2, literal_iff.1 h3, rfl⟩
  · rintro ⟨v, n, s, h1, h2, h3, rfl⟩
    cases kids with
    | nil => cases h3
    | cons k ks => simp only [Option.bind_eq_bind, Option.bind_some, att_some.2 h1, attrNcname_iff.2 h2, literal_iff.2 h3]

theorem xmlnsCheck_iff {cx : Anc} {v : Str} {u : Unit} : xmlnsCheck cx v = some u ↔ NotXmlns cx v := by
  unfold xmlnsCheck NotXmlns
  have e : nearest "ns".toList cx = some "http://www.w3.org/2000/xmlns".toList ↔
      Nearest "ns".toList cx "http://www.w3.org/2000/xmlns".toList := by
    rw [← nearest_iff]
    cases nearest "ns".toList cx with
    | none => exact ⟨fun h => (by cases h), fun h => by cases h⟩
    | some w => exact ⟨fun h => by cases h; rfl, fun h => by rw [← h]; rfl⟩
  have f : (nearest "ns".toList cx).getD [] = [] ↔ Nearest "ns".toList cx [] := nearest_iff
  by_cases h1 : v = "xmlns".toList ∧ (nearest "ns".toList cx).getD [] = []
  · rw [if_pos h1]
    exact ⟨fun h => (by cases h), fun h => absurd (f.1 h1.2) (h.1 h1.1)⟩
  · rw [if_neg h1]
    by_cases h2 : nearest "ns".toList cx = some "http://www.w3.org/2000/xmlns".toList
    · rw [if_pos h2]
      exact ⟨fun h => (by cases h), fun h => absurd (e.1 h2) h.2⟩
    · rw [if_neg h2]
      exact ⟨fun _ => ⟨fun a b => h1 ⟨a, f.2 b⟩, fun b => h2 (e.2 b)⟩, fun _ => rfl⟩

theorem attContent_iff {ps : List SPattern} {p : SPattern} : attContent ps = some p ↔ AttContent ps p := by
  cases ps with
  | nil => exact ⟨fun h => by cases h; exact .default, fun h => by cases h; rfl⟩
  | cons a ps =>
    cases ps with
    | nil => exact ⟨fun h => by cases h; exact .one, fun h => by cases h; rfl⟩
    | cons b ps => exact ⟨fun h => (by cases h), fun h => by cases h⟩

theorem only_iff {ps : List SPattern} {p : SPattern} : only ps = some p ↔ ps = [p] := by
  cases ps with
  | nil => exact ⟨fun h => (by cases h), fun h => by cases h⟩
  | cons a ps =>
    cases ps with
    | nil => exact ⟨fun h => by cases h; rfl, fun h => by cases h; rfl⟩
    | cons b ps => exact ⟨fun h => (by cases h), fun h => by cases h⟩

theorem href_iff {cx : Anc} {as : List TAttr} {p : Str} :
    href cx as = some p ↔ ∃ h, HasAttr "href".toList as h ∧ p = rebasePath cx h := by
  unfold href
  constructor
  · intro h
    obtain ⟨v, h1, h2⟩ := Option.bind_eq_some_iff.1 h
    cases h2
    exact ⟨v, att_some.1 h1, rfl⟩
  · rintro ⟨v, h1, rfl⟩
    simp only [Option.bind_eq_bind, Option.bind_some, att_some.2 h1]

end Verif.XS
