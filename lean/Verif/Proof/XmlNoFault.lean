import Verif.Proof.XmlOk
/-
A document that has been read has no fault.
-/
namespace Verif.LXml
open Verif Verif.At Verif.XS Verif.Rng Verif.RngAt

section
variable {uri : Str → UriKind}

/-- the element has been read -/
inductive ReadOk (uri : Str → UriKind) : Role → LAnc → LNode → Prop
  | pattern {cx n p} : patternOf uri cx n = .ok p → ReadOk uri .pattern cx n
  | nameClass {cx b n c} : nameClassOf cx b n = .ok c → ReadOk uri (.nameClass b) cx n
  | item {cx n i} : itemOf uri cx n = .ok i → ReadOk uri .item cx n
  | override {cx n i} : overrideOf uri cx n = .ok i → ReadOk uri .override cx n
  | param {cx r sc as kids q} : paramOf r as kids = .ok q → ReadOk uri .param cx (lel r "param".toList sc as kids)

theorem patterns_readOk {cx : LAnc} {ks : List LNode} {l : List LPat} {k : LNode} (h : patternsOf uri cx ks = .ok l) (hk : k ∈ ks) (hr : LRng k) :
    ReadOk uri .pattern cx k := by
  obtain ⟨p, _, hp⟩ := (patterns_ok h).1 k hk hr
  exact .pattern hp

theorem single_readOk {cx : LAnc} {msg : String} {ks post : List LNode} {o : Option LPat} {k : LNode} (h : singleOf uri cx msg ks = .ok o) (hk : First ks k post) :
    ReadOk uri .pattern cx k ∧ LNoRng post := by
  rcases single_ok h with ⟨_, hn⟩ | ⟨k', post', p, h1, h2, _, h3⟩
  · exact (hk.none hn).elim
  · obtain ⟨rfl, rfl⟩ := first_unique hk h1
    exact ⟨.pattern h3, h2⟩

/-- the definitions of a grammar and of an include -/
theorem def_ok {role : Role} {cx : LAnc} {r : Rg} {name : Str} {sc : List (Option Str × Str)} {as : List LAttr} {kids : List LNode}
    (hr : role = .item ∨ role = .override) (hn : name = "start".toList ∨ name = "define".toList) (h : ReadOk uri role cx (lel r name sc as kids)) :
    ∃ r' n how p, DefOk uri cx r as kids name r' n how p := by
  have hne : name ≠ "div".toList ∧ name ≠ "include".toList := by rcases hn with rfl | rfl <;> decide
  rcases hr with rfl | rfl
  · cases h with
    | item h =>
      replace h := inv_item h
      cases h with
      | define h => exact ⟨_, _, _, _, h⟩
      | div => exact absurd rfl hne.1
      | «include» => exact absurd rfl hne.2
  · cases h with
    | override h =>
      replace h := inv_override h
      cases h with
      | define h => exact ⟨_, _, _, _, h⟩
      | div => exact absurd rfl hne.1

theorem start_ok {role : Role} {cx : LAnc} {r : Rg} {sc : List (Option Str × Str)} {as : List LAttr} {kids : List LNode}
    (hr : role = .item ∨ role = .override) (h : ReadOk uri role cx (lel r "start".toList sc as kids)) :
    ∃ how p, combineOf as = .ok how ∧ (∃ u, noAttrsExcept ["combine".toList] as = .ok u) ∧
      singleOf uri (as :: cx) "Unexpected element" kids = .ok (some p) := by
  obtain ⟨r', n, how, p, h⟩ := def_ok hr (.inl rfl) h
  generalize hn : "start".toList = name at h
  cases h with
  | start h1 h2 h3 => exact ⟨how, p, h1, h2, h3⟩
  | define => exact absurd hn (by decide)

theorem define_ok {role : Role} {cx : LAnc} {r : Rg} {sc : List (Option Str × Str)} {as : List LAttr} {kids : List LNode}
    (hr : role = .item ∨ role = .override) (h : ReadOk uri role cx (lel r "define".toList sc as kids)) :
    ∃ how a n ps p, combineOf as = .ok how ∧ attr "name".toList as = some a ∧ attrName a = .ok n ∧ patternsOf uri (as :: cx) kids = .ok ps ∧
      foldl1 LPat.seq ps = some p := by
  obtain ⟨r', n, how, p, h⟩ := def_ok hr (.inr rfl) h
  generalize hn : "define".toList = name at h
  cases h with
  | start => exact absurd hn (by decide)
  | define h1 h2 h3 h4 h5 => exact ⟨how, _, n, _, p, h1, h2, h3, h4, h5⟩

theorem rest_param {cx : LAnc} {r : Rg} {sc : List (Option Str × Str)} {as : List LAttr} {kids ks : List LNode} {d : List LParam × Option LPat}
    (h : RestOk uri cx (lel r "param".toList sc as kids :: ks) d) : ∃ q, paramOf r as kids = .ok q := by
  generalize hy : lel r "param".toList sc as kids :: ks = ys at h
  cases h with
  | nil => cases hy
  | skip hn => injection hy with hy; exact absurd ⟨_, _, _, _, _, hy.symm⟩ hn
  | param h => injection hy with hy; injection hy; subst_vars; exact ⟨_, h⟩
  | except => injection hy with hy; injection hy with _ _ hy; exact absurd hy (by decide)

theorem rest_except {cx : LAnc} {r : Rg} {sc : List (Option Str × Str)} {as : List LAttr} {kids ks : List LNode} {d : List LParam × Option LPat}
    (h : RestOk uri cx (lel r "except".toList sc as kids :: ks) d) :
    ∃ ps e, patternsOf uri (as :: cx) kids = .ok ps ∧ foldl1 LPat.choice ps = some e ∧ LNoRng ks := by
  generalize hy : lel r "except".toList sc as kids :: ks = ys at h
  cases h with
  | nil => cases hy
  | skip hn => injection hy with hy; exact absurd ⟨_, _, _, _, _, hy.symm⟩ hn
  | param => injection hy with hy; injection hy with _ _ hy; exact absurd hy (by decide)
  | except h1 h2 h3 => injection hy with hy; injection hy; subst_vars; exact ⟨_, _, h1, h2, h3⟩

theorem rest_other {cx : LAnc} {r : Rg} {name : Str} {sc : List (Option Str × Str)} {as : List LAttr} {kids ks : List LNode} {d : List LParam × Option LPat}
    (h : RestOk uri cx (lel r name sc as kids :: ks) d) : name = "param".toList ∨ name = "except".toList := by
  generalize hy : lel r name sc as kids :: ks = ys at h
  cases h with
  | nil => cases hy
  | skip hn => injection hy with hy; exact absurd ⟨_, _, _, _, _, hy.symm⟩ hn
  | param => injection hy with hy; injection hy with _ _ hy; exact .inl hy
  | except => injection hy with hy; injection hy with _ _ hy; exact .inr hy

theorem except_ok {b : Bool} {cx : LAnc} {r : Rg} {name : Str} {sc : List (Option Str × Str)} {as : List LAttr} {kids : List LNode}
    (hn : (name = "anyName".toList ∧ b = false) ∨ name = "nsName".toList) (h : ReadOk uri (.nameClass b) cx (lel r name sc as kids)) :
    ∃ o, ExOk (as :: cx) kids o := by
  cases h with
  | nameClass h =>
    have hne : name ≠ "name".toList ∧ name ≠ "choice".toList := by rcases hn with ⟨rfl, _⟩ | rfl <;> decide
    replace h := inv_nameClass h
    cases h with
    | name => exact absurd rfl hne.1
    | anyName _ h => exact ⟨_, h⟩
    | nsName h => exact ⟨_, h⟩
    | choice => exact absurd rfl hne.2

theorem ncChoice_ok {b : Bool} {cx : LAnc} {r : Rg} {sc : List (Option Str × Str)} {as : List LAttr} {kids : List LNode}
    (h : ReadOk uri (.nameClass b) cx (lel r "choice".toList sc as kids)) : ∃ l c, nameClassesOf (as :: cx) b kids = .ok l ∧ foldl1 LNameClass.alt l = some c := by
  cases h with
  | nameClass h =>
    generalize hn : "choice".toList = name at h
    replace h := inv_nameClass h
    cases h with
    | name => exact absurd hn (by decide)
    | anyName => exact absurd hn (by decide)
    | nsName => exact absurd hn (by decide)
    | choice h1 h2 => exact ⟨_, _, h1, h2⟩

theorem ncName_ok {b : Bool} {cx : LAnc} {r : Rg} {sc : List (Option Str × Str)} {as : List LAttr} {kids : List LNode}
    (h : ReadOk uri (.nameClass b) cx (lel r "name".toList sc as kids)) : (∀ k ∈ kids, ¬ LElement k) ∧ ∃ c, QnOk r (as :: cx) kids c := by
  cases h with
  | nameClass h =>
    generalize hn : "name".toList = name at h
    replace h := inv_nameClass h
    cases h with
    | name h => exact ⟨(inv_qname h).1, _, (inv_qname h).2⟩
    | anyName => exact absurd hn (by decide)
    | nsName => exact absurd hn (by decide)
    | choice => exact absurd hn (by decide)

theorem has_unique {k : Str} {as : List LAttr} {a a' : LAttr} (h : LHasAttr k as a) (h' : attr k as = some a') : a' = a := by
  rw [attr_some.2 h] at h'; cases h'; rfl

theorem nameChild_of {cx : LAnc} {r : Rg} {name : Str} {sc : List (Option Str × Str)} {as : List LAttr} {kids : List LNode} {p : LPat}
    (hn : name = "element".toList ∨ name = "attribute".toList) (ha : LNoAttr "name".toList as)
    (hp : patternOf uri cx (lel r name sc as kids) = .ok p) : ∃ r nc, nameChildOf r (as :: cx) kids = .ok nc := by
  rcases hn with rfl | rfl
  · obtain ⟨_, nc, ps, q, _, _, ⟨a, h1, _⟩ | ⟨_, h1, _⟩⟩ := inv_element hp
    · rw [attr_none.2 ha] at h1; cases h1
    · exact ⟨_, _, h1⟩
  · obtain ⟨_, nc, o, _, ⟨a, h1, _⟩ | ⟨_, h1, _⟩⟩ := inv_attribute hp
    · rw [attr_none.2 ha] at h1; cases h1
    · exact ⟨_, _, h1⟩

theorem asks_ok {role role' : Role} {cx cx' : LAnc} {n n' : LNode} (h : Asks role cx n role' cx' n') (hr : ReadOk uri role cx n) : ReadOk uri role' cx' n' := by
  cases h with
  | inContainer hn hk hk' =>
    cases hr with | pattern hp =>
    obtain ⟨t, ht, rfl⟩ := container_tag hn
    obtain ⟨ps, _, _, _, h1, _⟩ := inv_container ht hp
    exact patterns_readOk h1 hk hk'
  | inElement ha hk hk' =>
    cases hr with | pattern hp =>
    obtain ⟨_, nc, ps, q, _, _, ⟨a, _, _, h1⟩ | ⟨h1, _⟩⟩ := inv_element hp
    · exact patterns_readOk h1 hk hk'
    · rw [attr_some.2 ha] at h1; cases h1
  | @nameChild _ _ _ _ _ _ k post hn ha hf =>
    cases hr with | pattern hp =>
    obtain ⟨_, nc, h1⟩ := nameChild_of hn ha hp
    obtain ⟨k', post', h2, h3⟩ := nameChild_ok h1
    obtain ⟨rfl, rfl⟩ := first_unique hf h2
    exact .nameClass h3
  | afterName ha hf hk hk' =>
    cases hr with | pattern hp =>
    obtain ⟨_, nc, ps, q, _, _, ⟨a, h1, _⟩ | ⟨_, _, h1⟩⟩ := inv_element hp
    · rw [attr_none.2 ha] at h1; cases h1
    · rw [afterName_eq hf] at h1
      exact patterns_readOk h1 hk hk'
  | inAttribute ha hf =>
    cases hr with | pattern hp =>
    obtain ⟨_, nc, o, _, ⟨a, _, _, _, h1⟩ | ⟨h1, _⟩⟩ := inv_attribute hp
    · exact (single_readOk h1 hf).1
    · rw [attr_some.2 ha] at h1; cases h1
  | afterAttributeName ha hf hf' =>
    cases hr with | pattern hp =>
    obtain ⟨_, nc, o, _, ⟨a, h1, _⟩ | ⟨_, _, h1⟩⟩ := inv_attribute hp
    · rw [attr_none.2 ha] at h1; cases h1
    · rw [afterNameSingle_eq hf] at h1
      exact (single_readOk h1 hf').1
  | param hp =>
    cases hr with | pattern h =>
    obtain ⟨t, d, _, _, h1, _⟩ := inv_data h
    obtain ⟨d', h2⟩ := (inv_rest h1).after hp
    obtain ⟨q, h3⟩ := rest_param h2
    exact .param h3
  | dataExcept hp hk hk' =>
    cases hr with | pattern h =>
    obtain ⟨t, d, _, _, h1, _⟩ := inv_data h
    obtain ⟨d', h2⟩ := (inv_rest h1).after hp
    obtain ⟨ps, e, h3, _⟩ := rest_except h2
    exact patterns_readOk h3 hk hk'
  | inGrammar hk hk' =>
    cases hr with | pattern h =>
    obtain ⟨is, h1, _⟩ := inv_grammar h
    obtain ⟨i, _, h2⟩ := (items_ok h1).1 _ hk hk'
    exact .item h2
  | inStart hrole hf =>
    obtain ⟨_, _, _, _, h1⟩ := start_ok hrole hr
    exact (single_readOk h1 hf).1
  | inDefine hrole hk hk' =>
    obtain ⟨_, _, _, _, _, _, _, _, h1, _⟩ := define_ok hrole hr
    exact patterns_readOk h1 hk hk'
  | @inDiv _ cx r sc as kids k hrole hk hk' =>
    generalize hn : "div".toList = name at hr
    rcases hrole with rfl | rfl
    · cases hr with | item h =>
      replace h := inv_item h
      cases h with
      | define h => cases h <;> exact absurd hn (by decide)
      | div h1 => obtain ⟨i, _, h2⟩ := (items_ok h1).1 _ hk hk'; exact .item h2
      | «include» => exact absurd hn (by decide)
    · cases hr with | override h =>
      replace h := inv_override h
      cases h with
      | define h => cases h <;> exact absurd hn (by decide)
      | div h1 => obtain ⟨i, _, h2⟩ := (overrides_ok h1).1 _ hk hk'; exact .override h2
  | inInclude hk hk' =>
    generalize hn : "include".toList = name at hr
    cases hr with | item h =>
    replace h := inv_item h
    cases h with
    | define h => cases h <;> exact absurd hn (by decide)
    | div => exact absurd hn (by decide)
    | «include» _ h1 => obtain ⟨i, _, h2⟩ := (overrides_ok h1).1 _ hk hk'; exact .override h2
  | inChoice hk hk' =>
    obtain ⟨l, c, h1, _⟩ := ncChoice_ok hr
    obtain ⟨i, _, h2⟩ := (nameClasses_ok h1).1 _ hk hk'
    exact .nameClass h2
  | nameExcept hn hf hpost hk hk' =>
    obtain ⟨o, h1⟩ := except_ok hn hr
    cases h1 with
    | none h => exact (hf.none h).elim
    | some h1 h2 h3 h4 =>
      obtain ⟨e1, e2⟩ := first_unique hf h1
      injection e1 with _ _ _ _ e3 e4
      subst e3 e4
      obtain ⟨i, _, h5⟩ := (nameClasses_ok h3).1 _ hk hk'
      exact .nameClass h5

theorem expects_ok {root : LNode} {s : LSchema} (h : parse uri root = .ok s) {role : Role} {cx : LAnc} {n : LNode} (hx : Expects root role cx n) : ReadOk uri role cx n := by
  induction hx with
  | @root r name sc as kids hr hn =>
    subst hr
    unfold parse at h
    dsimp only at h
    rw [if_pos rng_pos, if_neg hn] at h
    obtain ⟨p, h1, _⟩ := bind_ok h
    exact .pattern h1
  | @grammar r sc as kids k hr hk hk' =>
    subst hr
    unfold parse at h
    dsimp only at h
    rw [if_pos rng_pos, if_pos rfl] at h
    obtain ⟨is, h1, _⟩ := bind_ok h
    obtain ⟨i, _, h2⟩ := (items_ok h1).1 _ hk hk'
    exact .item h2
  | inside _ ha ih => exact asks_ok ha ih

theorem foldl1_some_ne {α : Type} {op : α → α → α} {l : List α} {a : α} (h : foldl1 op l = some a) : l ≠ [] := by
  rintro rfl; cases h

theorem patterns_ne {cx : LAnc} {ks : List LNode} {l : List LPat} (h : patternsOf uri cx ks = .ok l) (hn : LNoRng ks) : l = [] := by
  cases l with
  | nil => rfl
  | cons p l => obtain ⟨k, hk, hr, _⟩ := (patterns_ok h).2 p (List.mem_cons_self ..); exact absurd hr (hn k hk)

theorem patterns_no {cx : LAnc} {ks : List LNode} {l : List LPat} {op : LPat → LPat → LPat} {q : LPat} (h : patternsOf uri cx ks = .ok l)
    (hf : foldl1 op l = some q) (hn : LNoRng ks) : False := by
  rw [patterns_ne h hn] at hf; cases hf

theorem nameClasses_no {cx : LAnc} {b : Bool} {ks : List LNode} {l : List LNameClass} {op : LNameClass → LNameClass → LNameClass} {q : LNameClass}
    (h : nameClassesOf cx b ks = .ok l) (hf : foldl1 op l = some q) (hn : LNoRng ks) : False := by
  cases l with
  | nil => cases hf
  | cons p l => obtain ⟨k, hk, hr, _⟩ := (nameClasses_ok h).2 p (List.mem_cons_self ..); exact absurd hr (hn k hk)

theorem tag_known (t : Tag) : t.str ∈ patternNames := by
  unfold patternNames
  by_cases h : isCont t = true
  · exact List.mem_append.2 (.inl (cont t h))
  · refine List.mem_append.2 (.inr ?_)
    cases t with
    | element => exact .head _
    | «attribute» => exact .tail _ (.head _)
    | ref => exact .tail _ (.tail _ (.head _))
    | parentRef => exact .tail _ (.tail _ (.tail _ (.head _)))
    | empty => exact .tail _ (.tail _ (.tail _ (.tail _ (.head _))))
    | text => exact .tail _ (.tail _ (.tail _ (.tail _ (.tail _ (.head _)))))
    | value => exact .tail _ (.tail _ (.tail _ (.tail _ (.tail _ (.tail _ (.head _))))))
    | data => exact .tail _ (.tail _ (.tail _ (.tail _ (.tail _ (.tail _ (.tail _ (.head _)))))))
    | notAllowed => exact .tail _ (.tail _ (.tail _ (.tail _ (.tail _ (.tail _ (.tail _ (.tail _ (.head _))))))))
    | externalRef => exact .tail _ (.tail _ (.tail _ (.tail _ (.tail _ (.tail _ (.tail _ (.tail _ (.tail _ (.head _)))))))))
    | grammar => exact .tail _ (.tail _ (.tail _ (.tail _ (.tail _ (.tail _ (.tail _ (.tail _ (.tail _ (.tail _ (.head _))))))))))
    | _ => exact absurd rfl h

theorem takes_ok {cx : LAnc} {r : Rg} {name : Str} {sc : List (Option Str × Str)} {as : List LAttr} {kids : List LNode} {names : List Str} {p : LPat}
    (hn : (name, names) ∈ takesOnly) (h : patternOf uri cx (lel r name sc as kids) = .ok p) : ∃ u, noAttrsExcept names as = .ok u := by
  unfold takesOnly at hn
  simp only [List.mem_cons, List.not_mem_nil, or_false, Prod.mk.injEq] at hn
  rcases hn with ⟨rfl, rfl⟩ | ⟨rfl, rfl⟩ | ⟨rfl, rfl⟩ | ⟨rfl, rfl⟩ | ⟨rfl, rfl⟩ | ⟨rfl, rfl⟩
  · exact (inv_element h).1
  · exact (inv_attribute h).1
  · obtain ⟨_, _, _, h1, _⟩ := inv_data h; exact h1
  · exact (inv_bare (t := .empty) (.inl rfl) h).1
  · exact (inv_bare (t := .text) (.inr (.inl rfl)) h).1
  · exact (inv_bare (t := .notAllowed) (.inr (.inr rfl)) h).1

theorem bareKids_ok {cx : LAnc} {r : Rg} {name : Str} {sc : List (Option Str × Str)} {as : List LAttr} {kids : List LNode} {p : LPat}
    (hn : name ∈ ["ref".toList, "parentRef".toList, "empty".toList, "text".toList, "notAllowed".toList])
    (h : patternOf uri cx (lel r name sc as kids) = .ok p) : LNoRng kids := by
  simp only [List.mem_cons, List.not_mem_nil, or_false] at hn
  rcases hn with rfl | rfl | rfl | rfl | rfl
  · obtain ⟨n, h1, _⟩ := inv_ref h; obtain ⟨⟨u, h2⟩, _⟩ := inv_refTo h1; exact noRng_ok h2
  · obtain ⟨n, h1, _⟩ := inv_parent h; obtain ⟨⟨u, h2⟩, _⟩ := inv_refTo h1; exact noRng_ok h2
  · obtain ⟨_, ⟨u, h2⟩, _⟩ := inv_bare (t := .empty) (.inl rfl) h; exact noRng_ok h2
  · obtain ⟨_, ⟨u, h2⟩, _⟩ := inv_bare (t := .text) (.inr (.inl rfl)) h; exact noRng_ok h2
  · obtain ⟨_, ⟨u, h2⟩, _⟩ := inv_bare (t := .notAllowed) (.inr (.inr rfl)) h; exact noRng_ok h2

theorem refName_ok {cx : LAnc} {r : Rg} {name : Str} {sc : List (Option Str × Str)} {as : List LAttr} {kids : List LNode} {p : LPat}
    (hn : name = "ref".toList ∨ name = "parentRef".toList) (h : patternOf uri cx (lel r name sc as kids) = .ok p) :
    ∃ a n, attr "name".toList as = some a ∧ attrName a = .ok n := by
  rcases hn with rfl | rfl
  · obtain ⟨n, h1, _⟩ := inv_ref h; obtain ⟨_, a, h2, h3, _⟩ := inv_refTo h1; exact ⟨a, _, h2, h3⟩
  · obtain ⟨n, h1, _⟩ := inv_parent h; obtain ⟨_, a, h2, h3, _⟩ := inv_refTo h1; exact ⟨a, _, h2, h3⟩

theorem combine_of {role : Role} {cx : LAnc} {r : Rg} {name : Str} {sc : List (Option Str × Str)} {as : List LAttr} {kids : List LNode}
    (hrole : role = .item ∨ role = .override) (hn : name = "start".toList ∨ name = "define".toList) (hr : ReadOk uri role cx (lel r name sc as kids)) :
    ∃ how, combineOf as = .ok how := by
  rcases hn with rfl | rfl
  · obtain ⟨how, _, h, _⟩ := start_ok hrole hr; exact ⟨how, h⟩
  · obtain ⟨how, _, _, _, _, h, _⟩ := define_ok hrole hr; exact ⟨how, h⟩

theorem combine_ok {as : List LAttr} {how : AssignMethod} {a : LAttr} {t : Str} (h : combineOf as = .ok how) (ha : LHasAttr "combine".toList as a)
    (ht : Trimmed a.value t) : t = "choice".toList ∨ t = "interleave".toList := by
  unfold combineOf at h
  rw [attr_some.2 ha] at h
  dsimp only at h
  rw [trim_iff.2 ht] at h
  split at h
  · next h1 => exact .inl h1
  · split at h
    · next h1 => exact .inr h1
    · cases h

theorem valueText_ok {r : Rg} {k : LNode} {ks : List LNode} {v : Str} (h : valueOf r (k :: ks) = .ok v) : ¬ NoText k := by
  intro hn
  have := orErr_ok h
  rw [textOf_none.2 hn] at this; cases this

theorem qn_ok {r : Rg} {cx : LAnc} {tr : Rg} {v w : Str} {ks : List LNode} {c : LNameClass} (h : QnOk r cx (.text tr (v ++ ':' :: w) :: ks) c)
    (hv : ':' ∉ v) : ∃ p l, NameIn v p ∧ NameIn w l := by
  cases h with
  | prefixed e h1 h2 h3 =>
    injection e with e; injection e with _ e
    obtain ⟨rfl, rfl⟩ := split_unique e hv h1
    exact ⟨_, _, h2, h3⟩
  | plain e h1 =>
    injection e with e; injection e with _ e
    exact absurd (by rw [← e]; simp) h1

theorem wrong_not {role : Role} {cx : LAnc} {n : LNode} {e : XErr} (h : Wrong uri role cx n e) (hr : ReadOk uri role cx n) : False := by
  cases h with
  | library ha hv hu =>
    cases hr with | pattern h =>
    obtain ⟨u, h1⟩ := pattern_std h
    rw [std_ok h1 ha hv] at hu; cases hu
  | fragment ha hv hu =>
    cases hr with | pattern h =>
    obtain ⟨u, h1⟩ := pattern_std h
    rw [std_ok h1 ha hv] at hu; cases hu
  | notPattern hn =>
    cases hr with | pattern h =>
    obtain ⟨t, rfl⟩ := pattern_known h
    exact hn (tag_known t)
  | attr hn ha ho hx =>
    cases hr with | pattern h =>
    obtain ⟨u, h1⟩ := takes_ok hn h
    exact hx (noAttrs_ok h1 ha ho)
  | noPattern hn hk =>
    cases hr with | pattern h =>
    obtain ⟨t, ht, rfl⟩ := container_tag hn
    obtain ⟨ps, _, _, _, h1, _, _, h2, _⟩ := inv_container ht h
    exact patterns_no h1 h2 hk
  | noContent ha hk =>
    cases hr with | pattern h =>
    obtain ⟨_, nc, ps, q, h2, _, ⟨a, _, _, h1⟩ | ⟨h1, _⟩⟩ := inv_element h
    · exact patterns_no h1 h2 hk
    · rw [attr_some.2 ha] at h1; cases h1
  | noContentAfterName ha hf hk =>
    cases hr with | pattern h =>
    obtain ⟨_, nc, ps, q, h2, _, ⟨a, h1, _⟩ | ⟨_, _, h1⟩⟩ := inv_element h
    · rw [attr_none.2 ha] at h1; cases h1
    · rw [afterName_eq hf] at h1; exact patterns_no h1 h2 hk
  | noName hn ha hk =>
    cases hr with | pattern h =>
    obtain ⟨_, nc, h1⟩ := nameChild_of hn ha h
    obtain ⟨k', post', h2, h3⟩ := nameChild_ok h1
    exact h2.none hk
  | badName hn ha hb =>
    cases hr with | pattern h =>
    rcases hn with rfl | rfl
    · obtain ⟨_, nc, ps, q, _, _, ⟨a, h1, h2, _⟩ | ⟨h1, _⟩⟩ := inv_element h
      · cases has_unique ha h1; exact qnameAttr_not h2 hb
      · rw [attr_some.2 ha] at h1; cases h1
    · obtain ⟨_, nc, o, _, ⟨a, h1, _, h2, _⟩ | ⟨h1, _⟩⟩ := inv_attribute h
      · cases has_unique ha h1; exact qnameAttr_not h2 hb
      · rw [attr_some.2 ha] at h1; cases h1
  | xmlns ha hv hb =>
    cases hr with | pattern h =>
    obtain ⟨_, nc, o, _, ⟨a, h1, ⟨u, h2⟩, _⟩ | ⟨h1, _⟩⟩ := inv_attribute h
    · cases has_unique ha h1; exact (xmlns_ok h2).1 ⟨hv, hb⟩
    · rw [attr_some.2 ha] at h1; cases h1
  | xmlnsNs ha hb hv =>
    cases hr with | pattern h =>
    obtain ⟨_, nc, o, _, ⟨a, h1, ⟨u, h2⟩, _⟩ | ⟨h1, _⟩⟩ := inv_attribute h
    · exact (xmlns_ok h2).2 _ hb hv
    · rw [attr_some.2 ha] at h1; cases h1
  | moreInAttribute ha hf hf' =>
    cases hr with | pattern h =>
    obtain ⟨_, nc, o, _, ⟨a, _, _, _, h1⟩ | ⟨h1, _⟩⟩ := inv_attribute h
    · exact hf'.none (single_readOk h1 hf).2
    · rw [attr_some.2 ha] at h1; cases h1
  | moreAfterAttributeName ha hf hf' hf'' =>
    cases hr with | pattern h =>
    obtain ⟨_, nc, o, _, ⟨a, h1, _⟩ | ⟨_, _, h1⟩⟩ := inv_attribute h
    · rw [attr_none.2 ha] at h1; cases h1
    · rw [afterNameSingle_eq hf] at h1
      exact hf''.none (single_readOk h1 hf').2
  | child hn hf =>
    cases hr with | pattern h =>
    exact hf.none (bareKids_ok hn h)
  | refNoName hn ha =>
    cases hr with | pattern h =>
    obtain ⟨a, n, h1, _⟩ := refName_ok hn h
    rw [attr_none.2 ha] at h1; cases h1
  | refName hn ha hb =>
    cases hr with | pattern h =>
    obtain ⟨a, n, h1, h2⟩ := refName_ok hn h
    cases has_unique ha h1
    exact badIdent_not hb (attrName_ok h2)
  | valueChild _ hk =>
    cases hr with | pattern h =>
    obtain ⟨⟨u, h1⟩, _⟩ := inv_value h
    exact noElem_ok h1 _ (by simp) hk
  | valueText hk =>
    cases hr with | pattern h =>
    obtain ⟨_, lit, h1, _⟩ := inv_value h
    exact valueText_ok h1 hk
  | typeName hn ha hb =>
    cases hr with | pattern h =>
    rcases hn with rfl | rfl
    · obtain ⟨_, lit, _, ⟨h1, _⟩ | ⟨a, n, h1, h2, _⟩⟩ := inv_value h
      · rw [attr_some.2 ha] at h1; cases h1
      · cases has_unique ha h1; exact badName_not hb (ncname_ok h2)
    · obtain ⟨t, d, h1, _⟩ := inv_data h
      obtain ⟨a, h2, ⟨h3, _⟩ | ⟨n, h3, _⟩⟩ := inv_type h1
      · cases has_unique ha h2
        refine badName_not hb (n := "token".toList) ⟨trim_iff.1 h3, 't', "oken".toList, rfl, ?_, ?_⟩
        · exact (C31_same_characters 't').2.1.1 (by decide)
        · intro c hc
          refine (C31_same_characters c).2.2.2.1 ?_
          have : ∀ c ∈ "oken".toList, xmlNcNameChar c = true := by decide
          exact this c hc
      · cases has_unique ha h2; exact badName_not hb (nameIn_trim (ncname_ok h3))
  | noType ha =>
    cases hr with | pattern h =>
    obtain ⟨t, d, h1, _⟩ := inv_data h
    obtain ⟨a, h2, _⟩ := inv_type h1
    rw [attr_none.2 ha] at h2; cases h2
  | notParam hp hn hn' =>
    cases hr with | pattern h =>
    obtain ⟨t, d, _, _, h1, _⟩ := inv_data h
    obtain ⟨d', h2⟩ := (inv_rest h1).after hp
    rcases rest_other h2 with h3 | h3
    · exact hn h3
    · exact hn' h3
  | noException hp hk =>
    cases hr with | pattern h =>
    obtain ⟨t, d, _, _, h1, _⟩ := inv_data h
    obtain ⟨d', h2⟩ := (inv_rest h1).after hp
    obtain ⟨ps, e, h3, h4, _⟩ := rest_except h2
    exact patterns_no h3 h4 hk
  | afterException hp hf =>
    cases hr with | pattern h =>
    obtain ⟨t, d, _, _, h1, _⟩ := inv_data h
    obtain ⟨d', h2⟩ := (inv_rest h1).after hp
    obtain ⟨ps, e, h3, h4, h5⟩ := rest_except h2
    exact hf.none h5
  | noHref ha =>
    cases hr with | pattern h =>
    obtain ⟨a, h1, _⟩ := inv_external h
    rw [attr_none.2 ha] at h1; cases h1
  | notItem hrole hn =>
    rcases hrole with rfl | rfl
    · cases hr with | item h =>
      replace h := inv_item h
      cases h with
      | define h => cases h <;> exact hn (by decide)
      | div => exact hn (by decide)
      | «include» => exact hn (by decide)
    · cases hr with | override h =>
      replace h := inv_override h
      cases h with
      | define h => cases h <;> exact hn (by decide)
      | div => exact hn (by decide)
  | combine hrole hn ha ht h1 h2 =>
    obtain ⟨how, h⟩ := combine_of hrole hn hr
    rcases combine_ok h ha ht with h3 | h3
    · exact h1 h3
    · exact h2 h3
  | startAttr hrole ha ho hn =>
    obtain ⟨_, _, _, ⟨u, h1⟩, _⟩ := start_ok hrole hr
    have := noAttrs_ok h1 ha ho
    exact hn (List.mem_singleton.1 this)
  | noBody hrole hn hk =>
    rcases hn with rfl | rfl
    · obtain ⟨_, _, _, _, h1⟩ := start_ok hrole hr
      rcases single_ok h1 with ⟨h2, _⟩ | ⟨_, _, _, h2, _⟩
      · cases h2
      · exact h2.none hk
    · obtain ⟨_, _, _, _, _, _, _, _, h1, h2⟩ := define_ok hrole hr
      exact patterns_no h1 h2 hk
  | moreInStart hrole hf hf' =>
    obtain ⟨_, _, _, _, h1⟩ := start_ok hrole hr
    exact hf'.none (single_readOk h1 hf).2
  | defineNoName hrole ha =>
    obtain ⟨_, _, _, _, _, _, h1, _⟩ := define_ok hrole hr
    rw [attr_none.2 ha] at h1; cases h1
  | defineName hrole ha hb =>
    obtain ⟨_, _, _, _, _, _, h1, h2, _⟩ := define_ok hrole hr
    cases has_unique ha h1
    exact badIdent_not hb (attrName_ok h2)
  | includeNoHref ha =>
    generalize hn : "include".toList = name at hr
    cases hr with | item h =>
    replace h := inv_item h
    cases h with
    | define h => cases h <;> exact absurd hn (by decide)
    | div => exact absurd hn (by decide)
    | «include» h1 => rw [attr_none.2 ha] at h1; cases h1
  | paramNoName ha =>
    cases hr with | param h =>
    obtain ⟨a, _, _, _, h1, _⟩ := inv_param h
    rw [attr_none.2 ha] at h1; cases h1
  | paramName ha hb =>
    cases hr with | param h =>
    obtain ⟨a, _, _, _, h1, h2, _⟩ := inv_param h
    cases has_unique ha h1
    exact badIdent_not hb (attrName_ok h2)
  | paramEmpty =>
    cases hr with | param h =>
    obtain ⟨a, _, _, _, _, _, h1, _⟩ := inv_param h
    cases h1
  | paramText hk =>
    cases hr with | param h =>
    obtain ⟨a, _, _, _, _, _, h1, h2, _⟩ := inv_param h
    cases h1
    rw [textOf_none.2 hk] at h2; cases h2
  | notNameClass hn =>
    cases hr with | nameClass h =>
    replace h := inv_nameClass h
    cases h <;> exact hn (by decide)
  | anyNameInExcept =>
    generalize hn : "anyName".toList = name at hr
    generalize hb : true = b at hr
    cases hr with | nameClass h =>
    replace h := inv_nameClass h
    cases h with
    | name => exact absurd hn (by decide)
    | anyName h => rw [h] at hb; cases hb
    | nsName => exact absurd hn (by decide)
    | choice => exact absurd hn (by decide)
  | nameElement _ hk => exact (ncName_ok hr).1 _ (by simp) hk
  | nameEmpty =>
    obtain ⟨_, c, h1⟩ := ncName_ok hr
    cases h1 with
    | prefixed e => cases e
    | plain e => cases e
  | nameText hk =>
    obtain ⟨_, c, h1⟩ := ncName_ok hr
    cases h1 with
    | prefixed e => cases e; exact hk _ _ rfl
    | plain e => cases e; exact hk _ _ rfl
  | namePrefix hv hb =>
    obtain ⟨_, c, h1⟩ := ncName_ok hr
    obtain ⟨p, l, h2, _⟩ := qn_ok h1 hv
    exact badName_not hb h2
  | nameLocal hv hb =>
    obtain ⟨_, c, h1⟩ := ncName_ok hr
    obtain ⟨p, l, _, h2⟩ := qn_ok h1 hv
    exact badName_not hb h2
  | namePlain hv hb =>
    obtain ⟨_, c, h1⟩ := ncName_ok hr
    cases h1 with
    | prefixed e =>
      injection e with e; injection e with _ e
      exact hv (by rw [e]; simp)
    | plain e _ h2 => cases e; exact badName_not hb h2
  | noNames hk =>
    obtain ⟨l, c, h1, h2⟩ := ncChoice_ok hr
    exact nameClasses_no h1 h2 hk
  | notExcept hn hf hne =>
    obtain ⟨o, h1⟩ := except_ok hn hr
    cases h1 with
    | none h => exact hf.none h
    | some h1 =>
      obtain ⟨e1, e2⟩ := first_unique hf h1
      injection e1 with _ _ e3
      exact hne e3
  | afterExcept hn hf hf' =>
    obtain ⟨o, h1⟩ := except_ok hn hr
    cases h1 with
    | none h => exact hf.none h
    | some h1 h2 =>
      obtain ⟨e1, e2⟩ := first_unique hf h1
      rw [e2] at hf'
      exact hf'.none h2
  | noExcept hn hf _ hk =>
    obtain ⟨o, h1⟩ := except_ok hn hr
    cases h1 with
    | none h => exact hf.none h
    | some h1 _ h3 h4 =>
      obtain ⟨e1, e2⟩ := first_unique hf h1
      injection e1 with _ _ _ _ _ e3
      rw [e3] at hk
      exact nameClasses_no h3 h4 hk

/-- A document that has been read has no fault. -/
theorem ok_no_fault {root : LNode} {s : LSchema} {e : XErr} (h : parse uri root = .ok s) : ¬ RngAt.Fault uri root e := by
  intro hf
  cases hf with
  | root hn =>
    unfold parse at h
    split at h
    · next r ns name sc as kids =>
      by_cases hr : isRngNs ns = true
      · exact hn (isRng_iff.1 hr)
      · rw [if_neg hr] at h; cases h
    · cases h
  | inside hx hw => exact wrong_not hw (expects_ok h hx)

end
end Verif.LXml
