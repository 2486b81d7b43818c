import Verif.Proof.Refactor
import Verif.Props.SchemaMeaning
/-
C80: refactoring a schema does not change which documents are accepted.
-/
namespace Verif.Refac
open Verif
variable {F F' : Files} {x : Ext} {f f' : Str}

/-- **C80**: two versions of a schema describe the same documents. -/
theorem C80_refactored_schemas_mean_the_same (h : Refactored F F' f f') (node : Node) :
    SchemaMatches F x f node ↔ SchemaMatches F' x f' node := by
  obtain ⟨h1, h2, h3, h4, hs, hv⟩ := h
  rename_i s s' fr
  have hV : Valid F F' [fr] := ⟨hv, trivial⟩
  have key : SMatch F x [fr.left] (.pat (rootEnv f s.decls) (.ident "start".toList)) [] [node] ↔
      SMatch F' x [fr.right] (.pat (rootEnv f' s'.decls) (.ident "start".toList)) [] [node] :=
    Refac.iff (frs := [fr]) (.ident hs) hV
  constructor
  · rintro ⟨t, ds, a1, a2, a3⟩
    rw [h1] at a1; cases a1
    cases a2.det h3
    exact ⟨s', fr.right, h2, h4, key.mp a3⟩
  · rintro ⟨t, ds, a1, a2, a3⟩
    rw [h2] at a1; cases a1
    cases a2.det h4
    exact ⟨s, fr.left, h1, h3, key.mpr a3⟩

/-- **C80**, end to end: if both versions compile to well-formed schemas, every document is accepted by both validators or
rejected by both. -/
theorem C80_validators_agree (h : Refactored F F' f f')
    {l l' : List (Str × SSchema)} (hl : Faithful F l) (hl' : Faithful F' l') {n n' m m' k k' : Nat} {st st' : CState}
    (hc : compileFile F x n m f (.fresh l) = .ok (k, st)) (hc' : compileFile F' x n' m' f' (.fresh l') = .ok (k', st'))
    {r r' : DefineRule} (hr : st.cell k = some r) (hr' : st'.cell k' = some r')
    (hs : SchemaOK (stdLib x) st.env r.pattern true) (h0 : StartOK st.env r.pattern)
    (hs' : SchemaOK (stdLib x) st'.env r'.pattern true) (h0' : StartOK st'.env r'.pattern)
    {d : XDoc} {node : Node} (ht : d.Tame) (hm : d.Means node) {fuel fuel' b b' : Nat} {v0 v v0' v' : VState Datatypes DatatypeValues}
    {res res' : Except VErr Unit} (hnew : newValidator st.env fuel r.pattern = .ok v0) (hrun : runToks (stdLib x) b d.toks v0 = .ok (res, v))
    (hnew' : newValidator st'.env fuel' r'.pattern = .ok v0') (hrun' : runToks (stdLib x) b' d.toks v0' = .ok (res', v')) :
    res = .ok () ↔ res' = .ok () := by
  constructor
  · rintro rfl
    have := C53_accepted_documents_match_source hl hc hr hs.relax h0 ht hm hnew hrun
    exact C53_matching_documents_accepted hl' hc' hr' hs' h0' ht hm hnew' hrun' ((C80_refactored_schemas_mean_the_same h node).mp this)
  · rintro rfl
    have := C53_accepted_documents_match_source hl' hc' hr' hs'.relax h0' ht hm hnew' hrun'
    exact C53_matching_documents_accepted hl hc hr hs h0 ht hm hnew hrun ((C80_refactored_schemas_mean_the_same h node).mpr this)

/-! ### moving, reordering and renaming definitions -/

theorem has_congr {e e' : NEnv} (h : ∀ p, e'.ns.lookup p = e.ns.lookup p) : ∀ (nc : SNameClass) (n : Str × Str), nc.Has e n ↔ nc.Has e' n
  | .ident _, _ => Iff.rfl
  | .cname .., _ => by simp only [SNameClass.Has, h]
  | .namespaced .., _ => Iff.rfl
  | .nsName r, _ => by cases r <;> simp only [SNameClass.Has, NEnv.nsRef, h]
  | .nsNameExcept r ex, n => by have := has_congr h ex n; cases r <;> simp only [SNameClass.Has, NEnv.nsRef, h, this]
  | .anyName, _ => Iff.rfl
  | .anyNameExcept ex, n => by have := has_congr h ex n; simp only [SNameClass.Has, this]
  | .alt a b, n => by have h1 := has_congr h a n; have h2 := has_congr h b n; simp only [SNameClass.Has, h1, h2]
  | .paren a, n => has_congr (e := e) (e' := e') h a n

theorem type_congr {e e' : NEnv} (h : ∀ p, e'.dts.lookup p = e.dts.lookup p) (t : SDtName) : SameType e e' t t := by
  cases t <;> simp only [SameType, NEnv.dt, h]

theorem uses_two {p q : SPattern} {l : List Str} (h : (match uses p, uses q with
      | some a, some b => some (a ++ b)
      | _, _ => none) = some l) : ∃ a b, uses p = some a ∧ uses q = some b ∧ l = a ++ b := by
  cases hp : uses p with
  | none => rw [hp] at h; cases h
  | some a =>
    cases hq : uses q with
    | none => rw [hp, hq] at h; cases h
    | some b => rw [hp, hq] at h; cases h; exact ⟨a, b, rfl, rfl, rfl⟩

theorem renamed_refac {ρ : Str → Str} {fr : Frame} {frs : List Frame} {e e' : NEnv} (hn : ∀ p, e'.ns.lookup p = e.ns.lookup p)
    (hd : ∀ p, e'.dts.lookup p = e.dts.lookup p) :
    ∀ (p : SPattern) {l : List Str}, uses p = some l → (∀ y ∈ l, fr.same y (ρ y)) →
      Refac F F' (fr :: frs) (.pat e p) (.pat e' (rename ρ p))
  | .ident id, l, h, hs => by cases h; exact .ident (hs id List.mem_cons_self)
  | .empty, _, _, _ => .empty
  | .text, _, _, _ => .text
  | .notAllowed, _, _, _ => .notAllowed
  | .value _ _, _, _, _ => .value (type_congr hd _)
  | .data _ _, _, _, _ => .data (type_congr hd _)
  | .element n p, _, h, hs => .element (has_congr hn n) (renamed_refac hn hd p h hs)
  | .attribute n p, _, h, hs => .attribute (has_congr hn n) (renamed_refac hn hd p h hs)
  | .list p, _, h, hs => .list (renamed_refac hn hd p h hs)
  | .mixed p, _, h, hs => .mixed (renamed_refac hn hd p h hs)
  | .optional p, _, h, hs => .optional (renamed_refac hn hd p h hs)
  | .zeroOrMore p, _, h, hs => .zeroOrMore (renamed_refac hn hd p h hs)
  | .oneOrMore p, _, h, hs => .oneOrMore (renamed_refac hn hd p h hs)
  | .paren p, _, h, hs => .parenLeft (.parenRight (renamed_refac hn hd p h hs))
  | .dataExcept _ _ p, _, h, hs => .dataExcept (type_congr hd _) (renamed_refac hn hd p h hs)
  | .seq p q, _, h, hs => by
    obtain ⟨a, b, ha, hb, rfl⟩ := uses_two h
    exact .seq (renamed_refac hn hd p ha fun y hy => hs y (by simp [hy])) (renamed_refac hn hd q hb fun y hy => hs y (by simp [hy]))
  | .inter p q, _, h, hs => by
    obtain ⟨a, b, ha, hb, rfl⟩ := uses_two h
    exact .inter (renamed_refac hn hd p ha fun y hy => hs y (by simp [hy])) (renamed_refac hn hd q hb fun y hy => hs y (by simp [hy]))
  | .choice p q, _, h, hs => by
    obtain ⟨a, b, ha, hb, rfl⟩ := uses_two h
    exact .choice (renamed_refac hn hd p ha fun y hy => hs y (by simp [hy])) (renamed_refac hn hd q hb fun y hy => hs y (by simp [hy]))
  | .parent _, _, h, _ => nomatch h
  | .grammar _, _, h, _ => nomatch h
  | .external _ _, _, h, _ => nomatch h

/-- definitions that say the same, in another order, with names replaced -/
theorem renamed_inter {ρ : Str → Str} {frs : List Frame} : ∀ {ds ds' : List Defn},
    (∀ d ∈ ds, ∀ d' ∈ ds', saidRenamed ρ d = said d' → Refac F F' frs (.pat d.env d.body) (.pat d'.env d'.body)) →
    (ds.map (saidRenamed ρ)).Perm (ds'.map said) → Refac F F' frs (.inter ds) (.inter ds')
  | [], ds', _, hp => by
    have : ds' = [] := by simpa using hp.length_eq.symm
    subst this
    exact .interNil
  | d :: ds, ds', h, hp => by
    have hm : saidRenamed ρ d ∈ ds'.map said := hp.mem_iff.mp (by simp)
    obtain ⟨d', hd', he⟩ := List.mem_map.mp hm
    obtain ⟨l, r, rfl⟩ := List.append_of_mem hd'
    refine .interPick (l := []) (h d List.mem_cons_self d' hd' he.symm) (renamed_inter (ρ := ρ) (ds := ds) (ds' := l ++ r) ?_ ?_)
    · exact fun e1 h1 e2 h2 => h e1 (List.mem_cons_of_mem _ h1) e2 (by
        rcases List.mem_append.mp h2 with h2 | h2
        · exact List.mem_append_left _ h2
        · exact List.mem_append_right _ (List.mem_cons_of_mem _ h2))
    · have h1 : (List.map said (l ++ d' :: r)).Perm (said d' :: List.map said (l ++ r)) := by
        simpa using List.perm_middle (a := said d') (l₁ := l.map said) (l₂ := r.map said)
      have h2 := hp.trans h1
      rw [List.map_cons, he] at h2
      exact (List.perm_cons _).mp h2

open Classical in
/-- alternatives: each has a counterpart -/
theorem defs_alternatives {frs : List Frame} {ds ds' : List Defn} (h : ¬ Interleaved ds) (h' : ¬ Interleaved ds')
    (to : ∀ d ∈ ds, ∃ d' ∈ ds', Refac F F' frs (.pat d.env d.body) (.pat d'.env d'.body))
    (back : ∀ d' ∈ ds', ∃ d ∈ ds, Refac F F' frs (.pat d.env d.body) (.pat d'.env d'.body)) : Refac F F' frs (.defs ds) (.defs ds') := by
  have m1 : ∀ d (hd : d ∈ ds), (if hd : d ∈ ds then (to d hd).choose else d) = (to d hd).choose := fun d hd => dif_pos hd
  have m2 : ∀ d (hd : d ∈ ds'), (if hd : d ∈ ds' then (back d hd).choose else d) = (back d hd).choose := fun d hd => dif_pos hd
  refine .defsChoice (fun d => if hd : d ∈ ds then (to d hd).choose else d) (fun d => if hd : d ∈ ds' then (back d hd).choose else d) h h' ?_ ?_ ?_ ?_
  · intro d hd; rw [m1 d hd]; exact (to d hd).choose_spec.1
  · intro d hd; rw [m2 d hd]; exact (back d hd).choose_spec.1
  · intro d hd; rw [m1 d hd]; exact (to d hd).choose_spec.2
  · intro d hd; rw [m2 d hd]; exact (back d hd).choose_spec.2

theorem renamed_defs {ρ : Str → Str} {frs : List Frame} {ds ds' : List Defn}
    (h : ∀ d ∈ ds, ∀ d' ∈ ds', saidRenamed ρ d = said d' → Refac F F' frs (.pat d.env d.body) (.pat d'.env d'.body))
    (hp : (ds.map (saidRenamed ρ)).Perm (ds'.map said)) : Refac F F' frs (.defs ds) (.defs ds') := by
  have to : ∀ d ∈ ds, ∃ d' ∈ ds', saidRenamed ρ d = said d' := fun d hd => by
    obtain ⟨d', h1, h2⟩ := List.mem_map.mp (hp.mem_iff.mp (List.mem_map_of_mem hd))
    exact ⟨d', h1, h2.symm⟩
  have back : ∀ d' ∈ ds', ∃ d ∈ ds, saidRenamed ρ d = said d' := fun d hd => by
    obtain ⟨d', h1, h2⟩ := List.mem_map.mp (hp.mem_iff.mpr (List.mem_map_of_mem hd))
    exact ⟨d', h1, h2⟩
  have how : ∀ {d d' : Defn}, saidRenamed ρ d = said d' → d'.how = d.how := fun h => (congrArg (·.1) h).symm
  by_cases hi : Interleaved ds
  · obtain ⟨d, hd, hh⟩ := hi
    obtain ⟨d', hd', he⟩ := to d hd
    exact .defsInter ⟨d, hd, hh⟩ ⟨d', hd', by rw [how he, hh]⟩ (renamed_inter h hp)
  · have hi' : ¬ Interleaved ds' := fun ⟨d', hd', hh⟩ => by
      obtain ⟨d, hd, he⟩ := back d' hd'
      exact hi ⟨d, hd, by rw [← how he, hh]⟩
    refine defs_alternatives hi hi' (fun d hd => ?_) (fun d' hd' => ?_)
    · obtain ⟨d', hd', he⟩ := to d hd
      exact ⟨d', hd', h d hd d' hd' he⟩
    · obtain ⟨d, hd, he⟩ := back d' hd'
      exact ⟨d, hd, h d hd d' hd' he⟩

/-- **C80**: moving, reordering and renaming definitions, and adding or dropping definitions that are not used, are
refactorings. -/
theorem C80_moving_and_renaming_refactors {ρ : Str → Str} (h : Moved F F' ρ f f') : Refactored F F' f f' := by
  obtain ⟨used, h1, h2, h3, h4, hu, hρ, hb, hp⟩ := h
  rename_i s s' ds ds'
  refine .mk (fr := ⟨ds, ds', fun y z => used y ∧ z = ρ y⟩) h1 h2 h3 h4 ⟨hu, hρ.symm⟩ fun y z hyz => ?_
  obtain ⟨hy, rfl⟩ := hyz
  refine renamed_defs (fun d hd d' hd' he => ?_) (hp y hy)
  have hd1 := List.mem_filter.mp hd
  have hname : d.name = y := by simpa using hd1.2
  obtain ⟨l, hl, hl'⟩ := hb d hd1.1 (hname ▸ hy)
  simp only [saidRenamed, said, Prod.mk.injEq] at he
  rw [← he.2.1]
  exact renamed_refac (fun p => (congrFun he.2.2.1 p).symm) (fun p => (congrFun he.2.2.2 p).symm) d.body hl fun y hy => ⟨hl' y hy, rfl⟩

/-- **C80**: so they do not change what the schema describes. -/
theorem C80_moving_and_renaming {ρ : Str → Str} (h : Moved F F' ρ f f') (node : Node) :
    SchemaMatches F x f node ↔ SchemaMatches F' x f' node := C80_refactored_schemas_mean_the_same (C80_moving_and_renaming_refactors h) node

/-! ### reordering definitions, moving definitions to another file -/

theorem rename_id : ∀ (p : SPattern) {l : List Str}, uses p = some l → rename id p = p
  | .ident _, _, _ => rfl
  | .empty, _, _ => rfl
  | .text, _, _ => rfl
  | .notAllowed, _, _ => rfl
  | .value _ _, _, _ => rfl
  | .data _ _, _, _ => rfl
  | .element n p, _, h => congrArg (SPattern.element n) (rename_id p h)
  | .attribute n p, _, h => congrArg (SPattern.attribute n) (rename_id p h)
  | .list p, _, h => congrArg SPattern.list (rename_id p h)
  | .mixed p, _, h => congrArg SPattern.mixed (rename_id p h)
  | .optional p, _, h => congrArg SPattern.optional (rename_id p h)
  | .zeroOrMore p, _, h => congrArg SPattern.zeroOrMore (rename_id p h)
  | .oneOrMore p, _, h => congrArg SPattern.oneOrMore (rename_id p h)
  | .paren p, _, h => congrArg SPattern.paren (rename_id p h)
  | .dataExcept t ps p, _, h => congrArg (SPattern.dataExcept t ps) (rename_id p h)
  | .seq p q, _, h => by
    obtain ⟨a, b, ha, hb, rfl⟩ := uses_two h
    show SPattern.seq (rename id p) (rename id q) = _
    rw [rename_id p ha, rename_id q hb]
  | .inter p q, _, h => by
    obtain ⟨a, b, ha, hb, rfl⟩ := uses_two h
    show SPattern.inter (rename id p) (rename id q) = _
    rw [rename_id p ha, rename_id q hb]
  | .choice p q, _, h => by
    obtain ⟨a, b, ha, hb, rfl⟩ := uses_two h
    show SPattern.choice (rename id p) (rename id q) = _
    rw [rename_id p ha, rename_id q hb]
  | .parent _, _, h => nomatch h
  | .grammar _, _, h => nomatch h
  | .external _ _, _, h => nomatch h

/-- a definition `name = body` (or `|=`, `&=`) whose body contains no grammars and mentions no other files -/
structure Def where
  name : Str
  how : AssignMethod
  body : SPattern
  plain : (uses body).isSome

def Def.item (d : Def) : SItem := .define d.name d.how d.body
def Def.at (e : NEnv) (d : Def) : Defn := ⟨d.name, d.how, d.body, e⟩

theorem expands_defs {e : NEnv} : ∀ (ds : List Def), Expands F e (ds.map Def.item) (ds.map (Def.at e))
  | [] => .nil
  | _ :: ds => .define (expands_defs ds)

theorem expands_append {e : NEnv} {is js : List SItem} {ds ds' : List Defn} (h : Expands F e is ds) (h' : Expands F e js ds') :
    Expands F e (is ++ js) (ds ++ ds') := by
  induction h with
  | nil => exact h'
  | define _ i => exact .define (i h')
  | div h1 _ _ i => rw [List.append_assoc]; exact .div h1 (i h')
  | annotation _ i => exact .annotation (i h')
  | «include» a1 a2 a3 a4 a5 _ _ i => rw [List.append_assoc]; exact .include a1 a2 a3 a4 a5 (i h')

theorem named_at {e : NEnv} {y : Str} (ds : List Def) : named (ds.map (Def.at e)) y = (ds.filter fun d => d.name = y).map (Def.at e) := by
  simp only [named, List.filter_map]; rfl

theorem said_at {e e' : NEnv} (hn : ∀ p, e'.ns.lookup p = e.ns.lookup p) (hd : ∀ p, e'.dts.lookup p = e.dts.lookup p) (d : Def) :
    saidRenamed id (d.at e) = said (d.at e') := by
  obtain ⟨l, hl⟩ := Option.isSome_iff_exists.mp d.plain
  simp only [saidRenamed, said, Def.at, rename_id _ hl, hn, hd]

/-- **C80**: the definitions of a grammar may be written in any order. -/
theorem C80_reordering {decls : List SDecl} {ds ds' : List Def} (hp : ds.Perm ds')
    (h : F.load f = .ok ⟨decls, .grammar (ds.map Def.item)⟩) (h' : F'.load f = .ok ⟨decls, .grammar (ds'.map Def.item)⟩) (node : Node) :
    SchemaMatches F x f node ↔ SchemaMatches F' x f node := by
  refine C80_moving_and_renaming (ρ := id) (.mk (fun _ => True) h h' (.grammar rfl (expands_defs ds)) (.grammar rfl (expands_defs ds')) trivial rfl ?_ ?_) node
  · intro d hd _
    obtain ⟨d, _, rfl⟩ := List.mem_map.mp hd
    obtain ⟨l, hl⟩ := Option.isSome_iff_exists.mp d.plain
    exact ⟨l, hl, fun _ _ => trivial⟩
  · intro y _
    rw [id, named_at, named_at, List.map_map, List.map_map]
    have : (saidRenamed id ∘ Def.at (rootEnv f decls)) = (said ∘ Def.at (rootEnv f decls)) :=
      funext fun d => said_at (fun _ => rfl) (fun _ => rfl) d
    rw [this]
    exact (hp.filter _).map _

theorem lookup_twice {α : Type} (p : Str) (l m : List (Str × α)) : ∀ k : List (Str × α), (k ++ (l ++ (k ++ (l ++ m)))).lookup p = (k ++ (l ++ m)).lookup p := by
  intro k
  have : ∀ (a b : List (Str × α)), (a ++ b).lookup p = (a.lookup p).or (b.lookup p) := fun a b => by
    induction a with
    | nil => rfl
    | cons c a i =>
      rw [List.cons_append, List.lookup_cons, List.lookup_cons]
      cases p == c.1 <;> simp [i]
  rw [this, this, this, this]
  cases k.lookup p <;> cases l.lookup p <;> simp

/-- **C80**: definitions may be moved to another file with the same declarations, which is then included. -/
theorem C80_moving_to_an_included_file {decls : List SDecl} {ds ds1 ds2 : List Def} {path inc : Str} (hp : ds.Perm (ds1 ++ ds2))
    (h : F.load f = .ok ⟨decls, .grammar (ds.map Def.item)⟩)
    (h' : F'.load f = .ok ⟨decls, .grammar (.include path none [] :: ds2.map Def.item)⟩)
    (hj : F'.join f path = some inc) (hi : F'.load inc = .ok ⟨decls, .grammar (ds1.map Def.item)⟩) (node : Node) :
    SchemaMatches F x f node ↔ SchemaMatches F' x f node := by
  have hex : Expands F' (rootEnv f decls) (.include path none [] :: ds2.map Def.item)
      (ds1.map (Def.at (includeEnv (rootEnv f decls) inc none decls)) ++ ds2.map (Def.at (rootEnv f decls))) := by
    have := Expands.include (e := rootEnv f decls) (inherit := none) (os := []) hj hi .grammar (expands_defs ds1) (fun o ho => (nomatch ho)) (expands_defs ds2)
    have hno : ∀ l : List Defn, notOverridden (overrideDefs (rootEnv f decls) []) l = l := fun l => by
      simp [notOverridden, overrideDefs]
    rw [hno] at this
    exact this
  refine C80_moving_and_renaming (ρ := id) (.mk (fun _ => True) h h' (.grammar rfl (expands_defs ds)) (.grammar rfl hex) trivial rfl ?_ ?_) node
  · intro d hd _
    obtain ⟨d, _, rfl⟩ := List.mem_map.mp hd
    obtain ⟨l, hl⟩ := Option.isSome_iff_exists.mp d.plain
    exact ⟨l, hl, fun _ _ => trivial⟩
  · intro y _
    have e1 : (saidRenamed id ∘ Def.at (rootEnv f decls)) = (said ∘ Def.at (includeEnv (rootEnv f decls) inc none decls)) :=
      funext fun d => said_at (e := rootEnv f decls) (e' := includeEnv (rootEnv f decls) inc none decls) (fun _ => rfl) (fun p => by
        show (("xsd".toList, xsdUri) :: (declDts decls ++ (("xsd".toList, xsdUri) :: declDts decls))).lookup p = _
        have := lookup_twice p (declDts decls) [] [("xsd".toList, xsdUri)]
        rwa [List.append_nil] at this) d
    have e2 : (saidRenamed id ∘ Def.at (rootEnv f decls)) = (said ∘ Def.at (rootEnv f decls)) :=
      funext fun d => said_at (fun _ => rfl) (fun _ => rfl) d
    have hsplit : named (ds1.map (Def.at (includeEnv (rootEnv f decls) inc none decls)) ++ ds2.map (Def.at (rootEnv f decls))) y =
        named (ds1.map (Def.at (includeEnv (rootEnv f decls) inc none decls))) y ++ named (ds2.map (Def.at (rootEnv f decls))) y := List.filter_append ..
    rw [id, hsplit, named_at, named_at, named_at, List.map_append, List.map_map, List.map_map, List.map_map, ← e1, ← e2, ← List.map_append, ← List.filter_append]
    exact (hp.filter _).map _

/-! ### concrete cases

before.rnc:  start = element doc { item*, note? }
             item = element item { text } | element entry { text }
             note = element note { text }
             unused = empty

after.rnc:   include "defs.rnc"
             start = element doc { row*, element note { text }? }
defs.rnc:    row = element entry { text }
             row |= element item { text }
-/
namespace Ex

def elem (n : String) (p : SPattern) : SPattern := .element (.ident n.toList) p

def itemBody : SPattern := .choice (elem "item" .text) (elem "entry" .text)

def before : SSchema := ⟨[], .grammar [
  .define "start".toList .assign (elem "doc" (.seq (.zeroOrMore (.ident "item".toList)) (.optional (.ident "note".toList)))),
  .define "item".toList .assign itemBody,
  .define "note".toList .assign (elem "note" .text),
  .define "unused".toList .assign .empty]⟩

def defs : SSchema := ⟨[], .grammar [
  .define "row".toList .assign (elem "entry" .text),
  .define "row".toList .choice (elem "item" .text)]⟩

def after : SSchema := ⟨[], .grammar [
  .include "defs.rnc".toList none [],
  .define "start".toList .assign (elem "doc" (.seq (.zeroOrMore (.ident "row".toList)) (.optional (elem "note" .text))))]⟩

def files : Files where
  load f := if f = "before.rnc".toList then .ok before else if f = "after.rnc".toList then .ok after
    else if f = "defs.rnc".toList then .ok defs else .error .io
  join _ lit := some lit

def e1 : NEnv := rootEnv "before.rnc".toList []
def e2 : NEnv := rootEnv "after.rnc".toList []
def e3 : NEnv := includeEnv e2 "defs.rnc".toList none []

def frame : Frame where
  left := [
    ⟨"start".toList, .assign, elem "doc" (.seq (.zeroOrMore (.ident "item".toList)) (.optional (.ident "note".toList))), e1⟩,
    ⟨"item".toList, .assign, itemBody, e1⟩,
    ⟨"note".toList, .assign, elem "note" .text, e1⟩,
    ⟨"unused".toList, .assign, .empty, e1⟩]
  right := [
    ⟨"row".toList, .assign, elem "entry" .text, e3⟩,
    ⟨"row".toList, .choice, elem "item" .text, e3⟩,
    ⟨"start".toList, .assign, elem "doc" (.seq (.zeroOrMore (.ident "row".toList)) (.optional (elem "note" .text))), e2⟩]
  same y z := (y = "start".toList ∧ z = "start".toList) ∨ (y = "item".toList ∧ z = "row".toList)

theorem sameIdent (e e' : NEnv) (n : Str) : SameNames e e' (.ident n) (.ident n) := fun _ => Iff.rfl

theorem one {frs : List Frame} {d d' : Defn} (h : d.how ≠ .interleave) (h' : d'.how ≠ .interleave)
    (hr : Refac files files frs (.pat d.env d.body) (.pat d'.env d'.body)) : Refac files files frs (.defs [d]) (.defs [d']) :=
  .defsChoice (fun _ => d') (fun _ => d) (not_inter.mpr (by simpa using h)) (not_inter.mpr (by simpa using h')) (fun _ _ => List.mem_cons_self)
    (fun _ _ => List.mem_cons_self) (fun d0 hd => by cases List.mem_singleton.mp hd; exact hr) (fun d0 hd => by cases List.mem_singleton.mp hd; exact hr)

/-- the two versions are versions of one schema: `item` has become `row`, its alternatives have been split, exchanged and
moved to an included file, `note` has been replaced by its body, `unused` has been dropped -/
theorem C80_refactored : Refactored files files "before.rnc".toList "after.rnc".toList := by
  refine .mk (fr := frame) rfl rfl (.grammar rfl (.define (.define (.define (.define .nil))))) (.grammar rfl ?_) (.inl ⟨rfl, rfl⟩) ?_
  · exact .include (f := "defs.rnc".toList) (s := defs) (items := _) (os := []) (ds := [
      ⟨"row".toList, .assign, elem "entry" .text, e3⟩, ⟨"row".toList, .choice, elem "item" .text, e3⟩]) rfl rfl .grammar
      (.define (.define .nil)) (fun o ho => (nomatch ho)) (.define .nil)
  · rintro y z (⟨rfl, rfl⟩ | ⟨rfl, rfl⟩)
    · refine one (by decide) (by decide) (.element (sameIdent _ _ _) (.seq (.zeroOrMore (.ident (.inr ⟨rfl, rfl⟩))) (.optional ?_)))
      exact .inlineLeft (fr := frame) (d := ⟨"note".toList, .assign, elem "note" .text, e1⟩) rfl (by decide) (.element (sameIdent _ _ _) .text)
    · refine .splitLeft (l := []) (r := []) (n := "item".toList) (how := .assign) (e := e1) (p := elem "item" .text) (q := elem "entry" .text)
        (not_inter.mpr (by intro d hd; cases List.mem_singleton.mp hd; decide)) ?_
      refine defs_alternatives (ds' := [⟨"row".toList, .assign, elem "entry" .text, e3⟩, ⟨"row".toList, .choice, elem "item" .text, e3⟩])
        (not_inter.mpr ?_) (not_inter.mpr ?_) ?_ ?_
      · intro d hd
        rcases List.mem_cons.mp hd with rfl | hd
        · decide
        · cases List.mem_singleton.mp hd; decide
      · intro d hd
        rcases List.mem_cons.mp hd with rfl | hd
        · decide
        · cases List.mem_singleton.mp hd; decide
      · intro d hd
        rcases List.mem_cons.mp hd with rfl | hd
        · exact ⟨_, List.mem_cons_of_mem _ List.mem_cons_self, .element (sameIdent _ _ _) .text⟩
        · cases List.mem_singleton.mp hd
          exact ⟨_, List.mem_cons_self, .element (sameIdent _ _ _) .text⟩
      · intro d hd
        rcases List.mem_cons.mp hd with rfl | hd
        · exact ⟨_, List.mem_cons_of_mem _ List.mem_cons_self, .element (sameIdent _ _ _) .text⟩
        · cases List.mem_singleton.mp hd
          exact ⟨_, List.mem_cons_self, .element (sameIdent _ _ _) .text⟩

/-- so both describe the same documents, of which there are some -/
theorem C80_case : (∀ node, SchemaMatches files Verif.Ex.ext "before.rnc".toList node ↔ SchemaMatches files Verif.Ex.ext "after.rnc".toList node) ∧
    SchemaMatches files Verif.Ex.ext "after.rnc".toList (.elem ⟨none, "doc".toList⟩ [] [.elem ⟨none, "item".toList⟩ [] [.text ['t']]]) := by
  refine ⟨fun node => C80_refactored_schemas_mean_the_same C80_refactored node, (C80_refactored_schemas_mean_the_same C80_refactored _).mp ?_⟩
  refine ⟨before, frame.left, rfl, .grammar rfl (.define (.define (.define (.define .nil)))), .ident ?_⟩
  refine .defsChoice (d := ⟨"start".toList, .assign, elem "doc" (.seq (.zeroOrMore (.ident "item".toList)) (.optional (.ident "note".toList))), e1⟩) ?_
    (List.mem_cons_self) (.element rfl (.keep .nil) ?_)
  · intro d hd; cases List.mem_singleton.mp hd; decide
  · refine .seq (a1 := []) (a2 := []) (c1 := [.elem ⟨none, "item".toList⟩ [] [.text ['t']]]) (c2 := [])
      (.zeroOrMoreCons (a1 := []) (a2 := []) (c1 := [.elem ⟨none, "item".toList⟩ [] [.text ['t']]]) (c2 := []) (.ident ?_) .zeroOrMoreNil (.refl _)) .optionalNone (.refl _)
    refine .defsChoice (d := ⟨"item".toList, .assign, itemBody, e1⟩) ?_ (List.mem_cons_self) (.choiceLeft (.element rfl (.keep .nil) (.text (by simp))))
    intro d hd; cases List.mem_singleton.mp hd; decide

def el (n : String) (p : MPattern) : MPattern := .element (.named [] n.toList) p

def item1 : MPattern := .choice [el "item" .text, el "entry" .text]
def note1 : MPattern := el "note" .text
def start1 : MPattern := el "doc" (.group [.zeroOrMore (.ref 0), .optional (.ref 1)])
def row2 : MPattern := .choice [el "entry" .text, .choice [el "item" .text]]
def start2 : MPattern := el "doc" (.group [.zeroOrMore (.ref 0), .optional (el "note" .text)])

theorem compiled1 : ∃ st, compileFile files Verif.Ex.ext 10 10 "before.rnc".toList (.fresh []) = .ok (2, st) ∧
    st.cells = [some (.assignCombine none item1), some (.assignCombine none note1), some (.assignCombine none start1), some (.assignCombine none .empty)] :=
  ⟨_, rfl, rfl⟩
theorem compiled2 : ∃ st, compileFile files Verif.Ex.ext 10 10 "after.rnc".toList (.fresh []) = .ok (1, st) ∧
    st.cells = [some (.assignCombine (some .choice) row2), some (.assignCombine none start2)] := ⟨_, rfl, rfl⟩

theorem noUse {env : Env Datatypes DatatypeValues} {p : MPattern} (h : p.refs = []) (n : Nat) : ¬ Uses env p n := by
  intro hu
  cases hu with
  | here hm => rw [h] at hm; cases hm
  | there hm => rw [h] at hm; cases hm

/-- and both are well-formed, so that the end-to-end theorem applies to them -/
theorem C80_wellFormed :
    (SchemaOK (stdLib Verif.Ex.ext) [item1, note1, start1, .empty] start1 true ∧ StartOK [item1, note1, start1, .empty] start1) ∧
    (SchemaOK (stdLib Verif.Ex.ext) [row2, start2] start2 true ∧ StartOK [row2, start2] start2) := by
  have f1 : Fresh (stdLib Verif.Ex.ext) [item1, note1, start1, .empty] 0 := by
    rintro ⟨q, hq, hu⟩
    simp only [List.getElem?_cons_zero, Option.some.injEq] at hq
    subst hq
    exact absurd hu (noUse rfl 0)
  have f2 : Fresh (stdLib Verif.Ex.ext) [row2, start2] 0 := by
    rintro ⟨q, hq, hu⟩
    simp only [List.getElem?_cons_zero, Option.some.injEq] at hq
    subst hq
    exact absurd hu (noUse rfl 0)
  refine ⟨⟨⟨fun p => p = .text ∨ p = .group [.zeroOrMore (.ref 0), .optional (.ref 1)], ?_, .element (.inr rfl)⟩, .element⟩,
    ⟨⟨fun p => p = .text ∨ p = .group [.zeroOrMore (.ref 0), .optional (el "note" .text)], ?_, .element (.inr rfl)⟩, .element⟩⟩
  · rintro p (rfl | rfl)
    · exact .text
    · refine .group (by simp) fun p hp => ?_
      simp only [List.mem_cons, List.not_mem_nil, or_false] at hp
      rcases hp with rfl | rfl
      · refine .zeroOrMore (.ref (p := item1) rfl (.choice (by simp) fun p hp => ?_) fun _ _ => f1)
          fun _ => .ref (p := item1) rfl (.free (.choice fun p hp => ?_))
        all_goals
          simp only [List.mem_cons, List.not_mem_nil, or_false] at hp
          rcases hp with rfl | rfl
        · exact .element (.inl rfl)
        · exact .element (.inl rfl)
        · exact .element
        · exact .element
      · exact .optional (.ref (p := note1) rfl (.element (.inl rfl)) nofun)
  · rintro p (rfl | rfl)
    · exact .text
    · refine .group (by simp) fun p hp => ?_
      simp only [List.mem_cons, List.not_mem_nil, or_false] at hp
      rcases hp with rfl | rfl
      · refine .zeroOrMore (.ref (p := row2) rfl (.choice (by simp) fun p hp => ?_) fun _ _ => f2)
          fun _ => .ref (p := row2) rfl (.free (.choice fun p hp => ?_))
        all_goals
          simp only [List.mem_cons, List.not_mem_nil, or_false] at hp
          rcases hp with rfl | rfl
        · exact .element (.inl rfl)
        · refine .choice (by simp) fun p hp => ?_
          simp only [List.mem_cons, List.not_mem_nil, or_false] at hp
          subst hp
          exact .element (.inl rfl)
        · exact .element
        · refine .choice fun p hp => ?_
          simp only [List.mem_cons, List.not_mem_nil, or_false] at hp
          subst hp
          exact .element
      · exact .optional (.element (.inl rfl))

def dStart : Def := ⟨"start".toList, .assign, elem "doc" (.zeroOrMore (.ident "item".toList)), rfl⟩
def dItem : Def := ⟨"item".toList, .assign, elem "item" .text, rfl⟩
def dMore : Def := ⟨"item".toList, .choice, elem "entry" .text, rfl⟩

def oneFile : Files := ⟨fun _ => .ok ⟨[], .grammar ([dStart, dItem, dMore].map Def.item)⟩, fun _ p => some p⟩
def reordered : Files := ⟨fun _ => .ok ⟨[], .grammar ([dMore, dStart, dItem].map Def.item)⟩, fun _ p => some p⟩
def twoFiles : Files where
  load f := if f = "m".toList then .ok ⟨[], .grammar (.include "i".toList none [] :: [dMore].map Def.item)⟩
    else .ok ⟨[], .grammar ([dItem, dStart].map Def.item)⟩
  join _ p := some p

theorem C80_cases (node : Node) : (SchemaMatches oneFile x "m".toList node ↔ SchemaMatches reordered x "m".toList node) ∧
    (SchemaMatches oneFile x "m".toList node ↔ SchemaMatches twoFiles x "m".toList node) :=
  ⟨C80_reordering (ds := [dStart, dItem, dMore]) (ds' := [dMore, dStart, dItem])
      ((List.Perm.cons _ (List.Perm.swap ..)).trans (List.Perm.swap ..)) rfl rfl node,
   C80_moving_to_an_included_file (ds := [dStart, dItem, dMore]) (ds1 := [dItem, dStart]) (ds2 := [dMore]) (path := "i".toList) (inc := "i".toList)
      (List.Perm.swap ..) rfl rfl rfl rfl node⟩

end Ex

end Verif.Refac
