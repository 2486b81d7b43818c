import Verif.Spec.Translate
import Verif.Proof.XmlLeaf
/-
The translation into the XML syntax says the same.
-/
namespace Verif.ToXml
open Verif Verif.XS Verif.Rng
variable {ok : Str → Prop} {cx : Anc} {e : NEnv}

theorem has (k : String) (v : Str) (as : List TAttr) : HasAttr k.toList (att k v :: as) v := ⟨[], as, rfl, fun _ h => nomatch h⟩

theorem has2 {k k' : String} {v v' : Str} (as : List TAttr) (h : k.toList ≠ k'.toList) : HasAttr k'.toList (att k v :: att k' v' :: as) v' :=
  ⟨[att k v], as, rfl, fun a ha _ => by rcases List.mem_singleton.1 ha with rfl; exact h⟩

theorem hasFun {k : Str} {as : List TAttr} {v v' : Str} (h : HasAttr k as v) (h' : HasAttr k as v') : v = v' := by
  obtain ⟨pre, post, e1, n1⟩ := h
  obtain ⟨pre', post', e2, n2⟩ := h'
  subst e1
  rcases List.append_eq_append_iff.1 e2 with ⟨l, h1, h2⟩ | ⟨l, h1, h2⟩
  · cases l with
    | nil => simp only [List.nil_append, List.cons.injEq, TAttr.mk.injEq] at h2; exact h2.1.2.2
    | cons a l =>
      simp only [List.cons_append, List.cons.injEq] at h2
      refine absurd rfl (n2 ⟨none, k, v⟩ ?_ rfl)
      rw [h1, h2.1]
      exact List.mem_append_right _ (.head _)
  · cases l with
    | nil => simp only [List.nil_append, List.cons.injEq, TAttr.mk.injEq] at h2; exact h2.1.2.2.symm
    | cons a l =>
      simp only [List.cons_append, List.cons.injEq] at h2
      refine absurd rfl (n1 ⟨none, k, v'⟩ ?_ rfl)
      rw [h1, h2.1]
      exact List.mem_append_right _ (.head _)

theorem noAttr_nil (k : Str) : NoAttr k [] := fun _ h => nomatch h
theorem noAttr_cons {k : Str} {k' : String} {v : Str} {as : List TAttr} (h : k'.toList ≠ k) (ha : NoAttr k as) : NoAttr k (att k' v :: as) := by
  intro a hm
  rcases List.mem_cons.1 hm with rfl | hm
  · exact fun _ => h
  · exact ha a hm
theorem noHas {k : Str} {as : List TAttr} (h : NoAttr k as) {v : Str} : ¬ HasAttr k as v := fun ⟨pre, post, e, _⟩ =>
  h ⟨none, k, v⟩ (by rw [e]; exact List.mem_append_right _ (.head _)) rfl rfl

theorem libOk_of {as : List TAttr} (h : NoAttr "datatypeLibrary".toList as) : LibOk ok as := fun _ hv => absurd hv (noHas h)
theorem only_nil (l : List Str) : OnlyAttrs l [] := fun _ h => nomatch h

theorem base_cons {as : List TAttr} (h : Base cx none) (ha : ∀ a ∈ as, a.ns = none) : Base (as :: cx) none :=
  .inherit (fun a hm hx => by rw [ha a hm] at hx; cases hx) h
theorem base_nil (h : Base cx none) : Base ([] :: cx) none := base_cons h fun _ h => nomatch h

theorem noRng_nil : NoRng [] := fun _ h => nomatch h

/-! ### name classes -/

theorem name_elem {u n : Str} (hn : Plain n) : Nc cx b (elem "name" [att "ns" u] [.text n]) (.namespaced u n) :=
  .name (.plain (fun _ h => nomatch h) hn (.here (has "ns" u [])))

/-- the translation is read as a name class that means the same, whatever the prefixes -/
theorem nc_ok : ∀ {c : SNameClass} {cx : Anc} {b : Bool}, NcOk e b c → ∃ c' k, Nc cx b (nc e c) c' ∧ e.name c = some k ∧ ∀ e' : NEnv, e'.name c' = some k
  | .ident n, _, _, h => ⟨_, _, name_elem h, rfl, fun _ => rfl⟩
  | .cname p l, cx, b, h => by
    obtain ⟨u, hu⟩ := Option.isSome_iff_exists.mp h.1
    refine ⟨.namespaced u l, .named u l, ?_, ?_, fun _ => rfl⟩
    · unfold nc; rw [hu]; exact name_elem h.2
    · unfold NEnv.name; rw [hu]; rfl
  | .namespaced u l, _, _, h => ⟨_, _, name_elem h, rfl, fun _ => rfl⟩
  | .nsName n, cx, b, h => by
    obtain ⟨u, hu⟩ := Option.isSome_iff_exists.mp h
    refine ⟨.nsName (.uri u), .nsName u, ?_, ?_, fun _ => rfl⟩
    · unfold nc; rw [hu]; exact .nsName (.here (has "ns" u [])) noRng_nil
    · unfold NEnv.name; rw [hu]; rfl
  | .nsNameExcept n ex, cx, b, h => by
    obtain ⟨u, hu⟩ := Option.isSome_iff_exists.mp h.1
    obtain ⟨c', k, h1, h2, h3⟩ := nc_ok (cx := [] :: [att "ns" u] :: cx) h.2
    refine ⟨.nsNameExcept (.uri u) c', .nsNameExcept u k, ?_, ?_, fun e' => ?_⟩
    · unfold nc; rw [hu]
      exact .nsNameExcept (.here (has "ns" u [])) (.mk (pre := []) (post := []) noRng_nil noRng_nil (.cons h1 .nil) .one)
    · unfold NEnv.name; rw [hu, h2]
    · unfold NEnv.name; rw [h3]; rfl
  | .anyName, cx, b, h => by
    have h : b = false := h
    subst h
    exact ⟨.anyName, .anyName, .anyName noRng_nil, rfl, fun _ => rfl⟩
  | .anyNameExcept ex, cx, b, h => by
    obtain ⟨hb, hx⟩ := (show b = false ∧ NcOk e true ex from h)
    subst hb
    obtain ⟨c', k, h1, h2, h3⟩ := nc_ok (cx := [] :: [] :: cx) hx
    refine ⟨.anyNameExcept c', .anyNameExcept k, ?_, ?_, fun e' => ?_⟩
    · exact .anyNameExcept (.mk (pre := []) (post := []) noRng_nil noRng_nil (.cons h1 .nil) .one)
    · unfold NEnv.name; rw [h2]; rfl
    · unfold NEnv.name; rw [h3]; rfl
  | .alt c d, cx, b, h => by
    obtain ⟨c', k, h1, h2, h3⟩ := nc_ok (cx := [] :: cx) h.1
    obtain ⟨d', j, g1, g2, g3⟩ := nc_ok (cx := [] :: cx) h.2
    refine ⟨.alt c' d', .alt k j, .choice (.cons h1 (.cons g1 .nil)) (.more (as := [c']) .one), ?_, fun e' => ?_⟩
    · unfold NEnv.name; rw [h2, g2]
    · unfold NEnv.name; rw [h3, g3]
  | .paren c, cx, b, h => by
    obtain ⟨c', k, h1, h2, h3⟩ := nc_ok (c := c) (cx := cx) (b := b) h
    exact ⟨c', k, h1, h2, h3⟩

/-! ### datatypes -/

theorem dt_canon {t : SDtName} {n : DtName} (h : e.dt t = some n) : n.canon = .cname (library e t).1 (library e t).2 := by
  cases t with
  | string => cases h; rfl
  | token => cases h; rfl
  | namespaced u n => cases h; rfl
  | cname p n =>
    have h' : (e.dts.lookup p).map (fun u => DtName.cname u n) = some _ := h
    show _ = DtName.cname ((e.dts.lookup p).getD []) n
    obtain ⟨u, hu, rfl⟩ := Option.map_eq_some_iff.1 h'
    rw [hu]
    rfl

theorem dt_alike {t : SDtName} (h : DtOk ok e t) (e' : NEnv) : AlikeDt e e' t (.namespaced (library e t).1 (library e t).2) := by
  obtain ⟨n, hn⟩ := Option.isSome_iff_exists.mp h.1
  exact ⟨n, _, hn, rfl, dt_canon hn⟩

theorem dtAtts_type (t : SDtName) : HasAttr "type".toList (dtAtts e t) (library e t).2 := has _ _ _
theorem dtAtts_lib (t : SDtName) : HasAttr "datatypeLibrary".toList (dtAtts e t) (library e t).1 := has2 _ (by decide)
theorem dtAtts_libOk {t : SDtName} (h : DtOk ok e t) : LibOk ok (dtAtts e t) := fun v hv => by
  rw [hasFun hv (dtAtts_lib t)]
  exact h.2.2
theorem dtAtts_only (t : SDtName) : OnlyAttrs ["type".toList, "datatypeLibrary".toList] (dtAtts e t) := by
  intro a ha _
  rcases List.mem_cons.1 ha with rfl | ha
  · exact .head _
  · rcases List.mem_singleton.1 ha with rfl
    exact .tail _ (.head _)
theorem dtAtts_base {t : SDtName} (h : Base cx none) : Base (dtAtts e t :: cx) none := base_cons h fun a ha => by
  rcases List.mem_cons.1 ha with rfl | ha
  · rfl
  · rcases List.mem_singleton.1 ha with rfl
    rfl

theorem data_type {t : SDtName} {ps : List Param} (h : DataOk ok e t ps) : ∃ t', DataType (dtAtts e t :: cx) (dtAtts e t) t' ∧ ∀ e', AlikeDt e e' t t' := by
  by_cases ht : (library e t).2 = "token".toList
  · refine ⟨.token, .token (dtAtts_type t) ?_, fun e' => ?_⟩
    · have := h.1.2.1.1
      rwa [ht] at this ⊢
    · obtain ⟨n, hn⟩ := Option.isSome_iff_exists.mp h.1.1
      refine ⟨n, .token, hn, rfl, ?_⟩
      rw [dt_canon hn, ht, h.2.1 ht]
      rfl
  · exact ⟨_, .other (dtAtts_type t) h.1.2.1 ht (.here (dtAtts_lib t)), dt_alike h.1⟩

theorem params_ok : ∀ {ps : List Param}, (∀ p ∈ ps, Plain p.name ∧ p.value ≠ []) → Params (ps.map param) ps
  | [], _ => .nil
  | p :: ps, h => by
    have hp := h p (.head _)
    refine .cons (has "name" p.name []) hp.1 ?_ (params_ok fun q hq => h q (.tail _ hq))
    unfold chars
    rw [if_neg hp.2]
    exact .text

theorem combine_ok (how : AssignMethod) : Combine (combine how) how := by
  cases how with
  | assign => exact .none (noAttr_nil _)
  | choice => exact .choice (has _ _ _) (trim_iff.1 (by decide))
  | interleave => exact .interleave (has _ _ _) (trim_iff.1 (by decide))

theorem combine_att (id : Str) (how : AssignMethod) : Combine (att "name" id :: combine how) how := by
  cases how with
  | assign => exact .none (noAttr_cons (by decide) (noAttr_nil _))
  | choice => exact .choice (has2 [] (by decide)) (trim_iff.1 (by decide))
  | interleave => exact .interleave (has2 [] (by decide)) (trim_iff.1 (by decide))

theorem combine_only (how : AssignMethod) : OnlyAttrs ["combine".toList] (combine how) := by
  intro a ha _
  cases how with
  | assign => cases ha
  | choice => rcases List.mem_singleton.1 ha with rfl; exact .head _
  | interleave => rcases List.mem_singleton.1 ha with rfl; exact .head _

theorem combine_base {how : AssignMethod} {as : List TAttr} (h : Base cx none) (ha : ∀ a ∈ as, a.ns = none) : Base ((as ++ combine how) :: cx) none := by
  refine base_cons h fun a hm => ?_
  rcases List.mem_append.1 hm with hm | hm
  · exact ha a hm
  · cases how with
    | assign => cases hm
    | choice => rcases List.mem_singleton.1 hm with rfl; rfl
    | interleave => rcases List.mem_singleton.1 hm with rfl; rfl

/-! ### patterns -/

section
variable (ok)
/-- what is claimed of one pattern -/
abbrev Tells (cx : Anc) (e : NEnv) (p : SPattern) : Prop := ∃ p', Rng.Pat ok Href cx (pat e p) p' ∧ ∀ e', AlikePat e e' p p'
end

theorem pats1 {cx : Anc} {n : TNode} {p : SPattern} (h : Rng.Pat ok Href cx n p) : Pats ok Href cx [n] [p] := .cons h .nil
theorem pats2 {cx : Anc} {n m : TNode} {p q : SPattern} (h : Rng.Pat ok Href cx n p) (h' : Rng.Pat ok Href cx m q) : Pats ok Href cx [n, m] [p, q] :=
  .cons h (.cons h' .nil)
theorem joined2 {op : SPattern → SPattern → SPattern} {p q : SPattern} : Joined op [p, q] (op p q) := .more (as := [p]) .one

theorem alike_op2 {e e' : NEnv} (o : SOp) {p q p' q' : SPattern} (h : AlikePat e e' p p') (h' : AlikePat e e' q q') :
    AlikePat e e' (o.mk p q) (o.mk p' q') :=
  .op (.op .one .one) (.op .one .one) (Nat.le_refl 2) (.cons h (.cons h' .nil))

mutual
theorem pat_ok : ∀ (p : SPattern) {cx : Anc} {e : NEnv}, PatOk ok e p → Base cx none → Tells ok cx e p
  | .element c p, cx, e, h, hb => by
    obtain ⟨c', k, h1, h2, h3⟩ := nc_ok (cx := [] :: cx) h.1
    obtain ⟨p', g1, g2⟩ := pat_ok p h.2 (base_nil hb)
    exact ⟨.element c' p', .mk (libOk_of (noAttr_nil _)) (.elementNc (pre := []) (only_nil _) (noAttr_nil _) noRng_nil h1 (pats1 g1) .one),
      fun e' => .element ⟨k, h2, h3 e'⟩ (g2 e')⟩
  | .attribute c p, cx, e, h, hb => by
    obtain ⟨c', k, h1, h2, h3⟩ := nc_ok (cx := [] :: cx) h.1
    obtain ⟨p', g1, g2⟩ := pat_ok p h.2 (base_nil hb)
    exact ⟨.attribute c' p', .mk (libOk_of (noAttr_nil _)) (.attributeNc (pre := []) (only_nil _) (noAttr_nil _) noRng_nil h1 (pats1 g1) .one),
      fun e' => .attribute ⟨k, h2, h3 e'⟩ (g2 e')⟩
  | .list p, cx, e, h, hb => by
    obtain ⟨p', g1, g2⟩ := pat_ok p (e := e) h (base_nil hb)
    exact ⟨_, .mk (libOk_of (noAttr_nil _)) (.list (pats1 g1) .one), fun e' => .list (g2 e')⟩
  | .mixed p, cx, e, h, hb => by
    obtain ⟨p', g1, g2⟩ := pat_ok p (e := e) h (base_nil hb)
    exact ⟨_, .mk (libOk_of (noAttr_nil _)) (.mixed (pats1 g1) .one), fun e' => .mixed (g2 e')⟩
  | .ident id, cx, e, h, hb => ⟨_, .mk (libOk_of (noAttr_cons (by decide) (noAttr_nil _))) (.ref (.mk (has _ _ _) h noRng_nil)), fun _ => .ident⟩
  | .parent id, cx, e, h, hb => ⟨_, .mk (libOk_of (noAttr_cons (by decide) (noAttr_nil _))) (.parentRef (.mk (has _ _ _) h noRng_nil)), fun _ => .parent⟩
  | .empty, cx, e, h, hb => ⟨_, .mk (libOk_of (noAttr_nil _)) (.empty (only_nil _) noRng_nil), fun _ => .empty⟩
  | .text, cx, e, h, hb => ⟨_, .mk (libOk_of (noAttr_nil _)) (.text (only_nil _) noRng_nil), fun _ => .text⟩
  | .notAllowed, cx, e, h, hb => ⟨_, .mk (libOk_of (noAttr_nil _)) (.notAllowed (only_nil _) noRng_nil), fun _ => .notAllowed⟩
  | .external _ _, _, _, h, _ => absurd h id
  | .grammar is, cx, e, h, hb => by
    obtain ⟨is', g1, g2⟩ := items_ok is (e := e) h (base_nil hb)
    exact ⟨_, .mk (libOk_of (noAttr_nil _)) (.grammar g1), fun e' => .grammar (g2 e')⟩
  | .paren p, cx, e, h, hb => by
    obtain ⟨p', g1, g2⟩ := pat_ok p (e := e) h hb
    exact ⟨p', g1, fun e' => .parenLeft (g2 e')⟩
  | .seq p q, cx, e, h, hb => by
    obtain ⟨p', g1, g2⟩ := pat_ok p (e := e) h.1 (base_nil hb)
    obtain ⟨q', k1, k2⟩ := pat_ok q (e := e) h.2 (base_nil hb)
    exact ⟨_, .mk (libOk_of (noAttr_nil _)) (.group (pats2 g1 k1) joined2), fun e' => .parenRight (alike_op2 .seq (g2 e') (k2 e'))⟩
  | .inter p q, cx, e, h, hb => by
    obtain ⟨p', g1, g2⟩ := pat_ok p (e := e) h.1 (base_nil hb)
    obtain ⟨q', k1, k2⟩ := pat_ok q (e := e) h.2 (base_nil hb)
    exact ⟨_, .mk (libOk_of (noAttr_nil _)) (.interleave (pats2 g1 k1) joined2), fun e' => alike_op2 .inter (g2 e') (k2 e')⟩
  | .choice p q, cx, e, h, hb => by
    obtain ⟨p', g1, g2⟩ := pat_ok p (e := e) h.1 (base_nil hb)
    obtain ⟨q', k1, k2⟩ := pat_ok q (e := e) h.2 (base_nil hb)
    exact ⟨_, .mk (libOk_of (noAttr_nil _)) (.choice (pats2 g1 k1) joined2), fun e' => alike_op2 .choice (g2 e') (k2 e')⟩
  | .optional p, cx, e, h, hb => by
    obtain ⟨p', g1, g2⟩ := pat_ok p (e := e) h (base_nil hb)
    exact ⟨_, .mk (libOk_of (noAttr_nil _)) (.optional (pats1 g1) .one), fun e' => .optional (g2 e')⟩
  | .zeroOrMore p, cx, e, h, hb => by
    obtain ⟨p', g1, g2⟩ := pat_ok p (e := e) h (base_nil hb)
    exact ⟨_, .mk (libOk_of (noAttr_nil _)) (.zeroOrMore (pats1 g1) .one), fun e' => .zeroOrMore (g2 e')⟩
  | .oneOrMore p, cx, e, h, hb => by
    obtain ⟨p', g1, g2⟩ := pat_ok p (e := e) h (base_nil hb)
    exact ⟨_, .mk (libOk_of (noAttr_nil _)) (.oneOrMore (pats1 g1) .one), fun e' => .oneOrMore (g2 e')⟩
  | .value none s, cx, e, h, hb => by
    refine ⟨.value none s, .mk (libOk_of (noAttr_nil _)) ?_, fun e' => .value ⟨.token, .token, rfl, rfl, rfl⟩⟩
    unfold chars
    split
    · rename_i h; subst h
      exact .valueEmpty (.none (noAttr_nil _))
    · exact .value (fun k hk ⟨_, _, _, _, _, hx⟩ => by rcases List.mem_singleton.1 hk with rfl; cases hx) (.none (noAttr_nil _)) .text
  | .value (some t) s, cx, e, h, hb => by
    have ht : ValueType (dtAtts e t :: cx) (dtAtts e t) (some (.namespaced (library e t).1 (library e t).2)) :=
      .some (dtAtts_type t) (show DtOk ok e t from h).2.1 (.here (dtAtts_lib t))
    refine ⟨.value (some (.namespaced (library e t).1 (library e t).2)) s, .mk (dtAtts_libOk h) ?_, fun e' => .value (dt_alike h e')⟩
    unfold chars
    split
    · rename_i h; subst h
      exact .valueEmpty ht
    · exact .value (fun k hk ⟨_, _, _, _, _, hx⟩ => by rcases List.mem_singleton.1 hk with rfl; cases hx) ht .text
  | .data t ps, cx, e, h, hb => by
    obtain ⟨t', h1, h2⟩ := data_type (cx := cx) h
    exact ⟨.data t' ps, .mk (dtAtts_libOk (show DataOk ok e t ps from h).1) (.data (dtAtts_only t) h1 (params_ok (show DataOk ok e t ps from h).2.2)), fun e' => .data (h2 e')⟩
  | .dataExcept t ps p, cx, e, h, hb => by
    obtain ⟨t', h1, h2⟩ := data_type (cx := cx) h.1
    obtain ⟨p', g1, g2⟩ := pat_ok p (e := e) h.2 (base_nil (dtAtts_base (e := e) (t := t) hb))
    exact ⟨.dataExcept t' ps p', .mk (dtAtts_libOk h.1.1) (.dataExcept (dtAtts_only t) h1 (params_ok h.1.2.2) (pats1 g1) .one noRng_nil),
      fun e' => .dataExcept (h2 e') (g2 e')⟩
theorem items_ok : ∀ (is : List SItem) {cx : Anc} {e : NEnv}, ItemsOk ok e is → Base cx none →
    ∃ is', Items ok Href cx (items e is) is' ∧ ∀ e', AlikeItems e e' is is'
  | [], _, _, _, _ => ⟨[], .nil, fun _ => .nil⟩
  | .annotation :: is, cx, e, h, hb => by
    obtain ⟨is', g1, g2⟩ := items_ok is (e := e) h.2 hb
    exact ⟨is', g1, fun e' => .annotationLeft (g2 e')⟩
  | .define id how p :: is, cx, e, h, hb => by
    obtain ⟨is', g1, g2⟩ := items_ok is (e := e) h.2 hb
    have : ∃ p', Item ok Href cx (definition id how (pat e p)) (.define id how p') ∧ ∀ e', AlikePat e e' p p' := by
      unfold definition
      split
      · rename_i hs
        subst hs
        obtain ⟨p', k1, k2⟩ := pat_ok p (e := e) h.1.2 (combine_base (as := []) (how := how) hb fun _ h => nomatch h)
        exact ⟨p', .start (combine_ok how) (combine_only how) (pats1 k1), k2⟩
      · obtain ⟨p', k1, k2⟩ := pat_ok p (e := e) h.1.2 (combine_base (as := [att "name" id]) (how := how) hb fun a ha => by
          rcases List.mem_singleton.1 ha with rfl; rfl)
        exact ⟨p', .define (combine_att id how) (has _ _ _) h.1.1 (pats1 k1) .one, k2⟩
    obtain ⟨p', k1, k2⟩ := this
    exact ⟨_, .cons k1 g1, fun e' => .cons (.define (k2 e')) (g2 e')⟩
  | .div js :: is, cx, e, h, hb => by
    obtain ⟨is', g1, g2⟩ := items_ok is (e := e) h.2 hb
    obtain ⟨js', k1, k2⟩ := items_ok js (e := e) h.1 (base_nil hb)
    exact ⟨_, .cons (.div k1) g1, fun e' => .cons (.div (k2 e')) (g2 e')⟩
  | .include path inh os :: is, cx, e, h, hb => by
    obtain ⟨is', g1, g2⟩ := items_ok is (e := e) h.2 hb
    have hb' : Base ([att "href" path] :: cx) none := base_cons hb fun a ha => by rcases List.mem_singleton.1 ha with rfl; rfl
    obtain ⟨hi, ho⟩ := (show inh = none ∧ OverridesOk ok e.inOverride os from h.1)
    subst hi
    obtain ⟨os', k1, k2⟩ := overrides_ok os (e := e.inOverride) ho hb'
    exact ⟨_, .cons (.include (has _ _ _) (.plain hb') k1) g1, fun e' => .cons (.include (k2 e'.inOverride)) (g2 e')⟩
theorem overrides_ok : ∀ (os : List SOverride) {cx : Anc} {e : NEnv}, OverridesOk ok e os → Base cx none →
    ∃ os', Overrides ok Href cx (overrides e os) os' ∧ ∀ e', AlikeOverrides e e' os os'
  | [], _, _, _, _ => ⟨[], .nil, fun _ => .nil⟩
  | .annotation :: os, cx, e, h, hb => by
    obtain ⟨os', g1, g2⟩ := overrides_ok os (e := e) h.2 hb
    exact ⟨os', g1, fun e' => .annotationLeft (g2 e')⟩
  | .div :: os, cx, e, h, hb => by
    obtain ⟨os', g1, g2⟩ := overrides_ok os (e := e) h.2 hb
    exact ⟨_, .cons (.div .nil) g1, fun e' => .div (g2 e')⟩
  | .define id how p :: os, cx, e, h, hb => by
    obtain ⟨os', g1, g2⟩ := overrides_ok os (e := e) h.2 hb
    have : ∃ p', Override ok Href cx (definition id how (pat e p)) (.define id how p') ∧ ∀ e', AlikePat e e' p p' := by
      unfold definition
      split
      · rename_i hs
        subst hs
        obtain ⟨p', k1, k2⟩ := pat_ok p (e := e) h.1.2 (combine_base (as := []) (how := how) hb fun _ h => nomatch h)
        exact ⟨p', .start (combine_ok how) (combine_only how) (pats1 k1), k2⟩
      · obtain ⟨p', k1, k2⟩ := pat_ok p (e := e) h.1.2 (combine_base (as := [att "name" id]) (how := how) hb fun a ha => by
          rcases List.mem_singleton.1 ha with rfl; rfl)
        exact ⟨p', .define (combine_att id how) (has _ _ _) h.1.1 (pats1 k1) .one, k2⟩
    obtain ⟨p', k1, k2⟩ := this
    exact ⟨_, .cons k1 g1, fun e' => .define (k2 e') (g2 e')⟩
end

theorem declsOk_nil : DeclsOk [] := ⟨fun _ h => (nomatch h), by decide⟩

theorem schema_ok {f : Str} {s : SSchema} (h : SchemaOk ok f s) : ∃ s', Rng.Schema ok Href (schema f s) s' ∧ AlikeSchema f s s' := by
  obtain ⟨ds, body⟩ := s
  have hb := h.body
  cases body with
  | grammar is =>
    obtain ⟨is', h1, h2⟩ := items_ok is hb (base_nil .none)
    exact ⟨_, .grammar h1, h.decls, declsOk_nil, .grammar (h2 _)⟩
  | pattern p =>
    obtain ⟨p', h1, h2⟩ := pat_ok p hb.1 (base_nil .none)
    exact ⟨_, .pattern (by decide) (.mk (libOk_of (noAttr_nil _)) (.group (pats1 h1) .one)), h.decls, declsOk_nil,
      .pattern (.parenRight (h2 _)) hb.2 (fun is h => nomatch h)⟩

end Verif.ToXml
