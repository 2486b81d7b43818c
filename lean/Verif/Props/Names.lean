import Verif.Props.Store
import Verif.Spec.Xml
/-
C14, C15, C47: namespaces, and the end of the document.
-/
namespace Verif
variable {D V : Type} [DecidableEq D] [DecidableEq V] {L : Lib D V} {n : Nat}

/-! ### the stack follows the tokens -/

/-- what a token does to the element stack -/
def stackTok (st : ElementStack) : Token → ElementStack
  | .elementStart p l => ⟨p, l, [], []⟩ :: st
  | .attribute p l v =>
    match st with
    | [] => []
    | e :: es => e.addAttr p l v :: es
  | _ => st

theorem validate_stack {t : Token} {s s' : VState D V} {r} (h : validate L n t s = .ok (r, s')) :
    s'.stack = stackTok s.stack t := by
  have hst := validate_step L h
  by_cases h1 : (∀ a l, t ≠ .elementStart a l) ∧ (∀ a l v, t ≠ .attribute a l v)
  · rw [hst.stack h1.1 h1.2]
    cases t with
    | elementStart a l => exact absurd rfl (h1.1 a l)
    | «attribute» a l v => exact absurd rfl (h1.2 a l v)
    | _ => rfl
  · simp only [validate, ST.bind_ok] at h
    obtain ⟨_, _, e1, p, s1, e2, h⟩ := h
    cases e1
    obtain ⟨_, rfl⟩ := liftS_patt e2
    cases t with
    | elementStart a l =>
      simp only [ST.bind_ok] at h
      obtain ⟨_, _, e3, h⟩ := h
      cases e3; cases h; rfl
    | «attribute» a l v =>
      cases hs : s1.stack with
      | nil => simp only [hs] at h; cases h
      | cons e es =>
        simp only [hs, ST.bind_ok] at h
        obtain ⟨_, _, e3, h⟩ := h
        cases e3; cases h; rfl
    | _ => exact absurd ⟨nofun, nofun⟩ h1

theorem runToks_stack : ∀ {ts : List Token} {s s' : VState D V}, runToks L n ts s = .ok (.ok (), s') →
    s'.stack = ts.foldl stackTok s.stack
  | [], s, s', h => by cases h; rfl
  | t :: ts, s, s', h => by
    simp only [runToks, ST.bind_ok] at h
    obtain ⟨r, s1, h1, h⟩ := h
    cases r with
    | error e => cases h
    | ok u => rw [List.foldl_cons, ← validate_stack h1]; exact runToks_stack h

/-- what an item does to the element stack -/
def stackEvent (st : ElementStack) : Event → ElementStack
  | some t => stackTok st t
  | none => st

theorem runEvents_stack : ∀ {es : List Event} {s s' : VState D V} {rs}, runEvents L n es s = .ok (rs, s') →
    s'.stack = es.foldl stackEvent s.stack
  | [], s, s', rs, h => by cases h; rfl
  | e :: es, s, s', rs, h => by
    simp only [runEvents, ST.bind_ok] at h
    obtain ⟨r, s1, h1, rs', s2, h2, h⟩ := h
    cases h
    rw [List.foldl_cons, runEvents_stack h2]
    congr 1
    cases e with
    | none => cases h1; rfl
    | some t => exact validate_stack h1

theorem foldl_atts : ∀ (atts : List RawAttr) (e : ElementState) (st : ElementStack),
    (atts.map RawAttr.tok).foldl stackTok (e :: st) =
      (atts.foldl (fun e a => e.addAttr a.pre a.loc a.value) e) :: st
  | [], e, st => rfl
  | a :: atts, e, st => by
    simp only [List.map_cons, List.foldl_cons]
    exact foldl_atts atts _ st

theorem foldl_start (pre loc : Str) (atts : List RawAttr) (st : ElementStack) :
    (startToks pre loc atts).foldl stackTok st = elemState pre loc atts :: st := by
  unfold startToks
  rw [List.foldl_cons]
  simp only [stackTok]
  rw [foldl_atts, addAtts]
  simp [elemState]

mutual
theorem foldl_node : ∀ (x : XNode) (st : ElementStack), ∃ y, x.toks.foldl stackTok st = y ++ st ∧
    ∀ e ∈ y, ∀ d ∈ e.namespaces, d ∈ nsDecls x.allAtts
  | .text s, st => ⟨[], rfl, nofun⟩
  | .cdata s, st => ⟨[], rfl, nofun⟩
  | .comment, st => ⟨[], rfl, nofun⟩
  | .pi, st => ⟨[], rfl, nofun⟩
  | .elem pre loc atts true kids, st => by
    refine ⟨[elemState pre loc atts], ?_, ?_⟩
    · have : (XNode.elem pre loc atts true kids).toks = startToks pre loc atts ++ [.elementEnd .empty] := by
        simp [XNode.toks, startToks]
      rw [this, List.foldl_append, foldl_start]
      rfl
    · intro e he d hd
      simp at he; subst he
      simp only [XNode.allAtts, nsDecls_append, List.mem_append]
      exact Or.inl hd
  | .elem pre loc atts false kids, st => by
    obtain ⟨y, h1, h2⟩ := foldl_nodes kids (elemState pre loc atts :: st)
    refine ⟨y ++ [elemState pre loc atts], ?_, ?_⟩
    · have : (XNode.elem pre loc atts false kids).toks = startToks pre loc atts ++
          ([.elementEnd .open] ++ (toksL kids ++ [.elementEnd (.close pre loc)])) := by
        simp [XNode.toks, startToks]
      rw [this, List.foldl_append, foldl_start, List.foldl_append, List.foldl_append]
      simp only [List.foldl_cons, List.foldl_nil, stackTok]
      rw [h1]; simp
    · intro e he d hd
      simp only [XNode.allAtts, nsDecls_append, List.mem_append]
      rcases List.mem_append.mp he with he | he
      · exact Or.inr (h2 e he d hd)
      · simp at he; subst he; exact Or.inl hd
theorem foldl_nodes : ∀ (xs : List XNode) (st : ElementStack), ∃ y, (toksL xs).foldl stackTok st = y ++ st ∧
    ∀ e ∈ y, ∀ d ∈ e.namespaces, d ∈ nsDecls (allAttsL xs)
  | [], st => ⟨[], rfl, nofun⟩
  | x :: xs, st => by
    obtain ⟨y, h1, h2⟩ := foldl_node x st
    obtain ⟨z, h3, h4⟩ := foldl_nodes xs (y ++ st)
    refine ⟨z ++ y, ?_, ?_⟩
    · simp only [toksL, List.foldl_append, h1, h3, List.append_assoc]
    · intro e he d hd
      simp only [allAttsL, nsDecls_append, List.mem_append]
      rcases List.mem_append.mp he with he | he
      · exact Or.inr (h4 e he d hd)
      · exact Or.inl (h2 e he d hd)
end

theorem lookupNs_skip {p : Str} : ∀ {y st : ElementStack}, (∀ e ∈ y, ∀ d ∈ e.namespaces, d.1 ≠ p) →
    lookupNs (y ++ st) p = lookupNs st p
  | [], st, _ => rfl
  | e :: y, st, h => by
    simp only [List.cons_append, lookupNs]
    have : e.lookup p = none := by
      cases hl : e.lookup p with
      | none => rfl
      | some u => exact absurd rfl (h e (by simp) _ (lookup_mem hl))
    rw [this]
    exact lookupNs_skip fun e he => h e (by simp [he])

theorem lookupNs_cons {p : Str} {e : ElementState} {st : ElementStack} :
    lookupNs (e :: st) p = (e.namespaces.lookup p).or (lookupNs st p) := by
  simp only [lookupNs, ElementState.lookup]
  cases e.namespaces.lookup p <;> rfl

/-- the declarations in scope are found, nearest first -/
theorem lookupNs_open {p : Str} : ∀ (os : List OpenElem) (st : ElementStack),
    (∀ o ∈ os, ∀ d ∈ nsDecls (allAttsL o.done), d.1 ≠ p) →
    lookupNs ((openToks os).foldl stackTok st) p = ((openScope os).lookup p).or (lookupNs st p)
  | [], st, _ => by simp [openToks, openScope]
  | o :: os, st, h => by
    have e : openToks (o :: os) = startToks o.pre o.loc o.atts ++ ([.elementEnd .open] ++ (toksL o.done ++ openToks os)) := by
      simp [openToks, startToks]
    obtain ⟨y, h1, h2⟩ := foldl_nodes o.done (elemState o.pre o.loc o.atts :: st)
    rw [e, List.foldl_append, foldl_start, List.foldl_append, List.foldl_append]
    simp only [List.foldl_cons, List.foldl_nil, stackTok]
    rw [h1, lookupNs_open os _ fun o' ho' => h o' (by simp [ho'])]
    rw [lookupNs_skip (fun e he d hd => h o (by simp) d (h2 e he d hd)), lookupNs_cons]
    simp only [openScope, elemState]
    have key : ∀ (a b : List (Str × Str)), (a ++ b).lookup p = (a.lookup p).or (b.lookup p) := by
      intro a b
      induction a with
      | nil => simp
      | cons x a ih =>
        obtain ⟨k, v⟩ := x
        simp only [List.cons_append, List.lookup_cons, ih]
        split <;> simp
    rw [key, Option.or_assoc]

/-! ### C14 -/

/-- C14, element names: a prefix resolves to its nearest declaration in the element itself and the
elements it is in.  Missing from the full statement: elements completed before (among the contents
so far) must not have declared the prefix (`hdone`); the default namespace (the code ignores it);
the predeclared prefix `xml` (the code has it undeclared). -/
theorem C14_element_prefix_partial {env : Env D V} {fuel : Nat} {start : Pattern D V} {s0 s : VState D V}
    {os : List OpenElem} {pre loc : Str} {atts : List RawAttr}
    (hnew : newValidator env fuel start = .ok s0)
    (hrun : runToks L n (openToks os ++ startToks pre loc atts) s0 = .ok (.ok (), s)) (hpre : pre ≠ [])
    (hdone : ∀ o ∈ os, ∀ d ∈ nsDecls (allAttsL o.done), d.1 ≠ pre) :
    currentElement s.stack = some (match elemName (nsDecls atts ++ openScope os) pre loc with
      | some q => .ok q
      | none => .error (.undefinedNamespacePrefix pre)) := by
  have hst := runToks_stack hrun
  rw [(newValidator_last hnew).2.1, List.foldl_append, foldl_start] at hst
  rw [hst]
  have hl : lookupNs (elemState pre loc atts :: (openToks os).foldl stackTok []) pre =
      (nsDecls atts ++ openScope os).lookup pre := by
    rw [lookupNs_cons, lookupNs_open os [] hdone, lookupNs, lookup_append']
    simp [elemState]
  have e1 : (elemState pre loc atts).pre = pre := rfl
  have e2 : (elemState pre loc atts).loc = loc := rfl
  simp only [currentElement, e1, e2, tryLookupNs, if_neg hpre, hl, elemName]
  cases (nsDecls atts ++ openScope os).lookup pre <;> rfl
where
  lookup_append' {p : Str} {a b : List (Str × Str)} : (a ++ b).lookup p = (a.lookup p).or (b.lookup p) := by
    induction a with
    | nil => simp
    | cons x a ih =>
      obtain ⟨k, v⟩ := x
      simp only [List.cons_append, List.lookup_cons, ih]
      split <;> simp

/-- C14, attribute names: likewise; an attribute without a prefix is in no namespace. -/
theorem C14_attribute_prefix_partial {env : Env D V} {fuel : Nat} {start : Pattern D V} {s0 s : VState D V}
    {os : List OpenElem} {pre loc : Str} {atts : List RawAttr} {a : RawAttr}
    (hnew : newValidator env fuel start = .ok s0)
    (hrun : runToks L n (openToks os ++ startToks pre loc atts) s0 = .ok (.ok (), s))
    (hdone : ∀ o ∈ os, ∀ d ∈ nsDecls (allAttsL o.done), d.1 ≠ a.pre) :
    resolveAttr s.stack ⟨a.pre, a.loc, a.value⟩ = match attrName (nsDecls atts ++ openScope os) a.pre a.loc with
      | some q => .ok ⟨q, a.value⟩
      | none => .error (.undefinedNamespacePrefix a.pre) := by
  have hst := runToks_stack hrun
  rw [(newValidator_last hnew).2.1, List.foldl_append, foldl_start] at hst
  rw [hst]
  have hl : lookupNs (elemState pre loc atts :: (openToks os).foldl stackTok []) a.pre =
      (nsDecls atts ++ openScope os).lookup a.pre := by
    rw [lookupNs_cons, lookupNs_open os [] hdone, lookupNs, C14_element_prefix_partial.lookup_append']
    simp [elemState]
  by_cases hp : a.pre = []
  · simp [resolveAttr, attrName, hp]
  · simp only [resolveAttr, if_neg hp, tryLookupNs, hl, attrName]
    cases (nsDecls atts ++ openScope os).lookup a.pre <;> rfl

/-- the document `d` matches `start` (by itself) but is rejected by its validator -/
def RejectsMatching (start : Pattern Unit Str) (d : XDoc) : Prop :=
  (∃ node, d.Means node ∧ Match Ex.lib [] start [] [node]) ∧
  ∃ s0 e s1, newValidator [] 20 start = .ok s0 ∧ runToks Ex.lib 20 d.toks s0 = .ok (.error e, s1)

theorem rejects_of {start : Pattern Unit Str} {d : XDoc} {node : Node} (h1 : d.Means node) (h2 : Match Ex.lib [] start [] [node])
    (key : (match newValidator [] 20 start with
      | .ok s0 => match runToks Ex.lib 20 d.toks s0 with
        | .ok (.error _, _) => true
        | _ => false
      | _ => false) = true) : RejectsMatching start d := by
  refine ⟨⟨node, h1, h2⟩, ?_⟩
  split at key
  · rename_i s0 h0
    split at key
    · rename_i e s1 h1; exact ⟨s0, e, s1, h0, h1⟩
    · cases key
  · cases key

/-- Why the full statement is false, 1: after `<r xmlns:p="u"><b xmlns:p="v"/>`, the prefix of `<p:c`
resolves to `v`, which is out of scope, so that a matching document is rejected (schema
`element r { element b { empty }, element p:c { empty } }` with `p` bound to `u`). -/
theorem C14_declaration_leaks_to_siblings :
    currentElement ((openToks [⟨[], ['r'], [⟨xmlnsStr, ['p'], ['u']⟩],
      [.elem [] ['b'] [⟨xmlnsStr, ['p'], ['v']⟩] true []]⟩] ++ startToks ['p'] ['c'] []).foldl stackTok []) =
        some (.ok ⟨some ['v'], ['c']⟩) ∧
    RejectsMatching (.element (.named [] ['r']) (.group [.element (.named [] ['b']) .empty,
        .element (.named ['u'] ['c']) .empty]))
      ⟨[], [], ['r'], [⟨xmlnsStr, ['p'], ['u']⟩], false,
        [.elem [] ['b'] [⟨xmlnsStr, ['p'], ['v']⟩] true [], .elem ['p'] ['c'] [] true []], []⟩ := by
  refine ⟨rfl, rejects_of (node := .elem ⟨none, ['r']⟩ [] [.elem ⟨none, ['b']⟩ [] [], .elem ⟨some ['u'], ['c']⟩ [] []])
    ?_ ?_ (by decide +kernel)⟩
  · refine Resolves.elem (kns := [.elem ⟨none, ['b']⟩ [] [], .elem ⟨some ['u'], ['c']⟩ [] []])
      (by decide) .nil ?_ (by simp) .nil
    refine Resolves.elem (kns := []) (by decide) .nil .nil (by simp) ?_
    exact Resolves.elem (kns := []) (by decide) .nil .nil (by simp) .nil
  · refine .element rfl (Weak.keep (.keep .nil)) ?_
    refine .groupCons (a1 := []) (a2 := []) (c1 := [_]) (.element rfl .nil .empty) ?_ (.refl _)
    exact .groupCons (a1 := []) (a2 := []) (c1 := [_]) (.element rfl .nil .empty) .groupNil (.refl _)

/-- Why the full statement is false, 2: the default namespace is ignored, so that `<a xmlns="u"/>` is
rejected by `element p:a { empty }` with `p` bound to `u`. -/
theorem C14_default_namespace_ignored :
    RejectsMatching (.element (.named ['u'] ['a']) .empty) ⟨[], [], ['a'], [⟨[], xmlnsStr, ['u']⟩], true, [], []⟩ :=
  rejects_of (node := .elem ⟨some ['u'], ['a']⟩ [] [])
    (Resolves.elem (kns := []) (by decide) .nil .nil (by simp) .nil) (.element rfl .nil .empty) (by decide +kernel)

/-- Why the full statement is false, 3: the prefix `xml` is undeclared, so that `<a xml:l="u"/>` is
rejected by `element a { attribute * { text } }`. -/
theorem C14_xml_prefix_undeclared :
    RejectsMatching (.element .anyName (.attr .anyName .text)) ⟨[], [], ['a'], [⟨"xml".toList, ['l'], ['u']⟩], true, [], []⟩ :=
  rejects_of (node := .elem ⟨none, ['a']⟩ [⟨⟨some xmlUri, ['l']⟩, ['u']⟩] [])
    (Resolves.elem (kns := []) (by decide) (.cons (by decide) (Ex.plainDec (by decide)) .nil) .nil (by simp) .nil)
    (.element trivial .nil (.attr trivial (Weak.keep .nil) (.text (by simp)))) (by decide +kernel)

/-- a run the C14 theorems apply to: `<p:doc id="7" xmlns:p="u"><p:item k="a"/><p:item` -/
example : ∃ s, runToks Ex.lib 50 (openToks [⟨['p'], ['d', 'o', 'c'], Ex.doc.atts, [Ex.item true []]⟩] ++
      startToks ['p'] ['i', 't', 'e', 'm'] []) Ex.v0 = .ok (.ok (), s) ∧
    currentElement s.stack = some (.ok ⟨some ['u'], ['i', 't', 'e', 'm']⟩) := by
  have key : (match runToks Ex.lib 50 (openToks [⟨['p'], ['d', 'o', 'c'], Ex.doc.atts, [Ex.item true []]⟩] ++
      startToks ['p'] ['i', 't', 'e', 'm'] []) Ex.v0 with | .ok (.ok (), _) => true | _ => false) = true := by
    decide +kernel
  split at key
  · rename_i s h
    refine ⟨s, h, ?_⟩
    rw [C14_element_prefix_partial Ex.new_ok h (by decide) (by decide)]
    rfl
  · cases key

/-! ### C15 -/

/-- every declaration on the stack comes from an attribute token -/
def StackFrom (es : List Event) (st : ElementStack) : Prop :=
  ∀ e ∈ st, ∀ d ∈ e.namespaces, d.1 ≠ [] → some (Token.attribute xmlnsStr d.1 d.2) ∈ es

theorem StackFrom.foldl : ∀ (es : List Event) {pre : List Event} {st : ElementStack}, StackFrom pre st →
    StackFrom (pre ++ es) (es.foldl stackEvent st)
  | [], pre, st, h => by simpa using h
  | e :: es, pre, st, h => by
    rw [List.foldl_cons]
    have : StackFrom (pre ++ [e]) (stackEvent st e) := by
      have mono : StackFrom (pre ++ [e]) st := fun x hx d hd hne => by
        have := h x hx d hd hne
        simp [this]
      cases e with
      | none => exact mono
      | some t =>
        cases t with
        | elementStart p l =>
          intro x hx d hd hne
          rcases List.mem_cons.mp hx with rfl | hx
          · simp at hd
          · exact mono x hx d hd hne
        | «attribute» p l v =>
          cases st with
          | nil => exact nofun
          | cons x0 st =>
            intro x hx d hd hne
            rcases List.mem_cons.mp hx with rfl | hx
            · simp only [ElementState.addAttr] at hd
              split at hd
              · rename_i hp
                rcases List.mem_append.mp hd with hd | hd
                · exact mono x0 (by simp) d hd hne
                · simp at hd; subst hd; subst hp; simp
              · split at hd
                · rename_i hp
                  rcases List.mem_append.mp hd with hd | hd
                  · exact mono x0 (by simp) d hd hne
                  · simp at hd; subst hd; exact absurd hp.1 hne
                · exact mono x0 (by simp) d hd hne
            · exact mono x (by simp [hx]) d hd hne
        | _ => exact mono
    have h2 := StackFrom.foldl es this
    simpa using h2

theorem lookupNs_from {es : List Event} {p u : Str} : ∀ {st : ElementStack}, StackFrom es st → lookupNs st p = some u →
    p ≠ [] → some (Token.attribute xmlnsStr p u) ∈ es
  | [], _, h, _ => by cases h
  | e :: st, hs, h, hp => by
    simp only [lookupNs] at h
    cases hl : e.lookup p with
    | some v => rw [hl] at h; cases h; exact hs e (by simp) _ (lookup_mem hl) hp
    | none => rw [hl] at h; exact lookupNs_from (fun x hx => hs x (by simp [hx])) h hp

/-- C15.  After any history, if a name with prefix `p` is given a namespace, that namespace was bound
to `p` by a declaration in the document; a name without prefix is in no namespace. -/
theorem C15_namespaces_come_from_declarations {env : Env D V} {fuel : Nat} {start : Pattern D V} {s0 s : VState D V}
    {es : List Event} {rs} (hnew : newValidator env fuel start = .ok s0) (hr : runEvents L n es s0 = .ok (rs, s)) :
    (∀ e rest q, s.stack = e :: rest → currentElement s.stack = some (.ok q) →
      (e.pre = [] ∧ q.ns = none) ∨ ∃ u, q.ns = some u ∧ some (Token.attribute xmlnsStr e.pre u) ∈ es) ∧
    ∀ a b, resolveAttr s.stack a = .ok b →
      (a.pre = [] ∧ b.name.ns = none) ∨ ∃ u, b.name.ns = some u ∧ some (Token.attribute xmlnsStr a.pre u) ∈ es := by
  have hf : StackFrom es s.stack := by
    rw [runEvents_stack hr, (newValidator_last hnew).2.1]
    simpa using StackFrom.foldl es (pre := []) (st := []) nofun
  constructor
  · intro e rest q he hq
    rw [he] at hq
    simp only [currentElement, tryLookupNs] at hq
    by_cases hp : e.pre = []
    · simp [hp] at hq; exact Or.inl ⟨hp, by rw [← hq]⟩
    · rw [if_neg hp] at hq
      cases hl : lookupNs (e :: rest) e.pre with
      | none => simp [hl] at hq
      | some u =>
        simp [hl] at hq
        exact Or.inr ⟨u, by rw [← hq], lookupNs_from (he ▸ hf) hl hp⟩
  · intro a b hb
    simp only [resolveAttr, tryLookupNs] at hb
    by_cases hp : a.pre = []
    · simp [hp] at hb; exact Or.inl ⟨hp, by rw [← hb]⟩
    · simp only [if_neg hp] at hb
      cases hl : lookupNs s.stack a.pre with
      | none => simp [hl] at hb
      | some u =>
        simp [hl] at hb
        exact Or.inr ⟨u, by rw [← hb], lookupNs_from hf hl hp⟩

theorem tag_run {s : VState D V} {p : Pat D V} (hp : s.store.pats[s.cur]? = some p) (pre loc : Str) (atts : List RawAttr)
    (t : Token) : runToks L n (startToks pre loc atts ++ [t]) s =
      runToks L n [t] { s with stack := elemState pre loc atts :: s.stack } := by
  have := runToks_start L (n := n) pre loc atts [t] s hp
  simpa [startToks] using this

/-- the two tokens that end a start tag -/
def EndsTag (t : Token) : Prop := t = .elementEnd .open ∨ t = .elementEnd .empty

/-- C15.  In every reachable state, a start tag whose element name has a prefix that neither the
document so far nor the tag itself declares is rejected with the undefined-prefix error. -/
theorem C15_undeclared_element_prefix {env : Env D V} {fuel : Nat} {start : Pattern D V} {s0 s : VState D V}
    {es : List Event} {rs m pre loc} {atts : List RawAttr} {t : Token}
    (hnew : newValidator env fuel start = .ok s0) (hr : runEvents L m es s0 = .ok (rs, s)) (hpre : pre ≠ [])
    (hes : ∀ v, some (Token.attribute xmlnsStr pre v) ∉ es) (hatts : ∀ v, (⟨xmlnsStr, pre, v⟩ : RawAttr) ∉ atts)
    (ht : EndsTag t) :
    ∃ s', runToks L n (startToks pre loc atts ++ [t]) s = .ok (.error (.undefinedNamespacePrefix pre), s') := by
  have hreach : Reach L s := (Reach.new hnew).step hr
  obtain ⟨p, hp⟩ := hreach.cur
  have hf : StackFrom es s.stack := by
    rw [runEvents_stack hr, (newValidator_last hnew).2.1]
    simpa using StackFrom.foldl es (pre := []) (st := []) nofun
  have hl : lookupNs (elemState pre loc atts :: s.stack) pre = none := by
    cases h : lookupNs (elemState pre loc atts :: s.stack) pre with
    | none => rfl
    | some u =>
      have hf' : StackFrom (es ++ atts.map (fun a => some a.tok)) (elemState pre loc atts :: s.stack) := by
        intro e he d hd hne
        rcases List.mem_cons.mp he with rfl | he
        · have := nsDecls_tok hd hne
          exact List.mem_append.mpr (Or.inr this)
        · exact List.mem_append.mpr (Or.inl (hf e he d hd hne))
      rcases List.mem_append.mp (lookupNs_from hf' h hpre) with h | h
      · exact absurd h (hes u)
      · obtain ⟨a, ha, h⟩ := List.mem_map.mp h
        obtain ⟨x, y, z⟩ := a
        simp [RawAttr.tok] at h
        obtain ⟨rfl, rfl, rfl⟩ := h
        exact absurd ha (hatts _)
  rw [tag_run hp]
  have hc : currentElement (elemState pre loc atts :: s.stack) = some (.error (.undefinedNamespacePrefix pre)) := by
    have e1 : (elemState pre loc atts).pre = pre := rfl
    simp only [currentElement, e1, tryLookupNs, if_neg hpre, hl]
  have h1 : liftS (patt s.cur) { s with stack := elemState pre loc atts :: s.stack } =
      .ok (p, { s with stack := elemState pre loc atts :: s.stack }) := by simp only [liftS, patt, hp]
  have key : ∀ {t}, validate L n t { s with stack := elemState pre loc atts :: s.stack } =
      .ok (.error (.undefinedNamespacePrefix pre), { s with stack := elemState pre loc atts :: s.stack }) →
      ∃ s', runToks L n [t] { s with stack := elemState pre loc atts :: s.stack } =
        .ok (.error (.undefinedNamespacePrefix pre), s') := by
    intro t h
    exact ⟨_, ST.bind_of_ok h⟩
  rcases ht with rfl | rfl
  · refine key ((ST.bind_of_ok (ST.get_run { s with stack := elemState pre loc atts :: s.stack })).trans ((ST.bind_of_ok h1).trans (ST.bind_of_ok (a := Except.error (VErr.undefinedNamespacePrefix pre)) ?_)))
    simp only [liftS, closeElementStart, hc]; rfl
  · refine key ((ST.bind_of_ok (ST.get_run { s with stack := elemState pre loc atts :: s.stack })).trans ((ST.bind_of_ok h1).trans (ST.bind_of_ok (a := Except.error (VErr.undefinedNamespacePrefix pre)) ?_)))
    simp only [liftS, closeElementStart, hc]; rfl
where
  nsDecls_tok {atts : List RawAttr} {d : Str × Str} (hd : d ∈ nsDecls atts) (hne : d.1 ≠ []) :
      some (Token.attribute xmlnsStr d.1 d.2) ∈ atts.map (fun a => some a.tok) := by
    induction atts with
    | nil => simp [nsDecls] at hd
    | cons a atts ih =>
      simp only [nsDecls] at hd
      split at hd
      · rename_i hp
        rcases List.mem_cons.mp hd with rfl | hd
        · simp [RawAttr.tok, hp]
        · exact List.mem_cons_of_mem _ (ih hd)
      · split at hd
        · rcases List.mem_cons.mp hd with rfl | hd
          · exact absurd rfl hne
          · exact List.mem_cons_of_mem _ (ih hd)
        · exact List.mem_cons_of_mem _ (ih hd)

theorem resolveAttrs_error {st : ElementStack} {e : VErr} : ∀ {as : List UnresolvedAttr}, (∃ a ∈ as, resolveAttr st a = .error e) →
    ∃ e, resolveAttrs st as = .error e
  | [], h => by obtain ⟨a, ha, _⟩ := h; simp at ha
  | a :: as, h => by
    simp only [resolveAttrs]
    cases hr : resolveAttr st a with
    | error e => exact ⟨e, rfl⟩
    | ok x =>
      obtain ⟨b, hb, he⟩ := h
      rcases List.mem_cons.mp hb with rfl | hb
      · rw [hr] at he; cases he
      · obtain ⟨e, h⟩ := resolveAttrs_error ⟨b, hb, he⟩
        exact ⟨e, by simp only [h]⟩

/-- C15.  A start tag with an attribute whose prefix is undeclared is never accepted. -/
theorem C15_undeclared_attribute_prefix {env : Env D V} {fuel : Nat} {start : Pattern D V} {s0 s s' : VState D V}
    {es : List Event} {rs m pre loc} {atts : List RawAttr} {a : RawAttr} {t : Token} {r}
    (hnew : newValidator env fuel start = .ok s0) (hr : runEvents L m es s0 = .ok (rs, s))
    (ha : a ∈ atts) (hpre : a.pre ≠ []) (hx : a.pre ≠ xmlnsStr)
    (hes : ∀ v, some (Token.attribute xmlnsStr a.pre v) ∉ es) (hatts : ∀ v, (⟨xmlnsStr, a.pre, v⟩ : RawAttr) ∉ atts)
    (ht : EndsTag t) (hrun : runToks L n (startToks pre loc atts ++ [t]) s = .ok (r, s')) : r ≠ .ok () := by
  rintro rfl
  have hreach : Reach L s := (Reach.new hnew).step hr
  obtain ⟨p, hp⟩ := hreach.cur
  have hf : StackFrom es s.stack := by
    rw [runEvents_stack hr, (newValidator_last hnew).2.1]
    simpa using StackFrom.foldl es (pre := []) (st := []) nofun
  have hl : lookupNs (elemState pre loc atts :: s.stack) a.pre = none := by
    cases h : lookupNs (elemState pre loc atts :: s.stack) a.pre with
    | none => rfl
    | some u =>
      have hf' : StackFrom (es ++ atts.map (fun a => some a.tok)) (elemState pre loc atts :: s.stack) := by
        intro e he d hd hne
        rcases List.mem_cons.mp he with rfl | he
        · exact List.mem_append.mpr (Or.inr (C15_undeclared_element_prefix.nsDecls_tok hd hne))
        · exact List.mem_append.mpr (Or.inl (hf e he d hd hne))
      rcases List.mem_append.mp (lookupNs_from hf' h hpre) with h | h
      · exact absurd h (hes u)
      · obtain ⟨b, hb, h⟩ := List.mem_map.mp h
        obtain ⟨x, y, z⟩ := b
        simp [RawAttr.tok] at h
        obtain ⟨rfl, h1, rfl⟩ := h
        exact absurd (h1 ▸ hb) (hatts _)
  have hmem : a ∈ plainAtts atts := by
    clear hrun hl hatts
    induction atts with
    | nil => simp at ha
    | cons b atts ih =>
      simp only [plainAtts]
      rcases List.mem_cons.mp ha with rfl | ha
      · rw [if_neg hx, if_neg (fun h => hpre h.1)]; simp
      · have := ih ha
        split
        · exact this
        · split
          · exact this
          · exact List.mem_cons_of_mem _ this
  have hca : ∃ e, currentAttributes (elemState pre loc atts :: s.stack) = some (.error e) := by
    obtain ⟨e, h⟩ := resolveAttrs_error (st := elemState pre loc atts :: s.stack)
      (as := (plainAtts atts).map fun a => ⟨a.pre, a.loc, a.value⟩) (e := .undefinedNamespacePrefix a.pre)
      ⟨⟨a.pre, a.loc, a.value⟩, List.mem_map.mpr ⟨a, hmem, rfl⟩, by
        simp only [resolveAttr, if_neg hpre, tryLookupNs, hl]⟩
    exact ⟨e, by simp only [currentAttributes, elemState] at h ⊢; rw [h]⟩
  obtain ⟨e, hca⟩ := hca
  have hclose : ∀ t (q : Pat D V) st st' i, closeElementStart L n (elemState pre loc atts :: s.stack) t q st ≠ .ok (.ok i, st') := by
    intro t q st st' i h
    unfold closeElementStart at h
    cases hce : currentElement (elemState pre loc atts :: s.stack) with
    | none => simp only [hce] at h; cases h
    | some c =>
    cases c with
    | error e => simp only [hce] at h; cases h
    | ok name =>
      simp only [hce, ST.bind_ok] at h
      obtain ⟨d, s1, h1, dp, s2, h2, h⟩ := h
      by_cases hd : dp.isNotAllowed = true
      · simp only [if_pos hd] at h; cases h
      · simp only [if_neg hd, hca] at h; cases h
  rw [tag_run hp] at hrun
  simp only [runToks, ST.bind_ok] at hrun
  obtain ⟨r, s1, h1, h2⟩ := hrun
  simp only [validate, ST.bind_ok] at h1
  obtain ⟨_, _, e1, q, s2, e2, h1⟩ := h1
  cases e1
  obtain ⟨_, rfl⟩ := liftS_patt e2
  rcases ht with rfl | rfl
  · simp only [ST.bind_ok] at h1
    obtain ⟨o, s3, h3, h1⟩ := h1
    obtain ⟨st', h4, rfl⟩ := liftS_cases h3
    cases o with
    | error e => cases h1; cases h2
    | ok i => exact hclose _ _ _ _ _ h4
  · simp only [ST.bind_ok] at h1
    obtain ⟨o, s3, h3, h1⟩ := h1
    obtain ⟨st', h4, rfl⟩ := liftS_cases h3
    cases o with
    | error e => cases h1; cases h2
    | ok i => exact hclose _ _ _ _ _ h4

/-- `<q:a p:k="1">` in the initial state of the example -/
example : (∃ s', runToks Ex.lib 50 (startToks ['q'] ['a'] [⟨['p'], ['k'], ['1']⟩] ++ [.elementEnd .open]) Ex.v0 =
    .ok (.error (.undefinedNamespacePrefix ['q']), s')) :=
  C15_undeclared_element_prefix (es := []) (m := 0) (rs := []) Ex.new_ok rfl (by decide) (by simp) (by simp) (Or.inl rfl)

/-! ### C47 -/

/-- C47 fails, 1: whatever prefix of an accepted document's tokens is read (unclosed elements, nothing
at all), no error is reported. -/
theorem C47_truncated_documents_accepted {s s' : VState D V} {a b : List Token}
    (h : runToks L n (a ++ b) s = .ok (.ok (), s')) : ∃ s1, runToks L n a s = .ok (.ok (), s1) := by
  rw [runToks_append] at h
  cases h1 : runToks L n a s with
  | error e => rw [h1] at h; cases h
  | ok r =>
    obtain ⟨r, s1⟩ := r
    cases r with
    | error e => rw [h1] at h; cases h
    | ok u => exact ⟨s1, rfl⟩

/-- a truncated document no continuation-free reading of which matches: only the root's start tag -/
example : ∃ s1, runToks Ex.lib 50 (Ex.doc.toks.take 7) Ex.v0 = .ok (.ok (), s1) ∧ Ex.doc.toks.take 7 ≠ Ex.doc.toks := by
  obtain ⟨s', h⟩ := Ex.accepted
  rw [← List.take_append_drop 7 Ex.doc.toks] at h
  obtain ⟨s1, h1⟩ := C47_truncated_documents_accepted h
  exact ⟨s1, h1, by decide⟩

/-- C47 fails, 2: the name in an end tag plays no role. -/
theorem C47_end_tag_names_ignored {s : VState D V} (p l p' l' : Str) :
    outcome (validate L n (.elementEnd (.close p l)) s) = outcome (validate L n (.elementEnd (.close p' l')) s) := by
  cases hp : s.store.pats[s.cur]? with
  | none =>
    have key : ∀ t, validate L n t s = .error .oob := by
      intro t
      refine (ST.bind_of_ok (a := s) (s' := s) rfl).trans (ST.bind_of_error ?_)
      simp only [liftS, patt, hp]
    rw [key, key]
  | some q =>
    have h1 : liftS (patt s.cur) s = .ok (q, s) := by simp only [liftS, patt, hp]
    have e1 : ∀ p l, validate L n (.elementEnd (.close p l)) s = _ := fun p l =>
      (ST.bind_of_ok (a := s) (s' := s) rfl).trans (ST.bind_of_ok h1)
    rw [e1, e1]
    dsimp only
    cases hx : liftS (endTagStep L n s.lastWasStart q) s with
    | error e => rw [ST.bind_of_error hx, ST.bind_of_error hx]
    | ok r =>
      obtain ⟨i, s1⟩ := r
      rw [ST.bind_of_ok hx, ST.bind_of_ok hx]
      exact finish_outcome rfl

end Verif
