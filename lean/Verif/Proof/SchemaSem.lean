import Verif.Proof.MergeAll
import Verif.Spec.Source
/-
A compiled pattern that corresponds to a source pattern means the same.
-/
namespace Verif

section
variable (F : Files) (x : Ext) (look : Nat → Str → Option Nat) (G : Nat → List Nat → List Defn → Prop)

/-- `Tr ss e p q`: the pattern `q` is what compiling `p` gives, in the scopes `ss` (innermost first), where names
mean `e`.  `look s id` is the cell of `id` in scope `s`, `G s ss ds`: the grammar of scope `s`, inside the scopes
`ss`, has the definitions `ds`. -/
inductive Tr : List Nat → NEnv → SPattern → MPattern → Prop
  | element {ss e nc p nc' q} : (∀ n, nc'.Has n ↔ nc.Has e n) → Tr ss e p q → Tr ss e (.element nc p) (.element nc' q)
  | attribute {ss e nc p nc' q} : (∀ n, nc'.Has n ↔ nc.Has e n) → Tr ss e p q → Tr ss e (.attribute nc p) (.attr nc' q)
  | list {ss e p q} : Tr ss e p q → Tr ss e (.list p) (.list q)
  | mixed {ss e p q} : Tr ss e p q → Tr ss e (.mixed p) (.mixed q)
  | ident {s ss e id k} : look s id = some k → Tr (s :: ss) e (.ident id) (.ref k)
  | parent {t s ss e id k} : look s id = some k → Tr (t :: s :: ss) e (.parent id) (.ref k)
  | empty {ss e} : Tr ss e .empty .empty
  | text {ss e} : Tr ss e .text .text
  | notAllowed {ss e} : Tr ss e .notAllowed .notAllowed
  | externalPattern {ss e path f sch p q} : F.join e.file path = some f → F.load f = .ok sch → sch.body = .pattern p →
      Tr ss (externalEnv e f) p q → Tr ss e (.external path none) q
  | externalGrammar {ss e path f sch items q} : F.join e.file path = some f → F.load f = .ok sch →
      sch.body = .grammar items → Tr ss e (.grammar items) q → Tr ss e (.external path none) q
  | grammar {ss e items s ds r} {bs : List (Defn × MPattern)} : G s ss ds → Expands F e items ds →
      bs.map (·.1) = named ds "start".toList → (∀ b ∈ bs, Tr (s :: ss) b.1.env b.1.body b.2) →
      Merged (bs.map fun b => (b.1.how, b.2)) r → Tr ss e (.grammar items) r.pattern
  | paren {ss e p q} : Tr ss e p q → Tr ss e (.paren p) q
  | seq {ss e p1 p2 q1 q2} : Tr ss e p1 q1 → Tr ss e p2 q2 →
      Tr ss e (.seq p1 p2) (.group (groupMembers q1 ++ groupMembers q2))
  | inter {ss e p1 p2 q1 q2} : Tr ss e p1 q1 → Tr ss e p2 q2 →
      Tr ss e (.inter p1 p2) (.interleave (interleaveMembers q1 ++ interleaveMembers q2))
  | choice {ss e p1 p2 q1 q2} : Tr ss e p1 q1 → Tr ss e p2 q2 →
      Tr ss e (.choice p1 p2) (.choice (choiceMembers q1 ++ choiceMembers q2))
  | optional {ss e p q} : Tr ss e p q → Tr ss e (.optional p) (.optional q)
  | zeroOrMore {ss e p q} : Tr ss e p q → Tr ss e (.zeroOrMore p) (.zeroOrMore q)
  | oneOrMore {ss e p q} : Tr ss e p q → Tr ss e (.oneOrMore p) (.oneOrMore q)
  | value {ss e ty lit n v} : e.dt (ty.getD .token) = some n → datatypeValueOf n lit = .ok v →
      Tr ss e (.value ty lit) (.datatypeValue v)
  | data {ss e ty ps n d} : e.dt ty = some n → datatypeNameOf x n ps = .ok d → Tr ss e (.data ty ps) (.datatypeName d)
  | dataExcept {ss e ty ps ex n d q} : e.dt ty = some n → datatypeNameOf x n ps = .ok d → Tr ss e ex q →
      Tr ss e (.dataExcept ty ps ex) (.datatypeNameExcept d q)

/-- `r` is the rule made of the definitions `ds` of one name -/
def TrRule (ss : List Nat) (ds : List Defn) (r : DefineRule) : Prop :=
  ∃ bs : List (Defn × MPattern), bs.map (·.1) = ds ∧ (∀ b ∈ bs, Tr F x look G ss b.1.env b.1.body b.2) ∧
    Merged (bs.map fun b => (b.1.how, b.2)) r

variable {F x look G}

theorem Tr.mono {look' G'} (hl : ∀ s i k, look s i = some k → look' s i = some k)
    (hG : ∀ s ss ds, G s ss ds → G' s ss ds) {ss e p q} (h : Tr F x look G ss e p q) : Tr F x look' G' ss e p q := by
  induction h with
  | element h _ ih => exact .element h ih
  | «attribute» h _ ih => exact .attribute h ih
  | list _ ih => exact .list ih
  | mixed _ ih => exact .mixed ih
  | ident h => exact .ident (hl _ _ _ h)
  | parent h => exact .parent (hl _ _ _ h)
  | empty => exact .empty
  | text => exact .text
  | notAllowed => exact .notAllowed
  | externalPattern h1 h2 h3 _ ih => exact .externalPattern h1 h2 h3 ih
  | externalGrammar h1 h2 h3 _ ih => exact .externalGrammar h1 h2 h3 ih
  | grammar h1 h2 h3 _ h5 ih => exact .grammar (hG _ _ _ h1) h2 h3 ih h5
  | paren _ ih => exact .paren ih
  | seq _ _ ih1 ih2 => exact .seq ih1 ih2
  | inter _ _ ih1 ih2 => exact .inter ih1 ih2
  | choice _ _ ih1 ih2 => exact .choice ih1 ih2
  | optional _ ih => exact .optional ih
  | zeroOrMore _ ih => exact .zeroOrMore ih
  | oneOrMore _ ih => exact .oneOrMore ih
  | value h1 h2 => exact .value h1 h2
  | data h1 h2 => exact .data h1 h2
  | dataExcept h1 h2 _ ih => exact .dataExcept h1 h2 ih

theorem TrRule.mono {look' G'} (hl : ∀ s i k, look s i = some k → look' s i = some k)
    (hG : ∀ s ss ds, G s ss ds → G' s ss ds) {ss ds r} (h : TrRule F x look G ss ds r) : TrRule F x look' G' ss ds r := by
  obtain ⟨bs, h1, h2, h3⟩ := h
  exact ⟨bs, h1, fun b hb => (h2 b hb).mono hl hG, h3⟩

variable (G)
/-- the definitions of a chain of scopes -/
inductive Chain : List Nat → List (List Defn) → Prop
  | nil : Chain [] []
  | cons {s ss ds gs} : G s ss ds → Chain ss gs → Chain (s :: ss) (ds :: gs)

variable (F x look)
/-- every defined name of every grammar holds the compiled definitions of that name -/
def Closed (cell : Nat → Option DefineRule) : Prop :=
  ∀ s ss ds, G s ss ds → ∀ id k r, look s id = some k → cell k = some r → TrRule F x look G (s :: ss) (named ds id) r

end

/-! ### the compiled pattern, with references left to an oracle -/

section
variable (L : Lib Datatypes DatatypeValues) (E : Nat → Str → Bool → Prop) (O : Nat → List Attr → List Node → Prop)

/-- `ExMatch` with references given by `E` -/
inductive ExF : MPattern → Str → Bool → Prop
  | value {v s b} : L.validV v s = some b → ExF (.datatypeValue v) s b
  | data {d s b} : L.validD d s = some b → ExF (.datatypeName d) s b
  | dataExcept {d e s b1 b2} : L.validD d s = some b1 → ExF e s b2 → ExF (.datatypeNameExcept d e) s (b1 && !b2)
  | notAllowed {s} : ExF .notAllowed s false
  | choiceNil {s} : ExF (.choice []) s false
  | choiceCons {p ps s b1 b2} : ExF p s b1 → ExF (.choice ps) s b2 → ExF (.choice (p :: ps)) s (b1 || b2)
  | ref {n s b} : E n s b → ExF (.ref n) s b

/-- `Match` with references given by `O` and, in exceptions, `E` -/
inductive MF : MPattern → List Attr → List Node → Prop
  | empty : MF .empty [] []
  | text {c} : (∀ x ∈ c, ∃ s, x = Node.text s) → MF .text [] c
  | choice {p ps a c} : p ∈ ps → MF p a c → MF (.choice ps) a c
  | groupNil : MF (.group []) [] []
  | groupCons {p ps a a1 a2 c1 c2} :
      MF p a1 c1 → MF (.group ps) a2 c2 → a.Perm (a1 ++ a2) → MF (.group (p :: ps)) a (c1 ++ c2)
  | interleaveNil : MF (.interleave []) [] []
  | interleaveCons {p ps a a1 a2 c c1 c2} :
      MF p a1 c1 → MF (.interleave ps) a2 c2 → a.Perm (a1 ++ a2) → Shuffle c1 c2 c → MF (.interleave (p :: ps)) a c
  | mixed {p a c c1 c2} :
      MF p a c1 → (∀ x ∈ c2, ∃ s, x = Node.text s) → Shuffle c1 c2 c → MF (.mixed p) a c
  | optionalNone {p} : MF (.optional p) [] []
  | optionalSome {p a c} : MF p a c → MF (.optional p) a c
  | zeroOrMoreNil {p} : MF (.zeroOrMore p) [] []
  | zeroOrMoreCons {p a a1 a2 c1 c2} :
      MF p a1 c1 → MF (.zeroOrMore p) a2 c2 → a.Perm (a1 ++ a2) → MF (.zeroOrMore p) a (c1 ++ c2)
  | oneOrMore {p a a1 a2 c1 c2} :
      MF p a1 c1 → MF (.zeroOrMore p) a2 c2 → a.Perm (a1 ++ a2) → MF (.oneOrMore p) a (c1 ++ c2)
  | attr {nc p name v c} : nc.Has name.expanded → Weak [.text v] c → MF p [] c → MF (.attr nc p) [⟨name, v⟩] []
  | element {nc p name a kids c} : nc.Has name.expanded → Weak kids c → MF p a c →
      MF (.element nc p) [] [.elem name a kids]
  | ref {n a c} : O n a c → MF (.ref n) a c
  | value {v s} : L.validV v s = some true → MF (.datatypeValue v) [] [.text s]
  | data {d s} : L.validD d s = some true → MF (.datatypeName d) [] [.text s]
  | dataExcept {d e s} : L.validD d s = some true → ExF L E e s false → MF (.datatypeNameExcept d e) [] [.text s]
  | list {p s ws} : Words s ws → MF p [] (ws.map Node.text) → MF (.list p) [] [.text s]

variable {L E O}

theorem MF.perm (hO : ∀ n a a' c, O n a c → a.Perm a' → O n a' c) {p a a' c} (h : MF L E O p a c) (hp : a.Perm a') :
    MF L E O p a' c := by
  have one : ∀ {y : Attr} {l : List Attr}, [y].Perm l → l = [y] := fun h => List.perm_singleton.mp h.symm
  induction h generalizing a' with
  | empty => rw [hp.symm.eq_nil]; exact .empty
  | text h => rw [hp.symm.eq_nil]; exact .text h
  | choice h _ ih => exact .choice h (ih hp)
  | groupNil => rw [hp.symm.eq_nil]; exact .groupNil
  | groupCons h1 h2 h3 => exact .groupCons h1 h2 (hp.symm.trans h3)
  | interleaveNil => rw [hp.symm.eq_nil]; exact .interleaveNil
  | interleaveCons h1 h2 h3 h4 => exact .interleaveCons h1 h2 (hp.symm.trans h3) h4
  | mixed _ h2 h3 ih => exact .mixed (ih hp) h2 h3
  | optionalNone => rw [hp.symm.eq_nil]; exact .optionalNone
  | optionalSome _ ih => exact .optionalSome (ih hp)
  | zeroOrMoreNil => rw [hp.symm.eq_nil]; exact .zeroOrMoreNil
  | zeroOrMoreCons h1 h2 h3 => exact .zeroOrMoreCons h1 h2 (hp.symm.trans h3)
  | oneOrMore h1 h2 h3 => exact .oneOrMore h1 h2 (hp.symm.trans h3)
  | attr h1 h2 h3 => rw [one hp]; exact .attr h1 h2 h3
  | element h1 h2 h3 => rw [hp.symm.eq_nil]; exact .element h1 h2 h3
  | ref h => exact .ref (hO _ _ _ _ h hp)
  | value h => rw [hp.symm.eq_nil]; exact .value h
  | data h => rw [hp.symm.eq_nil]; exact .data h
  | dataExcept h1 h2 => rw [hp.symm.eq_nil]; exact .dataExcept h1 h2
  | list h1 h2 => rw [hp.symm.eq_nil]; exact .list h1 h2

theorem MF.compo (hO : ∀ n a a' c, O n a c → a.Perm a' → O n a' c) : Compo (MF L E O) where
  perm h hp := h.perm hO hp
  choice := ⟨fun h => by cases h with | choice h1 h2 => exact ⟨_, h1, h2⟩, fun ⟨_, h1, h2⟩ => .choice h1 h2⟩
  group := by
    intro ps
    induction ps with
    | nil => exact ⟨fun h => by cases h; exact ⟨rfl, rfl⟩, fun ⟨h1, h2⟩ => by subst h1; subst h2; exact .groupNil⟩
    | cons p ps ih =>
      exact ⟨fun h => by cases h with | groupCons h1 h2 h3 => exact ⟨_, _, _, _, h3, rfl, h1, ih.mp h2⟩,
        fun ⟨a1, a2, c1, c2, h1, h2, h3, h4⟩ => by subst h2; exact .groupCons h3 (ih.mpr h4) h1⟩
  inter := by
    intro ps
    induction ps with
    | nil => exact ⟨fun h => by cases h; exact ⟨rfl, rfl⟩, fun ⟨h1, h2⟩ => by subst h1; subst h2; exact .interleaveNil⟩
    | cons p ps ih =>
      exact ⟨fun h => by cases h with | interleaveCons h1 h2 h3 h4 => exact ⟨_, _, _, _, h3, h4, h1, ih.mp h2⟩,
        fun ⟨a1, a2, c1, c2, h1, h2, h3, h4⟩ => .interleaveCons h3 (ih.mpr h4) h1 h2⟩

theorem ExF.compo : CompoE (ExF L E) where
  choice := by
    intro ps
    induction ps with
    | nil => exact ⟨fun h => by cases h; rfl, fun h => by cases h; exact .choiceNil⟩
    | cons p ps ih =>
      exact ⟨fun h => by cases h with | choiceCons h1 h2 => exact ⟨_, _, rfl, h1, ih.mp h2⟩,
        fun ⟨b1, b2, h, h1, h2⟩ => by subst h; exact .choiceCons h1 (ih.mpr h2)⟩
  inter := nofun

end

/-! ### compiled to source -/

theorem SMatch.perm {F x gs g a a' c} (h : SMatch F x gs g a c) (hp : a.Perm a') : SMatch F x gs g a' c := by
  have one : ∀ {y : Attr} {l : List Attr}, [y].Perm l → l = [y] := fun h => List.perm_singleton.mp h.symm
  induction h generalizing a' with
  | empty => rw [hp.symm.eq_nil]; exact .empty
  | text h => rw [hp.symm.eq_nil]; exact .text h
  | choiceLeft _ ih => exact .choiceLeft (ih hp)
  | choiceRight _ ih => exact .choiceRight (ih hp)
  | seq h1 h2 h3 => exact .seq h1 h2 (hp.symm.trans h3)
  | inter h1 h2 h3 h4 => exact .inter h1 h2 (hp.symm.trans h3) h4
  | mixed _ h2 h3 ih => exact .mixed (ih hp) h2 h3
  | paren _ ih => exact .paren (ih hp)
  | optionalNone => rw [hp.symm.eq_nil]; exact .optionalNone
  | optionalSome _ ih => exact .optionalSome (ih hp)
  | zeroOrMoreNil => rw [hp.symm.eq_nil]; exact .zeroOrMoreNil
  | zeroOrMoreCons h1 h2 h3 => exact .zeroOrMoreCons h1 h2 (hp.symm.trans h3)
  | oneOrMore h1 h2 h3 => exact .oneOrMore h1 h2 (hp.symm.trans h3)
  | «attribute» h1 h2 h3 => rw [one hp]; exact .attribute h1 h2 h3
  | element h1 h2 h3 => rw [hp.symm.eq_nil]; exact .element h1 h2 h3
  | value h1 h2 h3 => rw [hp.symm.eq_nil]; exact .value h1 h2 h3
  | data h1 h2 h3 => rw [hp.symm.eq_nil]; exact .data h1 h2 h3
  | dataExcept h1 h2 h3 h4 => rw [hp.symm.eq_nil]; exact .dataExcept h1 h2 h3 h4
  | list h1 h2 => rw [hp.symm.eq_nil]; exact .list h1 h2
  | ident _ ih => exact .ident (ih hp)
  | parent _ ih => exact .parent (ih hp)
  | grammar h1 _ ih => exact .grammar h1 (ih hp)
  | externalPattern h1 h2 h3 _ ih => exact .externalPattern h1 h2 h3 (ih hp)
  | externalGrammar h1 h2 h3 _ ih => exact .externalGrammar h1 h2 h3 (ih hp)
  | defsChoice h1 h2 _ ih => exact .defsChoice h1 h2 (ih hp)
  | defsInterleave h1 _ ih => exact .defsInterleave h1 (ih hp)
  | interNil => rw [hp.symm.eq_nil]; exact .interNil
  | interCons h1 h2 h3 h4 => exact .interCons h1 h2 (hp.symm.trans h3) h4

section
variable (F : Files) (x : Ext) (look : Nat → Str → Option Nat) (G : Nat → List Nat → List Defn → Prop)

/-- what a reference in an exception means in the source -/
def OE (k : Nat) (s : Str) (b : Bool) : Prop :=
  ∀ t ss ds gs id, G t ss ds → Chain G ss gs → look t id = some k → SEx F x (ds :: gs) (.defs (named ds id)) s b

/-- what a reference means in the source -/
def OM (k : Nat) (a : List Attr) (c : List Node) : Prop :=
  ∀ t ss ds gs id, G t ss ds → Chain G ss gs → look t id = some k → SMatch F x (ds :: gs) (.defs (named ds id)) a c

variable {F x look G}

theorem OM.perm : ∀ n a a' c, OM F x look G n a c → a.Perm a' → OM F x look G n a' c :=
  fun _ _ _ _ h hp t ss ds gs id h1 h2 h3 => (h t ss ds gs id h1 h2 h3).perm hp

theorem sInter_of {gs : List (List Defn)} {M : MPattern → List Attr → List Node → Prop} :
    ∀ {bs : List (Defn × MPattern)} {a c}, (∀ b ∈ bs, ∀ a c, M b.2 a c → SMatch F x gs (.pat b.1.env b.1.body) a c) →
    InterAll M (bs.map (·.2)) a c → SMatch F x gs (.inter (bs.map (·.1))) a c
  | [], a, c, _, ⟨h1, h2⟩ => by subst h1; subst h2; exact .interNil
  | b :: bs, a, c, h, ⟨a1, a2, c1, c2, h1, h2, h3, h4⟩ =>
    .interCons (h b (by simp) _ _ h3) (sInter_of (fun b hb => h b (by simp [hb])) h4) h1 h2

theorem sAlts_of {gs : List (List Defn)} {E : MPattern → Str → Bool → Prop} :
    ∀ {bs : List (Defn × MPattern)} {s v}, (∀ b ∈ bs, ∀ s v, E b.2 s v → SEx F x gs (.pat b.1.env b.1.body) s v) →
    ExAll E (bs.map (·.2)) s v → SEx F x gs (.alts (bs.map (·.1))) s v
  | [], s, v, _, h => by cases h; exact .altsNil
  | b :: bs, s, v, h, ⟨b1, b2, h1, h2, h3⟩ => by
    subst h1
    exact .altsCons (h b (by simp) _ _ h2) (sAlts_of (fun b hb => h b (by simp [hb])) h3)

theorem sDefs_of {gs : List (List Defn)} {M} (hM : Compo M) {bs : List (Defn × MPattern)} {r a c}
    (h : ∀ b ∈ bs, ∀ a c, M b.2 a c → SMatch F x gs (.pat b.1.env b.1.body) a c)
    (hr : Merged (bs.map fun b => (b.1.how, b.2)) r) (hm : M r.pattern a c) :
    SMatch F x gs (.defs (bs.map (·.1))) a c := by
  have m := hr.meaning hM a c
  by_cases hi : ∃ b ∈ bs.map (fun b => (b.1.how, b.2)), b.1 = .interleave
  · have := (m.2 hi).mp hm
    rw [List.map_map] at this
    refine .defsInterleave ?_ (sInter_of h this)
    obtain ⟨_, hb, e⟩ := hi
    obtain ⟨b, hb', rfl⟩ := List.mem_map.mp hb
    exact ⟨b.1, List.mem_map_of_mem hb', e⟩
  · obtain ⟨_, hb, hm⟩ := (m.1 fun b hb e => hi ⟨b, hb, e⟩).mp hm
    obtain ⟨b, hb', rfl⟩ := List.mem_map.mp hb
    refine .defsChoice ?_ (List.mem_map_of_mem hb') (h b hb' _ _ hm)
    intro d hd e
    obtain ⟨b', hb', rfl⟩ := List.mem_map.mp hd
    exact hi ⟨_, List.mem_map_of_mem hb', e⟩

theorem Merged.ne_nil {bs r} (h : Merged bs r) : bs ≠ [] := by
  cases h <;> simp

theorem sDefsEx_of {gs : List (List Defn)} {E} (hE : CompoE E) {bs : List (Defn × MPattern)} {r s v}
    (h : ∀ b ∈ bs, ∀ s v, E b.2 s v → SEx F x gs (.pat b.1.env b.1.body) s v)
    (hr : Merged (bs.map fun b => (b.1.how, b.2)) r) (hm : E r.pattern s v) :
    SEx F x gs (.defs (bs.map (·.1))) s v := by
  obtain ⟨h1, h2⟩ := (hr.meaningEx hE s v).mp hm
  rw [List.map_map] at h2
  refine .defs ?_ ?_ (sAlts_of h h2)
  · have := hr.ne_nil
    intro e
    exact this (by simpa using e)
  · intro d hd e
    obtain ⟨b', hb', rfl⟩ := List.mem_map.mp hd
    exact h1 _ (List.mem_map_of_mem hb') e

theorem Tr.toEx {ss e p q} (h : Tr F x look G ss e p q) : ∀ {gs}, Chain G ss gs → ∀ s v,
    ExF (stdLib x) (OE F x look G) q s v → SEx F x gs (.pat e p) s v := by
  induction h with
  | element | «attribute» | list | mixed | empty | text | optional | zeroOrMore | oneOrMore | seq | inter => nofun
  | ident hl =>
    intro gs hc s v hE
    cases hE with
    | ref hE => cases hc with
      | cons hg hc => exact .ident (hE _ _ _ _ _ hg hc hl)
  | parent hl =>
    intro gs hc s v hE
    cases hE with
    | ref hE => cases hc with
      | cons _ hc => cases hc with
        | cons hg hc => exact .parent (.ident (hE _ _ _ _ _ hg hc hl))
  | notAllowed => intro gs hc s v hE; cases hE; exact .notAllowed
  | externalPattern h1 h2 h3 _ ih => intro gs hc s v hE; exact .externalPattern h1 h2 h3 (ih hc s v hE)
  | externalGrammar h1 h2 h3 _ ih => intro gs hc s v hE; exact .externalGrammar h1 h2 h3 (ih hc s v hE)
  | grammar h1 h2 h3 _ h5 ih =>
    intro gs hc s v hE
    refine .grammar h2 ?_
    rw [← h3]
    exact sDefsEx_of ExF.compo (fun b hb => ih b hb (.cons h1 hc)) h5 hE
  | paren _ ih => intro gs hc s v hE; exact .paren (ih hc s v hE)
  | choice _ _ ih1 ih2 =>
    intro gs hc s v hE
    obtain ⟨b1, b2, rfl, h1, h2⟩ := ExAll.append_iff.mp (ExF.compo.choice.mp hE)
    exact .choice (ih1 hc _ _ ((exAll_members ExF.compo _).mp h1)) (ih2 hc _ _ ((exAll_members ExF.compo _).mp h2))
  | value h1 h2 => intro gs hc s v hE; cases hE with | value h => exact .value h1 h2 h
  | data h1 h2 => intro gs hc s v hE; cases hE with | data h => exact .data h1 h2 h
  | dataExcept h1 h2 _ ih =>
    intro gs hc s v hE
    cases hE with | dataExcept h h' => exact .dataExcept h1 h2 h (ih hc _ _ h')

theorem Tr.toS {ss e p q} (h : Tr F x look G ss e p q) : ∀ {gs}, Chain G ss gs → ∀ a c,
    MF (stdLib x) (OE F x look G) (OM F x look G) q a c → SMatch F x gs (.pat e p) a c := by
  have C : Compo (MF (stdLib x) (OE F x look G) (OM F x look G)) := MF.compo OM.perm
  induction h with
  | element h _ ih =>
    intro gs hc a c hm; cases hm with | element h1 h2 h3 => exact .element ((h _).mp h1) h2 (ih hc _ _ h3)
  | «attribute» h _ ih =>
    intro gs hc a c hm; cases hm with | attr h1 h2 h3 => exact .attribute ((h _).mp h1) h2 (ih hc _ _ h3)
  | list _ ih => intro gs hc a c hm; cases hm with | list h1 h2 => exact .list h1 (ih hc _ _ h2)
  | mixed _ ih => intro gs hc a c hm; cases hm with | mixed h1 h2 h3 => exact .mixed (ih hc _ _ h1) h2 h3
  | ident hl =>
    intro gs hc a c hm
    cases hm with
    | ref hE => cases hc with
      | cons hg hc => exact .ident (hE _ _ _ _ _ hg hc hl)
  | parent hl =>
    intro gs hc a c hm
    cases hm with
    | ref hE => cases hc with
      | cons _ hc => cases hc with
        | cons hg hc => exact .parent (.ident (hE _ _ _ _ _ hg hc hl))
  | empty => intro gs hc a c hm; cases hm; exact .empty
  | text => intro gs hc a c hm; cases hm with | text h => exact .text h
  | notAllowed => nofun
  | externalPattern h1 h2 h3 _ ih => intro gs hc s v hE; exact .externalPattern h1 h2 h3 (ih hc s v hE)
  | externalGrammar h1 h2 h3 _ ih => intro gs hc s v hE; exact .externalGrammar h1 h2 h3 (ih hc s v hE)
  | grammar h1 h2 h3 _ h5 ih =>
    intro gs hc a c hm
    refine .grammar h2 ?_
    rw [← h3]
    exact sDefs_of C (fun b hb => ih b hb (.cons h1 hc)) h5 hm
  | paren _ ih => intro gs hc s v hE; exact .paren (ih hc s v hE)
  | seq _ _ ih1 ih2 =>
    intro gs hc a c hm
    obtain ⟨a1, a2, c1, c2, h1, rfl, h3, h4⟩ := (SeqAll.append_iff C).mp (C.group.mp hm)
    exact .seq (ih1 hc _ _ ((seqAll_members C _).mp h3)) (ih2 hc _ _ ((seqAll_members C _).mp h4)) h1
  | inter _ _ ih1 ih2 =>
    intro gs hc a c hm
    obtain ⟨a1, a2, c1, c2, h1, h2, h3, h4⟩ := (InterAll.append_iff C).mp (C.inter.mp hm)
    exact .inter (ih1 hc _ _ ((interAll_members C _).mp h3)) (ih2 hc _ _ ((interAll_members C _).mp h4)) h1 h2
  | choice _ _ ih1 ih2 =>
    intro gs hc a c hm
    obtain ⟨q, hq, hm⟩ := C.choice.mp hm
    rcases List.mem_append.mp hq with hq | hq
    · exact .choiceLeft (ih1 hc _ _ ((choice_members C _).mp ⟨q, hq, hm⟩))
    · exact .choiceRight (ih2 hc _ _ ((choice_members C _).mp ⟨q, hq, hm⟩))
  | optional _ ih =>
    intro gs hc a c hm
    cases hm with
    | optionalNone => exact .optionalNone
    | optionalSome h => exact .optionalSome (ih hc _ _ h)
  | @zeroOrMore ss e p q _ ih =>
    intro gs hc a c hm
    generalize hq : Pattern.zeroOrMore q = z at hm
    induction hm with
    | zeroOrMoreNil => exact .zeroOrMoreNil
    | zeroOrMoreCons h1 _ h3 _ ih2 => cases hq; exact .zeroOrMoreCons (ih hc _ _ h1) (ih2 rfl) h3
    | _ => cases hq
  | @oneOrMore ss e p q _ ih =>
    intro gs hc a c hm
    cases hm with
    | oneOrMore h1 h2 h3 =>
      refine .oneOrMore (ih hc _ _ h1) ?_ h3
      clear h1 h3
      generalize hq : Pattern.zeroOrMore q = z at h2
      induction h2 with
      | zeroOrMoreNil => exact .zeroOrMoreNil
      | zeroOrMoreCons h1 _ h3 _ ih2 => cases hq; exact .zeroOrMoreCons (ih hc _ _ h1) (ih2 rfl) h3
      | _ => cases hq
  | value h1 h2 => intro gs hc s v hE; cases hE with | value h => exact .value h1 h2 h
  | data h1 h2 => intro gs hc s v hE; cases hE with | data h => exact .data h1 h2 h
  | dataExcept h1 h2 h3 _ =>
    intro gs hc s v hE
    cases hE with | dataExcept h h' => exact .dataExcept h1 h2 h (h3.toEx hc _ _ h')

end
end Verif
