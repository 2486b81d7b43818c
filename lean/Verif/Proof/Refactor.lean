import Verif.Spec.Refactor
import Verif.Proof.SchemaSem2
import Verif.Proof.Algebra
import Verif.Proof.Alike
/-
Refactoring a schema does not change what it says: what matches one version matches the other, by induction on the size
of the derivation and, for the same size, on the relation of the two versions.
-/
namespace Verif.Refac
open Verif

section
variable (F : Files) (x : Ext)

/-- `SEx` with the size of the derivation -/
inductive SExS : Nat → List (List Defn) → Goal → Str → Bool → Prop
  | value {gs e ty lit n v s b} : e.dt (ty.getD .token) = some n → datatypeValueOf n lit = .ok v →
      (stdLib x).validV v s = some b → SExS 1 gs (.pat e (.value ty lit)) s b
  | data {gs e ty ps n d s b} : e.dt ty = some n → datatypeNameOf x n ps = .ok d →
      (stdLib x).validD d s = some b → SExS 1 gs (.pat e (.data ty ps)) s b
  | dataExcept {k gs e ty ps ex n d s b1 b2} : e.dt ty = some n → datatypeNameOf x n ps = .ok d →
      (stdLib x).validD d s = some b1 → SExS k gs (.pat e ex) s b2 → SExS (k+1) gs (.pat e (.dataExcept ty ps ex)) s (b1 && !b2)
  | notAllowed {gs e s} : SExS 1 gs (.pat e .notAllowed) s false
  | choice {k1 k2 gs e p q s b1 b2} : SExS k1 gs (.pat e p) s b1 → SExS k2 gs (.pat e q) s b2 →
      SExS (k1+k2+1) gs (.pat e (.choice p q)) s (b1 || b2)
  | paren {k gs e p s b} : SExS k gs (.pat e p) s b → SExS (k+1) gs (.pat e (.paren p)) s b
  | ident {k g gs e id s b} : SExS k (g :: gs) (.defs (named g id)) s b → SExS (k+1) (g :: gs) (.pat e (.ident id)) s b
  | parent {k g gs e id s b} : SExS k gs (.pat e (.ident id)) s b → SExS (k+1) (g :: gs) (.pat e (.parent id)) s b
  | grammar {k gs e items ds s b} : Expands F e items ds → SExS k (ds :: gs) (.defs (named ds "start".toList)) s b →
      SExS (k+1) gs (.pat e (.grammar items)) s b
  | externalPattern {k gs e path f sch p s b} : F.join e.file path = some f → F.load f = .ok sch →
      sch.body = .pattern p → SExS k gs (.pat (externalEnv e f) p) s b → SExS (k+1) gs (.pat e (.external path none)) s b
  | externalGrammar {k gs e path f sch items s b} : F.join e.file path = some f → F.load f = .ok sch →
      sch.body = .grammar items → SExS k gs (.pat e (.grammar items)) s b → SExS (k+1) gs (.pat e (.external path none)) s b
  | defs {k gs ds s b} : ds ≠ [] → (∀ d ∈ ds, d.how ≠ .interleave) → SExS k gs (.alts ds) s b → SExS (k+1) gs (.defs ds) s b
  | altsNil {gs s} : SExS 1 gs (.alts []) s false
  | altsCons {k1 k2 gs d ds s b1 b2} : SExS k1 gs (.pat d.env d.body) s b1 → SExS k2 gs (.alts ds) s b2 →
      SExS (k1+k2+1) gs (.alts (d :: ds)) s (b1 || b2)

/-- `SMatch` with the size of the derivation -/
inductive SMatchS : Nat → List (List Defn) → Goal → List Attr → List Node → Prop
  | empty {gs e} : SMatchS 1 gs (.pat e .empty) [] []
  | text {gs e c} : (∀ n ∈ c, ∃ s, n = Node.text s) → SMatchS 1 gs (.pat e .text) [] c
  | choiceLeft {k gs e p q a c} : SMatchS k gs (.pat e p) a c → SMatchS (k+1) gs (.pat e (.choice p q)) a c
  | choiceRight {k gs e p q a c} : SMatchS k gs (.pat e q) a c → SMatchS k gs (.pat e (.choice p q)) a c
  | seq {k1 k2 gs e p q a a1 a2 c1 c2} : SMatchS k1 gs (.pat e p) a1 c1 → SMatchS k2 gs (.pat e q) a2 c2 → a.Perm (a1 ++ a2) →
      SMatchS (k1+k2+1) gs (.pat e (.seq p q)) a (c1 ++ c2)
  | inter {k1 k2 gs e p q a a1 a2 c c1 c2} : SMatchS k1 gs (.pat e p) a1 c1 → SMatchS k2 gs (.pat e q) a2 c2 → a.Perm (a1 ++ a2) →
      Shuffle c1 c2 c → SMatchS (k1+k2+1) gs (.pat e (.inter p q)) a c
  | mixed {k gs e p a c c1 c2} : SMatchS k gs (.pat e p) a c1 → (∀ n ∈ c2, ∃ s, n = Node.text s) → Shuffle c1 c2 c →
      SMatchS (k+1) gs (.pat e (.mixed p)) a c
  | paren {k gs e p a c} : SMatchS k gs (.pat e p) a c → SMatchS (k+1) gs (.pat e (.paren p)) a c
  | optionalNone {gs e p} : SMatchS 1 gs (.pat e (.optional p)) [] []
  | optionalSome {k gs e p a c} : SMatchS k gs (.pat e p) a c → SMatchS (k+1) gs (.pat e (.optional p)) a c
  | zeroOrMoreNil {gs e p} : SMatchS 1 gs (.pat e (.zeroOrMore p)) [] []
  | zeroOrMoreCons {k1 k2 gs e p a a1 a2 c1 c2} : SMatchS k1 gs (.pat e p) a1 c1 → SMatchS k2 gs (.pat e (.zeroOrMore p)) a2 c2 →
      a.Perm (a1 ++ a2) → SMatchS (k1+k2+1) gs (.pat e (.zeroOrMore p)) a (c1 ++ c2)
  | oneOrMore {k1 k2 gs e p a a1 a2 c1 c2} : SMatchS k1 gs (.pat e p) a1 c1 → SMatchS k2 gs (.pat e (.zeroOrMore p)) a2 c2 →
      a.Perm (a1 ++ a2) → SMatchS (k1+k2+1) gs (.pat e (.oneOrMore p)) a (c1 ++ c2)
  | attribute {k gs e nc p name v c} : nc.Has e name.expanded → Weak [.text v] c → SMatchS k gs (.pat e p) [] c →
      SMatchS (k+1) gs (.pat e (.attribute nc p)) [⟨name, v⟩] []
  | element {k gs e nc p name a kids c} : nc.Has e name.expanded → Weak kids c → SMatchS k gs (.pat e p) a c →
      SMatchS (k+1) gs (.pat e (.element nc p)) [] [.elem name a kids]
  | value {gs e ty lit n v s} : e.dt (ty.getD .token) = some n → datatypeValueOf n lit = .ok v →
      (stdLib x).validV v s = some true → SMatchS 1 gs (.pat e (.value ty lit)) [] [.text s]
  | data {gs e ty ps n d s} : e.dt ty = some n → datatypeNameOf x n ps = .ok d →
      (stdLib x).validD d s = some true → SMatchS 1 gs (.pat e (.data ty ps)) [] [.text s]
  | dataExcept {gs e ty ps ex n d s} : e.dt ty = some n → datatypeNameOf x n ps = .ok d →
      (stdLib x).validD d s = some true → SEx F x gs (.pat e ex) s false →
      SMatchS 1 gs (.pat e (.dataExcept ty ps ex)) [] [.text s]
  | list {k gs e p s ws} : Words s ws → SMatchS k gs (.pat e p) [] (ws.map Node.text) → SMatchS (k+1) gs (.pat e (.list p)) [] [.text s]
  | ident {k g gs e id a c} : SMatchS k (g :: gs) (.defs (named g id)) a c → SMatchS (k+1) (g :: gs) (.pat e (.ident id)) a c
  | parent {k g gs e id a c} : SMatchS k gs (.pat e (.ident id)) a c → SMatchS (k+1) (g :: gs) (.pat e (.parent id)) a c
  | grammar {k gs e items ds a c} : Expands F e items ds → SMatchS k (ds :: gs) (.defs (named ds "start".toList)) a c →
      SMatchS (k+1) gs (.pat e (.grammar items)) a c
  | externalPattern {k gs e path f sch p a c} : F.join e.file path = some f → F.load f = .ok sch →
      sch.body = .pattern p → SMatchS k gs (.pat (externalEnv e f) p) a c → SMatchS (k+1) gs (.pat e (.external path none)) a c
  | externalGrammar {k gs e path f sch items a c} : F.join e.file path = some f → F.load f = .ok sch →
      sch.body = .grammar items → SMatchS k gs (.pat e (.grammar items)) a c → SMatchS (k+1) gs (.pat e (.external path none)) a c
  | defsChoice {k gs ds d a c} : (∀ d ∈ ds, d.how ≠ .interleave) → d ∈ ds → SMatchS k gs (.pat d.env d.body) a c →
      SMatchS (k+3) gs (.defs ds) a c
  | defsInterleave {k gs ds a c} : (∃ d ∈ ds, d.how = .interleave) → SMatchS k gs (.inter ds) a c → SMatchS (k+1) gs (.defs ds) a c
  | interNil {gs} : SMatchS 1 gs (.inter []) [] []
  | interCons {k1 k2 gs d ds a a1 a2 c c1 c2} : SMatchS k1 gs (.pat d.env d.body) a1 c1 → SMatchS k2 gs (.inter ds) a2 c2 →
      a.Perm (a1 ++ a2) → Shuffle c1 c2 c → SMatchS (k1+k2+1) gs (.inter (d :: ds)) a c

end

variable {F F' : Files} {x : Ext}

theorem SameType.some {e e' : NEnv} {t t' : SDtName} {n : DtName} (h : SameType e e' t t') (h1 : e.dt t = some n) :
    ∃ n', e'.dt t' = Option.some n' ∧ n.canon = n'.canon := by
  unfold SameType at h
  rw [h1] at h
  cases h2 : e'.dt t' with
  | none => rw [h2] at h; cases h
  | some n' => rw [h2] at h; exact ⟨n', rfl, by simpa using h⟩

theorem sized_ex {gs g s b} (h : SEx F x gs g s b) : ∃ k, SExS F x k gs g s b := by
  induction h with
  | value h1 h2 h3 => exact ⟨_, .value h1 h2 h3⟩
  | data h1 h2 h3 => exact ⟨_, .data h1 h2 h3⟩
  | dataExcept h1 h2 h3 _ ih => obtain ⟨k, ih⟩ := ih; exact ⟨_, .dataExcept h1 h2 h3 ih⟩
  | notAllowed => exact ⟨_, .notAllowed⟩
  | choice _ _ i1 i2 => obtain ⟨_, i1⟩ := i1; obtain ⟨_, i2⟩ := i2; exact ⟨_, .choice i1 i2⟩
  | paren _ i => obtain ⟨_, i⟩ := i; exact ⟨_, .paren i⟩
  | ident _ i => obtain ⟨_, i⟩ := i; exact ⟨_, .ident i⟩
  | parent _ i => obtain ⟨_, i⟩ := i; exact ⟨_, .parent i⟩
  | grammar h _ i => obtain ⟨_, i⟩ := i; exact ⟨_, .grammar h i⟩
  | externalPattern h1 h2 h3 _ i => obtain ⟨_, i⟩ := i; exact ⟨_, .externalPattern h1 h2 h3 i⟩
  | externalGrammar h1 h2 h3 _ i => obtain ⟨_, i⟩ := i; exact ⟨_, .externalGrammar h1 h2 h3 i⟩
  | defs h1 h2 _ i => obtain ⟨_, i⟩ := i; exact ⟨_, .defs h1 h2 i⟩
  | altsNil => exact ⟨_, .altsNil⟩
  | altsCons _ _ i1 i2 => obtain ⟨_, i1⟩ := i1; obtain ⟨_, i2⟩ := i2; exact ⟨_, .altsCons i1 i2⟩

theorem sized {gs g a c} (h : SMatch F x gs g a c) : ∃ k, SMatchS F x k gs g a c := by
  induction h with
  | empty => exact ⟨_, .empty⟩
  | text h => exact ⟨_, .text h⟩
  | choiceLeft _ i => obtain ⟨_, i⟩ := i; exact ⟨_, .choiceLeft i⟩
  | choiceRight _ i => obtain ⟨_, i⟩ := i; exact ⟨_, .choiceRight i⟩
  | seq _ _ h i1 i2 => obtain ⟨_, i1⟩ := i1; obtain ⟨_, i2⟩ := i2; exact ⟨_, .seq i1 i2 h⟩
  | inter _ _ h h' i1 i2 => obtain ⟨_, i1⟩ := i1; obtain ⟨_, i2⟩ := i2; exact ⟨_, .inter i1 i2 h h'⟩
  | mixed _ h h' i => obtain ⟨_, i⟩ := i; exact ⟨_, .mixed i h h'⟩
  | paren _ i => obtain ⟨_, i⟩ := i; exact ⟨_, .paren i⟩
  | optionalNone => exact ⟨_, .optionalNone⟩
  | optionalSome _ i => obtain ⟨_, i⟩ := i; exact ⟨_, .optionalSome i⟩
  | zeroOrMoreNil => exact ⟨_, .zeroOrMoreNil⟩
  | zeroOrMoreCons _ _ h i1 i2 => obtain ⟨_, i1⟩ := i1; obtain ⟨_, i2⟩ := i2; exact ⟨_, .zeroOrMoreCons i1 i2 h⟩
  | oneOrMore _ _ h i1 i2 => obtain ⟨_, i1⟩ := i1; obtain ⟨_, i2⟩ := i2; exact ⟨_, .oneOrMore i1 i2 h⟩
  | «attribute» h h' _ i => obtain ⟨_, i⟩ := i; exact ⟨_, .attribute h h' i⟩
  | element h h' _ i => obtain ⟨_, i⟩ := i; exact ⟨_, .element h h' i⟩
  | value h1 h2 h3 => exact ⟨_, .value h1 h2 h3⟩
  | data h1 h2 h3 => exact ⟨_, .data h1 h2 h3⟩
  | dataExcept h1 h2 h3 h4 => exact ⟨_, .dataExcept h1 h2 h3 h4⟩
  | list h _ i => obtain ⟨_, i⟩ := i; exact ⟨_, .list h i⟩
  | ident _ i => obtain ⟨_, i⟩ := i; exact ⟨_, .ident i⟩
  | parent _ i => obtain ⟨_, i⟩ := i; exact ⟨_, .parent i⟩
  | grammar h _ i => obtain ⟨_, i⟩ := i; exact ⟨_, .grammar h i⟩
  | externalPattern h1 h2 h3 _ i => obtain ⟨_, i⟩ := i; exact ⟨_, .externalPattern h1 h2 h3 i⟩
  | externalGrammar h1 h2 h3 _ i => obtain ⟨_, i⟩ := i; exact ⟨_, .externalGrammar h1 h2 h3 i⟩
  | defsChoice h h' _ i => obtain ⟨_, i⟩ := i; exact ⟨_, .defsChoice h h' i⟩
  | defsInterleave h _ i => obtain ⟨_, i⟩ := i; exact ⟨_, .defsInterleave h i⟩
  | interNil => exact ⟨_, .interNil⟩
  | interCons _ _ h h' i1 i2 => obtain ⟨_, i1⟩ := i1; obtain ⟨_, i2⟩ := i2; exact ⟨_, .interCons i1 i2 h h'⟩


/-! ### frames -/

/-- what corresponds says the same, in each of the enclosing grammars -/
def Valid (F F' : Files) : List Frame → Prop
  | [] => True
  | fr :: frs => (∀ y z, fr.same y z → Refac F F' (fr :: frs) (.defs (named fr.left y)) (.defs (named fr.right z))) ∧ Valid F F' frs

/-- the definitions of the first version -/
def lefts (frs : List Frame) : List (List Defn) := frs.map (·.left)
/-- the definitions of the second version -/
def rights (frs : List Frame) : List (List Defn) := frs.map (·.right)

/-- the frame with the versions exchanged -/
def Frame.swap (fr : Frame) : Frame := ⟨fr.right, fr.left, fun y z => fr.same z y⟩

theorem Refac.symm {frs g g'} (h : Refac F F' frs g g') : Refac F' F (frs.map Frame.swap) g' g := by
  induction h with
  | element h _ i => exact .element (fun n => (h n).symm) i
  | «attribute» h _ i => exact .attribute (fun n => (h n).symm) i
  | list _ i => exact .list i
  | mixed _ i => exact .mixed i
  | optional _ i => exact .optional i
  | zeroOrMore _ i => exact .zeroOrMore i
  | oneOrMore _ i => exact .oneOrMore i
  | empty => exact .empty
  | text => exact .text
  | notAllowed => exact .notAllowed
  | value h => exact .value (Eq.symm h)
  | data h => exact .data (Eq.symm h)
  | dataExcept h _ i => exact .dataExcept (Eq.symm h) i
  | seq _ _ i1 i2 => exact .seq i1 i2
  | inter _ _ i1 i2 => exact .inter i1 i2
  | choice _ _ i1 i2 => exact .choice i1 i2
  | interSwap _ _ i1 i2 => exact .interSwap i2 i1
  | choiceSwap _ _ i1 i2 => exact .choiceSwap i2 i1
  | parenLeft _ i => exact .parenRight i
  | parenRight _ i => exact .parenLeft i
  | seqLeft _ i => exact .seqRight i
  | seqRight _ i => exact .seqLeft i
  | interLeft _ i => exact .interRight i
  | interRight _ i => exact .interLeft i
  | choiceLeft _ i => exact .choiceRight i
  | choiceRight _ i => exact .choiceLeft i
  | ident h => exact .ident h
  | parent _ i => exact .parent i
  | inlineLeft h h' _ i => exact .inlineRight (fr := Frame.swap _) h h' i
  | inlineRight h h' _ i => exact .inlineLeft (fr := Frame.swap _) h h' i
  | pasteLeft h1 h2 h3 _ i => exact .pasteRight h1 h2 h3 i
  | pasteRight h1 h2 h3 _ i => exact .pasteLeft h1 h2 h3 i
  | pasteGrammarLeft h1 h2 h3 _ i => exact .pasteGrammarRight h1 h2 h3 i
  | pasteGrammarRight h1 h2 h3 _ i => exact .pasteGrammarLeft h1 h2 h3 i
  | grammar h1 h2 h3 _ i => exact .grammar (fr := Frame.swap _) h2 h1 h3 fun y z hs => i z y hs
  | defsChoice m m' h1 h2 h3 h4 _ _ i5 i6 => exact .defsChoice m' m h2 h1 h4 h3 i6 i5
  | splitLeft h _ i => exact .splitRight h i
  | splitRight h _ i => exact .splitLeft h i
  | defsInter h h' _ i => exact .defsInter h' h i
  | oneLeft h _ i => exact .oneRight h i
  | oneRight h _ i => exact .oneLeft h i
  | interNil => exact .interNil
  | interPick _ _ i1 i2 => exact .interPick i1 i2
  | interSplitLeft _ i => exact .interSplitRight i
  | interSplitRight _ i => exact .interSplitLeft i

theorem Valid.symm : ∀ {frs : List Frame}, Valid F F' frs → Valid F' F (frs.map Frame.swap)
  | [], _ => trivial
  | _ :: _, h => ⟨fun y z hs => (h.1 z y hs).symm, h.2.symm⟩

theorem swap_lefts (frs : List Frame) : lefts (frs.map Frame.swap) = rights frs := by simp [lefts, rights, Frame.swap]
theorem swap_rights (frs : List Frame) : rights (frs.map Frame.swap) = lefts frs := by simp [lefts, rights, Frame.swap]

/-! ### exceptions -/

theorem alts_mem {gs s} : ∀ {ds : List Defn} {k b}, SExS F x k gs (.alts ds) s b →
    (∀ d ∈ ds, ∃ k' b', k' < k ∧ SExS F x k' gs (.pat d.env d.body) s b' ∧ (b = false → b' = false)) ∧
    (b = true → ∃ d ∈ ds, ∃ k', k' < k ∧ SExS F x k' gs (.pat d.env d.body) s true)
  | [], _, _, h => by cases h; exact ⟨nofun, nofun⟩
  | d :: ds, _, _, h => by
    cases h with
    | @altsCons k1 k2 _ _ _ _ b1 b2 h1 h2 =>
      obtain ⟨i1, i2⟩ := alts_mem h2
      constructor
      · intro d' hd
        rcases List.mem_cons.mp hd with rfl | hd
        · exact ⟨k1, b1, by omega, h1, fun h => by cases b1 <;> simp_all⟩
        · obtain ⟨k', b', hk, hx, hb⟩ := i1 d' hd
          exact ⟨k', b', by omega, hx, fun h => hb (by cases b1 <;> simp_all)⟩
      · intro hb
        cases b1 with
        | true => exact ⟨d, List.mem_cons_self, k1, by omega, h1⟩
        | false =>
          obtain ⟨d', hd, k', hk, hx⟩ := i2 (by simpa using hb)
          exact ⟨d', List.mem_cons_of_mem _ hd, k', by omega, hx⟩

theorem alts_false {gs s} : ∀ {ds : List Defn}, (∀ d ∈ ds, SEx F x gs (.pat d.env d.body) s false) → SEx F x gs (.alts ds) s false
  | [], _ => .altsNil
  | d :: _, h => .altsCons (b1 := false) (b2 := false) (h d List.mem_cons_self) (alts_false fun d' hd => h d' (List.mem_cons_of_mem _ hd))

theorem alts_some {gs s} : ∀ {ds : List Defn}, (∀ d ∈ ds, ∃ b, SEx F x gs (.pat d.env d.body) s b) → ∃ b, SEx F x gs (.alts ds) s b
  | [], _ => ⟨_, .altsNil⟩
  | d :: _, h => by
    obtain ⟨b1, h1⟩ := h d List.mem_cons_self
    obtain ⟨b2, h2⟩ := alts_some fun d' hd => h d' (List.mem_cons_of_mem _ hd)
    exact ⟨_, .altsCons h1 h2⟩

theorem alts_true {gs s} : ∀ {ds : List Defn}, (∀ d ∈ ds, ∃ b, SEx F x gs (.pat d.env d.body) s b) →
    (∃ d ∈ ds, SEx F x gs (.pat d.env d.body) s true) → SEx F x gs (.alts ds) s true
  | [], _, h => by obtain ⟨_, h, _⟩ := h; cases h
  | d :: ds, h, ht => by
    obtain ⟨d', hd, ht⟩ := ht
    have hr : ∀ d' ∈ ds, ∃ b, SEx F x gs (.pat d'.env d'.body) s b := fun d' hd => h d' (List.mem_cons_of_mem _ hd)
    rcases List.mem_cons.mp hd with rfl | hd
    · obtain ⟨b2, h2⟩ := alts_some hr
      exact .altsCons (b1 := true) (b2 := b2) ht h2
    · obtain ⟨b1, h1⟩ := h d List.mem_cons_self
      have := SEx.altsCons h1 (alts_true hr ⟨d', hd, ht⟩)
      rwa [Bool.or_true] at this

theorem cast_size {k k' gs g s b} (h : k = k') (hx : SExS F x k gs g s b) : SExS F x k' gs g s b := h ▸ hx

theorem alts_split {gs s n how e p q r} : ∀ {l : List Defn} {k b}, SExS F x k gs (.alts (l ++ ⟨n, how, .choice p q, e⟩ :: r)) s b →
    SExS F x k gs (.alts (l ++ ⟨n, how, p, e⟩ :: ⟨n, how, q, e⟩ :: r)) s b
  | [], _, _, h => by
    cases h with
    | altsCons h1 h2 =>
      cases h1 with
      | @choice k1 k2 _ _ _ _ _ b1 b2 h3 h4 =>
        have := SExS.altsCons (d := ⟨n, how, p, e⟩) h3 (SExS.altsCons (d := ⟨n, how, q, e⟩) h4 h2)
        rw [Bool.or_assoc]
        exact cast_size (by omega) this
  | d :: l, _, _, h => by
    cases h with
    | altsCons h1 h2 => exact .altsCons h1 (alts_split (l := l) h2)

theorem alts_join {gs s n how e p q r} : ∀ {l : List Defn} {b}, SEx F x gs (.alts (l ++ ⟨n, how, p, e⟩ :: ⟨n, how, q, e⟩ :: r)) s b →
    SEx F x gs (.alts (l ++ ⟨n, how, .choice p q, e⟩ :: r)) s b
  | [], _, h => by
    cases h with
    | altsCons h1 h2 =>
      cases h2 with
      | altsCons h2 h3 =>
        rw [← Bool.or_assoc]
        exact .altsCons (d := ⟨n, how, .choice p q, e⟩) (.choice h1 h2) h3
  | d :: l, _, h => by
    cases h with
    | altsCons h1 h2 => exact .altsCons h1 (alts_join (l := l) h2)

theorem not_inter_split {n how e} {p q r : SPattern} {l m : List Defn} (h : ¬ Interleaved (l ++ ⟨n, how, r, e⟩ :: m)) :
    ¬ Interleaved (l ++ ⟨n, how, p, e⟩ :: ⟨n, how, q, e⟩ :: m) := by
  rintro ⟨d, hd, hh⟩
  simp only [List.mem_append, List.mem_cons] at hd
  rcases hd with hd | rfl | rfl | hd
  · exact h ⟨d, by simp [hd], hh⟩
  · exact h ⟨_, List.mem_append_right _ List.mem_cons_self, hh⟩
  · exact h ⟨_, List.mem_append_right _ List.mem_cons_self, hh⟩
  · exact h ⟨d, by simp [hd], hh⟩

theorem not_inter {ds : List Defn} : ¬ Interleaved ds ↔ ∀ d ∈ ds, d.how ≠ .interleave :=
  ⟨fun h d hd hh => h ⟨d, hd, hh⟩, fun h ⟨d, hd, hh⟩ => h d hd hh⟩

/-- an exception of one version has the value it has in the other version -/
theorem ex_step (n : Nat) : ∀ {frs g g'}, Refac F F' frs g g' → Valid F F' frs → ∀ {gs gs'}, gs = lefts frs → gs' = rights frs →
    ∀ {k s b}, k ≤ n → SExS F x k gs g s b → SEx F' x gs' g' s b := by
  induction n using Nat.strongRecOn with
  | _ n outer =>
  intro frs g g' h
  induction h with
  | element | «attribute» | list | mixed | optional | zeroOrMore | oneOrMore | empty | text | seq | inter | interSwap | seqLeft | interLeft
    | interNil | interPick | interSplitLeft => intro _ _ _ _ _ _ _ _ _ h; cases h
  | notAllowed => intro _ _ _ _ _ _ _ _ _ h; cases h; exact .notAllowed
  | value h =>
    intro _ gs gs' hl hr k s b _ hx
    cases hx with
    | value a1 a2 a3 =>
      obtain ⟨n', h2, hk⟩ := SameType.some h a1
      refine .value h2 ?_ a3
      rw [← datatypeValueOf_canon, ← hk, datatypeValueOf_canon]; exact a2
  | data h =>
    intro _ gs gs' hl hr k s b _ hx
    cases hx with
    | data a1 a2 a3 =>
      obtain ⟨n', h2, hk⟩ := SameType.some h a1
      refine .data h2 ?_ a3
      rw [← datatypeNameOf_canon, ← hk, datatypeNameOf_canon]; exact a2
  | dataExcept h _ ih =>
    intro hv gs gs' hl hr k s b hle hx
    cases hx with
    | dataExcept a1 a2 a3 a4 =>
      obtain ⟨n', h2, hk⟩ := SameType.some h a1
      refine .dataExcept h2 ?_ a3 (ih hv hl hr (by omega) a4)
      rw [← datatypeNameOf_canon, ← hk, datatypeNameOf_canon]; exact a2
  | choice _ _ i1 i2 =>
    intro hv gs gs' hl hr k s b hle hx
    cases hx with
    | choice h1 h2 => exact .choice (i1 hv hl hr (by omega) h1) (i2 hv hl hr (by omega) h2)
  | choiceSwap _ _ i1 i2 =>
    intro hv gs gs' hl hr k s b hle hx
    cases hx with
    | choice h1 h2 => rw [Bool.or_comm]; exact .choice (i2 hv hl hr (by omega) h2) (i1 hv hl hr (by omega) h1)
  | parenLeft _ i =>
    intro hv gs gs' hl hr k s b hle hx
    cases hx with
    | paren h => exact i hv hl hr (by omega) h
  | parenRight _ i => intro hv gs gs' hl hr k s b hle hx; exact .paren (i hv hl hr hle hx)
  | choiceLeft _ i =>
    intro hv gs gs' hl hr k s b hle hx
    cases hx with
    | choice h1 h2 =>
      cases h1 with
      | choice h1 h3 => rw [Bool.or_assoc]; exact i hv hl hr (by omega) (.choice h1 (.choice h3 h2))
  | choiceRight _ i =>
    intro hv gs gs' hl hr k s b hle hx
    cases i hv hl hr hle hx with
    | choice h1 h2 =>
      cases h2 with
      | choice h2 h3 => rw [← Bool.or_assoc]; exact .choice (.choice h1 h2) h3
  | seqRight _ i => intro hv gs gs' hl hr k s b hle hx; cases i hv hl hr hle hx
  | interRight _ i => intro hv gs gs' hl hr k s b hle hx; cases i hv hl hr hle hx
  | ident hs =>
    intro hv gs gs' hl hr k s b hle hx
    cases hx with
    | ident h => cases hl; cases hr; exact .ident (outer _ (by omega) (hv.1 _ _ hs) hv rfl rfl (Nat.le_refl _) h)
  | parent _ i =>
    intro hv gs gs' hl hr k s b hle hx
    cases hx with
    | parent h => cases hl; cases hr; exact .parent (i hv.2 rfl rfl (by omega) h)
  | inlineLeft hd hh _ i =>
    intro hv gs gs' hl hr k s b hle hx
    cases hx with
    | ident h =>
      cases hl
      rw [hd] at h
      cases h with
      | defs _ _ h =>
        cases h with
        | altsCons h1 h2 => cases h2; rw [Bool.or_false]; exact i hv rfl hr (by omega) h1
  | inlineRight hd hh _ i =>
    intro hv gs gs' hl hr k s b hle hx
    have h := i hv hl hr hle hx
    subst hr
    refine .ident ?_
    rw [hd]
    have := SEx.altsCons h (SEx.altsNil)
    rw [Bool.or_false] at this
    exact .defs (by simp) (by simpa using hh) this
  | pasteLeft h1 h2 h3 _ i =>
    intro hv gs gs' hl hr k s b hle hx
    cases hx with
    | externalPattern a1 a2 a3 h =>
      rw [h1] at a1; cases a1; rw [h2] at a2; cases a2; rw [h3] at a3; cases a3
      exact i hv hl hr (by omega) h
    | externalGrammar a1 a2 a3 h =>
      rw [h1] at a1; cases a1; rw [h2] at a2; cases a2; rw [h3] at a3; cases a3
  | pasteGrammarLeft h1 h2 h3 _ i =>
    intro hv gs gs' hl hr k s b hle hx
    cases hx with
    | externalGrammar a1 a2 a3 h =>
      rw [h1] at a1; cases a1; rw [h2] at a2; cases a2; rw [h3] at a3; cases a3
      exact i hv hl hr (by omega) h
    | externalPattern a1 a2 a3 h =>
      rw [h1] at a1; cases a1; rw [h2] at a2; cases a2; rw [h3] at a3; cases a3
  | pasteRight h1 h2 h3 _ i => intro hv gs gs' hl hr k s b hle hx; exact .externalPattern h1 h2 h3 (i hv hl hr hle hx)
  | pasteGrammarRight h1 h2 h3 _ i => intro hv gs gs' hl hr k s b hle hx; exact .externalGrammar h1 h2 h3 (i hv hl hr hle hx)
  | grammar h1 h2 h3 h4 i =>
    intro hv gs gs' hl hr k s b hle hx
    cases hx with
    | grammar a1 h => cases a1.det h1; subst hl; subst hr; exact .grammar h2 (i _ _ h3 ⟨h4, hv⟩ rfl rfl (by omega) h)
  | defsChoice m m' h1 h2 h3 h4 _ _ i5 i6 =>
    intro hv gs gs' hl hr k s b hle hx
    cases hx with
    | defs a1 a2 h =>
      obtain ⟨j1, j2⟩ := alts_mem h
      have hne : _ ≠ [] := a1
      refine .defs ?_ (not_inter.mp h2) ?_
      · intro he
        subst he
        exact a1 (List.eq_nil_iff_forall_not_mem.mpr fun d hd => by have := h3 d hd; cases this)
      · cases b with
        | false =>
          refine alts_false fun d hd => ?_
          obtain ⟨k', b', hk, hx, hb⟩ := j1 _ (h4 d hd)
          cases hb rfl
          exact i6 d hd hv hl hr (by omega) hx
        | true =>
          refine alts_true (fun d hd => ?_) ?_
          · obtain ⟨k', b', hk, hx, hb⟩ := j1 _ (h4 d hd)
            exact ⟨b', i6 d hd hv hl hr (by omega) hx⟩
          · obtain ⟨d, hd, k', hk, hx⟩ := j2 rfl
            exact ⟨m d, h3 d hd, i5 d hd hv hl hr (by omega) hx⟩
  | splitLeft hn _ i =>
    intro hv gs gs' hl hr k s b hle hx
    cases hx with
    | defs a1 a2 h => exact i hv hl hr hle (.defs (by simp) (not_inter.mp (not_inter_split hn)) (alts_split h))
  | splitRight hn _ i =>
    intro hv gs gs' hl hr k s b hle hx
    cases i hv hl hr hle hx with
    | defs a1 a2 h => exact .defs (by simp) (not_inter.mp hn) (alts_join h)
  | defsInter hi =>
    intro hv gs gs' hl hr k s b hle hx
    cases hx with
    | defs a1 a2 h => exact absurd hi (not_inter.mpr a2)
  | oneLeft =>
    intro hv gs gs' hl hr k s b hle hx
    cases hx with
    | defs a1 a2 h =>
      cases h with
      | altsCons h _ => cases h
  | oneRight hi =>
    intro hv gs gs' hl hr k s b hle hx
    cases hx with
    | defs a1 a2 h => exact absurd hi (not_inter.mpr a2)
  | interSplitRight _ i => intro hv gs gs' hl hr k s b hle hx; cases i hv hl hr hle hx


/-! ### matching -/

theorem cast_sizeM {k k' gs g a c} (h : k = k') (hx : SMatchS F x k gs g a c) : SMatchS F x k' gs g a c := h ▸ hx

theorem perm_mid {α : Type} {a b c d e f : List α} (h1 : a.Perm (b ++ c)) (h2 : c.Perm (d ++ e)) (h3 : f = d) : a.Perm (f ++ (b ++ e)) := by
  subst h3
  refine h1.trans ?_
  refine (List.Perm.append_left b h2).trans ?_
  rw [← List.append_assoc, ← List.append_assoc]
  exact List.Perm.append_right e List.perm_append_comm

/-- one of several interleaved definitions taken out -/
theorem inter_take {gs} {d : Defn} {r : List Defn} : ∀ {l : List Defn} {k a c}, SMatchS F x k gs (.inter (l ++ d :: r)) a c →
    ∃ k1 k2 a1 a2 c1 c2, k1 < k ∧ k2 < k ∧ SMatchS F x k1 gs (.pat d.env d.body) a1 c1 ∧ SMatchS F x k2 gs (.inter (l ++ r)) a2 c2 ∧
      a.Perm (a1 ++ a2) ∧ Shuffle c1 c2 c
  | [], _, _, _, h => by
    cases h with
    | interCons h1 h2 hp hs => exact ⟨_, _, _, _, _, _, by omega, by omega, h1, h2, hp, hs⟩
  | d' :: l, _, _, _, h => by
    cases h with
    | interCons h1 h2 hp hs =>
      obtain ⟨k1, k2, a1, a2, c1, c2, hk1, hk2, m1, m2, hp', hs'⟩ := inter_take (l := l) h2
      obtain ⟨w, s1, s2⟩ := Shuffle.assoc' hs' hs
      obtain ⟨v, s3, s4⟩ := Shuffle.assoc s1.symm s2
      exact ⟨_, _, a1, _, c1, v, by omega, by omega, m1, .interCons h1 m2 (.refl _) s3, perm_mid hp hp' rfl, s4⟩

theorem inter_put {gs a1 c1} {d : Defn} {r : List Defn} : ∀ {l : List Defn} {a2 c2 a c}, SMatch F x gs (.pat d.env d.body) a1 c1 →
    SMatch F x gs (.inter (l ++ r)) a2 c2 → a.Perm (a1 ++ a2) → Shuffle c1 c2 c → SMatch F x gs (.inter (l ++ d :: r)) a c
  | [], _, _, _, _, h1, h2, hp, hs => .interCons h1 h2 hp hs
  | d' :: l, _, _, _, _, h1, h2, hp, hs => by
    cases h2 with
    | interCons m1 m2 hp' hs' =>
      obtain ⟨w, s1, s2⟩ := Shuffle.assoc' hs' hs
      obtain ⟨v, s3, s4⟩ := Shuffle.assoc s1.symm s2
      exact .interCons m1 (inter_put (l := l) h1 m2 (.refl _) s3) (perm_mid hp hp' rfl) s4

theorem inter_split {gs n how e p q r} : ∀ {l : List Defn} {k a c}, SMatchS F x k gs (.inter (l ++ ⟨n, how, .inter p q, e⟩ :: r)) a c →
    SMatchS F x k gs (.inter (l ++ ⟨n, how, p, e⟩ :: ⟨n, how, q, e⟩ :: r)) a c
  | [], _, _, _, h => by
    cases h with
    | interCons h1 h2 hp hs =>
      cases h1 with
      | inter h3 h4 hp' hs' =>
        obtain ⟨v, s1, s2⟩ := Shuffle.assoc hs' hs
        refine cast_sizeM ?_ (.interCons (d := ⟨n, how, p, e⟩) h3 (.interCons (d := ⟨n, how, q, e⟩) h4 h2 (.refl _) s1) ?_ s2)
        · omega
        · rw [← List.append_assoc]; exact hp.trans (hp'.append_right _)
  | d :: l, _, _, _, h => by
    cases h with
    | interCons h1 h2 hp hs => exact .interCons h1 (inter_split (l := l) h2) hp hs

theorem inter_join {gs n how e p q r} : ∀ {l : List Defn} {a c}, SMatch F x gs (.inter (l ++ ⟨n, how, p, e⟩ :: ⟨n, how, q, e⟩ :: r)) a c →
    SMatch F x gs (.inter (l ++ ⟨n, how, .inter p q, e⟩ :: r)) a c
  | [], _, _, h => by
    cases h with
    | interCons h1 h2 hp hs =>
      cases h2 with
      | interCons h2 h3 hp' hs' =>
        obtain ⟨w, s1, s2⟩ := Shuffle.assoc' hs' hs
        refine .interCons (d := ⟨n, how, .inter p q, e⟩) (.inter h1 h2 (.refl _) s1) h3 ?_ s2
        rw [List.append_assoc]; exact hp.trans (hp'.append_left _)
  | d :: l, _, _, h => by
    cases h with
    | interCons h1 h2 hp hs => exact .interCons h1 (inter_join (l := l) h2) hp hs

/-- what matches one version matches the other -/
theorem match_step (n : Nat) : ∀ {frs g g'}, Refac F F' frs g g' → Valid F F' frs → ∀ {gs gs'}, gs = lefts frs → gs' = rights frs →
    ∀ {k a c}, k ≤ n → SMatchS F x k gs g a c → SMatch F' x gs' g' a c := by
  induction n using Nat.strongRecOn with
  | _ n outer =>
  intro frs g g' h
  induction h with
  | element hn _ i =>
    intro hv gs gs' hl hr k a c hle hx
    cases hx with
    | element h1 h2 h3 => exact .element ((hn _).mp h1) h2 (i hv hl hr (by omega) h3)
  | «attribute» hn _ i =>
    intro hv gs gs' hl hr k a c hle hx
    cases hx with
    | «attribute» h1 h2 h3 => exact .attribute ((hn _).mp h1) h2 (i hv hl hr (by omega) h3)
  | list _ i =>
    intro hv gs gs' hl hr k a c hle hx
    cases hx with
    | list h1 h2 => exact .list h1 (i hv hl hr (by omega) h2)
  | mixed _ i =>
    intro hv gs gs' hl hr k a c hle hx
    cases hx with
    | mixed h1 h2 h3 => exact .mixed (i hv hl hr (by omega) h1) h2 h3
  | optional _ i =>
    intro hv gs gs' hl hr k a c hle hx
    cases hx with
    | optionalNone => exact .optionalNone
    | optionalSome h => exact .optionalSome (i hv hl hr (by omega) h)
  | zeroOrMore hh i =>
    intro hv gs gs' hl hr k a c hle hx
    cases hx with
    | zeroOrMoreNil => exact .zeroOrMoreNil
    | @zeroOrMoreCons k1 k2 _ _ _ _ _ _ _ _ h1 h2 hp =>
      exact .zeroOrMoreCons (i hv hl hr (by omega) h1) (outer k2 (by omega) (.zeroOrMore hh) hv hl hr (Nat.le_refl _) h2) hp
  | oneOrMore hh i =>
    intro hv gs gs' hl hr k a c hle hx
    cases hx with
    | @oneOrMore k1 k2 _ _ _ _ _ _ _ _ h1 h2 hp =>
      exact .oneOrMore (i hv hl hr (by omega) h1) (outer k2 (by omega) (.zeroOrMore hh) hv hl hr (Nat.le_refl _) h2) hp
  | empty => intro hv gs gs' hl hr k a c hle hx; cases hx; exact .empty
  | text =>
    intro hv gs gs' hl hr k a c hle hx
    cases hx with
    | text h => exact .text h
  | notAllowed => intro hv gs gs' hl hr k a c hle hx; cases hx
  | value h =>
    intro hv gs gs' hl hr k a c hle hx
    cases hx with
    | value a1 a2 a3 =>
      obtain ⟨n', h2, hk⟩ := SameType.some h a1
      refine .value h2 ?_ a3
      rw [← datatypeValueOf_canon, ← hk, datatypeValueOf_canon]; exact a2
  | data h =>
    intro hv gs gs' hl hr k a c hle hx
    cases hx with
    | data a1 a2 a3 =>
      obtain ⟨n', h2, hk⟩ := SameType.some h a1
      refine .data h2 ?_ a3
      rw [← datatypeNameOf_canon, ← hk, datatypeNameOf_canon]; exact a2
  | dataExcept h hh _ =>
    intro hv gs gs' hl hr k a c hle hx
    cases hx with
    | dataExcept a1 a2 a3 a4 =>
      obtain ⟨n', h2, hk⟩ := SameType.some h a1
      obtain ⟨j, hj⟩ := sized_ex a4
      refine .dataExcept h2 ?_ a3 (ex_step j hh hv hl hr (Nat.le_refl _) hj)
      rw [← datatypeNameOf_canon, ← hk, datatypeNameOf_canon]; exact a2
  | seq _ _ i1 i2 =>
    intro hv gs gs' hl hr k a c hle hx
    cases hx with
    | seq h1 h2 hp => exact .seq (i1 hv hl hr (by omega) h1) (i2 hv hl hr (by omega) h2) hp
  | inter _ _ i1 i2 =>
    intro hv gs gs' hl hr k a c hle hx
    cases hx with
    | inter h1 h2 hp hs => exact .inter (i1 hv hl hr (by omega) h1) (i2 hv hl hr (by omega) h2) hp hs
  | choice _ _ i1 i2 =>
    intro hv gs gs' hl hr k a c hle hx
    cases hx with
    | choiceLeft h => exact .choiceLeft (i1 hv hl hr (by omega) h)
    | choiceRight h => exact .choiceRight (i2 hv hl hr (by omega) h)
  | interSwap _ _ i1 i2 =>
    intro hv gs gs' hl hr k a c hle hx
    cases hx with
    | inter h1 h2 hp hs => exact .inter (i2 hv hl hr (by omega) h2) (i1 hv hl hr (by omega) h1) (hp.trans List.perm_append_comm) hs.symm
  | choiceSwap _ _ i1 i2 =>
    intro hv gs gs' hl hr k a c hle hx
    cases hx with
    | choiceLeft h => exact .choiceRight (i1 hv hl hr (by omega) h)
    | choiceRight h => exact .choiceLeft (i2 hv hl hr (by omega) h)
  | parenLeft _ i =>
    intro hv gs gs' hl hr k a c hle hx
    cases hx with
    | paren h => exact i hv hl hr (by omega) h
  | parenRight _ i => intro hv gs gs' hl hr k a c hle hx; exact .paren (i hv hl hr hle hx)
  | seqLeft _ i =>
    intro hv gs gs' hl hr k a c hle hx
    cases hx with
    | seq h1 h2 hp =>
      cases h1 with
      | seq h1 h3 hp' =>
        rw [List.append_assoc]
        refine i hv hl hr ?_ (.seq h1 (.seq h3 h2 (.refl _)) ?_)
        · omega
        · rw [← List.append_assoc]; exact hp.trans (hp'.append_right _)
  | seqRight _ i =>
    intro hv gs gs' hl hr k a c hle hx
    cases i hv hl hr hle hx with
    | seq h1 h2 hp =>
      cases h2 with
      | seq h2 h3 hp' =>
        rw [← List.append_assoc]
        refine .seq (.seq h1 h2 (.refl _)) h3 ?_
        rw [List.append_assoc]; exact hp.trans (hp'.append_left _)
  | interLeft _ i =>
    intro hv gs gs' hl hr k a c hle hx
    cases hx with
    | inter h1 h2 hp hs =>
      cases h1 with
      | inter h1 h3 hp' hs' =>
        obtain ⟨v, s1, s2⟩ := Shuffle.assoc hs' hs
        refine i hv hl hr ?_ (.inter h1 (.inter h3 h2 (.refl _) s1) ?_ s2)
        · omega
        · rw [← List.append_assoc]; exact hp.trans (hp'.append_right _)
  | interRight _ i =>
    intro hv gs gs' hl hr k a c hle hx
    cases i hv hl hr hle hx with
    | inter h1 h2 hp hs =>
      cases h2 with
      | inter h2 h3 hp' hs' =>
        obtain ⟨w, s1, s2⟩ := Shuffle.assoc' hs' hs
        refine .inter (.inter h1 h2 (.refl _) s1) h3 ?_ s2
        rw [List.append_assoc]; exact hp.trans (hp'.append_left _)
  | choiceLeft _ i =>
    intro hv gs gs' hl hr k a c hle hx
    cases hx with
    | choiceLeft h =>
      cases h with
      | choiceLeft h => exact i hv hl hr (by omega) (.choiceLeft h)
      | choiceRight h => exact i hv hl hr (by omega) (.choiceRight (.choiceLeft h))
    | choiceRight h => exact i hv hl hr (by omega) (.choiceRight (.choiceRight h))
  | choiceRight _ i =>
    intro hv gs gs' hl hr k a c hle hx
    cases i hv hl hr hle hx with
    | choiceLeft h => exact .choiceLeft (.choiceLeft h)
    | choiceRight h =>
      cases h with
      | choiceLeft h => exact .choiceLeft (.choiceRight h)
      | choiceRight h => exact .choiceRight h
  | ident hs =>
    intro hv gs gs' hl hr k a c hle hx
    cases hx with
    | ident h => cases hl; cases hr; exact .ident (outer _ (by omega) (hv.1 _ _ hs) hv rfl rfl (Nat.le_refl _) h)
  | parent _ i =>
    intro hv gs gs' hl hr k a c hle hx
    cases hx with
    | parent h => cases hl; cases hr; exact .parent (i hv.2 rfl rfl (by omega) h)
  | inlineLeft hd hh _ i =>
    intro hv gs gs' hl hr k a c hle hx
    cases hx with
    | ident h =>
      cases hl
      rw [hd] at h
      cases h with
      | defsChoice _ hm h =>
        cases List.mem_singleton.mp hm
        exact i hv rfl hr (by omega) h
      | defsInterleave he _ =>
        obtain ⟨d, hm, he⟩ := he
        cases List.mem_singleton.mp hm
        exact absurd he hh
  | inlineRight hd hh _ i =>
    intro hv gs gs' hl hr k a c hle hx
    have h := i hv hl hr hle hx
    subst hr
    refine .ident ?_
    rw [hd]
    exact .defsChoice (by simpa using hh) List.mem_cons_self h
  | pasteLeft h1 h2 h3 _ i =>
    intro hv gs gs' hl hr k a c hle hx
    cases hx with
    | externalPattern a1 a2 a3 h =>
      rw [h1] at a1; cases a1; rw [h2] at a2; cases a2; rw [h3] at a3; cases a3
      exact i hv hl hr (by omega) h
    | externalGrammar a1 a2 a3 h =>
      rw [h1] at a1; cases a1; rw [h2] at a2; cases a2; rw [h3] at a3; cases a3
  | pasteGrammarLeft h1 h2 h3 _ i =>
    intro hv gs gs' hl hr k a c hle hx
    cases hx with
    | externalGrammar a1 a2 a3 h =>
      rw [h1] at a1; cases a1; rw [h2] at a2; cases a2; rw [h3] at a3; cases a3
      exact i hv hl hr (by omega) h
    | externalPattern a1 a2 a3 h =>
      rw [h1] at a1; cases a1; rw [h2] at a2; cases a2; rw [h3] at a3; cases a3
  | pasteRight h1 h2 h3 _ i => intro hv gs gs' hl hr k a c hle hx; exact .externalPattern h1 h2 h3 (i hv hl hr hle hx)
  | pasteGrammarRight h1 h2 h3 _ i => intro hv gs gs' hl hr k a c hle hx; exact .externalGrammar h1 h2 h3 (i hv hl hr hle hx)
  | grammar h1 h2 h3 h4 i =>
    intro hv gs gs' hl hr k a c hle hx
    cases hx with
    | grammar a1 h => cases a1.det h1; subst hl; subst hr; exact .grammar h2 (i _ _ h3 ⟨h4, hv⟩ rfl rfl (by omega) h)
  | defsChoice m m' h1 h2 h3 h4 _ _ i5 i6 =>
    intro hv gs gs' hl hr k a c hle hx
    cases hx with
    | defsChoice _ hm h => exact .defsChoice (not_inter.mp h2) (h3 _ hm) (i5 _ hm hv hl hr (by omega) h)
    | defsInterleave he _ => exact absurd he h1
  | splitLeft hn _ i =>
    intro hv gs gs' hl hr k a c hle hx
    have hn' := not_inter.mp (not_inter_split (p := ‹_›) (q := ‹_›) hn)
    cases hx with
    | defsInterleave he _ => exact absurd he hn
    | defsChoice _ hm h =>
      rcases List.mem_append.mp hm with hm | hm
      · exact i hv hl hr hle (.defsChoice (not_inter.mp (not_inter_split hn)) (List.mem_append_left _ hm) h)
      · rcases List.mem_cons.mp hm with rfl | hm
        · cases h with
          | choiceLeft h =>
            exact i hv hl hr (by omega) (.defsChoice (d := ⟨_, _, _, _⟩) (not_inter.mp (not_inter_split hn)) (List.mem_append_right _ List.mem_cons_self) h)
          | choiceRight h =>
            exact i hv hl hr (by omega) (.defsChoice (d := ⟨_, _, _, _⟩) (not_inter.mp (not_inter_split hn))
              (List.mem_append_right _ (List.mem_cons_of_mem _ List.mem_cons_self)) h)
        · exact i hv hl hr hle (.defsChoice (not_inter.mp (not_inter_split hn)) (List.mem_append_right _ (List.mem_cons_of_mem _ (List.mem_cons_of_mem _ hm))) h)
  | splitRight hn _ i =>
    intro hv gs gs' hl hr k a c hle hx
    cases i hv hl hr hle hx with
    | defsInterleave he _ => exact absurd he (not_inter_split hn)
    | defsChoice _ hm h =>
      rcases List.mem_append.mp hm with hm | hm
      · exact .defsChoice (not_inter.mp hn) (List.mem_append_left _ hm) h
      · rcases List.mem_cons.mp hm with rfl | hm
        · exact .defsChoice (not_inter.mp hn) (List.mem_append_right _ List.mem_cons_self) (.choiceLeft h)
        · rcases List.mem_cons.mp hm with rfl | hm
          · exact .defsChoice (not_inter.mp hn) (List.mem_append_right _ List.mem_cons_self) (.choiceRight h)
          · exact .defsChoice (not_inter.mp hn) (List.mem_append_right _ (List.mem_cons_of_mem _ hm)) h
  | defsInter hi hi' _ i =>
    intro hv gs gs' hl hr k a c hle hx
    cases hx with
    | defsChoice hn _ _ => exact absurd hi (not_inter.mpr hn)
    | defsInterleave _ h => exact .defsInterleave hi' (i hv hl hr (by omega) h)
  | oneLeft hi' _ i =>
    intro hv gs gs' hl hr k a c hle hx
    cases hx with
    | defsChoice hn hm h =>
      cases List.mem_singleton.mp hm
      cases h with
      | inter h1 h2 hp hs =>
        refine .defsInterleave hi' (i hv hl hr ?_ (.interCons (d := ⟨_, _, _, _⟩) h1 (.interCons (d := ⟨_, _, _, _⟩) h2 .interNil (by rw [List.append_nil]) (Shuffle.refl_left _)) hp hs))
        omega
    | defsInterleave _ h =>
      exact .defsInterleave hi' (i hv hl hr (by omega) (inter_split (l := []) h))
  | @oneRight _ n0 how _ _ _ _ hi _ i =>
    intro hv gs gs' hl hr k a c hle hx
    cases hx with
    | defsChoice hn _ _ => exact absurd hi (not_inter.mpr hn)
    | defsInterleave _ h =>
      have := inter_join (l := []) (i hv hl hr (by omega) h)
      cases this with
      | interCons h1 h2 hp hs =>
        by_cases hh : how = .interleave
        · exact .defsInterleave ⟨_, List.mem_cons_self, hh⟩ (.interCons h1 h2 hp hs)
        · cases h2
          rw [List.append_nil] at hp
          have := hs.nil_right
          subst this
          cases h1 with
          | inter h1 h2 hp' hs' =>
            exact .defsChoice (by simpa using hh) List.mem_cons_self (.inter h1 h2 (hp.trans hp') hs')
  | interNil => intro hv gs gs' hl hr k a c hle hx; cases hx; exact .interNil
  | interPick _ _ i1 i2 =>
    intro hv gs gs' hl hr k a c hle hx
    obtain ⟨k1, k2, a1, a2, c1, c2, hk1, hk2, m1, m2, hp, hs⟩ := inter_take hx
    exact inter_put (a2 := a2) (c2 := c2) (i1 hv hl hr (by omega) m1) (i2 hv hl hr (by omega) m2) hp hs
  | interSplitLeft _ i => intro hv gs gs' hl hr k a c hle hx; exact i hv hl hr hle (inter_split hx)
  | interSplitRight _ i => intro hv gs gs' hl hr k a c hle hx; exact inter_join (i hv hl hr hle hx)

theorem Refac.iff {frs g g'} (h : Refac F F' frs g g') (hv : Valid F F' frs) {a c} :
    SMatch F x (lefts frs) g a c ↔ SMatch F' x (rights frs) g' a c := by
  constructor
  · intro hm
    obtain ⟨k, hk⟩ := sized hm
    exact match_step k h hv rfl rfl (Nat.le_refl _) hk
  · intro hm
    obtain ⟨k, hk⟩ := sized hm
    exact match_step k h.symm hv.symm (swap_lefts frs).symm (swap_rights frs).symm (Nat.le_refl _) hk

end Verif.Refac
