import Verif.Props.XmlSpans
import Verif.Props.SchemaFindings
/-
Concrete cases for C71: documents with their trees, read and compiled.
-/
namespace Verif.RngAt.Ex
open Verif Verif.At Verif.LXml Verif.Rng
open Verif.Ex (str ext)

/-! ### checking that a tree is that of a text -/

/-- split a text after `n` bytes -/
def splitB : Nat → Str → Option (Str × Str)
  | 0, s => some ([], s)
  | _ + 1, [] => none
  | n + 1, c :: s => if c.utf8Size ≤ n + 1 then (splitB (n + 1 - c.utf8Size) s).map fun p => (c :: p.1, p.2) else none
termination_by structural _ s => s

theorem splitB_ok {n : Nat} {s a b : Str} (h : splitB n s = some (a, b)) : s = a ++ b ∧ byteLen a = n := by
  induction s generalizing n a b with
  | nil =>
    cases n with
    | zero => rw [splitB] at h; cases h; exact ⟨rfl, rfl⟩
    | succ n => rw [splitB] at h; cases h
  | cons c s ih =>
    cases n with
    | zero => rw [splitB] at h; cases h; exact ⟨rfl, rfl⟩
    | succ n =>
      rw [splitB] at h
      split at h
      · next hc =>
        cases hs : splitB (n + 1 - c.utf8Size) s with
        | none => rw [hs] at h; cases h
        | some p =>
          rw [hs] at h
          cases h
          obtain ⟨h1, h2⟩ := ih hs
          exact ⟨by rw [h1]; rfl, by rw [bl_cons, h2]; omega⟩
      · cases h

/-- the piece of text at a range -/
def cutOf (text : Str) (r : Rg) : Option Str := do
  let p ← splitB r.lo text
  let q ← splitB (r.hi - r.lo) p.2
  if r.lo ≤ r.hi then some q.1 else none

theorem cutOf_ok {text : Str} {r : Rg} {w : Str} (h : cutOf text r = some w) : Cut text r w := by
  unfold cutOf at h
  cases h1 : splitB r.lo text with
  | none => rw [h1] at h; cases h
  | some p =>
    rw [h1] at h
    cases h2 : splitB (r.hi - r.lo) p.2 with
    | none =>
      replace h : (splitB (r.hi - r.lo) p.2).bind (fun q => if r.lo ≤ r.hi then some q.1 else none) = some w := h
      rw [h2] at h; cases h
    | some q =>
      replace h : (splitB (r.hi - r.lo) p.2).bind (fun q => if r.lo ≤ r.hi then some q.1 else none) = some w := h
      rw [h2] at h
      replace h : (if r.lo ≤ r.hi then some q.1 else none) = some w := h
      split at h
      · next hle =>
        cases h
        obtain ⟨e1, e2⟩ := splitB_ok (a := p.1) (b := p.2) h1
        obtain ⟨e3, e4⟩ := splitB_ok (a := q.1) (b := q.2) h2
        exact ⟨p.1, q.2, by rw [e1, e3]; simp, e2.symm, by omega⟩
      · cases h

/-- written `name="value"`, without prefix and references -/
def writtenB (text : Str) (a : LAttr) : Bool :=
  decide (cutOf text a.at_ = some (a.name ++ "=".toList ++ '"' :: a.value ++ ['"'])) && decide ('&' ∉ a.value) &&
    decide (a.valueAt = ⟨a.at_.lo + byteLen a.name + 2, a.at_.lo + byteLen a.name + 2 + byteLen a.value⟩)

theorem decodes_self {v : Str} (h : '&' ∉ v) : RngAt.Decodes v v := by
  induction v with
  | nil => exact .nil
  | cons c v ih => exact .char (fun e => h (by rw [e]; exact List.mem_cons_self ..)) (ih fun hm => h (List.mem_cons_of_mem _ hm))

theorem writtenB_ok {text : Str} {a : LAttr} (h : writtenB text a = true) : RngAt.Written text a := by
  unfold writtenB at h
  simp only [Bool.and_eq_true, decide_eq_true_eq] at h
  obtain ⟨⟨h1, h2⟩, h3⟩ := h
  have e1 : byteLen "=".toList = 1 := rfl
  have e2 : ('"' : Char).utf8Size = 1 := rfl
  refine ⟨[], "=".toList, '"', a.value, by simpa using cutOf_ok h1, .inl rfl, ?_, decodes_self h2⟩
  rw [h3]
  simp only [List.nil_append, bl_append, bl_cons, bl_nil, e1, e2]
  congr 1 <;> omega

def withinB (r r' : Rg) : Bool := decide (r'.lo ≤ r.lo) && decide (r.hi ≤ r'.hi)

/-- after the first colon -/
def afterColon : Str → Option Str
  | [] => none
  | c :: w => if c = ':' then some w else afterColon w

theorem afterColon_ok {w w' : Str} (h : afterColon w = some w') : ∃ p, w = p ++ ':' :: w' := by
  induction w with
  | nil => cases h
  | cons c w ih =>
    unfold afterColon at h
    split at h
    · next hc => cases h; exact ⟨[], by rw [hc]; rfl⟩
    · obtain ⟨p, rfl⟩ := ih h; exact ⟨c :: p, rfl⟩

/-- after the `<`: the name, perhaps with a prefix -/
def tagB (name : Str) : Str → Bool
  | '<' :: w => name.isPrefixOf w || match afterColon w with
    | some w' => name.isPrefixOf w'
    | none => false
  | _ => false

theorem isPrefixOf_ok {a b : Str} (h : a.isPrefixOf b = true) : ∃ c, b = a ++ c := by
  obtain ⟨c, h⟩ := List.isPrefixOf_iff_prefix.1 h
  exact ⟨c, h.symm⟩

theorem tagB_ok {name w : Str} (h : tagB name w = true) : ∃ pre rest, w = '<' :: pre ++ name ++ rest ∧ (pre = [] ∨ ∃ p, pre = p ++ [':']) := by
  unfold tagB at h
  split at h
  · next w =>
    rw [Bool.or_eq_true] at h
    rcases h with h | h
    · obtain ⟨c, rfl⟩ := isPrefixOf_ok h; exact ⟨[], c, rfl, .inl rfl⟩
    · cases ha : afterColon w with
      | none => rw [ha] at h; cases h
      | some w' =>
        rw [ha] at h
        obtain ⟨d, rfl⟩ := isPrefixOf_ok h
        obtain ⟨p, rfl⟩ := afterColon_ok ha
        exact ⟨p ++ [':'], d, by simp, .inr ⟨p, rfl⟩⟩
  · cases h

mutual
/-- `Depicts`, for documents without references -/
def depictsB (text : Str) : LNode → Bool
  | .element r _ name _ as kids =>
    (match cutOf text r with
      | some w => tagB name w
      | none => false) && as.all (fun a => writtenB text a && withinB a.at_ r) && kidsB text r kids
  | .text r _ => (cutOf text r).isSome
  | .comment r _ => (cutOf text r).isSome
  | .pi r _ _ => (cutOf text r).isSome
def kidsB (text : Str) (r : Rg) : List LNode → Bool
  | [] => true
  | k :: ks => depictsB text k && withinB k.at_ r && (match k with
      | .text tr s => decide (tr.lo + byteLen s ≤ r.hi)
      | _ => true) && kidsB text r ks
end

mutual
theorem depictsB_ok {text : Str} : ∀ {n : LNode}, depictsB text n = true → Depicts text n
  | .element r ns name sc as kids, h => by
    unfold depictsB at h
    simp only [Bool.and_eq_true, List.all_eq_true] at h
    obtain ⟨⟨h1, h2⟩, h3⟩ := h
    have hk := kidsB_ok h3
    split at h1
    · next w hw =>
      obtain ⟨pre, rest, rfl, hp⟩ := tagB_ok h1
      refine .element (pre := pre) (rest := rest) (cutOf_ok hw) hp (fun a ha => ?_) (fun k hk' => (hk k hk').1) (fun k hk' => (hk k hk').2.1)
        (fun tr s ht => (hk _ ht).2.2 tr s rfl)
      obtain ⟨h4, h5⟩ := h2 a ha
      unfold withinB at h5
      simp only [Bool.and_eq_true, decide_eq_true_eq] at h5
      exact ⟨writtenB_ok h4, h5⟩
    · cases h1
  | .text r s, h => by
    unfold depictsB at h
    obtain ⟨w, hw⟩ := Option.isSome_iff_exists.1 h
    exact .text (cutOf_ok hw)
  | .comment r s, h => by
    unfold depictsB at h
    obtain ⟨w, hw⟩ := Option.isSome_iff_exists.1 h
    exact .comment (cutOf_ok hw)
  | .pi r t v, h => by
    unfold depictsB at h
    obtain ⟨w, hw⟩ := Option.isSome_iff_exists.1 h
    exact .pi (cutOf_ok hw)
theorem kidsB_ok {text : Str} {r : Rg} : ∀ {ks : List LNode}, kidsB text r ks = true →
    ∀ k ∈ ks, Depicts text k ∧ Within k.at_ r ∧ ∀ tr s, k = .text tr s → tr.lo + byteLen s ≤ r.hi
  | [], _ => nofun
  | k :: ks, h => by
    unfold kidsB at h
    simp only [Bool.and_eq_true] at h
    obtain ⟨⟨⟨h1, h2⟩, h3⟩, h4⟩ := h
    have hd := depictsB_ok h1
    have hr := kidsB_ok h4
    intro k' hk'
    rcases List.mem_cons.1 hk' with rfl | hk'
    · refine ⟨hd, ?_, ?_⟩
      · unfold withinB at h2
        simp only [Bool.and_eq_true, decide_eq_true_eq] at h2
        exact h2
      · rintro tr s rfl
        simpa using h3
    · exact hr k' hk'
end

/-! ### the documents -/

def rngNs : Str := "http://relaxng.org/ns/structure/1.0".toList

/-- an element with a reference inside -/
def smallText : Str := str "<element xmlns=\"http://relaxng.org/ns/structure/1.0\" name=\"a\"><ref name=\"b\"/></element>"
def small : LNode :=
  .element ⟨0, 87⟩ (some rngNs) (str "element") [(none, rngNs)] [⟨⟨53, 61⟩, ⟨59, 60⟩, none, str "name", str "a"⟩] [.element ⟨62, 77⟩ (some rngNs) (str "ref") [(none, rngNs)] [⟨⟨67, 75⟩, ⟨73, 74⟩, none, str "name", str "b"⟩] []]

/-- an identifier with a wrong character -/
def wrongCharText : Str := str "<ref xmlns=\"http://relaxng.org/ns/structure/1.0\" name=\"a+b\"/>"
def wrongChar : LNode :=
  .element ⟨0, 61⟩ (some rngNs) (str "ref") [(none, rngNs)] [⟨⟨49, 59⟩, ⟨55, 58⟩, none, str "name", str "a+b"⟩] []

/-- the wrong character takes three bytes -/
def wideCharText : Str := str "<ref xmlns=\"http://relaxng.org/ns/structure/1.0\" name=\"a→b\"/>"
def wideChar : LNode :=
  .element ⟨0, 63⟩ (some rngNs) (str "ref") [(none, rngNs)] [⟨⟨49, 61⟩, ⟨55, 60⟩, none, str "name", str "a→b"⟩] []

/-- white space before the name -/
def spacedText : Str := str "<ref xmlns=\"http://relaxng.org/ns/structure/1.0\" name=\"  ab+\"/>"
def spaced : LNode :=
  .element ⟨0, 63⟩ (some rngNs) (str "ref") [(none, rngNs)] [⟨⟨49, 61⟩, ⟨55, 60⟩, none, str "name", str "  ab+"⟩] []

/-- a prefix that is not declared -/
def unknownText : Str := str "<element xmlns=\"http://relaxng.org/ns/structure/1.0\" name=\"p:a\"><empty/></element>"
def unknown : LNode :=
  .element ⟨0, 82⟩ (some rngNs) (str "element") [(none, rngNs)] [⟨⟨53, 63⟩, ⟨59, 62⟩, none, str "name", str "p:a"⟩] [.element ⟨64, 72⟩ (some rngNs) (str "empty") [(none, rngNs)] [] []]

/-- a prefix in a `name` element -/
def prefixNameText : Str := str "<element xmlns=\"http://relaxng.org/ns/structure/1.0\" xmlns:p=\"u\"><name>p:x</name><empty/></element>"
def prefixName : LNode :=
  .element ⟨0, 99⟩ (some rngNs) (str "element") [(none, rngNs), (some (str "p"), str "u")] [] [.element ⟨65, 81⟩ (some rngNs) (str "name") [(none, rngNs), (some (str "p"), str "u")] [] [.text ⟨71, 74⟩ (str "p:x")], .element ⟨81, 89⟩ (some rngNs) (str "empty") [(none, rngNs), (some (str "p"), str "u")] [] []]

/-- tags with a prefix -/
def taggedText : Str := str "<rng:element xmlns:rng=\"http://relaxng.org/ns/structure/1.0\" name=\"a\"><rng:empty/></rng:element>"
def tagged : LNode :=
  .element ⟨0, 96⟩ (some rngNs) (str "element") [(some (str "rng"), rngNs)] [⟨⟨61, 69⟩, ⟨67, 68⟩, none, str "name", str "a"⟩] [.element ⟨70, 82⟩ (some rngNs) (str "empty") [(some (str "rng"), rngNs)] [] []]

/-- a definition that refers to itself -/
def recursiveText : Str := str "<grammar xmlns=\"http://relaxng.org/ns/structure/1.0\"><start><ref name=\"a\"/></start><define name=\"a\"><ref name=\"a\"/></define></grammar>"
def recursive : LNode :=
  .element ⟨0, 134⟩ (some rngNs) (str "grammar") [(none, rngNs)] [] [.element ⟨53, 83⟩ (some rngNs) (str "start") [(none, rngNs)] [] [.element ⟨60, 75⟩ (some rngNs) (str "ref") [(none, rngNs)] [⟨⟨65, 73⟩, ⟨71, 72⟩, none, str "name", str "a"⟩] []], .element ⟨83, 124⟩ (some rngNs) (str "define") [(none, rngNs)] [⟨⟨91, 99⟩, ⟨97, 98⟩, none, str "name", str "a"⟩] [.element ⟨100, 115⟩ (some rngNs) (str "ref") [(none, rngNs)] [⟨⟨105, 113⟩, ⟨111, 112⟩, none, str "name", str "a"⟩] []]]

/-- an element inside an attribute -/
def inAttributeText : Str := str "<attribute xmlns=\"http://relaxng.org/ns/structure/1.0\" name=\"a\"><element name=\"b\"><empty/></element></attribute>"
def inAttribute : LNode :=
  .element ⟨0, 112⟩ (some rngNs) (str "attribute") [(none, rngNs)] [⟨⟨55, 63⟩, ⟨61, 62⟩, none, str "name", str "a"⟩] [.element ⟨64, 100⟩ (some rngNs) (str "element") [(none, rngNs)] [⟨⟨73, 81⟩, ⟨79, 80⟩, none, str "name", str "b"⟩] [.element ⟨82, 90⟩ (some rngNs) (str "empty") [(none, rngNs)] [] []]]

/-- two patterns in `start` -/
def twoInStartText : Str := str "<grammar xmlns=\"http://relaxng.org/ns/structure/1.0\"><start><!-- é --><empty/><text/></start></grammar>"
def twoInStart : LNode :=
  .element ⟨0, 104⟩ (some rngNs) (str "grammar") [(none, rngNs)] [] [.element ⟨53, 94⟩ (some rngNs) (str "start") [(none, rngNs)] [] [.comment ⟨60, 71⟩ (str " é "), .element ⟨71, 79⟩ (some rngNs) (str "empty") [(none, rngNs)] [] [], .element ⟨79, 86⟩ (some rngNs) (str "text") [(none, rngNs)] [] []]]

/-- every URI is acceptable -/
def uri : Str → UriKind := fun _ => .fine

theorem small_depicted : Depicts smallText small := depictsB_ok (by decide +kernel)
theorem wrongChar_depicted : Depicts wrongCharText wrongChar := depictsB_ok (by decide +kernel)
theorem wideChar_depicted : Depicts wideCharText wideChar := depictsB_ok (by decide +kernel)
theorem spaced_depicted : Depicts spacedText spaced := depictsB_ok (by decide +kernel)
theorem unknown_depicted : Depicts unknownText unknown := depictsB_ok (by decide +kernel)
theorem prefixName_depicted : Depicts prefixNameText prefixName := depictsB_ok (by decide +kernel)
theorem tagged_depicted : Depicts taggedText tagged := depictsB_ok (by decide +kernel)
theorem recursive_depicted : Depicts recursiveText recursive := depictsB_ok (by decide +kernel)
theorem inAttribute_depicted : Depicts inAttributeText inAttribute := depictsB_ok (by decide +kernel)
theorem twoInStart_depicted : Depicts twoInStartText twoInStart := depictsB_ok (by decide +kernel)

/-- how reading a document fails -/
def readErr (n : LNode) : Option XErr :=
  match LXml.parse uri n with
  | .ok _ => none
  | .error e => some e

/-- the files of a schema with one document -/
def one (t : Str) (n : LNode) : Str → Option (Str × LDoc) := fun f => if f = str "main" then some (t, .tree n) else none

theorem one_depicted {t : Str} {n : LNode} (h : Depicts t n) : Depicted (one t n) := by
  intro f t' root hf
  unfold one at hf
  split at hf
  · cases hf; exact h
  · cases hf

/-- how compiling a document fails -/
def failure (t : Str) (n : LNode) : Option LFault :=
  match At.compileFile (LXml.xmlFiles uri (one t n)) ext 30 30 (str "main") (.fresh []) with
  | .ok _ => none
  | .error e => some e

theorem failure_eq {t : Str} {n : LNode} {e : LFault} (h : failure t n = some e) :
    At.compileFile (LXml.xmlFiles uri (one t n)) ext 30 30 (str "main") (.fresh []) = .error e := by
  unfold failure at h
  split at h
  · cases h
  · next e' he => cases h; exact he

/-! ### schemas without `external` and `parent` -/

mutual
/-- neither `external` nor `parent` inside -/
def homeP : LPat → Bool
  | .element _ _ p => homeP p
  | .attribute _ _ p => homeP p
  | .list p => homeP p
  | .mixed p => homeP p
  | .parent _ _ => false
  | .external _ _ _ => false
  | .grammar _ is => homeIs is
  | .paren p => homeP p
  | .seq a b => homeP a && homeP b
  | .inter a b => homeP a && homeP b
  | .choice a b => homeP a && homeP b
  | .optional p => homeP p
  | .zeroOrMore p => homeP p
  | .oneOrMore p => homeP p
  | .dataExcept _ _ p => homeP p
  | _ => true
def homeI : LItem → Bool
  | .define _ _ _ p => homeP p
  | .div is => homeIs is
  | .include _ _ _ os => homeOs os
  | .annotation => true
def homeIs : List LItem → Bool
  | [] => true
  | i :: is => homeI i && homeIs is
def homeO : LOverride → Bool
  | .define _ _ _ p => homeP p
  | _ => true
def homeOs : List LOverride → Bool
  | [] => true
  | o :: os => homeO o && homeOs os
end

def homeT : LTree → Bool
  | .pat p => homeP p
  | .items is => homeIs is

theorem homeIs_mem : ∀ {is : List LItem} {i : LItem}, homeIs is = true → i ∈ is → homeI i = true
  | j :: is, i, h, hm => by
    unfold homeIs at h
    rw [Bool.and_eq_true] at h
    rcases List.mem_cons.1 hm with rfl | hm
    · exact h.1
    · exact homeIs_mem h.2 hm

theorem homeOs_mem : ∀ {is : List LOverride} {i : LOverride}, homeOs is = true → i ∈ is → homeO i = true
  | j :: is, i, h, hm => by
    unfold homeOs at h
    rw [Bool.and_eq_true] at h
    rcases List.mem_cons.1 hm with rfl | hm
    · exact h.1
    · exact homeOs_mem h.2 hm

theorem home_inside {a b : LTree} (h : homeT a = true) (hi : At.Inside a b) : homeT b = true := by
  cases hi with
  | define hm => have := homeIs_mem h hm; unfold homeI at this; exact this
  | div hm => have := homeIs_mem h hm; unfold homeI at this; exact this
  | override hm ho =>
    have := homeIs_mem h hm
    unfold homeI at this
    have := homeOs_mem this ho
    unfold homeO at this
    exact this
  | seqLeft | interLeft | choiceLeft => unfold homeT homeP at h; rw [Bool.and_eq_true] at h; exact h.1
  | seqRight | interRight | choiceRight => unfold homeT homeP at h; rw [Bool.and_eq_true] at h; exact h.2
  | _ => unfold homeT homeP at h; exact h

theorem home_part {a b : LTree} (h : homeT a = true) (hp : PartOf a b) : homeT b = true := by
  induction hp with
  | refl => exact h
  | step hi _ ih => exact ih (home_inside h hi)

/-- no file contains `external` or `parent` -/
def Home (F : LFiles) : Prop := ∀ f s, F.load f = .ok s → homeT s.root = true

theorem Home.noExternal {F : LFiles} {name : Str} (h : Home F) : NoExternalGrammar F name := by
  intro f src r path i g s is ho
  obtain ⟨s', hs, hp⟩ := ho.part
  exact absurd (home_part (h _ _ hs) hp) (by simp [homeT, homeP])

theorem Home.parents {F : LFiles} {name : Str} (h : Home F) : ParentsAtHome F name := by
  intro f src r id ho
  obtain ⟨s', hs, hp⟩ := ho.part
  exact absurd (home_part (h _ _ hs) hp) (by simp [homeT, homeP])

/-- a document that contains neither -/
def homeDoc (n : LNode) : Bool :=
  match LXml.parse uri n with
  | .ok s => homeT s.root
  | .error _ => true

theorem homeDoc_ok {t : Str} {n : LNode} (h : homeDoc n = true) : Home (LXml.xmlFiles uri (one t n)) := by
  intro f s hs
  obtain ⟨t', root, ht, hp⟩ := load_xml hs
  unfold one at ht
  split at ht
  · cases ht
    unfold homeDoc at h
    rw [hp] at h
    exact h
  · cases ht

/-! ### reading -/

/-- **C71**: the positions of a small document. -/
theorem C71_case_positions :
    LXml.parse uri small = .ok ⟨[], .pattern (.element ⟨1, 8⟩ (.namespaced [] (str "a")) (.ident ⟨73, 74⟩ (str "b")))⟩ := by rfl

/-- from the general theorems: they lie where they should -/
theorem C71_case_stands : Stands small .element ⟨1, 8⟩ ∧ Stands small (.ref (str "b")) ⟨73, 74⟩ :=
  ⟨C71_positions_stand C71_case_positions .refl .element, C71_positions_stand C71_case_positions (.step .element .refl) .ref⟩

mutual
/-- no prefixed tags inside -/
def noPrefixB (text : Str) : LNode → Bool
  | .element r _ name _ _ kids =>
    (match cutOf text r with
      | some ('<' :: w) => name.isPrefixOf w
      | _ => false) && noPrefixKids text kids
  | _ => true
def noPrefixKids (text : Str) : List LNode → Bool
  | [] => true
  | k :: ks => noPrefixB text k && noPrefixKids text ks
end

theorem noPrefixKids_mem {text : Str} : ∀ {ks : List LNode} {k : LNode}, noPrefixKids text ks = true → k ∈ ks → noPrefixB text k = true
  | j :: ks, k, h, hm => by
    unfold noPrefixKids at h
    rw [Bool.and_eq_true] at h
    rcases List.mem_cons.1 hm with rfl | hm
    · exact h.1
    · exact noPrefixKids_mem h.2 hm

theorem noPrefixB_ok {text : Str} {root : LNode} (h : noPrefixB text root = true) : Unprefixed text root := by
  have key : ∀ cx n, Descends root cx n → noPrefixB text n = true := by
    intro cx n hd
    induction hd with
    | root => exact h
    | kid _ hk ih => unfold noPrefixB at ih; rw [Bool.and_eq_true] at ih; exact noPrefixKids_mem ih.2 hk
  intro cx r ns name sc as kids hd
  have := key _ _ hd
  unfold noPrefixB at this
  rw [Bool.and_eq_true] at this
  obtain ⟨h1, _⟩ := this
  split at h1
  · next w hw =>
    obtain ⟨c, rfl⟩ := isPrefixOf_ok h1
    exact ⟨c, cutOf_ok hw⟩
  · cases h1

theorem one_unprefixed {t : Str} {n : LNode} (h : noPrefixB t n = true) : AllUnprefixed (one t n) := by
  intro f t' root hf
  unfold one at hf
  split at hf
  · cases hf; exact noPrefixB_ok h
  · cases hf

theorem small_unprefixed : Unprefixed smallText small := noPrefixB_ok (by decide +kernel)

/-- the position of the reference shows its name -/
theorem C71_case_shows : Shows smallText (.ref (str "b")) ⟨73, 74⟩ :=
  C71_positions_show_the_source C71_case_positions small_depicted small_unprefixed (.step .element .refl) .ref

/-- **C71**: documents with faults, and where they are reported.  The wrong character is shown in the first.  In the second it takes
three bytes, and the position covers only the first of them.  In the third there is white space before the name, and the position is off
by two.  The fourth shows the prefix, the fifth the second pattern. -/
theorem C71_case_faults :
    (readErr wrongChar = some (.unexpected ⟨56, 57⟩ "Unexpected character within identifier") ∧ cutOf wrongCharText ⟨56, 57⟩ = some (str "+")) ∧
    (readErr wideChar = some (.unexpected ⟨56, 57⟩ "Unexpected character within identifier") ∧ cutOf wideCharText ⟨56, 59⟩ = some (str "→")) ∧
    (readErr spaced = some (.unexpected ⟨57, 58⟩ "Unexpected character within identifier") ∧ cutOf spacedText ⟨57, 58⟩ = some (str "a") ∧
      cutOf spacedText ⟨59, 60⟩ = some (str "+")) ∧
    (readErr unknown = some (.unexpected ⟨59, 60⟩ "Unknown namespace prefix") ∧ cutOf unknownText ⟨59, 60⟩ = some (str "p")) ∧
    (readErr twoInStart = some (.unexpected ⟨79, 86⟩ "Unexpected element") ∧ cutOf twoInStartText ⟨79, 86⟩ = some (str "<text/>")) := by
  decide +kernel

theorem err_of {n : LNode} {e : XErr} (h : readErr n = some e) : LXml.parse uri n = .error e := by
  unfold readErr at h
  split at h
  · cases h
  · next e' he => cases h; exact he

/-- the same from the general theorem: these errors name faults, whose places lie in the text -/
theorem C71_case_fault : RngAt.Fault uri wideChar (.unexpected ⟨56, 57⟩ "Unexpected character within identifier") :=
  C71_errors_name_faults (err_of C71_case_faults.2.1.1)

/-- the position of the three-byte character cuts it -/
theorem C71_case_wide (w : Str) : ¬ Cut wideCharText ⟨56, 57⟩ w :=
  cut_wide (r := ⟨55, 60⟩) (a := str "a") (b := str "b") (c := '→') (cutOf_ok (by decide +kernel)) (by decide)

/-- the second pattern is a fault that is shown as a whole -/
theorem C71_case_piece : ∃ w, Cut twoInStartText ⟨79, 86⟩ w :=
  C71_errors_show_a_piece (C71_errors_name_faults (err_of C71_case_faults.2.2.2.2.1)) twoInStart_depicted (by decide)

/-! ### compiling -/

/-- **C71**: the errors of the schema compiler.  The prefix `p` (which is declared, but not for the compiler) stands at 71; the error is at the `<`
of its element. -/
theorem C71_case_failures :
    (failure prefixNameText prefixName = some (.err (.undefinedNamespacePrefix ⟨str "main", 65, 66⟩ (str "p"))) ∧
      cutOf prefixNameText ⟨65, 66⟩ = some (str "<") ∧ cutOf prefixNameText ⟨71, 72⟩ = some (str "p")) ∧
    (failure recursiveText recursive = some (.err (.recursiveReference (str "a") ⟨str "main", 111, 112⟩ ⟨str "main", 97, 98⟩)) ∧
      cutOf recursiveText ⟨111, 112⟩ = some (str "a") ∧ cutOf recursiveText ⟨97, 98⟩ = some (str "a")) ∧
    (failure inAttributeText inAttribute = some (.err (.elementAsChildOfAttribute ⟨str "main", 1, 10⟩ ⟨str "main", 65, 72⟩)) ∧
      cutOf inAttributeText ⟨1, 10⟩ = some (str "attribute") ∧ cutOf inAttributeText ⟨65, 72⟩ = some (str "element")) ∧
    failure taggedText tagged = none := by decide +kernel

/-- the hypotheses of `C71_undefined_prefix_is_misplaced` are met -/
theorem C71_case_misplaced : ¬ Quotes (textsOf (one prefixNameText prefixName)) ⟨str "main", 65, 66⟩ (str "p") :=
  (C71_undefined_prefix_is_misplaced (one_depicted prefixName_depicted) (homeDoc_ok (by decide +kernel)).noExternal (failure_eq C71_case_failures.1.1)).2.2

/-- those of `C71_recursion_is_quoted` are met -/
theorem C71_case_recursion : QuotesName (textsOf (one recursiveText recursive)) ⟨str "main", 111, 112⟩ (str "a") :=
  have h : Home (LXml.xmlFiles uri (one recursiveText recursive)) := homeDoc_ok (by decide +kernel)
  (C71_recursion_is_quoted (one_depicted recursive_depicted) (one_unprefixed (by decide +kernel)) h.noExternal h.parents (failure_eq C71_case_failures.2.1.1)).1

/-- those of `C71_element_in_attribute_is_quoted` are met -/
theorem C71_case_in_attribute : Quotes (textsOf (one inAttributeText inAttribute)) ⟨str "main", 65, 72⟩ "element".toList :=
  (C71_element_in_attribute_is_quoted (one_depicted inAttribute_depicted) (one_unprefixed (by decide +kernel)) (homeDoc_ok (by decide +kernel)).noExternal
    (failure_eq C71_case_failures.2.2.1.1)).2

/-- a document with prefixed tags is read and compiled; its element is shown as `rng:ele` -/
theorem C71_case_tagged : Stands tagged .element ⟨1, 8⟩ ∧ cutOf taggedText ⟨1, 8⟩ = some (str "rng:ele") ∧ ¬ Cut taggedText ⟨1, 8⟩ "element".toList := by
  refine ⟨.element (cx := []) (r := ⟨0, 96⟩) .root, by decide +kernel, ?_⟩
  exact C71_prefixed_tag_is_not_shown (r := ⟨0, 96⟩) (p := str "rng") (rest := taggedText.drop 12) (cutOf_ok (by decide +kernel)) (fun q h => by cases h)

end Verif.RngAt.Ex
