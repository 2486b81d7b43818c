import Verif.Proof.LiveRun
import Verif.Proof.Doc
/-
Beginnings of documents as tokens (proof device for C77).
-/
set_option linter.unusedSectionVars false
namespace Verif
open Viable
variable {D V : Type}

/-- tokens read so far -/
def lvToks : List Lvl → List Token
  | [] => []
  | l :: ls => .elementStart l.pre l.loc :: (l.atts.map RawAttr.tok ++ .elementEnd .open :: (toksL l.kids ++ lvToks ls))

/-- the element of a level, closed -/
def Lvl.elem (l : Lvl) : XNode := .elem l.pre l.loc l.atts false l.kids

/-- close all open elements, putting the given contents before the end tags -/
def fillX : List Lvl → List (List XNode) → List XNode
  | l :: ls, e :: es => [.elem l.pre l.loc l.atts false (l.kids ++ (fillX ls es ++ e))]
  | l :: ls, [] => [.elem l.pre l.loc l.atts false (l.kids ++ fillX ls [])]
  | [], _ => []

/-- the levels are what their tags mean -/
inductive LvOK (f : Str → Option Str) : List (Str × Str) → List Lvl → Prop
  | nil {scope} : LvOK f scope []
  | cons {scope l ls} : elemName (nsDecls l.atts ++ scope) l.pre l.loc = some l.nm →
      AttsMean f (nsDecls l.atts ++ scope) (plainAtts l.atts) l.as → Resolves f (nsDecls l.atts ++ scope) l.kids l.kns →
      LvOK f (nsDecls l.atts ++ scope) ls → LvOK f scope (l :: ls)

/-- nothing, or ends in an element -/
def EndE (xs : List XNode) : Prop := xs = [] ∨ ∃ ys pre loc atts sc kids, xs = ys ++ [.elem pre loc atts sc kids]

/-- content, cut off at a tag: what has been read at this level, and the open elements below it -/
inductive Cut (f : Str → Option Str) : List (Str × Str) → List XNode → List Node → List XNode → List Node → List Lvl → Prop
  | here {scope done later dn ln} : Resolves f scope done dn → EndE done → Cut f scope (done ++ later) (dn ++ ln) done dn []
  | inside {scope done dn pre loc atts kids kns later ln nm as kdone kdn ls} : Resolves f scope done dn →
      elemName (nsDecls atts ++ scope) pre loc = some nm → AttsMean f (nsDecls atts ++ scope) (plainAtts atts) as →
      Cut f (nsDecls atts ++ scope) kids kns kdone kdn ls →
      Cut f scope (done ++ .elem pre loc atts false kids :: later) (dn ++ .elem nm as (joinText kns) :: ln) done dn
        (⟨pre, loc, atts, kdone, nm, as, kdn⟩ :: ls)

/-! ### every beginning that ends in a tag is such a cut -/

def TagEnd (ts : List Token) : Prop := ts = [] ∨ ∃ u e, ts = u ++ [.elementEnd e]

def NoEnd (ts : List Token) : Prop := ∀ e, Token.elementEnd e ∉ ts

theorem TagEnd.tail {t ts} (h : TagEnd (t :: ts)) : TagEnd ts := by
  rcases h with h | ⟨u, e, h⟩
  · cases h
  · cases u with
    | nil => simp at h; exact .inl h.2
    | cons x u => simp at h; exact .inr ⟨u, e, h.2⟩

theorem TagEnd.split : ∀ {a ts rest x : List Token}, NoEnd a → TagEnd ts → ts ≠ [] → a ++ x = ts ++ rest →
    ∃ ts', ts = a ++ ts' ∧ TagEnd ts' ∧ ts' ≠ [] ∧ x = ts' ++ rest
  | [], ts, rest, x, _, h1, h2, h3 => ⟨ts, rfl, h1, h2, h3⟩
  | t :: a, [], rest, x, _, _, h2, _ => absurd rfl h2
  | t :: a, t' :: ts, rest, x, hn, h1, h2, h3 => by
    simp only [List.cons_append, List.cons.injEq] at h3
    obtain ⟨rfl, h3⟩ := h3
    have hts : ts ≠ [] := by
      intro e; subst e
      rcases h1 with h | ⟨u, e, h⟩
      · cases h
      · cases u with
        | nil => simp at h; exact hn e (by simp [h])
        | cons x u => simp at h
    obtain ⟨ts', rfl, g1, g2, g3⟩ := TagEnd.split (fun e h => hn e (List.mem_cons_of_mem _ h)) h1.tail hts h3
    exact ⟨ts', rfl, g1, g2, g3⟩

theorem Resolves.nilInv {f scope ns} (h : Resolves f scope [] ns) : ns = [] := by cases h; rfl

theorem Resolves.append {f scope a b na nb} (h : Resolves f scope a na) (hb : Resolves f scope b nb) : Resolves f scope (a ++ b) (na ++ nb) := by
  induction h with
  | nil => exact hb
  | text h1 _ ih => exact .text h1 (ih hb)
  | cdata _ ih => exact .cdata (ih hb)
  | comment _ ih => exact .comment (ih hb)
  | pi _ ih => exact .pi (ih hb)
  | elem h1 h2 h3 h4 _ _ ih => exact .elem h1 h2 h3 h4 (ih hb)

/-- one more piece in front -/
theorem Cut.front {f scope x nx xs ns done dn ls} (hx : ∀ {ys ny}, Resolves f scope ys ny → Resolves f scope (x :: ys) (nx ++ ny))
    (h : Cut f scope xs ns done dn ls) (he : done ≠ [] ∨ ls ≠ [] ∨ EndE [x]) : Cut f scope (x :: xs) (nx ++ ns) (x :: done) (nx ++ dn) ls := by
  cases h with
  | here h1 h2 =>
    rw [← List.append_assoc]
    refine .here (done := x :: done) (hx h1) ?_
    rcases h2 with rfl | ⟨ys, pre, loc, atts, sc, kids, rfl⟩
    · rcases he with h | h | h
      · exact absurd rfl h
      · exact absurd rfl h
      · exact h
    · exact .inr ⟨x :: ys, pre, loc, atts, sc, kids, rfl⟩
  | inside h1 h2 h3 h4 =>
    rw [← List.append_assoc]
    exact .inside (done := x :: done) (hx h1) h2 h3 h4

theorem noEnd_start (pre loc : Str) (atts : List RawAttr) : NoEnd (.elementStart pre loc :: atts.map RawAttr.tok) := by
  intro e h
  rcases List.mem_cons.mp h with h | h
  · cases h
  · obtain ⟨a, _, h⟩ := List.mem_map.mp h
    cases h

theorem cut_exists {f scope xs ns} (h : Resolves f scope xs ns) : ∀ {ts rest}, toksL xs = ts ++ rest → TagEnd ts →
    ∃ done dn ls, Cut f scope xs ns done dn ls ∧ ts = toksL done ++ lvToks ls := by
  have none : ∀ {scope xs ns}, Cut f scope xs ns [] [] [] := fun {scope xs ns} => .here (done := []) (dn := []) .nil (.inl rfl)
  -- a piece that is one token, not a tag
  have one : ∀ {scope x t nx xs ns}, x.toks = [t] → (∀ e, t ≠ .elementEnd e) →
      (∀ {ys ny}, Resolves f scope ys ny → Resolves f scope (x :: ys) (nx ++ ny)) →
      (∀ {ts rest}, toksL xs = ts ++ rest → TagEnd ts → ∃ done dn ls, Cut f scope xs ns done dn ls ∧ ts = toksL done ++ lvToks ls) →
      ∀ {ts rest}, toksL (x :: xs) = ts ++ rest → TagEnd ts →
      ∃ done dn ls, Cut f scope (x :: xs) (nx ++ ns) done dn ls ∧ ts = toksL done ++ lvToks ls := by
    intro scope x t nx xs ns hx ht hr ih ts rest he hte
    cases ts with
    | nil => exact ⟨[], [], [], none, rfl⟩
    | cons t' ts =>
      simp only [toksL, hx, List.cons_append, List.nil_append, List.cons.injEq] at he
      obtain ⟨rfl, he⟩ := he
      obtain ⟨done, dn, ls, hc, rfl⟩ := ih he hte.tail
      refine ⟨x :: done, _, ls, hc.front hr ?_, by simp [toksL, hx]⟩
      cases done with
      | cons => exact .inl (by simp)
      | nil =>
        cases ls with
        | cons => exact .inr (.inl (by simp))
        | nil =>
          rcases hte with h | ⟨u, e, h⟩
          · cases h
          · cases u with
            | nil => simp [toksL, lvToks] at h; exact absurd h (ht e)
            | cons y u => simp [toksL, lvToks] at h
  induction h with
  | nil =>
    intro ts rest he _
    simp only [toksL] at he
    have : ts = [] := by cases ts; rfl; cases he
    exact ⟨[], [], [], none, this⟩
  | text h1 _ ih => exact one (nx := [_]) rfl (by simp) (fun h => .text h1 h) ih
  | cdata _ ih => exact one (nx := [_]) rfl (by simp) (fun h => .cdata h) ih
  | comment _ ih => exact one (nx := []) rfl (by simp) (fun h => .comment h) ih
  | pi _ ih => exact one (nx := []) rfl (by simp) (fun h => .pi h) ih
  | @elem scope pre loc atts sc kids kns nm as xs ns h1 h2 h3 h4 _ ih1 ih2 =>
    intro ts rest he hte
    have hr : ∀ {ys ny}, Resolves f scope ys ny → Resolves f scope (.elem pre loc atts sc kids :: ys) ([.elem nm as (joinText kns)] ++ ny) :=
      fun h => .elem h1 h2 h3 h4 h
    cases ts with
    | nil => exact ⟨[], [], [], none, rfl⟩
    | cons t ts =>
      have full : ∀ {ts2}, toksL xs = ts2 ++ rest → TagEnd ts2 → ∃ done dn ls,
          Cut f scope (.elem pre loc atts sc kids :: xs) (.elem nm as (joinText kns) :: ns) done dn ls ∧
          (XNode.elem pre loc atts sc kids).toks ++ ts2 = toksL done ++ lvToks ls := by
        intro ts2 h1 h2
        obtain ⟨done, dn, ls, hc, rfl⟩ := ih2 h1 h2
        exact ⟨_, _, ls, hc.front hr (.inr (.inr (.inr ⟨[], _, _, _, _, _, rfl⟩))), by simp [toksL]⟩
      cases sc with
      | true =>
        simp only [toksL, XNode.toks] at he
        have he' : (Token.elementStart pre loc :: atts.map RawAttr.tok) ++ (Token.elementEnd .empty :: toksL xs) = (t :: ts) ++ rest := by
          rw [← he]; simp
        obtain ⟨ts', e1, e2, e3, e4⟩ := TagEnd.split (noEnd_start pre loc atts) hte (by simp) he'
        cases ts' with
        | nil => exact absurd rfl e3
        | cons y ts2 =>
          simp only [List.cons_append, List.cons.injEq] at e4
          obtain ⟨rfl, e4⟩ := e4
          obtain ⟨done, dn, ls, hc, hts⟩ := full e4 e2.tail
          refine ⟨done, dn, ls, hc, ?_⟩
          rw [e1, ← hts]
          simp [XNode.toks]
      | false =>
        simp only [toksL, XNode.toks] at he
        have he' : (Token.elementStart pre loc :: atts.map RawAttr.tok) ++
            (Token.elementEnd .open :: (toksL kids ++ (.elementEnd (.close pre loc) :: toksL xs))) = (t :: ts) ++ rest := by
          rw [← he]; simp
        obtain ⟨ts', e1, e2, e3, e4⟩ := TagEnd.split (noEnd_start pre loc atts) hte (by simp) he'
        cases ts' with
        | nil => exact absurd rfl e3
        | cons y ts2 =>
          simp only [List.cons_append, List.cons.injEq] at e4
          obtain ⟨rfl, e4⟩ := e4
          have ins : ∀ {r2}, toksL kids = ts2 ++ r2 → ∃ done dn ls,
              Cut f scope (.elem pre loc atts false kids :: xs) (.elem nm as (joinText kns) :: ns) done dn ls ∧ t :: ts = toksL done ++ lvToks ls := by
            intro r2 h
            obtain ⟨kdone, kdn, ls, hc, hts⟩ := ih1 h e2.tail
            refine ⟨[], [], _, .inside (done := []) (dn := []) .nil h1 h2 hc, ?_⟩
            rw [e1, hts]
            simp [toksL, lvToks]
          rcases List.append_eq_append_iff.mp e4 with ⟨c, g1, g2⟩ | ⟨c, g1, g2⟩
          · cases c with
            | nil => exact ins (r2 := []) (by simpa using g1.symm)
            | cons z c =>
              simp only [List.cons_append, List.cons.injEq] at g2
              obtain ⟨rfl, g2⟩ := g2
              have hte2 : TagEnd c := by
                have h := e2.tail
                rw [g1] at h
                rcases h with h | ⟨u, e, h⟩
                · simp at h
                · have hl : (toksL kids ++ Token.elementEnd (.close pre loc) :: c).getLast? = some (.elementEnd e) := by rw [h]; simp
                  rcases List.eq_nil_or_concat c with rfl | ⟨c', z, rfl⟩
                  · exact .inl rfl
                  · rw [List.concat_eq_append] at hl ⊢
                    have : (toksL kids ++ Token.elementEnd (.close pre loc) :: (c' ++ [z])).getLast? = some z := by
                      rw [show toksL kids ++ Token.elementEnd (.close pre loc) :: (c' ++ [z]) = (toksL kids ++ Token.elementEnd (.close pre loc) :: c') ++ [z] by simp]
                      exact List.getLast?_concat
                    rw [this] at hl
                    cases hl
                    exact .inr ⟨c', e, rfl⟩
              obtain ⟨done, dn, ls, hc, hts⟩ := full g2 hte2
              refine ⟨done, dn, ls, hc, ?_⟩
              rw [e1, ← hts, g1]
              simp [XNode.toks]
          · exact ins g1

end Verif
