import Verif.Proof.SchemaBlame2
/-
A schema that compiles has all the positions that are recorded in the files they are taken for.
-/
namespace Verif.At
open Verif

namespace LM
variable {α β : Type}

theorem bind_ok {x : LM α} {k : α → LM β} {st st' : LState} {b : β} (h : (x >>= k) st = .ok (b, st')) :
    ∃ a st1, x st = .ok (a, st1) ∧ k a st1 = .ok (b, st') := by
  have h : LM.bind x k st = _ := h
  unfold LM.bind at h
  cases hx : x st with
  | ok r => rw [hx] at h; exact ⟨r.1, r.2, rfl, h⟩
  | error e => rw [hx] at h; cases h

theorem lift_ok {r : Except LFault α} {st st' : LState} {a : α} (h : LM.lift r st = .ok (a, st')) : r = .ok a ∧ st' = st := by
  cases r with
  | ok b => cases h; exact ⟨rfl, rfl⟩
  | error e => cases h

theorem liftBind_ok {r : Except LFault α} {k : α → LM β} {st st' : LState} {b : β} (h : (LM.lift r >>= k) st = .ok (b, st')) :
    ∃ a, r = .ok a ∧ k a st = .ok (b, st') := by
  cases r with
  | ok a => exact ⟨a, rfl, h⟩
  | error e => cases h

theorem inInclude_ok {x : LM α} {s : Span} {st st' : LState} {a : α} (h : x.inInclude s st = .ok (a, st')) : x st = .ok (a, st') := by
  unfold LM.inInclude at h
  cases hx : x st with
  | ok r => rw [hx] at h; exact h
  | error e => rw [hx] at h; cases e <;> cases h
end LM

theorem tri_ok {α : Type} {I : LState → Prop} {x : LM α} {P : α → Prop} {Q : LFault → Prop} (h : Tri I x P Q) {st st' : LState} {a : α}
    (hs : I st) (hx : x st = .ok (a, st')) : P a ∧ I st' := by
  have h := h st hs
  rw [hx] at h
  exact h

theorem pro_ok {α : Type} {r : Except LFault α} {P : α → Prop} {Q : LFault → Prop} (h : Pro r P Q) {a : α} (hr : r = .ok a) : P a := by
  rw [hr] at h; exact h

section
variable {F : LFiles} {x : Ext} {name : Str} {g : Str}

theorem convert_ok {c : LCtx} (hf : c.file = some g) {r : Rg} {b : Bool} {s : Span} (h : c.convert F.size r b = .ok s) :
    s = ⟨g, r.lo, r.hi⟩ ∧ InFile F g r := by
  unfold LCtx.convert at h
  rw [hf] at h
  dsimp only at h
  split at h
  · next hin => cases h; exact ⟨rfl, hin⟩
  · cases h

variable (F x name) in
/-- the compiler got through this place -/
def Done : LPlace → Prop
  | ⟨g, _, .pat p⟩ => ∃ n c st q st', Stands F name c ∧ c.file = some g ∧ Sound F name st ∧ compilePattern F x n c p st = .ok (q, st')
  | ⟨g, _, .items is⟩ => ∃ n c st st', Stands F name c ∧ c.file = some g ∧ Sound F name st ∧
      compileContents (compileItem F x n) c is st = .ok ((), st')

/-- the compiler got through one of the contents of a grammar -/
theorem contents_mem {n : Nat} {c : LCtx} {src : Str} (hc : Stands F name c) (hf : c.file = some g) {is : List LItem}
    (ho : LOccurs F name ⟨g, src, .items is⟩) {i : LItem} : ∀ {is' : List LItem} {st st' : LState}, (∀ j ∈ is', j ∈ is) → Sound F name st →
    compileContents (compileItem F x n) c is' st = .ok ((), st') → i ∈ is' →
    ∃ m st1 st2, n = m + 1 ∧ Sound F name st1 ∧ compileItem F x (m + 1) c i st1 = .ok ((), st2)
  | [], _, _, _, _, _, h => nomatch h
  | j :: is', st, st', hsub, hs, h, hi => by
    obtain ⟨_, st1, h1, h2⟩ := LM.bind_ok h
    rcases List.mem_cons.mp hi with rfl | hi
    · cases n with
      | zero => cases h1
      | succ m => exact ⟨m, st, st1, rfl, hs, h1⟩
    · exact contents_mem hc hf ho (fun j hj => hsub j (.tail _ hj))
        (tri_ok (compileItem_fine F x name n c j g src is hc hf ho (hsub j (.head _))) hs h1).2 h2 hi

/-- the compiler got through one of the overrides of an include -/
theorem overrides_mem {n : Nat} {c : LCtx} {src : Str} {s : Span} {lit : Str} (hc : Stands F name c) (hf : c.file = some g)
    (hs : s.file = g) (hsh : Shown F name (.include lit) s) {r : Rg} {id : Str} {how : AssignMethod} {p : LPat} :
    ∀ {os : List LOverride} {st st' : LState},
    (∀ r id how body, .define r id how body ∈ os → Marked F name (.define id) g r ∧ LOccurs F name ⟨g, src, .pat body⟩) → Sound F name st →
    compileOverrides F (compilePattern F x n) s c os st = .ok ((), st') → .define r id how p ∈ os →
    ∃ st1 st2, Sound F name st1 ∧ compileDefine F (compilePattern F x n) c r id how p st1 = .ok ((), st2)
  | [], _, _, _, _, _, h => nomatch h
  | o :: os, st, st', hm, hst, h, hi => by
    cases o with
    | define r' id' how' p' =>
      obtain ⟨_, st1, h1, h2⟩ := LM.bind_ok h
      rcases List.mem_cons.mp hi with he | hi
      · cases he; exact ⟨st, st1, hst, LM.inInclude_ok h1⟩
      · have hd := hm r' id' how' p' (.head _)
        exact overrides_mem hc hf hs hsh (fun r id how body hb => hm r id how body (.tail _ hb))
          (tri_ok (compileDefine_fine (compilePattern_fine F x name n) hc hf hd.1 hd.2) hst (LM.inInclude_ok h1)).2 h2 hi
    | div => cases h
    | «annotation» =>
      rcases List.mem_cons.mp hi with he | hi
      · cases he
      · exact overrides_mem (os := os) hc hf hs hsh (fun r id how body hb => hm r id how body (.tail _ hb)) hst h hi

/-- what an include that compiles went through -/
theorem include_parts {n : Nat} {c : LCtx} {src : Str} (hc : Stands F name c) (hf : c.file = some g) {r : Rg} {lit : Str}
    {inh : Option (Rg × Str)} {os : List LOverride} {is : List LItem} (ho : LOccurs F name ⟨g, src, .items is⟩)
    (hmem : .include r lit inh os ∈ is) {st st' : LState} (hs : Sound F name st)
    (h : compileInclude F (compilePattern F x n) (compileItem F x n) c r lit inh os st = .ok ((), st')) :
    InFile F g r ∧
    (∀ r' id how p, .define r' id how p ∈ os → InFile F g r' ∧ Done F x name ⟨g, src, .pat p⟩) ∧
    ∀ f s is', F.join g lit = some f → F.load f = .ok s → s.Grammar is' → Done F x name ⟨f, f, .items is'⟩ := by
  obtain ⟨path, h1, h⟩ := LM.liftBind_ok h
  have hj := pro_ok (includePath_fine (F := F) (x := x) (name := name) hf lit) h1
  obtain ⟨sp, h2, h⟩ := LM.liftBind_ok h
  obtain ⟨rfl, hin⟩ := convert_ok hf h2
  have hsh : Shown F name (.include lit) ⟨g, r.lo, r.hi⟩ := ⟨marked_of ho (.include hmem), hin⟩
  obtain ⟨s, st1, h3, h⟩ := LM.bind_ok h
  obtain ⟨hl, hs1⟩ := tri_ok (getSchema_fine (x := x) path) hs (LM.inInclude_ok h3)
  obtain ⟨inc, st2, h4, h⟩ := LM.bind_ok h
  obtain ⟨⟨o, ns, dts, hinc⟩, hs2⟩ := tri_ok (newInclude_fine (x := x) (.recursiveInclude rfl (.inl hsh) hj)) hs1 h4
  obtain ⟨inc', h5, h⟩ := LM.liftBind_ok h
  obtain ⟨o', ns', dts', rfl⟩ := pro_ok (inheritNs_fine (x := x) hf hinc fun r' pre he => marked_of ho (.inherit (he ▸ hmem))) h5
  have hos : ∀ r' id how body, .define r' id how body ∈ os → Marked F name (.define id) g r' ∧ LOccurs F name ⟨g, src, .pat body⟩ :=
    fun r id how body hm => ⟨marked_of ho (.override hmem hm), .inside ho (.override hmem hm)⟩
  have hco : Stands F name (.inclOverrides (.incl c path o' ns' dts')) := ⟨hc, _, _, _, _, _, rfl⟩
  obtain ⟨_, st3, h6, h⟩ := LM.bind_ok h
  have hs3 := (tri_ok (compileOverrides_fine (compilePattern_fine F x name n) hco hf rfl hsh os hos) hs2 h6).2
  obtain ⟨_, st4, h7, h⟩ := LM.bind_ok h
  refine ⟨hin, ?_, ?_⟩
  · intro r' id how p hm
    obtain ⟨sta, stb, hsa, h⟩ := overrides_mem hco hf rfl hsh hos hs2 h6 hm
    obtain ⟨q, stc, h1, h⟩ := LM.bind_ok h
    obtain ⟨sp, h2, _⟩ := LM.liftBind_ok h
    exact ⟨(convert_ok hf h2).2, n, .define _ _ _, sta, q, stc, ⟨hco, g, hf, (hos r' id how p hm).1⟩, hf, hsa, h1⟩
  · intro f s' is' hj' hl' hg
    rw [hj] at hj'; cases hj'
    rw [hl] at hl'; cases hl'
    obtain ⟨ds, b⟩ := s
    obtain ⟨c1, h8, h9⟩ := LM.liftBind_ok (LM.inInclude_ok h7)
    obtain ⟨hc1, hf1, hi1⟩ := pro_ok (declarations_fine (F := F) (x := x) (name := name) (g := path) ds (.incl c path o' ns' dts') hc rfl) h8
    obtain ⟨_, _, _, _, _, rfl⟩ := hi1 ⟨_, _, _, _, _, rfl⟩
    cases hg with
    | grammar => exact ⟨n, _, st3, st4, hc1, hf1, hs3, h9⟩
    | pattern => exact ⟨n, _, st3, st4, hc1, hf1, hs3, h9⟩

/-- what an external that compiles went through -/
theorem external_parts {n : Nat} {c : LCtx} {src : Str} (hc : Stands F name c) (hf : c.file = some g) {r : Rg} {lit : Str}
    {inh : Option Str} (ho : LOccurs F name ⟨g, src, .pat (.external r lit inh)⟩) {st st' : LState} {q : CPat} (hs : Sound F name st)
    (h : compileExternal F (compilePattern F x n) (compileItem F x n) c r lit inh st = .ok (q, st')) :
    InFile F g r ∧
    ∀ f s, F.join g lit = some f → F.load f = .ok s →
      (∀ p, s.body = .pattern p → Done F x name ⟨f, f, .pat p⟩) ∧ (∀ is, s.body = .grammar is → Done F x name ⟨g, f, .items is⟩) := by
  cases inh with
  | some _ => cases h
  | none =>
    obtain ⟨path, h1, h⟩ := LM.liftBind_ok h
    have hj := pro_ok (includePath_fine (F := F) (x := x) (name := name) hf lit) h1
    obtain ⟨sp, h2, h⟩ := LM.liftBind_ok h
    obtain ⟨rfl, hin⟩ := convert_ok hf h2
    have hsh : Shown F name (.external lit) ⟨g, r.lo, r.hi⟩ := ⟨marked_of ho .external, hin⟩
    obtain ⟨s, st1, h3, h⟩ := LM.bind_ok h
    obtain ⟨hl, hs1⟩ := tri_ok (getSchema_fine (x := x) path) hs (LM.inInclude_ok h3)
    obtain ⟨inc, st2, h4, h⟩ := LM.bind_ok h
    obtain ⟨⟨o, ns, dts, rfl⟩, hs2⟩ := tri_ok (newInclude_fine (x := x) (.recursiveInclude rfl (.inr hsh) hj)) hs1 h4
    refine ⟨hin, fun f s' hj' hl' => ?_⟩
    rw [hj] at hj'; cases hj'
    rw [hl] at hl'; cases hl'
    obtain ⟨ds, b⟩ := s
    refine ⟨?_, ?_⟩
    · rintro p hb
      cases hb
      exact ⟨n, .incl c path o ns dts, st2, q, st', hc, rfl, hs2, LM.inInclude_ok h⟩
    · rintro is hb
      cases hb
      obtain ⟨child, st3, h5, h⟩ := LM.bind_ok h
      obtain ⟨⟨k, rfl⟩, hs3⟩ := tri_ok (newGrammar_fine c (Q := fun _ => True)) hs2 h5
      obtain ⟨_, st4, h6, h⟩ := LM.bind_ok h
      exact ⟨n, .grammar c k, st3, st4, hc, hf, hs3, h6⟩

theorem LSchema.Grammar.det {s : LSchema} {a b : List LItem} (ha : s.Grammar a) (hb : s.Grammar b) : a = b := by
  cases ha <;> cases hb <;> rfl

theorem Done.within {a b : LPlace} (ho : LOccurs F name a) (h : Done F x name a) (hw : LWithin F a b) : Done F x name b := by
  cases hw with
  | define hi =>
    obtain ⟨n, c, st, st', hc, hf, hs, h⟩ := h
    obtain ⟨n, st1, st2, rfl, hs1, h⟩ := contents_mem hc hf ho (fun _ h => h) hs h hi
    obtain ⟨q, st3, h1, _⟩ := LM.bind_ok h
    exact ⟨n, .define c _ _, st1, q, st3, ⟨hc, _, hf, marked_of ho (.define hi)⟩, hf, hs1, h1⟩
  | div hi =>
    obtain ⟨n, c, st, st', hc, hf, hs, h⟩ := h
    obtain ⟨n, st1, st2, rfl, hs1, h⟩ := contents_mem hc hf ho (fun _ h => h) hs h hi
    exact ⟨n, c, st1, st2, hc, hf, hs1, h⟩
  | included hi hj hl hg =>
    obtain ⟨n, c, st, st', hc, hf, hs, h⟩ := h
    obtain ⟨n, st1, st2, rfl, hs1, h⟩ := contents_mem hc hf ho (fun _ h => h) hs h hi
    exact (include_parts hc hf ho hi hs1 h).2.2 _ _ _ hj hl hg
  | override hi hm =>
    obtain ⟨n, c, st, st', hc, hf, hs, h⟩ := h
    obtain ⟨n, st1, st2, rfl, hs1, h⟩ := contents_mem hc hf ho (fun _ h => h) hs h hi
    exact ((include_parts hc hf ho hi hs1 h).2.1 _ _ _ _ hm).2
  | grammar =>
    obtain ⟨n, c, st, q, st', hc, hf, hs, h⟩ := h
    cases n with
    | zero => cases h
    | succ n =>
      obtain ⟨ch, st1, h1, h⟩ := LM.bind_ok h
      obtain ⟨⟨k, rfl⟩, hs1⟩ := tri_ok (newGrammar_fine c (Q := fun _ => True)) hs h1
      obtain ⟨_, st2, h2, _⟩ := LM.bind_ok h
      exact ⟨n, .grammar c k, st1, st2, hc, hf, hs1, h2⟩
  | externalPattern hj hl hb =>
    obtain ⟨n, c, st, q, st', hc, hf, hs, h⟩ := h
    cases n with
    | zero => cases h
    | succ n => exact ((external_parts hc hf ho hs h).2 _ _ hj hl).1 _ hb
  | externalGrammar hj hl hb =>
    obtain ⟨n, c, st, q, st', hc, hf, hs, h⟩ := h
    cases n with
    | zero => cases h
    | succ n => exact ((external_parts hc hf ho hs h).2 _ _ hj hl).2 _ hb
  | element =>
    obtain ⟨n, c, st, q, st', hc, hf, hs, h⟩ := h
    cases n with
    | zero => cases h
    | succ n =>
      obtain ⟨nc', hn, h⟩ := LM.liftBind_ok h
      obtain ⟨sp, _, h⟩ := LM.liftBind_ok h
      cases ha : c.parentAttribute with
      | some a => rw [ha] at h; cases h
      | none =>
        rw [ha] at h
        obtain ⟨q', st1, h2, h⟩ := LM.bind_ok h
        exact ⟨n, .element c, _, q', st1, hc, hf, hs, h2⟩
  | «attribute» =>
    obtain ⟨n, c, st, q, st', hc, hf, hs, h⟩ := h
    cases n with
    | zero => cases h
    | succ n =>
      obtain ⟨nc', hn, h⟩ := LM.liftBind_ok h
      obtain ⟨sp, h1, h⟩ := LM.liftBind_ok h
      obtain ⟨rfl, hin⟩ := convert_ok hf h1
      obtain ⟨q', st1, h2, h⟩ := LM.bind_ok h
      exact ⟨n, .attribute c _, _, q', st1, ⟨hc, marked_of ho .attribute, hin⟩, hf, hs, h2⟩
  | except =>
    obtain ⟨n, c, st, q, st', hc, hf, hs, h⟩ := h
    cases n with
    | zero => cases h
    | succ n =>
      obtain ⟨_, _, h⟩ := LM.liftBind_ok h
      obtain ⟨q', st1, h2, h⟩ := LM.bind_ok h
      exact ⟨n, _, _, q', st1, hc, hf, hs, h2⟩
  | paren =>
    obtain ⟨n, c, st, q, st', hc, hf, hs, h⟩ := h
    cases n with
    | zero => cases h
    | succ n => exact ⟨n, _, _, q, st', hc, hf, hs, h⟩
  | seqRight =>
    obtain ⟨n, c, st, q, st', hc, hf, hs, h⟩ := h
    cases n with
    | zero => cases h
    | succ n =>
      obtain ⟨q1, st1, h1, h⟩ := LM.bind_ok h
      obtain ⟨q2, st2, h2, h⟩ := LM.bind_ok h
      exact ⟨n, _, _, q2, st2, hc, hf, (tri_ok (compilePattern_fine F x name n _ _ _ _ hc hf (.inside ho .seqLeft)) hs h1).2, h2⟩
  | interRight =>
    obtain ⟨n, c, st, q, st', hc, hf, hs, h⟩ := h
    cases n with
    | zero => cases h
    | succ n =>
      obtain ⟨q1, st1, h1, h⟩ := LM.bind_ok h
      obtain ⟨q2, st2, h2, h⟩ := LM.bind_ok h
      exact ⟨n, _, _, q2, st2, hc, hf, (tri_ok (compilePattern_fine F x name n _ _ _ _ hc hf (.inside ho .interLeft)) hs h1).2, h2⟩
  | choiceRight =>
    obtain ⟨n, c, st, q, st', hc, hf, hs, h⟩ := h
    cases n with
    | zero => cases h
    | succ n =>
      obtain ⟨q1, st1, h1, h⟩ := LM.bind_ok h
      obtain ⟨q2, st2, h2, h⟩ := LM.bind_ok h
      exact ⟨n, _, _, q2, st2, hc, hf, (tri_ok (compilePattern_fine F x name n _ _ _ _ hc hf (.inside ho .choiceLeft)) hs h1).2, h2⟩
  | _ =>
    obtain ⟨n, c, st, q, st', hc, hf, hs, h⟩ := h
    cases n with
    | zero => cases h
    | succ n =>
      obtain ⟨q', st1, h2, h⟩ := LM.bind_ok h
      exact ⟨n, _, _, q', st1, hc, hf, hs, h2⟩

/-- the positions recorded at a place the compiler got through -/
theorem Done.placed {f src : Str} {t : LTree} (ho : LOccurs F name ⟨f, src, t⟩) (h : Done F x name ⟨f, src, t⟩) {m : Mark} {r : Rg}
    (hr : m.Recorded) (hh : t.Has m r) : InFile F f r := by
  have hdt : ∀ {ty : LDtName}, ty.Has m r → False := by
    intro ty h
    cases h <;> cases hr
  cases hh with
  | element | «attribute» =>
    obtain ⟨n, c, st, q, st', hc, hf, hs, h⟩ := h
    cases n with
    | zero => cases h
    | succ n =>
      obtain ⟨nc', hn, h⟩ := LM.liftBind_ok h
      obtain ⟨sp, h1, h⟩ := LM.liftBind_ok h
      exact (convert_ok hf h1).2
  | ref | parent =>
    obtain ⟨n, c, st, q, st', hc, hf, hs, h⟩ := h
    cases n with
    | zero => cases h
    | succ n =>
      obtain ⟨sp, h1, h⟩ := LM.liftBind_ok h
      exact (convert_ok hf h1).2
  | external =>
    obtain ⟨n, c, st, q, st', hc, hf, hs, h⟩ := h
    cases n with
    | zero => cases h
    | succ n => exact (external_parts hc hf ho hs h).1
  | define hi =>
    obtain ⟨n, c, st, st', hc, hf, hs, h⟩ := h
    obtain ⟨n, st1, st2, rfl, hs1, h⟩ := contents_mem hc hf ho (fun _ h => h) hs h hi
    obtain ⟨q, st3, h1, h⟩ := LM.bind_ok h
    obtain ⟨sp, h1, h⟩ := LM.liftBind_ok h
    exact (convert_ok hf h1).2
  | «include» hi =>
    obtain ⟨n, c, st, st', hc, hf, hs, h⟩ := h
    obtain ⟨n, st1, st2, rfl, hs1, h⟩ := contents_mem hc hf ho (fun _ h => h) hs h hi
    exact (include_parts hc hf ho hi hs1 h).1
  | override hi hm =>
    obtain ⟨n, c, st, st', hc, hf, hs, h⟩ := h
    obtain ⟨n, st1, st2, rfl, hs1, h⟩ := contents_mem hc hf ho (fun _ h => h) hs h hi
    exact ((include_parts hc hf ho hi hs1 h).2.1 _ _ _ _ hm).1
  | valueType h | dataType h | exceptType h => exact (hdt h).elim
  | _ => cases hr

theorem root_done {n : Nat} {k : Nat} {ns dts : List (Str × Str)} {s : LSchema} {st st' : LState} (hl : F.load name = .ok s) (hs : Sound F name st)
    (h : compileSchema F (compilePattern F x n) (compileItem F x n) (.root name k ns dts) s st = .ok ((), st')) :
    (∀ p, s.body = .pattern p → Done F x name ⟨name, name, .pat p⟩) ∧ (∀ is, s.body = .grammar is → Done F x name ⟨name, name, .items is⟩) := by
  obtain ⟨ds, b⟩ := s
  obtain ⟨c', hd, h⟩ := LM.liftBind_ok h
  obtain ⟨k', ns', dts', rfl⟩ := declarations_root ds k ns dts c' hd
  refine ⟨?_, ?_⟩
  · rintro p hb
    cases hb
    obtain ⟨q, st1, h1, h⟩ := LM.bind_ok h
    exact ⟨n, .root name k' ns' dts', st, q, st1, rfl, rfl, hs, h1⟩
  · rintro is hb
    cases hb
    exact ⟨n, .root name k' ns' dts', st, st', rfl, rfl, hs, h⟩

/-- the compiler got through every place of a schema that compiles -/
theorem compileFile_done {n m : Nat} {st : LState} (hs : Sound F name st) {r : Nat × LState} (h : compileFile F x n m name st = .ok r)
    {a : LPlace} (ho : LOccurs F name a) : Done F x name a := by
  obtain ⟨s, st1, h1, h⟩ := LM.bind_ok h
  obtain ⟨hl, hs1⟩ := tri_ok (getSchema_fine (x := x) name) hs h1
  obtain ⟨c, st2, h2, h⟩ := LM.bind_ok h
  cases h2
  obtain ⟨_, st3, h3, h⟩ := LM.bind_ok h
  obtain ⟨hp, hg⟩ := root_done hl (newScope hs1) h3
  induction ho with
  | pattern hl' hb => rw [hl] at hl'; cases hl'; exact hp _ hb
  | grammar hl' hb => rw [hl] at hl'; cases hl'; exact hg _ hb
  | inside ho hw ih => exact ih.within ho hw

theorem compileFile_placed {n m : Nat} {st : LState} (hs : Sound F name st) {r : Nat × LState} (h : compileFile F x n m name st = .ok r) :
    AllPlaced F name := by
  rintro m f r hr ⟨src, t, ho, hh⟩
  exact (compileFile_done hs h ho).placed ho hr hh
end

/-! ### the whole schema, without positions -/

/-- the results of the last checks: an undefined reference is reported with its name -/
def SimLast {α β : Type} (f : α → β) (r : Except LFault α) (q : Except CFault β) : Prop :=
  Sim f r q ∨ ∃ s id, r = .error (.err (.undefinedReference s id)) ∧ q = .error (.err (.undefinedReference []))

theorem simLast_bind {α β γ δ : Type} {f : α → β} {g : γ → δ} {r : Except LFault α} {q : Except CFault β} {k : α → Except LFault γ}
    {k' : β → Except CFault δ} (h : SimLast f r q) (hk : ∀ a, r = .ok a → SimLast g (k a) (k' (f a))) : SimLast g (r >>= k) (q >>= k') := by
  rcases h with h | ⟨s, id, rfl, rfl⟩
  · cases r with
    | ok a => cases h; exact hk a rfl
    | error e => exact .inl (h.error fun e' he => by rw [he]; rfl)
  · exact .inr ⟨s, id, rfl, rfl⟩

theorem checkAll_sim {ch : List Nat → CPat → Except LFault (List Nat)} {ch' : List Nat → MPattern → Except CFault (List Nat)}
    (h : ∀ seen p, SimLast id (ch seen p) (ch' seen p.plain)) : ∀ (ps : List CPat) (seen : List Nat),
    SimLast id (checkAll ch seen ps) (Verif.checkAll ch' seen (plainPats ps))
  | [], _ => .inl rfl
  | p :: ps, seen => simLast_bind (h seen p) fun seen' _ => checkAll_sim h ps seen'

theorem check_sim (cells : List (Option CRule)) : ∀ (n : Nat) (seen : List Nat) (p : CPat),
    SimLast id (check cells n seen p) (Verif.check (cells.map (Option.map CRule.plain)) n seen p.plain)
  | 0, _, _ => .inl sim_fuel
  | n + 1, seen, p => by
    have ih := check_sim cells n
    cases p with
    | choice ps => exact checkAll_sim ih ps seen
    | interleave ps => exact checkAll_sim ih ps seen
    | group ps => exact checkAll_sim ih ps seen
    | ref s id k =>
      simp only [check, CPat.plain, Verif.check]
      split
      · exact .inl rfl
      · have e : (cells.map (Option.map CRule.plain)).getD k none = (cells.getD k none).map CRule.plain := by
          simp only [List.getD, List.getElem?_map]
          cases cells[k]? with
          | none => rfl
          | some r => cases r <;> rfl
        rw [e]
        cases cells.getD k none with
        | none => exact .inr ⟨s, id, rfl, rfl⟩
        | some r => simp only [Option.map_some, pattern_plain]; exact ih (k :: seen) r.pattern
    | mixed p => exact ih seen p
    | «optional» p => exact ih seen p
    | zeroOrMore p => exact ih seen p
    | oneOrMore p => exact ih seen p
    | attr nc p => exact ih seen p
    | element nc p => exact ih seen p
    | list p => exact ih seen p
    | datatypeNameExcept d e => exact ih seen e
    | empty => exact .inl rfl
    | text => exact .inl rfl
    | notAllowed => exact .inl rfl
    | datatypeValue v => exact .inl rfl
    | datatypeName d => exact .inl rfl

section
variable (F : LFiles) (x : Ext)

theorem finishCompile_sim (m : Nat) (file : Str) (scope : Nat) (st : LState) :
    SimLast (fun r : Nat × LState => (r.1, r.2.plain)) (finishCompile F m file scope st) (Verif.finishCompile m scope st.plain) := by
  have h := checkDefined_sim st ⟨file, 0, 0⟩ (st.refs scope)
  simp only [finishCompile, Verif.finishCompile, LState.refs_plain]
  cases hc : checkDefined st ⟨file, 0, 0⟩ (st.refs scope) with
  | error e => rw [hc] at h; exact .inl (h.error fun e' he => by rw [he])
  | ok u =>
    rw [hc] at h
    rw [show Verif.checkDefined st.plain _ = .ok u from h]
    dsimp only
    cases (st.refs scope).lookup "start".toList with
    | none => exact .inl (sim_err _)
    | some k =>
      simp only [LState.cell_plain]
      cases st.cell k with
      | none => exact .inl (sim_panic _)
      | some r =>
        have h := check_sim st.cells m [] r.pattern
        simp only [Option.map_some, pattern_plain]
        rcases h with h | ⟨s, id, h1, h2⟩
        · cases hk : check st.cells m [] r.pattern with
          | ok l => rw [hk] at h; rw [show Verif.check st.plain.cells m [] r.pattern.plain = .ok l from h]; exact .inl rfl
          | error e =>
            rw [hk] at h
            exact .inl (h.error fun e' he => by rw [show Verif.check st.plain.cells m [] r.pattern.plain = .error e' from he])
        · rw [h1, show Verif.check st.plain.cells m [] r.pattern.plain = _ from h2]; exact .inr ⟨s, id, rfl, rfl⟩

/-- the same for computations with state -/
def SimLastM {α β : Type} (f : α → β) (x : LM α) (y : CM β) : Prop :=
  ∀ st : LState, SimLast (fun r : α × LState => (f r.1, r.2.plain)) (x st) (y st.plain)

theorem simLastM_bind {α β γ δ : Type} {f : α → β} {g : γ → δ} {x : LM α} {y : CM β} {k : α → LM γ} {k' : β → CM δ} {P : α → Prop}
    (h : SimM f x y) (hP : ∀ st a st', x st = .ok (a, st') → P a) (hk : ∀ a, P a → SimLastM g (k a) (k' (f a))) :
    SimLastM g (x >>= k) (y >>= k') := by
  intro st
  have h := h st
  show SimLast _ (LM.bind x k st) (CM.bind y k' st.plain)
  unfold LM.bind CM.bind
  cases hx : x st with
  | ok r =>
    rw [hx] at h
    have h : y st.plain = .ok (f r.1, r.2.plain) := h
    rw [h]
    exact hk r.1 (hP st r.1 r.2 hx) r.2
  | error e =>
    rw [hx] at h
    exact .inl (h.error fun e' he => by rw [he])

theorem newRoot_sim (name : Str) : SimM LCtx.plain (newRoot name) (Verif.newRoot name) := fun _ => rfl

/-- the compiler with positions does what the one without does -/
theorem compileFile_sim (n m : Nat) (name : Str) : SimLastM id (compileFile F x n m name) (Verif.compileFile F.plain x n m name) := by
  refine simLastM_bind (P := fun _ => True) (getSchema_sim F name) (fun _ _ _ _ => trivial) fun s _ => ?_
  refine simLastM_bind (P := fun c => ∃ k ns dts, c = .root name k ns dts) (newRoot_sim name) (fun st a st' h => by cases h; exact ⟨_, _, _, rfl⟩) ?_
  rintro c ⟨k, ns, dts, rfl⟩
  refine simLastM_bind (P := fun _ => True)
    (compileSchema_sim (compilePattern_sim F x n) (compileItem_sim F x n) (.root name k ns dts) trivial s) (fun _ _ _ _ => trivial) fun _ _ => ?_
  exact finishCompile_sim F m name k
end

end Verif.At
