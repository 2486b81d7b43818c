import Verif.Proof.SchemaSame
import Verif.Spec.Alike
/-
A larger recursion budget does not change the outcome of a compilation; operands of `,`, `&` and `|` can be regrouped.
-/
namespace Verif
variable {F : Files} {x : Ext} {α β γ : Type}

/-- unless the left program runs out of budget, the right one does the same -/
def LeF (m m' : CM α) : Prop := ∀ st, m st ≠ .error .fuel → m' st = m st

theorem LeF.refl (m : CM α) : LeF m m := fun _ _ => rfl
theorem LeF.of_eq {m m' : CM α} (h : m' = m) : LeF m m' := by subst h; exact .refl _
theorem LeF.trans {m m' m'' : CM α} (h : LeF m m') (h' : LeF m' m'') : LeF m m'' := fun st hne => by
  have e := h st hne
  rw [h' st (by rw [e]; exact hne), e]
theorem LeF.noFuel {m : CM α} : LeF (CM.fail .fuel) m := fun _ h => absurd rfl h

theorem LeF.bind {m m' : CM α} {f f' : α → CM β} (h : LeF m m') (hf : ∀ a, LeF (f a) (f' a)) : LeF (m >>= f) (m' >>= f') := by
  intro st hne
  change CM.bind m f st ≠ _ at hne
  show CM.bind m' f' st = CM.bind m f st
  unfold CM.bind at hne ⊢
  cases h1 : m st with
  | error e =>
    rw [h1] at hne
    rw [h st (by rw [h1]; intro h; cases h; exact hne rfl), h1]
  | ok r =>
    obtain ⟨a, s⟩ := r
    rw [h1] at hne
    rw [h st (by rw [h1]; exact fun h => nomatch h), h1]
    exact hf a s hne

theorem LeF.bindRight {m : CM α} {f f' : α → CM β} (hf : ∀ a, LeF (f a) (f' a)) : LeF (m >>= f) (m >>= f') := (LeF.refl m).bind hf
theorem LeF.bindLeft {m m' : CM α} {f : α → CM β} (h : LeF m m') : LeF (m >>= f) (m' >>= f) := h.bind fun _ => .refl _

theorem LeF.inInclude {m m' : CM α} (h : LeF m m') : LeF m.inInclude m'.inInclude := by
  intro st hne
  unfold CM.inInclude at hne ⊢
  cases h1 : m st with
  | ok r => rw [h st (by rw [h1]; exact fun h => nomatch h), h1]
  | error e =>
    rw [h1] at hne
    rw [h st (by rw [h1]; intro h; cases h; exact hne rfl), h1]

theorem bind_assoc' (m : CM α) (f : α → CM β) (g : β → CM γ) : (m >>= f) >>= g = m >>= fun a => f a >>= g := by
  funext st
  show CM.bind (CM.bind m f) g st = CM.bind m (fun a => CM.bind (f a) g) st
  unfold CM.bind
  cases m st <;> rfl

theorem pure_bind' (a : α) (f : α → CM β) : (pure a >>= f) = f a := rfl

theorem bind_pure' (m : CM α) : (m >>= fun a => pure a) = m := by
  funext st
  show CM.bind m (fun a => pure a) st = m st
  unfold CM.bind
  cases h : m st with
  | ok r => rfl
  | error e => rfl

section
variable {cp cp' : SCtx → SPattern → CM MPattern} {ci ci' : SCtx → SItem → CM Unit}
  (hcp : ∀ c p, LeF (cp c p) (cp' c p)) (hci : ∀ c i, LeF (ci c i) (ci' c i))

include hcp in
theorem leF_compileDefine (c : SCtx) (id : Str) (how : AssignMethod) (p : SPattern) :
    LeF (compileDefine cp c id how p) (compileDefine cp' c id how p) := (hcp _ _).bindLeft

include hcp in
theorem leF_compileOverrides (c : SCtx) : ∀ os, LeF (compileOverrides cp c os) (compileOverrides cp' c os)
  | [] => .refl _
  | .define id how body :: os =>
    LeF.bind (m := (compileDefine cp c id how body).inInclude) (m' := (compileDefine cp' c id how body).inInclude)
      (leF_compileDefine hcp c id how body).inInclude fun _ => leF_compileOverrides c os
  | .div :: os => LeF.bind (m := CM.fail (.panic .includeDiv)) (m' := CM.fail (.panic .includeDiv)) (.refl _) fun _ => leF_compileOverrides c os
  | .annotation :: os => leF_compileOverrides c os

include hci in
theorem leF_compileContents (c : SCtx) : ∀ is, LeF (compileContents ci c is) (compileContents ci' c is)
  | [] => .refl _
  | i :: is => (hci c i).bind fun _ => leF_compileContents c is

include hcp hci

theorem leF_compileSchema (c : SCtx) (s : SSchema) : LeF (compileSchema cp ci c s) (compileSchema cp' ci' c s) := by
  refine LeF.bindRight fun c => ?_
  obtain ⟨ds, body⟩ := s
  cases body with
  | grammar is => exact leF_compileContents hci c is
  | pattern p =>
    cases c with
    | incl =>
      cases p with
      | grammar is => exact leF_compileContents hci _ is
      | _ => exact .refl _
    | _ => exact (hcp _ _).bindLeft

theorem leF_compileInclude (c : SCtx) (lit : Str) (i : Option Str) (os : List SOverride) :
    LeF (compileInclude F cp ci c lit i os) (compileInclude F cp' ci' c lit i os) :=
  LeF.bindRight fun _ => LeF.bindRight fun s => LeF.bindRight fun _ => LeF.bindRight fun inc =>
    (leF_compileOverrides hcp _ os).bind fun _ => (leF_compileSchema hcp hci inc s).inInclude.bindLeft

theorem leF_compileExternal (c : SCtx) (lit : Str) (i : Option Str) : LeF (compileExternal F cp ci c lit i) (compileExternal F cp' ci' c lit i) := by
  cases i with
  | some _ => exact .refl _
  | none =>
    refine LeF.bindRight fun _ => LeF.bindRight fun s => LeF.bindRight fun _ => ?_
    obtain ⟨ds, body⟩ := s
    cases body with
    | pattern p => exact (hcp _ _).inInclude
    | grammar is => exact LeF.bindRight fun ch => (leF_compileContents hci ch is).bindLeft

omit hcp in
theorem leF_compileGrammarPattern (c : SCtx) (is : List SItem) : LeF (compileGrammarPattern ci c is) (compileGrammarPattern ci' c is) :=
  LeF.bindRight fun ch => (leF_compileContents hci ch is).bindLeft
end

theorem leF_succ : ∀ n, (∀ c p, LeF (compilePattern F x n c p) (compilePattern F x (n + 1) c p)) ∧
    ∀ c i, LeF (compileItem F x n c i) (compileItem F x (n + 1) c i)
  | 0 => ⟨fun _ _ => .noFuel, fun _ _ => .noFuel⟩
  | n + 1 => by
    obtain ⟨hcp, hci⟩ := leF_succ n
    constructor
    · intro c p
      cases p with
      | element nc p =>
        refine LeF.bindRight fun nc => ?_
        split
        · exact .refl _
        · exact (hcp _ _).bindLeft
      | «attribute» nc p => exact LeF.bindRight fun _ => (hcp _ _).bindLeft
      | list p => exact (hcp _ _).bindLeft
      | mixed p => exact (hcp _ _).bindLeft
      | ident id => exact .refl _
      | parent id => exact .refl _
      | empty => exact .refl _
      | text => exact .refl _
      | notAllowed => exact .refl _
      | external path i => exact leF_compileExternal hcp hci c path i
      | grammar items => exact leF_compileGrammarPattern hci c items
      | paren p => exact hcp c p
      | seq p1 p2 => exact (hcp _ _).bind fun _ => (hcp _ _).bindLeft
      | inter p1 p2 => exact (hcp _ _).bind fun _ => (hcp _ _).bindLeft
      | choice p1 p2 => exact (hcp _ _).bind fun _ => (hcp _ _).bindLeft
      | optional p => exact (hcp _ _).bindLeft
      | zeroOrMore p => exact (hcp _ _).bindLeft
      | oneOrMore p => exact (hcp _ _).bindLeft
      | value ty lit => exact .refl _
      | data ty ps => exact .refl _
      | dataExcept ty ps ex => exact LeF.bindRight fun _ => LeF.bindRight fun _ => (hcp _ _).bindLeft
    · intro c i
      cases i with
      | define id how body => exact leF_compileDefine hcp c id how body
      | div items => exact leF_compileContents hci c items
      | «include» path i os => exact leF_compileInclude hcp hci c path i os
      | «annotation» => exact .refl _

theorem leF_pattern {n n' : Nat} (h : n ≤ n') (c : SCtx) (p : SPattern) : LeF (compilePattern F x n c p) (compilePattern F x n' c p) := by
  induction h with
  | refl => exact .refl _
  | step _ ih => exact ih.trans ((leF_succ _).1 c p)

theorem leF_item {n n' : Nat} (h : n ≤ n') (c : SCtx) (i : SItem) : LeF (compileItem F x n c i) (compileItem F x n' c i) := by
  induction h with
  | refl => exact .refl _
  | step _ ih => exact ih.trans ((leF_succ _).2 c i)

theorem leF_compileFile {n n' : Nat} (h : n ≤ n') (m : Nat) (name : Str) : LeF (compileFile F x n m name) (compileFile F x n' m name) :=
  LeF.bindRight fun s => LeF.bindRight fun c => (leF_compileSchema (leF_pattern h) (leF_item h) c s).bindLeft

/-! ### operands -/

/-- the members of a pattern to be spliced -/
def SOp.members : SOp → MPattern → List MPattern
  | .seq => groupMembers
  | .inter => interleaveMembers
  | .choice => choiceMembers

def SOp.wrap : SOp → List MPattern → MPattern
  | .seq => .group
  | .inter => .interleave
  | .choice => .choice

theorem SOp.members_wrap (o : SOp) (l : List MPattern) : o.members (o.wrap l) = l := by cases o <;> rfl

theorem compile_op (o : SOp) (n : Nat) (c : SCtx) (p q : SPattern) : compilePattern F x (n + 1) c (o.mk p q) =
    (do let a ← compilePattern F x n c p
        let b ← compilePattern F x n c q
        pure (o.wrap (o.members a ++ o.members b))) := by
  cases o <;> rfl

/-- compile one after the other -/
def chain (f : SPattern → CM MPattern) (o : SOp) : List SPattern → CM (List MPattern)
  | [] => pure []
  | p :: ps => do
    let a ← f p
    let as ← chain f o ps
    pure (o.members a ++ as)

theorem chain_append (f : SPattern → CM MPattern) (o : SOp) (qs : List SPattern) : ∀ ps,
    chain f o (ps ++ qs) = (do let as ← chain f o ps; let bs ← chain f o qs; pure (as ++ bs))
  | [] => by
    show chain f o qs = _
    unfold chain
    rw [pure_bind']
    exact (bind_pure' _).symm
  | p :: ps => by
    show (f p >>= fun a => chain f o (ps ++ qs) >>= fun as => pure (o.members a ++ as)) =
      ((f p >>= fun a => chain f o ps >>= fun as => pure (o.members a ++ as)) >>= fun as => chain f o qs >>= fun bs => pure (as ++ bs))
    rw [chain_append f o qs ps]
    simp only [bind_assoc', pure_bind', List.append_assoc]

theorem leF_chain {f f' : SPattern → CM MPattern} (h : ∀ p, LeF (f p) (f' p)) (o : SOp) : ∀ ps, LeF (chain f o ps) (chain f' o ps)
  | [] => .refl _
  | p :: ps => (h p).bind fun _ => (leF_chain h o ps).bindLeft

theorem chain_one (f : SPattern → CM MPattern) (o : SOp) (p : SPattern) : chain f o [p] = (do let a ← f p; pure (o.members a)) := by
  unfold chain chain
  simp only [pure_bind', List.append_nil]

theorem parts_left {o : SOp} {c : SCtx} : ∀ {p ps}, Parts o p ps → ∀ n,
    LeF (do let a ← compilePattern F x n c p; pure (o.members a)) (chain (compilePattern F x n c) o ps)
  | _, _, .one, n => .of_eq (chain_one _ _ _)
  | _, _, .paren h, 0 => .noFuel
  | _, _, .paren h, n + 1 => (parts_left h n).trans (leF_chain (leF_pattern (Nat.le_succ n) c) o _)
  | _, _, @Parts.op _ p ps q qs h1 h2, 0 => by
    intro st hne
    exfalso
    apply hne
    rfl
  | _, _, @Parts.op _ p ps q qs h1 h2, n + 1 => by
    rw [compile_op, chain_append]
    simp only [bind_assoc', pure_bind', SOp.members_wrap]
    refine LeF.trans (m' := do let as ← chain (compilePattern F x n c) o ps; let bs ← chain (compilePattern F x n c) o qs; pure (as ++ bs)) ?_
      ((leF_chain (leF_pattern (Nat.le_succ n) c) o _).bind fun _ => (leF_chain (leF_pattern (Nat.le_succ n) c) o _).bindLeft)
    refine LeF.trans (.of_eq ?_) ((parts_left h1 n).bind fun _ => (parts_left h2 n).bindLeft)
    simp only [bind_assoc', pure_bind']

theorem parts_left' {o : SOp} {c : SCtx} : ∀ {p ps}, Parts o p ps → 2 ≤ ps.length → ∀ n,
    LeF (compilePattern F x (n + 1) c p) (do let as ← chain (compilePattern F x n c) o ps; pure (o.wrap as))
  | _, _, .one, h, _ => absurd h (by simp)
  | _, _, .paren h, _, 0 => .noFuel
  | _, _, .paren h, hl, n + 1 => (parts_left' h hl n).trans (leF_chain (leF_pattern (Nat.le_succ n) c) o _).bindLeft
  | _, _, @Parts.op _ p ps q qs h1 h2, _, n => by
    rw [compile_op, chain_append]
    simp only [bind_assoc', pure_bind']
    refine LeF.trans (.of_eq ?_) ((parts_left h1 n).bind fun _ => (parts_left h2 n).bindLeft)
    simp only [bind_assoc', pure_bind']

theorem parts_right {o : SOp} {c : SCtx} : ∀ {p ps}, Parts o p ps → ∃ k, ∀ n,
    LeF (chain (compilePattern F x n c) o ps) (do let a ← compilePattern F x (n + k) c p; pure (o.members a))
  | _, _, .one => ⟨0, fun n => .of_eq (chain_one _ _ _).symm⟩
  | _, _, .paren h => by
    obtain ⟨k, hk⟩ := parts_right h
    exact ⟨k + 1, fun n => hk n⟩
  | _, _, @Parts.op _ p ps q qs h1 h2 => by
    obtain ⟨k1, hk1⟩ := parts_right h1
    obtain ⟨k2, hk2⟩ := parts_right h2
    refine ⟨max k1 k2 + 1, fun n => ?_⟩
    rw [← Nat.add_assoc, compile_op, chain_append]
    simp only [bind_assoc', pure_bind', SOp.members_wrap]
    refine LeF.trans ((hk1 n).bind fun _ => (hk2 n).bindLeft) ?_
    simp only [bind_assoc', pure_bind']
    exact (leF_pattern (by omega) c p).bind fun _ => (leF_pattern (by omega) c q).bindLeft

theorem parts_right' {o : SOp} {c : SCtx} : ∀ {p ps}, Parts o p ps → 2 ≤ ps.length → ∃ k, ∀ n,
    LeF (do let as ← chain (compilePattern F x n c) o ps; pure (o.wrap as)) (compilePattern F x (n + k) c p)
  | _, _, .one, h => absurd h (by simp)
  | _, _, .paren h, hl => by
    obtain ⟨k, hk⟩ := parts_right' h hl
    exact ⟨k + 1, fun n => hk n⟩
  | _, _, @Parts.op _ p ps q qs h1 h2, _ => by
    obtain ⟨k1, hk1⟩ := parts_right (F := F) (x := x) (c := c) h1
    obtain ⟨k2, hk2⟩ := parts_right (F := F) (x := x) (c := c) h2
    refine ⟨max k1 k2 + 1, fun n => ?_⟩
    rw [← Nat.add_assoc, compile_op, chain_append]
    simp only [bind_assoc', pure_bind']
    refine LeF.trans ((hk1 n).bind fun _ => (hk2 n).bindLeft) ?_
    simp only [bind_assoc', pure_bind']
    exact (leF_pattern (by omega) c p).bind fun _ => (leF_pattern (by omega) c q).bindLeft

end Verif
