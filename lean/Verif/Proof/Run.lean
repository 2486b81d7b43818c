import Verif.Proof.AttD
import Verif.Model.Validate
/-
Runs over resolved events (element names and attributes already expanded, character data already
decoded), and their soundness and completeness against the store semantics.
-/
set_option linter.unusedSectionVars false
namespace Verif
variable {D V : Type}

/-- resolved events -/
inductive REv where
  | start (nm : QName) (atts : List Attr)
  | text (s : Str)
  | fin

mutual
/-- events of a node -/
def Node.events : Node → List REv
  | .text s => [.text s]
  | .elem nm a kids => .start nm a :: (eventsL kids ++ [.fin])
/-- events of a node list -/
def eventsL : List Node → List REv
  | [] => []
  | n :: ns => n.events ++ eventsL ns
end

section
variable [DecidableEq D] [DecidableEq V] (L : Lib D V)

/-- attribute loop on resolved attributes; `none` is a "not allowed" -/
def attsR (n : Nat) : Nat → List Attr → SM D V (Option Nat)
  | pat, [] => pure (some pat)
  | pat, att :: rest => do
    let r ← attDeriv L n [] pat att
    let p ← patt r.1
    if p.isNotAllowed then pure none else attsR n r.1 rest

/-- `pure none` when the identity is `NotAllowed` -/
def guardNA (i : Nat) : SM D V (Option Nat) := do
  let p ← patt i
  if p.isNotAllowed then pure none else pure (some i)

/-- a resolved start tag -/
def startR (n : Nat) (pat : Pat D V) (nm : QName) (atts : List Attr) : SM D V (Option Nat) := do
  let d ← startTagOpenDeriv n pat nm
  let dp ← patt d
  if dp.isNotAllowed then pure none
  else do
    match ← attsR L n d atts with
    | none => pure none
    | some d2 => do
      let p2 ← patt d2
      if p2.isNotAllowed then pure none
      else do
        let d3 ← startTagCloseDeriv n d2
        guardNA d3

/-- one resolved event -/
def stepR (n : Nat) (cur : Nat) : REv → SM D V (Option Nat)
  | .start nm atts => do
    let pat ← patt cur
    startR L n pat nm atts
  | .text s => do
    let pat ← patt cur
    let i ← textDeriv L n pat s
    guardNA i
  | .fin => do
    let pat ← patt cur
    let i ← endTagDeriv n pat
    guardNA i

omit [DecidableEq D] [DecidableEq V] in
/-- sequencing of `Option` results -/
def andThen {α β : Type} (x : SM D V (Option α)) (f : α → SM D V (Option β)) : SM D V (Option β) :=
  x >>= fun o => match o with
  | none => pure none
  | some a => f a

/-- a run over resolved events -/
def runR (n : Nat) : Nat → List REv → SM D V (Option Nat)
  | cur, [] => pure (some cur)
  | cur, e :: es => andThen (stepR L n cur e) fun c => runR n c es

omit [DecidableEq D] [DecidableEq V] in
theorem andThen_assoc {α β γ : Type} (x : SM D V (Option α)) (f : α → SM D V (Option β))
    (g : β → SM D V (Option γ)) :
    andThen (andThen x f) g = andThen x (fun a => andThen (f a) g) := by
  funext st
  unfold andThen
  simp only [ST.bind_run]
  cases h : x st with
  | error e => simp
  | ok r =>
    obtain ⟨o, st'⟩ := r
    cases o with
    | none => simp
    | some a => simp [ST.bind_run]

theorem runR_append (n : Nat) (es es' : List REv) : ∀ cur,
    runR L n cur (es ++ es') = andThen (runR L n cur es) (fun c => runR L n c es') := by
  induction es with
  | nil =>
    intro cur
    funext st
    simp [runR, andThen, ST.bind_run]
  | cons e es ih =>
    intro cur
    have : runR L n cur (e :: es) = andThen (stepR L n cur e) (fun c => runR L n c es) := rfl
    rw [this, andThen_assoc]
    have : runR L n cur ((e :: es) ++ es') =
      andThen (stepR L n cur e) (fun c => runR L n c (es ++ es')) := rfl
    rw [this]
    congr 1
    funext c
    exact ih c

end

section
variable (L : Lib D V) (lk : Lk D V)

/-- all attributes in turn -/
inductive ATs : List Attr → Nat → Nat → Prop
  | nil {i} : ATs [] i i
  | cons {x xs i j r} : AT L lk x i j → ATs xs j r → ATs (x :: xs) i r

/-- some attribute is not allowed -/
inductive ATfail : List Attr → Nat → Prop
  | here {x xs i j} : AT L lk x i j → lk j = some .notAllowed → ATfail (x :: xs) i
  | there {x xs i j} : AT L lk x i j → ATfail xs j → ATfail (x :: xs) i

def StartRel (p : Pat D V) (nm : QName) (atts : List Attr) (r : Nat) : Prop :=
  ∃ d d2, STD lk nm p d ∧ ATs L lk atts d d2 ∧ STC lk d2 r

def StartFail (p : Pat D V) (nm : QName) (atts : List Attr) : Prop :=
  ∃ d, STD lk nm p d ∧ (lk d = some .notAllowed ∨ ATfail L lk atts d ∨
    ∃ d2, ATs L lk atts d d2 ∧ (lk d2 = some .notAllowed ∨ ∃ r, STC lk d2 r ∧ lk r = some .notAllowed))

/-- relational step -/
def StepRel (cur : Nat) : REv → Nat → Prop
  | .start nm atts, r => ∃ p, lk cur = some p ∧ StartRel L lk p nm atts r
  | .text s, r => ∃ p, lk cur = some p ∧ TD L lk (.txt p s) r
  | .fin, r => ∃ p, lk cur = some p ∧ ETD lk p r

def StepFail (cur : Nat) : REv → Prop
  | .start nm atts => ∃ p, lk cur = some p ∧ StartFail L lk p nm atts
  | .text s => ∃ p r, lk cur = some p ∧ TD L lk (.txt p s) r ∧ lk r = some .notAllowed
  | .fin => ∃ p r, lk cur = some p ∧ ETD lk p r ∧ lk r = some .notAllowed

end

section
variable [DecidableEq D] [DecidableEq V] (L : Lib D V)

theorem isNotAllowed_iff {p : Pat D V} : p.isNotAllowed = true ↔ p = .notAllowed := by
  cases p <;> simp [Pat.isNotAllowed]

theorem ok_attDeriv0 (n : Nat) (i : Nat) (x : Attr) :
    Ok (attDeriv L n [] i x) (fun lk r => AT L lk x i r.1) :=
  (ok_attDeriv L x n [] i).mono fun _ _ h => (h (by intro i r h; cases h)).1

theorem ok_attsR (n : Nat) : ∀ (atts : List Attr) (i : Nat), Ok (attsR L n i atts)
    (fun lk o => (∀ r, o = some r → ATs L lk atts i r) ∧ (o = none → ATfail L lk atts i)) := by
  intro atts
  induction atts with
  | nil => intro i; exact Ok.pure fun lk => ⟨fun r h => (by cases h; exact .nil), nofun⟩
  | cons x xs ih =>
    intro i
    refine Ok.bind (ok_attDeriv0 L n i x) fun r => Ok.bind (ok_patt r.1) fun p => ?_
    refine Ok.ite (fun h => Ok.pure fun lk h1 h2 => ⟨nofun, fun _ => ?_⟩)
      (fun h => (ih r.1).mono fun lk o h0 h1 h2 => ⟨fun r' h' => ?_, fun h' => ?_⟩)
    · rw [isNotAllowed_iff.mp h] at h1
      exact .here h2 h1
    · exact .cons h2 (h0.1 r' h')
    · exact .there h2 (h0.2 h')

theorem ok_guardNA (i : Nat) : Ok (guardNA i : SM D V _)
    (fun lk o => (∀ r, o = some r → r = i ∧ lk i ≠ some .notAllowed) ∧
      (o = none → lk i = some .notAllowed)) := by
  refine Ok.bind (ok_patt i) fun p => Ok.ite (fun h => Ok.pure fun lk h1 => ?_)
    (fun h => Ok.pure fun lk h1 => ?_)
  · rw [isNotAllowed_iff.mp h] at h1
    exact ⟨nofun, fun _ => h1⟩
  · refine ⟨fun r h' => ?_, nofun⟩
    cases h'
    refine ⟨rfl, fun h' => ?_⟩
    rw [h1] at h'; cases h'
    exact h rfl

theorem ok_startR (n : Nat) (p : Pat D V) (nm : QName) (atts : List Attr) :
    Ok (startR L n p nm atts) (fun lk o =>
      (∀ r, o = some r → StartRel L lk p nm atts r ∧ lk r ≠ some .notAllowed) ∧
      (o = none → StartFail L lk p nm atts)) := by
  refine Ok.bind (ok_startTagOpenDeriv nm n p) fun d => Ok.bind (ok_patt d) fun dp => ?_
  refine Ok.ite (fun h => Ok.pure fun lk h1 h2 => ⟨nofun, fun _ => ?_⟩) (fun h => ?_)
  · rw [isNotAllowed_iff.mp h] at h1
    exact ⟨d, h2, .inl h1⟩
  · refine Ok.bind (ok_attsR L n atts d) fun o => ?_
    cases o with
    | none =>
      exact Ok.pure fun lk h1 h2 h3 => ⟨nofun, fun _ => ⟨d, h3, .inr (.inl (h1.2 rfl))⟩⟩
    | some d2 =>
      refine Ok.bind (ok_patt d2) fun p2 => Ok.ite (fun h => Ok.pure fun lk h1 h2 h3 h4 =>
        ⟨nofun, fun _ => ?_⟩) (fun h => ?_)
      · rw [isNotAllowed_iff.mp h] at h1
        exact ⟨d, h4, .inr (.inr ⟨d2, h2.1 _ rfl, .inl h1⟩)⟩
      · refine Ok.bind (ok_startTagCloseDeriv n d2) fun d3 => (ok_guardNA d3).mono
          fun lk o h0 h1 h2 h3 h4 h5 => ⟨fun r hr => ?_, fun hn => ?_⟩
        · obtain ⟨rfl, hna⟩ := h0.1 r hr
          exact ⟨⟨d, d2, h5, h3.1 _ rfl, h1⟩, hna⟩
        · exact ⟨d, h5, .inr (.inr ⟨d2, h3.1 _ rfl, .inr ⟨d3, h1, h0.2 hn⟩⟩)⟩

theorem ok_stepR (n : Nat) (cur : Nat) (e : REv) : Ok (stepR L n cur e) (fun lk o =>
      (∀ r, o = some r → StepRel L lk cur e r ∧ lk r ≠ some .notAllowed) ∧
      (o = none → StepFail L lk cur e)) := by
  cases e with
  | start nm atts =>
    refine Ok.bind (ok_patt cur) fun p => (ok_startR L n p nm atts).mono fun lk o h0 h1 =>
      ⟨fun r hr => ?_, fun hn => ?_⟩
    · exact ⟨⟨p, h1, (h0.1 r hr).1⟩, (h0.1 r hr).2⟩
    · exact ⟨p, h1, h0.2 hn⟩
  | text s =>
    refine Ok.bind (ok_patt cur) fun p => Ok.bind (ok_textDeriv L n p s) fun i =>
      (ok_guardNA i).mono fun lk o h0 h1 h2 => ⟨fun r hr => ?_, fun hn => ?_⟩
    · obtain ⟨rfl, hna⟩ := h0.1 r hr
      exact ⟨⟨p, h2, h1⟩, hna⟩
    · exact ⟨p, i, h2, h1, h0.2 hn⟩
  | fin =>
    refine Ok.bind (ok_patt cur) fun p => Ok.bind (ok_endTagDeriv n p) fun i =>
      (ok_guardNA i).mono fun lk o h0 h1 h2 => ⟨fun r hr => ?_, fun hn => ?_⟩
    · obtain ⟨rfl, hna⟩ := h0.1 r hr
      exact ⟨⟨p, h2, h1⟩, hna⟩
    · exact ⟨p, i, h2, h1, h0.2 hn⟩

end

/-! ### weak semantics -/

/-- pointwise `WeakP` on a stack of contents -/
inductive WeakL (pm : Bool) : List (List Node) → List (List Node) → Prop
  | nil : WeakL pm [] []
  | cons {c c' cs cs'} : WeakP pm c c' → WeakL pm cs cs' → WeakL pm (c :: cs) (c' :: cs')

theorem WeakL.refl {pm} : ∀ cs, WeakL pm cs cs
  | [] => .nil
  | c :: cs => .cons (WeakP.refl c) (WeakL.refl cs)

theorem WeakL.length {pm cs cs'} (h : WeakL pm cs cs') : cs.length = cs'.length := by
  induction h <;> simp_all

/-- what an identity accepts when whitespace-only text may be ignored at every level -/
def WSI (L : Lib D V) (lk : Lk D V) (pm : Bool) (i : Nat) (cs : List (List Node)) : Prop :=
  ∃ cs', WeakL pm cs cs' ∧ SI L lk pm i [] cs'

section
variable {lk : Lk D V} {QE QR : Nat → Prop} {L : Lib D V} {pm : Bool}

theorem WSI.notAllowed {i cs} (h : lk i = some .notAllowed) : ¬ WSI L lk pm i cs := by
  rintro ⟨_, _, hs⟩
  exact SI.notAllowed h hs

theorem Weak.noTextHead {c c'} (h : Weak c c') : NoTextHead c → NoTextHead c' := by
  cases h with
  | nil => exact id
  | keep h => intro hn s c' he; cases he; exact hn _ _ rfl
  | drop h1 h2 => intro hn; exact absurd rfl (hn _ _)

theorem ATs.ty {as i r} (h : ATs L lk as i r) : ∀ {m b k}, TyI lk QE QR m b i k →
    TyI lk QE QR m b r k := by
  induction h with
  | nil => intro m b k h; exact h
  | cons h1 _ ih => intro m b k h; exact ih (h1.ty h)

theorem ATs.sound {as i r} (h : ATs L lk as i r) : ∀ {m b k a cs}, TyI lk QE QR m b i k →
    SI L lk true r a cs → SI L lk true i (as ++ a) cs := by
  induction h with
  | nil => intro m b k a cs _ h; exact h
  | cons h1 _ ih => intro m b k a cs ht h; exact h1.sound ht (ih (h1.ty ht) h)

theorem ATs.complete {as i r} (h : ATs L lk as i r) (hR : ∀ j, QR j → Splits L lk j) :
    ∀ {m b k a cs}, m.up = .strict → TyI lk QE QR m b i k →
    SI L lk false i (as ++ a) cs → SI L lk false r a cs := by
  induction h with
  | nil => intro m b k a cs _ _ h; exact h
  | cons h1 _ ih =>
    intro m b k a cs hm ht h
    exact ih hm (h1.ty ht) (h1.complete hR hm ht h)

theorem ATfail.complete {as i} (h : ATfail L lk as i) (hR : ∀ j, QR j → Splits L lk j) :
    ∀ {m b k cs}, m.up = .strict → TyI lk QE QR m b i k → ¬ SI L lk false i as cs := by
  induction h with
  | here h1 h2 =>
    intro m b k cs hm ht hs
    exact SI.notAllowed h2 (h1.complete hR hm ht hs)
  | there h1 _ ih =>
    intro m b k cs hm ht hs
    exact ih hm (h1.ty ht) (h1.complete hR hm ht hs)

/-! ### one step -/

/-- stack height before → after -/
def REv.next : REv → Nat → Nat
  | .start _ _, k => k + 1
  | .text _, k => k
  | .fin, k => k - 1

theorem StepRel.ty {e i r m k} (h : StepRel L lk i e r) (hm : m.up = m)
    (hE : ∀ i, QE i → TyI lk QE QR m.lo true i 1) (ht : TyI lk QE QR m true i k)
    (hk : e = .fin → 0 < k) : TyI lk QE QR m true r (e.next k) := by
  cases e with
  | start nm as =>
    obtain ⟨p, hp, d, d2, h1, h2, h3⟩ := h
    have := h3.ty (h2.ty (h1.ty hm hE (ht.get hp)))
    rw [Mode.up_lo, hm] at this; exact this
  | text s =>
    obtain ⟨p, hp, h1⟩ := h
    exact h1.ty hm true k (ht.get hp)
  | fin =>
    obtain ⟨p, hp, h1⟩ := h
    have hk := hk rfl
    match k, hk with
    | k + 1, _ => exact h1.ty hm (ht.get hp)

theorem StepRel.sound_text {s i r m k c cs} (h : StepRel L lk i (.text s) r) (hm : m.up = m)
    (ht : TyI lk QE QR m true i k) (hs : WSI L lk true r (c :: cs)) :
    WSI L lk true i ((.text s :: c) :: cs) := by
  obtain ⟨p, hp, h1⟩ := h
  obtain ⟨cs', hw, hs⟩ := hs
  cases hw with
  | cons hw1 hw2 =>
    rcases h1.sound hm true k (ht.get hp) _ _ hs with h | ⟨hws, h⟩
    · exact ⟨_, .cons (.keep hw1) hw2, _, hp, h⟩
    · exact ⟨_, .cons (.drop hws hw1 nofun) hw2, _, hp, h⟩

theorem StepRel.sound_start {nm as i r m k kids c cs} (h : StepRel L lk i (.start nm as) r)
    (hm : m.up = m) (hE : ∀ i, QE i → TyI lk QE QR m.lo true i 1) (ht : TyI lk QE QR m true i k)
    (hs : WSI L lk true r (kids :: c :: cs)) :
    WSI L lk true i ((.elem nm as kids :: c) :: cs) := by
  obtain ⟨p, hp, d, d2, h1, h2, h3⟩ := h
  obtain ⟨cs', hw, hs⟩ := hs
  cases hw with
  | cons hw1 hw2 =>
    cases hw2 with
    | cons hw2 hw3 =>
      have td := h1.ty hm hE (ht.get hp)
      have s1 := (h3.sem (h2.ty td)).mp hs
      have s2 := h2.sound td s1
      have s3 := h1.sound hm hE (ht.get hp) s2 hw1
      rw [List.append_nil] at s3
      exact ⟨_, .cons (.keep hw2) hw3, _, hp, s3⟩

theorem StepRel.sound_fin {i r m k cs} (h : StepRel L lk i .fin r) (ht : TyI lk QE QR m true i (k + 1))
    (hs : WSI L lk true r cs) : WSI L lk true i ([] :: cs) := by
  obtain ⟨p, hp, h1⟩ := h
  obtain ⟨cs', hw, hs⟩ := hs
  exact ⟨_, .cons .nil hw, _, hp, h1.sound (ht.get hp) hs⟩

section
variable (hE : ∀ i, QE i → TyI lk QE QR .loose true i 1) (hR : ∀ j, QR j → Splits L lk j)

theorem textStep_complete {s i p r k c cs} (hp : lk i = some p) (h1 : TD L lk (.txt p s) r)
    (ht : TyI lk QE QR .strict true i k)
    (hs : WSI L lk false i ((.text s :: c) :: cs)) : WSI L lk false r (c :: cs) := by
  obtain ⟨cs', hw, y, hy, hs⟩ := hs
  rw [hp] at hy; cases hy
  cases hw with
  | cons hw1 hw2 =>
    cases hw1 with
    | keep hw1 => exact ⟨_, .cons hw1 hw2, (h1.complete true k (ht.get hp) _ _).1 hs⟩
    | drop hws hw1 hn => exact ⟨_, .cons hw1 hw2, (h1.complete true k (ht.get hp) _ _).2 hws (hn rfl) hs⟩

theorem finStep_complete {i p r k cs} (hp : lk i = some p) (h1 : ETD lk p r)
    (ht : TyI lk QE QR .strict true i (k + 1)) (hc : cs ≠ [])
    (hs : WSI L lk false i ([] :: cs)) : WSI L lk false r cs := by
  obtain ⟨cs', hw, y, hy, hs⟩ := hs
  rw [hp] at hy; cases hy
  cases hw with
  | cons hw1 hw2 =>
    cases hw1
    refine ⟨_, hw2, h1.complete (ht.get hp) ?_ hs⟩
    intro h; subst h
    cases hw2; exact hc rfl

include hE in
theorem startOpen_complete {nm as i p d k kids c cs} (hp : lk i = some p) (h1 : STD lk nm p d)
    (ht : TyI lk QE QR .strict true i k)
    (hs : WSI L lk false i ((.elem nm as kids :: c) :: cs)) :
    ∃ cs', WeakL false (kids :: c :: cs) cs' ∧ SI L lk false d as cs' := by
  obtain ⟨cs', hw, y, hy, hs⟩ := hs
  rw [hp] at hy; cases hy
  cases hw with
  | cons hw1 hw2 =>
    cases hw1 with
    | keep hw1 =>
      obtain ⟨c0, hw0, s⟩ := h1.complete hE (ht.get hp) hs
      exact ⟨_, .cons hw0 (.cons hw1 hw2), s⟩

include hE hR in
theorem StepRel.complete_start {nm as i r k kids c cs} (h : StepRel L lk i (.start nm as) r)
    (ht : TyI lk QE QR .strict true i k)
    (hs : WSI L lk false i ((.elem nm as kids :: c) :: cs)) :
    WSI L lk false r (kids :: c :: cs) := by
  obtain ⟨p, hp, d, d2, h1, h2, h3⟩ := h
  obtain ⟨cs', hw, s⟩ := startOpen_complete hE hp h1 ht hs
  have td : TyI lk QE QR .loose true d (k + 1) := h1.ty (m := .strict) rfl hE (ht.get hp)
  have s2 := h2.complete (a := []) hR rfl td (by simpa using s)
  exact ⟨_, hw, (h3.sem (h2.ty td)).mpr s2⟩

include hE hR in
theorem StepFail.complete_start {nm as i k kids c cs} (h : StepFail L lk i (.start nm as))
    (ht : TyI lk QE QR .strict true i k) :
    ¬ WSI L lk false i ((.elem nm as kids :: c) :: cs) := by
  intro hs
  obtain ⟨p, hp, d, h1, h⟩ := h
  obtain ⟨cs', hw, s⟩ := startOpen_complete hE hp h1 ht hs
  have td : TyI lk QE QR .loose true d (k + 1) := h1.ty (m := .strict) rfl hE (ht.get hp)
  rcases h with h | h | ⟨d2, h2, h⟩
  · exact SI.notAllowed h s
  · exact h.complete hR rfl td s
  · have s2 := h2.complete (a := []) hR rfl td (by simpa using s)
    rcases h with h | ⟨r, h3, h⟩
    · exact SI.notAllowed h s2
    · exact SI.notAllowed h ((h3.sem (h2.ty td)).mpr s2)

end
end

/-! ### whole runs -/

mutual
/-- no two adjacent text nodes, at any depth -/
def Node.NoAdj : Node → Prop
  | .text _ => True
  | .elem _ _ kids => NoAdjL kids
/-- no two adjacent text nodes, at any depth -/
def NoAdjL : List Node → Prop
  | [] => True
  | n :: ns => n.NoAdj ∧ NoAdjL ns ∧ (∀ s, n = .text s → ∀ t rest, ns ≠ .text t :: rest)
end

/-- fixed typing context for a run: holds in the final store -/
structure Ctx (L : Lib D V) (lk : Lk D V) (QE QR : Nat → Prop) (m : Mode) : Prop where
  hm : m.up = m
  hE : ∀ i, QE i → TyI lk QE QR m.lo true i 1
  hR : m = .strict → ∀ j, QR j → Splits L lk j

section
variable [DecidableEq D] [DecidableEq V] {L : Lib D V}

/-- soundness triple of a run from `i` over the events of `ns` -/
def RunSound (L : Lib D V) (lk : Lk D V) (i : Nat) (ns : List Node) (o : Option Nat) : Prop :=
  ∀ QE QR m k, Ctx L lk QE QR m → TyI lk QE QR m true i (k + 1) →
    (∀ r, o = some r → TyI lk QE QR m true r (k + 1) ∧
      ∀ c cs, WSI L lk true r (c :: cs) → WSI L lk true i ((ns ++ c) :: cs)) ∧
    (m = .strict → ∀ c cs, WSI L lk false i ((ns ++ c) :: cs) → ∃ r, o = some r ∧ WSI L lk false r (c :: cs))


theorem ok_andThen {α β : Type} {x : SM D V (Option α)} {f : α → SM D V (Option β)}
    {R : Lk D V → Option α → Prop} {Q : Lk D V → Option β → Prop} (hx : Ok x R)
    (hf : ∀ a, Ok (f a) (fun lk o => R lk (some a) → Q lk o)) (hn : ∀ lk, R lk none → Q lk none) :
    Ok (andThen x f) Q := by
  refine Ok.bind hx fun o => ?_
  cases o with
  | none => exact Ok.pure fun lk h => hn lk h
  | some a => exact hf a

theorem RunSound.cons {lk : Lk D V} {i r n ns o} (h1 : RunSound L lk i [n] (some r))
    (h2 : RunSound L lk r ns o) : RunSound L lk i (n :: ns) o := by
  intro QE QR m k hc ht
  obtain ⟨hs1, hc1⟩ := h1 QE QR m k hc ht
  obtain ⟨tr, hs1⟩ := hs1 r rfl
  obtain ⟨hs2, hc2⟩ := h2 QE QR m k hc tr
  refine ⟨fun r' hr' => ⟨(hs2 r' hr').1, fun c cs hw => ?_⟩, fun hm c cs hw => ?_⟩
  · exact hs1 _ _ ((hs2 r' hr').2 c cs hw)
  · obtain ⟨r', hr', hw⟩ := hc1 hm (ns ++ c) cs hw
    cases hr'
    exact hc2 hm c cs hw

theorem runSound_text {lk : Lk D V} {i s o}
    (h : (∀ r, o = some r → StepRel L lk i (.text s) r ∧ lk r ≠ some .notAllowed) ∧
      (o = none → StepFail L lk i (.text s))) : RunSound L lk i [.text s] o := by
  intro QE QR m k hc ht
  refine ⟨fun r hr => ?_, fun hm c cs hw => ?_⟩
  · obtain ⟨h1, _⟩ := h.1 r hr
    exact ⟨h1.ty hc.hm hc.hE ht nofun, fun c cs hw => h1.sound_text hc.hm ht hw⟩
  · subst hm
    cases o with
    | none =>
      obtain ⟨p, r, hp, h1, h2⟩ := h.2 rfl
      exact absurd (textStep_complete hp h1 ht hw) (WSI.notAllowed h2)
    | some r =>
      obtain ⟨⟨p, hp, h1⟩, _⟩ := h.1 r rfl
      exact ⟨r, rfl, textStep_complete hp h1 ht hw⟩

theorem runSound_elem {lk : Lk D V} {i nm as kids j j2 o}
    (h1 : StepRel L lk i (.start nm as) j) (h2 : RunSound L lk j kids (some j2))
    (h3 : (∀ r, o = some r → StepRel L lk j2 .fin r ∧ lk r ≠ some .notAllowed) ∧
      (o = none → StepFail L lk j2 .fin)) : RunSound L lk i [.elem nm as kids] o := by
  intro QE QR m k hc ht
  have tj := h1.ty hc.hm hc.hE ht nofun
  obtain ⟨hs2, hc2⟩ := h2 QE QR m (k + 1) hc tj
  obtain ⟨tj2, hs2⟩ := hs2 j2 rfl
  refine ⟨fun r hr => ?_, fun hm c cs hw => ?_⟩
  · obtain ⟨h3, _⟩ := h3.1 r hr
    refine ⟨h3.ty hc.hm hc.hE tj2 (fun _ => by simp), fun c cs hw => ?_⟩
    have w2 := h3.sound_fin (k := k + 1) tj2 hw
    have w1 := hs2 _ _ w2
    rw [List.append_nil] at w1
    exact h1.sound_start hc.hm hc.hE ht w1
  · subst hm
    have w1 := h1.complete_start hc.hE (hc.hR rfl) ht hw
    obtain ⟨r, hr, w2⟩ := hc2 rfl [] (c :: cs) (by simpa using w1)
    cases hr
    cases o with
    | none =>
      obtain ⟨p, r, hp, h1, h2⟩ := h3.2 rfl
      exact absurd (finStep_complete (k := k + 1) hp h1 tj2 (by simp) w2) (WSI.notAllowed h2)
    | some r =>
      obtain ⟨⟨p, hp, h1⟩, _⟩ := h3.1 r rfl
      exact ⟨r, rfl, finStep_complete (k := k + 1) hp h1 tj2 (by simp) w2⟩

theorem runSound_elem_kids {lk : Lk D V} {i nm as kids j}
    (h1 : StepRel L lk i (.start nm as) j) (h2 : RunSound L lk j kids none) :
    RunSound L lk i [.elem nm as kids] none := by
  intro QE QR m k hc ht
  have tj := h1.ty hc.hm hc.hE ht nofun
  obtain ⟨_, hc2⟩ := h2 QE QR m (k + 1) hc tj
  refine ⟨nofun, fun hm c cs hw => ?_⟩
  subst hm
  have w1 := h1.complete_start hc.hE (hc.hR rfl) ht hw
  obtain ⟨r, hr, w2⟩ := hc2 rfl [] (c :: cs) (by simpa using w1)
  cases hr

theorem runSound_elem_start {lk : Lk D V} {i nm as kids}
    (h1 : StepFail L lk i (.start nm as)) : RunSound L lk i [.elem nm as kids] none := by
  intro QE QR m k hc ht
  refine ⟨nofun, fun hm c cs hw => ?_⟩
  subst hm
  exact absurd hw (h1.complete_start hc.hE (hc.hR rfl) ht)

theorem RunSound.fail {lk : Lk D V} {i n ns} (h1 : RunSound L lk i [n] none) :
    RunSound L lk i (n :: ns) none := by
  intro QE QR m k hc ht
  obtain ⟨_, hc1⟩ := h1 QE QR m k hc ht
  refine ⟨nofun, fun hm c cs hw => ?_⟩
  obtain ⟨r', hr', hw⟩ := hc1 hm (ns ++ c) cs hw
  cases hr'

theorem runSound_nil {lk : Lk D V} {i} : RunSound L lk i [] (some i) := by
  intro QE QR m k hc ht
  exact ⟨fun r hr => (by cases hr; exact ⟨ht, fun c cs hw => hw⟩), fun _ c cs hw => ⟨i, rfl, hw⟩⟩

variable (L)
mutual
theorem ok_run_node (n : Nat) : ∀ (x : Node) (i : Nat),
    Ok (runR L n i x.events) (fun lk o => RunSound L lk i [x] o)
  | .text s, i => by
    simp only [Node.events, runR]
    refine ok_andThen (ok_stepR L n i (.text s)) (fun a => Ok.pure fun lk h => ?_) fun lk h => ?_
    · exact runSound_text h
    · exact runSound_text h
  | .elem nm as kids, i => by
    simp only [Node.events, runR]
    refine ok_andThen (ok_stepR L n i (.start nm as)) (fun j => ?_) fun lk h => ?_
    · rw [runR_append]
      refine ok_andThen (ok_run_list n kids j) (fun j2 => ?_) fun lk h h1 => ?_
      · simp only [runR]
        refine ok_andThen (ok_stepR L n j2 .fin) (fun a => Ok.pure fun lk h1 h2 h3 => ?_)
          fun lk h1 h2 h3 => ?_
        · exact runSound_elem (h3.1 _ rfl).1 h2 h1
        · exact runSound_elem (h3.1 _ rfl).1 h2 h1
      · exact runSound_elem_kids (h1.1 _ rfl).1 h
    · exact runSound_elem_start (h.2 rfl)
theorem ok_run_list (n : Nat) : ∀ (ns : List Node) (i : Nat),
    Ok (runR L n i (eventsL ns)) (fun lk o => RunSound L lk i ns o)
  | [], i => Ok.pure fun lk => runSound_nil
  | x :: ns, i => by
    simp only [eventsL]
    rw [runR_append]
    refine ok_andThen (ok_run_node n x i) (fun j => (ok_run_list n ns j).mono fun lk o h h1 => ?_)
      fun lk h => h.fail
    exact h1.cons h
end

end
end Verif
