import Verif.Proof.Top
/-
Content whose character data is read in several pieces matches as the joined content does, where the schema asks for nothing but
text.
-/
set_option linter.unusedSectionVars false
namespace Verif.Split
variable {D V : Type} {L : Lib D V} {env : Env D V}

/-- `joined` is `raw` with adjacent character data joined; at the levels where pieces are joined (`b`) the element is called `Sp` -/
inductive Ch (Sp : QName → Prop) : Bool → List Node → List Node → Prop
  | nil {b} : Ch Sp b [] []
  | elem {b b' nm as k k' c c'} : (b' = true → Sp nm) → Ch Sp b' k k' → Ch Sp b c c' →
      Ch Sp b (.elem nm as k :: c) (.elem nm as k' :: c')
  | run {b ts c c'} : ts ≠ [] → (b = false → ts.length = 1) → NoTextHead c → Ch Sp b c c' →
      Ch Sp b (ts.map Node.text ++ c) (.text ts.flatten :: c')

/-- `d` is `c` with its elements' content replaced by `E` and, for `b`, each text by any texts -/
inductive Sub (E : QName → List Node → List Node → Prop) (b : Bool) : List Node → List Node → Prop
  | nil : Sub E b [] []
  | elem {nm as k k' c d} : E nm k k' → Sub E b c d → Sub E b (.elem nm as k :: c) (.elem nm as k' :: d)
  | text {s ts c d} : (b = false → ts = [s]) → Sub E b c d → Sub E b (.text s :: c) (ts.map Node.text ++ d)

section
variable {E : QName → List Node → List Node → Prop} {b : Bool}

theorem Sub.append {c1 c2 d} : Sub E b (c1 ++ c2) d → ∃ d1 d2, d = d1 ++ d2 ∧ Sub E b c1 d1 ∧ Sub E b c2 d2 := by
  induction c1 generalizing d with
  | nil => intro h; exact ⟨[], d, rfl, .nil, h⟩
  | cons x c1 ih =>
    intro h
    cases h with
    | elem h1 h2 =>
      obtain ⟨d1, d2, rfl, h3, h4⟩ := ih h2
      exact ⟨_ :: d1, d2, rfl, .elem h1 h3, h4⟩
    | text h1 h2 =>
      obtain ⟨d1, d2, rfl, h3, h4⟩ := ih h2
      exact ⟨_ ++ d1, d2, by rw [List.append_assoc], .text h1 h3, h4⟩

theorem shuffle_left : ∀ (x : List Node) {a b c}, Shuffle a b c → Shuffle (x ++ a) b (x ++ c)
  | [], _, _, _, h => h
  | _ :: x, _, _, _, h => .left (shuffle_left x h)

theorem shuffle_right : ∀ (x : List Node) {a b c}, Shuffle a b c → Shuffle a (x ++ b) (x ++ c)
  | [], _, _, _, h => h
  | _ :: x, _, _, _, h => .right (shuffle_right x h)

theorem Sub.shuffle {c1 c2 c} (hs : Shuffle c1 c2 c) : ∀ {d}, Sub E b c d →
    ∃ d1 d2, Sub E b c1 d1 ∧ Sub E b c2 d2 ∧ Shuffle d1 d2 d := by
  induction hs with
  | nil => intro d h; cases h; exact ⟨[], [], .nil, .nil, .nil⟩
  | left _ ih =>
    intro d h
    cases h with
    | elem h1 h2 =>
      obtain ⟨d1, d2, h3, h4, h5⟩ := ih h2
      exact ⟨_ :: d1, d2, .elem h1 h3, h4, .left h5⟩
    | text h1 h2 =>
      obtain ⟨d1, d2, h3, h4, h5⟩ := ih h2
      exact ⟨_ ++ d1, d2, .text h1 h3, h4, shuffle_left _ h5⟩
  | right _ ih =>
    intro d h
    cases h with
    | elem h1 h2 =>
      obtain ⟨d1, d2, h3, h4, h5⟩ := ih h2
      exact ⟨d1, _ :: d2, h3, .elem h1 h4, .right h5⟩
    | text h1 h2 =>
      obtain ⟨d1, d2, h3, h4, h5⟩ := ih h2
      exact ⟨d1, _ ++ d2, h3, .text h1 h4, shuffle_right _ h5⟩

theorem Sub.texts {c d} (h : Sub E b c d) : (∀ x ∈ c, ∃ s, x = Node.text s) → ∀ x ∈ d, ∃ s, x = Node.text s := by
  induction h with
  | nil => exact fun h => h
  | elem _ _ _ =>
    intro h
    obtain ⟨s, hs⟩ := h _ (List.mem_cons_self ..)
    cases hs
  | text _ _ ih =>
    intro h x hx
    rcases List.mem_append.mp hx with hx | hx
    · obtain ⟨s, _, rfl⟩ := List.mem_map.mp hx; exact ⟨s, rfl⟩
    · exact ih (fun x hx => h x (List.mem_cons_of_mem _ hx)) x hx

theorem Sub.refl : ∀ {c : List Node}, (∀ x ∈ c, ∃ s, x = Node.text s) → Sub E false c c
  | [], _ => .nil
  | x :: c, h => by
    obtain ⟨s, rfl⟩ := h x (List.mem_cons_self ..)
    exact .text (ts := [s]) (fun _ => rfl) (Sub.refl fun x hx => h x (List.mem_cons_of_mem _ hx))

theorem Sub.one {s d} (h : Sub E false [.text s] d) : d = [.text s] := by
  cases h with
  | text h1 h2 => cases h2; rw [h1 rfl]; rfl
end

theorem OnlyText.inv_choice {ps : List (Pattern D V)} (h : OnlyText env (.choice ps)) : ∀ p ∈ ps, OnlyText env p := by cases h; assumption
theorem OnlyText.inv_group {p : Pattern D V} {ps} (h : OnlyText env (.group (p :: ps))) : OnlyText env p ∧ OnlyText env (.group ps) := by
  cases h with
  | group h => exact ⟨h _ (List.mem_cons_self ..), .group fun q hq => h q (List.mem_cons_of_mem _ hq)⟩
theorem OnlyText.inv_interleave {p : Pattern D V} {ps} (h : OnlyText env (.interleave (p :: ps))) :
    OnlyText env p ∧ OnlyText env (.interleave ps) := by
  cases h with
  | interleave h => exact ⟨h _ (List.mem_cons_self ..), .interleave fun q hq => h q (List.mem_cons_of_mem _ hq)⟩

theorem _root_.Verif.OnlyText.listFree {p : Pattern D V} (h : OnlyText env p) : ListFree env p := by
  induction h with
  | empty => exact .empty
  | text => exact .text
  | notAllowed => exact .notAllowed
  | choice _ ih => exact .choice ih
  | group _ ih => exact .group ih
  | interleave _ ih => exact .interleave ih
  | mixed _ ih => exact .mixed ih
  | optional _ ih => exact .optional ih
  | zeroOrMore _ ih => exact .zeroOrMore ih
  | oneOrMore _ ih => exact .oneOrMore ih
  | attr => exact .attr
  | element => exact .element
  | ref h _ ih => exact .ref h ih

/-- in elements called `Sp` the schema asks for nothing but text -/
def OnlyIn (env : Env D V) (Sp : QName → Prop) (p : Pattern D V) : Prop :=
  ∀ nc q, ElemIn env p nc q → ∀ nm, nc.Has nm.expanded → Sp nm → OnlyText env q

theorem OnlyIn.sub {Sp} {p q : Pattern D V} (h : OnlyIn env Sp p) (hi : ∀ {nc r}, ElemIn env q nc r → ElemIn env p nc r) :
    OnlyIn env Sp q := fun nc r h' => h nc r (hi h')

/-- replacing texts where nothing but text is asked for changes nothing -/
theorem match_sub {Sp : QName → Prop} {pm} {E : QName → List Node → List Node → Prop}
    (hE : ∀ {nm k k' c}, E nm k k' → Weak k c → ∃ b c', (b = true → Sp nm) ∧ WeakP pm k' c' ∧ Sub E b c c')
    {p : Pattern D V} {a c} (h : Match L env p a c) :
    ∀ {b d}, OnlyIn env Sp p → (b = true → OnlyText env p) → Sub E b c d → MatchP L env pm p a d := by
  induction h with
  | empty => intro b d _ _ hs; cases hs; exact .empty
  | text h => intro b d _ _ hs; exact .text (hs.texts h)
  | choice h _ ih =>
    intro b d hi ho hs
    exact .choice h (ih (hi.sub (.choice h)) (fun e => OnlyText.inv_choice (ho e) _ h) hs)
  | groupNil => intro b d _ _ hs; cases hs; exact .groupNil
  | groupCons _ _ h ih1 ih2 =>
    intro b d hi ho hs
    obtain ⟨d1, d2, rfl, h1, h2⟩ := hs.append
    exact .groupCons (ih1 (hi.sub (.group (List.mem_cons_self ..))) (fun e => (OnlyText.inv_group (ho e)).1) h1)
      (ih2 (hi.sub .groupTail) (fun e => (OnlyText.inv_group (ho e)).2) h2) h
  | interleaveNil => intro b d _ _ hs; cases hs; exact .interleaveNil
  | interleaveCons _ _ h h' ih1 ih2 =>
    intro b d hi ho hs
    obtain ⟨d1, d2, h1, h2, h3⟩ := hs.shuffle h'
    exact .interleaveCons (ih1 (hi.sub (.interleave (List.mem_cons_self ..))) (fun e => (OnlyText.inv_interleave (ho e)).1) h1)
      (ih2 (hi.sub .interleaveTail) (fun e => (OnlyText.inv_interleave (ho e)).2) h2) h h3
  | mixed _ h h' ih =>
    intro b d hi ho hs
    obtain ⟨d1, d2, h1, h2, h3⟩ := hs.shuffle h'
    exact .mixed (ih (hi.sub .mixed) (fun e => by cases ho e; assumption) h1) (h2.texts h) h3
  | optionalNone => intro b d _ _ hs; cases hs; exact .optionalNone
  | optionalSome _ ih =>
    intro b d hi ho hs
    exact .optionalSome (ih (hi.sub .optional) (fun e => by cases ho e; assumption) hs)
  | zeroOrMoreNil => intro b d _ _ hs; cases hs; exact .zeroOrMoreNil
  | zeroOrMoreCons _ _ h ih1 ih2 =>
    intro b d hi ho hs
    obtain ⟨d1, d2, rfl, h1, h2⟩ := hs.append
    exact .zeroOrMoreCons (ih1 (hi.sub .zeroOrMore) (fun e => by cases ho e; assumption) h1) (ih2 hi ho h2) h
  | oneOrMore _ _ h ih1 ih2 =>
    intro b d hi ho hs
    obtain ⟨d1, d2, rfl, h1, h2⟩ := hs.append
    exact .oneOrMore (ih1 (hi.sub .oneOrMore) (fun e => by cases ho e; assumption) h1)
      (ih2 (hi.sub fun h => by cases h with | zeroOrMore h => exact .oneOrMore h)
        (fun e => by cases ho e with | oneOrMore h => exact .zeroOrMore h) h2) h
  | attr h h' _ ih =>
    intro b d hi _ hs
    cases hs
    refine .attr h h' (ih (b := false) (hi.sub .attr) nofun (Sub.refl fun x hx => ?_))
    have := h'.mem x hx
    simp at this; exact ⟨_, this⟩
  | element h h' _ ih =>
    intro b d hi _ hs
    cases hs with
    | elem he hs =>
      cases hs
      obtain ⟨b', c', h1, h2, h3⟩ := hE he h'
      exact .element h h2 (ih (hi.sub .element) (fun e => hi _ _ .here _ h (h1 e)) h3)
  | ref h _ ih =>
    intro b d hi ho hs
    refine .ref h (ih (hi.sub (.ref h)) (fun e => ?_) hs)
    cases ho e with
    | ref h' h2 => rw [h] at h'; cases h'; exact h2
  | value h =>
    intro b d _ ho hs
    cases b with
    | true => cases ho rfl
    | false => rw [hs.one]; exact .value h
  | data h =>
    intro b d _ ho hs
    cases b with
    | true => cases ho rfl
    | false => rw [hs.one]; exact .data h
  | dataExcept h h' =>
    intro b d _ ho hs
    cases b with
    | true => cases ho rfl
    | false => rw [hs.one]; exact .dataExcept h h'
  | list h _ ih =>
    intro b d hi ho hs
    cases b with
    | true => cases ho rfl
    | false =>
      rw [hs.one]
      refine .list h (ih (b := false) (hi.sub .list) nofun (Sub.refl fun x hx => ?_))
      obtain ⟨y, _, rfl⟩ := List.mem_map.mp hx
      exact ⟨y, rfl⟩

/-! ### white space -/

theorem weakP_keep {pm} : ∀ (x : List Node) {c d}, WeakP pm c d → WeakP pm (x ++ c) (x ++ d)
  | [], _, _, h => h
  | _ :: x, _, _, h => .keep (weakP_keep x h)

theorem weakP_drop {pm} : ∀ (ts : List Str) {c d}, (∀ t ∈ ts, WsText t) → NoTextHead d → WeakP pm c d →
    WeakP pm (ts.map Node.text ++ c) d
  | [], _, _, _, _, h => h
  | t :: ts, _, _, hw, hn, h =>
    .drop (hw t (List.mem_cons_self ..)) (weakP_drop ts (fun t ht => hw t (List.mem_cons_of_mem _ ht)) hn h) fun _ => hn

theorem wsText_flatten {ts : List Str} : WsText ts.flatten ↔ ∀ t ∈ ts, WsText t := by
  constructor
  · intro h t ht c hc; exact h c (List.mem_flatten.mpr ⟨t, ht, hc⟩)
  · intro h c hc
    obtain ⟨t, ht, hc⟩ := List.mem_flatten.mp hc
    exact h t ht c hc

/-- joined content to content in pieces -/
def E1 (Sp : QName → Prop) (nm : QName) (j r : List Node) : Prop := ∃ b, (b = true → Sp nm) ∧ Ch Sp b r j
/-- content in pieces to joined content -/
def E2 (Sp : QName → Prop) (nm : QName) (r j : List Node) : Prop := ∃ b, (b = true → Sp nm) ∧ Ch Sp b r j

theorem Ch.noTextHead {Sp b r j} (h : Ch Sp b r j) (hn : NoTextHead r) : NoTextHead j := by
  cases h with
  | nil => exact hn
  | elem => intro s c; nofun
  | @run _ ts _ _ h1 _ _ _ =>
    cases ts with
    | nil => exact absurd rfl h1
    | cons t ts => exact absurd rfl (hn t _)

theorem Sub.noTextHead {E b c d} (h : Sub E b c d) (hn : NoTextHead c) : NoTextHead d := by
  cases h with
  | nil => exact hn
  | elem => intro s c; nofun
  | text => exact absurd rfl (hn _ _)

theorem Ch.weak1 {Sp b r j} (h : Ch Sp b r j) : ∀ {c}, Weak j c → ∃ d, WeakP false r d ∧ Sub (E1 Sp) b c d := by
  induction h with
  | nil => intro c h; cases h; exact ⟨[], .nil, .nil⟩
  | elem hb h1 _ _ ih =>
    intro c h
    cases h with
    | keep h =>
      obtain ⟨d, h2, h3⟩ := ih h
      exact ⟨_ :: d, .keep h2, .elem ⟨_, hb, h1⟩ h3⟩
  | @run b ts c0 c' hne hb hn hc ih =>
    intro c h
    cases h with
    | keep h =>
      obtain ⟨d, h2, h3⟩ := ih h
      refine ⟨ts.map Node.text ++ d, weakP_keep _ h2, .text (fun e => ?_) h3⟩
      match ts, hb e with
      | [t], _ => simp
    | drop hw h =>
      obtain ⟨d, h2, h3⟩ := ih h
      refine ⟨d, weakP_drop ts (wsText_flatten.mp hw) ?_ h2, h3⟩
      exact h3.noTextHead (Weak.noTextHead h fun s r e => hc.noTextHead hn s r e)

/-- dropping white space from a run of texts -/
theorem weak_run : ∀ (ts : List Str) {c c' : List Node}, Weak (ts.map Node.text ++ c) c' →
    ∃ us c2, c' = us.map Node.text ++ c2 ∧ Weak c c2 ∧ (us = [] → ∀ t ∈ ts, WsText t) ∧ us.Sublist ts
  | [], c, c', h => ⟨[], c', rfl, h, fun _ => nofun, .slnil⟩
  | t :: ts, c, c', h => by
    cases h with
    | keep h =>
      obtain ⟨us, c2, rfl, h2, h3, h4⟩ := weak_run ts h
      exact ⟨t :: us, c2, rfl, h2, nofun, .cons_cons _ h4⟩
    | drop hw h =>
      obtain ⟨us, c2, rfl, h2, h3, h4⟩ := weak_run ts h
      refine ⟨us, c2, rfl, h2, fun e x hx => ?_, .cons _ h4⟩
      rcases List.mem_cons.mp hx with rfl | hx
      · exact hw
      · exact h3 e x hx

theorem Sub.erase {E} : ∀ (us : List Str) {c d}, Sub E true c d → Sub E true (us.map Node.text ++ c) d
  | [], _, _, h => h
  | _ :: us, _, _, h => .text (ts := []) nofun (Sub.erase us h)

theorem Ch.weak2 {Sp b r j} (h : Ch Sp b r j) : ∀ {c}, Weak r c → ∃ d, WeakP true j d ∧ Sub (E2 Sp) b c d := by
  induction h with
  | nil => intro c h; cases h; exact ⟨[], .nil, .nil⟩
  | elem hb h1 _ _ ih =>
    intro c h
    cases h with
    | keep h =>
      obtain ⟨d, h2, h3⟩ := ih h
      exact ⟨_ :: d, .keep h2, .elem ⟨_, hb, h1⟩ h3⟩
  | @run b ts c0 c' hne hb hn hc ih =>
    intro c h
    obtain ⟨us, c2, rfl, h2, h3, h4⟩ := weak_run ts h
    obtain ⟨d, h5, h6⟩ := ih h2
    cases us with
    | nil => exact ⟨d, .drop (wsText_flatten.mpr (h3 rfl)) h5 nofun, h6⟩
    | cons u us =>
      refine ⟨.text ts.flatten :: d, .keep h5, ?_⟩
      cases b with
      | true => exact .text (ts := [ts.flatten]) nofun (Sub.erase us h6)
      | false =>
        match ts, hb rfl with
        | [t], _ =>
          cases h4 with
          | cons_cons _ h4 =>
            cases h4
            exact .text (ts := [[u].flatten]) (fun _ => by simp) h6
          | cons _ h4 => cases h4

theorem hE1 {Sp nm j r c} (h : E1 Sp nm j r) (hw : Weak j c) :
    ∃ b c', (b = true → Sp nm) ∧ WeakP false r c' ∧ Sub (E1 Sp) b c c' := by
  obtain ⟨b, hb, hc⟩ := h
  obtain ⟨d, h1, h2⟩ := hc.weak1 hw
  exact ⟨b, d, hb, h1, h2⟩

theorem hE2 {Sp nm r j c} (h : E2 Sp nm r j) (hw : Weak r c) :
    ∃ b c', (b = true → Sp nm) ∧ WeakP true j c' ∧ Sub (E2 Sp) b c c' := by
  obtain ⟨b, hb, hc⟩ := h
  obtain ⟨d, h1, h2⟩ := hc.weak2 hw
  exact ⟨b, d, hb, h1, h2⟩

/-! ### adjacent texts -/

theorem flatNA_cons {x : Node} {c} (h : FlatNA c) (hx : ∀ s, x = .text s → NoTextHead c) : FlatNA (x :: c) := by
  intro y s t z he
  cases y with
  | nil => cases he; exact hx s rfl t z rfl
  | cons y ys => cases he; exact h ys s t z rfl

theorem Ch.flat {Sp b r j} (h : Ch Sp b r j) : b = false → FlatNA r := by
  induction h with
  | nil => intro _ x s t y; simp
  | elem _ _ _ _ ih => intro e; exact flatNA_cons (ih e) nofun
  | @run b ts _ _ _ hb hn _ ih =>
    intro e
    match ts, hb e with
    | [t], _ => exact flatNA_cons (ih e) fun _ _ => hn

theorem fineL_texts {Sp} : ∀ (us : List Str) {c}, FineL Sp c → FineL Sp (us.map Node.text ++ c)
  | [], _, h => h
  | _ :: us, _, h => by
    simp only [List.map_cons, List.cons_append, FineL, Node.Fine]; exact ⟨trivial, fineL_texts us h⟩

theorem Ch.fine {Sp b r j} (h : Ch Sp b r j) : FineL Sp r := by
  induction h with
  | nil => simp [FineL]
  | @elem b b' nm as k k' c c' hb h1 _ ih1 ih2 =>
    simp only [FineL, Node.Fine]
    refine ⟨⟨fun hn => h1.flat ?_, ih1⟩, ih2⟩
    cases b' with
    | true => exact absurd (hb rfl) hn
    | false => rfl
  | @run b ts _ _ _ _ _ _ ih =>
    exact fineL_texts ts ih

/-! ### the verdict on an element -/
end Verif.Split
