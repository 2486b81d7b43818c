import Verif.Spec.Spans
import Verif.Proof.Decode
/-
The validator with positions does what the validator without positions does.
-/
namespace Verif.Loc
open Verif
variable {D V : Type} [DecidableEq D] [DecidableEq V] {L : Lib D V}

/-- the results of a run, mapped -/
def mapR {α β σ τ : Type} (f : α → β) (g : σ → τ) : Except Fault (α × σ) → Except Fault (β × τ)
  | .ok (a, s) => .ok (f a, g s)
  | .error e => .error e

theorem lookup_plain (e : Elem) (pre : Str) : e.plain.lookup pre = (e.lookup pre).map (·.s) := by
  unfold ElementState.lookup Elem.lookup Elem.plain
  dsimp only
  induction e.namespaces with
  | nil => rfl
  | cons n ns ih =>
    simp only [List.map_cons, List.lookup, List.find?]
    by_cases h : n.1.s = pre
    · subst h; simp
    · have h1 : (pre == n.1.s) = false := by simpa using fun x => h x.symm
      have h2 : (n.1.s == pre) = false := by simpa using h
      rw [h1, h2]; exact ih

theorem lookupNs_plain (st : List Elem) (pre : Str) : Verif.lookupNs (st.map (·.plain)) pre = (lookupNs st pre).map (·.s) := by
  induction st with
  | nil => rfl
  | cons e es ih =>
    simp only [List.map_cons, Verif.lookupNs, lookupNs, lookup_plain]
    cases e.lookup pre with
    | none => exact ih
    | some u => rfl

theorem tryLookupNs_plain (st : List Elem) (pre : Sp) :
    Verif.tryLookupNs (st.map (·.plain)) pre.s = plainResult ((tryLookupNs st pre).map fun o => o.map (·.s)) := by
  unfold Verif.tryLookupNs tryLookupNs
  by_cases h : pre.s = []
  · rw [if_pos h, if_pos h]; rfl
  · rw [if_neg h, if_neg h, lookupNs_plain]
    cases lookupNs st pre.s <;> rfl

theorem addAttr_plain (e : Elem) (pre loc value span : Sp) :
    (e.addAttr pre loc value span).plain = e.plain.addAttr pre.s loc.s value.s := by
  unfold Elem.addAttr ElementState.addAttr
  by_cases h : pre.s = xmlnsStr
  · rw [if_pos h, if_pos h]; simp [Elem.plain]
  · rw [if_neg h, if_neg h]
    by_cases h' : pre.s = [] ∧ loc.s = xmlnsStr
    · rw [if_pos h', if_pos h']; simp [Elem.plain]
    · rw [if_neg h', if_neg h']; simp [Elem.plain, UAttr.plain]

theorem currentElement_plain (st : List Elem) :
    Verif.currentElement (st.map (·.plain)) = (currentElement st).map fun r => plainResult (r.map fun n => ⟨n.1.map (·.s), n.2.s⟩) := by
  unfold Verif.currentElement currentElement
  cases st with
  | nil => rfl
  | cons e es =>
    have := tryLookupNs_plain (e :: es) e.pre
    simp only [List.map_cons] at this ⊢
    rw [show e.plain.pre = e.pre.s from rfl, this]
    cases tryLookupNs (e :: es) e.pre <;> rfl

theorem resolveAttr_plain (st : List Elem) (a : UAttr) :
    Verif.resolveAttr (st.map (·.plain)) a.plain = plainResult ((resolveAttr st a).map (·.plain)) := by
  unfold Verif.resolveAttr resolveAttr
  rw [show a.plain.pre = a.pre.s from rfl]
  by_cases h : a.pre.s = []
  · rw [if_pos h, if_pos h]; rfl
  · rw [if_neg h, if_neg h, tryLookupNs_plain]
    cases tryLookupNs st a.pre <;> rfl

theorem resolveAttrs_plain (st : List Elem) : ∀ as : List UAttr,
    Verif.resolveAttrs (st.map (·.plain)) (as.map (·.plain)) = plainResult ((resolveAttrs st as).map fun l => l.map (·.plain))
  | [] => rfl
  | a :: as => by
    have ih := resolveAttrs_plain st as
    simp only [List.map_cons, Verif.resolveAttrs, resolveAttrs, resolveAttr_plain]
    cases resolveAttr st a with
    | error e => rfl
    | ok x =>
      simp only [Except.map, plainResult]
      rw [ih]
      cases resolveAttrs st as <;> rfl

theorem currentAttributes_plain (st : List Elem) :
    Verif.currentAttributes (st.map (·.plain)) = (currentAttributes st).map fun r => plainResult (r.map fun l => l.map (·.plain)) := by
  unfold Verif.currentAttributes currentAttributes
  cases st with
  | nil => rfl
  | cons e es => exact congrArg some (resolveAttrs_plain (e :: es) e.attributes)

/-! ### references in text -/

def Txt.plain : Txt → Verif.Txt
  | .text _ s => .text s
  | .entity _ n => .entity n
  | .char _ c => .char c

def txtPlain : Except (Nat × Nat) Txt → Option Verif.Txt
  | .ok t => some t.plain
  | .error _ => none

theorem numericEntity_plain (pos : Nat) (s : Str) : Verif.numericEntity s = (numericEntity pos s).toOption := by
  cases s with
  | nil => rfl
  | cons c cs =>
    by_cases hc : c = 'x'
    · subst hc
      cases cs with
      | nil => rfl
      | cons d ds =>
        show (parseU 16 0xFFFFFFFF (d :: ds)).bind charFromU32 = (match parseU 16 0xFFFFFFFF (d :: ds) with
          | none => Except.error (pos + 1, pos + 1)
          | some n =>
            match charFromU32 n with
            | none => Except.error (pos, pos)
            | some c => .ok c).toOption
        cases parseU 16 0xFFFFFFFF (d :: ds) with
        | none => rfl
        | some n => simp only [Option.bind_some]; cases charFromU32 n <;> rfl
    · have h1 : Verif.numericEntity (c :: cs) = (parseU 10 0xFFFFFFFF (c :: cs)).bind charFromU32 := by
        unfold Verif.numericEntity
        split
        · rename_i h; cases h
        · rename_i h; cases h; exact absurd rfl hc
        · rfl
      have h2 : numericEntity pos (c :: cs) = (match parseU 10 0xFFFFFFFF (c :: cs) with
          | none => Except.error (pos, pos)
          | some n =>
            match charFromU32 n with
            | none => Except.error (pos, pos)
            | some c => .ok c) := by
        unfold numericEntity
        split
        · rename_i h; cases h
        · rename_i h; cases h; exact absurd rfl hc
        · rfl
      rw [h1, h2]
      cases parseU 10 0xFFFFFFFF (c :: cs) with
      | none => rfl
      | some n => simp only [Option.bind_some]; cases charFromU32 n <;> rfl

theorem go_nil (pos off : Nat) (b : Bool) : entitiesGo pos off b [] = [] := by unfold entitiesGo; rfl

theorem go_unclosed {pos off : Nat} {s : Str} (h0 : s ≠ []) (h : splitAtChar ';' s = none) : entitiesGo pos off true s = [.error (pos + off - 1, pos + off)] := by
  unfold entitiesGo
  rw [if_neg h0, if_pos rfl]
  split
  · rfl
  · rename_i h'; rw [h] at h'; cases h'

theorem go_reference {pos off : Nat} {s name rest : Str} (h0 : s ≠ []) (h : splitAtChar ';' s = some (name, rest)) :
    entitiesGo pos off true s = reference pos off name :: entitiesGo pos (off + byteLen name + 1) false rest := by
  conv => lhs; unfold entitiesGo
  rw [if_neg h0, if_pos rfl]
  split
  · rename_i h'; rw [h] at h'; cases h'
  · rename_i a b h'
    have e := h.symm.trans h'
    injection e with e; injection e with e1 e2
    subst e1 e2
    rfl

theorem go_text {pos off : Nat} {s : Str} (h0 : s ≠ []) (h : splitAtChar '&' s = none) : entitiesGo pos off false s = [.ok (.text (off + pos) s)] := by
  unfold entitiesGo
  rw [if_neg h0, if_neg (by decide)]
  split
  · rfl
  · rename_i h'; rw [h] at h'; cases h'

theorem go_ampersand {pos off : Nat} {s pre rest : Str} (h0 : s ≠ []) (h : splitAtChar '&' s = some (pre, rest)) :
    entitiesGo pos off false s = .ok (.text (off + pos) pre) :: entitiesGo pos (off + byteLen pre + 1) true rest := by
  conv => lhs; unfold entitiesGo
  rw [if_neg h0, if_neg (by decide)]
  split
  · rename_i h'; rw [h] at h'; cases h'
  · rename_i a b h'
    have e := h.symm.trans h'
    injection e with e; injection e with e1 e2
    subst e1 e2
    rfl

theorem reference_plain (pos off : Nat) (name : Str) : refPiece name = txtPlain (reference pos off name) := by
  by_cases h : ∃ ds, name = '#' :: ds
  · obtain ⟨digits, rfl⟩ := h
    show (Verif.numericEntity digits).map Verif.Txt.char = txtPlain (match numericEntity off digits with
      | .error r => .error r
      | .ok c => .ok (.char off c))
    rw [numericEntity_plain off]
    cases numericEntity off digits <;> rfl
  · have h1 : refPiece name = some (.entity name) := by
      unfold refPiece
      split
      · exact absurd ⟨_, rfl⟩ h
      · rfl
    have h2 : reference pos off name = .ok (.entity (off + pos) name) := by
      unfold reference
      split
      · exact absurd ⟨_, rfl⟩ h
      · rfl
    rw [h1, h2]; rfl

theorem entitiesGo_plain (pos : Nat) : ∀ (k : Nat) (s : Str), s.length ≤ k → ∀ (off : Nat) (b : Bool),
    Verif.entitiesGo b s = (entitiesGo pos off b s).map txtPlain := by
  intro k
  induction k with
  | zero =>
    intro s hs off b
    have : s = [] := List.length_eq_zero_iff.1 (Nat.le_zero.1 hs)
    subst this
    rw [go_nil]; unfold Verif.entitiesGo; rfl
  | succ k ih =>
    intro s hs off b
    by_cases h0 : s = []
    · subst h0; rw [go_nil]; unfold Verif.entitiesGo; rfl
    · cases b with
      | true =>
        cases h : splitAtChar ';' s with
        | none => rw [go_unclosed h0 h, entitiesGo_unclosed (splitAtChar_none.1 h) h0]; rfl
        | some r =>
          obtain ⟨name, rest⟩ := r
          obtain ⟨e, hn⟩ := splitAtChar_some h
          rw [go_reference h0 h, List.map_cons, ← ih rest (by have := splitAtChar_length h; omega), ← reference_plain]
          rw [e, entitiesGo_semi hn]
      | false =>
        cases h : splitAtChar '&' s with
        | none => rw [go_text h0 h, entitiesGo_text (splitAtChar_none.1 h) h0]; rfl
        | some r =>
          obtain ⟨name, rest⟩ := r
          obtain ⟨e, hn⟩ := splitAtChar_some h
          rw [go_ampersand h0 h, List.map_cons, ← ih rest (by have := splitAtChar_length h; omega)]
          rw [e, entitiesGo_amp hn]; rfl

theorem decodeLoop_plain (ents : List (Str × Str)) (raw : Str) : ∀ (l : List (Except (Nat × Nat) Txt)) (buf : Str),
    Verif.decodeLoop ents raw (l.map txtPlain) buf = plainResult (decodeLoop ents raw l buf)
  | [], _ => rfl
  | .error _ :: _, _ => rfl
  | .ok (.char _ c) :: rest, buf => decodeLoop_plain ents raw rest _
  | .ok (.text _ t) :: rest, buf => by
    simp only [List.map_cons, txtPlain, Txt.plain, Verif.decodeLoop, decodeLoop]
    by_cases h : byteLen t = byteLen raw
    · rw [if_pos h, if_pos h]; rfl
    · rw [if_neg h, if_neg h]; exact decodeLoop_plain ents raw rest _
  | .ok (.entity _ n) :: rest, buf => by
    simp only [List.map_cons, txtPlain, Txt.plain, Verif.decodeLoop, decodeLoop]
    cases ents.lookup n with
    | none => rfl
    | some t =>
      dsimp only
      by_cases h : byteLen t = byteLen raw
      · rw [if_pos h, if_pos h]; rfl
      · rw [if_neg h, if_neg h]; exact decodeLoop_plain ents raw rest _

theorem decodeText_plain (ents : List (Str × Str)) (t : Sp) : Verif.decodeText ents t.s = plainResult (decodeText ents t) := by
  unfold Verif.decodeText decodeText parseEntities
  rw [entitiesGo_plain t.start _ t.s (Nat.le_refl _) 0, decodeLoop_plain]
  cases decodeLoop ents t.s (entitiesGo t.start 0 false t.s) [] <;> rfl

/-! ### the validator -/

theorem attsLoop_plain (n : Nat) : ∀ (as : List LAttr) (i : Nat) (st : Store D V),
    Verif.attsLoop L n i (as.map (·.plain)) st = mapR plainResult id (attsLoop L n i as st)
  | [], _, _ => rfl
  | a :: as, i, st => by
    simp only [List.map_cons, Verif.attsLoop, attsLoop, ST.bind_run]
    cases attDeriv L n [] i a.plain st with
    | error e => rfl
    | ok r =>
      obtain ⟨r, st1⟩ := r
      dsimp only
      try simp only [ST.bind_run]
      cases patt r.1 st1 with
      | error e => rfl
      | ok p =>
        obtain ⟨p, st2⟩ := p
        dsimp only
        cases p.isNotAllowed with
        | true =>
          show Except.ok _ = Except.ok _
          cases h : a.ns <;> simp [LAttr.plain, h, plainResult, Err.plain, Token.plain, Sp.none]
        | false => exact attsLoop_plain n as r.1 st2

theorem closeElementStart_plain (n : Nat) (stack : List Elem) (evt : Token) (pat : Pat D V) (st : Store D V) :
    Verif.closeElementStart L n (stack.map (·.plain)) evt.plain pat st = mapR plainResult id (closeElementStart L n stack evt pat st) := by
  unfold Verif.closeElementStart closeElementStart
  rw [currentElement_plain, currentAttributes_plain]
  cases currentElement stack with
  | none => rfl
  | some r =>
    cases r with
    | error e => rfl
    | ok name =>
      simp only [Option.map_some, Except.map, plainResult, ST.bind_run]
      cases startTagOpenDeriv n pat ⟨name.1.map (·.s), name.2.s⟩ st with
      | error e => rfl
      | ok r =>
        obtain ⟨d, st1⟩ := r
        dsimp only
        try simp only [ST.bind_run]
        cases patt d st1 with
        | error e => rfl
        | ok p =>
          obtain ⟨p, st2⟩ := p
          dsimp only
          cases p.isNotAllowed with
          | true =>
            show Except.ok _ = Except.ok _
            cases h : name.1 <;> simp [plainResult, Err.plain, Token.plain, Sp.none]
          | false =>
            simp only [Bool.false_eq_true, if_false]
            cases currentAttributes stack with
            | none => rfl
            | some r =>
              cases r with
              | error e => rfl
              | ok atts =>
                simp only [Option.map_some, Except.map, plainResult, ST.bind_run]
                rw [attsLoop_plain]
                cases attsLoop L n d atts st2 with
                | error e => rfl
                | ok r =>
                  obtain ⟨r, st3⟩ := r
                  cases r with
                  | error e => rfl
                  | ok d2 =>
                    simp only [mapR, plainResult, id]
                    try simp only [ST.bind_run]
                    cases patt d2 st3 with
                    | error e => rfl
                    | ok p =>
                      obtain ⟨p, st4⟩ := p
                      dsimp only
                      cases p.isNotAllowed with
                      | true => rfl
                      | false =>
                        simp only [Bool.false_eq_true, if_false]
                        try simp only [ST.bind_run]
                        cases startTagCloseDeriv n d2 st4 with
                        | error e => rfl
                        | ok r =>
                          obtain ⟨d3, st5⟩ := r
                          dsimp only
                          try simp only [ST.bind_run]
                          cases patt d3 st5 with
                          | error e => rfl
                          | ok p =>
                            obtain ⟨p, st6⟩ := p
                            dsimp only
                            cases p.isNotAllowed <;> rfl

theorem liftS_plain {α : Type} (x : SM D V α) (s : State D V) : Verif.liftS x s.plain = mapR id State.plain (liftS x s) := by
  unfold Verif.liftS liftS
  rw [show s.plain.store = s.store from rfl]
  cases x s.store <;> rfl

def isStart : Token → Bool
  | .elementStart _ _ _ => true
  | _ => false

theorem finish_run (evt : Token) (new : Nat) (s : State D V) : finish evt new s = match liftS (patt new) { s with lastWasStart := isStart evt } with
    | .ok (p, s1) => if p.isNotAllowed then .ok (.error (.notAllowed evt), s1) else .ok (.ok (), { s1 with cur := new })
    | .error e => .error e := by
  rcases h : liftS (patt new) { s with lastWasStart := isStart evt } with e | ⟨p, s1⟩
  · cases evt <;> (simp only [isStart] at h; unfold finish; simp only [ST.bind_run, ST.get, ST.set, h])
  · dsimp only
    cases hp : p.isNotAllowed <;> cases evt <;> (simp only [isStart] at h; unfold finish; simp only [ST.bind_run, ST.get, ST.set, h, hp]; rfl)

theorem finish_run' (evt : Token) (new : Nat) (s : VState D V) :
    Verif.finish evt.plain new s = match Verif.liftS (patt new) { s with lastWasStart := isStart evt } with
    | .ok (p, s1) => if p.isNotAllowed then .ok (.error (.notAllowed evt.plain), s1) else .ok (.ok (), { s1 with cur := new })
    | .error e => .error e := by
  rcases h : Verif.liftS (patt new) { s with lastWasStart := isStart evt } with e | ⟨p, s1⟩
  · cases evt <;> (simp only [isStart] at h; unfold Verif.finish; simp only [ST.bind_run, ST.get, ST.set, Token.plain, h])
  · dsimp only
    cases hp : p.isNotAllowed <;> cases evt <;> (simp only [isStart] at h; unfold Verif.finish; simp only [ST.bind_run, ST.get, ST.set, Token.plain, h, hp]; rfl)

theorem finish_plain (evt : Token) (new : Nat) (s : State D V) :
    Verif.finish evt.plain new s.plain = mapR plainResult State.plain (finish evt new s) := by
  rw [finish_run, finish_run']
  have h := liftS_plain (patt new) { s with lastWasStart := isStart evt }
  rw [show ({ s.plain with lastWasStart := isStart evt } : VState D V) = State.plain { s with lastWasStart := isStart evt } from rfl, h]
  cases liftS (patt new) { s with lastWasStart := isStart evt } with
  | error e => rfl
  | ok r =>
    obtain ⟨p, s1⟩ := r
    dsimp only [mapR, id]
    cases p.isNotAllowed <;> rfl

theorem validate_plain (n : Nat) (t : Token) (s : State D V) :
    Verif.validate L n t.plain s.plain = mapR plainResult State.plain (validate L n t s) := by
  unfold Verif.validate validate
  simp only [ST.bind_run, ST.get]
  rw [show s.plain.cur = s.cur from rfl, liftS_plain]
  cases liftS (patt s.cur) s with
  | error e => rfl
  | ok r =>
    obtain ⟨pat, s1⟩ := r
    simp only [mapR, id]
    cases t with
    | declaration _ => rfl
    | processingInstruction _ => rfl
    | comment _ => rfl
    | dtdStart _ => rfl
    | emptyDtd _ => rfl
    | dtdEnd _ => rfl
    | elementStart p l _ => rfl
    | «attribute» p l v sp =>
      simp only [Token.plain]
      rw [show s.plain.stack = s.stack.map (·.plain) from rfl]
      cases s.stack with
      | nil => rfl
      | cons e es =>
        simp only [List.map_cons]
        show Except.ok _ = Except.ok _
        rw [← addAttr_plain e p l v sp]; rfl
    | entityDeclaration name d _ =>
      cases d with
      | externalId => rfl
      | entityValue v => rfl
    | text t =>
      simp only [Token.plain]
      rw [show s.plain.entities = s.entities from rfl, decodeText_plain]
      cases decodeText s.entities t with
      | error e => rfl
      | ok data =>
        simp only [plainResult]
        (try simp only [ST.bind_run]); rw [liftS_plain]
        cases liftS (textDeriv L n pat data) s1 with
        | error e => rfl
        | ok r =>
          obtain ⟨new, s2⟩ := r
          simp only [mapR, id]
          (try simp only [ST.bind_run]); rw [liftS_plain]
          cases liftS (patt new) s2 with
          | error e => rfl
          | ok r =>
            obtain ⟨p, s3⟩ := r
            simp only [mapR, id]
            cases p.isNotAllowed with
            | true => rfl
            | false => exact finish_plain (.text t) new s3
    | cdata t sp =>
      simp only [Token.plain]
      (try simp only [ST.bind_run]); rw [liftS_plain]
      cases liftS (textDeriv L n pat t.s) s1 with
      | error e => rfl
      | ok r => obtain ⟨new, s2⟩ := r; exact finish_plain (.cdata t sp) new s2
    | elementEnd e sp =>
      have hce : Verif.liftS (Verif.closeElementStart L n s.plain.stack (Token.elementEnd e sp).plain pat) s1.plain =
          mapR plainResult State.plain (liftS (closeElementStart L n s.stack (.elementEnd e sp) pat) s1) := by
        unfold Verif.liftS liftS
        rw [show s.plain.stack = s.stack.map (·.plain) from rfl, show s1.plain.store = s1.store from rfl, closeElementStart_plain]
        cases closeElementStart L n s.stack (.elementEnd e sp) pat s1.store <;> rfl
      cases e with
      | «open» =>
        simp only [Token.plain, End.plain]
        simp only [Token.plain, End.plain] at hce
        (try simp only [ST.bind_run]); rw [hce]
        cases liftS (closeElementStart L n s.stack (.elementEnd .open sp) pat) s1 with
        | error e => rfl
        | ok r =>
          obtain ⟨r, s2⟩ := r
          cases r with
          | error e => rfl
          | ok new => exact finish_plain (.elementEnd .open sp) new s2
      | close p l =>
        simp only [Token.plain, End.plain]
        (try simp only [ST.bind_run]); rw [show s.plain.lastWasStart = s.lastWasStart from rfl, liftS_plain]
        cases liftS (endTagStep L n s.lastWasStart pat) s1 with
        | error e => rfl
        | ok r => obtain ⟨new, s2⟩ := r; exact finish_plain (.elementEnd (.close p l) sp) new s2
      | empty =>
        simp only [Token.plain, End.plain]
        simp only [Token.plain, End.plain] at hce
        (try simp only [ST.bind_run]); rw [hce]
        cases liftS (closeElementStart L n s.stack (.elementEnd .empty sp) pat) s1 with
        | error e => rfl
        | ok r =>
          obtain ⟨r, s2⟩ := r
          cases r with
          | error e => rfl
          | ok i =>
            simp only [mapR, plainResult]
            (try simp only [ST.bind_run]); rw [liftS_plain]
            cases liftS (patt i) s2 with
            | error e => rfl
            | ok r =>
              obtain ⟨pat2, s3⟩ := r
              simp only [mapR, id]
              (try simp only [ST.bind_run]); rw [show s.plain.lastWasStart = s.lastWasStart from rfl, liftS_plain]
              cases liftS (endTagStep L n s.lastWasStart pat2) s3 with
              | error e => rfl
              | ok r => obtain ⟨new, s4⟩ := r; exact finish_plain (.elementEnd .empty sp) new s4

theorem validateEvent_plain (n : Nat) (e : Event) (s : State D V) :
    Verif.validateEvent L n e.plain s.plain = mapR plainResult State.plain (validateEvent L n e s) := by
  cases e with
  | token t => exact validate_plain n t s
  | error r c => rfl

theorem runEvents_plain (n : Nat) : ∀ (es : List Event) (s : State D V),
    Verif.runEvents L n (es.map (·.plain)) s.plain = mapR (fun rs => rs.map plainResult) State.plain (runEvents L n es s)
  | [], _ => rfl
  | e :: es, s => by
    simp only [List.map_cons, Verif.runEvents, runEvents, ST.bind_run]
    rw [validateEvent_plain]
    cases validateEvent L n e s with
    | error e => rfl
    | ok r =>
      obtain ⟨r, s1⟩ := r
      simp only [mapR]
      (try simp only [ST.bind_run]); rw [runEvents_plain n es s1]
      cases runEvents L n es s1 <;> rfl

theorem newValidator_plain (env : Env D V) (n : Nat) (start : Pattern D V) :
    Verif.newValidator env n start = (newValidator env n start).map State.plain := by
  unfold Verif.newValidator newValidator
  cases compile env n start Store.init <;> rfl

end Verif.Loc
