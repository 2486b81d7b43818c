import Verif.Proof.Alike
import Verif.Proof.Translate
import Verif.Props.Compact
import Verif.Props.XmlSyntax
/-
C61: schemas that say the same compile alike, in whatever syntax they are written.
-/
namespace Verif
open XS

/-! ### saying the same is symmetric -/

theorem AlikeNc.symm {e e' : NEnv} {a b : SNameClass} : AlikeNc e e' a b → AlikeNc e' e b a := fun ⟨c, h, h'⟩ => ⟨c, h', h⟩
theorem AlikeDt.symm {e e' : NEnv} {a b : SDtName} : AlikeDt e e' a b → AlikeDt e' e b a := fun ⟨c, d, h, h', k⟩ => ⟨d, c, h', h, k.symm⟩

mutual
theorem AlikePat.symm : ∀ {e e' : NEnv} {p q : SPattern}, AlikePat e e' p q → AlikePat e' e q p
  | _, _, _, _, .parenLeft h => .parenRight h.symm
  | _, _, _, _, .parenRight h => .parenLeft h.symm
  | _, _, _, _, .element hn h => .element hn.symm h.symm
  | _, _, _, _, .attribute hn h => .attribute hn.symm h.symm
  | _, _, _, _, .list h => .list h.symm
  | _, _, _, _, .mixed h => .mixed h.symm
  | _, _, _, _, .ident => .ident
  | _, _, _, _, .parent => .parent
  | _, _, _, _, .empty => .empty
  | _, _, _, _, .text => .text
  | _, _, _, _, .notAllowed => .notAllowed
  | _, _, _, _, .grammar h => .grammar h.symm
  | _, _, _, _, .op h1 h2 hl h => .op h2 h1 (by rw [← h.length]; exact hl) h.symm
  | _, _, _, _, .optional h => .optional h.symm
  | _, _, _, _, .zeroOrMore h => .zeroOrMore h.symm
  | _, _, _, _, .oneOrMore h => .oneOrMore h.symm
  | _, _, _, _, .value h => .value h.symm
  | _, _, _, _, .data h => .data h.symm
  | _, _, _, _, .dataExcept h h' => .dataExcept h.symm h'.symm
theorem AlikePats.symm : ∀ {e e' : NEnv} {p q : List SPattern}, AlikePats e e' p q → AlikePats e' e q p
  | _, _, _, _, .nil => .nil
  | _, _, _, _, .cons h h' => .cons h.symm h'.symm
theorem AlikeItems.symm : ∀ {e e' : NEnv} {p q : List SItem}, AlikeItems e e' p q → AlikeItems e' e q p
  | _, _, _, _, .nil => .nil
  | _, _, _, _, .cons h h' => .cons h.symm h'.symm
  | _, _, _, _, .annotationLeft h => .annotationRight h.symm
  | _, _, _, _, .annotationRight h => .annotationLeft h.symm
theorem AlikeItem.symm : ∀ {e e' : NEnv} {p q : SItem}, AlikeItem e e' p q → AlikeItem e' e q p
  | _, _, _, _, .define h => .define h.symm
  | _, _, _, _, .div h => .div h.symm
  | _, _, _, _, .include h => .include h.symm
theorem AlikeOverrides.symm : ∀ {e e' : NEnv} {p q : List SOverride}, AlikeOverrides e e' p q → AlikeOverrides e' e q p
  | _, _, _, _, .nil => .nil
  | _, _, _, _, .define h h' => .define h.symm h'.symm
  | _, _, _, _, .div h => .div h.symm
  | _, _, _, _, .annotationLeft h => .annotationRight h.symm
  | _, _, _, _, .annotationRight h => .annotationLeft h.symm
end

theorem AlikeBody.symm {e e' : NEnv} {b b' : SBody} : AlikeBody e e' b b' → AlikeBody e' e b' b
  | .pattern h h1 h2 => .pattern h.symm h2 h1
  | .grammarPattern h => .grammarPattern h.symm
  | .grammar h => .grammar h.symm

theorem AlikeSchema.symm {f : Str} {s s' : SSchema} (h : AlikeSchema f s s') : AlikeSchema f s' s := ⟨h.right, h.left, h.body.symm⟩

theorem AlikeLoad.symm {f : Str} {l l' : Except LoadErr SSchema} : AlikeLoad f l l' → AlikeLoad f l' l
  | .ok h => .ok h.symm
  | .error => .error

theorem AlikeFiles.symm {F F' : Files} (h : AlikeFiles F F') : AlikeFiles F' F := ⟨h.join.symm, fun f => (h.load f).symm⟩

/-! ### C61 -/

variable {F F' : Files} {x : Ext}

/-- **C61**: files that say the same compile to the same rules, or fail with the same error or panic: whatever the first
compilation returns (given enough budget for its recursion), the second returns as well. -/
theorem C61_alike_files_compile_alike (h : AlikeFiles F F') {n m : Nat} {name : Str} {r : Except CFault (Nat × List (Option DefineRule))}
    (hr : outcomeOf (compileFile F x n m name (.fresh [])) = r) (hf : r ≠ .error .fuel) :
    ∃ N, ∀ n', N ≤ n' → outcomeOf (compileFile F' x n' m name (.fresh [])) = r := by
  have hne : compileFile F x n m name (.fresh []) ≠ .error .fuel := by
    intro h; rw [h] at hr; exact hf hr.symm
  obtain ⟨r', ho, N, hN⟩ := alike_compileFile (x := x) h n m name (.fresh []) (.fresh []) ⟨rfl, rfl, rfl, fun _ _ h => (nomatch h), fun _ _ h => (nomatch h)⟩ hne
  refine ⟨N, fun n' hn => ?_⟩
  have hN' : compileFile F' x n' m name (.fresh []) = r' := hN n' hn
  rw [hN', ← hr]
  cases h1 : compileFile F x n m name (.fresh []) with
  | error e =>
    rw [h1] at ho
    cases r' with
    | ok r => exact ho.elim
    | error e' => cases (show e' = e from ho); rfl
  | ok r1 =>
    obtain ⟨k, st⟩ := r1
    rw [h1] at ho
    cases r' with
    | error e' => exact ho.elim
    | ok r2 =>
      obtain ⟨k', st'⟩ := r2
      obtain ⟨rfl, hs⟩ := ho
      show Except.ok (k, st'.cells) = Except.ok (k, st.cells)
      rw [hs.cells]

/-- **C61**: and the budget does not matter: two compilations that do not run out of it agree. -/
theorem C61_alike_files_agree (h : AlikeFiles F F') {n n' m : Nat} {name : Str} (h1 : compileFile F x n m name (.fresh []) ≠ .error .fuel)
    (h2 : compileFile F' x n' m name (.fresh []) ≠ .error .fuel) :
    outcomeOf (compileFile F x n m name (.fresh [])) = outcomeOf (compileFile F' x n' m name (.fresh [])) := by
  have h1' : outcomeOf (compileFile F x n m name (.fresh [])) ≠ .error .fuel := by
    cases h : compileFile F x n m name (.fresh []) with
    | ok r => exact fun h => nomatch h
    | error e => intro hx; cases hx; exact h1 h
  obtain ⟨N, hN⟩ := C61_alike_files_compile_alike h rfl h1'
  have e := hN (max N n') (Nat.le_max_left ..)
  rw [← e, leF_compileFile (Nat.le_max_right N n') m name (.fresh []) h2]

/-- **C61**: compact texts and XML documents that say the same compile alike. -/
theorem C61_both_syntaxes_agree {ok : Str → Bool} {text : Str → Option Str} {doc : Str → Option (Str × SchemaDoc)} {sch sch' : Str → Except LoadErr SSchema}
    (ht : Written text sch) (hd : WrittenXml ok doc sch') (h : AlikeFiles ⟨sch, joinPath⟩ ⟨sch', joinPath⟩) {n n' m : Nat} {name : Str}
    (h1 : compileFile (compactFiles text joinPath) x n m name (.fresh []) ≠ .error .fuel)
    (h2 : compileFile (xmlFiles ok doc) x n' m name (.fresh []) ≠ .error .fuel) :
    outcomeOf (compileFile (compactFiles text joinPath) x n m name (.fresh [])) = outcomeOf (compileFile (xmlFiles ok doc) x n' m name (.fresh [])) := by
  rw [C58_texts_compile_as_schemas ht] at h1 ⊢
  rw [C59_documents_compile_as_schemas hd] at h2 ⊢
  exact C61_alike_files_agree h h1 h2

/-- **C61**: a schema that can be translated has a translation that says the same. -/
theorem C61_translation_says_the_same {ok : Str → Prop} {f : Str} {s : SSchema} (h : ToXml.SchemaOk ok f s) :
    ∃ s', Rng.Schema ok Rng.Href (ToXml.schema f s) s' ∧ AlikeSchema f s s' := ToXml.schema_ok h

/-- the documents that translate the files -/
def translated (sch : Str → Except LoadErr SSchema) (f : Str) : Option (Str × SchemaDoc) :=
  match sch f with
  | .ok s => some ([], .tree (ToXml.schema f s))
  | .error _ => none

/-- **C61**: compact texts compile like the XML documents they translate to. -/
theorem C61_texts_compile_like_their_translation {ok : Str → Bool} {text : Str → Option Str} {sch : Str → Except LoadErr SSchema} (ht : Written text sch)
    (hok : ∀ f s, sch f = .ok s → ToXml.SchemaOk (fun v => ok v = true) f s) {n m : Nat} {name : Str} {r : Except CFault (Nat × List (Option DefineRule))}
    (hr : outcomeOf (compileFile (compactFiles text joinPath) x n m name (.fresh [])) = r) (hf : r ≠ .error .fuel) :
    ∃ N, ∀ n', N ≤ n' → outcomeOf (compileFile (xmlFiles ok (translated sch)) x n' m name (.fresh [])) = r := by
  rw [C58_texts_compile_as_schemas ht] at hr
  have hx : ∀ f s, sch f = .ok s → ∃ s', Rng.Schema (fun v => ok v = true) Rng.Href (ToXml.schema f s) s' ∧ AlikeSchema f s s' :=
    fun f s h => C61_translation_says_the_same (hok f s h)
  refine C61_alike_files_compile_alike (F := ⟨sch, joinPath⟩) (F' := xmlFiles ok (translated sch)) ⟨rfl, fun f => ?_⟩ hr hf
  show AlikeLoad f (sch f) (match translated sch f with
    | none => .error .io
    | some (t, d) => match readXml ok t d with
      | .ok s => .ok s
      | .panic => .error .panic
      | .error => .error .parse)
  unfold translated
  cases hs : sch f with
  | error e =>
    rcases ht f with ⟨_, h2⟩ | ⟨_, _, _, h2, _⟩
    · rw [h2] at hs; cases hs; exact .error
    · rw [h2] at hs; cases hs
  | ok s =>
    obtain ⟨s', h1, h2⟩ := hx f s hs
    dsimp only
    unfold readXml
    dsimp only
    rw [C59_every_spelling_is_read h1]
    exact .ok h2

end Verif
