/-
Basic vocabulary: strings as lists of characters, panics as `Fault` values, and the state monad in
which the interior-mutable Rust code is modelled.
-/
namespace Verif

/-- Rust `&str`/`String`: a sequence of Unicode scalar values. -/
abbrev Str := List Char

/-- `str::len`: the number of UTF-8 bytes. -/
def byteLen (s : Str) : Nat := (s.map Char.utf8Size).sum

/-- Every way a Rust run can abort, plus `fuel` for "the model's recursion budget ran out". -/
inductive Fault where
  /-- the model's recursion budget was too small (not a behaviour of the code) -/
  | fuel
  /-- V:90 "Only up to 2^16 rules supported in one schema" -/
  | capacity
  /-- V:241 slice index out of bounds -/
  | oob
  /-- V:982, V:1055 `unreachable!("Placeholder ..")`, V:1245 -/
  | placeholder
  /-- V:1078 `panic!` in `apply_after` -/
  | applyAfter
  /-- V:225 "can't resolve placeholder with another placeholder" -/
  | resolveTarget
  /-- V:233 "expected placeholder but got" -/
  | resolveSlot
  /-- V:599 "Somehow definition for .. is missing" -/
  | missingDef
  /-- `unwrap()` on `None` (empty pattern vector V:561, empty element stack V:1597..) -/
  | unwrapNone
  /-- `unimplemented!()`/`unreachable!()`/`panic!` in the datatype and schema-compiler code -/
  | unimplemented
  deriving DecidableEq, Repr

/-- State with panics: Rust code that mutates `&mut σ` (or a `RefCell`) and may abort. -/
def ST (σ α : Type) : Type := σ → Except Fault (α × σ)

namespace ST
variable {σ α β : Type}

def pure (a : α) : ST σ α := fun s => .ok (a, s)
def bind (x : ST σ α) (f : α → ST σ β) : ST σ β := fun s =>
  match x s with
  | .ok (a, s') => f a s'
  | .error e => .error e

instance : Monad (ST σ) where
  pure := ST.pure
  bind := ST.bind

/-- abort with a panic -/
def fault (e : Fault) : ST σ α := fun _ => .error e
/-- read the whole state -/
def get : ST σ σ := fun s => .ok (s, s)
/-- replace the whole state -/
def set (s : σ) : ST σ Unit := fun _ => .ok ((), s)

@[simp] theorem pure_run (a : α) (s : σ) : (Pure.pure a : ST σ α) s = .ok (a, s) := rfl
@[simp] theorem fault_run (e : Fault) (s : σ) : (fault e : ST σ α) s = .error e := rfl
@[simp] theorem get_run (s : σ) : (get : ST σ σ) s = .ok (s, s) := rfl
@[simp] theorem set_run (s t : σ) : (set t : ST σ Unit) s = .ok ((), t) := rfl

theorem bind_run (x : ST σ α) (f : α → ST σ β) (s : σ) :
    (x >>= f) s = match x s with
      | .ok (a, s') => f a s'
      | .error e => .error e := rfl

@[simp] theorem bind_ok {x : ST σ α} {f : α → ST σ β} {s : σ} {b : β} {s'' : σ} :
    (x >>= f) s = .ok (b, s'') ↔ ∃ a s', x s = .ok (a, s') ∧ f a s' = .ok (b, s'') := by
  rw [bind_run]
  cases h : x s with
  | error e => simp
  | ok r =>
    obtain ⟨a, s'⟩ := r
    constructor
    · intro h'; exact ⟨a, s', rfl, h'⟩
    · rintro ⟨a1, s1, h1, h2⟩
      cases h1; exact h2

theorem bind_of_ok {x : ST σ α} {f : α → ST σ β} {s : σ} {a : α} {s' : σ}
    (h : x s = .ok (a, s')) : (x >>= f) s = f a s' := by
  rw [bind_run, h]

theorem bind_of_error {x : ST σ α} {f : α → ST σ β} {s : σ} {e : Fault}
    (h : x s = .error e) : (x >>= f) s = .error e := by
  rw [bind_run, h]

end ST
end Verif
