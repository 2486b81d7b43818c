import Verif.Spec.Split
/-
Specification for C94: elements in the place of others.
-/
namespace Verif.Swap
variable {D V : Type}

/-- some of the elements `x` in `c`, at any depth, have been replaced by `y` -/
inductive Swapped (x y : Node) : List Node → List Node → Prop
  | nil : Swapped x y [] []
  | same {n c c'} : Swapped x y c c' → Swapped x y (n :: c) (n :: c')
  | swap {c c'} : Swapped x y c c' → Swapped x y (x :: c) (y :: c')
  | inside {nm as k k' c c'} : Swapped x y k k' → Swapped x y c c' → Swapped x y (.elem nm as k :: c) (.elem nm as k' :: c')

/-- by itself, `y` matches every `element` in the schema that `x` matches -/
def Fits (L : Lib D V) (env : Env D V) (start : Pattern D V) (x y : Node) : Prop :=
  ∀ nc q, ElemIn env start nc q → Match L env (.element nc q) [] [x] → Match L env (.element nc q) [] [y]

end Verif.Swap
