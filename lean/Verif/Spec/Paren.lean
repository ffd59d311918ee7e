import Verif.Model.Py
import Mathlib.Data.List.ReduceOption

/-!
Specification of "the items of a list combined in order", independent of any algorithm.
-/

namespace Verif

universe u

variable {α : Type u}

/-- `Paren op l v`: `v` is the value of *some* full parenthesisation of `l[0] op l[1] op … op l[n-1]`
(every item used exactly once, in order), all of whose applications of `op` succeed. -/
inductive Paren (op : α → α → Py α) : List α → α → Prop
  | single (x : α) : Paren op [x] x
  | node {l r : List α} {x y z : α} : Paren op l x → Paren op r y → op x y = .ok z →
      Paren op (l ++ r) z

/-- Left fold of a non-empty list, `g (… g (g x₀ x₁) x₂ …) xₖ`. -/
def foldl1 (g : α → α → α) : List α → Option α
  | [] => none
  | x :: l => some (l.foldl g x)

/-- Right fold of a non-empty list, `g x₀ (g x₁ (… xₖ))`. -/
def foldr1 (g : α → α → α) : List α → Option α
  | [] => none
  | x :: l => some (match foldr1 g l with | none => x | some y => g x y)

/-- `Seg op l v`: `v` is `None` if all items of `l` are `None`, and otherwise the value of some full
parenthesisation of the items of `l` that are not `None`, in order. -/
def Seg (op : α → α → Py α) (l : List (Option α)) : Option α → Prop
  | none => l.reduceOption = []
  | some v => Paren op l.reduceOption v

end Verif
