import Mathlib.Algebra.Order.Ring.Rat
/-!
Edit distance, specified without any table: scripts, and chains of single edits.
-/
namespace Spec
variable {α : Type}

/-- `Script sub a b w`: reading both texts from the left, `a` is turned into `b` by inserting (cost 1), deleting
    (cost 1), keeping (cost 0) or substituting (cost `sub x y`) characters, at total cost `w`. -/
inductive Script (sub : α → α → Rat) : List α → List α → Rat → Prop
  | done : Script sub [] [] 0
  | insert (y : α) {a b : List α} {w : Rat} : Script sub a b w → Script sub a (y :: b) (w + 1)
  | delete (x : α) {a b : List α} {w : Rat} : Script sub a b w → Script sub (x :: a) b (w + 1)
  | keep (x : α) {a b : List α} {w : Rat} : Script sub a b w → Script sub (x :: a) (x :: b) w
  | subst (x y : α) {a b : List α} {w : Rat} : x ≠ y → Script sub a b w → Script sub (x :: a) (y :: b) (w + sub x y)

/-- `d` is the least cost of any script -/
def IsLeastCost (sub : α → α → Rat) (a b : List α) (d : Rat) : Prop :=
  Script sub a b d ∧ ∀ w, Script sub a b w → d ≤ w

/-- one single-character edit anywhere in the text -/
inductive Edit : List α → List α → Prop
  | insert (u v : List α) (x : α) : Edit (u ++ v) (u ++ x :: v)
  | delete (u v : List α) (x : α) : Edit (u ++ x :: v) (u ++ v)
  | replace (u v : List α) (x y : α) : Edit (u ++ x :: v) (u ++ y :: v)

/-- `n` single-character edits, one after another -/
inductive Edits : Nat → List α → List α → Prop
  | refl (a : List α) : Edits 0 a a
  | step {n : Nat} {a b c : List α} : Edits n a b → Edit b c → Edits (n + 1) a c

end Spec
