import Verif.Spec.History
/-
Counting orders and events along a history.
-/
namespace AOB
variable {C : Type}

/-- The out events about orders of one side. -/
def outsFrom (side : Side) (es : List (Event C)) : List (Event C) := es.filter (fun e => e.isOut && e.makerSide == side)

/-- The number of new orders among the instructions. -/
def newOrders : List (Instr C) → Nat
  | [] => 0
  | .newOrder _ :: is => newOrders is + 1
  | _ :: is => newOrders is

/-- How many trades of one order may leave the resting order they meet on the book: one for a buyer, two for a seller. -/
def Side.spare : Side → Nat
  | .bid => 1
  | .ask => 2

end AOB
