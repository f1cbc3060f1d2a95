import Verif.Spec.History
/-
Vocabulary for the economic properties: takings, and what takers bought, paid, sold and received.
-/
namespace AOB
variable {C : Type}

/-- The transaction posts nothing: a `new_order` that may not post, a cancellation or a consumption. -/
def Instr.TakesOnly : Instr C → Prop
  | .newOrder p => p.postAllowed = false
  | .cancelOrder _ => True
  | .massCancelOrders _ => True
  | .consumeEvents _ => True

/-- The fills whose taker was on side `side`. -/
def Event.takenBy (side : Side) : Event C → Bool
  | .fill s _ _ _ _ _ => s == side
  | .out _ _ _ _ => false

/-- Base and quote quantities of the fills taken by one side: what buyers bought and paid, sellers sold and received. -/
def takenBase (side : Side) (es : List (Event C)) : Nat := sumBase (es.filter (Event.takenBy side))
def takenQuote (side : Side) (es : List (Event C)) : Nat := sumQuote (es.filter (Event.takenBy side))

/-- `x` lies between the resting bids and the resting asks. -/
def Between (m : Market C) (x : Nat) : Prop :=
  (∀ b ∈ resting m .bid, b.price ≤ x) ∧ ∀ s ∈ resting m .ask, x ≤ s.price

/-- The events about the orders with ids in `ids`. -/
def about (ids : List Nat) (es : List (Event C)) : List (Event C) := es.filter (fun e => decide (e.id ∈ ids))

end AOB
