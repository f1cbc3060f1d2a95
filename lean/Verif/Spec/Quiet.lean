import Verif.Spec.Observe
/-
Orders that are posted and do nothing else.
-/
namespace AOB
variable {C : Type}

/-- What everybody sees of an order: price, quantity and callback info; not its id, which tells when it was posted. -/
def Order.face (o : Order C) : Nat × Nat × C := (o.price, o.qty, o.cb)

/-- The order that a new order leaves if it does not trade: its base cap, or what its quote cap pays at the limit price. -/
def NewOrderParams.face (p : NewOrderParams C) : Nat × Nat × C :=
  (p.limitPrice, min (affordable p.maxQuoteQty p.limitPrice) p.maxBaseQty, p.callbackInfo)

/-- The new orders are accepted one after the other, each is posted, and none of them trades, cancels or evicts: there are no
events. -/
def Posts [CallbackInfo C] : Market C → List (NewOrderParams C) → Market C → Prop
  | m, [], m' => m' = m
  | m, p :: ps, m' => ∃ s m₁, m.newOrder p = .ok (s, m₁) ∧ s.postedOrderId.isSome = true ∧ emitted m m₁ = [] ∧ Posts m₁ ps m'

/-- The orders of one side and price, in their sequence. -/
def level (l : List (Order C)) (price : Nat) : List (Order C) := l.filter (fun o => o.price == price)

/-- The new orders of one side and price, in their sequence. -/
def newAt (ps : List (NewOrderParams C)) (side : Side) (price : Nat) : List (NewOrderParams C) :=
  ps.filter (fun p => p.side == side && p.limitPrice == price)

/-- The new order by itself can be posted: it allows it, its price is a positive multiple of the tick size, it may look at
the book at least once, and what it leaves is large enough. -/
def Postable (minBase tick : Nat) (p : NewOrderParams C) : Prop :=
  p.postAllowed = true ∧ p.limitPrice % tick = 0 ∧ tick ≤ p.limitPrice ∧ 0 < p.matchLimit ∧ minBase ≤ p.face.2.1

end AOB
