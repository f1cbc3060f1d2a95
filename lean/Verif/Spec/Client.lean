import Verif.Model.Client
import Verif.Spec.Types
/-
What the client should show of a market.
-/
namespace AOB.Js

/-- An order as the client shows it: a leaf node and its callback info. -/
def refOf {C : Type} [Pod C] (o : Order C) : LeafRef :=
  { leafNode := { key := o.id, baseQuantity := o.qty }, callbackInfo := Pod.toBytes o.cb }

/-- The price levels of a list of orders: every price once, in the order of its first appearance, with the total
quantity of all orders at that price. -/
def levels {C : Type} (os : List (Order C)) : List Price :=
  (os.map Order.price).eraseDups.map (fun p => { size := ((os.filter (fun o => o.price == p)).map Order.qty).sum, price := p })

/-- The account with the orders of a side, as the market at `k` names it. -/
def slabKey (st : MarketState) : Side → Pubkey
  | .bid => st.bids
  | .ask => st.asks

/-- The orders of a side, given best first (bids by decreasing id, asks by increasing id), by decreasing or increasing
id. -/
def listed {C : Type} (side : Side) (descending : Bool) (best : List (Order C)) : List (Order C) :=
  match side, descending with
  | .bid, true | .ask, false => best
  | .bid, false | .ask, true => best.reverse

/-- The number by which a side is written. -/
def sideNumber : Side → Nat
  | .bid => 0
  | .ask => 1

/-- The numbers by which flags and self trade behaviours are written. -/
def boolNumber (b : Bool) : Nat := if b then 1 else 0
def selfTradeNumber : SelfTradeBehavior → Nat
  | .decrementTake => 0
  | .cancelProvide => 1
  | .abortTransaction => 2

/-- An event as the client shows it; the client's `delete` flag is `false` for all events the program writes. -/
def eventOf {C : Type} [Pod C] : AOB.Event C → Event
  | .fill side id base quote maker taker => .fill (sideNumber side) quote id base (Pod.toBytes maker) (Pod.toBytes taker)
  | .out side id base c => .out (sideNumber side) false id base (Pod.toBytes c)

end AOB.Js
