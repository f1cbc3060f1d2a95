import Verif.Spec.Relate
/-
Other prices and other lots: a change of all prices that keeps their order, or one that reverses it while the two sides are
exchanged (the mirror image of a market, in which who bought sells); and base quantities in another unit.
-/
namespace AOB
variable {C : Type}

/-- What happens to prices, sides and base quantities. `flip`: sides are exchanged; `price`: the new price for an old one; `top`, `top'`: no
price is above `top` before and `top'` after, in whole units; `lots`: the new base quantity for an old unit; `size`: no order
asks for more base than this. -/
structure Reprice where
  flip : Bool
  price : Nat → Nat
  top : Nat
  top' : Nat
  lots : Nat
  size : Nat

/-- At least one and at most `top`, as fixed point numbers with 32 bits behind the point. -/
def PriceIn (top p : Nat) : Prop := 2 ^ 32 ≤ p ∧ p ≤ top * 2 ^ 32

instance (top p : Nat) : Decidable (PriceIn top p) := by unfold PriceIn; infer_instance

/-- The new prices are in the same order as the old ones, or in reverse order if sides are exchanged. -/
structure Reprice.Ok (r : Reprice) : Prop where
  lots : 0 < r.lots
  range : ∀ p, PriceIn r.top p → PriceIn r.top' (r.price p)
  same : r.flip = false → ∀ p q, PriceIn r.top p → PriceIn r.top q → (r.price p ≤ r.price q ↔ p ≤ q)
  turned : r.flip = true → ∀ p q, PriceIn r.top p → PriceIn r.top q → (r.price p ≤ r.price q ↔ q ≤ p)

namespace Reprice
variable (r : Reprice)

def side (s : Side) : Side := if r.flip then s.opposite else s

/-- The id the order has after the change: the new price in the upper half; the sequence number stays, and is written for
the new side (inverted for bids). -/
def id (i : Nat) : Nat := r.price (i / 2 ^ 64) * 2 ^ 64 + if r.flip then 2 ^ 64 - 1 - i % 2 ^ 64 else i % 2 ^ 64

def order (o : Order C) : Order C := ⟨r.id o.id, o.qty * r.lots, o.cb⟩

/-- The event after the change, without its quote amount. -/
def event : Event C → Event C
  | .fill s i b _ m t => .fill (r.side s) (r.id i) (b * r.lots) 0 m t
  | .out s i b c => .out (r.side s) (r.id i) (b * r.lots) c

end Reprice

/-- An event without its quote amount. -/
def Event.noQuote : Event C → Event C
  | .fill s i b _ m t => .fill s i b 0 m t
  | .out s i b c => .out s i b c

/-- The same order after the change: the quote caps may be any that are never reached, whatever the price. -/
structure Reprice.Params (r : Reprice) (tick tick' : Nat) (p p' : NewOrderParams C) : Prop where
  side : p'.side = r.side p.side
  limit : p'.limitPrice = r.price p.limitPrice
  range : PriceIn r.top p.limitPrice
  base : p'.maxBaseQty = p.maxBaseQty * r.lots
  matchLimit : p'.matchLimit = p.matchLimit
  cb : p'.callbackInfo = p.callbackInfo
  postOnly : p'.postOnly = p.postOnly
  postAllowed : p'.postAllowed = p.postAllowed
  selfTrade : p'.selfTradeBehavior = p.selfTradeBehavior
  size : p.maxBaseQty ≤ r.size
  quote : p.maxBaseQty * r.top ≤ p.maxQuoteQty
  quote' : p.maxBaseQty * r.lots * r.top' ≤ p'.maxQuoteQty
  tick : tick ∣ p.limitPrice
  tick' : tick' ∣ p'.limitPrice

/-- The same instruction after the change. The totals of mass cancellations must fit in 64 bits. -/
def Reprice.Instrs (r : Reprice) (tick tick' : Nat) : Instr C → Instr C → Prop
  | .newOrder p, .newOrder p' => r.Params tick tick' p p'
  | .cancelOrder id, .cancelOrder id' => id' = r.id id ∧ PriceIn r.top (id / 2 ^ 64)
  | .massCancelOrders ids, .massCancelOrders ids' => ids' = ids.map r.id ∧ (∀ id ∈ ids, PriceIn r.top (id / 2 ^ 64)) ∧
      ids.length * (r.size * r.top) < 2 ^ 64 ∧ ids.length * (r.size * r.lots * r.top') < 2 ^ 64
  | .consumeEvents n, .consumeEvents n' => n' = n
  | _, _ => False

/-- The same market after the change; the tick sizes may be any. -/
structure Reprice.Configs (r : Reprice) (c c' : Config) : Prop where
  minBase : c'.minBase = c.minBase * r.lots
  cap : ∀ s, c'.cap (r.side s) = c.cap s
  events : c'.capEvents = c.capEvents

/-- The same answer after the change, up to the quote amount. -/
structure Reprice.Answer (r : Reprice) (s s' : OrderSummary) : Prop where
  posted : s'.postedOrderId = s.postedOrderId.map r.id
  base : s'.totalBaseQty = s.totalBaseQty * r.lots
  basePosted : s'.totalBaseQtyPosted = s.totalBaseQtyPosted * r.lots

end AOB
