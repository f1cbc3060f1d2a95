import Verif.Spec.Relate
/-
The quote currency counted in a smaller unit: `k` new units for every old one (cents for dollars).
-/
namespace AOB
variable {C : Type}

/-- The order id with the price part (upper 64 bits) `k` times as large. -/
def idTimes (k id : Nat) : Nat := id / 2 ^ 64 * k * 2 ^ 64 + id % 2 ^ 64

def NewOrderParams.times (k : Nat) (p : NewOrderParams C) : NewOrderParams C :=
  { p with limitPrice := p.limitPrice * k, maxQuoteQty := p.maxQuoteQty * k }

def Instr.times (k : Nat) : Instr C → Instr C
  | .newOrder p => .newOrder (p.times k)
  | .cancelOrder id => .cancelOrder (idTimes k id)
  | .massCancelOrders ids => .massCancelOrders (ids.map (idTimes k))
  | .consumeEvents n => .consumeEvents n

def Config.times (k : Nat) (c : Config) : Config := { c with tick := c.tick * k }

def Order.times (k : Nat) (o : Order C) : Order C := ⟨idTimes k o.id, o.qty, o.cb⟩

def Event.times (k : Nat) : Event C → Event C
  | .fill s id b q m t => .fill s (idTimes k id) b (q * k) m t
  | .out s id b c => .out s (idTimes k id) b c

def OrderSummary.times (k : Nat) (s : OrderSummary) : OrderSummary :=
  ⟨s.postedOrderId.map (idTimes k), s.totalBaseQty, s.totalQuoteQty * k, s.totalBaseQtyPosted⟩

/-- Orders that may be posted have a whole price (prices are fixed point numbers with 32 bits behind the point); the limit
of an order that is not to be posted may be any. -/
def Instr.Whole : Instr C → Prop
  | .newOrder p => p.postAllowed = true → 2 ^ 32 ∣ p.limitPrice
  | _ => True

variable [CallbackInfo C]

/-- If the instruction is a `mass_cancel_orders` that succeeds, then the quote total it returns fits in 64 bits in the new
unit as well. -/
def Expressible (k : Nat) (m : Market C) : Instr C → Prop
  | .massCancelOrders ids => ∀ s m', m.massCancelOrders ids = .ok (s, m') → s.totalQuoteQty * k < 2 ^ 64
  | _ => True

end AOB
