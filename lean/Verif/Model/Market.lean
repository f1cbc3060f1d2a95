import Verif.Model.Orderbook
/-
One market as a state machine: the bodies of `program/src/processor/*.rs` after the accounts have been
loaded (account loading is modelled in `Accounts.lean`).
-/
namespace AOB

/-- A loaded market: the parameters of `MarketState` (`market_state.rs` 17-28) used by the
instructions, the two slabs and the event queue. -/
structure Market (C : Type) where
  minBaseOrderSize : Nat
  tickSize : Nat
  book : OrderBook C
  queue : EventQueue C
  deriving DecidableEq, Repr

/-- The instructions that act on an open market (`instruction.rs` 14-93). -/
inductive Instr (C : Type) where
  | newOrder (p : NewOrderParams C)
  | cancelOrder (orderId : Nat)
  | massCancelOrders (orderIds : List Nat)
  | consumeEvents (n : Nat)
  deriving DecidableEq, Repr

namespace Market
variable {C : Type} [CallbackInfo C]

/-- `new_order.rs` 132-155. -/
def newOrder (m : Market C) (p : NewOrderParams C) : Res (OrderSummary × Market C) := do
  let r ← remU p.limitPrice m.tickSize                                   -- 132
  if r ≠ 0 then .error (.ao .invalidLimitPrice)
  else if p.postAllowed && decide (p.limitPrice < m.tickSize) then       -- 136-141
    .error (.ao .invalidLimitPrice)
  else do
    let (sum, book, queue) ← m.book.newOrder p m.queue m.minBaseOrderSize
    .ok (sum, { m with book := book, queue := queue })

/-- `cancel_order.rs` 95-110 on the book. -/
def cancelIn (book : OrderBook C) (orderId : Nat) : Res (OrderSummary × OrderBook C) := do
  let side := getSideFromOrderId orderId
  let (r, slab) ← (book.getTree side).removeByKey orderId
  match r with
  | none => .error (.ao .orderNotFound)
  | some (leaf, _) =>
    match fp32MulFloor leaf.baseQuantity leaf.price with
    | none => .error (.ao .numericalOverflow)
    | some quote =>
      .ok ({ postedOrderId := none, totalBaseQty := leaf.baseQuantity, totalQuoteQty := quote,
             totalBaseQtyPosted := 0 }, book.setTree side slab)

/-- `cancel_order.rs` 95-110. -/
def cancelOrder (m : Market C) (orderId : Nat) : Res (OrderSummary × Market C) := do
  let (sum, book) ← cancelIn m.book orderId
  .ok (sum, { m with book := book })

/-- `mass_cancel_orders.rs` 100-107: the loop over `order_ids`. -/
def massCancelLoop : List Nat → Nat → Nat → OrderBook C → Res (Nat × Nat × OrderBook C)
  | [], base, quote, book => .ok (base, quote, book)
  | orderId :: rest, base, quote, book => do
    let side := getSideFromOrderId orderId
    let (r, slab) ← (book.getTree side).removeByKey orderId
    match r with
    | none => .error (.ao .orderNotFound)
    | some (leaf, _) => do
      let base ← addU64 base leaf.baseQuantity                           -- 103
      let v ← unwrap (fp32MulFloor leaf.baseQuantity leaf.price)         -- 104-106
      let quote ← addU64 v quote
      massCancelLoop rest base quote (book.setTree side slab)

/-- `mass_cancel_orders.rs` 97-116. -/
def massCancelOrders (m : Market C) (orderIds : List Nat) : Res (OrderSummary × Market C) := do
  let (base, quote, book) ← massCancelLoop orderIds 0 0 m.book
  .ok ({ postedOrderId := none, totalBaseQty := base, totalQuoteQty := quote,
         totalBaseQtyPosted := 0 }, { m with book := book })

/-- `consume_events.rs` 82-95. -/
def consumeEvents (m : Market C) (n : Nat) : Res (Market C) := do
  let queue ← m.queue.popN n
  .ok { m with queue := queue }

/-- `processor.rs` 33-75: dispatch to the instruction. -/
def exec (m : Market C) : Instr C → Res (Option OrderSummary × Market C)
  | .newOrder p => do
      let (s, m) ← m.newOrder p
      .ok (some s, m)
  | .cancelOrder id => do
      let (s, m) ← m.cancelOrder id
      .ok (some s, m)
  | .massCancelOrders ids => do
      let (s, m) ← m.massCancelOrders ids
      .ok (some s, m)
  | .consumeEvents n => do
      let m ← m.consumeEvents n
      .ok (none, m)

/-- One transaction: a failed instruction leaves the accounts as they were (Solana runtime).
The instruction is processed by `processor.rs` 19-76. -/
def step (m : Market C) (i : Instr C) : Market C :=
  match m.exec i with
  | .ok (_, m') => m'
  | .error _ => m

/-- A history of transactions. Each processed by `processor.rs` 19-76. -/
def run (m : Market C) (is : List (Instr C)) : Market C := is.foldl step m

/-- The market found after `create_market` (`create_market.rs` 75-118) on zeroed accounts whose sizes
give `capB + 1` bid slots, `capA + 1` ask slots and `capQ` event slots (`slackB`, `slackA`: see `Slab.zeroed`). -/
def create (minBase tick capB capA capQ : Nat) (c0 : C) (slackB slackA : Nat := 0) : Market C :=
  { minBaseOrderSize := minBase, tickSize := tick
    book := { bids := Slab.zeroed capB c0 slackB, asks := Slab.zeroed capA c0 slackA }
    queue := EventQueue.zeroed capQ c0 }

end Market
end AOB
