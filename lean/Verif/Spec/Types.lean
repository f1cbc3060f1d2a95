import Verif.Model.Market
/-
The outside view used by the property statements: resting orders and events, without slots, handles,
ring-buffer positions or byte layouts.
-/
namespace AOB

/-- A resting order as a user sees it. -/
structure Order (C : Type) where
  id : Nat
  qty : Nat
  cb : C
  deriving DecidableEq, Repr

/-- Price of an order: the upper 64 bits of its 128-bit id. -/
def Order.price {C : Type} (o : Order C) : Nat := o.id / 2 ^ 64

/-- An event as a consumer sees it. -/
inductive Event (C : Type) where
  | fill (takerSide : Side) (makerId base quote : Nat) (makerCb takerCb : C)
  | out (side : Side) (id base : Nat) (cb : C)
  deriving DecidableEq, Repr

/-- The orders stored in a slab, read with the code base's own `traverse`
(`critbit.rs` 640-664): key order, with callback infos. -/
def Slab.orders {C : Type} (s : Slab C) : Res (List (Order C)) := do
  let l ← s.traverse
  .ok (l.map (fun x => ⟨x.1.orderId, x.1.baseQuantity, x.2⟩))

/-- Reading an `EventRef` (`event_queue.rs` 66-91). -/
def EventRef.toEvent {C : Type} : EventRef C → Event C
  | .fill e m t => .fill (if e.takerSide = 0 then .bid else .ask) e.makerOrderId e.baseSize e.quoteSize m t
  | .out e c => .out (if e.side = 0 then .bid else .ask) e.orderId e.baseSize c

/-- The events stored in a queue, read with the code base's own iterator (`event_queue.rs` 284-323). -/
def EventQueue.contents {C : Type} (q : EventQueue C) : Res (List (Event C)) := do
  let l ← q.iter
  .ok (l.map EventRef.toEvent)

/-- The resting orders of one side of a market. -/
def Market.orders {C : Type} (m : Market C) (side : Side) : Res (List (Order C)) :=
  (m.book.getTree side).orders

/-- The pending events of a market, oldest first. -/
def Market.events {C : Type} (m : Market C) : Res (List (Event C)) := m.queue.contents

/-! ### Vocabulary of the statements: prices, values and ids -/

/-- `a` is at least as good a resting price as `b` on this side (high bids, low asks). -/
def Side.asGood (side : Side) (a b : Nat) : Bool :=
  match side with
  | .bid => decide (b ≤ a)
  | .ask => decide (a ≤ b)

/-- A taker of side `side` with limit `limit` accepts to trade at `price`. -/
def Side.accepts (side : Side) (limit price : Nat) : Bool :=
  match side with
  | .bid => decide (price ≤ limit)
  | .ask => decide (limit ≤ price)

/-- Quote value of `base` at the FP32 price `price`: rounded up when `side` buys, down when it sells. -/
def worth (side : Side) (base price : Nat) : Nat :=
  match side with
  | .bid => (base * price + (2 ^ 32 - 1)) / 2 ^ 32
  | .ask => base * price / 2 ^ 32

/-- The largest base quantity whose exact value at `price` is at most `quote` (0 for a zero price). -/
def affordable (quote price : Nat) : Nat := quote * 2 ^ 32 / price

/-- The id given to the order posted with sequence number `seq`. -/
def mkOrderId (side : Side) (price seq : Nat) : Nat :=
  match side with
  | .bid => price * 2 ^ 64 + (2 ^ 64 - 1 - seq)
  | .ask => price * 2 ^ 64 + seq

/-- The side an order id says it is on (bit 63). -/
def sideOfId (id : Nat) : Side := if id % 2 ^ 64 < 2 ^ 63 then .ask else .bid

end AOB
