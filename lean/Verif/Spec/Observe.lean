import Verif.Spec.Types
/-
What can be observed of a market, and which markets can arise.
-/
namespace AOB
variable {C : Type}

/-- The argument values of an instruction fit their Rust types (`u64`, `u128`). -/
def Instr.Ok : Instr C → Prop
  | .newOrder p => p.limitPrice < 2 ^ 64 ∧ p.maxBaseQty < 2 ^ 64 ∧ p.maxQuoteQty < 2 ^ 64
  | .cancelOrder id => id < 2 ^ 128
  | .massCancelOrders ids => ∀ id ∈ ids, id < 2 ^ 128
  | .consumeEvents _ => True

/-- Parameters and account capacities of a market. `capBids`/`capAsks` are the numbers of orders the two
slabs can hold, `capEvents` the number of events of the queue; `slackBids`/`slackAsks` count unused callback
infos at the end of slab accounts of an odd size. -/
structure Config where
  minBase : Nat
  tick : Nat
  capBids : Nat
  capAsks : Nat
  capEvents : Nat
  slackBids : Nat := 0
  slackAsks : Nat := 0
  deriving DecidableEq, Repr

/-- What `create_market` enforces (`create_market.rs` 88-91: both parameters non-zero) and what account
sizes allow (Solana accounts hold at most 10 MiB, so far fewer than `2^31` slots). -/
structure Config.Valid (c : Config) : Prop where
  minBase : 0 < c.minBase
  tick : 0 < c.tick
  bids : 0 < c.capBids ∧ c.capBids ≤ 2 ^ 31
  asks : 0 < c.capAsks ∧ c.capAsks ≤ 2 ^ 31
  events : 0 < c.capEvents ∧ c.capEvents ≤ 2 ^ 62

/-- The freshly created market. -/
def Config.market (c : Config) (c0 : C) : Market C :=
  Market.create c.minBase c.tick (c.capBids - 1) (c.capAsks - 1) c.capEvents c0 c.slackBids c.slackAsks

variable [CallbackInfo C]

/-- `m` is the market after `is` transactions (successful or not) on a freshly created market. -/
def ReachBy (c : Config) (is : List (Instr C)) (m : Market C) : Prop :=
  c.Valid ∧ (∀ i ∈ is, i.Ok) ∧ ∃ c0, m = (c.market c0).run is

/-- `m` can arise, after some number of transactions. -/
def Reachable (m : Market C) : Prop := ∃ c is, ReachBy c is m

omit [CallbackInfo C] in
/-- The resting orders of one side, best rank first: bids by decreasing id, asks by increasing id.
Empty if the reading of the tree panics (it never does, see `reads_ok`). -/
def resting (m : Market C) (side : Side) : List (Order C) :=
  match m.orders side with
  | .ok l => (match side with | .bid => l.reverse | .ask => l)
  | .error _ => []

omit [CallbackInfo C] in
/-- The events waiting in the queue, oldest first. Empty if the reading panics (it never does). -/
def pending (m : Market C) : List (Event C) :=
  match m.events with
  | .ok l => l
  | .error _ => []

omit [CallbackInfo C] in
/-- The events a step from `m` to `m'` appended. -/
def emitted (m m' : Market C) : List (Event C) := (pending m').drop (pending m).length

/-- The id an event is about. -/
def Event.id : Event C → Nat
  | .fill _ id _ _ _ _ => id
  | .out _ id _ _ => id

/-- The base quantity an event takes away from the order it is about. -/
def Event.base : Event C → Nat
  | .fill _ _ b _ _ _ => b
  | .out _ _ b _ => b

/-- The quote quantity of a fill. -/
def Event.quote : Event C → Nat
  | .fill _ _ _ q _ _ => q
  | .out _ _ _ _ => 0

def Event.isFill : Event C → Bool
  | .fill .. => true
  | .out .. => false

def Event.isOut : Event C → Bool
  | .fill .. => false
  | .out .. => true

/-- The callback info of the resting order the event is about. -/
def Event.makerCb : Event C → C
  | .fill _ _ _ _ m _ => m
  | .out _ _ _ c => c

/-- The side of the resting order the event is about. -/
def Event.makerSide : Event C → Side
  | .fill s _ _ _ _ _ => s.opposite
  | .out s _ _ _ => s

/-! ### Totals of a list of events -/

def sumBase (es : List (Event C)) : Nat := (es.map Event.base).sum
def sumQuote (es : List (Event C)) : Nat := (es.map Event.quote).sum

/-- The fills among the events. -/
def fills (es : List (Event C)) : List (Event C) := es.filter Event.isFill

/-- The out events about the order `id`. -/
def outsOf (id : Nat) (es : List (Event C)) : List (Event C) := es.filter (fun e => e.isOut && e.id == id)

/-- The fills of the order `id`. -/
def fillsOf (id : Nat) (es : List (Event C)) : List (Event C) := es.filter (fun e => e.isFill && e.id == id)

/-- What is left of the resting order `x` after the events: nothing once it is out, otherwise the order
with its quantity reduced by its fills. -/
def survivor (es : List (Event C)) (x : Order C) : Option (Order C) :=
  if (outsOf x.id es).isEmpty then some { x with qty := x.qty - sumBase (fillsOf x.id es) } else none

/-- Number of matching rounds, seen from the events: each fill is one round, and each own order that was
taken out instead of being traded is one. -/
def rounds (p : NewOrderParams C) (es : List (Event C)) : Nat :=
  (es.filter (fun e => e.isFill || (e.makerSide == p.side.opposite && p.selfTradeBehavior != .decrementTake &&
    decide (CallbackInfo.asCallbackId p.callbackInfo = CallbackInfo.asCallbackId e.makerCb)))).length

/-- Number of orders one side can hold. -/
def Config.cap (c : Config) : Side → Nat
  | .bid => c.capBids
  | .ask => c.capAsks

/-- The price `a` is strictly worse than `b` for a resting order of the side. -/
def Side.worse (side : Side) (a b : Nat) : Prop :=
  match side with
  | .bid => a < b
  | .ask => b < a

omit [CallbackInfo C] in
/-- What remains to be posted after the trades: as much base as is left and affordable at the limit price. -/
def remainder (p : NewOrderParams C) (es : List (Event C)) : Nat :=
  min ((p.maxQuoteQty - sumQuote (fills es)) * 2 ^ 32 / p.limitPrice) (p.maxBaseQty - sumBase (fills es))

omit [CallbackInfo C] in
/-- Two markets look the same. -/
def SameLook (m m' : Market C) : Prop := (∀ side, resting m side = resting m' side) ∧ pending m = pending m'

omit [CallbackInfo C] in
/-- Floor of the quote value of an order. -/
def Order.value (o : Order C) : Nat := o.qty * o.price / 2 ^ 32

/-- The condition under which `mass_cancel_orders` succeeds: distinct ids of resting orders, totals below `2^64`. -/
structure Cancellable (m : Market C) (ids : List Nat) (os : List (Order C)) : Prop where
  ids_eq : os.map Order.id = ids
  nodup : ids.Nodup
  rests : ∀ o ∈ os, ∃ side, o ∈ resting m side
  base : (os.map Order.qty).sum < 2 ^ 64
  quote : (os.map Order.value).sum < 2 ^ 64

end AOB
