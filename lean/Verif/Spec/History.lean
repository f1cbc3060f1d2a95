import Verif.Spec.Observe
/-
What an outside observer writes down along a history of transactions, and per-order accounts of it.
-/
namespace AOB
variable {C : Type} [CallbackInfo C]

/-- The log of a history, oldest entries first. -/
structure Log (C : Type) where
  /-- Orders reported as posted by the summary of a successful `new_order`, with the posted quantity. -/
  posted : List (Order C) := []
  /-- Events appended to the queue by successful `new_order` instructions. -/
  events : List (Event C) := []
  /-- Orders that rested under the ids of a successful cancellation, as they were just before it. -/
  cancelled : List (Order C) := []
  /-- Events that left the queue by `consume_events`. -/
  consumed : List (Event C) := []
  deriving DecidableEq, Repr

def Log.append (a b : Log C) : Log C :=
  ⟨a.posted ++ b.posted, a.events ++ b.events, a.cancelled ++ b.cancelled, a.consumed ++ b.consumed⟩

omit [CallbackInfo C] in
/-- All resting orders. -/
def allResting (m : Market C) : List (Order C) := resting m .bid ++ resting m .ask

omit [CallbackInfo C] in
/-- The order a successful `new_order` reports as posted, if any. -/
def postedBy (p : NewOrderParams C) (s : OrderSummary) : List (Order C) :=
  match s.postedOrderId with
  | some id => [⟨id, s.totalBaseQtyPosted, p.callbackInfo⟩]
  | none => []

/-- The log of one transaction; a failed one leaves no trace. -/
def stepLog (m : Market C) : Instr C → Log C
  | .newOrder p =>
    match m.newOrder p with
    | .ok (s, m') => { posted := postedBy p s, events := emitted m m' }
    | .error _ => {}
  | .cancelOrder id =>
    match m.cancelOrder id with
    | .ok _ => { cancelled := (allResting m).filter (fun o => o.id == id) }
    | .error _ => {}
  | .massCancelOrders ids =>
    match m.massCancelOrders ids with
    | .ok _ => { cancelled := (allResting m).filter (fun o => decide (o.id ∈ ids)) }
    | .error _ => {}
  | .consumeEvents n =>
    match m.consumeEvents n with
    | .ok m' => { consumed := (pending m).take ((pending m).length - (pending m').length) }
    | .error _ => {}

/-- The log of a history. -/
def runLog (m : Market C) : List (Instr C) → Log C
  | [] => {}
  | i :: is => (stepLog m i).append (runLog (m.step i) is)

/-- `m` is the market and `L` the log after the transactions `is` on a fresh market of configuration `c`. -/
def HistoryOf (c : Config) (is : List (Instr C)) (m : Market C) (L : Log C) : Prop :=
  c.Valid ∧ (∀ i ∈ is, i.Ok) ∧ ∃ c0, m = (c.market c0).run is ∧ L = runLog (c.market c0) is

/-- The entries about one order. -/
def ofId (id : Nat) (l : List (Order C)) : List (Order C) := l.filter (fun o => o.id == id)

def sumQty (l : List (Order C)) : Nat := (l.map Order.qty).sum

/-- The sequence number written in an order id (below `2^63`). -/
def seqOfId (id : Nat) : Nat :=
  if id % 2 ^ 64 < 2 ^ 63 then id % 2 ^ 64 else 2 ^ 64 - 1 - id % 2 ^ 64

end AOB
