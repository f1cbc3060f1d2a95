import Verif.Spec.History
/-
The funds of a program that embeds the order book. The order book itself moves no tokens: it tells the embedding program,
by order summaries and events, what to collect and what to pay. This is the plainest use of what it tells.
-/
namespace AOB
variable {C : Type}

/-- The funds held for a market. Integers, so that a shortfall would show. -/
structure Vault where
  base : Int := 0
  quote : Int := 0
  deriving DecidableEq, Repr

/-- Base tokens to pay out for an event: the buyer of a fill gets the base size, an ask that leaves the book gets its
rest back. -/
def Event.baseDue : Event C → Nat
  | .fill _ _ b _ _ _ => b
  | .out .ask _ b _ => b
  | .out .bid _ _ _ => 0

/-- Quote tokens to pay out for an event: the seller of a fill gets the quote size, a bid that leaves the book gets the
value of its rest at its own price, rounded down. -/
def Event.quoteDue : Event C → Nat
  | .fill _ _ _ q _ _ => q
  | .out .bid id b _ => b * (id / 2 ^ 64) / 2 ^ 32
  | .out .ask _ _ _ => 0

def baseDue (es : List (Event C)) : Nat := (es.map Event.baseDue).sum
def quoteDue (es : List (Event C)) : Nat := (es.map Event.quoteDue).sum

def sumValue (l : List (Order C)) : Nat := (l.map Order.value).sum

variable [CallbackInfo C]

/-- What the embedding program does on one transaction:
* from a buyer it collects the total quote of the order summary, from a seller the total base;
* an order cancelled by its id gives back what the summary says, base for an ask and quote for a bid;
* `mass_cancel_orders` gives back the quantity of each ask and the value of each bid it took off the book (its summary
  adds up bids and asks, so it cannot be used);
* the events that leave the queue are paid. -/
def settle (m : Market C) (v : Vault) : Instr C → Vault
  | .newOrder p =>
    match m.newOrder p with
    | .ok (s, _) =>
      match p.side with
      | .bid => { v with quote := v.quote + s.totalQuoteQty }
      | .ask => { v with base := v.base + s.totalBaseQty }
    | .error _ => v
  | .cancelOrder id =>
    match m.cancelOrder id with
    | .ok (s, _) =>
      match sideOfId id with
      | .bid => { v with quote := v.quote - s.totalQuoteQty }
      | .ask => { v with base := v.base - s.totalBaseQty }
    | .error _ => v
  | .massCancelOrders ids =>
    match m.massCancelOrders ids with
    | .ok _ =>
      { base := v.base - sumQty ((resting m .ask).filter (fun o => decide (o.id ∈ ids)))
        quote := v.quote - sumValue ((resting m .bid).filter (fun o => decide (o.id ∈ ids))) }
    | .error _ => v
  | .consumeEvents n =>
    match m.consumeEvents n with
    | .ok m' =>
      let gone := (pending m).take ((pending m).length - (pending m').length)
      { base := v.base - baseDue gone, quote := v.quote - quoteDue gone }
    | .error _ => v

/-- The funds after a history. -/
def runVault (m : Market C) (v : Vault) : List (Instr C) → Vault
  | [] => v
  | i :: is => runVault (m.step i) (settle m v i) is

omit [CallbackInfo C] in
/-- The base the embedding program still owes: resting asks and events not yet paid. -/
def owedBase (m : Market C) : Nat := sumQty (resting m .ask) + baseDue (pending m)

omit [CallbackInfo C] in
/-- The quote it still owes: resting bids at their value rounded down, and events not yet paid. -/
def owedQuote (m : Market C) : Nat := sumValue (resting m .bid) + quoteDue (pending m)

/-- The places of a history where a quote amount was rounded against the vault's counterpart: bids posted (collected
rounded up, given back rounded down) and fills of resting bids (paid rounded down). -/
def roundings (L : Log C) : Nat :=
  (L.posted.filter (fun o => sideOfId o.id == .bid)).length +
    (L.events.filter (fun e => e.isFill && e.makerSide == .bid)).length

end AOB
