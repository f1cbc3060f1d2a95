import Verif.Spec.Custody
/-
The wallets of the users of a program that embeds the order book, as in `Spec/Custody`, but for one group of users, told
apart by the callback infos of their orders. A group may be a single user or all of them.
-/
namespace AOB
variable {C : Type}

/-- The buyer of a fill. -/
def Event.buyer : Event C → Option C
  | .fill .bid _ _ _ _ taker => some taker
  | .fill .ask _ _ _ maker _ => some maker
  | .out .. => none

/-- The seller of a fill. -/
def Event.seller : Event C → Option C
  | .fill .bid _ _ _ maker _ => some maker
  | .fill .ask _ _ _ _ taker => some taker
  | .out .. => none

/-- The fills in which a member of the group buys, and those in which one sells. -/
def buysOf (g : C → Bool) (es : List (Event C)) : List (Event C) := es.filter (fun e => e.buyer.any g)
def sellsOf (g : C → Bool) (es : List (Event C)) : List (Event C) := es.filter (fun e => e.seller.any g)

/-- Orders of the group. -/
def ordersOf (g : C → Bool) (l : List (Order C)) : List (Order C) := l.filter (fun o => g o.cb)

/-- Announcements to the group that one of its orders has left the book. -/
def outsTo (g : C → Bool) (es : List (Event C)) : List (Event C) :=
  es.filter fun | .out _ _ _ cb => g cb | .fill .. => false

/-- Base tokens the group gets when these events are consumed: what it buys, and the rests of its asks. -/
def baseTo (g : C → Bool) (es : List (Event C)) : Nat := sumBase (buysOf g es) + baseDue (outsTo g es)

/-- Quote tokens the group gets when these events are consumed: what it sells for, and the values of the rests of its
bids. -/
def quoteTo (g : C → Bool) (es : List (Event C)) : Nat := sumQuote (sellsOf g es) + quoteDue (outsTo g es)

variable [CallbackInfo C]

/-- What one transaction does to the funds in the wallets of the group (`Spec/Custody` says what it does to the vault):
* for an order of the group the total quote (of a buyer) or the total base (of a seller) of the summary is taken away;
* for cancelled orders of the group the quantity of an ask or the value of a bid comes back;
* the events that leave the queue are paid. -/
def settleFor (g : C → Bool) (m : Market C) (v : Vault) : Instr C → Vault
  | .newOrder p =>
    match m.newOrder p with
    | .ok (s, _) =>
      if g p.callbackInfo then
        match p.side with
        | .bid => { v with quote := v.quote - s.totalQuoteQty }
        | .ask => { v with base := v.base - s.totalBaseQty }
      else v
    | .error _ => v
  | .cancelOrder id =>
    match m.cancelOrder id with
    | .ok _ =>
      { base := v.base + sumQty (ordersOf g ((resting m .ask).filter (fun o => decide (o.id = id))))
        quote := v.quote + sumValue (ordersOf g ((resting m .bid).filter (fun o => decide (o.id = id)))) }
    | .error _ => v
  | .massCancelOrders ids =>
    match m.massCancelOrders ids with
    | .ok _ =>
      { base := v.base + sumQty (ordersOf g ((resting m .ask).filter (fun o => decide (o.id ∈ ids))))
        quote := v.quote + sumValue (ordersOf g ((resting m .bid).filter (fun o => decide (o.id ∈ ids)))) }
    | .error _ => v
  | .consumeEvents n =>
    match m.consumeEvents n with
    | .ok m' =>
      let gone := (pending m).take ((pending m).length - (pending m').length)
      { base := v.base + baseTo g gone, quote := v.quote + quoteTo g gone }
    | .error _ => v

/-- The wallets after a history. -/
def runWallet (g : C → Bool) (m : Market C) (v : Vault) : List (Instr C) → Vault
  | [] => v
  | i :: is => runWallet g (m.step i) (settleFor g m v i) is

omit [CallbackInfo C] in
/-- Base of the group that is not in its wallets: its resting asks, and what pending events will bring. -/
def outsideBase (g : C → Bool) (m : Market C) : Nat := sumQty (ordersOf g (resting m .ask)) + baseTo g (pending m)

omit [CallbackInfo C] in
/-- Quote of the group that is not in its wallets: its resting bids at their value rounded down, and what pending events
will bring. -/
def outsideQuote (g : C → Bool) (m : Market C) : Nat :=
  sumValue (ordersOf g (resting m .bid)) + quoteTo g (pending m)

/-- The places where a quote amount of the group was rounded: its bids posted and fills of its resting bids. -/
def roundingsOf (g : C → Bool) (L : Log C) : Nat :=
  ((ordersOf g L.posted).filter (fun o => sideOfId o.id == .bid)).length +
    (L.events.filter fun | .fill .ask _ _ _ maker _ => g maker | _ => false).length

end AOB
