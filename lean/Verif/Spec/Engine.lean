import Verif.Spec.Types
/-
A reference matching engine on plain lists: each side is the list of its resting orders, best first.
It knows nothing about trees, slots, handles, ring buffers or fixed-width arithmetic.
The refinement theorems (`Proofs/Refine.lean`) show that the modelled code computes the same thing;
the property theorems are still stated on the modelled code.
-/
namespace AOB
variable {C : Type}

/-- Result of matching: events emitted, opposite side left, base and quote left, and whether matching
stopped while the prices still crossed (or might still cross). -/
structure MatchOut (C : Type) where
  events : List (Event C)
  opp : List (Order C)
  base : Nat
  quote : Nat
  crossed : Bool
  deriving DecidableEq, Repr

/-- Put events in front. -/
def MatchOut.emit (es : List (Event C)) (r : MatchOut C) : MatchOut C :=
  { r with events := es ++ r.events }

/-- Matching against the opposite side, best order first, at most `limit` steps, with `room` free
event slots. -/
def refMatch [CallbackInfo C] (p : NewOrderParams C) (minBase : Nat) :
    (limit : Nat) → (room : Nat) → List (Order C) → (base quote : Nat) → Bool →
    Except AoError (MatchOut C)
  | 0, _, opp, base, quote, crossed => .ok ⟨[], opp, base, quote, crossed⟩
  | _ + 1, _, [], base, quote, _ => .ok ⟨[], [], base, quote, false⟩
  | limit + 1, room, o :: rest, base, quote, _ =>
    if p.postOnly || !p.side.accepts p.limitPrice o.price then
      .ok ⟨[], o :: rest, base, quote, p.side.accepts p.limitPrice o.price⟩
    else
      let t := min (min o.qty base) (affordable quote o.price)
      let v := worth p.side t o.price
      if t = 0 ∨ v = 0 then .ok ⟨[], o :: rest, base, quote, true⟩
      else if p.selfTradeBehavior ≠ .decrementTake ∧
          CallbackInfo.asCallbackId p.callbackInfo = CallbackInfo.asCallbackId o.cb then
        if p.selfTradeBehavior = .abortTransaction then .error .wouldSelfTrade
        else if room = 0 then .error .eventQueueFull
        else (refMatch p minBase limit (room - 1) rest base quote true).map
          (MatchOut.emit [.out p.side.opposite o.id o.qty o.cb])
      else if o.qty - t < minBase then
        if room ≤ 1 then .error .eventQueueFull
        else (refMatch p minBase limit (room - 2) rest (base - t) (quote - v) true).map
          (MatchOut.emit [.fill p.side o.id t v o.cb p.callbackInfo,
                          .out p.side.opposite o.id (o.qty - t) o.cb])
      else
        if room = 0 then .error .eventQueueFull
        else (refMatch p minBase limit (room - 1) ({ o with qty := o.qty - t } :: rest)
            (base - t) (quote - v) true).map
          (MatchOut.emit [.fill p.side o.id t v o.cb p.callbackInfo])

/-- Insert behind every order that is at least as good in price: price-time priority. -/
def insertOrder (side : Side) (o : Order C) (l : List (Order C)) : List (Order C) :=
  l.takeWhile (fun x => side.asGood x.price o.price) ++
    o :: l.dropWhile (fun x => side.asGood x.price o.price)

/-- Result of posting. -/
structure PostOut (C : Type) where
  posted : Bool
  own : List (Order C)
  events : List (Event C)
  deriving DecidableEq, Repr

/-- Post the order `o` on side `side` (best first list `own`, capacity `cap`); a full side evicts its
worst order if that is strictly worse than the new one. -/
def refPost (side : Side) (cap room : Nat) (own : List (Order C)) (o : Order C) :
    Except AoError (PostOut C) :=
  if own.length < cap then .ok ⟨true, insertOrder side o own, []⟩
  else match own.getLast? with
    | none => .ok ⟨false, own, []⟩
    | some w =>
      if side.asGood w.price o.price then .ok ⟨false, own, []⟩
      else if room = 0 then .error .eventQueueFull
      else .ok ⟨true, insertOrder side o own.dropLast, [.out side w.id w.qty w.cb]⟩

/-- A market of the reference engine. Both sides best first, events oldest first. -/
structure RefMarket (C : Type) where
  minBase : Nat
  tick : Nat
  capBids : Nat
  capAsks : Nat
  capEvents : Nat
  seq : Nat
  bids : List (Order C)
  asks : List (Order C)
  events : List (Event C)
  deriving DecidableEq, Repr

namespace RefMarket

def orders (a : RefMarket C) : Side → List (Order C)
  | .bid => a.bids
  | .ask => a.asks

def setOrders (a : RefMarket C) (side : Side) (l : List (Order C)) : RefMarket C :=
  match side with
  | .bid => { a with bids := l }
  | .ask => { a with asks := l }

def cap (a : RefMarket C) : Side → Nat
  | .bid => a.capBids
  | .ask => a.capAsks

/-- New order. -/
def newOrder [CallbackInfo C] (a : RefMarket C) (p : NewOrderParams C) :
    Except Err (OrderSummary × RefMarket C) :=
  if a.tick = 0 then .error .panic
  else if p.limitPrice % a.tick ≠ 0 ∨ (p.postAllowed ∧ p.limitPrice < a.tick) then
    .error (.ao .invalidLimitPrice)
  else
    match refMatch p a.minBase p.matchLimit (a.capEvents - a.events.length) (a.orders p.side.opposite)
        p.maxBaseQty p.maxQuoteQty true with
    | .error e => .error (.ao e)
    | .ok r =>
      let a1 := { a.setOrders p.side.opposite r.opp with events := a.events ++ r.events }
      let noPost : OrderSummary :=
        { postedOrderId := none, totalBaseQty := p.maxBaseQty - r.base,
          totalQuoteQty := p.maxQuoteQty - r.quote, totalBaseQtyPosted := 0 }
      let toPost := min (affordable r.quote p.limitPrice) r.base
      if r.crossed || !p.postAllowed || decide (toPost < a.minBase) then .ok (noPost, a1)
      else if a.seq + 1 ≥ 2 ^ 64 then .error .panic
      else
        let id := mkOrderId p.side p.limitPrice a.seq
        let a2 := { a1 with seq := a.seq + 1 }
        match refPost p.side (a.cap p.side) (a.capEvents - a1.events.length) (a1.orders p.side)
            ⟨id, toPost, p.callbackInfo⟩ with
        | .error e => .error (.ao e)
        | .ok po =>
          if po.posted then
            .ok ({ postedOrderId := some id, totalBaseQty := p.maxBaseQty - (r.base - toPost),
                   totalQuoteQty := p.maxQuoteQty - (r.quote - worth p.side toPost p.limitPrice),
                   totalBaseQtyPosted := toPost },
                 { a2.setOrders p.side po.own with events := a1.events ++ po.events })
          else .ok (noPost, a2)

/-- Cancel: the removed order and the rest. -/
def cancel1 (a : RefMarket C) (id : Nat) : Option (Order C × RefMarket C) :=
  match (a.orders (sideOfId id)).find? (fun o => o.id == id) with
  | none => none
  | some o =>
    some (o, a.setOrders (sideOfId id) ((a.orders (sideOfId id)).filter (fun o => o.id != id)))

def cancelOrder (a : RefMarket C) (id : Nat) : Except Err (OrderSummary × RefMarket C) :=
  match a.cancel1 id with
  | none => .error (.ao .orderNotFound)
  | some (o, a') =>
    .ok ({ postedOrderId := none, totalBaseQty := o.qty, totalQuoteQty := worth .ask o.qty o.price,
           totalBaseQtyPosted := 0 }, a')

/-- Cancel all ids in turn, adding up base and quote. -/
def massCancelFrom : List Nat → Nat → Nat → RefMarket C → Except Err (Nat × Nat × RefMarket C)
  | [], base, quote, a => .ok (base, quote, a)
  | id :: ids, base, quote, a =>
    match a.cancel1 id with
    | none => .error (.ao .orderNotFound)
    | some (o, a') =>
      if base + o.qty < 2 ^ 64 ∧ worth .ask o.qty o.price + quote < 2 ^ 64 then
        massCancelFrom ids (base + o.qty) (worth .ask o.qty o.price + quote) a'
      else .error .panic

def massCancelOrders (a : RefMarket C) (ids : List Nat) : Except Err (OrderSummary × RefMarket C) :=
  match massCancelFrom ids 0 0 a with
  | .error e => .error e
  | .ok (b, q, a') =>
    .ok ({ postedOrderId := none, totalBaseQty := b, totalQuoteQty := q, totalBaseQtyPosted := 0 }, a')

def exec [CallbackInfo C] (a : RefMarket C) : Instr C → Except Err (Option OrderSummary × RefMarket C)
  | .newOrder p => (a.newOrder p).map (fun x => (some x.1, x.2))
  | .cancelOrder id => (a.cancelOrder id).map (fun x => (some x.1, x.2))
  | .massCancelOrders ids => (a.massCancelOrders ids).map (fun x => (some x.1, x.2))
  | .consumeEvents n => .ok (none, { a with events := a.events.drop n })

def step [CallbackInfo C] (a : RefMarket C) (i : Instr C) : RefMarket C :=
  match a.exec i with
  | .ok (_, a') => a'
  | .error _ => a

def run [CallbackInfo C] (a : RefMarket C) (is : List (Instr C)) : RefMarket C := is.foldl step a

/-- The empty market. -/
def create (minBase tick capBids capAsks capEvents : Nat) : RefMarket C :=
  { minBase, tick, capBids, capAsks, capEvents, seq := 0, bids := [], asks := [], events := [] }

end RefMarket
end AOB
