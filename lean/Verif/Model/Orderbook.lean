import Verif.Model.Critbit
import Verif.Model.EventQueue
/-
Model of `program/src/state/orderbook.rs`.
-/
namespace AOB

/-- `orderbook.rs` 27-36: `struct OrderSummary`. -/
structure OrderSummary where
  postedOrderId : Option Nat
  totalBaseQty : Nat
  totalQuoteQty : Nat
  totalBaseQtyPosted : Nat
  deriving DecidableEq, Repr

/-- `new_order.rs` 29-56: `struct Params<C>`. -/
structure NewOrderParams (C : Type) where
  maxBaseQty : Nat
  maxQuoteQty : Nat
  limitPrice : Nat
  side : Side
  matchLimit : Nat
  callbackInfo : C
  postOnly : Bool
  postAllowed : Bool
  selfTradeBehavior : SelfTradeBehavior
  deriving DecidableEq, Repr

/-- `orderbook.rs` 60-63: `struct OrderBookState`. -/
structure OrderBook (C : Type) where
  bids : Slab C
  asks : Slab C
  deriving DecidableEq, Repr

namespace OrderBook
variable {C : Type}

/-- `orderbook.rs` 98-103: `get_tree`. -/
def getTree (b : OrderBook C) : Side → Slab C
  | .bid => b.bids
  | .ask => b.asks

/-- Writing through the `&mut Slab` returned by `get_tree`. (`orderbook.rs` 98-103.) -/
def setTree (b : OrderBook C) (side : Side) (s : Slab C) : OrderBook C :=
  match side with
  | .bid => { b with bids := s }
  | .ask => { b with asks := s }

/-- `orderbook.rs` 79-84: `find_bbo`. -/
def findBbo (b : OrderBook C) (side : Side) : Res (Option Nat) :=
  match side with
  | .bid => b.bids.findMax
  | .ask => b.asks.findMin

/-- `opt.map(|h| slab.leaf_nodes[h as usize].price())` (90, 94). In `orderbook.rs`. -/
def priceAt (s : Slab C) : Option Nat → Res (Option Nat)
  | none => .ok none
  | some h => do
      let l ← idx s.leafNodes h
      .ok (some l.price)

/-- `orderbook.rs` 86-96: `get_spread`. -/
def getSpread (b : OrderBook C) : Res (Option Nat × Option Nat) := do
  let bb ← b.bids.findMax
  let bestBid ← priceAt b.bids bb
  let ba ← b.asks.findMin
  let bestAsk ← priceAt b.asks ba
  .ok (bestBid, bestAsk)

/-- `orderbook.rs` 105-107: `is_empty`. -/
def isEmpty (b : OrderBook C) : Bool :=
  b.asks.header.leafCount == 0 && b.bids.header.leafCount == 0

end OrderBook

/-- `best_bo_ref.base_quantity = q` for the leaf at `h` of the tree of `side` (`orderbook.rs` 151, 244). -/
def Slab.setBaseQuantity {C : Type} (s : Slab C) (h q : Nat) : Res (Slab C) := do
  let l ← idx s.leafNodes h
  let leaves ← setIdx s.leafNodes h { l with baseQuantity := q }
  .ok { s with leafNodes := leaves }

/-- `orderbook.rs` 154-157: does the limit price cross the best opposite price? -/
def crosses (side : Side) (limitPrice tradePrice : Nat) : Bool :=
  match side with
  | .bid => decide (limitPrice ≥ tradePrice)
  | .ask => decide (limitPrice ≤ tradePrice)

/-- `orderbook.rs` 172-175 and 348-351: value of `base` at `price`, rounded up for a bid and down for
an ask. -/
def fp32Value (side : Side) (base price : Nat) : Option Nat :=
  match side with
  | .bid => fp32MulCeil base price
  | .ask => fp32MulFloor base price

/-- The variables of the matching loop of `new_order` (132-136): `self`, `event_queue`,
`base_qty_remaining`, `quote_qty_remaining`, `crossed`. In `orderbook.rs`. -/
structure MatchState (C : Type) where
  book : OrderBook C
  queue : EventQueue C
  baseRem : Nat
  quoteRem : Nat
  crossed : Bool
  deriving DecidableEq, Repr

variable {C : Type} [CallbackInfo C]

open CallbackInfo in
/-- `orderbook.rs` 137-273: the matching loop of `new_order`. Every iteration either leaves the loop
or decrements `match_limit` (216, 272), so it is structural on `match_limit`. -/
def matchLoop (p : NewOrderParams C) (minBase : Nat) : Nat → MatchState C → Res (MatchState C)
  | 0, st => .ok st                                                            -- 138-140
  | ml + 1, st => do
    let bbo ← st.book.findBbo p.side.opposite                                  -- 141
    match bbo with
    | none => .ok { st with crossed := false }                                 -- 142-145
    | some h => do
      let opp := st.book.getTree p.side.opposite                               -- 149
      let bo ← idx opp.leafNodes h                                             -- 151
      let tradePrice := bo.price                                               -- 153
      let crossed := crosses p.side p.limitPrice tradePrice                    -- 154-157
      let st := { st with crossed := crossed }
      if p.postOnly || !crossed then .ok st                                    -- 159-161
      else
      let offerSize := bo.baseQuantity
      let baseTradeQty :=
        min (min offerSize st.baseRem) ((fp32Div st.quoteRem bo.price).getD u64Max)  -- 163-166
      if baseTradeQty = 0 then .ok st                                          -- 168-170
      else
      match fp32Value p.side baseTradeQty tradePrice with                      -- 172-177
      | none => .error (.ao .numericalOverflow)
      | some q => do
      let quoteMakerQty := min q st.quoteRem
      if quoteMakerQty = 0 then .ok st                                         -- 179-181
      else do
      let wouldSelfTrade ←                                                     -- 185-187
        (if p.selfTradeBehavior ≠ .decrementTake then do
          let c ← idx opp.callbackInfos h
          .ok (decide (asCallbackId p.callbackInfo = asCallbackId c))
        else .ok false : Res Bool)
      if wouldSelfTrade then                                                   -- 188-219
        if p.selfTradeBehavior = .abortTransaction then .error (.ao .wouldSelfTrade)
        else do
          let c ← idx opp.callbackInfos h
          let provideOut : OutEvent :=
            { side := p.side.opposite.toU8, orderId := bo.orderId, baseSize := bo.baseQuantity,
              tag := TAG_OUT, padding := List.replicate 14 0 }
          let queue ← st.queue.push (.out provideOut) (some c) none
          let (r, opp) ← opp.removeByKey bo.orderId
          let _ ← unwrap r
          matchLoop p minBase ml
            { st with book := st.book.setTree p.side.opposite opp, queue := queue }
      else do
        let makerInfo ← idx opp.callbackInfos h                                -- 222
        let makerFill : FillEvent :=                                           -- 232-239
          { takerSide := p.side.toU8, makerOrderId := bo.orderId, quoteSize := quoteMakerQty,
            baseSize := baseTradeQty, tag := TAG_FILL, padding := List.replicate 6 0 }
        let queue ← st.queue.push (.fill makerFill) (some makerInfo) (some p.callbackInfo)
        let left ← subU bo.baseQuantity baseTradeQty                           -- 244
        let opp ← opp.setBaseQuantity h left
        let baseRem ← subU st.baseRem baseTradeQty                             -- 245
        let quoteRem ← subU st.quoteRem quoteMakerQty                          -- 246
        if left < minBase then do                                              -- 248-270
          let outEvent : OutEvent :=
            { side := p.side.opposite.toU8, orderId := bo.orderId, baseSize := left,
              tag := TAG_OUT, padding := List.replicate 14 0 }
          let (r, opp) ← opp.removeByKey bo.orderId
          let (_, c) ← unwrap r
          let queue ← queue.push (.out outEvent) (some c) none
          matchLoop p minBase ml
            { book := st.book.setTree p.side.opposite opp, queue := queue, baseRem := baseRem,
              quoteRem := quoteRem, crossed := crossed }
        else
          matchLoop p minBase ml
            { book := st.book.setTree p.side.opposite opp, queue := queue, baseRem := baseRem,
              quoteRem := quoteRem, crossed := crossed }

/-- `OrderSummary` returned without posting (281-286, 336-341). In `orderbook.rs`. -/
def summaryNotPosted (p : NewOrderParams C) (baseRem quoteRem : Nat) : Res OrderSummary := do
  let b ← subU p.maxBaseQty baseRem
  let q ← subU p.maxQuoteQty quoteRem
  .ok { postedOrderId := none, totalBaseQty := b, totalQuoteQty := q, totalBaseQtyPosted := 0 }

/-- Result of trying to put the new leaf into the own side (300-345). In `orderbook.rs`. -/
inductive PostResult (C : Type) where
  | posted (handle : Nat) (slab : Slab C) (queue : EventQueue C)
  | refused

/-- `orderbook.rs` 304-308: the least aggressive order of the side, candidate for eviction. -/
def bootCandidate (side : Side) (slab : Slab C) : Res (Option Nat) :=
  match side with
  | .bid => slab.findMin
  | .ask => slab.findMax

/-- `orderbook.rs` 312-315: is the candidate strictly worse than the new order? -/
def shouldBoot (side : Side) (candPrice limitPrice : Nat) : Bool :=
  match side with
  | .bid => decide (candPrice < limitPrice)
  | .ask => decide (candPrice > limitPrice)

/-- `insert_result.unwrap().0` (`orderbook.rs` 334, 344). -/
def unwrapInsert : Res ((Nat × Option LeafNode) × Slab C) → Res (Nat × Slab C)
  | .ok ((h, _), slab) => .ok (h, slab)
  | .error .diverge => .error .diverge
  | .error _ => .error .panic

/-- `orderbook.rs` 300-345: `insert_leaf`, and on `SlabOutOfSpace` the eviction of the least
aggressive order. Any other `Err` of `insert_leaf` would hit the `unwrap` of 344. When `insert_leaf` returns
`SlabOutOfSpace` it has written nothing (`allocate_leaf` fails before its first write, and nothing is written before it),
so the eviction works on `slab` as it was. -/
def postLeaf (side : Side) (limitPrice : Nat) (slab : Slab C) (queue : EventQueue C)
    (newLeaf : LeafNode) : Res (PostResult C) :=
  match slab.insertLeaf newLeaf with
  | .error (.ao .slabOutOfSpace) => do                                         -- 301-343
      let cand ← bootCandidate side slab
      let cand ← unwrap cand
      let candLeaf ← idx slab.leafNodes cand
      let candKey := candLeaf.orderId
      let candPrice := priceFromKey candKey
      if shouldBoot side candPrice limitPrice then do
        let (r, slab) ← slab.removeByKey candKey
        let (order, c) ← unwrap r
        let out : OutEvent :=
          { side := side.toU8, orderId := order.orderId, baseSize := order.baseQuantity,
            tag := TAG_OUT, padding := List.replicate 14 0 }
        let queue ← queue.push (.out out) (some c) none
        let (h, slab) ← unwrapInsert (slab.insertLeaf newLeaf)                 -- 334
        .ok (.posted h slab queue)
      else .ok .refused
  | r => do                                                                    -- 344
      let (h, slab) ← unwrapInsert r
      .ok (.posted h slab queue)

/-- `orderbook.rs` 114-359: `OrderBookState::new_order`. Returns the summary, the new book and the
new queue. -/
def OrderBook.newOrder (book : OrderBook C) (p : NewOrderParams C) (queue : EventQueue C)
    (minBase : Nat) : Res (OrderSummary × OrderBook C × EventQueue C) := do
  let st ← matchLoop p minBase p.matchLimit
    { book := book, queue := queue, baseRem := p.maxBaseQty, quoteRem := p.maxQuoteQty,
      crossed := true }
  let baseQtyToPost := min ((fp32Div st.quoteRem p.limitPrice).getD u64Max) st.baseRem  -- 275-278
  if st.crossed || !p.postAllowed || decide (baseQtyToPost < minBase) then do           -- 280-287
    let sum ← summaryNotPosted p st.baseRem st.quoteRem
    .ok (sum, st.book, st.queue)
  else do
    let (newId, queue) ← st.queue.genOrderId p.limitPrice p.side                        -- 289
    let newLeaf : LeafNode := { key := newId, baseQuantity := baseQtyToPost }           -- 290-299
    match ← postLeaf p.side p.limitPrice (st.book.getTree p.side) queue newLeaf with
    | .refused => do                                                                    -- 336-341
        let sum ← summaryNotPosted p st.baseRem st.quoteRem
        .ok (sum, st.book, queue)
    | .posted h slab queue => do
        let slab ← slab.setCallbackInfo h p.callbackInfo                                -- 346
        let baseRem ← subU st.baseRem baseQtyToPost                                     -- 347
        match fp32Value p.side baseQtyToPost p.limitPrice with                          -- 348-352
        | none => .error (.ao .numericalOverflow)
        | some q => do
            let quoteRem ← subU st.quoteRem q
            let b ← subU p.maxBaseQty baseRem
            let qt ← subU p.maxQuoteQty quoteRem
            .ok ({ postedOrderId := some newId, totalBaseQty := b, totalQuoteQty := qt,
                   totalBaseQtyPosted := baseQtyToPost },
                 st.book.setTree p.side slab, queue)

end AOB
