import Verif.Model.Market
/-
The work of an instruction: the same functions as in `Critbit.lean`, `Orderbook.lean` and `Market.lean`, which also count
how often the body of a loop is entered. The loops of the instructions are the descents of `find_min_max`, `insert_leaf`
and `remove_by_key`, the matching loop of `new_order` and the loop over the ids of `mass_cancel_orders`; everything
else they do is straight-line code. (`program/benches/deep_ob.rs` measures this work on deep books.)

That the counted functions compute what the model's functions compute is proved in `Proofs/CostErase.lean`; nothing here
is trusted to be a faithful copy.
-/
namespace AOB

/-- A computation and the number of loop rounds it took, also when it failed.
No counterpart in the code: an observation of the loops of `critbit.rs`, `event_queue.rs`, `orderbook.rs` and `mass_cancel_orders.rs`. -/
structure Tick (α : Type) where
  res : Res α
  cost : Nat

namespace Tick

/-- Code without loops.
Every statement of `orderbook.rs` 114-359 that is neither a loop nor a call of a function with one. -/
def free {α : Type} (x : Res α) : Tick α := ⟨x, 0⟩

/-- `let a ← x; f a`: what comes after a failure is not executed and not counted. As `?` does (`orderbook.rs` 210). -/
def bind {α β : Type} (x : Tick α) (f : α → Tick β) : Tick β :=
  match x.res with
  | .ok a => ⟨(f a).res, x.cost + (f a).cost⟩
  | .error e => ⟨.error e, x.cost⟩

instance : Monad Tick where
  pure a := free (.ok a)
  bind := bind

/-- One more round of a loop. As of `orderbook.rs` 137, `critbit.rs` 243, 370, 422. -/
def round {α : Type} (x : Tick α) : Tick α := ⟨x.res, x.cost + 1⟩

/-- Look at the result without propagating its error. As `if let Err(..) = insert_result` (`orderbook.rs` 301). -/
def attempt {α : Type} (x : Tick α) : Tick (Res α) := ⟨.ok x.res, x.cost⟩

end Tick

open Tick

namespace Slab
variable {C : Type}

/-- `critbit.rs` 243-282, counted (`Slab.insertWalk`). -/
def insertWalkT (s : Slab C) (newKey : Nat) : Nat → Nat → Option (Nat × Bool) → Tick InsertStop
  | 0, _, _ => free (.error .diverge)
  | fuel + 1, root, parent => round <|
    if isInnerHandle root then do
      let rootNode ← free (idx s.innerNodes (notU32 root))
      let sharedPrefixLen := leadingZeros (rootNode.key ^^^ newKey)
      if sharedPrefixLen ≥ rootNode.prefixLen % U32 then do
        let r ← free (rootNode.walkDown newKey)
        insertWalkT s newKey fuel r.1 (some (root, r.2))
      else
        free (.ok (.split root parent sharedPrefixLen))
    else do
      let rootNode ← free (idx s.leafNodes root)
      if rootNode.key = newKey then free (.ok (.clobber root))
      else free (.ok (.split root parent (leadingZeros (rootNode.key ^^^ newKey))))

/-- `critbit.rs` 267-272 and 284-316: what `insert_leaf` does after its descent (as in `Slab.insertLeaf`), no loop. -/
def insertAt (s : Slab C) (newLeaf : LeafNode) (stop : InsertStop) : Res ((Nat × Option LeafNode) × Slab C) :=
  match stop with
  | .clobber root => do
      let old ← idx s.leafNodes root
      let leaves ← setIdx s.leafNodes root newLeaf
      .ok ((root, some old), { s with leafNodes := leaves })
  | .split root parent shared => do
      let mask ← critBitMask shared
      let newLeafCritBit : Bool := !(mask &&& newLeaf.key == 0)
      let oldRootCritBit := !newLeafCritBit
      let (h, s) ← mapIoSlabFull s.allocateLeaf
      let leaves ← setIdx s.leafNodes h newLeaf
      let s := { s with leafNodes := leaves }
      let (ih, s) ← unwrapIo s.allocateInnerNode
      let n ← idx s.innerNodes (notU32 ih)
      let n := { n with prefixLen := shared, key := newLeaf.key }
      let n := n.setChild newLeafCritBit h
      let n := n.setChild oldRootCritBit root
      let inners ← setIdx s.innerNodes (notU32 ih) n
      let s := { s with innerNodes := inners }
      let s ← s.relink parent ih
      let cnt ← addU32 s.header.leafCount 1
      .ok ((h, none), { s with header := { s.header with leafCount := cnt } })

/-- `critbit.rs` 227-318: `insert_leaf`, counted (`Slab.insertLeaf`). -/
def insertLeafT (s : Slab C) (newLeaf : LeafNode) : Tick ((Nat × Option LeafNode) × Slab C) :=
  if s.header.leafCount = 0 then free (s.insertLeaf newLeaf)
  else do
    let stop ← insertWalkT s newLeaf.key (s.innerNodes.length + 1) s.header.rootNode none
    free (s.insertAt newLeaf stop)

/-- `critbit.rs` 370-397, counted (`Slab.removeWalk`). -/
def removeWalkT (s : Slab C) (searchKey : Nat) : Nat → RemoveRegs → Tick (Option RemoveRegs)
  | 0, _ => free (.error .diverge)
  | fuel + 1, r => round <|
    if isInnerHandle r.child then do
      let inner ← free (idx s.innerNodes (notU32 r.child))
      let w ← free (inner.walkDown searchKey)
      removeWalkT s searchKey fuel
        { grandparent := some (r.parent, r.critBit), parent := r.child, child := w.1, critBit := w.2 }
    else do
      let leaf ← free (idx s.leafNodes r.child)
      if leaf.key ≠ searchKey then free (.ok none) else free (.ok (some r))

/-- `critbit.rs` 342-362: the node of `remove_by_key` looked at before its loop (as in `Slab.removeByKey`). -/
def removeStart (s : Slab C) (searchKey : Nat) : Res (Option LeafNode × RemoveRegs) :=
  if isInnerHandle s.header.rootNode then do
    let node ← idx s.innerNodes (notU32 s.header.rootNode)
    let w ← node.walkDown searchKey
    .ok (none, { grandparent := none, parent := s.header.rootNode, child := w.1, critBit := w.2 })
  else do
    let leaf ← idx s.leafNodes s.header.rootNode
    .ok (if leaf.key = searchKey then some leaf else none,
         { grandparent := none, parent := s.header.rootNode, child := 0, critBit := false })

/-- `critbit.rs` 363-369: the root is the leaf to be removed (as in `Slab.removeByKey`). -/
def removeRoot (s : Slab C) (leafCopy : LeafNode) : Res (Option (LeafNode × C) × Slab C) := do
  let parentH := s.header.rootNode
  let s ← s.freeLeaf parentH
  let s := { s with header := { s.header with rootNode := 0, leafCount := 0 } }
  let c ← s.getCallbackInfo parentH
  .ok (some (leafCopy, c), s)

/-- `critbit.rs` 398-414: what `remove_by_key` does after its loop (as in `Slab.removeByKey`). -/
def removeAt (s : Slab C) (stop : Option RemoveRegs) : Res (Option (LeafNode × C) × Slab C) :=
  match stop with
  | none => .ok (none, s)
  | some r => do
      let pn ← idx s.innerNodes (notU32 r.parent)
      let otherChild := pn.child (!r.critBit)
      let s ← s.relink r.grandparent otherChild
      let cnt ← subU s.header.leafCount 1
      let s := { s with header := { s.header with leafCount := cnt } }
      let removed ← idx s.leafNodes r.child
      let s ← s.freeLeaf r.child
      let s ← s.freeInnerNode r.parent
      let c ← s.getCallbackInfo r.child
      .ok (some (removed, c), s)

/-- `critbit.rs` 330-415: `remove_by_key`, counted (`Slab.removeByKey`). -/
def removeByKeyT (s : Slab C) (searchKey : Nat) : Tick (Option (LeafNode × C) × Slab C) :=
  if s.header.leafCount = 0 then free (.ok (none, s))
  else do
    let start ← free (s.removeStart searchKey)
    match start.1 with
    | some leafCopy => free (s.removeRoot leafCopy)
    | none => do
        let stop ← removeWalkT s searchKey (s.innerNodes.length + 1) start.2
        free (s.removeAt stop)

/-- `critbit.rs` 421-430, counted (`Slab.findMinMaxWalk`). -/
def findMinMaxWalkT (s : Slab C) (findMax : Bool) : Nat → Nat → Tick Nat
  | 0, _ => free (.error .diverge)
  | fuel + 1, root => round <|
    if isInnerHandle root then do
      let node ← free (idx s.innerNodes (notU32 root))
      findMinMaxWalkT s findMax fuel (node.child findMax)
    else free (.ok root)

/-- `critbit.rs` 417-431: `find_min_max`, counted (`Slab.findMinMax`). -/
def findMinMaxT (s : Slab C) (findMax : Bool) : Tick (Option Nat) :=
  if s.header.leafCount = 0 then free (.ok none)
  else do
    let h ← findMinMaxWalkT s findMax (s.innerNodes.length + 1) s.header.rootNode
    free (.ok (some h))

end Slab

variable {C : Type}

/-- `orderbook.rs` 79-84: `find_bbo`, counted (`OrderBook.findBbo`). -/
def OrderBook.findBboT (b : OrderBook C) (side : Side) : Tick (Option Nat) :=
  match side with
  | .bid => b.bids.findMinMaxT true
  | .ask => b.asks.findMinMaxT false

variable [CallbackInfo C]

open CallbackInfo in
/-- `orderbook.rs` 137-273: the matching loop of `new_order`, counted (`matchLoop`). The test of `match_limit` (138) is
not counted as a round. -/
def matchLoopT (p : NewOrderParams C) (minBase : Nat) : Nat → MatchState C → Tick (MatchState C)
  | 0, st => free (.ok st)
  | ml + 1, st => round <| do
    let bbo ← st.book.findBboT p.side.opposite
    match bbo with
    | none => free (.ok { st with crossed := false })
    | some h => do
      let opp := st.book.getTree p.side.opposite
      let bo ← free (idx opp.leafNodes h)
      let tradePrice := bo.price
      let crossed := crosses p.side p.limitPrice tradePrice
      let st := { st with crossed := crossed }
      if p.postOnly || !crossed then free (.ok st)
      else
      let offerSize := bo.baseQuantity
      let baseTradeQty :=
        min (min offerSize st.baseRem) ((fp32Div st.quoteRem bo.price).getD u64Max)
      if baseTradeQty = 0 then free (.ok st)
      else
      match fp32Value p.side baseTradeQty tradePrice with
      | none => free (.error (.ao .numericalOverflow))
      | some q =>
      let quoteMakerQty := min q st.quoteRem
      if quoteMakerQty = 0 then free (.ok st)
      else do
      let wouldSelfTrade ← free
        (if p.selfTradeBehavior ≠ .decrementTake then do
          let c ← idx opp.callbackInfos h
          .ok (decide (asCallbackId p.callbackInfo = asCallbackId c))
        else .ok false : Res Bool)
      if wouldSelfTrade then
        if p.selfTradeBehavior = .abortTransaction then free (.error (.ao .wouldSelfTrade))
        else do
          let c ← free (idx opp.callbackInfos h)
          let provideOut : OutEvent :=
            { side := p.side.opposite.toU8, orderId := bo.orderId, baseSize := bo.baseQuantity,
              tag := TAG_OUT, padding := List.replicate 14 0 }
          let queue ← free (st.queue.push (.out provideOut) (some c) none)
          let x ← opp.removeByKeyT bo.orderId
          let _ ← free (unwrap x.1)
          matchLoopT p minBase ml
            { st with book := st.book.setTree p.side.opposite x.2, queue := queue }
      else do
        let makerInfo ← free (idx opp.callbackInfos h)
        let makerFill : FillEvent :=
          { takerSide := p.side.toU8, makerOrderId := bo.orderId, quoteSize := quoteMakerQty,
            baseSize := baseTradeQty, tag := TAG_FILL, padding := List.replicate 6 0 }
        let queue ← free (st.queue.push (.fill makerFill) (some makerInfo) (some p.callbackInfo))
        let left ← free (subU bo.baseQuantity baseTradeQty)
        let opp ← free (opp.setBaseQuantity h left)
        let baseRem ← free (subU st.baseRem baseTradeQty)
        let quoteRem ← free (subU st.quoteRem quoteMakerQty)
        if left < minBase then do
          let outEvent : OutEvent :=
            { side := p.side.opposite.toU8, orderId := bo.orderId, baseSize := left,
              tag := TAG_OUT, padding := List.replicate 14 0 }
          let x ← opp.removeByKeyT bo.orderId
          let y ← free (unwrap x.1)
          let queue ← free (queue.push (.out outEvent) (some y.2) none)
          matchLoopT p minBase ml
            { book := st.book.setTree p.side.opposite x.2, queue := queue, baseRem := baseRem,
              quoteRem := quoteRem, crossed := crossed }
        else
          matchLoopT p minBase ml
            { book := st.book.setTree p.side.opposite opp, queue := queue, baseRem := baseRem,
              quoteRem := quoteRem, crossed := crossed }

omit [CallbackInfo C]

/-- `orderbook.rs` 304-308, counted (`bootCandidate`). -/
def bootCandidateT (side : Side) (slab : Slab C) : Tick (Option Nat) :=
  match side with
  | .bid => slab.findMinMaxT false
  | .ask => slab.findMinMaxT true

/-- `orderbook.rs` 300-345, counted (`postLeaf`). -/
def postLeafT (side : Side) (limitPrice : Nat) (slab : Slab C) (queue : EventQueue C)
    (newLeaf : LeafNode) : Tick (PostResult C) := do
  let first ← attempt (slab.insertLeafT newLeaf)
  match first with
  | .error (.ao .slabOutOfSpace) => do
      let cand ← bootCandidateT side slab
      let cand ← free (unwrap cand)
      let candLeaf ← free (idx slab.leafNodes cand)
      let candKey := candLeaf.orderId
      let candPrice := priceFromKey candKey
      if shouldBoot side candPrice limitPrice then do
        let x ← slab.removeByKeyT candKey
        let y ← free (unwrap x.1)
        let out : OutEvent :=
          { side := side.toU8, orderId := y.1.orderId, baseSize := y.1.baseQuantity,
            tag := TAG_OUT, padding := List.replicate 14 0 }
        let queue ← free (queue.push (.out out) (some y.2) none)
        let again ← attempt (x.2.insertLeafT newLeaf)
        let z ← free (unwrapInsert again)
        free (.ok (.posted z.1 z.2 queue))
      else free (.ok .refused)
  | r => do
      let z ← free (unwrapInsert r)
      free (.ok (.posted z.1 z.2 queue))

variable [CallbackInfo C]

/-- `orderbook.rs` 114-359: `new_order`, counted (`OrderBook.newOrder`). -/
def OrderBook.newOrderT (book : OrderBook C) (p : NewOrderParams C) (queue : EventQueue C)
    (minBase : Nat) : Tick (OrderSummary × OrderBook C × EventQueue C) := do
  let st ← matchLoopT p minBase p.matchLimit
    { book := book, queue := queue, baseRem := p.maxBaseQty, quoteRem := p.maxQuoteQty,
      crossed := true }
  let baseQtyToPost := min ((fp32Div st.quoteRem p.limitPrice).getD u64Max) st.baseRem
  if st.crossed || !p.postAllowed || decide (baseQtyToPost < minBase) then do
    let sum ← free (summaryNotPosted p st.baseRem st.quoteRem)
    free (.ok (sum, st.book, st.queue))
  else do
    let g ← free (st.queue.genOrderId p.limitPrice p.side)
    let newLeaf : LeafNode := { key := g.1, baseQuantity := baseQtyToPost }
    let posted ← postLeafT p.side p.limitPrice (st.book.getTree p.side) g.2 newLeaf
    match posted with
    | .refused => do
        let sum ← free (summaryNotPosted p st.baseRem st.quoteRem)
        free (.ok (sum, st.book, g.2))
    | .posted h slab queue => free do
        let slab ← slab.setCallbackInfo h p.callbackInfo
        let baseRem ← subU st.baseRem baseQtyToPost
        match fp32Value p.side baseQtyToPost p.limitPrice with
        | none => .error (.ao .numericalOverflow)
        | some q => do
            let quoteRem ← subU st.quoteRem q
            let b ← subU p.maxBaseQty baseRem
            let qt ← subU p.maxQuoteQty quoteRem
            .ok ({ postedOrderId := some g.1, totalBaseQty := b, totalQuoteQty := qt,
                   totalBaseQtyPosted := baseQtyToPost },
                 st.book.setTree p.side slab, queue)

namespace Market

/-- `new_order.rs` 132-155, counted (`Market.newOrder`). -/
def newOrderT (m : Market C) (p : NewOrderParams C) : Tick (OrderSummary × Market C) := do
  let r ← free (remU p.limitPrice m.tickSize)
  if r ≠ 0 then free (.error (.ao .invalidLimitPrice))
  else if p.postAllowed && decide (p.limitPrice < m.tickSize) then
    free (.error (.ao .invalidLimitPrice))
  else do
    let x ← m.book.newOrderT p m.queue m.minBaseOrderSize
    free (.ok (x.1, { m with book := x.2.1, queue := x.2.2 }))

omit [CallbackInfo C]

/-- `cancel_order.rs` 95-110, counted (`Market.cancelOrder`). -/
def cancelOrderT (m : Market C) (orderId : Nat) : Tick (OrderSummary × Market C) := do
  let side := getSideFromOrderId orderId
  let x ← (m.book.getTree side).removeByKeyT orderId
  match x.1 with
  | none => free (.error (.ao .orderNotFound))
  | some y =>
    match fp32MulFloor y.1.baseQuantity y.1.price with
    | none => free (.error (.ao .numericalOverflow))
    | some quote =>
      free (.ok ({ postedOrderId := none, totalBaseQty := y.1.baseQuantity, totalQuoteQty := quote,
                   totalBaseQtyPosted := 0 }, { m with book := m.book.setTree side x.2 }))

/-- `mass_cancel_orders.rs` 100-107, counted (`Market.massCancelLoop`). -/
def massCancelLoopT : List Nat → Nat → Nat → OrderBook C → Tick (Nat × Nat × OrderBook C)
  | [], base, quote, book => free (.ok (base, quote, book))
  | orderId :: rest, base, quote, book => round <| do
    let side := getSideFromOrderId orderId
    let x ← (book.getTree side).removeByKeyT orderId
    match x.1 with
    | none => free (.error (.ao .orderNotFound))
    | some y => do
      let base ← free (addU64 base y.1.baseQuantity)
      let v ← free (unwrap (fp32MulFloor y.1.baseQuantity y.1.price))
      let quote ← free (addU64 v quote)
      massCancelLoopT rest base quote (book.setTree side x.2)

/-- `mass_cancel_orders.rs` 97-116, counted (`Market.massCancelOrders`). -/
def massCancelOrdersT (m : Market C) (orderIds : List Nat) : Tick (OrderSummary × Market C) := do
  let x ← massCancelLoopT orderIds 0 0 m.book
  free (.ok ({ postedOrderId := none, totalBaseQty := x.1, totalQuoteQty := x.2.1,
               totalBaseQtyPosted := 0 }, { m with book := x.2.2 }))

variable [CallbackInfo C]

/-- `processor.rs` 33-75, counted (`Market.exec`). `consume_events` has no loop (`pop_n`, `event_queue.rs` 275-281). -/
def execT (m : Market C) : Instr C → Tick (Option OrderSummary × Market C)
  | .newOrder p => do
      let x ← m.newOrderT p
      free (.ok (some x.1, x.2))
  | .cancelOrder id => do
      let x ← m.cancelOrderT id
      free (.ok (some x.1, x.2))
  | .massCancelOrders ids => do
      let x ← m.massCancelOrdersT ids
      free (.ok (some x.1, x.2))
  | .consumeEvents n => do
      let m ← free (m.consumeEvents n)
      free (.ok (none, m))

end Market
end AOB
