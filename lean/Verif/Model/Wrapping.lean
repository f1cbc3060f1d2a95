import Verif.Model.Accounts
/-
The program built without overflow checks (`cargo build-sbf` builds in release mode, and neither `Cargo.toml` nor any
other file of the repository turns `overflow-checks` on): `+`, `-`, `*` and the amount of a shift wrap around. This file
repeats, function by function, the part of the model in which such an operation occurs, directly or in a function
called. Everything else is the same in both builds and is taken from the other files: indexing, `unwrap`, `checked_add`
(`mass_cancel_orders.rs` 103-106, `event_queue.rs` 255) and a zero divisor panic in either build.
-/
namespace AOB.Wrapping

/-- `a + b` on `u32`, wrapping. As in `critbit.rs` 175, 194, 236 in a build without overflow checks. -/
def addU32 (a b : Nat) : Res Nat := .ok ((a + b) % U32)
/-- `a - b` on `u32`, wrapping. As in `critbit.rs` 183, 410 in such a build. -/
def subU32 (a b : Nat) : Res Nat := .ok (if b ≤ a then a - b else a + U32 - b)
/-- `a + b` on `u64`/`usize`, wrapping. As in `event_queue.rs` 189, 192, 241 in such a build. -/
def addU64 (a b : Nat) : Res Nat := .ok ((a + b) % U64)
/-- `a - b` on `u64`/`usize`, wrapping. As in `orderbook.rs` 216, 272 in such a build. -/
def subU64 (a b : Nat) : Res Nat := .ok (if b ≤ a then a - b else a + U64 - b)
/-- `a * b` on `u64`/`usize`, wrapping. As in `critbit.rs` 148 in such a build. -/
def mulU64 (a b : Nat) : Res Nat := .ok ((a * b) % U64)

/-- `utils.rs` 54-61: `round_price`. -/
def roundPrice (tickSize limitPrice : Nat) (side : Side) : Res Nat :=
  match side with
  | .bid => do
      let q ← divU limitPrice tickSize
      mulU64 tickSize q
  | .ask => do
      let a ← addU64 limitPrice tickSize
      let b ← subU64 a 1
      let q ← divU b tickSize
      mulU64 tickSize q

/-! ### `critbit.rs` -/

/-- `(1u128 << 127) >> p`, `critbit.rs` 95, 285: the amount is taken modulo 128. -/
def critBitMask (p : Nat) : Res Nat := .ok ((1 <<< 127) >>> (p % 128))

/-- `critbit.rs` 94-98: `InnerNode::walk_down`. -/
def walkDown (n : InnerNode) (searchKey : Nat) : Res (Nat × Bool) := do
  let mask ← critBitMask n.prefixLen
  let critBit : Bool := !(searchKey &&& mask == 0)
  .ok (n.child critBit, critBit)

section
variable {C : Type}

/-- `critbit.rs` 169-186: `allocate_leaf`. -/
def allocateLeaf (s : Slab C) : Res (Nat × Slab C) :=
  if s.header.leafFreeListLen = 0 then
    if s.header.leafBumpIndex ≥ s.leafNodes.length then .error .io
    else do
      let key := s.header.leafBumpIndex
      let b ← addU32 s.header.leafBumpIndex 1
      .ok (key, { s with header := { s.header with leafBumpIndex := b } })
  else do
    let key := s.header.leafFreeListHead
    let freeLeaf ← idx s.leafNodes key
    let next := freeLeaf.baseQuantity % U32
    let len ← subU32 s.header.leafFreeListLen 1
    .ok (key, { s with header := { s.header with leafFreeListHead := next, leafFreeListLen := len } })

/-- `critbit.rs` 188-196: `free_leaf`. -/
def freeLeaf (s : Slab C) (handle : Nat) : Res (Slab C) := do
  let leaves ←
    (if s.header.leafFreeListLen ≠ 0 then do
      let next := s.header.leafFreeListHead
      let n ← idx s.leafNodes handle
      setIdx s.leafNodes handle { n with baseQuantity := next }
    else .ok s.leafNodes : Res (List LeafNode))
  let len ← addU32 s.header.leafFreeListLen 1
  .ok { s with leafNodes := leaves,
               header := { s.header with leafFreeListLen := len, leafFreeListHead := handle } }

/-- `critbit.rs` 198-215: `allocate_inner_node`. -/
def allocateInnerNode (s : Slab C) : Res (Nat × Slab C) :=
  if s.header.innerNodeFreeListLen = 0 then
    if s.header.innerNodeBumpIndex ≥ s.innerNodes.length then .error .io
    else do
      let key := s.header.innerNodeBumpIndex
      let b ← addU32 s.header.innerNodeBumpIndex 1
      .ok (notU32 key, { s with header := { s.header with innerNodeBumpIndex := b } })
  else do
    let key := s.header.innerNodeFreeListHead
    let freeInner ← idx s.innerNodes key
    let next := freeInner.prefixLen % U32
    let len ← subU32 s.header.innerNodeFreeListLen 1
    .ok (notU32 key,
      { s with header := { s.header with innerNodeFreeListHead := next, innerNodeFreeListLen := len } })

/-- `critbit.rs` 217-225: `free_inner_node`. -/
def freeInnerNode (s : Slab C) (handle : Nat) : Res (Slab C) := do
  let inners ←
    (if s.header.innerNodeFreeListLen ≠ 0 then do
      let next := s.header.innerNodeFreeListHead
      let n ← idx s.innerNodes (notU32 handle)
      setIdx s.innerNodes (notU32 handle) { n with prefixLen := next }
    else .ok s.innerNodes : Res (List InnerNode))
  let len ← addU32 s.header.innerNodeFreeListLen 1
  .ok { s with innerNodes := inners,
               header := { s.header with innerNodeFreeListLen := len,
                                         innerNodeFreeListHead := notU32 handle } }

/-- `critbit.rs` 243-282: the descent of `insert_leaf`. -/
def insertWalk (s : Slab C) (newKey : Nat) : Nat → Nat → Option (Nat × Bool) → Res Slab.InsertStop
  | 0, _, _ => .error .diverge
  | fuel + 1, root, parent =>
    if isInnerHandle root then do
      let rootNode ← idx s.innerNodes (notU32 root)
      let sharedPrefixLen := leadingZeros (rootNode.key ^^^ newKey)
      if sharedPrefixLen ≥ rootNode.prefixLen % U32 then do
        let r ← walkDown rootNode newKey
        insertWalk s newKey fuel r.1 (some (root, r.2))
      else
        .ok (.split root parent sharedPrefixLen)
    else do
      let rootNode ← idx s.leafNodes root
      if rootNode.key = newKey then .ok (.clobber root)
      else .ok (.split root parent (leadingZeros (rootNode.key ^^^ newKey)))

/-- `critbit.rs` 227-318: `insert_leaf`. -/
def insertLeaf (s : Slab C) (newLeaf : LeafNode) : Res ((Nat × Option LeafNode) × Slab C) :=
  if s.header.leafCount = 0 then do
    let (h, s) ← Slab.mapIoSlabFull (allocateLeaf s)
    let leaves ← setIdx s.leafNodes h newLeaf
    let cnt ← addU32 s.header.leafCount 1
    .ok ((h, none), { s with leafNodes := leaves,
                             header := { s.header with rootNode := h, leafCount := cnt } })
  else do
    let stop ← insertWalk s newLeaf.key (s.innerNodes.length + 1) s.header.rootNode none
    match stop with
    | .clobber root => do
        let old ← idx s.leafNodes root
        let leaves ← setIdx s.leafNodes root newLeaf
        .ok ((root, some old), { s with leafNodes := leaves })
    | .split root parent shared => do
        let mask ← critBitMask shared
        let newLeafCritBit : Bool := !(mask &&& newLeaf.key == 0)
        let oldRootCritBit := !newLeafCritBit
        let (h, s) ← Slab.mapIoSlabFull (allocateLeaf s)
        let leaves ← setIdx s.leafNodes h newLeaf
        let s := { s with leafNodes := leaves }
        let (ih, s) ← Slab.unwrapIo (allocateInnerNode s)
        let n ← idx s.innerNodes (notU32 ih)
        let n := { n with prefixLen := shared, key := newLeaf.key }
        let n := n.setChild newLeafCritBit h
        let n := n.setChild oldRootCritBit root
        let inners ← setIdx s.innerNodes (notU32 ih) n
        let s := { s with innerNodes := inners }
        let s ← s.relink parent ih
        let cnt ← addU32 s.header.leafCount 1
        .ok ((h, none), { s with header := { s.header with leafCount := cnt } })

/-- `critbit.rs` 370-397: the loop of `remove_by_key`. -/
def removeWalk (s : Slab C) (searchKey : Nat) : Nat → Slab.RemoveRegs → Res (Option Slab.RemoveRegs)
  | 0, _ => .error .diverge
  | fuel + 1, r =>
    if isInnerHandle r.child then do
      let inner ← idx s.innerNodes (notU32 r.child)
      let w ← walkDown inner searchKey
      removeWalk s searchKey fuel
        { grandparent := some (r.parent, r.critBit), parent := r.child, child := w.1, critBit := w.2 }
    else do
      let leaf ← idx s.leafNodes r.child
      if leaf.key ≠ searchKey then .ok none else .ok (some r)

/-- `critbit.rs` 330-415: `remove_by_key`. -/
def removeByKey (s : Slab C) (searchKey : Nat) : Res (Option (LeafNode × C) × Slab C) :=
  if s.header.leafCount = 0 then .ok (none, s)
  else do
    let parentH := s.header.rootNode
    let start ←
      (if isInnerHandle parentH then do
        let node ← idx s.innerNodes (notU32 parentH)
        let w ← walkDown node searchKey
        .ok (none, { grandparent := none, parent := parentH, child := w.1, critBit := w.2 })
      else do
        let leaf ← idx s.leafNodes parentH
        .ok (if leaf.key = searchKey then some leaf else none,
             { grandparent := none, parent := parentH, child := 0, critBit := false })
        : Res (Option LeafNode × Slab.RemoveRegs))
    match start.1 with
    | some leafCopy => do
        let s ← freeLeaf s parentH
        let s := { s with header := { s.header with rootNode := 0, leafCount := 0 } }
        let c ← s.getCallbackInfo parentH
        .ok (some (leafCopy, c), s)
    | none => do
        let stop ← removeWalk s searchKey (s.innerNodes.length + 1) start.2
        match stop with
        | none => .ok (none, s)
        | some r => do
            let pn ← idx s.innerNodes (notU32 r.parent)
            let otherChild := pn.child (!r.critBit)
            let s ← s.relink r.grandparent otherChild
            let cnt ← subU32 s.header.leafCount 1
            let s := { s with header := { s.header with leafCount := cnt } }
            let removed ← idx s.leafNodes r.child
            let s ← freeLeaf s r.child
            let s ← freeInnerNode s r.parent
            let c ← s.getCallbackInfo r.child
            .ok (some (removed, c), s)

/-! ### `event_queue.rs` -/

/-- `event_queue.rs` 178-203: `push_back`. The indices of the callback infos are below `2 * events.len()`. -/
def pushBack (q : EventQueue C) (event : AnyEvent) (maker taker : Option C) : Res (PushResult C) :=
  if q.full then .ok (.refused event)
  else do
    let sum ← addU64 q.header.head q.header.count
    let eventIdx ← remU sum q.events.length
    let events ← setIdx q.events eventIdx event.toGeneric
    let count ← addU64 q.header.count 1
    let infos ← EventQueue.storeInfo q.callbackInfos (eventIdx * 2) maker
    let infos ← EventQueue.storeInfo infos (eventIdx * 2 + 1) taker
    .ok (.pushed { header := { q.header with count := count }, events := events,
                   callbackInfos := infos })

/-- `.map_err(|_| AoError::EventQueueFull)?` at the call sites (`orderbook.rs` 208-210, 240-242, 267-269, 331-333). -/
def push (q : EventQueue C) (event : AnyEvent) (maker taker : Option C) : Res (EventQueue C) := do
  match ← pushBack q event maker taker with
  | .pushed q' => .ok q'
  | .refused _ => .error (.ao .eventQueueFull)

/-- `event_queue.rs` 239-243: `gen_seq_num`. -/
def genSeqNum (q : EventQueue C) : Res (Nat × EventQueue C) := do
  let next ← addU64 q.header.seqNum 1
  .ok (q.header.seqNum, { q with header := { q.header with seqNum := next } })

/-- `event_queue.rs` 229-237: `gen_order_id`. -/
def genOrderId (q : EventQueue C) (limitPrice : Nat) (side : Side) : Res (Nat × EventQueue C) := do
  let (seqNum, q) ← genSeqNum q
  let upper := limitPrice <<< 64
  let lower := match side with
    | .bid => U64 - 1 - seqNum
    | .ask => seqNum
  .ok (upper ||| lower, q)

/-- `event_queue.rs` 275-281: `pop_n`. -/
def popN (q : EventQueue C) (n : Nat) : Res (EventQueue C) := do
  let capped := min q.header.count n
  let count ← subU64 q.header.count capped
  let sum ← addU64 q.header.head capped
  let head ← remU sum q.events.length
  .ok { q with header := { q.header with count := count, head := head } }

/-! ### `orderbook.rs` -/

section
variable [CallbackInfo C]

open CallbackInfo in
/-- `orderbook.rs` 137-273: the matching loop of `new_order` (`match_limit` is positive where it is decremented). -/
def matchLoop (p : NewOrderParams C) (minBase : Nat) : Nat → MatchState C → Res (MatchState C)
  | 0, st => .ok st                                                            -- 138-140
  | ml + 1, st => do
    let bbo ← st.book.findBbo p.side.opposite                                  -- 141
    match bbo with
    | none => .ok { st with crossed := false }                                 -- 142-145
    | some h => do
      let opp := st.book.getTree p.side.opposite                               -- 149
      let bo ← idx opp.leafNodes h                                             -- 151
      let tradePrice := bo.price                                               -- 153
      let crossed := crosses p.side p.limitPrice tradePrice                    -- 154-157
      let st := { st with crossed := crossed }
      if p.postOnly || !crossed then .ok st                                    -- 159-161
      else
      let offerSize := bo.baseQuantity
      let baseTradeQty :=
        min (min offerSize st.baseRem) ((fp32Div st.quoteRem bo.price).getD u64Max)  -- 163-166
      if baseTradeQty = 0 then .ok st                                          -- 168-170
      else
      match fp32Value p.side baseTradeQty tradePrice with                      -- 172-177
      | none => .error (.ao .numericalOverflow)
      | some q => do
      let quoteMakerQty := min q st.quoteRem
      if quoteMakerQty = 0 then .ok st                                         -- 179-181
      else do
      let wouldSelfTrade ←                                                     -- 185-187
        (if p.selfTradeBehavior ≠ .decrementTake then do
          let c ← idx opp.callbackInfos h
          .ok (decide (asCallbackId p.callbackInfo = asCallbackId c))
        else .ok false : Res Bool)
      if wouldSelfTrade then                                                   -- 188-219
        if p.selfTradeBehavior = .abortTransaction then .error (.ao .wouldSelfTrade)
        else do
          let c ← idx opp.callbackInfos h
          let provideOut : OutEvent :=
            { side := p.side.opposite.toU8, orderId := bo.orderId, baseSize := bo.baseQuantity,
              tag := TAG_OUT, padding := List.replicate 14 0 }
          let queue ← push st.queue (.out provideOut) (some c) none
          let (r, opp) ← removeByKey opp bo.orderId
          let _ ← unwrap r
          matchLoop p minBase ml
            { st with book := st.book.setTree p.side.opposite opp, queue := queue }
      else do
        let makerInfo ← idx opp.callbackInfos h                                -- 222
        let makerFill : FillEvent :=                                           -- 232-239
          { takerSide := p.side.toU8, makerOrderId := bo.orderId, quoteSize := quoteMakerQty,
            baseSize := baseTradeQty, tag := TAG_FILL, padding := List.replicate 6 0 }
        let queue ← push st.queue (.fill makerFill) (some makerInfo) (some p.callbackInfo)
        let left ← subU64 bo.baseQuantity baseTradeQty                           -- 244
        let opp ← opp.setBaseQuantity h left
        let baseRem ← subU64 st.baseRem baseTradeQty                             -- 245
        let quoteRem ← subU64 st.quoteRem quoteMakerQty                          -- 246
        if left < minBase then do                                              -- 248-270
          let outEvent : OutEvent :=
            { side := p.side.opposite.toU8, orderId := bo.orderId, baseSize := left,
              tag := TAG_OUT, padding := List.replicate 14 0 }
          let (r, opp) ← removeByKey opp bo.orderId
          let (_, c) ← unwrap r
          let queue ← push queue (.out outEvent) (some c) none
          matchLoop p minBase ml
            { book := st.book.setTree p.side.opposite opp, queue := queue, baseRem := baseRem,
              quoteRem := quoteRem, crossed := crossed }
        else
          matchLoop p minBase ml
            { book := st.book.setTree p.side.opposite opp, queue := queue, baseRem := baseRem,
              quoteRem := quoteRem, crossed := crossed }

end

/-- `OrderSummary` returned without posting (281-286, 336-341). In `orderbook.rs`. -/
def summaryNotPosted (p : NewOrderParams C) (baseRem quoteRem : Nat) : Res OrderSummary := do
  let b ← subU64 p.maxBaseQty baseRem
  let q ← subU64 p.maxQuoteQty quoteRem
  .ok { postedOrderId := none, totalBaseQty := b, totalQuoteQty := q, totalBaseQtyPosted := 0 }

/-- `orderbook.rs` 300-345: `insert_leaf` and the eviction of the least aggressive order. -/
def postLeaf (side : Side) (limitPrice : Nat) (slab : Slab C) (queue : EventQueue C)
    (newLeaf : LeafNode) : Res (PostResult C) :=
  match insertLeaf slab newLeaf with
  | .error (.ao .slabOutOfSpace) => do                                         -- 301-343
      let cand ← bootCandidate side slab
      let cand ← unwrap cand
      let candLeaf ← idx slab.leafNodes cand
      let candKey := candLeaf.orderId
      let candPrice := priceFromKey candKey
      if shouldBoot side candPrice limitPrice then do
        let (r, slab) ← removeByKey slab candKey
        let (order, c) ← unwrap r
        let out : OutEvent :=
          { side := side.toU8, orderId := order.orderId, baseSize := order.baseQuantity,
            tag := TAG_OUT, padding := List.replicate 14 0 }
        let queue ← push queue (.out out) (some c) none
        let (h, slab) ← unwrapInsert (insertLeaf slab newLeaf)                 -- 334
        .ok (.posted h slab queue)
      else .ok .refused
  | r => do                                                                    -- 344
      let (h, slab) ← unwrapInsert r
      .ok (.posted h slab queue)

/-- `orderbook.rs` 114-359: `OrderBookState::new_order`. -/
def newOrderIn [CallbackInfo C] (book : OrderBook C) (p : NewOrderParams C) (queue : EventQueue C)
    (minBase : Nat) : Res (OrderSummary × OrderBook C × EventQueue C) := do
  let st ← matchLoop p minBase p.matchLimit
    { book := book, queue := queue, baseRem := p.maxBaseQty, quoteRem := p.maxQuoteQty,
      crossed := true }
  let baseQtyToPost := min ((fp32Div st.quoteRem p.limitPrice).getD u64Max) st.baseRem  -- 275-278
  if st.crossed || !p.postAllowed || decide (baseQtyToPost < minBase) then do           -- 280-287
    let sum ← summaryNotPosted p st.baseRem st.quoteRem
    .ok (sum, st.book, st.queue)
  else do
    let (newId, queue) ← genOrderId st.queue p.limitPrice p.side                        -- 289
    let newLeaf : LeafNode := { key := newId, baseQuantity := baseQtyToPost }           -- 290-299
    match ← postLeaf p.side p.limitPrice (st.book.getTree p.side) queue newLeaf with
    | .refused => do                                                                    -- 336-341
        let sum ← summaryNotPosted p st.baseRem st.quoteRem
        .ok (sum, st.book, queue)
    | .posted h slab queue => do
        let slab ← slab.setCallbackInfo h p.callbackInfo                                -- 346
        let baseRem ← subU64 st.baseRem baseQtyToPost                                     -- 347
        match fp32Value p.side baseQtyToPost p.limitPrice with                          -- 348-352
        | none => .error (.ao .numericalOverflow)
        | some q => do
            let quoteRem ← subU64 st.quoteRem q
            let b ← subU64 p.maxBaseQty baseRem
            let qt ← subU64 p.maxQuoteQty quoteRem
            .ok ({ postedOrderId := some newId, totalBaseQty := b, totalQuoteQty := qt,
                   totalBaseQtyPosted := baseQtyToPost },
                 st.book.setTree p.side slab, queue)

/-! ### `processor/*.rs` on one market -/

/-- `cancel_order.rs` 95-110 on the book. -/
def cancelIn (book : OrderBook C) (orderId : Nat) : Res (OrderSummary × OrderBook C) := do
  let side := getSideFromOrderId orderId
  let (r, slab) ← removeByKey (book.getTree side) orderId
  match r with
  | none => .error (.ao .orderNotFound)
  | some (leaf, _) =>
    match fp32MulFloor leaf.baseQuantity leaf.price with
    | none => .error (.ao .numericalOverflow)
    | some quote =>
      .ok ({ postedOrderId := none, totalBaseQty := leaf.baseQuantity, totalQuoteQty := quote,
             totalBaseQtyPosted := 0 }, book.setTree side slab)

/-- `mass_cancel_orders.rs` 100-107: the loop over `order_ids`; its additions are `checked_add`. -/
def massCancelLoop : List Nat → Nat → Nat → OrderBook C → Res (Nat × Nat × OrderBook C)
  | [], base, quote, book => .ok (base, quote, book)
  | orderId :: rest, base, quote, book => do
    let side := getSideFromOrderId orderId
    let (r, slab) ← removeByKey (book.getTree side) orderId
    match r with
    | none => .error (.ao .orderNotFound)
    | some (leaf, _) => do
      let base ← AOB.addU64 base leaf.baseQuantity                           -- 103
      let v ← unwrap (fp32MulFloor leaf.baseQuantity leaf.price)         -- 104-106
      let quote ← AOB.addU64 v quote
      massCancelLoop rest base quote (book.setTree side slab)

/-- `processor.rs` 33-75 on one market: `new_order.rs` 130-149, `cancel_order.rs` 95-110, `mass_cancel_orders.rs` 97-116
and `consume_events.rs` 82-95 (as `Market.exec`). -/
def exec [CallbackInfo C] (m : Market C) : Instr C → Res (Option OrderSummary × Market C)
  | .newOrder p => do
      let r ← remU p.limitPrice m.tickSize
      if r ≠ 0 then .error (.ao .invalidLimitPrice)
      else if p.postAllowed && decide (p.limitPrice < m.tickSize) then .error (.ao .invalidLimitPrice)
      else do
        let (sum, book, queue) ← newOrderIn m.book p m.queue m.minBaseOrderSize
        .ok (some sum, { m with book := book, queue := queue })
  | .cancelOrder id => do
      let (sum, book) ← cancelIn m.book id
      .ok (some sum, { m with book := book })
  | .massCancelOrders ids => do
      let (base, quote, book) ← massCancelLoop ids 0 0 m.book
      .ok (some { postedOrderId := none, totalBaseQty := base, totalQuoteQty := quote, totalBaseQtyPosted := 0 },
        { m with book := book })
  | .consumeEvents n => do
      let queue ← popN m.queue n
      .ok (none, { m with queue := queue })

/-- One transaction: a failed instruction leaves the accounts as they were (Solana runtime).
The instruction is processed by `processor.rs` 19-76. -/
def step [CallbackInfo C] (m : Market C) (i : Instr C) : Market C :=
  match exec m i with
  | .ok (_, m') => m'
  | .error _ => m

/-- A history of transactions. Each processed by `processor.rs` 19-76. -/
def run [CallbackInfo C] (m : Market C) (is : List (Instr C)) : Market C := is.foldl step m

end

/-! ### `from_buffer` -/

section
variable (C : Type) [Pod C]

/-- `split_at_mut(n)`: panics if `n` is beyond the end. (`critbit.rs` 146-149, `event_queue.rs` 166-168.) -/
def splitAt (b : Bytes) (n : Nat) : Res (Bytes × Bytes) :=
  if n ≤ b.length then .ok (b.take n, b.drop n) else .error .panic

/-- `critbit.rs` 137-158: `Slab::from_buffer`. In the other build the splits are always in range, here the capacity
computed from a buffer that is too short is huge. -/
def slabFromBuffer (buf : Bytes) (expected : AccountTag) : Res (Slab C) := do
  let leafSize := LeafNode.LEN + Pod.size C
  let a ← subU64 buf.length SlabHeader.LEN                                 -- 141
  let a ← subU64 a 8
  let a ← subU64 a leafSize
  let capacity := a / (leafSize + InnerNode.LEN)
  let tag ← idx buf 0
  if tag.toNat ≠ expected.toNat then .error (.ao .accountTagMismatch)      -- 143-145
  else do
    let (_, rem) ← splitAt buf 8                                           -- 146
    let (header, rem) ← splitAt rem SlabHeader.LEN                         -- 147
    let n ← addU64 capacity 1                                              -- 148
    let n ← mulU64 n LeafNode.LEN
    let (leaves, rem) ← splitAt rem n
    let n ← mulU64 capacity InnerNode.LEN                                  -- 149
    let (inners, infos) ← splitAt rem n
    let leafNodes ← castSlice LeafNode.LEN LeafNode.ofBytes leaves         -- 154-156
    let innerNodes ← castSlice InnerNode.LEN InnerNode.ofBytes inners
    let callbackInfos ← castSlice (Pod.size C) Pod.ofBytes infos
    .ok { header := SlabHeader.ofBytes header, leafNodes, innerNodes, callbackInfos }

/-- `event_queue.rs` 151-174: `EventQueue::from_buffer`. -/
def queueFromBuffer (buf : Bytes) (expected : AccountTag) : Res (EventQueue C × Bytes) := do
  let a ← subU64 buf.length 8                                              -- 157-158
  let a ← subU64 a EventQueueHeader.LEN
  let capacity := a / (FillEvent.LEN + 2 * Pod.size C)
  let tag ← readTag buf                                                    -- 159
  if tag ≠ expected.toNat then .error (.ao .accountTagMismatch)            -- 161-163
  else do
    let buf ← writeTag buf .eventQueue                                     -- 164
    let (header, rem) ← splitAt (buf.drop 8) EventQueueHeader.LEN          -- 166
    let n ← mulU64 capacity FillEvent.LEN                                  -- 168
    let (events, infos) ← splitAt rem n
    let es ← castSlice FillEvent.LEN FillEvent.ofBytes events              -- 171-172
    let cs ← castSlice (Pod.size C) Pod.ofBytes infos
    .ok ({ header := EventQueueHeader.ofBytes header, events := es, callbackInfos := cs }, buf)

/-- `orderbook.rs` 68-75: `OrderBookState::new_safe`. -/
def newSafe (bids asks : Bytes) : Res (OrderBook C) := do
  let b ← slabFromBuffer C bids .bids
  let a ← slabFromBuffer C asks .asks
  .ok { bids := b, asks := a }

/-! ### `processor/*.rs` on accounts -/

/-- `create_market.rs` 75-118. The subtraction of `check_buffer_size` (`event_queue.rs` 222) follows a comparison. -/
def createMarket (env : Env) (w : World) (a : BookAccounts) (p : CreateParams) : Res World := do
  checkAccountOwner w a.eventQueue env.programId .wrongEventQueueOwner
  checkAccountOwner w a.bids env.programId .wrongBidsOwner
  checkAccountOwner w a.asks env.programId .wrongAsksOwner
  checkRentExempt env w a.asks
  checkRentExempt env w a.bids
  checkRentExempt env w a.eventQueue
  checkRentExempt env w a.market
  if p.minBaseOrderSize = 0 ∨ p.tickSize = 0 then .error (.prog .invalidArgument)
  else do
    match EventQueue.checkBufferSize C (w a.eventQueue).data with                    -- 93: `.unwrap()`
    | .error _ => .error .panic
    | .ok () => do
      let held ← borrow [] a.market                                                  -- 95
      MarketState.checkBufferSize (w a.market).data
      let (_, md) ← MarketState.fromBuffer (w a.market).data .uninitialized           -- 98
      let md := MarketState.writeBack md
        { eventQueue := a.eventQueue, bids := a.bids, asks := a.asks, minBaseOrderSize := p.minBaseOrderSize,
          tickSize := p.tickSize }
      let held ← borrow held a.eventQueue                                            -- 108
      let (_, qd) ← queueFromBuffer C (w a.eventQueue).data .uninitialized      -- 110
      let held ← borrow held a.asks                                                  -- 113
      let _ ← borrow held a.bids
      let (ad, bd) ← Slab.initialize (w a.asks).data (w a.bids).data
      .ok ((((w.setData a.market md).setData a.eventQueue qd).setData a.asks ad).setData a.bids bd)

/-- `new_order.rs` 118-156. -/
def newOrder {C : Type} [Pod C] [CallbackInfo C] (env : Env) (w : World) (a : BookAccounts) (p : NewOrderParams C) :
    Res (OrderSummary × World) := do
  a.performChecks env w
  let held ← borrow [] a.market
  let (ms, md) ← MarketState.fromBuffer (w a.market).data .market
  a.checkAccounts ms
  Processor.checkTick ms p
  let held ← borrow held a.bids
  let held ← borrow held a.asks
  let book ← newSafe C (w a.bids).data (w a.asks).data
  let _ ← borrow held a.eventQueue
  let (queue, qd) ← queueFromBuffer C (w a.eventQueue).data .eventQueue
  let (sum, book, queue) ← newOrderIn book p queue ms.minBaseOrderSize
  .ok (sum, (((w.setData a.market md).setData a.bids (book.bids.writeBack (w a.bids).data)).setData a.asks
    (book.asks.writeBack (w a.asks).data)).setData a.eventQueue (queue.writeBack qd))

/-- `cancel_order.rs` 76-111. -/
def cancelOrder (env : Env) (w : World) (a : BookAccounts) (orderId : Nat) :
    Res (OrderSummary × World) := do
  a.performChecks env w
  let held ← borrow [] a.market
  let (ms, md) ← MarketState.fromBuffer (w a.market).data .market
  a.checkAccounts ms
  let held ← borrow held a.bids
  let _ ← borrow held a.asks
  let book ← newSafe C (w a.bids).data (w a.asks).data
  let (sum, book) ← cancelIn book orderId
  .ok (sum, ((w.setData a.market md).setData a.bids (book.bids.writeBack (w a.bids).data)).setData a.asks
    (book.asks.writeBack (w a.asks).data))

/-- `mass_cancel_orders.rs` 78-117. -/
def massCancelOrders (env : Env) (w : World) (a : BookAccounts) (orderIds : List Nat) :
    Res (OrderSummary × World) := do
  a.performChecks env w
  let held ← borrow [] a.market
  let (ms, md) ← MarketState.fromBuffer (w a.market).data .market
  a.checkAccounts ms
  let held ← borrow held a.bids
  let _ ← borrow held a.asks
  let book ← newSafe C (w a.bids).data (w a.asks).data
  let (base, quote, book) ← massCancelLoop orderIds 0 0 book
  .ok ({ postedOrderId := none, totalBaseQty := base, totalQuoteQty := quote, totalBaseQtyPosted := 0 },
    ((w.setData a.market md).setData a.bids (book.bids.writeBack (w a.bids).data)).setData a.asks
      (book.asks.writeBack (w a.asks).data))

/-- `consume_events.rs` 67-96. -/
def consumeEvents (env : Env) (w : World) (market eventQueue : Pubkey) (n : Nat) : Res World := do
  checkAccountOwner w market env.programId .wrongMarketOwner
  checkAccountOwner w eventQueue env.programId .wrongEventQueueOwner
  let held ← borrow [] market
  let (ms, md) ← MarketState.fromBuffer (w market).data .market
  checkAccountKey eventQueue ms.eventQueue .wrongEventQueueAccount
  checkAccountKey eventQueue ms.eventQueue .wrongEventQueueAccount
  let _ ← borrow held eventQueue
  let (queue, qd) ← queueFromBuffer C (w eventQueue).data .eventQueue
  let queue ← popN queue n
  .ok ((w.setData market md).setData eventQueue (queue.writeBack qd))

/-- `close_market.rs` 73-127: the lamports are summed with wrapping additions. -/
def closeMarket (env : Env) (w : World) (a : BookAccounts) (target : Pubkey) : Res World := do
  checkAccountOwner w a.market env.programId .wrongMarketOwner                       -- 63-70
  let held ← borrow [] a.market
  let (ms, md) ← MarketState.fromBuffer (w a.market).data .market
  a.checkAccounts ms
  let held ← borrow held a.bids
  let held ← borrow held a.asks
  match newSafe C (w a.bids).data (w a.asks).data with                     -- 91: `.unwrap()`
  | .error _ => .error .panic
  | .ok book =>
    if !book.isEmpty then .error (.ao .marketStillActive)
    else do
      let _ ← borrow held a.eventQueue
      let (queue, qd) ← queueFromBuffer C (w a.eventQueue).data .eventQueue
      if queue.header.count ≠ 0 then .error (.ao .marketStillActive)
      else do
        let md ← writeTag md .disabled                                               -- 106-109
        let ad ← writeTag (w a.asks).data .disabled
        let bd ← writeTag (w a.bids).data .disabled
        let qd ← writeTag qd .disabled
        let held ← borrow [] a.market                                                -- 111-116
        let held ← borrow held a.bids
        let held ← borrow held a.asks
        let held ← borrow held a.eventQueue
        let _ ← borrow held target
        let s ← addU64 (w a.market).lamports (w a.bids).lamports                     -- 118-119
        let s ← addU64 s (w a.asks).lamports
        let s ← addU64 s (w a.eventQueue).lamports
        let t ← addU64 (w target).lamports s
        let w := (((w.setData a.market md).setData a.asks ad).setData a.bids bd).setData a.eventQueue qd
        .ok (((((w.setLamports target t).setLamports a.market 0).setLamports a.bids 0).setLamports a.asks
          0).setLamports a.eventQueue 0)

/-- `processor.rs` 19-76. -/
def processInstruction (env : Env) [CallbackInfo C] [Borsh C]
    (w : World) (accounts : List Pubkey) (data : Bytes) : Res (Option OrderSummary × World) := do
  let t ← decodeTag data
  let rest := data.drop 1
  match t with
  | .createMarket => do
    let a ← BookAccounts.parse accounts
    let p ← tryFromSlice CreateParams.dec rest
    let w ← createMarket C env w a p
    .ok (none, w)
  | .newOrder => do
    let a ← BookAccounts.parse accounts
    let p : NewOrderParams C ← tryFromSlice decNewOrder rest
    let (s, w) ← newOrder env w a p
    .ok (some s, w)
  | .consumeEvents => do
    let (m, q) ← parseConsume accounts
    let n ← tryFromSlice (Dec.uint 8) rest
    let w ← consumeEvents C env w m q n
    .ok (none, w)
  | .cancelOrder => do
    let a ← BookAccounts.parse accounts
    let id ← tryFromSlice (Dec.uint 16) rest
    let (s, w) ← cancelOrder C env w a id
    .ok (some s, w)
  | .closeMarket => do
    let (a, target) ← parseClose accounts
    let w ← closeMarket C env w a target
    .ok (none, w)
  | .massCancelOrders => do
    let a ← BookAccounts.parse accounts
    let ids ← tryFromSlice Dec.vecU128 rest
    let (s, w) ← massCancelOrders C env w a ids
    .ok (some s, w)

/-- `entrypoint.rs` 15-34. -/
def entrypoint (env : Env) [CallbackInfo C] [Borsh C] (w : World) (accounts : List Pubkey)
    (data : Bytes) : Res World := do
  match accounts.getLast? with                                                       -- 21: `split_last().unwrap()`
  | none => .error .panic
  | some register => do
    let (r, w) ← processInstruction C env w accounts.dropLast data
    let d ← writeRegister (w register).data r
    .ok (w.setData register d)

end
end AOB.Wrapping
