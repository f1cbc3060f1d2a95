import Verif.Spec.DemoChain
/-
The test suite of the code base, run on the model. These are tests of the model, not theorems about the code: each
`example` is one run, with the inputs and the assertions of the test it cites, computed by Lean's kernel.
They show that the model agrees with the code on the runs whose outcome the code base records.
-/
namespace AOB
namespace UnitTests

/-- `assert!`: a failed assertion is a panic. -/
def check (b : Bool) : Res Unit := if b then .ok () else .error .panic

/-- `r.unwrap_err()` compared to the error expected. -/
def failsWith {α : Type} (r : Res α) (e : Err) : Bool :=
  match r with
  | .ok _ => false
  | .error e' => e' == e

/-- `orderbook.rs` 370-375: `TestContext`, the buffers being read. -/
structure Context where
  book : OrderBook Bytes32
  queue : EventQueue Bytes32

/-- The callback info `[n; 32]`. -/
abbrev info (n : UInt8) : Bytes32 := DemoChain.key n

/-- `orderbook.rs` 379-402: `TestContext::new` and `get`: buffers of zeros of the size the code computes. -/
def Context.new (orderCapacity eventCapacity : Nat) : Res Context := do
  let size ← Slab.computeAllocationSize Bytes32 orderCapacity
  let (asks, bids) ← Slab.initialize (List.replicate size 0) (List.replicate size 0)
  let bids ← Slab.fromBuffer Bytes32 bids .bids
  let asks ← Slab.fromBuffer Bytes32 asks .asks
  let (queue, _) ← EventQueue.fromBuffer Bytes32
    (List.replicate (EventQueue.computeAllocationSize Bytes32 eventCapacity) 0) .uninitialized
  .ok { book := { bids := bids, asks := asks }, queue := queue }

/-- The parameters of the calls of `new_order`: most of the tests pass `match_limit: 10`, `post_only: false`,
`post_allowed: true` and `DecrementTake`. -/
def params (side : Side) (base quote limit : Nat) (user : UInt8) (matchLimit : Nat := 10) (postAllowed : Bool := true)
    (behavior : SelfTradeBehavior := .decrementTake) : NewOrderParams Bytes32 :=
  { maxBaseQty := base, maxQuoteQty := quote, limitPrice := limit, side := side, matchLimit := matchLimit,
    callbackInfo := info user, postOnly := false, postAllowed := postAllowed, selfTradeBehavior := behavior }

/-- `orderbook.new_order(params, &mut event_queue, 10)`. -/
def Context.order (c : Context) (p : NewOrderParams Bytes32) : Res (OrderSummary × Context) := do
  let (s, b, q) ← c.book.newOrder p c.queue 10
  .ok (s, { book := b, queue := q })

def Context.count (c : Context) : Nat := c.queue.header.count

def Context.pop (c : Context) (n : Nat) : Res Context := do
  let q ← c.queue.popN n
  .ok { c with queue := q }

/-- The four assertions on an `OrderSummary`. -/
def summary (s : OrderSummary) (isSome : Bool) (base quote posted : Nat) : Bool :=
  s.postedOrderId.isSome == isSome && s.totalBaseQty == base && s.totalQuoteQty == quote &&
    s.totalBaseQtyPosted == posted

def outEvent (side : Side) (base id : Nat) : OutEvent :=
  { tag := 1, side := side.toU8, padding := List.replicate 14 0, orderId := id, baseSize := base }

/-- `orderbook.rs` 405-693: `test_ob_0`. -/
def testOb0 : Res Unit := do
  let c ← Context.new 1000 1000
  let (_, c) ← c.order (params .ask 10 10 (10 <<< 32) 0 (matchLimit := 0) (postAllowed := false))
  check (c.count == 0)
  -- Alice posts a bid order for 1 BTC at 10 USD/BTC
  let (s, c) ← c.order (params .bid 2000000 10000000 (10 <<< 32) 1)
  check (summary s true 1000000 10000000 1000000)
  -- Bob posts an ask order for 3 BTC at 20 USD/BTC
  let (s, c) ← c.order (params .ask 3000000 1000000000 (20 <<< 32) 2)
  check (summary s true 3000000 60000000 3000000)
  -- Bob posts a bid order for 0.5 BTC at 15 USD/BTC
  let (s, c) ← c.order (params .bid 500000 1000000000 (15 <<< 32) 2)
  check (summary s true 500000 7500000 500000)
  let bob0 := s.postedOrderId.getD 0
  let spread ← c.book.getSpread
  check (spread == (some (15 <<< 32), some (20 <<< 32)))
  -- Alice posts an ask order for 0.75 BTC at 14 USD/BTC, and is partially matched
  let (s, c) ← c.order (params .ask 750000 1000000000 (14 <<< 32) 1)
  check (summary s true 750000 (500000 * 15 + 250000 * 14) 250000)
  let alice0 := s.postedOrderId.getD 0
  let spread ← c.book.getSpread
  check (spread == (some (10 <<< 32), some (14 <<< 32)))
  check (c.count == 2)
  let events ← c.queue.iter
  check (events == [
    .fill { tag := 0, takerSide := 1, padding := List.replicate 6 0, quoteSize := 500000 * 15, makerOrderId := bob0,
            baseSize := 500000 } (info 2) (info 1),
    .out (outEvent .bid 0 bob0) (info 2)])
  let c ← c.pop 2
  check (c.count == 0)
  -- Alice makes a bid for 0.05 BTC at 15 USD/BTC, and attempts to self-trade
  check (failsWith (c.order (params .bid 50000 1000000000 (15 <<< 32) 1 (behavior := .abortTransaction)))
    (.ao .wouldSelfTrade))
  -- Alice changes the self trading behavior
  let (s, c) ← c.order (params .bid 50000 1000000000 (15 <<< 32) 1 (behavior := .cancelProvide))
  check (summary s true 50000 (50000 * 15) 50000)
  check (c.count == 1)
  let events ← c.queue.iter
  check (events.head? == some (.out (outEvent .ask 250000 alice0) (info 1)))
  let c ← c.pop 1
  let (_, c) ← c.order (params .ask 1 10 1 0 (postAllowed := false))
  check (c.count == 0)

example : testOb0 = .ok () := by decide +kernel

/-- `orderbook.rs` 695-840: `test_ob_booting_ask`. -/
def testBootingAsk : Res Unit := do
  let c ← Context.new 2 1000
  let (s, c) ← c.order (params .ask 3000000 1000000000 (20 <<< 32) 1)
  check (summary s true 3000000 60000000 3000000 && c.count == 0)
  let (s, c) ← c.order (params .ask 6000000 1000000000 (40 <<< 32) 1)
  check (summary s true 6000000 240000000 6000000 && c.count == 0)
  let booted := s.postedOrderId.getD 0
  let (s, c) ← c.order (params .ask 1000000 1000000000 (10 <<< 32) 1)
  check (summary s true 1000000 10000000 1000000 && c.count == 1)
  let events ← c.queue.iter
  check (events.head? == some (.out (outEvent .ask 6000000 booted) (info 1)))
  let c ← c.pop 1
  let (s, c) ← c.order (params .ask 1000000 1000000000 (50 <<< 32) 1)
  check (summary s false 0 0 0 && c.count == 0)

example : testBootingAsk = .ok () := by decide +kernel

/-- `orderbook.rs` 842-898: `test_ob_small_prices`. -/
def testSmallPrices : Res Unit := do
  let c ← Context.new 2 1000
  let (s, c) ← c.order (params .bid 2000000 10000000 (1 <<< 30) 1)
  check (summary s true 2000000 500000 2000000 && c.count == 0)
  let (_, c) ← c.order (params .ask 3 1000000 (1 <<< 28) 0 (postAllowed := false))
  check (c.count == 0)

example : testSmallPrices = .ok () := by decide +kernel

/-- `orderbook.rs` 900-1045: `test_ob_booting_bid`. -/
def testBootingBid : Res Unit := do
  let c ← Context.new 2 1000
  let (s, c) ← c.order (params .bid 3000000 1000000000 (20 <<< 32) 1)
  check (summary s true 3000000 60000000 3000000 && c.count == 0)
  let (s, c) ← c.order (params .bid 6000000 1000000000 (10 <<< 32) 1)
  check (summary s true 6000000 60000000 6000000 && c.count == 0)
  let booted := s.postedOrderId.getD 0
  let (s, c) ← c.order (params .bid 1000000 1000000000 (40 <<< 32) 1)
  check (summary s true 1000000 40000000 1000000 && c.count == 1)
  let events ← c.queue.iter
  check (events.head? == some (.out (outEvent .bid 6000000 booted) (info 1)))
  let c ← c.pop 1
  let (s, c) ← c.order (params .bid 1000000 1000000000 (5 <<< 32) 1)
  check (summary s false 0 0 0 && c.count == 0)

example : testBootingBid = .ok () := by decide +kernel

/-! ### `event_queue.rs` 326-477: `test_event_queue_0` -/

/-- The events pushed, `i` at a time: `seq` is the next value of `seq_gen`. A fill takes five values, an out three. -/
def queueEvents : (left i seq : Nat) → List (AnyEvent × Option Bytes32 × Option Bytes32 × EventRef Bytes32)
  | 0, _, _ => []
  | left + 1, i, seq =>
    if i % 7 ≠ 3 then
      let e : FillEvent := { tag := 0, takerSide := 1, padding := List.replicate 6 0, quoteSize := seq,
                             makerOrderId := seq + 1, baseSize := seq + 2 }
      let m := info (seq + 3).toUInt8
      let t := info (seq + 4).toUInt8
      (.fill e, some m, some t, .fill e m t) :: queueEvents left (i + 1) (seq + 5)
    else
      let e : OutEvent := outEvent .ask seq (seq + 1)
      let m := info (seq + 2).toUInt8
      (.out e, some m, none, .out e m) :: queueEvents left (i + 1) (seq + 3)

def pushAll (q : EventQueue Bytes32) :
    List (AnyEvent × Option Bytes32 × Option Bytes32 × EventRef Bytes32) → Res (EventQueue Bytes32)
  | [] => .ok q
  | (e, m, t, _) :: es => do
      let q ← q.push e m t
      pushAll q es

/-- `check_buffer_size` of the buffers of 10 and 1000 zeros, and `from_buffer` of a fresh buffer with the wrong tag. -/
example : (EventQueue.checkBufferSize Bytes32 (List.replicate 10 0)).isOk = false ∧
    (EventQueue.checkBufferSize Bytes32 (List.replicate 1000 0)).isOk = false ∧
    (EventQueue.fromBuffer Bytes32 (List.replicate (EventQueue.computeAllocationSize Bytes32 100) 0) .eventQueue).isOk
      = false := by decide +kernel

def testQueue : Res Unit := do
  let buffer := List.replicate (EventQueue.computeAllocationSize Bytes32 100) 0
  let (q, _) ← EventQueue.fromBuffer Bytes32 buffer .uninitialized
  let es := queueEvents 100 0 0
  let q ← pushAll q es
  let extra : FillEvent := { tag := 0, takerSide := 1, padding := List.replicate 6 0, quoteSize := 472,
                             makerOrderId := 473, baseSize := 474 }
  match ← q.pushBack (.fill extra) none none with
  | .refused (.fill e) => check (e == extra)
  | _ => check false
  let p ← q.peekAt 100
  check p.isNone
  let seen ← q.iter
  check (seen == es.map (fun e => e.2.2.2) && seen.length == 100)
  let peeked ← (List.range 100).mapM q.peekAt
  check (peeked == es.map (fun e => some e.2.2.2))

example : testQueue = .ok () := by decide +kernel

/-! ### `utils.rs` 67-77: `test_round_price` -/

/-- 5.01 · 2³² is 21517786153 after truncation, 5.5 · 2³² is 23622320128. -/
example : roundPrice (2 ^ 31) 21517786153 .bid = .ok (5 <<< 32) ∧ roundPrice (2 ^ 31) 21517786153 .ask = .ok 23622320128 := by
  decide +kernel

/-! ### `market_state.rs` 59-65: `market_cast`

The last assertion of this test contradicts the code it tests: `from_buffer` answers a wrong tag with
`AoError::AccountTagMismatch` (39-41), which is `ProgramError::Custom` (`error.rs`), while the test expects
`InvalidAccountData` (64). The model does what the code does. -/

example : (MarketState.fromBuffer (List.replicate 120 0) .market).isOk = false ∧
    failsWith (MarketState.fromBuffer (List.replicate 120 0) .market) (.ao .accountTagMismatch) = true ∧
    failsWith (MarketState.fromBuffer (List.replicate 120 0) .market) (.prog .invalidAccountData) = false := by
  decide +kernel

end UnitTests
end AOB
