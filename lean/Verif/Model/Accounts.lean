import Verif.Model.Wire
/-
Accounts: the bodies of `program/src/processor/*.rs` on raw account data, the dispatcher `processor.rs`, and the
stand-alone program's `entrypoint.rs`.

`AccountInfo`s with the same key share their `RefCell`s (Solana's deserialization of duplicate accounts), hence a
second `borrow_mut` of the same account's data or lamports while the first is alive is a panic. Signer and writable
flags are not modelled here: the code reads neither, and the runtime would only refuse more (`Model/Bindings.lean`).
-/
namespace AOB

/-- An account of the chain.
`AccountInfo` (external; first used in `create_market.rs` 50-58), of which the code reads the owner (`utils.rs` 32), the data and the lamports (`close_market.rs` 82-124). -/
structure Account where
  owner : Pubkey
  lamports : Nat
  data : Bytes
  deriving DecidableEq

/-- All accounts; an account that does not exist has no lamports and no data.
The accounts an instruction is given by name are found in it (`processor.rs` 21). -/
abbrev World := Pubkey → Account

/-- What the code is given by its environment: its own id and the rent sysvar.
`rentExempt lamports len` is `Rent::is_exempt`, used by `bonfida_utils::checks::check_rent_exempt` (external).
(`processor.rs` 20 and `create_market.rs` 121-124.) -/
structure Env where
  programId : Pubkey
  rentExempt : Nat → Nat → Bool
  /-- The minimum balance is positive for every length (it charges for 128 bytes of overhead). -/
  rentExempt_pos : ∀ {lamports len : Nat}, rentExempt lamports len = true → 0 < lamports

namespace World

/-- Replace the data of an account. Through `data.borrow_mut()` (`create_market.rs` 95, `new_order.rs` 127 and so on). -/
def setData (w : World) (k : Pubkey) (d : Bytes) : World :=
  fun j => if j = k then { w k with data := d } else w j

/-- Replace the lamports of an account. Through `lamports.borrow_mut()` (`close_market.rs` 118-124). -/
def setLamports (w : World) (k : Pubkey) (l : Nat) : World :=
  fun j => if j = k then { w k with lamports := l } else w j

end World

/-- `borrow_mut()` on one of several `RefCell`s, those in `held` being borrowed already.
(`close_market.rs` 82-116, `create_market.rs` 95-114.) -/
def borrow (held : List Pubkey) (k : Pubkey) : Res (List Pubkey) :=
  if k ∈ held then .error .panic else .ok (k :: held)

/-- `utils.rs` 16-25. -/
def checkAccountKey (k expected : Pubkey) (e : AoError) : Res Unit := if k ≠ expected then .error (.ao e) else .ok ()

/-- `utils.rs` 27-36. -/
def checkAccountOwner (w : World) (k owner : Pubkey) (e : AoError) : Res Unit :=
  if (w k).owner ≠ owner then .error (.ao e) else .ok ()

/-- `bonfida_utils::checks::check_rent_exempt` (external; assumed to return `AccountNotRentExempt`).
Called in `create_market.rs` 121-124. -/
def checkRentExempt (env : Env) (w : World) (k : Pubkey) : Res Unit :=
  if env.rentExempt (w k).lamports (w k).data.length then .ok () else .error (.prog .accountNotRentExempt)

/-- The accounts of `create_market.rs` 35-48, `new_order.rs` 74-86, `cancel_order.rs` 31-43,
`mass_cancel_orders.rs` 34-46. -/
structure BookAccounts where
  market : Pubkey
  eventQueue : Pubkey
  bids : Pubkey
  asks : Pubkey
  deriving DecidableEq

/-- `Accounts::parse` (`create_market.rs` 51-61, `new_order.rs` 89-99, `cancel_order.rs` 46-56,
`mass_cancel_orders.rs` 49-59); further accounts are ignored. -/
def BookAccounts.parse : List Pubkey → Res BookAccounts
  | m :: q :: b :: a :: _ => .ok ⟨m, q, b, a⟩
  | _ => .error (.prog .notEnoughAccountKeys)

/-- `consume_events.rs` 41-49. -/
def parseConsume : List Pubkey → Res (Pubkey × Pubkey)
  | m :: q :: _ => .ok (m, q)
  | _ => .error (.prog .notEnoughAccountKeys)

/-- `close_market.rs` 50-61. -/
def parseClose : List Pubkey → Res (BookAccounts × Pubkey)
  | m :: q :: b :: a :: t :: _ => .ok (⟨m, q, b, a⟩, t)
  | _ => .error (.prog .notEnoughAccountKeys)

/-- `perform_checks` of `new_order.rs` 100-114, `cancel_order.rs` 59-73, `mass_cancel_orders.rs` 61-75. -/
def BookAccounts.performChecks (env : Env) (w : World) (a : BookAccounts) : Res Unit := do
  checkAccountOwner w a.market env.programId .wrongMarketOwner
  checkAccountOwner w a.eventQueue env.programId .wrongEventQueueOwner
  checkAccountOwner w a.bids env.programId .wrongBidsOwner
  checkAccountOwner w a.asks env.programId .wrongAsksOwner

/-- `check_accounts` of `new_order.rs` 158-171, `cancel_order.rs` 113-126, `mass_cancel_orders.rs` 119-132,
`close_market.rs` 129-142. -/
def BookAccounts.checkAccounts (a : BookAccounts) (ms : MarketState) : Res Unit := do
  checkAccountKey a.eventQueue ms.eventQueue .wrongEventQueueAccount
  checkAccountKey a.bids ms.bids .wrongBidsAccount
  checkAccountKey a.asks ms.asks .wrongAsksAccount

section
variable {C : Type} [Pod C]

/-- `orderbook.rs` 68-75: `OrderBookState::new_safe`. -/
def OrderBook.newSafe (C : Type) [Pod C] (bids asks : Bytes) : Res (OrderBook C) := do
  let b ← Slab.fromBuffer C bids .bids
  let a ← Slab.fromBuffer C asks .asks
  .ok { bids := b, asks := a }

/-- `utils.rs` 38-51: `get_spread` on two accounts, for use by other programs. -/
def getSpread (C : Type) [Pod C] (w : World) (bids asks : Pubkey) : Res (Option Nat × Option Nat) := do
  let held ← borrow [] bids
  let _ ← borrow held asks
  match OrderBook.newSafe C (w bids).data (w asks).data with                         -- 49: `.unwrap()`
  | .error _ => .error .panic
  | .ok book => book.getSpread

namespace Processor

/-- `create_market.rs` 75-118 with `perform_checks` 62-71 and `check_rent` 120-127. `Slab::initialize`'s arguments
are borrowed asks first. -/
def createMarket (env : Env) (C : Type) [Pod C] (w : World) (a : BookAccounts) (p : CreateParams) : Res World := do
  checkAccountOwner w a.eventQueue env.programId .wrongEventQueueOwner
  checkAccountOwner w a.bids env.programId .wrongBidsOwner
  checkAccountOwner w a.asks env.programId .wrongAsksOwner
  checkRentExempt env w a.asks
  checkRentExempt env w a.bids
  checkRentExempt env w a.eventQueue
  checkRentExempt env w a.market
  if p.minBaseOrderSize = 0 ∨ p.tickSize = 0 then .error (.prog .invalidArgument)
  else do
    match EventQueue.checkBufferSize C (w a.eventQueue).data with                    -- 93: `.unwrap()`
    | .error _ => .error .panic
    | .ok () => do
      let held ← borrow [] a.market                                                  -- 95
      MarketState.checkBufferSize (w a.market).data
      let (_, md) ← MarketState.fromBuffer (w a.market).data .uninitialized           -- 98
      let md := MarketState.writeBack md
        { eventQueue := a.eventQueue, bids := a.bids, asks := a.asks, minBaseOrderSize := p.minBaseOrderSize,
          tickSize := p.tickSize }
      let held ← borrow held a.eventQueue                                            -- 108
      let (_, qd) ← EventQueue.fromBuffer C (w a.eventQueue).data .uninitialized      -- 110
      let held ← borrow held a.asks                                                  -- 113
      let _ ← borrow held a.bids
      let (ad, bd) ← Slab.initialize (w a.asks).data (w a.bids).data
      .ok ((((w.setData a.market md).setData a.eventQueue qd).setData a.asks ad).setData a.bids bd)

/-- `new_order.rs` 132-141. -/
def checkTick (ms : MarketState) (p : NewOrderParams C) : Res Unit := do
  let r ← remU p.limitPrice ms.tickSize
  if r ≠ 0 then .error (.ao .invalidLimitPrice)
  else if p.postAllowed && decide (p.limitPrice < ms.tickSize) then .error (.ao .invalidLimitPrice)
  else .ok ()

/-- `new_order.rs` 118-156. -/
def newOrder [CallbackInfo C] (env : Env) (w : World) (a : BookAccounts) (p : NewOrderParams C) :
    Res (OrderSummary × World) := do
  a.performChecks env w
  let held ← borrow [] a.market
  let (ms, md) ← MarketState.fromBuffer (w a.market).data .market
  a.checkAccounts ms
  checkTick ms p
  let held ← borrow held a.bids
  let held ← borrow held a.asks
  let book ← OrderBook.newSafe C (w a.bids).data (w a.asks).data
  let _ ← borrow held a.eventQueue
  let (queue, qd) ← EventQueue.fromBuffer C (w a.eventQueue).data .eventQueue
  let (sum, book, queue) ← book.newOrder p queue ms.minBaseOrderSize
  .ok (sum, (((w.setData a.market md).setData a.bids (book.bids.writeBack (w a.bids).data)).setData a.asks
    (book.asks.writeBack (w a.asks).data)).setData a.eventQueue (queue.writeBack qd))

/-- `cancel_order.rs` 76-111. -/
def cancelOrder (env : Env) (C : Type) [Pod C] (w : World) (a : BookAccounts) (orderId : Nat) :
    Res (OrderSummary × World) := do
  a.performChecks env w
  let held ← borrow [] a.market
  let (ms, md) ← MarketState.fromBuffer (w a.market).data .market
  a.checkAccounts ms
  let held ← borrow held a.bids
  let _ ← borrow held a.asks
  let book ← OrderBook.newSafe C (w a.bids).data (w a.asks).data
  let (sum, book) ← Market.cancelIn book orderId
  .ok (sum, ((w.setData a.market md).setData a.bids (book.bids.writeBack (w a.bids).data)).setData a.asks
    (book.asks.writeBack (w a.asks).data))

/-- `mass_cancel_orders.rs` 78-117. -/
def massCancelOrders (env : Env) (C : Type) [Pod C] (w : World) (a : BookAccounts) (orderIds : List Nat) :
    Res (OrderSummary × World) := do
  a.performChecks env w
  let held ← borrow [] a.market
  let (ms, md) ← MarketState.fromBuffer (w a.market).data .market
  a.checkAccounts ms
  let held ← borrow held a.bids
  let _ ← borrow held a.asks
  let book ← OrderBook.newSafe C (w a.bids).data (w a.asks).data
  let (base, quote, book) ← Market.massCancelLoop orderIds 0 0 book
  .ok ({ postedOrderId := none, totalBaseQty := base, totalQuoteQty := quote, totalBaseQtyPosted := 0 },
    ((w.setData a.market md).setData a.bids (book.bids.writeBack (w a.bids).data)).setData a.asks
      (book.asks.writeBack (w a.asks).data))

/-- `consume_events.rs` 67-96 with `perform_checks` 50-63 and `check_accounts` 98-113 (the same check twice). -/
def consumeEvents (env : Env) (C : Type) [Pod C] (w : World) (market eventQueue : Pubkey) (n : Nat) : Res World := do
  checkAccountOwner w market env.programId .wrongMarketOwner
  checkAccountOwner w eventQueue env.programId .wrongEventQueueOwner
  let held ← borrow [] market
  let (ms, md) ← MarketState.fromBuffer (w market).data .market
  checkAccountKey eventQueue ms.eventQueue .wrongEventQueueAccount
  checkAccountKey eventQueue ms.eventQueue .wrongEventQueueAccount
  let _ ← borrow held eventQueue
  let (queue, qd) ← EventQueue.fromBuffer C (w eventQueue).data .eventQueue
  let queue ← queue.popN n
  .ok ((w.setData market md).setData eventQueue (queue.writeBack qd))

/-- `close_market.rs` 73-127. The sums of lamports are `u64` additions. -/
def closeMarket (env : Env) (C : Type) [Pod C] (w : World) (a : BookAccounts) (target : Pubkey) : Res World := do
  checkAccountOwner w a.market env.programId .wrongMarketOwner                       -- 63-70
  let held ← borrow [] a.market
  let (ms, md) ← MarketState.fromBuffer (w a.market).data .market
  a.checkAccounts ms
  let held ← borrow held a.bids
  let held ← borrow held a.asks
  match OrderBook.newSafe C (w a.bids).data (w a.asks).data with                     -- 91: `.unwrap()`
  | .error _ => .error .panic
  | .ok book =>
    if !book.isEmpty then .error (.ao .marketStillActive)
    else do
      let _ ← borrow held a.eventQueue
      let (queue, qd) ← EventQueue.fromBuffer C (w a.eventQueue).data .eventQueue
      if queue.header.count ≠ 0 then .error (.ao .marketStillActive)
      else do
        let md ← writeTag md .disabled                                               -- 106-109
        let ad ← writeTag (w a.asks).data .disabled
        let bd ← writeTag (w a.bids).data .disabled
        let qd ← writeTag qd .disabled
        let held ← borrow [] a.market                                                -- 111-116
        let held ← borrow held a.bids
        let held ← borrow held a.asks
        let held ← borrow held a.eventQueue
        let _ ← borrow held target
        let s ← addU64 (w a.market).lamports (w a.bids).lamports                     -- 118-119
        let s ← addU64 s (w a.asks).lamports
        let s ← addU64 s (w a.eventQueue).lamports
        let t ← addU64 (w target).lamports s
        let w := (((w.setData a.market md).setData a.asks ad).setData a.bids bd).setData a.eventQueue qd
        .ok (((((w.setLamports target t).setLamports a.market 0).setLamports a.bids 0).setLamports a.asks
          0).setLamports a.eventQueue 0)

/-- `processor.rs` 19-76. -/
def processInstruction (env : Env) (C : Type) [Pod C] [CallbackInfo C] [Borsh C]
    (w : World) (accounts : List Pubkey) (data : Bytes) : Res (Option OrderSummary × World) := do
  let t ← decodeTag data
  let rest := data.drop 1
  match t with
  | .createMarket => do
    let a ← BookAccounts.parse accounts
    let p ← tryFromSlice CreateParams.dec rest
    let w ← createMarket env C w a p
    .ok (none, w)
  | .newOrder => do
    let a ← BookAccounts.parse accounts
    let p : NewOrderParams C ← tryFromSlice decNewOrder rest
    let (s, w) ← newOrder env w a p
    .ok (some s, w)
  | .consumeEvents => do
    let (m, q) ← parseConsume accounts
    let n ← tryFromSlice (Dec.uint 8) rest
    let w ← consumeEvents env C w m q n
    .ok (none, w)
  | .cancelOrder => do
    let a ← BookAccounts.parse accounts
    let id ← tryFromSlice (Dec.uint 16) rest
    let (s, w) ← cancelOrder env C w a id
    .ok (some s, w)
  | .closeMarket => do
    let (a, target) ← parseClose accounts
    let w ← closeMarket env C w a target
    .ok (none, w)
  | .massCancelOrders => do
    let a ← BookAccounts.parse accounts
    let ids ← tryFromSlice Dec.vecU128 rest
    let (s, w) ← massCancelOrders env C w a ids
    .ok (some s, w)

end Processor

/-- `entrypoint.rs` 15-34: the last account is the return register (the program instantiates `C` with `[u8; 32]`). -/
def entrypoint (env : Env) (C : Type) [Pod C] [CallbackInfo C] [Borsh C] (w : World) (accounts : List Pubkey)
    (data : Bytes) : Res World := do
  match accounts.getLast? with                                                       -- 21: `split_last().unwrap()`
  | none => .error .panic
  | some register => do
    let (r, w) ← Processor.processInstruction env C w accounts.dropLast data
    let d ← writeRegister (w register).data r
    .ok (w.setData register d)

end
end AOB
