import Verif.Spec.Chain
import Verif.Model.Errors
/-
Tables of everything that can be wrong with a call: conditions, in the order in which they count, with the error each
of them leads to.
-/
namespace AOB

/-- The error of the first condition that holds. -/
def firstError : List (Bool × Err) → Option Err
  | [] => none
  | (c, e) :: rest => if c then some e else firstError rest

/-- A slab account of this many bytes can be read: it has room for one order, and the part for the callback infos is a
whole number of them. -/
def slabReadable (C : Type) [Pod C] (n : Nat) : Bool :=
  decide (64 + Pod.size C ≤ n) && decide ((n - (64 + Pod.size C)) % (56 + Pod.size C) % Pod.size C = 0)

/-- The account is not the market it should be: too short to have a tag, or with another one. -/
def marketTable (w : World) (k : Pubkey) : List (Bool × Err) :=
  [(decide ((w k).data.length < 8), .panic),
   (field (w k).data 0 8 != 128, .ao .accountTagMismatch)]

/-- The accounts do not belong to the program. -/
def ownerTable (env : Env) (w : World) (a : BookAccounts) : List (Bool × Err) :=
  [((w a.market).owner != env.programId, .ao .wrongMarketOwner),
   ((w a.eventQueue).owner != env.programId, .ao .wrongEventQueueOwner),
   ((w a.bids).owner != env.programId, .ao .wrongBidsOwner),
   ((w a.asks).owner != env.programId, .ao .wrongAsksOwner)]

/-- The accounts are not those the market names. -/
def keyTable (w : World) (a : BookAccounts) : List (Bool × Err) :=
  [(a.eventQueue != (stateAt w a.market).eventQueue, .ao .wrongEventQueueAccount),
   (a.bids != (stateAt w a.market).bids, .ao .wrongBidsAccount),
   (a.asks != (stateAt w a.market).asks, .ao .wrongAsksAccount)]

/-- The slabs of the market are of a size that cannot be read (`create_market` does not look at it). -/
def readTable (C : Type) [Pod C] (w : World) (a : BookAccounts) : List (Bool × Err) :=
  [(!slabReadable C (w a.bids).data.length, .panic), (!slabReadable C (w a.asks).data.length, .panic)]

/-- What is checked before the order book does anything: `cancel_order`, `mass_cancel_orders`. -/
def cancelTable (env : Env) (C : Type) [Pod C] (w : World) (a : BookAccounts) : List (Bool × Err) :=
  ownerTable env w a ++ (marketTable w a.market ++ (keyTable w a ++ readTable C w a))

/-- The same for `new_order` (a tick size of 0 is refused by `create_market`). -/
def newOrderTable {C : Type} [Pod C] (env : Env) (w : World) (a : BookAccounts) (p : NewOrderParams C) :
    List (Bool × Err) :=
  ownerTable env w a ++ (marketTable w a.market ++ (keyTable w a ++
    ([((stateAt w a.market).tickSize == 0, .panic),
      (p.limitPrice % (stateAt w a.market).tickSize != 0, .ao .invalidLimitPrice),
      (p.postAllowed && decide (p.limitPrice < (stateAt w a.market).tickSize), .ao .invalidLimitPrice)] ++
     readTable C w a)))

/-- The same for `consume_events`. -/
def consumeTable (env : Env) (w : World) (market eventQueue : Pubkey) : List (Bool × Err) :=
  [((w market).owner != env.programId, .ao .wrongMarketOwner),
   ((w eventQueue).owner != env.programId, .ao .wrongEventQueueOwner)] ++ (marketTable w market ++
  [(eventQueue != (stateAt w market).eventQueue, .ao .wrongEventQueueAccount)])

/-- The same for `close_market`. -/
def closeTable (env : Env) (C : Type) [Pod C] (w : World) (a : BookAccounts) : List (Bool × Err) :=
  [((w a.market).owner != env.programId, .ao .wrongMarketOwner)] ++ (marketTable w a.market ++ (keyTable w a ++
    readTable C w a))

/-- What `close_market` demands of the market `m` it finds: nothing rests and no event is pending. The target gets the
lamports of the four accounts; it is none of them, and has room for them. -/
def closeTable' {C : Type} (w : World) (a : BookAccounts) (target : Pubkey) (m : Market C) : List (Bool × Err) :=
  [(!(resting m .bid).isEmpty || !(resting m .ask).isEmpty, .ao .marketStillActive),
   (!(pending m).isEmpty, .ao .marketStillActive),
   (decide (target ∈ [a.market, a.bids, a.asks, a.eventQueue]), .panic),
   (decide (2 ^ 64 ≤ (w target).lamports + ((w a.market).lamports + (w a.bids).lamports + (w a.asks).lamports +
     (w a.eventQueue).lamports)), .panic)]

/-- All of `create_market`: owners, rent, parameters, sizes and tags, accounts given twice. -/
def createTable (env : Env) (C : Type) [Pod C] (w : World) (a : BookAccounts) (p : CreateParams) : List (Bool × Err) :=
  [((w a.eventQueue).owner != env.programId, .ao .wrongEventQueueOwner),
   ((w a.bids).owner != env.programId, .ao .wrongBidsOwner),
   ((w a.asks).owner != env.programId, .ao .wrongAsksOwner),
   (!env.rentExempt (w a.asks).lamports (w a.asks).data.length, .prog .accountNotRentExempt),
   (!env.rentExempt (w a.bids).lamports (w a.bids).data.length, .prog .accountNotRentExempt),
   (!env.rentExempt (w a.eventQueue).lamports (w a.eventQueue).data.length, .prog .accountNotRentExempt),
   (!env.rentExempt (w a.market).lamports (w a.market).data.length, .prog .accountNotRentExempt),
   (p.minBaseOrderSize == 0 || p.tickSize == 0, .prog .invalidArgument),
   (decide ((w a.eventQueue).data.length < 32 + 5 * (40 + 2 * Pod.size C)), .panic),
   (((w a.eventQueue).data.length - 32) % (40 + 2 * Pod.size C) != 0, .panic),
   ((w a.market).data.length != 120, .prog .invalidAccountData),
   (field (w a.market).data 0 8 != 0, .ao .accountTagMismatch),
   (a.eventQueue == a.market, .panic),
   (field (w a.eventQueue).data 0 8 != 0, .ao .accountTagMismatch),
   (decide (a.asks ∈ [a.market, a.eventQueue]), .panic),
   (decide (a.bids ∈ [a.market, a.eventQueue, a.asks]), .panic),
   ((w a.asks).data.isEmpty, .panic),
   ((w a.asks).data[0]? != some 0, .prog .accountAlreadyInitialized),
   ((w a.bids).data.isEmpty, .panic),
   ((w a.bids).data[0]? != some 0, .prog .accountAlreadyInitialized)]

/-- The number of accounts an instruction with this tag takes. -/
def accountsNeeded (tag : UInt8) : Nat := if tag = 2 then 2 else if tag = 4 then 5 else 4

/-- What is looked at before any account is: the data has a tag, one of the six; there are enough accounts; the rest of
the data are parameters. -/
def dispatchTable (C : Type) [Borsh C] (accounts : List Pubkey) (data : Bytes) : List (Bool × Err) :=
  [(data.isEmpty, .panic),
   (decide (5 < (data.headD 0).toNat), .prog .invalidInstructionData),
   (decide (accounts.length < accountsNeeded (data.headD 0)), .prog .notEnoughAccountKeys),
   ((decodeIx C data).toOption.isNone, .prog .invalidInstructionData)]

/-- All errors the program is able to give. -/
def possibleErrors : List Err :=
  [.panic, .prog .invalidInstructionData, .prog .notEnoughAccountKeys, .prog .invalidArgument,
   .prog .invalidAccountData, .prog .accountAlreadyInitialized, .prog .accountNotRentExempt,
   .ao .wrongMarketOwner, .ao .wrongEventQueueOwner, .ao .wrongBidsOwner, .ao .wrongAsksOwner,
   .ao .wrongEventQueueAccount, .ao .wrongBidsAccount, .ao .wrongAsksAccount, .ao .accountTagMismatch,
   .ao .invalidLimitPrice, .ao .eventQueueFull, .ao .wouldSelfTrade, .ao .orderNotFound, .ao .marketStillActive]

/-- The codes of these errors as a client that knows `error.rs` and the numbers of `solana_program` writes them down: the
lower 32 bits are the position in `error.rs`, the upper 32 the number of an error of `solana_program`. -/
def codeTable : List (Err × Nat × Nat) :=
  [(.prog .invalidArgument, 2, 0), (.prog .invalidInstructionData, 3, 0), (.prog .invalidAccountData, 4, 0),
   (.prog .accountAlreadyInitialized, 9, 0), (.prog .notEnoughAccountKeys, 11, 0), (.prog .accountNotRentExempt, 16, 0),
   (.ao .wrongBidsAccount, 0, 1), (.ao .wrongAsksAccount, 0, 2), (.ao .wrongEventQueueAccount, 0, 3),
   (.ao .eventQueueFull, 0, 5), (.ao .orderNotFound, 0, 6), (.ao .wouldSelfTrade, 0, 7), (.ao .marketStillActive, 0, 11),
   (.ao .wrongEventQueueOwner, 0, 13), (.ao .wrongBidsOwner, 0, 14), (.ao .wrongAsksOwner, 0, 15),
   (.ao .wrongMarketOwner, 0, 16), (.ao .invalidLimitPrice, 0, 21), (.ao .accountTagMismatch, 0, 24)]

end AOB
