import Verif.Model.Bindings
import Verif.Spec.Chain
/-
How a market comes into being and how its accounts are fetched: `bindings.ts` and the loaders of `market_state.ts`.
The system program and the RPC node are external; what is assumed of them is said at `CreateAccount.run` and
`Js.getAccountInfo`.
-/
namespace AOB

/-- The address of the system program: 32 zero bytes. External; the owner of the fee payer of `bindings.ts` 42. -/
def SYSTEM_ID : Pubkey := ⟨List.replicate 32 0, List.length_replicate⟩

/-- The argument of `SystemProgram.createAccount` of `@solana/web3.js`. (`bindings.ts` 58-66, 73-79, 85-91, 97-105.) -/
structure CreateAccount where
  fromPubkey : Pubkey
  newAccountPubkey : Pubkey
  lamports : Nat
  space : Nat
  programId : Pubkey
  deriving DecidableEq

/-- A wallet: an account of the system program without data. External; what the fee payer of `bindings.ts` 42 has to be. -/
def IsWallet (w : World) (k : Pubkey) : Prop := (w k).owner = SYSTEM_ID ∧ (w k).data = []

instance (w : World) (k : Pubkey) : Decidable (IsWallet w k) := by unfold IsWallet; infer_instance

/-- The system program's `CreateAccount` (external): the new account must be in nobody's use, the space permitted, and
the payer a wallet with enough lamports, other than the new account. Signatures are left out.
It runs for the instructions of `bindings.ts` 58-107. -/
def CreateAccount.run (c : CreateAccount) (w : World) : Option World :=
  if IsWallet w c.newAccountPubkey ∧ (w c.newAccountPubkey).lamports = 0 ∧ c.space ≤ MAX_ACCOUNT_LEN ∧
      IsWallet w c.fromPubkey ∧ c.fromPubkey ≠ c.newAccountPubkey ∧ c.lamports ≤ (w c.fromPubkey).lamports then
    some fun j =>
      if j = c.newAccountPubkey then ⟨c.programId, c.lamports, List.replicate c.space 0⟩
      else if j = c.fromPubkey then { w j with lamports := (w j).lamports - c.lamports }
      else w j
  else none

/-- The instructions of a transaction one after the other; if one fails, nothing has happened.
External; the transaction is the list of `bindings.ts` 50, 68, 81, 93, 107. -/
def runAll : List CreateAccount → World → Option World
  | [], w => some w
  | c :: cs, w => (c.run w).bind (runAll cs)

namespace Js

/-- `bindings.ts` 35-126: `createMarket`: the four accounts (event queue, bids, asks, market), then the instruction.
`minBalance` is `connection.getMinimumBalanceForRentExemption`; the keys are those of the `new Keypair()`s. -/
def createMarket (minBalance : Nat → Nat) (callerAuthority : Bytes) (callbackInfoLen callbackIdLen eventCapacity
    orderCapacity minBaseOrderSize : Nat) (feePayer : Pubkey) (tickSize : Nat) (programId : Pubkey) (a : BookAccounts) :
    List CreateAccount × Ix :=
  let eventQueueSize := EventQueue.computeAllocationSize eventCapacity callbackInfoLen
  let slabSize := Slab.computeAllocationSize orderCapacity callbackInfoLen
  ([⟨feePayer, a.eventQueue, minBalance eventQueueSize, eventQueueSize, programId⟩,                 -- 52-66
    ⟨feePayer, a.bids, minBalance slabSize, slabSize, programId⟩,                                   -- 68-79
    ⟨feePayer, a.asks, minBalance slabSize, slabSize, programId⟩,                                   -- 81-91
    ⟨feePayer, a.market, minBalance 120, 120, programId⟩],                                          -- 93-105
   .createMarket callerAuthority callbackInfoLen callbackIdLen minBaseOrderSize tickSize 0)         -- 107-123

/-- `connection.getAccountInfo` (external): nothing for an account without lamports, which the runtime has removed.
(`market_state.ts` 100, 114, 127, `event_queue.ts` 195.) -/
def getAccountInfo (w : World) (k : Pubkey) : Option Bytes := if (w k).lamports = 0 then none else some (w k).data

/-- `market_state.ts` 94-106: `MarketState.retrieve`; like the others it throws if there is no account. -/
def retrieve (w : World) (market : Pubkey) : Res (Nat × MarketState) :=
  match getAccountInfo w market with
  | none => .error .panic
  | some data => readMarketState data

/-- `market_state.ts` 113-119: `loadBidsSlab`, and 126-132: `loadAsksSlab`. -/
def loadSlab (w : World) (ms : MarketState) (callbackInfoLen : Nat) (side : Side) : Res Slab :=
  match getAccountInfo w (match side with | .bid => ms.bids | .ask => ms.asks) with
  | none => .error .panic
  | some data => Slab.deserialize data callbackInfoLen

/-- `event_queue.ts` 190-200: `EventQueue.load`. -/
def loadQueue (w : World) (address : Pubkey) (callbackInfoLen : Nat) : Res EventQueue :=
  match getAccountInfo w address with
  | none => .error .panic
  | some data => EventQueue.parse callbackInfoLen data

end Js
end AOB
