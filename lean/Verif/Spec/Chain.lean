import Verif.Model.Accounts
import Verif.Spec.Observe
/-
The chain around the program: what it means to look at a market on the chain, and which changes of the accounts the
Solana runtime lets happen (assumed behaviour of the runtime, see DESIGN).
-/
namespace AOB

/-- Reading a whole market off the accounts: the market account at `k` and the three accounts its state names. -/
def loadMarket (C : Type) [Pod C] (w : World) (k : Pubkey) : Res (Market C) := do
  let (ms, _) ← MarketState.fromBuffer (w k).data .market
  let bids ← Slab.fromBuffer C (w ms.bids).data .bids
  let asks ← Slab.fromBuffer C (w ms.asks).data .asks
  let (queue, _) ← EventQueue.fromBuffer C (w ms.eventQueue).data .eventQueue
  .ok { minBaseOrderSize := ms.minBaseOrderSize, tickSize := ms.tickSize, book := { bids := bids, asks := asks },
        queue := queue }

/-- The state stored in a market account (meaningful if `IsMarket`). -/
def stateAt (w : World) (k : Pubkey) : MarketState := MarketState.ofBytes ((w k).data.drop 8)

/-- The account at `k` is a market of the program: owned by it, of the right size and tagged `Market`. -/
def IsMarket (env : Env) (w : World) (k : Pubkey) : Prop :=
  (w k).owner = env.programId ∧ (w k).data.length = 120 ∧ field (w k).data 0 8 = 128

/-- The market instruction an instruction of the program stands for, if it is one on an existing market. -/
def Ix.instr {C : Type} : Ix C → Option (Instr C)
  | .newOrder p => some (.newOrder p)
  | .cancelOrder id => some (.cancelOrder id)
  | .massCancelOrders ids => some (.massCancelOrders ids)
  | .consumeEvents n => some (.consumeEvents n)
  | .createMarket _ => none
  | .closeMarket => none

/-- The number of accounts of the market an instruction takes (market, event queue, bids, asks). -/
def Ix.arity {C : Type} : Ix C → Nat
  | .consumeEvents _ => 2
  | _ => 4

/-- The largest account: `MAX_PERMITTED_DATA_LENGTH` of the Solana runtime, 10 MiB. -/
def MAX_ACCOUNT_LEN : Nat := 10 * 1024 * 1024

/-- An account in the state in which the runtime hands it to a program: zeroed, of a permitted size. -/
def Fresh (d : Bytes) : Prop := d = List.replicate d.length 0 ∧ d.length ≤ MAX_ACCOUNT_LEN

/-- What everybody else can do between two calls of the program. An account of the program keeps owner and data and
can only be given lamports. Accounts of others change at will; the program can only get an account that is zeroed.
An account of the program with no lamports is removed, and its address can be used again. -/
def Elsewhere (env : Env) (w w' : World) : Prop :=
  ∀ k, ((w' k).owner = (w k).owner ∧ (w' k).data = (w k).data ∧ (w k).lamports ≤ (w' k).lamports) ∨
    (((w k).owner ≠ env.programId ∨ (w k).lamports = 0) ∧ ((w' k).owner = env.programId → Fresh (w' k).data))

section
variable (env : Env) (C : Type) [Pod C] [CallbackInfo C] [Borsh C]

/-- One step of the chain. `R` is the set of accounts used as return registers: it is assumed that no account of `R`
is ever used in another role (see `C56_register_alias_witness` for what happens otherwise). Failed calls change
nothing and are no steps. -/
inductive ChainStep (R : Pubkey → Prop) : World → World → Prop where
  /-- A call of `process_instruction` by a program that embeds the order book. -/
  | call {w w' : World} {accounts : List Pubkey} {data : Bytes} {r : Option OrderSummary} :
      (∀ k ∈ accounts, ¬ R k) → Processor.processInstruction env C w accounts data = .ok (r, w') →
      ChainStep R w w'
  /-- A call of the stand-alone program. -/
  | entry {w w' : World} {accounts : List Pubkey} {data : Bytes} :
      (∀ k ∈ accounts.dropLast, ¬ R k) → (∀ k, accounts.getLast? = some k → R k) →
      entrypoint env C w accounts data = .ok w' → ChainStep R w w'
  /-- Anything else. -/
  | elsewhere {w w' : World} : Elsewhere env w w' → ChainStep R w w'

/-- A history of the chain. -/
inductive ChainRun (R : Pubkey → Prop) (w₀ : World) : World → Prop where
  | refl : ChainRun R w₀ w₀
  | step {w w' : World} : ChainRun R w₀ w → ChainStep env C R w w' → ChainRun R w₀ w'

/-- A history of the chain in which the accounts of `K` are not removed (and so not handed out anew). -/
inductive ChainRunKeeping (R : Pubkey → Prop) (K : Pubkey → Prop) (w₀ : World) : World → Prop where
  | refl : ChainRunKeeping R K w₀ w₀
  | call {w w' : World} {accounts : List Pubkey} {data : Bytes} {r : Option OrderSummary} :
      ChainRunKeeping R K w₀ w → (∀ k ∈ accounts, ¬ R k) →
      Processor.processInstruction env C w accounts data = .ok (r, w') → ChainRunKeeping R K w₀ w'
  | entry {w w' : World} {accounts : List Pubkey} {data : Bytes} :
      ChainRunKeeping R K w₀ w → (∀ k ∈ accounts.dropLast, ¬ R k) → (∀ k, accounts.getLast? = some k → R k) →
      entrypoint env C w accounts data = .ok w' → ChainRunKeeping R K w₀ w'
  | elsewhere {w w' : World} : ChainRunKeeping R K w₀ w → Elsewhere env w w' →
      (∀ k, K k → (w' k).data = (w k).data) → ChainRunKeeping R K w₀ w'

/-- A world in which the program has not been called yet: its accounts, if any, are fresh. -/
def Genesis (w : World) : Prop := ∀ k, (w k).owner = env.programId → Fresh (w k).data

/-- A world that can arise. -/
def OnChain (R : Pubkey → Prop) (w : World) : Prop := ∃ w₀, Genesis env w₀ ∧ ChainRun env C R w₀ w

end
end AOB
