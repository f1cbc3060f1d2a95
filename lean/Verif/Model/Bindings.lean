import Verif.Model.Accounts
import Verif.Model.Client
/-
The account lists of the Rust bindings and of the client, with their signer and writable flags.
-/
namespace AOB

/-- `solana_program::instruction::AccountMeta`, `AccountKey` of `raw_instructions.ts` 6-10. -/
structure Meta where
  key : Pubkey
  signer : Bool
  writable : Bool
  deriving DecidableEq

/-- An account that is neither signer nor writable (a field of an `Accounts` struct without `#[cons(..)]`).
As `market` in `consume_events.rs` 33-34. -/
def Meta.ro (k : Pubkey) : Meta := ⟨k, false, false⟩
/-- `#[cons(writable)]`; also the register pushed by the bindings (`instruction.rs` 119-123 and alike). -/
def Meta.rw (k : Pubkey) : Meta := ⟨k, false, true⟩

/-- The accounts of the bindings (`instruction.rs` 108-227): `get_instruction` (derived by
`bonfida_utils::InstructionsAccount`, external) makes one `AccountMeta` per field of the `Accounts` struct, in order:
`create_market.rs` 35-48, `new_order.rs` 74-86, `consume_events.rs` 31-38, `cancel_order.rs` 31-43,
`close_market.rs` 31-47, `mass_cancel_orders.rs` 34-46. Then the register is pushed. -/
def Ix.metas {C : Type} (a : BookAccounts) (target register : Pubkey) : Ix C → List Meta
  | .createMarket _ => [.rw a.market, .rw a.eventQueue, .rw a.bids, .rw a.asks, .rw register]
  | .newOrder _ | .cancelOrder _ | .massCancelOrders _ =>
      [.ro a.market, .rw a.eventQueue, .rw a.bids, .rw a.asks, .rw register]
  | .consumeEvents _ => [.ro a.market, .rw a.eventQueue, .rw register]
  | .closeMarket => [.rw a.market, .rw a.eventQueue, .rw a.bids, .rw a.asks, .rw target, .rw register]

/-- The flags of `raw_instructions.ts` 28-74 (closeMarket), 98-132 (consumeEvents), 156-196 (cancelOrder), 242-276
(createMarket), 334-374 (newOrder), 398-438 (massCancel): everything writable but `authority`, which signs. -/
def Js.Ix.metas (market eventQueue bids asks authority target : Pubkey) : Js.Ix → List Meta
  | .createMarket .. => [.rw market, .rw eventQueue, .rw bids, .rw asks]
  | .newOrder .. | .cancelOrder _ | .massCancelOrder _ =>
      [.rw market, .rw eventQueue, .rw bids, .rw asks, ⟨authority, true, false⟩]
  | .consumeEvents _ => [.rw market, .rw eventQueue, ⟨authority, true, false⟩, .rw target]
  | .closeMarket => [.rw market, .rw eventQueue, .rw bids, .rw asks, ⟨authority, true, false⟩, .rw target]

end AOB
