import Verif.Model.Bindings
import Verif.Tests.Unit
/-
`program/tests/functional.rs` and `common/utils.rs`, run on the model of the accounts: the instructions the bindings make,
given to the entry point of the stand-alone program, byte by byte.

The accounts are smaller than in the test (queue and slabs for 10 entries instead of 1000), because the kernel carries all
their bytes through every call.
-/
namespace AOB
namespace UnitTests

open DemoChain (key)

/-- Rent exemption as with the defaults of the runtime: two years at 3480 lamports per byte and year, with 128 bytes of
overhead. -/
def env : Env := ⟨key 9, fun l n => decide ((n + 128) * 6960 ≤ l), fun {_ _} h => by have := of_decide_eq_true h; omega⟩

/-- `create_account` of the system program with `rent.minimum_balance(space)` lamports (`utils.rs` 23-98). -/
def allocated (space : Nat) : Account := ⟨key 9, (space + 128) * 6960, List.replicate space 0⟩

def a : BookAccounts := ⟨key 1, key 2, key 3, key 4⟩

/-- `functional.rs` 55-63: the register; `utils.rs` 23-98: the accounts of the market; 205-221: the reward target. -/
def start : Res World := do
  let slab ← Slab.computeAllocationSize Bytes32 10
  .ok fun k =>
    if k = key 1 then allocated (8 + MarketState.LEN)
    else if k = key 2 then allocated (EventQueue.computeAllocationSize Bytes32 10)
    else if k = key 3 ∨ k = key 4 then allocated slab
    else if k = key 6 then ⟨key 9, 1000000, List.replicate 42 0⟩
    else if k = key 5 then ⟨key 0, 1000000000, [0]⟩
    else ⟨key 0, 0, []⟩

/-- `sign_send_instructions` of one instruction made by the bindings. -/
def send (w : World) (i : Ix Bytes32) : Res World :=
  entrypoint env Bytes32 w ((i.metas a (key 5) (key 6)).map Meta.key) i.binding

/-- `transfer` of the system program from the payer (85-98, 127-140); the payer is not modelled. -/
def transfer (w : World) (k : Pubkey) (lamports : Nat) : World :=
  World.setLamports w k ((w k).lamports + lamports)

/-- `functional.rs` 110-120 and 143-153. -/
def order (side : Side) (base quote : Nat) (user : UInt8) : NewOrderParams Bytes32 :=
  { maxBaseQty := base, maxQuoteQty := quote, limitPrice := 1000 <<< 32, side := side, matchLimit := 3,
    callbackInfo := key user, postOnly := false, postAllowed := true, selfTradeBehavior := .cancelProvide }

/-- `functional.rs` 29-265: `test_agnostic_orderbook`. Beyond the `unwrap`s of the test, the summaries and the payout are
checked. -/
def functional : Res Unit := do
  let w ← start
  let w ← send w (.createMarket ⟨10, 1⟩)
  let w := transfer w (key 1) 1000
  let w ← send w (.newOrder (order .bid 100000 100000 20))
  let w := transfer w (key 1) 1001
  let w ← send w (.newOrder (order .ask 110000 1000000 21))
  let s ← unwrap (decRegister (w (key 6)).data)
  let s ← unwrap s.1
  check (s == { postedOrderId := some (1000 * 2 ^ 96 + 1), totalBaseQty := 1000, totalQuoteQty := 1000000,
                totalBaseQtyPosted := 900 })
  let id ← unwrap s.postedOrderId
  let w ← send w (.cancelOrder id)
  let w ← send w (.consumeEvents 10)
  let all := (w (key 1)).lamports + (w (key 2)).lamports + (w (key 3)).lamports + (w (key 4)).lamports
  let w ← send w .closeMarket
  check ((w (key 5)).lamports == 1000000000 + all && (w (key 1)).lamports == 0)

example : functional = .ok () := by decide +kernel

end UnitTests
end AOB
