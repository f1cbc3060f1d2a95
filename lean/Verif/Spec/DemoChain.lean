import Verif.Spec.Chain
import Verif.Spec.Demo
/-
A concrete chain with two markets, used beside the theorems on accounts.
-/
namespace AOB
namespace DemoChain

def key (n : UInt8) : Pubkey := ⟨List.replicate 32 n, List.length_replicate⟩

def env : Env := ⟨key 9, fun l n => decide (n + 128 ≤ l), fun {_ _} h => by have := of_decide_eq_true h; omega⟩

/-- Accounts 1 to 4: market, event queue (five events), bids and asks (two orders each); accounts 11 to 14: the same;
account 6: return register; everything else: wallets. -/
def genesis : World := fun k =>
  if k = key 1 ∨ k = key 11 then ⟨key 9, 1000, List.replicate 120 0⟩
  else if k = key 2 ∨ k = key 12 then ⟨key 9, 2000, List.replicate 552 0⟩
  else if k = key 3 ∨ k = key 13 then ⟨key 9, 3000, List.replicate 184 0⟩
  else if k = key 4 ∨ k = key 14 then ⟨key 9, 4000, List.replicate 184 0⟩
  else if k = key 6 then ⟨key 9, 500, List.replicate 42 0⟩
  else ⟨key 0, 7, []⟩

/-- The world after a call, if it succeeds. -/
def after (w : World) (accounts : List Pubkey) (data : Bytes) : World :=
  match Processor.processInstruction env Bytes32 w accounts data with
  | .ok (_, w') => w'
  | .error _ => w

/-- The world after a call of the stand-alone program, if it succeeds. -/
def afterEntry (w : World) (accounts : List Pubkey) (data : Bytes) : World :=
  match entrypoint env Bytes32 w accounts data with
  | .ok w' => w'
  | .error _ => w

def succeeds {α : Type} : Res α → Bool
  | .ok _ => true
  | .error _ => false

def accounts : List Pubkey := [key 1, key 2, key 3, key 4]
def accounts' : List Pubkey := [key 11, key 12, key 13, key 14]

def create : Bytes := 0 :: (Ix.createMarket (C := Bytes32) ⟨1, 1⟩).params
def order (side : Side) (qty price : Nat) (user : UInt8) : NewOrderParams Bytes32 :=
  { maxBaseQty := qty, maxQuoteQty := 1000, limitPrice := price * 2 ^ 32, side := side, matchLimit := 10,
    callbackInfo := key user, postOnly := false, postAllowed := true, selfTradeBehavior := .cancelProvide }
def newOrder (side : Side) (qty price : Nat) (user : UInt8) : Bytes := 1 :: (Ix.newOrder (order side qty price user)).params
def consume (n : Nat) : Bytes := 2 :: (Ix.consumeEvents (C := Bytes32) n).params
def cancel (id : Nat) : Bytes := 3 :: (Ix.cancelOrder (C := Bytes32) id).params
def close : Bytes := [4]

/-- Both markets are created; in the first, user 2 buys 3 of the 5 user 1 sells. -/
def w1 : World := after genesis accounts create
def w2 : World := after w1 accounts' create
def w3 : World := after w2 accounts (newOrder .ask 5 10 1)
def w4 : World := after w3 accounts (newOrder .bid 3 10 2)
/-- The same in the second market, by the stand-alone program. -/
def w5 : World := afterEntry w4 (accounts' ++ [key 6]) (newOrder .bid 4 9 3)
/-- The first market is emptied and closed to account 5. -/
def askId : Nat := 10 * 2 ^ 96
def w6 : World := after w5 accounts (cancel askId)
def w7 : World := after w6 accounts (consume 7)
def w8 : World := after w7 (accounts ++ [key 5]) close

def R (k : Pubkey) : Prop := k = key 6

theorem fresh_zeros (n : Nat) (h : n ≤ MAX_ACCOUNT_LEN) : Fresh (List.replicate n 0) :=
  ⟨by rw [List.length_replicate], by rw [List.length_replicate]; exact h⟩

theorem genesis_ok : Genesis env genesis := by
  intro k _
  unfold genesis
  split
  · exact fresh_zeros _ (by decide)
  split
  · exact fresh_zeros _ (by decide)
  split
  · exact fresh_zeros _ (by decide)
  split
  · exact fresh_zeros _ (by decide)
  split
  · exact fresh_zeros _ (by decide)
  · exact fresh_zeros 0 (by decide)

theorem after_step {w : World} {l : List Pubkey} {d : Bytes}
    (h : succeeds (Processor.processInstruction env Bytes32 w l d) = true) :
    ∃ r, Processor.processInstruction env Bytes32 w l d = .ok (r, after w l d) := by
  unfold after
  cases hx : Processor.processInstruction env Bytes32 w l d with
  | error e => rw [hx] at h; cases h
  | ok x => exact ⟨x.1, rfl⟩

theorem afterEntry_step {w : World} {l : List Pubkey} {d : Bytes}
    (h : succeeds (entrypoint env Bytes32 w l d) = true) :
    entrypoint env Bytes32 w l d = .ok (afterEntry w l d) := by
  unfold afterEntry
  cases hx : entrypoint env Bytes32 w l d with
  | error e => rw [hx] at h; cases h
  | ok x => rfl

theorem onChain_after {w : World} (hw : OnChain env Bytes32 R w) {l : List Pubkey} {d : Bytes}
    (hl : ∀ k ∈ l, k ≠ key 6) (h : succeeds (Processor.processInstruction env Bytes32 w l d) = true) :
    OnChain env Bytes32 R (after w l d) := by
  obtain ⟨w0, h0, h1⟩ := hw
  obtain ⟨r, hr⟩ := after_step h
  exact ⟨w0, h0, h1.step (.call hl hr)⟩

theorem onChain_w1 : OnChain env Bytes32 R w1 :=
  onChain_after ⟨_, genesis_ok, .refl⟩ (by decide +kernel) (by decide +kernel)
theorem onChain_w2 : OnChain env Bytes32 R w2 := onChain_after onChain_w1 (by decide +kernel) (by decide +kernel)
theorem onChain_w3 : OnChain env Bytes32 R w3 := onChain_after onChain_w2 (by decide +kernel) (by decide +kernel)
theorem onChain_w4 : OnChain env Bytes32 R w4 := onChain_after onChain_w3 (by decide +kernel) (by decide +kernel)
theorem onChain_w5 : OnChain env Bytes32 R w5 := by
  obtain ⟨w0, h0, h1⟩ := onChain_w4
  refine ⟨w0, h0, h1.step (.entry (accounts := accounts' ++ [key 6]) (data := newOrder .bid 4 9 3) ?_ ?_
    (afterEntry_step (by decide +kernel)))⟩
  · rw [List.dropLast_concat]
    show ∀ k ∈ accounts', k ≠ key 6
    decide +kernel
  · intro k hk
    rw [List.getLast?_concat] at hk
    exact (Option.some.inj hk).symm
theorem onChain_w6 : OnChain env Bytes32 R w6 := onChain_after onChain_w5 (by decide +kernel) (by decide +kernel)
theorem onChain_w7 : OnChain env Bytes32 R w7 := onChain_after onChain_w6 (by decide +kernel) (by decide +kernel)
theorem onChain_w8 : OnChain env Bytes32 R w8 := onChain_after onChain_w7 (by decide +kernel) (by decide +kernel)

/-- The market at `k`, if it can be read. -/
def marketAt (w : World) (k : Pubkey) : Option (Market Bytes32) := (loadMarket Bytes32 w k).toOption

/-- What is to be seen (a computation, not a theorem about the code). -/
example : (marketAt w4 (key 1)).map (fun m => ((resting m .bid).map Order.qty, (resting m .ask).map Order.qty,
    (pending m).map Event.base)) = some ([], [2], [3]) := by decide +kernel

example : (marketAt w5 (key 11)).map (fun m => ((resting m .bid).map Order.qty, (resting m .ask).map Order.qty,
    (pending m).map Event.base)) = some ([4], [], []) := by decide +kernel

example : (w5 (key 6)).data[0]? = some 1 ∧ ((w5 (key 6)).data.drop 1).length = 41 := by decide +kernel

example : (w8 (key 1)).data.take 8 = [132, 0, 0, 0, 0, 0, 0, 0] ∧ (w8 (key 1)).lamports = 0 ∧
    (w8 (key 5)).lamports = 10007 := by decide +kernel

end DemoChain
end AOB
