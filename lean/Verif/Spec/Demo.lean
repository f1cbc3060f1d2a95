import Verif.Spec.Observe
/-
A concrete market, used beside the theorems to show that their hypotheses are met by a non-trivial case.
-/
namespace AOB

deriving instance DecidableEq for Except

/-- Callback info of the demo: a user and a tag; orders of the same user have the same callback id. -/
structure DemoCb where
  user : Nat
  tag : Nat
  deriving DecidableEq, Repr

instance : CallbackInfo DemoCb := ⟨Nat, DemoCb.user⟩

def demoCfg : Config := { minBase := 2, tick := 2 ^ 31, capBids := 3, capAsks := 4, capEvents := 12 }

/-- An order for `qty` base at `price` quote per base. -/
def demoOrder (side : Side) (qty price user : Nat) : NewOrderParams DemoCb :=
  { maxBaseQty := qty, maxQuoteQty := 1000, limitPrice := price * 2 ^ 32, side := side, matchLimit := 10,
    callbackInfo := ⟨user, 7⟩, postOnly := false, postAllowed := true, selfTradeBehavior := .cancelProvide }

/-- Three asks, three bids (the bid side is then full). -/
def demoHist : List (Instr DemoCb) :=
  [.newOrder (demoOrder .ask 5 10 1), .newOrder (demoOrder .ask 6 11 2), .newOrder (demoOrder .ask 7 10 3),
   .newOrder (demoOrder .bid 8 9 4), .newOrder (demoOrder .bid 3 8 5), .newOrder (demoOrder .bid 4 9 6)]

def demo : Market DemoCb := (demoCfg.market ⟨0, 0⟩).run demoHist

/-- User 3 buys: trades with user 1, has their own ask cancelled, trades with user 2, and posts the rest,
evicting the worst bid. -/
def demoTake : NewOrderParams DemoCb := demoOrder .bid 14 11 3

def demoAfter : Market DemoCb := demo.step (.newOrder demoTake)

def demoSum : OrderSummary :=
  { postedOrderId := some (11 * 2 ^ 96 + (2 ^ 64 - 1 - 6)), totalBaseQty := 14, totalQuoteQty := 149,
    totalBaseQtyPosted := 3 }

/-- Instructions without cancellation ids out of range. -/
instance (i : Instr DemoCb) : Decidable i.Ok := by
  cases i <;> unfold Instr.Ok <;> infer_instance

theorem demo_valid : demoCfg.Valid := by
  refine ⟨?_, ?_, ?_, ?_, ?_⟩ <;> decide

theorem demo_reachBy : ReachBy demoCfg demoHist demo :=
  ⟨demo_valid, by decide +kernel, ⟨0, 0⟩, rfl⟩

theorem demo_reachable : Reachable demo := ⟨_, _, demo_reachBy⟩

theorem demoTake_ok : (Instr.newOrder demoTake).Ok := by decide +kernel

theorem demo_take : demo.newOrder demoTake = .ok (demoSum, demoAfter) := by decide +kernel

/-- The book and the events of the demo (a computation, not a theorem about the code). -/
example : (resting demo .bid).map (fun o => (o.qty, o.price / 2 ^ 32, o.cb.user)) = [(8, 9, 4), (4, 9, 6), (3, 8, 5)] ∧
    (resting demo .ask).map (fun o => (o.qty, o.price / 2 ^ 32, o.cb.user)) = [(5, 10, 1), (7, 10, 3), (6, 11, 2)] := by
  decide +kernel

example : (emitted demo demoAfter).map (fun e => (e.isFill, e.base, e.quote, e.makerCb.user)) =
    [(true, 5, 50, 1), (false, 0, 0, 1), (false, 7, 0, 3), (true, 6, 66, 2), (false, 0, 0, 2), (false, 3, 0, 5)] := by
  decide +kernel

example : resting demoAfter .ask = [] ∧
    (resting demoAfter .bid).map (fun o => (o.qty, o.price / 2 ^ 32, o.cb.user)) = [(3, 11, 3), (8, 9, 4), (4, 9, 6)] := by
  decide +kernel

end AOB
