import Verif.Spec.Observe
/-
Ways of taking a quantity from the resting orders of a side.
-/
namespace AOB
variable {C : Type}

/-- `f` says how much is taken from each of the orders `opp`: not more than the order has, and nothing from the taker's own
orders unless the taker asked for `DecrementTake`. -/
structure Allocation [CallbackInfo C] (p : NewOrderParams C) (opp : List (Order C)) (f : Order C → Nat) : Prop where
  le : ∀ o ∈ opp, f o ≤ o.qty
  own : p.selfTradeBehavior ≠ .decrementTake → ∀ o ∈ opp,
    CallbackInfo.asCallbackId p.callbackInfo = CallbackInfo.asCallbackId o.cb → f o = 0

/-- The base quantity taken in all. -/
def amount (opp : List (Order C)) (f : Order C → Nat) : Nat := (opp.map f).sum

/-- The exact value of what is taken, in units of 2^-32 (the unit of prices). -/
def bill (opp : List (Order C)) (f : Order C → Nat) : Nat := (opp.map (fun o => f o * o.price)).sum

/-- How much the fills among `es` take from the order. -/
def traded (es : List (Event C)) (o : Order C) : Nat := sumBase (fillsOf o.id es)

end AOB
