import Verif.Spec.Wallet
/-
Users who know what a base token is worth to them, and order accordingly.
-/
namespace AOB
variable {C : Type}

/-- The orders of the group keep to `price`: no bid of it is above, no ask of it below. (A 32.32 fixed point number, like
the prices of the orders. Whether an order is accepted, is matched or rests does not matter.) -/
def KeepsTo [CallbackInfo C] (g : C → Bool) (price : Nat) (is : List (Instr C)) : Prop :=
  ∀ p, Instr.newOrder p ∈ is → g p.callbackInfo = true →
    match p.side with
    | .bid => p.limitPrice ≤ price
    | .ask => price ≤ p.limitPrice

/-- The fills in which a member of the group is the taker. -/
def takenBy (g : C → Bool) (es : List (Event C)) : List (Event C) :=
  es.filter fun | .fill _ _ _ _ _ taker => g taker | .out .. => false

/-- What these amounts are worth at that price, in units of `2^-32` quote tokens. -/
def wealth (price : Nat) (base quote : Int) : Int := base * price + quote * 2 ^ 32

end AOB
