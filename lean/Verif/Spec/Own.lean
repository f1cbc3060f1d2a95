import Verif.Spec.Observe
/-
The own orders that a new order meets.
-/
namespace AOB
variable {C : Type} [CallbackInfo C]

/-- The resting orders of the taker itself (same callback id) on the opposite side that are named by an event of the
instruction that led from `m` to `m'`. -/
def ownMet (m m' : Market C) (p : NewOrderParams C) : List (Order C) :=
  (resting m p.side.opposite).filter (fun o =>
    decide (CallbackInfo.asCallbackId p.callbackInfo = CallbackInfo.asCallbackId o.cb) &&
      (emitted m m').any (fun e => e.id == o.id))

end AOB
