import Verif.Spec.Observe
/-
How deep the resting orders are, at every price.
-/
namespace AOB
variable {C : Type}

/-- What a taker of this side finds at prices not worse than `limit`. -/
def depthAt (m : Market C) (taker : Side) (limit : Nat) : Nat :=
  (((resting m taker.opposite).filter (fun o => taker.accepts limit o.price)).map Order.qty).sum

/-- A taker finds in `m₂` at least what they find in `m₁`, whatever price they accept. -/
def Deeper (taker : Side) (m₁ m₂ : Market C) : Prop := ∀ limit, depthAt m₁ taker limit ≤ depthAt m₂ taker limit

end AOB
