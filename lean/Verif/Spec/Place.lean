import Verif.Spec.History
/-
The place of an order in the queue of its price, and the best prices.
-/
namespace AOB
variable {C : Type}

/-- The orders that are served before the order `id` of the side: those ranked before it. -/
def before (m : Market C) (side : Side) (id : Nat) : List (Order C) :=
  (resting m side).takeWhile (fun o => o.id != id)

/-- The orders of the same price that are served before the order `id`. -/
def ahead (m : Market C) (side : Side) (id : Nat) : List (Order C) :=
  (before m side id).filter (fun o => o.price == id / 2 ^ 64)

/-- The price of the best order of a side. -/
def bestPrice (m : Market C) (side : Side) : Option Nat := (resting m side).head?.map Order.price

/-- The best price did not get better: where there is a best price now, there was one as good. -/
def NoBetter (side : Side) (old new : Option Nat) : Prop :=
  ∀ q ∈ new, ∃ r ∈ old, ¬ side.worse r q

/-- The best price did not get worse. -/
def NoWorse (side : Side) (old new : Option Nat) : Prop :=
  ∀ r ∈ old, ∃ q ∈ new, ¬ side.worse q r

end AOB
