import Verif.Spec.Observe
/-
What an order can expect from the depth of the other side.
-/
namespace AOB
variable {C : Type}

/-- Takes `base` from the orders, one after the other, of each as much as there is. -/
def greedy : Nat → List (Order C) → List (Order C × Nat)
  | _, [] => []
  | base, o :: rest => if base = 0 then [] else (o, min o.qty base) :: greedy (base - min o.qty base) rest

/-- The resting orders whose price the order accepts, best first. -/
def acceptable (m : Market C) (p : NewOrderParams C) : List (Order C) :=
  (resting m p.side.opposite).filter (fun o => p.side.accepts p.limitPrice o.price)

/-- The quantity resting there. -/
def depthFor (m : Market C) (p : NewOrderParams C) : Nat := ((acceptable m p).map Order.qty).sum

/-- What is taken costs at most this much (each piece rounded up). -/
def costOf (ts : List (Order C × Nat)) : Nat := (ts.map (fun x => worth .bid x.2 x.1.price)).sum

end AOB
