import Verif.Model.Wasm
import Verif.Spec.Types
/-
Trees as the wasm functions find them.
-/
namespace AOB.Wasm

/-- Below the handle `h` there is a tree whose leaves, from left to right, are the orders `os`. -/
inductive Holds (get : Nat → Res Node) : Nat → List (Order Bytes) → Prop
  | leaf {h : Nat} {o : Order Bytes} : get h = .ok (.leaf o.id o.cb o.qty) → Holds get h [o]
  | inner {h p k c0 c1 : Nat} {l0 l1 : List (Order Bytes)} : get h = .ok (.inner p k c0 c1) →
      Holds get c0 l0 → Holds get c1 l1 → Holds get h (l0 ++ l1)

end AOB.Wasm
