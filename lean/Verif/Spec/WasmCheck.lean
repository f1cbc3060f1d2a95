import Verif.Model.WasmCheck
import Verif.Spec.WasmEdit
/-
What the check of the older slab format looks at.
-/
namespace AOB.Wasm

/-- The key of an inner node begins as all ids below it do, up to its prefix length. -/
def Tree.Common : Tree → Prop
  | .leaf _ _ => True
  | .inner _ p k l r => (∀ o ∈ l.orders ++ r.orders, ∀ j, 128 - p ≤ j → o.id.testBit j = k.testBit j) ∧ l.Common ∧ r.Common

/-- The slab holds the tree `t` (none when the slab says that it is empty) and a list `free` of free slots, as many together as
have been in use. -/
structure Checked (s : Slab) (t : Option Tree) (free : List Nat) : Prop where
  empty : t = none ↔ s.leafCount = 0
  root : ∀ x, t = some x → s.rootNode = x.slot
  stored : ∀ x, t = some x → x.Stored s.getNode
  bits : ∀ x, t = some x → x.Bits
  common : ∀ x, t = some x → x.Common
  chain : Chain s.getNode s.freeListHead free
  freeLen : s.freeListLen = free.length
  count : (slotsOf t ++ free).length = s.bumpIndex
  range : s.bumpIndex < 2 ^ 64

end AOB.Wasm
