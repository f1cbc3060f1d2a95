import Verif.Model.WasmEdit
import Verif.Spec.Types
/-
Slabs of the older format: a tree and a list of free slots that share the slots in use.
-/
namespace AOB.Wasm

/-- A tree of orders, with the slots its nodes are in. -/
inductive Tree where
  | leaf (slot : Nat) (o : Order Bytes)
  | inner (slot prefixLen key : Nat) (left right : Tree)

/-- The slot of the root. -/
def Tree.slot : Tree → Nat
  | .leaf h _ => h
  | .inner h _ _ _ _ => h

/-- All slots of the tree. -/
def Tree.slots : Tree → List Nat
  | .leaf h _ => [h]
  | .inner h _ _ l r => h :: (l.slots ++ r.slots)

/-- The orders, from left to right. -/
def Tree.orders : Tree → List (Order Bytes)
  | .leaf _ o => [o]
  | .inner _ _ _ l r => l.orders ++ r.orders

/-- The slots of the leaves, from left to right. -/
def Tree.leafSlots : Tree → List Nat
  | .leaf h _ => [h]
  | .inner _ _ _ l r => l.leafSlots ++ r.leafSlots

/-- The slots hold the nodes of the tree. -/
def Tree.Stored (get : Nat → Res Node) : Tree → Prop
  | .leaf h o => get h = .ok (.leaf o.id o.cb o.qty)
  | .inner h p k l r => get h = .ok (.inner p k l.slot r.slot) ∧ l.Stored get ∧ r.Stored get

/-- Each inner node separates the orders below it by a bit of their ids. -/
def Tree.Bits : Tree → Prop
  | .leaf _ _ => True
  | .inner _ p _ l r => p < 128 ∧ (∀ o ∈ l.orders, o.id.testBit (127 - p) = false) ∧
      (∀ o ∈ r.orders, o.id.testBit (127 - p) = true) ∧ l.Bits ∧ r.Bits

/-- The free slots are chained. -/
def Chain (get : Nat → Res Node) : Nat → List Nat → Prop
  | _, [] => True
  | head, [h] => head = h ∧ ∃ n, get h = .ok (.lastFree n)
  | head, h :: h' :: t => head = h ∧ get h = .ok (.free h') ∧ Chain get h' (h' :: t)

/-- The slots of the tree, if there is one. -/
def slotsOf : Option Tree → List Nat
  | none => []
  | some t => t.slots

/-- The orders of the tree, if there is one. -/
def ordersOf : Option Tree → List (Order Bytes)
  | none => []
  | some t => t.orders

/-- The slab holds the tree `t` (none when empty), `free` lists its free slots, and each slot below the bump index is in one of
the two. -/
structure Good (s : Slab) (t : Option Tree) (free : List Nat) : Prop where
  size : s.slotSize = computeSlotSize s.callbackInfoLen
  room : 65 + s.bumpIndex * s.slotSize ≤ s.data.length
  bump : s.bumpIndex < 2 ^ 32
  nodup : (slotsOf t ++ free).Nodup
  range : ∀ h ∈ slotsOf t ++ free, h < s.bumpIndex
  count : (slotsOf t ++ free).length = s.bumpIndex
  freeLen : s.freeListLen = free.length
  head : s.freeListHead < 2 ^ 32
  chain : Chain s.getNode s.freeListHead free
  leaves : s.leafCount = (ordersOf t).length
  root : ∀ x, t = some x → s.rootNode = x.slot
  stored : ∀ x, t = some x → x.Stored s.getNode
  bits : ∀ x, t = some x → x.Bits

/-- The values of a node fit their fields. -/
def Node.Fits (callbackInfoLen : Nat) : Node → Prop
  | .uninitialized => True
  | .inner p k c0 c1 => p < 2 ^ 32 ∧ k < 2 ^ 128 ∧ c0 < 2 ^ 32 ∧ c1 < 2 ^ 32
  | .leaf k cb q => k < 2 ^ 128 ∧ cb.length = callbackInfoLen ∧ q < 2 ^ 64
  | .free n => n < 2 ^ 32
  | .lastFree n => n < 2 ^ 32

/-- Many orders are removed, one after the other. -/
def removeAll (fuel : Nat) : List Nat → Slab → Res Slab
  | [], s => .ok s
  | k :: ks, s => s.removeByKey k fuel >>= fun r => removeAll fuel ks r.2

end AOB.Wasm
