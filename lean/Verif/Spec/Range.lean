import Verif.Model.Wire
/-
Ranges: the values that the Rust types can hold (the model has natural numbers where the code has `u8` to `u128`).
-/
namespace AOB

def SlabHeader.Fits (h : SlabHeader) : Prop :=
  h.leafFreeListLen < 256 ^ 4 ∧ h.leafFreeListHead < 256 ^ 4 ∧ h.leafBumpIndex < 256 ^ 4 ∧
  h.innerNodeFreeListLen < 256 ^ 4 ∧ h.innerNodeFreeListHead < 256 ^ 4 ∧ h.innerNodeBumpIndex < 256 ^ 4 ∧
  h.rootNode < 256 ^ 4 ∧ h.leafCount < 256 ^ 4

def LeafNode.Fits (n : LeafNode) : Prop := n.key < 256 ^ 16 ∧ n.baseQuantity < 256 ^ 8

def InnerNode.Fits (n : InnerNode) : Prop :=
  n.key < 256 ^ 16 ∧ n.prefixLen < 256 ^ 8 ∧ n.child0 < 256 ^ 4 ∧ n.child1 < 256 ^ 4

def FillEvent.Fits (e : FillEvent) : Prop :=
  e.tag < 256 ^ 1 ∧ e.takerSide < 256 ^ 1 ∧ e.padding.length = 6 ∧ e.quoteSize < 256 ^ 8 ∧
  e.makerOrderId < 256 ^ 16 ∧ e.baseSize < 256 ^ 8

def OutEvent.Fits (e : OutEvent) : Prop :=
  e.tag < 256 ^ 1 ∧ e.side < 256 ^ 1 ∧ e.padding.length = 14 ∧ e.orderId < 256 ^ 16 ∧ e.baseSize < 256 ^ 8

def EventQueueHeader.Fits (h : EventQueueHeader) : Prop :=
  h.head < 256 ^ 8 ∧ h.count < 256 ^ 8 ∧ h.seqNum < 256 ^ 8

def MarketState.Fits (m : MarketState) : Prop := m.minBaseOrderSize < 256 ^ 8 ∧ m.tickSize < 256 ^ 8

/-- The in-memory slab is representable. -/
def Slab.Fits {C : Type} (s : Slab C) : Prop :=
  s.header.Fits ∧ (∀ n ∈ s.leafNodes, n.Fits) ∧ (∀ n ∈ s.innerNodes, n.Fits)

/-- The in-memory queue is representable. -/
def EventQueue.Fits {C : Type} (q : EventQueue C) : Prop := q.header.Fits ∧ ∀ e ∈ q.events, e.Fits

/-- The integer fields fit in `u64`. -/
def NewOrderParams.Fits {C : Type} (p : NewOrderParams C) : Prop :=
  p.maxBaseQty < 256 ^ 8 ∧ p.maxQuoteQty < 256 ^ 8 ∧ p.limitPrice < 256 ^ 8 ∧ p.matchLimit < 256 ^ 8

/-- The fields fit. -/
def OrderSummary.Fits (s : OrderSummary) : Prop :=
  (∀ x, s.postedOrderId = some x → x < 256 ^ 16) ∧ s.totalBaseQty < 256 ^ 8 ∧ s.totalQuoteQty < 256 ^ 8 ∧
  s.totalBaseQtyPosted < 256 ^ 8

/-- The parameters of an instruction are within the ranges of their types. -/
def Instr.Fits {C : Type} : Instr C → Prop
  | .newOrder p => p.Fits
  | .cancelOrder id => id < 256 ^ 16
  | .massCancelOrders ids => ids.length < 256 ^ 4 ∧ ∀ id ∈ ids, id < 256 ^ 16
  | .consumeEvents n => n < 256 ^ 8

end AOB
