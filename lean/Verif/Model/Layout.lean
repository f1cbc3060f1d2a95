import Verif.Model.Market
/-
Byte layout of the accounts: the `#[repr(C)]` structs and the `from_buffer` functions.

`bytemuck` casts are modelled as decoding; writing through the resulting `&mut` references as re-encoding into
the same place (`writeBack`). Alignment requirements of the casts are left out here; `Model/Align.lean`
puts them in, and C92 shows that they make no difference on the chain.
-/
namespace AOB

/-- `bytemuck::Pod`: a type of fixed size whose values are exactly its byte strings.
Derived for the types of `critbit.rs` 13-89, `event_queue.rs` 19-132 and `market_state.rs` 14. -/
class Pod (C : Type) where
  size : Nat
  size_pos : 0 < size
  toBytes : C → Bytes
  ofBytes : Bytes → C
  length_toBytes : ∀ c, (toBytes c).length = size
  ofBytes_toBytes : ∀ c, ofBytes (toBytes c) = c
  toBytes_ofBytes : ∀ b, b.length = size → toBytes (ofBytes b) = b

/-- The unsigned integer stored in `n` bytes at offset `off`.
The fields of `#[repr(C)]` structs (`critbit.rs` 13-89, `event_queue.rs` 19-132). -/
def field (b : Bytes) (off n : Nat) : Nat := ofLE ((b.drop off).take n)

/-- `k` consecutive pieces of `n` bytes. The elements of the slices of `critbit.rs` 154-156. -/
def pieces (n : Nat) : Nat → Bytes → List Bytes
  | 0, _ => []
  | k + 1, b => b.take n :: pieces n k (b.drop n)

/-- `bytemuck::cast_slice_mut`: a byte string whose length is not a multiple of the element size is a panic.
(`critbit.rs` 154-156, `event_queue.rs` 171-172.) -/
def castSlice {α : Type} (n : Nat) (dec : Bytes → α) (b : Bytes) : Res (List α) :=
  if b.length % n = 0 then .ok ((pieces n (b.length / n) b).map dec) else .error .panic

/-! ### The structs -/

/-- `critbit.rs` 13-30: `SlabHeader::LEN`. -/
def SlabHeader.LEN : Nat := 32

/-- `critbit.rs` 13-26, `#[repr(C)]`: eight `u32`. -/
def SlabHeader.toBytes (h : SlabHeader) : Bytes :=
  toLE 4 h.leafFreeListLen ++ (toLE 4 h.leafFreeListHead ++ (toLE 4 h.leafBumpIndex ++
  (toLE 4 h.innerNodeFreeListLen ++ (toLE 4 h.innerNodeFreeListHead ++ (toLE 4 h.innerNodeBumpIndex ++
  (toLE 4 h.rootNode ++ toLE 4 h.leafCount))))))

/-- The cast of `critbit.rs` 150 to the struct of `critbit.rs` 13-26. -/
def SlabHeader.ofBytes (b : Bytes) : SlabHeader :=
  { leafFreeListLen := field b 0 4, leafFreeListHead := field b 4 4, leafBumpIndex := field b 8 4,
    innerNodeFreeListLen := field b 12 4, innerNodeFreeListHead := field b 16 4,
    innerNodeBumpIndex := field b 20 4, rootNode := field b 24 4, leafCount := field b 28 4 }

/-- `critbit.rs` 38-51: `LeafNode::LEN`. -/
def LeafNode.LEN : Nat := 24

/-- `critbit.rs` 38-48: `key` is a `u128` on the chain and `[u64; 2]`, low word first, elsewhere: the same 16
little-endian bytes. -/
def LeafNode.toBytes (n : LeafNode) : Bytes := toLE 16 n.key ++ toLE 8 n.baseQuantity

/-- The cast of `critbit.rs` 154 to the struct of `critbit.rs` 38-48. -/
def LeafNode.ofBytes (b : Bytes) : LeafNode := { key := field b 0 16, baseQuantity := field b 16 8 }

/-- `critbit.rs` 83-92: `InnerNode::LEN`. -/
def InnerNode.LEN : Nat := 32

/-- `critbit.rs` 83-89. -/
def InnerNode.toBytes (n : InnerNode) : Bytes :=
  toLE 16 n.key ++ (toLE 8 n.prefixLen ++ (toLE 4 n.child0 ++ toLE 4 n.child1))

/-- The cast of `critbit.rs` 155 to the struct of `critbit.rs` 83-89. -/
def InnerNode.ofBytes (b : Bytes) : InnerNode :=
  { key := field b 0 16, prefixLen := field b 16 8, child0 := field b 24 4, child1 := field b 28 4 }

/-- `event_queue.rs` 40-43: `FillEvent::LEN`. -/
def FillEvent.LEN : Nat := 40

/-- `event_queue.rs` 19-38. -/
def FillEvent.toBytes (e : FillEvent) : Bytes :=
  toLE 1 e.tag ++ (toLE 1 e.takerSide ++ (e.padding ++ (toLE 8 e.quoteSize ++ (toLE 16 e.makerOrderId ++
  toLE 8 e.baseSize))))

/-- The cast of `event_queue.rs` 171 to the struct of `event_queue.rs` 19-38. -/
def FillEvent.ofBytes (b : Bytes) : FillEvent :=
  { tag := field b 0 1, takerSide := field b 1 1, padding := (b.drop 2).take 6, quoteSize := field b 8 8,
    makerOrderId := field b 16 16, baseSize := field b 32 8 }

/-- `event_queue.rs` 45-62. -/
def OutEvent.toBytes (e : OutEvent) : Bytes :=
  toLE 1 e.tag ++ (toLE 1 e.side ++ (e.padding ++ (toLE 16 e.orderId ++ toLE 8 e.baseSize)))

/-- The cast of `event_queue.rs` 268 to the struct of `event_queue.rs` 45-62. -/
def OutEvent.ofBytes (b : Bytes) : OutEvent :=
  { tag := field b 0 1, side := field b 1 1, padding := (b.drop 2).take 14, orderId := field b 16 16,
    baseSize := field b 32 8 }

/-- `event_queue.rs` 134-137: `EventQueueHeader::LEN`. -/
def EventQueueHeader.LEN : Nat := 24

/-- `event_queue.rs` 123-132. -/
def EventQueueHeader.toBytes (h : EventQueueHeader) : Bytes :=
  toLE 8 h.head ++ (toLE 8 h.count ++ toLE 8 h.seqNum)

/-- The cast of `event_queue.rs` 170 to the struct of `event_queue.rs` 123-132. -/
def EventQueueHeader.ofBytes (b : Bytes) : EventQueueHeader :=
  { head := field b 0 8, count := field b 8 8, seqNum := field b 16 8 }

/-- `solana_program::pubkey::Pubkey`: 32 bytes. The type of the keys of `market_state.rs` 18-23. -/
abbrev Pubkey := { b : Bytes // b.length = 32 }

/-- The key at offset `off` (padded with zeros if the bytes are too short, which does not happen).
(`market_state.rs` 46.) -/
def pubkeyAt (b : Bytes) (off : Nat) : Pubkey :=
  ⟨((b.drop off).take 32).rightpad 32 0, by simp only [List.rightpad, List.length_append, List.length_replicate, List.length_take]; omega⟩

/-- `market_state.rs` 14-28: `struct MarketState`. -/
structure MarketState where
  eventQueue : Pubkey
  bids : Pubkey
  asks : Pubkey
  minBaseOrderSize : Nat
  tickSize : Nat
  deriving DecidableEq

/-- `market_state.rs` 32: `MarketState::LEN`. -/
def MarketState.LEN : Nat := 112

/-- The bytes of the struct of `market_state.rs` 14-28. -/
def MarketState.toBytes (m : MarketState) : Bytes :=
  m.eventQueue.1 ++ (m.bids.1 ++ (m.asks.1 ++ (toLE 8 m.minBaseOrderSize ++ toLE 8 m.tickSize)))

/-- The cast of `market_state.rs` 46 to the struct of `market_state.rs` 14-28. -/
def MarketState.ofBytes (b : Bytes) : MarketState :=
  { eventQueue := pubkeyAt b 0, bids := pubkeyAt b 32, asks := pubkeyAt b 64, minBaseOrderSize := field b 96 8,
    tickSize := field b 104 8 }

/-! ### Account tags -/

/-- `state.rs` 16-27: `enum AccountTag`. -/
inductive AccountTag where
  | uninitialized | market | eventQueue | bids | asks | disabled
  deriving DecidableEq, Repr

/-- `state.rs` 20-27: discriminants; `Market = 1 << 7`, the following ones count up. -/
def AccountTag.toNat : AccountTag → Nat
  | .uninitialized => 0
  | .market => 128
  | .eventQueue => 129
  | .bids => 130
  | .asks => 131
  | .disabled => 132

/-- `*bytemuck::from_bytes_mut(&mut data[0..8]) = tag as u64`: a slice shorter than 8 bytes is a panic.
(`close_market.rs` 106-109.) -/
def writeTag (buf : Bytes) (tag : AccountTag) : Res Bytes :=
  if 8 ≤ buf.length then .ok (toLE 8 tag.toNat ++ buf.drop 8) else .error .panic

/-- The `u64` tag at the start of an account (`market_state.rs` 38, `event_queue.rs` 159). -/
def readTag (buf : Bytes) : Res Nat := if 8 ≤ buf.length then .ok (field buf 0 8) else .error .panic

/-! ### `from_buffer` -/

/-- `market_state.rs` 34-47: checks the tag, sets it to `Market`, and casts the rest. Returns the state and the
account data with the tag set. -/
def MarketState.fromBuffer (buf : Bytes) (expected : AccountTag) : Res (MarketState × Bytes) := do
  let tag ← readTag buf
  if tag ≠ expected.toNat then .error (.ao .accountTagMismatch)
  else do
    let buf ← writeTag buf .market
    if (buf.drop 8).length ≠ MarketState.LEN then .error .panic           -- 46: `from_bytes_mut`
    else .ok (MarketState.ofBytes (buf.drop 8), buf)

/-- `market_state.rs` 50-56: `check_buffer_size`. -/
def MarketState.checkBufferSize (buf : Bytes) : Res Unit :=
  if buf.length ≠ 8 + MarketState.LEN then .error (.prog .invalidAccountData) else .ok ()

/-- Writing `*market_state = ..` (`create_market.rs` 100-106). -/
def MarketState.writeBack (buf : Bytes) (m : MarketState) : Bytes := buf.take 8 ++ m.toBytes

section
variable {C : Type} [Pod C]

/-- `critbit.rs` 137-158: `Slab::from_buffer`. Only byte 0 of the tag is compared (143). -/
def Slab.fromBuffer (C : Type) [Pod C] (buf : Bytes) (expected : AccountTag) : Res (Slab C) := do
  let leafSize := LeafNode.LEN + Pod.size C
  let a ← subU buf.length SlabHeader.LEN                                   -- 141
  let a ← subU a 8
  let a ← subU a leafSize
  let capacity := a / (leafSize + InnerNode.LEN)
  let tag ← idx buf 0
  if tag.toNat ≠ expected.toNat then .error (.ao .accountTagMismatch)      -- 143-145
  else do
    let rem := buf.drop 8                                                  -- 146
    let header := rem.take SlabHeader.LEN                                  -- 147
    let rem := rem.drop SlabHeader.LEN
    let leaves := rem.take ((capacity + 1) * LeafNode.LEN)                 -- 148
    let rem := rem.drop ((capacity + 1) * LeafNode.LEN)
    let inners := rem.take (capacity * InnerNode.LEN)                      -- 149
    let infos := rem.drop (capacity * InnerNode.LEN)
    let leafNodes ← castSlice LeafNode.LEN LeafNode.ofBytes leaves         -- 154-156
    let innerNodes ← castSlice InnerNode.LEN InnerNode.ofBytes inners
    let callbackInfos ← castSlice (Pod.size C) Pod.ofBytes infos
    .ok { header := SlabHeader.ofBytes header, leafNodes, innerNodes, callbackInfos }

/-- The account data after the slab obtained from `buf` has been changed to `s`.
(The slices of `critbit.rs` 146-156 are borrowed from it.) -/
def Slab.writeBack (buf : Bytes) (s : Slab C) : Bytes :=
  buf.take 8 ++ (s.header.toBytes ++ ((s.leafNodes.map LeafNode.toBytes).flatten ++
    ((s.innerNodes.map InnerNode.toBytes).flatten ++ (s.callbackInfos.map Pod.toBytes).flatten)))

/-- `critbit.rs` 117-126: `Slab::initialize`; `data[0]` of an empty account is a panic. -/
def Slab.initialize (asks bids : Bytes) : Res (Bytes × Bytes) := do
  let ta ← idx asks 0
  if ta.toNat ≠ AccountTag.uninitialized.toNat then .error (.prog .accountAlreadyInitialized)
  else do
    let tb ← idx bids 0
    if tb.toNat ≠ AccountTag.uninitialized.toNat then .error (.prog .accountAlreadyInitialized)
    else .ok (asks.set 0 (UInt8.ofNat AccountTag.asks.toNat), bids.set 0 (UInt8.ofNat AccountTag.bids.toNat))

/-- `critbit.rs` 128-134: `Slab::compute_allocation_size`; panics on 0. -/
def Slab.computeAllocationSize (C : Type) [Pod C] (desired : Nat) : Res Nat := do
  let n ← subU desired 1
  .ok (8 + SlabHeader.LEN + LeafNode.LEN + Pod.size C + n * (LeafNode.LEN + InnerNode.LEN + Pod.size C))

/-- `event_queue.rs` 151-174: `EventQueue::from_buffer`. Returns the queue and the account data with the tag set
to `EventQueue`. -/
def EventQueue.fromBuffer (C : Type) [Pod C] (buf : Bytes) (expected : AccountTag) :
    Res (EventQueue C × Bytes) := do
  let a ← subU buf.length 8                                                -- 157-158
  let a ← subU a EventQueueHeader.LEN
  let capacity := a / (FillEvent.LEN + 2 * Pod.size C)
  let tag ← readTag buf                                                    -- 159
  if tag ≠ expected.toNat then .error (.ao .accountTagMismatch)            -- 161-163
  else do
    let buf ← writeTag buf .eventQueue                                     -- 164
    let header := (buf.drop 8).take EventQueueHeader.LEN                   -- 166
    let rem := (buf.drop 8).drop EventQueueHeader.LEN
    let events := rem.take (capacity * FillEvent.LEN)                      -- 168
    let infos := rem.drop (capacity * FillEvent.LEN)
    let es ← castSlice FillEvent.LEN FillEvent.ofBytes events              -- 171-172
    let cs ← castSlice (Pod.size C) Pod.ofBytes infos
    .ok ({ header := EventQueueHeader.ofBytes header, events := es, callbackInfos := cs }, buf)

/-- The account data after the queue obtained from `buf` has been changed to `q`.
(The slices of `event_queue.rs` 166-172 are borrowed from it.) -/
def EventQueue.writeBack (buf : Bytes) (q : EventQueue C) : Bytes :=
  buf.take 8 ++ (q.header.toBytes ++ ((q.events.map FillEvent.toBytes).flatten ++
    (q.callbackInfos.map Pod.toBytes).flatten))

/-- `event_queue.rs` 208-212: `EventQueue::compute_allocation_size`. -/
def EventQueue.computeAllocationSize (C : Type) [Pod C] (desired : Nat) : Nat :=
  desired * (FillEvent.LEN + 2 * Pod.size C) + EventQueueHeader.LEN + 8

/-- `event_queue.rs` 214-227: `EventQueue::check_buffer_size`. -/
def EventQueue.checkBufferSize (C : Type) [Pod C] (buf : Bytes) : Res Unit :=
  let headerOffset := EventQueueHeader.LEN + 8
  let eventSize := FillEvent.LEN + 2 * Pod.size C
  if buf.length < headerOffset + 5 * eventSize then .error (.prog .invalidAccountData)
  else if (buf.length - headerOffset) % eventSize ≠ 0 then .error (.prog .invalidAccountData)
  else .ok ()

end

/-! ### The callback info of the stand-alone program -/

/-- `[u8; 32]`, the callback info type of `entrypoint.rs` 22. -/
abbrev Bytes32 := { b : Bytes // b.length = 32 }

instance : Pod Bytes32 where
  size := 32
  size_pos := by decide
  toBytes b := b.1
  ofBytes b := pubkeyAt b 0
  length_toBytes b := b.2
  ofBytes_toBytes b := by
    apply Subtype.ext
    simp [pubkeyAt, List.rightpad, List.take_of_length_le (Nat.le_of_eq b.2), b.2]
  toBytes_ofBytes b h := by
    simp [pubkeyAt, List.rightpad, List.take_of_length_le (Nat.le_of_eq h), h]

/-- `orderbook.rs` 48-54: `impl CallbackInfo for [u8; 32]`. -/
instance : CallbackInfo Bytes32 := ⟨Bytes32, id⟩

end AOB
