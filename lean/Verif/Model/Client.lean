import Verif.Model.Wire
/-
Model of the client: `js/src/slab.ts`, `js/src/event_queue.ts`, `js/src/market_state.ts`, the instruction encodings of
`js/src/raw_instructions.ts`.

JavaScript numbers and `BN`s are natural numbers (all numbers met are far below `2^53`; `BN` is unbounded);
exceptions are `Err.panic`. `borsh`'s `deserializeUnchecked` reads the fields in schema order, little-endian, ignores
what follows, and throws when the buffer is too short.
-/
namespace AOB.Js

/-- `Buffer.slice(i, j)` / `Array.slice(i, j)` for `0 ≤ i`: clamped to the buffer.
As in `slab.ts` 167-174, 235-245, `event_queue.ts` 173-174, 210. -/
def slice (b : Bytes) (i j : Nat) : Bytes := (b.drop i).take (j - i)

/-- An unsigned integer field of `n` bytes at offset `off`.
(`["x", "u64"]` in a schema, read by `borsh`, external: `slab.ts` 25-27, 52-53, 95-106, `event_queue.ts` 35-38, 74-76.) -/
def readUint (b : Bytes) (off n : Nat) : Res Nat :=
  if off + n ≤ b.length then .ok (field b off n) else .error .panic

/-- A byte array field of `n` bytes at offset `off` (`["x", [n]]` in a schema).
(`market_state.ts` 47-49, `event_queue.ts` 73, 115, read by `borsh`, external.) -/
def readArray (b : Bytes) (off n : Nat) : Res Bytes :=
  if off + n ≤ b.length then .ok (slice b off (off + n)) else .error .panic

/-- `BN.toNumber()`: throws above 53 bits. (`bn.js`, external; `slab.ts` 123, 216-219, `event_queue.ts` 256, 266-267.) -/
def toNumber (x : Nat) : Res Nat := if x < 2 ^ 53 then .ok x else .error .panic

/-! ### `slab.ts` -/

/-- `slab.ts` 141-147: class `Slab` (its header without the account tag). -/
structure Slab where
  header : SlabHeader
  leafBuffer : Bytes
  innerNodeBuffer : Bytes
  callbackInfoBuffer : Bytes
  callBackInfoLen : Nat
  orderCapacity : Nat
  deriving DecidableEq

/-- `slab.ts` 72-134: `deserializeUnchecked(SlabHeader.schema, SlabHeader, data)`: a `u64` tag and eight `u32`. -/
def readHeader (data : Bytes) : Res SlabHeader := do
  let tag ← readUint data 0 8
  let _ ← toNumber tag                                                         -- `accountTag.toNumber()`
  let leafFreeListLen ← readUint data 8 4
  let leafFreeListHead ← readUint data 12 4
  let leafBumpIndex ← readUint data 16 4
  let innerNodeFreeListLen ← readUint data 20 4
  let innerNodeFreeListHead ← readUint data 24 4
  let innerNodeBumpIndex ← readUint data 28 4
  let rootNode ← readUint data 32 4
  let leafCount ← readUint data 36 4
  .ok { leafFreeListLen, leafFreeListHead, leafBumpIndex, innerNodeFreeListLen, innerNodeFreeListHead,
        innerNodeBumpIndex, rootNode, leafCount }

/-- `slab.ts` 154-187: `Slab.deserialize` and the constructor. `capacity` is a possibly fractional number
`num / den`; the arguments of `slice` are truncated. Computed here in exact rationals (the code divides in floating
point). A buffer too short for one leaf would give a negative capacity; such an account is no slab for the program
either (`from_buffer` panics) and is an error here. -/
def Slab.deserialize (data : Bytes) (callBackInfoLen : Nat) : Res Slab := do
  let header ← readHeader data
  let leafSize := 24 + callBackInfoLen                                         -- 161
  if data.length < 40 + leafSize then .error .panic
  else
    let num := data.length - 40 - leafSize                                     -- 163-165
    let den := leafSize + 32
    let innerNodesBufferOffset := 40 + 24 + 24 * num / den                     -- 166: `40 + (capacity + 1) * 24`
    let callbackInfoBufferOffset := 40 + 24 + (24 + 32) * num / den            -- 168-169
    .ok { header,
          leafBuffer := slice data 40 innerNodesBufferOffset,
          innerNodeBuffer := slice data innerNodesBufferOffset callbackInfoBufferOffset,
          callbackInfoBuffer := data.drop callbackInfoBufferOffset,
          callBackInfoLen, orderCapacity := num / den }

/-- `slab.ts` 189-200: `Slab.computeAllocationSize`, in JavaScript's numbers, where `desired - 1` may be negative: written
with the subtraction last, which never goes below 0 (the result for a capacity of 0 is 8). -/
def Slab.computeAllocationSize (desired callbackInfoLen : Nat) : Nat :=
  40 + 24 + callbackInfoLen + desired * (24 + 32 + callbackInfoLen) - (24 + 32 + callbackInfoLen)

/-- The result of `getNode`: `LeafNode | InnerNode`. (`slab.ts` 233-247.) -/
inductive Node where
  | leaf (n : LeafNode)
  | inner (n : InnerNode)
  deriving DecidableEq

/-- `slab.ts` 46-57: the fields of a `LeafNode`. -/
def readLeaf (b : Bytes) : Res LeafNode := do
  let key ← readUint b 0 16
  let baseQuantity ← readUint b 16 8
  .ok { key, baseQuantity }

/-- `slab.ts` 19-31: the fields of an `InnerNode`. -/
def readInner (b : Bytes) : Res InnerNode := do
  let key ← readUint b 0 16
  let prefixLen ← readUint b 16 8
  let child0 ← readUint b 24 4
  let child1 ← readUint b 28 4
  .ok { key, prefixLen, child0, child1 }

/-- `slab.ts` 233-247: `getNode`; `isLeaf` (72-74) tests bit 31, `notn(32)` is the complement on 32 bits. -/
def Slab.getNode (s : Slab) (handle : Nat) : Res Node :=
  if isInnerHandle handle then do
    let index := notU32 handle
    let n ← readInner (slice s.innerNodeBuffer (index * 32) ((index + 1) * 32))
    .ok (.inner n)
  else do
    let n ← readLeaf (slice s.leafBuffer (handle * 24) ((handle + 1) * 24))
    .ok (.leaf n)

/-- `slab.ts` 411-419: `getCallBackInfo` of a leaf. -/
def Slab.getCallBackInfo (s : Slab) (handle : Nat) : Bytes :=
  slice s.callbackInfoBuffer (handle * s.callBackInfoLen) ((handle + 1) * s.callBackInfoLen)

/-- `LeafNodeRef` (`slab.ts` 136-139). -/
structure LeafRef where
  leafNode : LeafNode
  callbackInfo : Bytes
  deriving DecidableEq

/-- The walk shared by `items` (`slab.ts` 289-310) and `getL2DepthJS` (369-395): a stack of handles, the end of the
array being the head of the list; `visit` is the loop body on a leaf, `none` when it breaks off the loop. -/
def Slab.walk {σ : Type} (s : Slab) (descending : Bool) (visit : σ → LeafRef → Option σ) :
    Nat → List Nat → σ → Res σ
  | _, [], st => .ok st
  | 0, _ :: _, _ => .error .diverge
  | fuel + 1, handle :: stack, st => do
    match ← s.getNode handle with
    | .leaf n =>
      match visit st { leafNode := n, callbackInfo := s.getCallBackInfo handle } with
      | none => .ok st
      | some st => s.walk descending visit fuel stack st
    | .inner n => s.walk descending visit fuel (n.child descending :: n.child (!descending) :: stack) st

/-- A bound on the number of nodes visited.
No counterpart: the loops of `slab.ts` 212-230, 294-309 and 370-400 have no bound; see DESIGN, fuel. -/
def Slab.fuel (s : Slab) : Nat := s.leafBuffer.length + s.innerNodeBuffer.length + 1

/-- Start of the walk at the root; an empty slab is left at once (`slab.ts` 290-292, 365-367). -/
def Slab.walkAll {σ : Type} (s : Slab) (descending : Bool) (visit : σ → LeafRef → Option σ) (st : σ) : Res σ :=
  if s.header.leafCount = 0 then .ok st else s.walk descending visit s.fuel [s.header.rootNode] st

/-- `slab.ts` 289-310: all of `items(descending)`. -/
def Slab.items (s : Slab) (descending : Bool) : Res (List LeafRef) :=
  s.walkAll descending (fun l x => some (l ++ [x])) []

/-- `slab.ts` 347-356: `getMinMaxNodes`. -/
def Slab.getMinMaxNodes (s : Slab) (maxNbOrders : Nat) (max : Bool) : Res (List LeafRef) :=
  s.walkAll max (fun l x => if l.length = maxNbOrders then none else some (l ++ [x])) []

/-- `Price` (`types.ts` 6-9). -/
structure Price where
  size : Nat
  price : Nat
  deriving DecidableEq, Repr

/-- `slab.ts` 374-390: the body of the loop of `getL2DepthJS` on a leaf. The array `raw` of sizes and prices is kept
as the list of pairs it is turned into at the end (396-402); the length test `raw.length === 2 * depth` is on its
length. -/
def l2Visit (depth : Nat) (raw : List Price) (x : LeafRef) : Option (List Price) :=
  let leafPrice := x.leafNode.key / 2 ^ 64                                     -- `getPrice`: `key.shrn(64)`
  match raw.getLast? with
  | some last =>
    if last.price = leafPrice then
      some (raw.dropLast ++ [{ last with size := last.size + x.leafNode.baseQuantity }])
    else if raw.length = depth then none
    else some (raw ++ [⟨x.leafNode.baseQuantity, leafPrice⟩])
  | none => if raw.length = depth then none else some (raw ++ [⟨x.leafNode.baseQuantity, leafPrice⟩])

/-- `slab.ts` 364-404: `getL2DepthJS`. -/
def Slab.getL2DepthJS (s : Slab) (depth : Nat) (increasing : Bool) : Res (List Price) :=
  s.walkAll (!increasing) (l2Visit depth) []

/-- `slab.ts` 212-230: the loop of `getNodeByKey`. `128 - bitLength` is the number of leading zeros of a 128 bit
number; `shln` of a negative number throws. -/
def Slab.getNodeByKeyFrom (s : Slab) (key : Nat) : Nat → Nat → Res (Option LeafNode)
  | 0, _ => .error .diverge
  | fuel + 1, handle => do
    match ← s.getNode handle with
    | .inner n => do
      let prefixLen ← toNumber n.prefixLen
      let common := leadingZeros (n.key ^^^ key)
      if common < prefixLen then .ok none
      else if 127 < prefixLen then .error .panic
      else
        let critBit : Bool := !(key &&& (1 <<< (127 - prefixLen)) == 0)
        s.getNodeByKeyFrom key fuel (n.child critBit)
    | .leaf n => if n.key ≠ key then .ok none else .ok (some n)

/-- `slab.ts` 207-231: `getNodeByKey`, for a key of at most 128 bits. -/
def Slab.getNodeByKey (s : Slab) (key : Nat) : Res (Option LeafNode) :=
  if s.header.leafCount = 0 then .ok none else s.getNodeByKeyFrom key s.fuel s.header.rootNode

/-! ### `event_queue.ts` -/

/-- `event_queue.ts` 139-143: class `EventQueue`; the header without its tag. -/
structure EventQueue where
  header : EventQueueHeader
  eventsBuffer : Bytes
  callbackInfosBuffer : Bytes
  callBackInfoLen : Nat
  deriving DecidableEq

/-- `event_queue.ts` 163-181: `EventQueue.parse`; `capacity` as for the slab. -/
def EventQueue.parse (callBackInfoLen : Nat) (data : Bytes) : Res EventQueue := do
  let _ ← readUint data 0 8
  let head ← readUint data 8 8
  let count ← readUint data 16 8
  let seqNum ← readUint data 24 8
  let num := data.length - 32
  let den := 40 + 2 * callBackInfoLen
  let callbackInfosOffset := 32 + 40 * num / den
  .ok { header := { head, count, seqNum }, eventsBuffer := slice data 32 callbackInfosOffset,
        callbackInfosBuffer := data.drop callbackInfosOffset, callBackInfoLen }

/-- `EventFill` and `EventOut` (`event_queue.ts` 55-134). -/
inductive Event where
  | fill (takerSide : Nat) (quoteSize makerOrderId baseSize : Nat) (makerCallbackInfo takerCallbackInfo : Bytes)
  | out (side : Nat) (delete : Bool) (orderId baseSize : Nat) (callbackInfo : Bytes)
  deriving DecidableEq

/-- `event instanceof EventFill`. (`event_queue.ts` 270.) -/
def Event.isFill : Event → Bool
  | .fill .. => true
  | .out .. => false

/-- `event_queue.ts` 207-247: `parseEvent`. -/
def EventQueue.parseEvent (q : EventQueue) (idx : Nat) : Res Event :=
  let data := slice q.eventsBuffer (idx * 40) (idx * 40 + 40)
  let info (k : Nat) : Bytes :=
    slice q.callbackInfosBuffer (k * q.callBackInfoLen) (k * q.callBackInfoLen + q.callBackInfoLen)
  match data[0]? with
  | none => .error .panic
  | some t =>
    if t = 0 then do
      let takerSide ← readUint data 1 1
      let _ ← readArray data 2 6
      let quoteSize ← readUint data 8 8
      let makerOrderId ← readUint data 16 16
      let baseSize ← readUint data 32 8
      .ok (.fill takerSide quoteSize makerOrderId baseSize (info (2 * idx)) (info (2 * idx + 1)))
    else if t = 1 then do
      let side ← readUint data 1 1
      let delete ← readUint data 2 1
      let _ ← readArray data 3 13
      let orderId ← readUint data 16 16
      let baseSize ← readUint data 32 8
      .ok (.out side (delete == 1) orderId baseSize (info (2 * idx)))
    else .error .panic

/-- `event_queue.ts` 254-257: `peekAt`. It does not look at `count`. `% 0` is `NaN`, for which `parseEvent` throws. -/
def EventQueue.peekAt (q : EventQueue) (idx : Nat) : Res Event := do
  let len := q.eventsBuffer.length / 40
  let head ← toNumber q.header.head
  if len = 0 then .error .panic else q.parseEvent ((idx + head) % len)

/-- `[...Array(n).keys()].map((e) => this.parseEvent(e))`. (`event_queue.ts` 268-269.) -/
def EventQueue.parseUpTo (q : EventQueue) : Nat → Res (List Event)
  | 0 => .ok []
  | n + 1 => do
    let es ← q.parseUpTo n
    let e ← q.parseEvent n
    .ok (es ++ [e])

/-- `event_queue.ts` 264-271: `parseFill`; a missing limit and the limit 0 both mean no limit. -/
def EventQueue.parseFill (q : EventQueue) (limit : Option Nat) : Res (List Event) := do
  let count ← toNumber q.header.count
  let n := match limit with
    | some l => if l = 0 then count else min l count
    | none => count
  let es ← q.parseUpTo n
  .ok (es.filter Event.isFill)

/-- `event_queue.ts` 286-294: `EventQueue.computeAllocationSize`. -/
def EventQueue.computeAllocationSize (desired callbackInfoLen : Nat) : Nat :=
  desired * (40 + 2 * callbackInfoLen) + 32

/-! ### `market_state.ts` -/

/-- `market_state.ts` 40-86: `MarketState.deserialize`: the tag and the fields. -/
def readMarketState (data : Bytes) : Res (Nat × MarketState) := do
  let tag ← readUint data 0 8
  let _ ← readArray data 8 96
  let minBaseOrderSize ← readUint data 104 8
  let tickSize ← readUint data 112 8
  .ok (tag, { eventQueue := pubkeyAt data 8, bids := pubkeyAt data 40, asks := pubkeyAt data 72,
              minBaseOrderSize, tickSize })

/-! ### `raw_instructions.ts` -/

/-- The instructions as the client builds them, with the fields of the classes.
(`raw_instructions.ts` 11, 76, 134, 198, 278, 376.) -/
inductive Ix where
  | createMarket (callerAuthority : Bytes) (callbackInfoLen callbackIdLen minBaseOrderSize tickSize crankerReward : Nat)
  | newOrder (maxBaseQty maxQuoteQty limitPrice side matchLimit : Nat) (callbackInfo : Bytes)
      (postOnly postAllowed selfTradeBehavior : Nat)
  | consumeEvents (numberOfEntriesToConsume : Nat)
  | cancelOrder (orderId : Nat)
  | closeMarket
  | massCancelOrder (orderIds : List Nat)
  deriving DecidableEq

/-- The `serialize()` methods: `raw_instructions.ts` 11-27 (tag 4), 76-97 (2), 134-155 (3), 198-241 (0), 278-333 (1),
376-397 (5). A field `["u8"]` or `["u128"]` is a borsh `Vec`: a `u32` length and the elements. -/
def Ix.serialize : Ix → Bytes
  | .createMarket ca cil cidl mb tick cr =>
    0 :: (ca ++ (toLE 8 cil ++ (toLE 8 cidl ++ (toLE 8 mb ++ (toLE 8 tick ++ toLE 8 cr)))))
  | .newOrder mb mq lp side ml cb po pa stb =>
    1 :: (toLE 8 mb ++ (toLE 8 mq ++ (toLE 8 lp ++ (toLE 1 side ++ (toLE 8 ml ++
      ((toLE 4 cb.length ++ cb) ++ (toLE 1 po ++ (toLE 1 pa ++ toLE 1 stb))))))))
  | .consumeEvents n => 2 :: toLE 8 n
  | .cancelOrder id => 3 :: toLE 16 id
  | .closeMarket => [4]
  | .massCancelOrder ids => 5 :: encVecU128 ids

/-- The account lists built by the `getInstruction` methods: `raw_instructions.ts` 28-74 (closeMarket), 98-132
(consumeEvents), 156-196 (cancelOrder), 242-276 (createMarket), 334-374 (newOrder), 398-438 (massCancel). Whether an
account is marked as signer or writable is in `Model/Bindings.lean`. -/
def Ix.keys (market eventQueue bids asks authority target : Pubkey) : Ix → List Pubkey
  | .createMarket .. => [market, eventQueue, bids, asks]
  | .newOrder .. | .cancelOrder _ | .massCancelOrder _ => [market, eventQueue, bids, asks, authority]
  | .consumeEvents _ => [market, eventQueue, authority, target]
  | .closeMarket => [market, eventQueue, bids, asks, authority, target]

/-- `utils.ts` 8-10: `getPriceFromKey`. -/
def getPriceFromKey (key : Nat) : Nat := key / 2 ^ 64

end AOB.Js
