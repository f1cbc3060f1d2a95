import Verif.Model.Wasm
/-
Model of the functions of `js/wasm/src/critbit.rs` that nothing in the repository calls: writing and freeing nodes, removing
a leaf, listing leaves, the header. The crate has no function that adds a leaf to the tree.

As in `Model/Wasm.lean`, offsets are computed without a bound and loops take fuel; `+=` and `-=` on `u64` and shifts by 128 or
more panic. A function with `&mut self` returns the new slab; what an erroneous or panicking call has already changed is
not kept. The test helpers `find_by_key`, `check_invariants` (`#[cfg(test)]`, 478-587) are in `Model/WasmCheck.lean`.
-/
namespace AOB.Wasm

/-- `wasm/src/critbit.rs` 193-211: `Slab` with its `SlabHeader`; the tag as its number (`AccountTag`, 31-39). -/
structure Slab where
  tag : Nat
  bumpIndex : Nat
  freeListLen : Nat
  freeListHead : Nat
  rootNode : Nat
  leafCount : Nat
  market : Bytes
  data : Bytes
  callbackInfoLen : Nat
  slotSize : Nat
  deriving DecidableEq

/-- `wasm/src/critbit.rs` 222-233 `Slab::new`. -/
def Slab.new (data : Bytes) (callbackInfoLen slotSize : Nat) : Res Slab :=
  match data[0]? with
  | none => .error .panic
  | some t =>
    if 4 < t.toNat ∨ data.length < 65 then .error .panic
    else .ok
      { tag := t.toNat, bumpIndex := field data 1 8, freeListLen := field data 9 8, freeListHead := field data 17 4,
        rootNode := field data 21 4, leafCount := field data 25 8, market := Js.slice data 33 65,
        data, callbackInfoLen, slotSize }

/-- Writes `b` into `data` at `off`. As `write_all` does in `js/wasm/src/critbit.rs` 264-265. -/
def patch (data : Bytes) (off : Nat) (b : Bytes) : Bytes := data.take off ++ b ++ data.drop (off + b.length)

/-- `wasm/src/critbit.rs` 235-239 `Slab::write_header`. -/
def Slab.writeHeader (s : Slab) : Res Slab :=
  if s.data.length < 65 then .error .panic
  else .ok { s with data := patch s.data 0 (UInt8.ofNat s.tag :: toLE 8 s.bumpIndex ++ toLE 8 s.freeListLen ++
    toLE 4 s.freeListHead ++ toLE 4 s.rootNode ++ toLE 8 s.leafCount ++ s.market) }

/-- `wasm/src/critbit.rs` 215-220 `Slab::check`. -/
def Slab.check (s : Slab) (side : Side) : Bool :=
  match side with
  | .bid => s.tag == 3
  | .ask => s.tag == 4

/-- `wasm/src/critbit.rs` 241-243 `Slab::compute_slot_size`. -/
def computeSlotSize (callbackInfoLen : Nat) : Nat := max (callbackInfoLen + 8 + 16 + 1) 32

/-- `wasm/src/critbit.rs` 248-250 `Slab::capacity`; a zero slot size panics. -/
def Slab.capacity (s : Slab) : Res Nat :=
  if s.data.length < 65 ∨ s.slotSize = 0 then .error .panic else .ok ((s.data.length - 65) / s.slotSize)

/-- `wasm/src/critbit.rs` 137-157 `Node::serialize`, 57-62 `LeafNode::serialize`. -/
def Node.bytes : Node → Bytes
  | .uninitialized => [0]
  | .inner p k c0 c1 => 1 :: (toLE 4 p ++ toLE 16 k ++ toLE 4 c0 ++ toLE 4 c1)
  | .leaf k cb q => 2 :: (toLE 16 k ++ cb ++ toLE 8 q)
  | .free n => 3 :: toLE 4 n
  | .lastFree n => 4 :: toLE 4 n

/-- `wasm/src/critbit.rs` 252-261 `Slab::get_node`, and the `unwrap` of its uses. -/
def Slab.getNode (s : Slab) (key : Nat) : Res Node := Wasm.getNode s.data s.callbackInfoLen s.slotSize key

/-- `wasm/src/critbit.rs` 263-266 `Slab::write_node`. -/
def Slab.writeNode (s : Slab) (node : Node) (key : Nat) : Res Slab :=
  let offset := 65 + key * s.slotSize
  if s.data.length < offset then .error .panic
  else if s.data.length < offset + node.bytes.length then .error .io
  else .ok { s with data := patch s.data offset node.bytes }

/-- The `unwrap` of a `write_node`. (`js/wasm/src/critbit.rs` 303, 318.) -/
def Slab.writeNode! (s : Slab) (node : Node) (key : Nat) : Res Slab :=
  match s.writeNode node key with
  | .ok s => .ok s
  | .error _ => .error .panic

/-- `wasm/src/critbit.rs` 268-305 `Slab::insert`: puts a node into a free slot. -/
def Slab.insert (s : Slab) (val : Node) : Res (Nat × Slab) :=
  if s.freeListLen = 0 then do
    let cap ← s.capacity
    if s.bumpIndex = cap then .error .io
    else if s.bumpIndex = 2 ^ 32 - 1 then .error .io
    else do
      let key := s.bumpIndex % 2 ^ 32
      let bumpIndex ← addU64 s.bumpIndex 1
      let s ← { s with bumpIndex }.writeNode val key
      .ok (key, s)
  else do
    let key := s.freeListHead
    let next ← (match ← s.getNode key with
      | .free n => if 1 < s.freeListLen then .ok n else .error .panic
      | .lastFree n => if s.freeListLen = 1 then .ok n else .error .panic
      | _ => .error .panic)
    let s ← { s with freeListHead := next, freeListLen := s.freeListLen - 1 }.writeNode! val key
    .ok (key, s)

/-- `wasm/src/critbit.rs` 307-323 `Slab::remove`, and the `unwrap` of its uses: frees a slot. -/
def Slab.remove (s : Slab) (key : Nat) : Res (Node × Slab) := do
  let val ← s.getNode key
  let node := if s.freeListLen = 0 then Node.lastFree s.freeListHead else Node.free s.freeListHead
  let s' ← s.writeNode! node key
  let freeListLen ← addU64 s.freeListLen 1
  .ok (val, { s' with freeListHead := key, freeListLen })

/-- `wasm/src/critbit.rs` 42-46 `InnerNode::walk_down`: the bit of the key the node looks at. -/
def walkDown (prefixLen key : Nat) : Res Bool :=
  if prefixLen < 128 then .ok (key.testBit (127 - prefixLen)) else .error .panic

/-- `wasm/src/critbit.rs` 436-454: the loop of `remove_by_key`, with the parent and the child at its end. -/
def removeLoop (get : Nat → Res Node) (searchKey : Nat) : Nat → Nat → Nat → Bool → Res (Option (Nat × Nat × Bool))
  | 0, _, _, _ => .error .diverge
  | fuel + 1, parent, child, critBit => get child >>= fun n =>
    match n with
    | .inner p _ c0 c1 => walkDown p searchKey >>= fun b =>
      removeLoop get searchKey fuel child (if b then c1 else c0) b
    | .leaf key _ _ => if key = searchKey then .ok (some (parent, child, critBit)) else .ok none
    | _ => .error .panic

/-- `wasm/src/critbit.rs` 415-465 `Slab::remove_by_key`. -/
def Slab.removeByKey (s : Slab) (searchKey fuel : Nat) : Res (Option Node × Slab) :=
  if s.leafCount = 0 then .ok (none, s)
  else s.getNode s.rootNode >>= fun n =>
    match n with
    | .leaf key _ _ =>
      if key = searchKey then
        if s.leafCount = 1 then do
          let (_, s') ← { s with rootNode := 0, leafCount := 0 }.remove s.rootNode
          .ok (some n, s')
        else .error .panic
      else .ok (none, s)
    | .inner p _ c0 c1 => do
      let b ← walkDown p searchKey
      match ← removeLoop s.getNode searchKey fuel s.rootNode (if b then c1 else c0) b with
      | none => .ok (none, s)
      | some (parent, child, critBit) =>
        match ← s.getNode parent with
        | .inner _ _ c0 c1 => do
          let (other, s) ← s.remove (if critBit then c0 else c1)
          let s ← s.writeNode! other parent
          let leafCount ← subU s.leafCount 1
          let (leaf, s) ← { s with leafCount }.remove child
          .ok (some leaf, s)
        | _ => .error .panic
    | _ => .error .panic

/-- `wasm/src/critbit.rs` 467-473 `Slab::remove_min`, `Slab::remove_max`; 158-164 `Node::key`. -/
def Slab.removeMinMax (s : Slab) (max : Bool) (fuel : Nat) : Res (Option Node × Slab) :=
  if s.leafCount = 0 then .ok (none, s)
  else do
    let h ← minMaxLoop s.getNode max fuel s.rootNode
    match ← s.getNode h with
    | .leaf key _ _ => s.removeByKey key fuel
    | .inner _ key _ _ => s.removeByKey key fuel
    | _ => .ok (none, s)

/-- `wasm/src/critbit.rs` 358-379: the loop of `find_node_sequence`; a handle that is not that of an inner node is listed. -/
def sequenceLoop (get : Nat → Res Node) (depth : Nat) (increasing : Bool) : Nat → List Nat → List Nat → Res (List Nat)
  | 0, _, _ => .error .diverge
  | fuel + 1, stack, result =>
    if result.length = depth then .ok result
    else match stack with
    | [] => .ok result
    | current :: stack => get current >>= fun n =>
      match n with
      | .inner _ _ c0 c1 =>
        sequenceLoop get depth increasing fuel (if increasing then c0 :: c1 :: stack else c1 :: c0 :: stack) result
      | _ => sequenceLoop get depth increasing fuel stack (result ++ [current])

/-- `wasm/src/critbit.rs` 358-379 `Slab::find_node_sequence`. -/
def Slab.findNodeSequence (s : Slab) (depth : Nat) (increasing : Bool) (fuel : Nat) : Res (List Nat) :=
  if s.leafCount = 0 then .ok [] else sequenceLoop s.getNode depth increasing fuel [s.rootNode] []

end AOB.Wasm
