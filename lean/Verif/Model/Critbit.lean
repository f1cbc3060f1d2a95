import Verif.Model.Basic
/-
Model of `program/src/state/critbit.rs`: the crit-bit tree stored in two slot arrays with free lists.
-/
namespace AOB

/-- `critbit.rs` 15-26: `struct SlabHeader`. All fields are `u32`. -/
structure SlabHeader where
  leafFreeListLen : Nat
  leafFreeListHead : Nat
  leafBumpIndex : Nat
  innerNodeFreeListLen : Nat
  innerNodeFreeListHead : Nat
  innerNodeBumpIndex : Nat
  rootNode : Nat
  leafCount : Nat
  deriving DecidableEq, Repr

/-- `critbit.rs` 40-48: `struct LeafNode`; `key` is the `u128` order id (on the host build it is
stored as two `u64`, 62-72), `base_quantity` is a `u64`. -/
structure LeafNode where
  key : Nat
  baseQuantity : Nat
  deriving DecidableEq, Repr

/-- `critbit.rs` 54-60: `LeafNode::price`. -/
def LeafNode.price (n : LeafNode) : Nat := priceFromKey n.key

/-- `critbit.rs` 63-72: `LeafNode::order_id`. -/
def LeafNode.orderId (n : LeafNode) : Nat := n.key

/-- `critbit.rs` 85-89: `struct InnerNode`; `children: [u32; 2]` is `child0`, `child1`. -/
structure InnerNode where
  key : Nat
  prefixLen : Nat
  child0 : Nat
  child1 : Nat
  deriving DecidableEq, Repr

/-- `self.children[b as usize]`. (`critbit.rs` 97, 401, 427.) -/
def InnerNode.child (n : InnerNode) (b : Bool) : Nat := if b then n.child1 else n.child0

/-- `self.children[b as usize] = h`. (`critbit.rs` 306-311, 406.) -/
def InnerNode.setChild (n : InnerNode) (b : Bool) (h : Nat) : InnerNode :=
  if b then { n with child1 := h } else { n with child0 := h }

/-- `critbit.rs` 82: `INNER_FLAG`. -/
def INNER_FLAG : Nat := 1 <<< 31

/-- `!h` on `u32`. (`critbit.rs` 220, 224, 401, 405.) -/
def notU32 (h : Nat) : Nat := U32 - 1 - h

/-- `critbit.rs` 107-113: `Node::from_handle(h)` is `Node::Inner`. -/
def isInnerHandle (h : Nat) : Bool := !(h &&& INNER_FLAG == 0)

/-- `(1u128 << 127) >> p`, `critbit.rs` 95, 285; a shift of 128 or more is a panic. -/
def critBitMask (p : Nat) : Res Nat :=
  if p < 128 then .ok ((1 <<< 127) >>> p) else .error .panic

/-- `critbit.rs` 94-98: `InnerNode::walk_down`. -/
def InnerNode.walkDown (n : InnerNode) (searchKey : Nat) : Res (Nat × Bool) := do
  let mask ← critBitMask n.prefixLen
  let critBit : Bool := !(searchKey &&& mask == 0)
  .ok (n.child critBit, critBit)

/-- `u128::leading_zeros`. (`critbit.rs` 248-251, 275-278.) -/
def leadingZeros (x : Nat) : Nat := if x = 0 then 128 else 127 - Nat.log2 x

/-- `critbit.rs` 32-37: `struct Slab`. -/
structure Slab (C : Type) where
  header : SlabHeader
  leafNodes : List LeafNode
  innerNodes : List InnerNode
  callbackInfos : List C
  deriving DecidableEq, Repr

namespace Slab
variable {C : Type}

/-- `critbit.rs` 162-168: `root`. -/
def root (s : Slab C) : Option Nat :=
  if s.header.leafCount = 0 then none else some s.header.rootNode

/-- `critbit.rs` 169-186: `allocate_leaf`. -/
def allocateLeaf (s : Slab C) : Res (Nat × Slab C) :=
  if s.header.leafFreeListLen = 0 then
    if s.header.leafBumpIndex ≥ s.leafNodes.length then .error .io
    else do
      let key := s.header.leafBumpIndex
      let b ← addU32 s.header.leafBumpIndex 1
      .ok (key, { s with header := { s.header with leafBumpIndex := b } })
  else do
    let key := s.header.leafFreeListHead
    let freeLeaf ← idx s.leafNodes key
    let next := freeLeaf.baseQuantity % U32
    let len ← subU s.header.leafFreeListLen 1
    .ok (key, { s with header := { s.header with leafFreeListHead := next, leafFreeListLen := len } })

/-- `critbit.rs` 188-196: `free_leaf`. -/
def freeLeaf (s : Slab C) (handle : Nat) : Res (Slab C) := do
  let leaves ←
    (if s.header.leafFreeListLen ≠ 0 then do
      let next := s.header.leafFreeListHead
      let n ← idx s.leafNodes handle
      setIdx s.leafNodes handle { n with baseQuantity := next }
    else .ok s.leafNodes : Res (List LeafNode))
  let len ← addU32 s.header.leafFreeListLen 1
  .ok { s with leafNodes := leaves,
               header := { s.header with leafFreeListLen := len, leafFreeListHead := handle } }

/-- `critbit.rs` 198-215: `allocate_inner_node`. -/
def allocateInnerNode (s : Slab C) : Res (Nat × Slab C) :=
  if s.header.innerNodeFreeListLen = 0 then
    if s.header.innerNodeBumpIndex ≥ s.innerNodes.length then .error .io
    else do
      let key := s.header.innerNodeBumpIndex
      let b ← addU32 s.header.innerNodeBumpIndex 1
      .ok (notU32 key, { s with header := { s.header with innerNodeBumpIndex := b } })
  else do
    let key := s.header.innerNodeFreeListHead
    let freeInner ← idx s.innerNodes key
    let next := freeInner.prefixLen % U32
    let len ← subU s.header.innerNodeFreeListLen 1
    .ok (notU32 key,
      { s with header := { s.header with innerNodeFreeListHead := next, innerNodeFreeListLen := len } })

/-- `critbit.rs` 217-225: `free_inner_node`. -/
def freeInnerNode (s : Slab C) (handle : Nat) : Res (Slab C) := do
  let inners ←
    (if s.header.innerNodeFreeListLen ≠ 0 then do
      let next := s.header.innerNodeFreeListHead
      let n ← idx s.innerNodes (notU32 handle)
      setIdx s.innerNodes (notU32 handle) { n with prefixLen := next }
    else .ok s.innerNodes : Res (List InnerNode))
  let len ← addU32 s.header.innerNodeFreeListLen 1
  .ok { s with innerNodes := inners,
               header := { s.header with innerNodeFreeListLen := len,
                                         innerNodeFreeListHead := notU32 handle } }

/-- Where the descent of `insert_leaf` ends: at a leaf with the same key (269-272), or at the node
`root` that must become a sibling of the new leaf (after 282). All in `critbit.rs`. -/
inductive InsertStop where
  | clobber (root : Nat)
  | split (root : Nat) (parent : Option (Nat × Bool)) (sharedPrefixLen : Nat)
  deriving DecidableEq, Repr

/-- `critbit.rs` 243-282: the descent part of the `loop` of `insert_leaf` (it only reads the slab).
`parent` holds `parent_node` together with `previous_critbit` (always set together, 254-260). -/
def insertWalk (s : Slab C) (newKey : Nat) : Nat → Nat → Option (Nat × Bool) → Res InsertStop
  | 0, _, _ => .error .diverge
  | fuel + 1, root, parent =>
    if isInnerHandle root then do
      let rootNode ← idx s.innerNodes (notU32 root)
      let sharedPrefixLen := leadingZeros (rootNode.key ^^^ newKey)
      if sharedPrefixLen ≥ rootNode.prefixLen % U32 then do
        let r ← rootNode.walkDown newKey
        insertWalk s newKey fuel r.1 (some (root, r.2))
      else
        .ok (.split root parent sharedPrefixLen)
    else do
      let rootNode ← idx s.leafNodes root
      if rootNode.key = newKey then .ok (.clobber root)
      else .ok (.split root parent (leadingZeros (rootNode.key ^^^ newKey)))

/-- `map_err(|_| AoError::SlabOutOfSpace)` on the `IoError` of `allocate_leaf` (233, 292). All in `critbit.rs`. -/
def mapIoSlabFull {α : Type} : Res α → Res α
  | .error .io => .error (.ao .slabOutOfSpace)
  | r => r

/-- `.unwrap()` on a `Result<_, IoError>` (295). In `critbit.rs`. -/
def unwrapIo {α : Type} : Res α → Res α
  | .error .io => .error .panic
  | r => r

/-- `critbit.rs` 309-314 and 403-409: store the handle `h` in the given child of the given node, or in
the header when there is no such node. -/
def relink (s : Slab C) (at_ : Option (Nat × Bool)) (h : Nat) : Res (Slab C) :=
  match at_ with
  | some (p, b) => do
      let pn ← idx s.innerNodes (notU32 p)
      let inners ← setIdx s.innerNodes (notU32 p) (pn.setChild b h)
      .ok { s with innerNodes := inners }
  | none => .ok { s with header := { s.header with rootNode := h } }

/-- `critbit.rs` 227-318: `insert_leaf`. Returns the leaf's handle, the overwritten leaf if any, and
the new slab. The loop is split in its reading part `insertWalk` and the writes of 284-316. -/
def insertLeaf (s : Slab C) (newLeaf : LeafNode) : Res ((Nat × Option LeafNode) × Slab C) :=
  if s.header.leafCount = 0 then do
    let (h, s) ← mapIoSlabFull s.allocateLeaf
    let leaves ← setIdx s.leafNodes h newLeaf
    let cnt ← addU32 s.header.leafCount 1
    .ok ((h, none), { s with leafNodes := leaves,
                             header := { s.header with rootNode := h, leafCount := cnt } })
  else do
    let stop ← insertWalk s newLeaf.key (s.innerNodes.length + 1) s.header.rootNode none
    match stop with
    | .clobber root => do
        let old ← idx s.leafNodes root
        let leaves ← setIdx s.leafNodes root newLeaf
        .ok ((root, some old), { s with leafNodes := leaves })
    | .split root parent shared => do
        let mask ← critBitMask shared
        let newLeafCritBit : Bool := !(mask &&& newLeaf.key == 0)
        let oldRootCritBit := !newLeafCritBit
        let (h, s) ← mapIoSlabFull s.allocateLeaf
        let leaves ← setIdx s.leafNodes h newLeaf
        let s := { s with leafNodes := leaves }
        let (ih, s) ← unwrapIo s.allocateInnerNode
        let n ← idx s.innerNodes (notU32 ih)
        let n := { n with prefixLen := shared, key := newLeaf.key }
        let n := n.setChild newLeafCritBit h
        let n := n.setChild oldRootCritBit root
        let inners ← setIdx s.innerNodes (notU32 ih) n
        let s := { s with innerNodes := inners }
        let s ← s.relink parent ih
        let cnt ← addU32 s.header.leafCount 1
        .ok ((h, none), { s with header := { s.header with leafCount := cnt } })

/-- `critbit.rs` 321-323: `get_callback_info`. -/
def getCallbackInfo (s : Slab C) (h : Nat) : Res C := idx s.callbackInfos h

/-- `critbit.rs` 326-328: `*get_callback_info_mut(h) = c`. -/
def setCallbackInfo (s : Slab C) (h : Nat) (c : C) : Res (Slab C) := do
  let cs ← setIdx s.callbackInfos h c
  .ok { s with callbackInfos := cs }

/-- The registers of the descent of `remove_by_key` (331-340); `grandparent` holds
`grandparent_h` together with `prev_crit_bit` (set together, 375-378). All in `critbit.rs`. -/
structure RemoveRegs where
  grandparent : Option (Nat × Bool)
  parent : Nat
  child : Nat
  critBit : Bool
  deriving DecidableEq, Repr

/-- `critbit.rs` 370-397: the `loop` of `remove_by_key`; `none` is `return None` (387/391). -/
def removeWalk (s : Slab C) (searchKey : Nat) : Nat → RemoveRegs → Res (Option RemoveRegs)
  | 0, _ => .error .diverge
  | fuel + 1, r =>
    if isInnerHandle r.child then do
      let inner ← idx s.innerNodes (notU32 r.child)
      let w ← inner.walkDown searchKey
      removeWalk s searchKey fuel
        { grandparent := some (r.parent, r.critBit), parent := r.child, child := w.1, critBit := w.2 }
    else do
      let leaf ← idx s.leafNodes r.child
      if leaf.key ≠ searchKey then .ok none else .ok (some r)

/-- `critbit.rs` 330-415: `remove_by_key`. Returns the removed leaf and the callback info left in its
slot, and the new slab. When the root is a leaf with another key, the code falls through to the loop
with `child_h = 0`, `crit_bit = false` (337-338, 370): kept here as is. -/
def removeByKey (s : Slab C) (searchKey : Nat) : Res (Option (LeafNode × C) × Slab C) :=
  if s.header.leafCount = 0 then .ok (none, s)
  else do
    let parentH := s.header.rootNode
    let start ←
      (if isInnerHandle parentH then do
        let node ← idx s.innerNodes (notU32 parentH)
        let w ← node.walkDown searchKey
        .ok (none, { grandparent := none, parent := parentH, child := w.1, critBit := w.2 })
      else do
        let leaf ← idx s.leafNodes parentH
        .ok (if leaf.key = searchKey then some leaf else none,
             { grandparent := none, parent := parentH, child := 0, critBit := false })
        : Res (Option LeafNode × RemoveRegs))
    match start.1 with
    | some leafCopy => do
        let s ← s.freeLeaf parentH
        let s := { s with header := { s.header with rootNode := 0, leafCount := 0 } }
        let c ← s.getCallbackInfo parentH
        .ok (some (leafCopy, c), s)
    | none => do
        let stop ← removeWalk s searchKey (s.innerNodes.length + 1) start.2
        match stop with
        | none => .ok (none, s)
        | some r => do
            let pn ← idx s.innerNodes (notU32 r.parent)
            let otherChild := pn.child (!r.critBit)
            let s ← s.relink r.grandparent otherChild
            let cnt ← subU s.header.leafCount 1
            let s := { s with header := { s.header with leafCount := cnt } }
            let removed ← idx s.leafNodes r.child
            let s ← s.freeLeaf r.child
            let s ← s.freeInnerNode r.parent
            let c ← s.getCallbackInfo r.child
            .ok (some (removed, c), s)

/-- `critbit.rs` 421-430: the loop of `find_min_max`. -/
def findMinMaxWalk (s : Slab C) (findMax : Bool) : Nat → Nat → Res Nat
  | 0, _ => .error .diverge
  | fuel + 1, root =>
    if isInnerHandle root then do
      let node ← idx s.innerNodes (notU32 root)
      findMinMaxWalk s findMax fuel (node.child findMax)
    else .ok root

/-- `critbit.rs` 417-431: `find_min_max`. -/
def findMinMax (s : Slab C) (findMax : Bool) : Res (Option Nat) :=
  if s.header.leafCount = 0 then .ok none
  else do
    let h ← findMinMaxWalk s findMax (s.innerNodes.length + 1) s.header.rootNode
    .ok (some h)

/-- `critbit.rs` 434-436. -/
def findMin (s : Slab C) : Res (Option Nat) := s.findMinMax false
/-- `critbit.rs` 439-441. -/
def findMax (s : Slab C) : Res (Option Nat) := s.findMinMax true

/-- `critbit.rs` 676-688: `SlabIterator::next`. The Rust stack's top (end of the `Vec`) is the head of
the list. -/
def iterNext (s : Slab C) (ascending : Bool) : Nat → List Nat → Res (Option LeafNode × List Nat)
  | _, [] => .ok (none, [])
  | 0, _ :: _ => .error .diverge
  | fuel + 1, current :: stack =>
    if isInnerHandle current then do
      let n ← idx s.innerNodes (notU32 current)
      iterNext s ascending fuel (n.child (!ascending) :: n.child ascending :: stack)
    else do
      let l ← idx s.leafNodes current
      .ok (some l, stack)

/-- Repeated `next()` until `None` (`Iterator::collect`). Of the iterator of `critbit.rs` 673-689. -/
def iterCollect (s : Slab C) (ascending : Bool) : Nat → List Nat → Res (List LeafNode)
  | 0, _ => .error .diverge
  | fuel + 1, stack => do
    let r ← s.iterNext ascending (s.innerNodes.length + 1) stack
    match r.1 with
    | none => .ok []
    | some l => do
        let ls ← iterCollect s ascending fuel r.2
        .ok (l :: ls)

/-- `critbit.rs` 444-454: `into_iter(price_ascending)`, then collected. -/
def iterAll (s : Slab C) (ascending : Bool) : Res (List LeafNode) :=
  iterCollect s ascending (s.leafNodes.length + 1)
    (if s.header.leafCount = 0 then [] else [s.header.rootNode])

/-- `critbit.rs` 464-473: the loop of `get_depth` (feature `utils`). -/
def getDepthLoop (s : Slab C) : Nat → List (Nat × Nat) → Nat → Res Nat
  | _, [], maxDepth => .ok maxDepth
  | 0, _ :: _, _ => .error .diverge
  | fuel + 1, (node, depth) :: stack, maxDepth =>
    if isInnerHandle node then do
      let n ← idx s.innerNodes (notU32 node)
      getDepthLoop s fuel ((n.child1, depth + 1) :: (n.child0, depth + 1) :: stack) maxDepth
    else getDepthLoop s fuel stack (max depth maxDepth)

/-- `critbit.rs` 458-475: `get_depth` (feature `utils`). -/
def getDepth (s : Slab C) : Res Nat :=
  if s.header.leafCount = 0 then .ok 0
  else getDepthLoop s (s.leafNodes.length + s.innerNodes.length + 1) [(s.header.rootNode, 1)] 0

/-- `critbit.rs` 608-634: the loop of `find_by_key` (feature `utils`). -/
def findByKeyWalk (s : Slab C) (searchKey : Nat) : Nat → Nat → Res (Option Nat)
  | 0, _ => .error .diverge
  | fuel + 1, h =>
    if isInnerHandle h then do
      let n ← idx s.innerNodes (notU32 h)
      let common := leadingZeros (searchKey ^^^ n.key)
      if common < n.prefixLen % U32 then .ok none
      else do
        let w ← n.walkDown searchKey
        findByKeyWalk s searchKey fuel w.1
    else do
      let n ← idx s.leafNodes h
      if searchKey = n.key then .ok (some h) else .ok none

/-- `critbit.rs` 606-635: `find_by_key` (feature `utils`). -/
def findByKey (s : Slab C) (searchKey : Nat) : Res (Option Nat) :=
  match s.root with
  | none => .ok none
  | some r => findByKeyWalk s searchKey (s.innerNodes.length + 1) r

/-- `critbit.rs` 641-653: `walk_rec` of `traverse` (test helper of the code base). -/
def walkRec (s : Slab C) : Nat → Nat → Res (List (LeafNode × C))
  | 0, _ => .error .diverge
  | fuel + 1, h =>
    if isInnerHandle h then do
      let n ← idx s.innerNodes (notU32 h)
      let a ← walkRec s fuel n.child0
      let b ← walkRec s fuel n.child1
      .ok (a ++ b)
    else do
      let c ← s.getCallbackInfo h
      let l ← idx s.leafNodes h
      .ok [(l, c)]

/-- `critbit.rs` 640-664: `traverse`, all leaves with their callback infos, in tree order. Its final
`assert_eq!` (662) is that the number of leaves found is `leaf_count`. -/
def traverse (s : Slab C) : Res (List (LeafNode × C)) := do
  let buf ←
    (match s.root with
    | some r => walkRec s (s.innerNodes.length + 1) r
    | none => .ok [] : Res (List (LeafNode × C)))
  if buf.length = s.header.leafCount then .ok buf else .error .panic

/-- The slab found in a zeroed account of `cap + 1` leaf slots and `cap` inner slots
(`from_buffer`, 138-158, on zero bytes; `c0` is the all-zero callback info). An account whose size is not exactly
an allocation size can hold `slack` more callback infos than leaves; they are never used.
In `critbit.rs`; such accounts are what `create_market.rs` 95-116 asks for. -/
def zeroed (cap : Nat) (c0 : C) (slack : Nat := 0) : Slab C :=
  { header := ⟨0, 0, 0, 0, 0, 0, 0, 0⟩
    leafNodes := List.replicate (cap + 1) ⟨0, 0⟩
    innerNodes := List.replicate cap ⟨0, 0, 0, 0⟩
    callbackInfos := List.replicate (cap + 1 + slack) c0 }

end Slab
end AOB
