import Verif.Model.Critbit
/-
Model of `check_invariants` of `program/src/state/critbit.rs` (496-600), the function the code base's own tests call
to see whether a slab is in order.
-/
namespace AOB

/-- `assert!(b)`: a panic if `b` is false. As in `critbit.rs` 515-599. -/
def assertThat (b : Bool) : Res Unit := if b then .ok () else .error .panic

/-- `critbit.rs` 527-528, 541-542: `(((((1u128) << 127) as i128) >> p) as u128) << 1`. The arithmetic shift of the most
negative `i128` by `p` is `-2 ^ (127 - p)`, as `u128` `2 ^ 128 - 2 ^ (127 - p)`; the shift to the left drops the top
bit. A shift by 128 or more is a panic. -/
def prefixMask (p : Nat) : Res Nat :=
  if p < 128 then .ok (((2 ^ 128 - (1 <<< (127 - p))) <<< 1) % 2 ^ 128) else .error .panic

namespace Slab
variable {C : Type}

/-- `critbit.rs` 500-564: `check_rec`. The two counters, `&mut u64` in the code, are passed and returned; they count
the calls, so that they cannot come near `2 ^ 64`. The depth of the recursion is not limited by a stack here. -/
def checkRec (s : Slab C) : Nat → Nat → Nat → Nat → Bool → Nat × Nat → Res (Nat × Nat)
  | 0, _, _, _, _, _ => .error .diverge
  | fuel + 1, h, lastPrefixLen, lastPrefix, lastCritbit, (leafCount, innerNodeCount) =>
    if isInnerHandle h then do
      let node ← idx s.innerNodes (notU32 h)
      assertThat (decide (node.prefixLen > lastPrefixLen))
      let critMask ← critBitMask lastPrefixLen
      assertThat (lastCritbit == !(node.key &&& critMask == 0))
      let mask ← prefixMask lastPrefixLen
      assertThat (lastPrefix &&& mask == node.key &&& mask)
      let c ← checkRec s fuel node.child0 node.prefixLen node.key false (leafCount, innerNodeCount + 1)
      checkRec s fuel node.child1 node.prefixLen node.key true c
    else do
      let node ← idx s.leafNodes h
      let critMask ← critBitMask lastPrefixLen
      assertThat (lastCritbit == !(node.orderId &&& critMask == 0))
      let mask ← prefixMask lastPrefixLen
      assertThat (lastPrefix &&& mask == node.orderId &&& mask)
      .ok (leafCount + 1, innerNodeCount)

/-- `critbit.rs` 565-590: the counters of leaves and of inner nodes after the walk from the root. A root that is a leaf
is counted without being looked at. The prefix lengths grow along a path, so a path longer than the number of inner
nodes fails an assertion before the fuel is used up. -/
def checkTree (s : Slab C) : Res (Nat × Nat) :=
  match s.root with
  | none => .ok (0, 0)
  | some root =>
    if isInnerHandle root then do
      let n ← idx s.innerNodes (notU32 root)
      let c ← checkRec s s.innerNodes.length n.child0 n.prefixLen n.key false (0, 1)
      checkRec s s.innerNodes.length n.child1 n.prefixLen n.key true c
    else .ok (1, 0)

/-- `critbit.rs` 496-600: `check_invariants` (in test builds). `.ok ()`: it returns; a failed assertion is a panic. -/
def checkInvariants (s : Slab C) : Res Unit := do
  let c ← s.checkTree
  assertThat (decide (c.2 + s.header.innerNodeFreeListLen = s.header.innerNodeBumpIndex))
  assertThat (decide (s.header.leafCount + s.header.leafFreeListLen = s.header.leafBumpIndex))
  assertThat (decide (c.1 = s.header.leafCount))

end Slab
end AOB
