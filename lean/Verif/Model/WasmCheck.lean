import Verif.Model.Check
import Verif.Model.WasmEdit
/-
Model of the functions of `js/wasm/src/critbit.rs` that exist in test builds only: `find_by_key` and `check_invariants`.
-/
namespace AOB.Wasm

/-- `wasm/src/critbit.rs` 166-173 `Node::prefix_len`, with the `unwrap` of its uses. -/
def Node.prefixLen! : Node → Res Nat
  | .inner p _ _ _ => .ok p
  | .leaf _ _ _ => .ok 128
  | _ => .error .panic

/-- `wasm/src/critbit.rs` 158-164 `Node::key`, with the `unwrap` of its uses. -/
def Node.key! : Node → Res Nat
  | .inner _ k _ _ => .ok k
  | .leaf k _ _ => .ok k
  | _ => .error .panic

/-- `wasm/src/critbit.rs` 481-499: the loop of `find_by_key`. -/
def findLoop (get : Nat → Res Node) (searchKey : Nat) : Nat → Nat → Res (Option Nat)
  | 0, _ => .error .diverge
  | fuel + 1, h => do
    let node ← get h
    let prefixLen ← node.prefixLen!
    let key ← node.key!
    if leadingZeros (searchKey ^^^ key) < prefixLen then .ok none
    else match node with
      | .inner p _ c0 c1 => do
        let b ← walkDown p searchKey
        findLoop get searchKey fuel (if b then c1 else c0)
      | _ => .ok (some h)

/-- `wasm/src/critbit.rs` 478-500 `Slab::find_by_key`. -/
def Slab.findByKey (s : Slab) (searchKey fuel : Nat) : Res (Option Nat) :=
  if s.leafCount = 0 then .ok none else findLoop s.getNode searchKey fuel s.rootNode

/-- `wasm/src/critbit.rs` 506-537: `check_rec`. The counter, `&mut u64` in the code, is passed and returned; it counts the
calls, so that it cannot come near `2 ^ 64`. -/
def checkRec (get : Nat → Res Node) : Nat → Nat → Nat → Nat → Bool → Nat → Res Nat
  | 0, _, _, _, _, _ => .error .diverge
  | fuel + 1, h, lastPrefixLen, lastPrefix, lastCritBit, count => do
    let node ← get h
    let prefixLen ← node.prefixLen!
    assertThat (decide (prefixLen > lastPrefixLen))
    let key ← node.key!
    let critMask ← critBitMask lastPrefixLen
    assertThat (lastCritBit == !(key &&& critMask == 0))
    let mask ← prefixMask lastPrefixLen
    assertThat (lastPrefix &&& mask == key &&& mask)
    match node with
    | .inner p k c0 c1 => do
      let count ← checkRec get fuel c0 p k false (count + 1)
      checkRec get fuel c1 p k true count
    | _ => .ok (count + 1)

/-- `wasm/src/critbit.rs` 504-560: the number of nodes counted from the root. The prefix lengths grow along a path and are
looked at up to 128, so that a path fails an assertion before the fuel is used up (`C108_total`). -/
def Slab.checkTree (s : Slab) : Res Nat :=
  if s.leafCount = 0 then .ok 0
  else do
    let node ← s.getNode s.rootNode
    let _ ← node.key!
    match node with
    | .inner p k c0 c1 => do
      let count ← checkRec s.getNode 129 c0 p k false 1
      checkRec s.getNode 129 c1 p k true count
    | _ => .ok 1

/-- `wasm/src/critbit.rs` 566-586: the walk along the list of free slots. -/
def checkFree (get : Nat → Res Node) : Nat → Nat → Res Unit
  | 0, _ => .ok ()
  | 1, next => do
    match ← get next with
    | .lastFree _ => .ok ()
    | _ => .error .panic
  | n + 2, next => do
    match ← get next with
    | .free next' => checkFree get (n + 1) next'
    | _ => .error .panic

/-- `wasm/src/critbit.rs` 502-587 `Slab::check_invariants`. `.ok ()`: it returns; a failed assertion is a panic. -/
def Slab.checkInvariants (s : Slab) : Res Unit := do
  let count ← s.checkTree
  let total ← addU64 count s.freeListLen
  assertThat (decide (total = s.bumpIndex))
  checkFree s.getNode s.freeListLen s.freeListHead

end AOB.Wasm
