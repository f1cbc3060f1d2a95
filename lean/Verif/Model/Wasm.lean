import Verif.Model.Client
/-
Model of the functions exported by `js/wasm/src/lib.rs` (an older slab format; their import in `slab.ts` 6 is commented
out), on the bytes they are given.

`usize` has 32 bits in wasm; offsets are computed here without a bound. All loops take fuel. `+=` on `u64` panics on
overflow. The functions of that crate that nothing calls (`insert`, `remove_by_key` and others) are in `Model/WasmEdit.lean`.
-/
namespace AOB.Wasm

/-- `wasm/src/critbit.rs` 113-120: `Node` with `InnerNode` (16-21), `LeafNode` (49-54), `FreeNode` (108-111). -/
inductive Node where
  | uninitialized
  | inner (prefixLen key child0 child1 : Nat)
  | leaf (key : Nat) (callbackInfo : Bytes) (baseQuantity : Nat)
  | free (next : Nat)
  | lastFree (next : Nat)
  deriving DecidableEq

/-- `wasm/src/critbit.rs` 123-135 `Node::deserialize`, 64-81 `LeafNode::deserialize`. -/
def readNode (b : Bytes) (callbackInfoLen : Nat) : Res Node :=
  match b[0]? with
  | none => .error .panic
  | some t =>
    if t = 0 then .ok .uninitialized
    else if t = 1 then
      if b.length < 1 + 28 then .error .io
      else .ok (.inner (field b 1 4) (field b 5 16) (field b 21 4) (field b 25 4))
    else if t = 2 then
      if b.length < 1 + 24 + callbackInfoLen then .error .panic
      else .ok (.leaf (field b 1 16) (Js.slice b 17 (17 + callbackInfoLen)) (field b (17 + callbackInfoLen) 8))
    else if t = 3 then if b.length < 1 + 4 then .error .io else .ok (.free (field b 1 4))
    else if t = 4 then if b.length < 1 + 4 then .error .io else .ok (.lastFree (field b 1 4))
    else .error .io

/-- `wasm/src/critbit.rs` 193-203: the fields of `SlabHeader` that are read here. -/
structure Header where
  rootNode : Nat
  leafCount : Nat
  deriving DecidableEq

/-- `wasm/src/critbit.rs` 222-233 `Slab::new`: borsh, one byte for the tag (`AccountTag`, 31-39), then `u64`, `u64`,
`u32`, `u32`, `u64` and 32 bytes; `unwrap`. -/
def readHeader (data : Bytes) : Res Header :=
  match data[0]? with
  | none => .error .panic
  | some t =>
    if 4 < t.toNat ∨ data.length < 65 then .error .panic
    else .ok { rootNode := field data 21 4, leafCount := field data 25 8 }

/-- `wasm/src/critbit.rs` 252-261 `Slab::get_node`, and the `unwrap` of all its uses. -/
def getNode (data : Bytes) (callbackInfoLen slotSize : Nat) (key : Nat) : Res Node :=
  let offset := 65 + key * slotSize
  if offset + slotSize ≤ data.length then
    match readNode (Js.slice data offset (offset + slotSize)) callbackInfoLen with
    | .ok n => .ok n
    | .error _ => .error .panic
  else .error .panic

/-- `wasm/src/critbit.rs` 336-348: the loop of `find_min_max`. -/
def minMaxLoop (get : Nat → Res Node) (findMax : Bool) : Nat → Nat → Res Nat
  | 0, _ => .error .diverge
  | fuel + 1, root => do
    match ← get root with
    | .inner _ _ c0 c1 => minMaxLoop get findMax fuel (if findMax then c1 else c0)
    | _ => .ok root

/-- `wasm/src/critbit.rs` 381-413: the loop of `find_l2_depth`; `result` as a list of pairs, `push` at the end. -/
def l2Loop (get : Nat → Res Node) (depth : Nat) (increasing : Bool) : Nat → List Nat → List Js.Price → Res (List Js.Price)
  | 0, _, _ => .error .diverge
  | fuel + 1, stack, result =>
    if result.length = depth then .ok result                                     -- `while result.len() != 2 * depth`
    else match stack with
    | [] => .ok result
    | current :: stack => get current >>= fun n =>
      match n with
      | .inner _ _ c0 c1 =>
        l2Loop get depth increasing fuel (if increasing then c0 :: c1 :: stack else c1 :: c0 :: stack) result
      | .leaf key _ qty =>
        match result.getLast? with
        | some last =>
          if last.price = key / 2 ^ 64 then do
            let size ← addU64 last.size qty
            l2Loop get depth increasing fuel stack (result.dropLast ++ [{ last with size }])
          else l2Loop get depth increasing fuel stack (result ++ [⟨qty, key / 2 ^ 64⟩])
        | none => l2Loop get depth increasing fuel stack (result ++ [⟨qty, key / 2 ^ 64⟩])
      | _ => .error .panic

/-- `wasm/src/lib.rs` 17-35: `find_min`, `find_max`; `root` (`critbit.rs` 328-334) is `None` for an empty slab. -/
def findMinMax (findMax : Bool) (data : Bytes) (callbackInfoLen slotSize fuel : Nat) : Res (Option Nat) := do
  let h ← readHeader data
  if h.leafCount = 0 then .ok none
  else do
    let r ← minMaxLoop (getNode data callbackInfoLen slotSize) findMax fuel h.rootNode
    .ok (some r)

/-- `wasm/src/lib.rs` 37-51: `find_l2_depth`. -/
def findL2Depth (data : Bytes) (callbackInfoLen slotSize depth : Nat) (increasing : Bool) (fuel : Nat) :
    Res (List Js.Price) := do
  let h ← readHeader data
  if h.leafCount = 0 then .ok []
  else l2Loop (getNode data callbackInfoLen slotSize) depth increasing fuel [h.rootNode] []

end AOB.Wasm
