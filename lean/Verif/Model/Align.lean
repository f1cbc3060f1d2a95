import Verif.Model.Layout
/-
The alignment checks of the `bytemuck` casts, which `Model/Layout.lean` leaves out: the same `from_buffer` functions, with the
address of the account data as a further argument.

`bytemuck::from_bytes_mut` and `cast_slice_mut` panic if the address is not a multiple of the alignment of the target type
(also for an empty slice). A `#[repr(C)]` struct has the largest alignment of its fields; `u32` has 4, `u64` has 8, `Pubkey`
and `[u8; n]` have 1. That of `u128` depends on the target. `cast_ref` (`event_queue.rs` 116, 268) is between types of the same
alignment and checks nothing.
-/
namespace AOB

/-- Where the code is compiled for: the chain; a host where `u128` has alignment 8; one where it has 16
(x86-64 from Rust 1.77 on, aarch64).
No counterpart in the code; it decides whether the casts of `critbit.rs` 150-156 and `event_queue.rs` 159-172 succeed. -/
inductive Target where
  | solana | host8 | host16
  deriving DecidableEq, Repr

/-- The alignment of `u128`.
The type of `LeafNode::key` (`critbit.rs` 43), `InnerNode::key` (`critbit.rs` 86) and of the ids in events (`event_queue.rs` 32, 56). -/
def Target.u128 : Target → Nat
  | .solana => 8
  | .host8 => 8
  | .host16 => 16

/-- `critbit.rs` 38-48, `event_queue.rs` 19-38: the ids in `LeafNode` and `FillEvent` are `u128` on the chain and `[u64; 2]`
elsewhere. -/
def Target.idAlign (t : Target) : Nat := if t = .solana then max t.u128 8 else 8

/-- `critbit.rs` 83-89: the key of `InnerNode` is a `u128` everywhere. -/
def Target.innerAlign (t : Target) : Nat := max t.u128 8

/-- The alignment of a `Pod` type; Rust sizes are multiples of it.
`bytemuck` needs it for the casts of `critbit.rs` 150-156 and `event_queue.rs` 159-172. -/
class HasAlign (C : Type) [Pod C] where
  align : Nat
  align_pos : 0 < align
  align_dvd : align ∣ Pod.size C

/-- The check of a cast at offset `off` of data at address `base`.
(`critbit.rs` 150-156, `event_queue.rs` 159-172, `market_state.rs` 38-46.) -/
def checkAlign (base off align : Nat) : Res Unit := if (base + off) % align = 0 then .ok () else .error .panic

/-- `*bytemuck::from_bytes_mut(&mut data[0..8]) = tag as u64` (`close_market.rs` 106-109). -/
def writeTagAt (base : Nat) (buf : Bytes) (tag : AccountTag) : Res Bytes :=
  if 8 ≤ buf.length then do
    checkAlign base 0 8
    .ok (toLE 8 tag.toNat ++ buf.drop 8)
  else .error .panic

/-- The `u64` tag (`market_state.rs` 38, `event_queue.rs` 159). -/
def readTagAt (base : Nat) (buf : Bytes) : Res Nat :=
  if 8 ≤ buf.length then do
    checkAlign base 0 8
    .ok (field buf 0 8)
  else .error .panic

/-- `market_state.rs` 34-47: `MarketState::from_buffer`. -/
def MarketState.fromBufferAt (base : Nat) (buf : Bytes) (expected : AccountTag) : Res (MarketState × Bytes) := do
  let tag ← readTagAt base buf
  if tag ≠ expected.toNat then .error (.ao .accountTagMismatch)
  else do
    let buf ← writeTag buf .market                                         -- 42: through the reference of 38
    if (buf.drop 8).length ≠ MarketState.LEN then .error .panic            -- 46
    else do
      checkAlign base 8 8
      .ok (MarketState.ofBytes (buf.drop 8), buf)

section
variable {C : Type} [Pod C] [HasAlign C]

/-- `critbit.rs` 137-158: `Slab::from_buffer`. -/
def Slab.fromBufferAt (C : Type) [Pod C] [HasAlign C] (t : Target) (base : Nat) (buf : Bytes) (expected : AccountTag) :
    Res (Slab C) := do
  let leafSize := LeafNode.LEN + Pod.size C
  let a ← subU buf.length SlabHeader.LEN                                   -- 141
  let a ← subU a 8
  let a ← subU a leafSize
  let capacity := a / (leafSize + InnerNode.LEN)
  let tag ← idx buf 0
  if tag.toNat ≠ expected.toNat then .error (.ao .accountTagMismatch)      -- 143-145
  else do
    let rem := buf.drop 8                                                  -- 146
    let header := rem.take SlabHeader.LEN                                  -- 147
    let rem := rem.drop SlabHeader.LEN
    let leaves := rem.take ((capacity + 1) * LeafNode.LEN)                 -- 148
    let rem := rem.drop ((capacity + 1) * LeafNode.LEN)
    let inners := rem.take (capacity * InnerNode.LEN)                      -- 149
    let infos := rem.drop (capacity * InnerNode.LEN)
    checkAlign base 8 4                                                    -- 150
    checkAlign base (8 + SlabHeader.LEN) t.idAlign                         -- 154
    let leafNodes ← castSlice LeafNode.LEN LeafNode.ofBytes leaves
    checkAlign base (8 + SlabHeader.LEN + (capacity + 1) * LeafNode.LEN) t.innerAlign   -- 155
    let innerNodes ← castSlice InnerNode.LEN InnerNode.ofBytes inners
    checkAlign base (8 + SlabHeader.LEN + (capacity + 1) * LeafNode.LEN + capacity * InnerNode.LEN)
      (HasAlign.align C)                                                   -- 156
    let callbackInfos ← castSlice (Pod.size C) Pod.ofBytes infos
    .ok { header := SlabHeader.ofBytes header, leafNodes, innerNodes, callbackInfos }

/-- `event_queue.rs` 151-174: `EventQueue::from_buffer`. -/
def EventQueue.fromBufferAt (C : Type) [Pod C] [HasAlign C] (t : Target) (base : Nat) (buf : Bytes) (expected : AccountTag) :
    Res (EventQueue C × Bytes) := do
  let a ← subU buf.length 8                                                -- 157-158
  let a ← subU a EventQueueHeader.LEN
  let capacity := a / (FillEvent.LEN + 2 * Pod.size C)
  let tag ← readTagAt base buf                                             -- 159
  if tag ≠ expected.toNat then .error (.ao .accountTagMismatch)            -- 161-163
  else do
    let buf ← writeTag buf .eventQueue                                     -- 164: through the reference of 159
    let header := (buf.drop 8).take EventQueueHeader.LEN                   -- 166
    let rem := (buf.drop 8).drop EventQueueHeader.LEN
    let events := rem.take (capacity * FillEvent.LEN)                      -- 168
    let infos := rem.drop (capacity * FillEvent.LEN)
    checkAlign base 8 8                                                    -- 170
    checkAlign base (8 + EventQueueHeader.LEN) t.idAlign                   -- 171
    let es ← castSlice FillEvent.LEN FillEvent.ofBytes events
    checkAlign base (8 + EventQueueHeader.LEN + capacity * FillEvent.LEN) (HasAlign.align C)   -- 172
    let cs ← castSlice (Pod.size C) Pod.ofBytes infos
    .ok ({ header := EventQueueHeader.ofBytes header, events := es, callbackInfos := cs }, buf)

end

/-- `[u8; 32]`. -/
instance : HasAlign Bytes32 where
  align := 1
  align_pos := by decide
  align_dvd := ⟨32, rfl⟩

end AOB
