import Verif.Model.Layout
/-
Instruction data and the return register: borsh encodings (`borsh` 0.10, external crate; assumed behaviour: fixed
little-endian integers, `bool` and enum variants as one byte, `Option` as one byte and the value, `Vec` as a `u32`
length and the elements).
-/
namespace AOB

/-! ### Borsh -/

/-- A decoder: consumes a prefix of the input.
`BorshDeserialize::deserialize` (external), derived in `new_order.rs` 25, `state.rs` 30, 59 and so on. -/
abbrev Dec (α : Type) := Bytes → Option (α × Bytes)

/-- Unsigned integer of `n` bytes. As the fields of `new_order.rs` 29-56. -/
def Dec.uint (n : Nat) : Dec Nat := fun b => if n ≤ b.length then some (ofLE (b.take n), b.drop n) else none

/-- `bool`: only 0 and 1 are accepted. As `new_order.rs` 51, 53. -/
def Dec.bool : Dec Bool
  | b :: r => if b = 0 then some (false, r) else if b = 1 then some (true, r) else none
  | [] => none

/-- `bool`, as `new_order.rs` 51, 53 are written. -/
def encBool (b : Bool) : Bytes := [if b then 1 else 0]

/-- `state.rs` 29-47: derived for `Side`; an unknown variant is an error. -/
def Dec.side : Dec Side
  | b :: r => if b = 0 then some (.bid, r) else if b = 1 then some (.ask, r) else none
  | [] => none

/-- `Side` (`state.rs` 44-47) as borsh writes it. -/
def encSide : Side → Bytes
  | .bid => [0]
  | .ask => [1]

/-- `state.rs` 59-69: derived for `SelfTradeBehavior`. -/
def Dec.selfTrade : Dec SelfTradeBehavior
  | b :: r =>
    if b = 0 then some (.decrementTake, r) else if b = 1 then some (.cancelProvide, r)
    else if b = 2 then some (.abortTransaction, r) else none
  | [] => none

/-- `SelfTradeBehavior` (`state.rs` 61-69) as borsh writes it. -/
def encSelfTrade : SelfTradeBehavior → Bytes
  | .decrementTake => [0]
  | .cancelProvide => [1]
  | .abortTransaction => [2]

/-- `n` elements one after the other. As in `mass_cancel_orders.rs` 29. -/
def Dec.rep {α : Type} (d : Dec α) : Nat → Dec (List α)
  | 0, b => some ([], b)
  | n + 1, b => do
    let (x, b) ← d b
    let (xs, b) ← Dec.rep d n b
    some (x :: xs, b)

/-- `Vec<u128>`. (`mass_cancel_orders.rs` 29.) -/
def Dec.vecU128 : Dec (List Nat) := fun b => do
  let (n, b) ← Dec.uint 4 b
  Dec.rep (Dec.uint 16) n b

/-- `Vec<u128>` (`mass_cancel_orders.rs` 29) as borsh writes it. -/
def encVecU128 (xs : List Nat) : Bytes := toLE 4 xs.length ++ (xs.map (toLE 16)).flatten

/-- `Option<u128>`. (`orderbook.rs` 29.) -/
def Dec.optU128 : Dec (Option Nat)
  | b :: r => if b = 0 then some (none, r) else if b = 1 then (Dec.uint 16 r).map (fun (x, r) => (some x, r)) else none
  | [] => none

/-- `Option<u128>` (`orderbook.rs` 29) as borsh writes it. -/
def encOptU128 : Option Nat → Bytes
  | none => [0]
  | some x => 1 :: toLE 16 x

/-- `BorshSerialize + BorshDeserialize` of the callback info type (`new_order.rs` 25-47, `processor.rs` 19). -/
class Borsh (C : Type) where
  enc : C → Bytes
  dec : Dec C
  dec_enc : ∀ c r, dec (enc c ++ r) = some (c, r)
  enc_dec : ∀ b c r, dec b = some (c, r) → b = enc c ++ r

/-- `[u8; 32]`: the 32 bytes. -/
instance : Borsh Bytes32 where
  enc c := c.1
  dec b := if h : 32 ≤ b.length then some (⟨b.take 32, by rw [List.length_take]; omega⟩, b.drop 32) else none
  dec_enc c r := by
    have hc := c.2
    rw [dif_pos (by rw [List.length_append]; omega)]
    simp [List.take_append_of_le_length (Nat.le_of_eq hc.symm), hc, List.take_of_length_le (Nat.le_of_eq hc)]
  enc_dec b c r h := by
    split at h
    · obtain ⟨rfl, rfl⟩ := Prod.mk.inj (Option.some.inj h)
      exact (List.take_append_drop _ _).symm
    · cases h

/-- `try_from_slice(..).map_err(|_| InvalidInstructionData)`: all the input must be consumed.
(`processor.rs` 37-38, 44-45, 51-52, 58-59, 70-71.) -/
def tryFromSlice {α : Type} (d : Dec α) (b : Bytes) : Res α :=
  match d b with
  | some (x, []) => .ok x
  | _ => .error (.prog .invalidInstructionData)

/-! ### Parameters -/

/-- `create_market.rs` 26-31. -/
structure CreateParams where
  minBaseOrderSize : Nat
  tickSize : Nat
  deriving DecidableEq, Repr

/-- `create_market.rs` 26-31 as borsh writes it. -/
def CreateParams.enc (p : CreateParams) : Bytes := toLE 8 p.minBaseOrderSize ++ toLE 8 p.tickSize

/-- `create_market.rs` 26-31 as borsh reads it. -/
def CreateParams.dec : Dec CreateParams := fun b => do
  let (m, b) ← Dec.uint 8 b
  let (t, b) ← Dec.uint 8 b
  some (⟨m, t⟩, b)

/-- `new_order.rs` 29-56: fields in declaration order. -/
def encNewOrder {C : Type} [Borsh C] (p : NewOrderParams C) : Bytes :=
  toLE 8 p.maxBaseQty ++ (toLE 8 p.maxQuoteQty ++ (toLE 8 p.limitPrice ++ (encSide p.side ++ (toLE 8 p.matchLimit ++
  (Borsh.enc p.callbackInfo ++ (encBool p.postOnly ++ (encBool p.postAllowed ++
  encSelfTrade p.selfTradeBehavior)))))))

/-- `new_order.rs` 29-56 as borsh reads it; the callback information is read by `dc`. -/
def decNewOrder {C : Type} [Borsh C] : Dec (NewOrderParams C) := fun b => do
  let (maxBaseQty, b) ← Dec.uint 8 b
  let (maxQuoteQty, b) ← Dec.uint 8 b
  let (limitPrice, b) ← Dec.uint 8 b
  let (side, b) ← Dec.side b
  let (matchLimit, b) ← Dec.uint 8 b
  let (callbackInfo, b) ← Borsh.dec b
  let (postOnly, b) ← Dec.bool b
  let (postAllowed, b) ← Dec.bool b
  let (selfTradeBehavior, b) ← Dec.selfTrade b
  some ({ maxBaseQty, maxQuoteQty, limitPrice, side, matchLimit, callbackInfo, postOnly, postAllowed,
          selfTradeBehavior }, b)

/-! ### Instructions -/

/-- `instruction.rs` 13-91: the six instructions with their parameters. -/
inductive Ix (C : Type) where
  | createMarket (p : CreateParams)
  | newOrder (p : NewOrderParams C)
  | consumeEvents (n : Nat)
  | cancelOrder (orderId : Nat)
  | closeMarket
  | massCancelOrders (orderIds : List Nat)
  deriving DecidableEq, Repr

/-- `instruction.rs` 15-91: `enum AgnosticOrderbookInstruction`, variants as `u8`. -/
inductive IxTag where
  | createMarket | newOrder | consumeEvents | cancelOrder | closeMarket | massCancelOrders
  deriving DecidableEq, Repr

/-- The discriminants of `instruction.rs` 15-91. -/
def IxTag.toU8 : IxTag → UInt8
  | .createMarket => 0
  | .newOrder => 1
  | .consumeEvents => 2
  | .cancelOrder => 3
  | .closeMarket => 4
  | .massCancelOrders => 5

/-- `FromPrimitive::from_u8` (`processor.rs` 28-29). -/
def IxTag.ofU8 (b : UInt8) : Option IxTag :=
  if b = 0 then some .createMarket else if b = 1 then some .newOrder else if b = 2 then some .consumeEvents
  else if b = 3 then some .cancelOrder else if b = 4 then some .closeMarket
  else if b = 5 then some .massCancelOrders else none

/-- The borsh encoding of the parameters of an instruction.
(Of `create_market.rs` 26-31, `new_order.rs` 29-56 and so on.) -/
def Ix.params {C : Type} [Borsh C] : Ix C → Bytes
  | .createMarket p => p.enc
  | .newOrder p => encNewOrder p
  | .consumeEvents n => toLE 8 n
  | .cancelOrder id => toLE 16 id
  | .closeMarket => []
  | .massCancelOrders ids => encVecU128 ids

/-- The tag each binding of `instruction.rs` 108-227 passes to `get_instruction`.
`mass_cancel_orders` passes `CloseMarket` (218). -/
def Ix.bindingTag {C : Type} : Ix C → IxTag
  | .createMarket _ => .createMarket                  -- 115
  | .newOrder _ => .newOrder                          -- 139
  | .consumeEvents _ => .consumeEvents                -- 178
  | .cancelOrder _ => .cancelOrder                    -- 159
  | .closeMarket => .closeMarket                      -- 198
  | .massCancelOrders _ => .closeMarket               -- 218

/-- The instruction data built by the bindings: `get_instruction` (derived by `bonfida_utils::InstructionsAccount`,
external) puts the tag byte before the borsh encoding of the parameters. (`instruction.rs` 108-227.) -/
def Ix.binding {C : Type} [Borsh C] (i : Ix C) : Bytes := i.bindingTag.toU8 :: i.params

/-- `processor.rs` 28-30: the tag; empty data is a panic. -/
def decodeTag (data : Bytes) : Res IxTag := do
  let b ← idx data 0
  match IxTag.ofU8 b with
  | some t => .ok t
  | none => .error (.prog .invalidInstructionData)

/-- `processor.rs` 34-73: the parameters of an instruction from the rest of the data. `CloseMarket` ignores it
(65). -/
def decodeParams (C : Type) [Borsh C] (t : IxTag) (rest : Bytes) : Res (Ix C) :=
  match t with
  | .createMarket => (tryFromSlice CreateParams.dec rest).map .createMarket
  | .newOrder => (tryFromSlice decNewOrder rest).map .newOrder
  | .consumeEvents => (tryFromSlice (Dec.uint 8) rest).map .consumeEvents
  | .cancelOrder => (tryFromSlice (Dec.uint 16) rest).map .cancelOrder
  | .closeMarket => .ok .closeMarket
  | .massCancelOrders => (tryFromSlice Dec.vecU128 rest).map .massCancelOrders

/-- What a piece of instruction data means to `process_instruction`, the accounts aside. (`processor.rs` 28-73.) -/
def decodeIx (C : Type) [Borsh C] (data : Bytes) : Res (Ix C) := do
  let t ← decodeTag data
  decodeParams C t (data.drop 1)

/-! ### Register -/

/-- `orderbook.rs` 26-36, derived. -/
def OrderSummary.enc (s : OrderSummary) : Bytes :=
  encOptU128 s.postedOrderId ++ (toLE 8 s.totalBaseQty ++ (toLE 8 s.totalQuoteQty ++ toLE 8 s.totalBaseQtyPosted))

/-- `orderbook.rs` 26-36 as borsh reads it. -/
def OrderSummary.dec : Dec OrderSummary := fun b => do
  let (postedOrderId, b) ← Dec.optU128 b
  let (totalBaseQty, b) ← Dec.uint 8 b
  let (totalQuoteQty, b) ← Dec.uint 8 b
  let (totalBaseQtyPosted, b) ← Dec.uint 8 b
  some ({ postedOrderId, totalBaseQty, totalQuoteQty, totalBaseQtyPosted }, b)

/-- `Option<OrderSummary>` as written by `entrypoint.rs` 29-30. -/
def encRegister : Option OrderSummary → Bytes
  | none => [0]
  | some s => 1 :: s.enc

/-- How a caller reads the register (`BorshDeserialize` of `Option<OrderSummary>`; trailing bytes are left over from
earlier calls). Written by `entrypoint.rs` 29-30. -/
def decRegister : Dec (Option OrderSummary)
  | b :: r => if b = 0 then some (none, r)
    else if b = 1 then (OrderSummary.dec r).map (fun (s, r) => (some s, r)) else none
  | [] => none

/-- `orderbook.rs` 57. -/
def ORDER_SUMMARY_SIZE : Nat := 41

/-- `r.serialize(&mut a).unwrap()` (`entrypoint.rs` 30): `Write for &mut [u8]` fails when the slice is too short. -/
def writeRegister (data : Bytes) (r : Option OrderSummary) : Res Bytes :=
  let b := encRegister r
  if b.length ≤ data.length then .ok (b ++ data.drop b.length) else .error .panic

end AOB
