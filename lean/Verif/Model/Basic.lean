/-
Basic vocabulary of the model: outcomes (errors, panics), fixed-width arithmetic, FP32 maths,
sides, order ids, tick rounding.
-/
namespace AOB

/-- `program/src/error.rs` 10-61: `enum AoError`, in declaration order. -/
inductive AoError where
  | alreadyInitialized | wrongBidsAccount | wrongAsksAccount | wrongEventQueueAccount
  | wrongCallerAuthority | eventQueueFull | orderNotFound | wouldSelfTrade | slabOutOfSpace
  | feeNotPayed | noOperations | marketStillActive | invalidBaseQuantity | wrongEventQueueOwner
  | wrongBidsOwner | wrongAsksOwner | wrongMarketOwner | wrongMsrmOwner | wrongMsrmMint
  | wrongMsrmBalance | illegalMsrmOwner | invalidLimitPrice | numericalOverflow
  | invalidCallbackInfo | accountTagMismatch
  deriving DecidableEq, Repr

/-- The `solana_program::ProgramError` values the code returns by name (not through `AoError`).
(`processor.rs` 29 and 38, `market_state.rs` 53 and the like.) -/
inductive ProgramError where
  | invalidArgument | invalidInstructionData | invalidAccountData | accountAlreadyInitialized
  | notEnoughAccountKeys | accountNotRentExempt
  deriving DecidableEq, Repr

/-- How a modelled Rust function can fail to return a value.
`io` is the `IoError` of `allocate_leaf`/`allocate_inner_node` (`critbit.rs` 169-215).
`panic` is any Rust panic: index out of bounds, failed `unwrap`/`assert!`, arithmetic overflow or
division by zero. `diverge` is a `loop` whose fuel ran out. -/
inductive Err where
  | ao (e : AoError)
  | prog (e : ProgramError)
  | io
  | panic
  | diverge
  deriving DecidableEq, Repr

/-- Result of a modelled Rust function.
`Result<_, AoError>` (`orderbook.rs` 119) and `ProgramResult` (`processor.rs` 23); a panic is one of the errors. -/
abbrev Res (α : Type) := Except Err α

/-! ### Fixed-width integers: `Nat` with checked operations -/

/-- Size of `u32`, the type of `NodeHandle` (`critbit.rs` 80). -/
def U32 : Nat := 4294967296                                   -- 2^32
/-- Size of `u64` and of `usize` on the chain, the type of quantities (`new_order.rs` 29-56). -/
def U64 : Nat := 18446744073709551616                         -- 2^64
/-- Size of `u128`, the type of order ids (`orderbook.rs` 29). -/
def U128 : Nat := 340282366920938463463374607431768211456     -- 2^128

/-- `u64::MAX`. (`orderbook.rs` 166, 276.) -/
def u64Max : Nat := 18446744073709551615

/-- `a + b` on `u32`; overflow is a panic (see DESIGN, conventions). As in `critbit.rs` 175, 194, 236. -/
def addU32 (a b : Nat) : Res Nat := if a + b < U32 then .ok (a + b) else .error .panic
/-- `a - b` on unsigned integers; underflow is a panic. As in `critbit.rs` 183, 410, `orderbook.rs` 216, 272. -/
def subU (a b : Nat) : Res Nat := if b ≤ a then .ok (a - b) else .error .panic
/-- `a + b` on `u64`/`usize`; overflow is a panic. As in `event_queue.rs` 189, 192, 241. -/
def addU64 (a b : Nat) : Res Nat := if a + b < U64 then .ok (a + b) else .error .panic
/-- `a * b` on `u64`; overflow is a panic. As in `critbit.rs` 148, `event_queue.rs` 195. -/
def mulU64 (a b : Nat) : Res Nat := if a * b < U64 then .ok (a * b) else .error .panic
/-- `a % b`; a zero divisor is a panic. As in `new_order.rs` 132, `event_queue.rs` 190. -/
def remU (a b : Nat) : Res Nat := if b = 0 then .error .panic else .ok (a % b)
/-- `a / b`; a zero divisor is a panic.
As in `event_queue.rs` 158 and `fp32_div` (external, called in `orderbook.rs` 166). -/
def divU (a b : Nat) : Res Nat := if b = 0 then .error .panic else .ok (a / b)

/-- `xs[i]` for a slice. As in `critbit.rs` 97, `orderbook.rs` 90. -/
def idx {α : Type} (xs : List α) (i : Nat) : Res α :=
  match xs[i]? with
  | some x => .ok x
  | none => .error .panic

/-- `xs[i] = v` for a slice. As in `critbit.rs` 311, `event_queue.rs` 190. -/
def setIdx {α : Type} (xs : List α) (i : Nat) (v : α) : Res (List α) :=
  if i < xs.length then .ok (xs.set i v) else .error .panic

/-- `Option::unwrap`. As in `orderbook.rs` 306-344, `critbit.rs` 311. -/
def unwrap {α : Type} : Option α → Res α
  | some x => .ok x
  | none => .error .panic

/-! ### FP32 maths (`bonfida_utils::fp_math`, external crate; assumed behaviour, see DESIGN) -/

/-- `2^32`, one in FP32. The format of prices (`new_order.rs` 29-40, `market_state.rs` 26). -/
def FP32 : Nat := 4294967296

/-- `fp32_div(a, b)`: `floor(a * 2^32 / b)` if `b ≠ 0` and the result fits in `u64`.
Used at `orderbook.rs` 166 and 276. -/
def fp32Div (a b : Nat) : Option Nat :=
  if b = 0 then none
  else if a * FP32 / b < U64 then some (a * FP32 / b) else none

/-- `fp32_mul_floor(a, b)`: `floor(a * b / 2^32)` if it fits in `u64`.
Used at `orderbook.rs` 174, 350, `cancel_order.rs` 100, `mass_cancel_orders.rs` 104. -/
def fp32MulFloor (a b : Nat) : Option Nat :=
  if a * b / FP32 < U64 then some (a * b / FP32) else none

/-- `fp32_mul_ceil(a, b)`: `ceil(a * b / 2^32)` if it fits in `u64`.
Used at `orderbook.rs` 173, 349. -/
def fp32MulCeil (a b : Nat) : Option Nat :=
  if (a * b + (FP32 - 1)) / FP32 < U64 then some ((a * b + (FP32 - 1)) / FP32) else none

/-! ### Sides and order ids -/

/-- `state.rs` 44-47: `enum Side { Bid, Ask }`. -/
inductive Side where
  | bid | ask
  deriving DecidableEq, Repr

/-- `state.rs` 51-56. -/
def Side.opposite : Side → Side
  | .bid => .ask
  | .ask => .bid

/-- `side as u8`, `state.rs` 42-47. -/
def Side.toU8 : Side → Nat
  | .bid => 0
  | .ask => 1

/-- `state.rs` 61-69: `enum SelfTradeBehavior`. -/
inductive SelfTradeBehavior where
  | decrementTake | cancelProvide | abortTransaction
  deriving DecidableEq, Repr

/-- `state.rs` 72: `ORDER_ID_SIDE_FLAG = 1 << 63`. -/
def ORDER_ID_SIDE_FLAG : Nat := 1 <<< 63

/-- `state.rs` 75-81: `get_side_from_order_id`. -/
def getSideFromOrderId (orderId : Nat) : Side :=
  if ORDER_ID_SIDE_FLAG &&& orderId ≠ 0 then .bid else .ask

/-- `critbit.rs` 75-77: `LeafNode::price_from_key`, `(key >> 64) as u64`. -/
def priceFromKey (key : Nat) : Nat := (key >>> 64) % U64

/-- `utils.rs` 54-61: `round_price`. -/
def roundPrice (tickSize limitPrice : Nat) (side : Side) : Res Nat :=
  match side with
  | .bid => do
      let q ← divU limitPrice tickSize
      mulU64 tickSize q
  | .ask => do
      let a ← addU64 limitPrice tickSize
      let b ← subU a 1
      let q ← divU b tickSize
      mulU64 tickSize q

/-- `orderbook.rs` 40-46: trait `CallbackInfo` with its associated `CallbackId: PartialEq`
(equality of ids is assumed to be a genuine, decidable equality). -/
class CallbackInfo (C : Type) where
  Id : Type
  asCallbackId : C → Id
  [decEq : DecidableEq Id]

attribute [instance_reducible, instance] CallbackInfo.decEq

end AOB
