import Verif.Model.Basic
/-
The numbers of the errors, as the runtime and the clients see them.
-/
namespace AOB

/-- `error.rs` 63-67: `e as u32`, the position in the enum. -/
def AoError.number : AoError → Nat
  | .alreadyInitialized => 0 | .wrongBidsAccount => 1 | .wrongAsksAccount => 2 | .wrongEventQueueAccount => 3
  | .wrongCallerAuthority => 4 | .eventQueueFull => 5 | .orderNotFound => 6 | .wouldSelfTrade => 7
  | .slabOutOfSpace => 8 | .feeNotPayed => 9 | .noOperations => 10 | .marketStillActive => 11
  | .invalidBaseQuantity => 12 | .wrongEventQueueOwner => 13 | .wrongBidsOwner => 14 | .wrongAsksOwner => 15
  | .wrongMarketOwner => 16 | .wrongMsrmOwner => 17 | .wrongMsrmMint => 18 | .wrongMsrmBalance => 19
  | .illegalMsrmOwner => 20 | .invalidLimitPrice => 21 | .numericalOverflow => 22 | .invalidCallbackInfo => 23
  | .accountTagMismatch => 24

/-- The result code of a failed instruction (`From<ProgramError> for u64` of `solana_program`, external): the number of
a custom error, `2^32` for number 0, and multiples of `2^32` for the others. A panic has no code.
The numbers are those of `error.rs` 63-67. -/
def Err.code : Err → Option Nat
  | .ao e => some (if e.number = 0 then 2 ^ 32 else e.number)
  | .prog .invalidArgument => some (2 * 2 ^ 32)
  | .prog .invalidInstructionData => some (3 * 2 ^ 32)
  | .prog .invalidAccountData => some (4 * 2 ^ 32)
  | .prog .accountAlreadyInitialized => some (9 * 2 ^ 32)
  | .prog .notEnoughAccountKeys => some (11 * 2 ^ 32)
  | .prog .accountNotRentExempt => some (16 * 2 ^ 32)
  | .io | .panic | .diverge => none

end AOB
