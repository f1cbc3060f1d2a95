import Verif.Model.Basic
/-
Bytes and little-endian integers.
-/
namespace AOB

/-- Account data, instruction data, padding: `[u8]`.
The type of `instruction_data` (`processor.rs` 22) and of account data (`critbit.rs` 138-142). -/
abbrev Bytes := List UInt8

/-- Little-endian value of a byte string (the in-memory and borsh representation of unsigned integers).
Used by the casts of `critbit.rs` 150-156 and by `try_from_slice` (`processor.rs` 37). -/
def ofLE : Bytes → Nat
  | [] => 0
  | b :: bs => b.toNat + 256 * ofLE bs

/-- The `n` low bytes of `x`, little-endian. As stored by `critbit.rs` 150-156 and `event_queue.rs` 170-172. -/
def toLE : Nat → Nat → Bytes
  | 0, _ => []
  | n + 1, x => UInt8.ofNat x :: toLE n (x / 256)

end AOB
