import Verif.Model.Bytes
import Mathlib.Tactic.Ring
/-
Little-endian encoding.
-/
namespace AOB

theorem ofLE_lt (bs : Bytes) : ofLE bs < 256 ^ bs.length := by
  induction bs with
  | nil => simp [ofLE]
  | cons b bs ih =>
    have h2 := b.toNat_lt
    simp only [ofLE, List.length_cons, pow_succ]
    omega

theorem toLE_ofLE (bs : Bytes) : toLE bs.length (ofLE bs) = bs := by
  induction bs with
  | nil => rfl
  | cons b bs ih =>
    have h2 := b.toNat_lt
    simp only [ofLE, List.length_cons, toLE]
    have h3 : UInt8.ofNat (b.toNat + 256 * ofLE bs) = b := by
      rw [← UInt8.toNat_inj, UInt8.toNat_ofNat']
      omega
    have h4 : (b.toNat + 256 * ofLE bs) / 256 = ofLE bs := by omega
    rw [h3, h4, ih]

theorem ofLE_toLE {n x : Nat} (h : x < 256 ^ n) : ofLE (toLE n x) = x := by
  induction n generalizing x with
  | zero => simp at h; subst h; rfl
  | succ n ih =>
    simp only [toLE, ofLE]
    rw [ih]
    · rw [UInt8.toNat_ofNat']; omega
    · rw [pow_succ] at h; omega

@[simp] theorem toLE_length (n x : Nat) : (toLE n x).length = n := by
  induction n generalizing x with
  | zero => rfl
  | succ n ih => simp [toLE, ih]

end AOB
