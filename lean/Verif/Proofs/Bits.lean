import Verif.Model.Critbit
import Mathlib.Data.Nat.Bitwise
import Mathlib.Tactic.Ring
/-
Bit-level facts about keys: common prefixes, critical bits, handles.
-/
namespace AOB

/-- `a` and `b` agree on their `p` most significant bits (of 128). -/
def Agree (p a b : Nat) : Prop := ∀ j, 128 - p ≤ j → a.testBit j = b.testBit j

theorem Agree.symm {p a b : Nat} (h : Agree p a b) : Agree p b a := fun j hj => (h j hj).symm
theorem Agree.trans {p a b c : Nat} (h : Agree p a b) (h' : Agree p b c) : Agree p a c :=
  fun j hj => (h j hj).trans (h' j hj)
theorem Agree.mono {p q a b : Nat} (h : Agree p a b) (hq : q ≤ p) : Agree q a b :=
  fun j hj => h j (by omega)
theorem Agree.refl (p a : Nat) : Agree p a a := fun _ _ => rfl

theorem lz_ge_iff {a b p : Nat} (ha : a < 2 ^ 128) (hb : b < 2 ^ 128) (hp : p ≤ 128) :
    p ≤ leadingZeros (a ^^^ b) ↔ Agree p a b := by
  have hx : a ^^^ b < 2 ^ 128 := Nat.xor_lt_two_pow ha hb
  have key : (a ^^^ b) < 2 ^ (128 - p) ↔ Agree p a b := by
    constructor
    · intro h j hj
      have : (a ^^^ b).testBit j = false :=
        Nat.testBit_lt_two_pow (lt_of_lt_of_le h (Nat.pow_le_pow_right (by norm_num) hj))
      rw [Nat.testBit_xor] at this
      simpa using this
    · intro h
      apply Nat.lt_pow_two_of_testBit
      intro i hi
      rw [Nat.testBit_xor, h i hi]; simp
  rw [← key]
  unfold leadingZeros
  split
  · next h => rw [h]; simp [hp]
  · next h =>
    have hl : Nat.log2 (a ^^^ b) < 128 := (Nat.log2_lt h).2 hx
    rw [← Nat.log2_lt h]
    omega

theorem lz_lt {a b : Nat} (h : a ≠ b) :
    leadingZeros (a ^^^ b) < 128 := by
  unfold leadingZeros
  have hx : a ^^^ b ≠ 0 := by
    intro h0; exact h (Nat.xor_eq_zero_iff.1 h0)
  rw [if_neg hx]
  omega

theorem lz_bit {a b : Nat} (ha : a < 2 ^ 128) (hb : b < 2 ^ 128) (h : a ≠ b) :
    a.testBit (127 - leadingZeros (a ^^^ b)) ≠ b.testBit (127 - leadingZeros (a ^^^ b)) := by
  have hx : a ^^^ b ≠ 0 := by
    intro h0; exact h (Nat.xor_eq_zero_iff.1 h0)
  have hlt : a ^^^ b < 2 ^ 128 := Nat.xor_lt_two_pow ha hb
  have hl : Nat.log2 (a ^^^ b) < 128 := (Nat.log2_lt hx).2 hlt
  have : 127 - leadingZeros (a ^^^ b) = Nat.log2 (a ^^^ b) := by
    unfold leadingZeros; rw [if_neg hx]; omega
  rw [this]
  have h2 : (a ^^^ b).testBit (Nat.log2 (a ^^^ b)) = true := Nat.testBit_log2 hx
  rw [Nat.testBit_xor] at h2
  intro h3
  rw [h3] at h2
  simp at h2

theorem critBitMask_ok {p : Nat} (hp : p < 128) : critBitMask p = .ok (2 ^ (127 - p)) := by
  unfold critBitMask
  rw [if_pos hp, Nat.shiftRight_eq_div_pow, Nat.shiftLeft_eq, one_mul,
    Nat.pow_div (by omega) (by norm_num)]

theorem and_mask {key i : Nat} : (!(key &&& 2 ^ i == 0)) = key.testBit i := by
  rw [Nat.and_two_pow]
  cases key.testBit i <;> simp

theorem mask_and {key i : Nat} : (!(2 ^ i &&& key == 0)) = key.testBit i := by
  rw [Nat.and_comm]; exact and_mask

theorem lt_of_critbit {p a b : Nat} (hp : p < 128) (h : Agree p a b)
    (ha : a.testBit (127 - p) = false) (hb : b.testBit (127 - p) = true) : a < b :=
  Nat.lt_of_testBit (127 - p) ha hb (fun j hj => h j (by omega))

/-! ### Handles -/

theorem isInner_leaf {h : Nat} (hh : h < 2 ^ 31) : isInnerHandle h = false := by
  unfold isInnerHandle INNER_FLAG
  rw [Nat.shiftLeft_eq, one_mul, and_mask]
  exact Nat.testBit_lt_two_pow hh

theorem isInner_not {i : Nat} (hi : i < 2 ^ 31) : isInnerHandle (notU32 i) = true := by
  unfold isInnerHandle INNER_FLAG
  rw [Nat.shiftLeft_eq, one_mul, and_mask]
  unfold notU32 U32
  have : 4294967296 - 1 - i = 2 ^ 31 + (2 ^ 31 - 1 - i) := by omega
  rw [this, Nat.testBit_two_pow_add_eq]
  rw [Nat.testBit_lt_two_pow (by omega)]; rfl

theorem notU32_notU32 {i : Nat} (hi : i < 2 ^ 32) : notU32 (notU32 i) = i := by
  unfold notU32 U32; omega

theorem notU32_inj {i j : Nat} (hi : i < 2 ^ 31) (hj : j < 2 ^ 31) (h : notU32 i = notU32 j) :
    i = j := by
  unfold notU32 U32 at h; omega

theorem notU32_ne_leaf {i h : Nat} (hi : i < 2 ^ 31) (hh : h < 2 ^ 31) : notU32 i ≠ h := by
  unfold notU32 U32; omega

end AOB
