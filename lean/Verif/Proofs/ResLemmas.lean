import Verif.Model.Basic
/-
Inverting successful computations.
-/
namespace AOB

theorem bind_ok {α β : Type} {x : Res α} {f : α → Res β} {b : β} (h : (x >>= f) = .ok b) :
    ∃ a, x = .ok a ∧ f a = .ok b := by
  cases x with
  | ok a => exact ⟨a, rfl, h⟩
  | error e => cases h

theorem bind_of_ok {α β : Type} {x : Res α} {f : α → Res β} {a : α} (h : x = .ok a) : (x >>= f) = f a := by
  rw [h]; rfl

theorem idx_ok {α : Type} {xs : List α} {i : Nat} {x : α} : idx xs i = .ok x ↔ xs[i]? = some x := by
  unfold idx
  cases h : xs[i]? <;> simp

theorem subU_ok_iff {a b c : Nat} : subU a b = .ok c ↔ b ≤ a ∧ c = a - b := by
  unfold subU
  split <;> rename_i h
  · simp [h, eq_comm]
  · simp [h]

theorem addU64_ok_iff {a b c : Nat} : addU64 a b = .ok c ↔ a + b < U64 ∧ c = a + b := by
  unfold addU64
  split <;> rename_i h
  · simp [h, eq_comm]
  · simp [h]

theorem addU32_ok_iff {a b c : Nat} : addU32 a b = .ok c ↔ a + b < U32 ∧ c = a + b := by
  unfold addU32
  split <;> rename_i h
  · simp [h, eq_comm]
  · simp [h]

theorem remU_ok_iff {a b c : Nat} : remU a b = .ok c ↔ b ≠ 0 ∧ c = a % b := by
  unfold remU
  split <;> rename_i h
  · simp [h]
  · simp [h, eq_comm]

theorem divU_ok_iff {a b c : Nat} : divU a b = .ok c ↔ b ≠ 0 ∧ c = a / b := by
  unfold divU
  split <;> rename_i h
  · simp [h]
  · simp [h, eq_comm]

theorem setIdx_ok_iff {α : Type} {xs ys : List α} {i : Nat} {x : α} :
    setIdx xs i x = .ok ys ↔ i < xs.length ∧ ys = xs.set i x := by
  unfold setIdx
  split <;> rename_i h
  · simp [h, eq_comm]
  · simp [h]

theorem unwrap_ok_iff {α : Type} {o : Option α} {x : α} : unwrap o = .ok x ↔ o = some x := by
  cases o <;> simp [unwrap]

theorem ite_err_ok {α : Type} {c : Prop} [Decidable c] {e : Err} {x : Res α} {a : α} :
    (if c then .error e else x) = .ok a ↔ ¬ c ∧ x = .ok a := by
  split <;> rename_i h <;> simp [h]

end AOB
