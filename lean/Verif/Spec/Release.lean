import Verif.Model.Wrapping
import Verif.Spec.Chain
/-
Histories of the chain in which the program is the one built without overflow checks.
-/
namespace AOB.Wrapping

/-- No account is longer than the address space. -/
def Sized (w : World) : Prop := ∀ k, (w k).data.length < 2 ^ 64

/-- The lamports of any five accounts fit in a `u64`: the supply of lamports is below `2^64`. -/
def Funded (w : World) : Prop :=
  ∀ l : List Pubkey, l.Nodup → l.length ≤ 5 → (l.map fun k => (w k).lamports).sum < 2 ^ 64

section
variable (env : Env) (C : Type) [Pod C] [CallbackInfo C] [Borsh C]

/-- One step of the chain, as `ChainStep`, with the program built without overflow checks. -/
inductive ReleaseStep (R : Pubkey → Prop) : World → World → Prop where
  | call {w w' : World} {accounts : List Pubkey} {data : Bytes} {r : Option OrderSummary} :
      (∀ k ∈ accounts, ¬ R k) → processInstruction C env w accounts data = .ok (r, w') → ReleaseStep R w w'
  | entry {w w' : World} {accounts : List Pubkey} {data : Bytes} :
      (∀ k ∈ accounts.dropLast, ¬ R k) → (∀ k, accounts.getLast? = some k → R k) →
      entrypoint C env w accounts data = .ok w' → ReleaseStep R w w'
  | elsewhere {w w' : World} : Elsewhere env w w' → ReleaseStep R w w'

/-- A history of `n` steps. -/
inductive ReleaseRun (R : Pubkey → Prop) (w₀ : World) : Nat → World → Prop where
  | refl : ReleaseRun R w₀ 0 w₀
  | step {n : Nat} {w w' : World} : ReleaseRun R w₀ n w → Sized w → Funded w → ReleaseStep env C R w w' →
      ReleaseRun R w₀ (n + 1) w'

end
end AOB.Wrapping
