import Verif.Spec.Chain
import Verif.Model.Bindings
/-
What the Solana runtime checks after an instruction (assumed behaviour of the runtime, `PreAccount::verify` and the sum
of the balances): the changes a program may make to the accounts it was passed.
-/
namespace AOB

/-- The runtime lets program `prog`, called with the accounts `ms`, turn `w` into `w'`. An account passed twice is
writable if it is once passed as writable. Resizing is left out: the program does not do it. -/
structure Permitted (prog : Pubkey) (ms : List Meta) (w w' : World) : Prop where
  /-- Only accounts passed as writable change. -/
  readonly : ∀ k, (∀ x ∈ ms, x.key = k → x.writable = false) → w' k = w k
  owner : ∀ k, (w' k).owner = (w k).owner
  size : ∀ k, (w' k).data.length = (w k).data.length
  /-- Accounts of other programs keep their data and do not lose lamports. -/
  foreign : ∀ k, (w k).owner ≠ prog → (w' k).data = (w k).data ∧ (w k).lamports ≤ (w' k).lamports
  /-- The sum of the balances of the accounts passed stays the same. -/
  balance : ∀ ks : List Pubkey, ks.Nodup → (∀ k, k ∈ ks ↔ ∃ x ∈ ms, x.key = k) →
    (ks.map fun k => (w' k).lamports).sum = (ks.map fun k => (w k).lamports).sum

end AOB
