import Verif.Proofs.Local
import Verif.Props.Chain
/-
C77: the program sees and changes only the accounts it is passed; so transactions without common accounts (of
different markets) can be executed in any order, or at the same time.
-/
set_option linter.unusedSectionVars false

namespace AOB
namespace Parallel
open World Chain

section
variable {C : Type} [Pod C] [CallbackInfo C] [Borsh C] {env : Env} {v w w1 w2 : World}
  {accounts acc1 acc2 : List Pubkey} {data d1 d2 : Bytes}

/-- C77. What the stand-alone program does depends on the accounts it is passed only, and it changes no others: in two
worlds that agree on these, it gives the same error or leaves the same in these accounts, and the others as they were. -/
theorem C77_local (h : ∀ k ∈ accounts, v k = w k) :
    (∀ e, entrypoint env C v accounts data = .error e ↔ entrypoint env C w accounts data = .error e) ∧
    ∀ w', entrypoint env C w accounts data = .ok w' → ∃ v', entrypoint env C v accounts data = .ok v' ∧
      (∀ k ∈ accounts, v' k = w' k) ∧ (∀ k, k ∉ accounts → v' k = v k ∧ w' k = w k) := by
  have e1 := entrypoint_graft (env := env) (C := C) (v := v) (w := w) (S := accounts) (fun _ h => h) data
  have e2 := entrypoint_graft (env := env) (C := C) (v := w) (w := w) (S := accounts) (fun _ h => h) data
  rw [graft_eq h] at e1
  rw [graft_eq (fun _ _ => rfl)] at e2
  rw [e1]
  constructor
  · intro e
    cases entrypoint env C w accounts data <;> simp [Except.map]
  · intro w' hw'
    rw [hw'] at e2 ⊢
    refine ⟨_, rfl, fun k hk => graft_at hk, fun k hk => ⟨graft_out hk, ?_⟩⟩
    have := Except.ok.inj e2
    rw [this]; exact graft_out hk

/-- C77. The same for `process_instruction`, as an embedding program calls it; the answer is the same too. -/
theorem C77_local_process (h : ∀ k ∈ accounts, v k = w k) :
    (∀ e, Processor.processInstruction env C v accounts data = .error e ↔
      Processor.processInstruction env C w accounts data = .error e) ∧
    ∀ r w', Processor.processInstruction env C w accounts data = .ok (r, w') →
      ∃ v', Processor.processInstruction env C v accounts data = .ok (r, v') ∧
        (∀ k ∈ accounts, v' k = w' k) ∧ (∀ k, k ∉ accounts → v' k = v k ∧ w' k = w k) := by
  have e1 := processInstruction_graft (env := env) (C := C) (v := v) (w := w) (S := accounts) (fun _ h => h) data
  have e2 := processInstruction_graft (env := env) (C := C) (v := w) (w := w) (S := accounts) (fun _ h => h) data
  rw [graft_eq h] at e1
  rw [graft_eq (fun _ _ => rfl)] at e2
  rw [e1]
  constructor
  · intro e
    cases Processor.processInstruction env C w accounts data <;> simp [Except.map]
  · intro r w' hw'
    rw [hw'] at e2 ⊢
    refine ⟨_, rfl, fun k hk => graft_at hk, fun k hk => ⟨graft_out hk, ?_⟩⟩
    have := (Prod.mk.inj (Except.ok.inj e2)).2
    rw [this]; exact graft_out hk

/-- C77. Two calls commute if neither changes an account the other is passed (as the runtime demands before it executes
them at the same time: no account one of them may write is passed to the other): each succeeds after the other, and
both orders lead to the same world, in which every account is as the call that changed it left it. -/
theorem C77_commute (h1 : entrypoint env C w acc1 d1 = .ok w1) (h2 : entrypoint env C w acc2 d2 = .ok w2)
    (hs1 : ∀ k ∈ acc2, w1 k = w k) (hs2 : ∀ k ∈ acc1, w2 k = w k) :
    ∃ w', entrypoint env C w1 acc2 d2 = .ok w' ∧ entrypoint env C w2 acc1 d1 = .ok w' ∧
      (∀ k, w1 k = w k → w' k = w2 k) ∧ (∀ k, w2 k = w k → w' k = w1 k) := by
  obtain ⟨v1, a1, a2, a3⟩ := (C77_local (env := env) (C := C) (data := d2) hs1).2 w2 h2
  obtain ⟨v2, b1, b2, b3⟩ := (C77_local (env := env) (C := C) (data := d1) hs2).2 w1 h1
  have hv : ∀ k, (w1 k = w k → v1 k = w2 k) ∧ (w2 k = w k → v1 k = w1 k) := by
    intro k
    by_cases hk : k ∈ acc2
    · exact ⟨fun _ => a2 k hk, fun h => by rw [a2 k hk, h, hs1 k hk]⟩
    · exact ⟨fun h => by rw [(a3 k hk).1, (a3 k hk).2, h], fun _ => (a3 k hk).1⟩
  have heq : v2 = v1 := by
    funext k
    by_cases hk : k ∈ acc1
    · rw [b2 k hk, (hv k).2 (hs2 k hk)]
    · rw [(b3 k hk).1, (hv k).1 (b3 k hk).2]
  exact ⟨v1, a1, heq ▸ b1, fun k => (hv k).1, fun k => (hv k).2⟩

/-- C77. A call fails after another one, which changes none of its accounts, exactly if it fails before, with the same
error. -/
theorem C77_refused (hs1 : ∀ k ∈ acc2, w1 k = w k) (e : Err) :
    entrypoint env C w1 acc2 d2 = .error e ↔ entrypoint env C w acc2 d2 = .error e := (C77_local hs1).1 e

/-! ### Many calls -/

/-- A sequence of calls of the stand-alone program; a failing call has no effect. -/
def runCalls (env : Env) (C : Type) [Pod C] [CallbackInfo C] [Borsh C] (w : World) : List (List Pubkey × Bytes) → World
  | [] => w
  | c :: cs =>
    match entrypoint env C w c.1 c.2 with
    | .ok w' => runCalls env C w' cs
    | .error _ => runCalls env C w cs

/-- C77. Calls with accounts inside a set `S` and calls with accounts outside of it, interleaved in any way: the
accounts of `S` end up as if the latter had not been there at all. -/
theorem C77_interleaving {S : List Pubkey} {cs : List (List Pubkey × Bytes)}
    (hcs : ∀ c ∈ cs, (∀ k ∈ c.1, k ∈ S) ∨ (∀ k ∈ c.1, k ∉ S)) :
    ∀ {w v : World}, (∀ k ∈ S, w k = v k) →
      ∀ k ∈ S, runCalls env C w cs k = runCalls env C v (cs.filter fun c => c.1.all (· ∈ S)) k := by
  induction cs with
  | nil => intro w v h k hk; exact h k hk
  | cons c cs ih =>
    intro w v h
    have ih' := fun {w v} => ih (fun c hc => hcs c (List.mem_cons_of_mem _ hc)) (w := w) (v := v)
    by_cases hin : ∀ k ∈ c.1, k ∈ S
    · have hf : (c.1.all (· ∈ S)) = true := by simpa using hin
      rw [List.filter_cons_of_pos (by simpa using hf)]
      obtain ⟨l1, l2⟩ := C77_local (env := env) (C := C) (data := c.2) (accounts := c.1) (v := w) (w := v)
        (fun k hk => h k (hin k hk))
      unfold runCalls
      cases hv : entrypoint env C v c.1 c.2 with
      | error e =>
        rw [(l1 e).2 hv]
        exact ih' h
      | ok v' =>
        obtain ⟨w', a1, a2, a3⟩ := l2 v' hv
        rw [a1]
        refine ih' fun k hk => ?_
        by_cases hkc : k ∈ c.1
        · exact a2 k hkc
        · rw [(a3 k hkc).1, (a3 k hkc).2, h k hk]
    · have hout : ∀ k ∈ c.1, k ∉ S := (hcs c (by simp)).resolve_left hin
      have hf : ¬ (c.1.all (· ∈ S)) = true := by simpa using hin
      rw [List.filter_cons_of_neg (by simpa using hf)]
      have hrest : ∀ w', entrypoint env C w c.1 c.2 = .ok w' → ∀ k ∈ S, w' k = v k := by
        intro w' hw' k hk
        obtain ⟨_, _, _, a3⟩ := (C77_local (env := env) (C := C) (data := c.2) (v := w) (w := w) (fun _ _ => rfl)).2 w' hw'
        rw [(a3 k (fun hkc => hout k hkc hk)).2, h k hk]
      conv => intro k hk; lhs; unfold runCalls
      cases hw : entrypoint env C w c.1 c.2 with
      | error e => exact ih' h
      | ok w' => exact ih' (hrest w' hw)

end

section
variable {C : Type} [Pod C] [CallbackInfo C] [Borsh C] {env : Env} {R : Pubkey → Prop} {w w1 w2 : World}
  {k j : Pubkey} {x1 x2 : List Pubkey} {d1 d2 : Bytes}

/-- C77. On the chain: two calls on different markets, each with the market's own accounts and further ones (its
register, the target of `close_market`) that are not passed to the other, commute. -/
theorem C77_markets (hw : OnChain env C R w) (hk : ¬ R k) (hj : ¬ R j) (hMk : IsMarket env w k) (hMj : IsMarket env w j)
    (hne : k ≠ j) (hx1 : ∀ t ∈ x1, t ∉ own w j ++ x2) (hx2 : ∀ t ∈ x2, t ∉ own w k)
    (h1 : entrypoint env C w (own w k ++ x1) d1 = .ok w1) (h2 : entrypoint env C w (own w j ++ x2) d2 = .ok w2) :
    ∃ w', entrypoint env C w1 (own w j ++ x2) d2 = .ok w' ∧ entrypoint env C w2 (own w k ++ x1) d1 = .ok w' ∧
      (∀ x ∈ own w k ++ x1, w' x = w1 x) ∧ (∀ x ∈ own w j ++ x2, w' x = w2 x) := by
  have hdis := Accounts.C41_disjoint hw hk hj hMk hMj hne
  have hsep : ∀ x ∈ own w k ++ x1, x ∉ own w j ++ x2 := by
    intro x hx hx'
    rcases List.mem_append.1 hx with a | a
    · rcases List.mem_append.1 hx' with b | b
      · exact hdis x a b
      · exact hx2 x b a
    · exact hx1 x a hx'
  have f1 := fun x hx => (((C77_local (env := env) (C := C) (data := d1) (v := w) (w := w) (fun _ _ => rfl)).2 w1
    h1).choose_spec.2.2 x (fun h => hsep x h hx)).2
  have f2 := fun x hx => (((C77_local (env := env) (C := C) (data := d2) (v := w) (w := w) (fun _ _ => rfl)).2 w2
    h2).choose_spec.2.2 x (hsep x hx)).2
  obtain ⟨w', a, b, c, d⟩ := C77_commute h1 h2 f1 f2
  exact ⟨w', a, b, fun x hx => d x (f2 x hx), fun x hx => c x (f1 x hx)⟩

end

/-! ### A concrete case -/

section
open DemoChain

/-- The demo chain with a second register, account 7, of another program. -/
def wReg : World := fun k => if k = key 7 then ⟨key 8, 500, List.replicate 42 0⟩ else w4 k

theorem onChain_wReg : OnChain env Bytes32 R wReg := by
  obtain ⟨w0, h0, h1⟩ := onChain_w4
  refine ⟨w0, h0, h1.step (.elsewhere fun k => ?_)⟩
  unfold wReg
  split
  · next h =>
    subst h
    refine .inr ⟨.inl (by decide +kernel), fun h => absurd h (by decide +kernel)⟩
  · exact .inl ⟨rfl, rfl, le_refl _⟩

/-- An order for the first market and one for the second, each with its own register. -/
example := C77_markets onChain_wReg (k := key 1) (j := key 11) (x1 := [key 6]) (x2 := [key 7])
  (d1 := newOrder .ask 3 8 3) (d2 := newOrder .bid 4 9 3) (by show key 1 ≠ key 6; decide +kernel)
  (by show key 11 ≠ key 6; decide +kernel) (Accounts.demo_isMarket (by decide +kernel))
  (Accounts.demo_isMarket (by decide +kernel)) (by decide +kernel) (by decide +kernel) (by decide +kernel)
  (afterEntry_step (by decide +kernel)) (afterEntry_step (by decide +kernel))

/-- The calls of the second market between those of the first do not matter for it. -/
example := C77_interleaving (env := env) (C := Bytes32) (S := accounts ++ [key 6])
  (cs := [(accounts ++ [key 6], newOrder .ask 3 8 3), (accounts' ++ [key 7], newOrder .bid 4 9 3),
    (accounts ++ [key 6], consume 1), (accounts' ++ [key 7], cancel 5)]) (by decide +kernel)
  (w := wReg) (v := wReg) (fun _ _ => rfl)

/-! Each theorem applied. -/

/-- The demo chain, but nothing is left of the second market and of a wallet. -/
def other : World := fun k => if k ∈ accounts' ++ [key 8] then ⟨key 0, 1, []⟩ else w4 k

example := C77_local (env := env) (C := Bytes32) (v := other) (w := w4) (accounts := accounts ++ [key 6])
  (data := newOrder .ask 3 8 3) (by decide +kernel)
example := C77_local_process (env := env) (C := Bytes32) (v := other) (w := w4) (accounts := accounts)
  (data := newOrder .ask 3 8 3) (by decide +kernel)

example := C77_commute (afterEntry_step (w := wReg) (l := accounts ++ [key 6]) (d := newOrder .ask 3 8 3) (by decide +kernel))
  (afterEntry_step (w := wReg) (l := accounts' ++ [key 7]) (d := newOrder .bid 4 9 3) (by decide +kernel))
  (by decide +kernel) (by decide +kernel)
/-- `C77_refused`: the second market refuses, before and after the call for the first one. -/
example := C77_refused (env := env) (C := Bytes32) (w := wReg)
  (w1 := afterEntry wReg (accounts ++ [key 6]) (newOrder .ask 3 8 3)) (acc2 := accounts' ++ [key 7]) (d2 := cancel 5)
  (by decide +kernel) (.ao .orderNotFound)

end

end Parallel
end AOB
