import Verif.Proofs.WrappingChain
import Verif.Spec.DemoChain
/-
The program built without overflow checks, as it is deployed (C75).
-/
namespace AOB
variable {C : Type}

/-! ### One call on any accounts -/

section
variable [Pod C] [CallbackInfo C] [Borsh C] {env : Env} {w : World}

/-- C75: on any accounts whatsoever, a call that does not panic in the build with overflow checks has the same outcome,
success or error, and the same effect in the build without. -/
theorem C75_follows (hw : Wrapping.Sized w) (accounts : List Pubkey) (data : Bytes)
    (h : Processor.processInstruction env C w accounts data ≠ .error .panic) :
    Wrapping.processInstruction C env w accounts data = Processor.processInstruction env C w accounts data :=
  Wrapping.processInstruction_follows hw accounts data h

/-- C75: the same for the stand-alone program. -/
theorem C75_entrypoint_follows (hw : Wrapping.Sized w) (accounts : List Pubkey) (data : Bytes)
    (h : entrypoint env C w accounts data ≠ .error .panic) :
    Wrapping.entrypoint C env w accounts data = entrypoint env C w accounts data :=
  Wrapping.entrypoint_follows hw accounts data h

end

/-! ### A market -/

section
variable [CallbackInfo C] {c : Config} {is : List (Instr C)} {m : Market C}

/-- C75: on a market that can arise, every instruction has the same result in both builds, panics included, for the
first `2^64 - 1` instructions of the market. -/
theorem C75_market (h : ReachBy c is m) (hl : is.length + 1 < 2 ^ 64) {i : Instr C} (hi : i.Ok) :
    Wrapping.exec m i = m.exec i := by
  obtain ⟨h1, h2, _⟩ := h.known
  exact Wrapping.exec_eq h1 (by omega) hi

/-- C75: so whole histories lead to the same market. -/
theorem C75_history (hc : c.Valid) (c0 : C) (hi : ∀ i ∈ is, i.Ok) (hl : is.length < 2 ^ 64) :
    Wrapping.run (c.market c0) is = (c.market c0).run is := by
  refine Wrapping.run_eq (c := c) (js := []) is ⟨hc, ?_, c0, rfl⟩ (by rw [List.length_nil]; omega) hi
  intro i h
  cases h

end

/-! ### The chain -/

section
variable [Pod C] [CallbackInfo C] [Borsh C] {env : Env} {R : Pubkey → Prop} {w₀ w : World} {n : Nat}

theorem release_inv (hs : Pod.size C < 2 ^ 31) (h0 : Genesis env w₀) (h : Wrapping.ReleaseRun env C R w₀ n w)
    (hn : n < 2 ^ 64) : ChainRun env C R w₀ w ∧ QueuesOk env C R n w := by
  induction h with
  | refl => exact ⟨.refl, h0.queuesOk⟩
  | @step k u v h hw hf hst ih =>
    obtain ⟨h1, h2⟩ := ih (by omega)
    have hon : OnChain env C R u := ⟨w₀, h0, h1⟩
    have hcs : ChainStep env C R u v := by
      cases hst with
      | call hR hx => exact .call hR (Wrapping.processInstruction_same hon.inv hon.tidy h2 hn hs hw hf hR _ _ hx)
      | entry hR hr hx => exact .entry hR hr (Wrapping.entrypoint_same hon.inv hon.tidy h2 hn hs hw hf hR _ _ hx)
      | elsewhere he => exact .elsewhere he
    exact ⟨h1.step hcs, h2.step hon.inv hcs⟩

/-- C75: every history of fewer than `2^64` steps with the build without overflow checks is a history with the other
one, so everything proved of the worlds that can arise holds for the deployed program. -/
theorem C75_chain (hs : Pod.size C < 2 ^ 31) (h0 : Genesis env w₀) (h : Wrapping.ReleaseRun env C R w₀ n w)
    (hn : n < 2 ^ 64) : ChainRun env C R w₀ w ∧ OnChain env C R w :=
  have h1 := (release_inv hs h0 h hn).1
  ⟨h1, w₀, h0, h1⟩

/-- C75: and in such a world a call of the one succeeds, with the same result and effect, exactly if a call of the other
does. -/
theorem C75_call (hs : Pod.size C < 2 ^ 31) (h0 : Genesis env w₀) (h : Wrapping.ReleaseRun env C R w₀ n w)
    (hn : n + 1 < 2 ^ 64) (hw : Wrapping.Sized w) (hf : Wrapping.Funded w) {accounts : List Pubkey}
    (hR : ∀ k ∈ accounts, ¬ R k) (data : Bytes) (r : Option OrderSummary) (w' : World) :
    Wrapping.processInstruction C env w accounts data = .ok (r, w') ↔
      Processor.processInstruction env C w accounts data = .ok (r, w') := by
  obtain ⟨h1, h2⟩ := release_inv hs h0 h (by omega)
  have hon : OnChain env C R w := ⟨w₀, h0, h1⟩
  exact (Wrapping.processInstruction_same hon.inv hon.tidy h2 hn hs hw hf hR data).iff
    (Wrapping.processInstruction_follows hw accounts data) _

/-- C75: the same for the stand-alone program. -/
theorem C75_entry (hs : Pod.size C < 2 ^ 31) (h0 : Genesis env w₀) (h : Wrapping.ReleaseRun env C R w₀ n w)
    (hn : n + 1 < 2 ^ 64) (hw : Wrapping.Sized w) (hf : Wrapping.Funded w) {accounts : List Pubkey}
    (hR : ∀ k ∈ accounts.dropLast, ¬ R k) (data : Bytes) (w' : World) :
    Wrapping.entrypoint C env w accounts data = .ok w' ↔ entrypoint env C w accounts data = .ok w' := by
  obtain ⟨h1, h2⟩ := release_inv hs h0 h (by omega)
  have hon : OnChain env C R w := ⟨w₀, h0, h1⟩
  exact (Wrapping.entrypoint_same hon.inv hon.tidy h2 hn hs hw hf hR data).iff
    (Wrapping.entrypoint_follows hw accounts data) _

end

/-! ### Where they differ -/

/-- C75: `round_price` for asks without overflow checks, exactly: the least multiple of the tick size that is not below
the limit if limit and tick size add up to at most `2^64`, and 0 otherwise. -/
theorem C75_round_price {tick limit : Nat} (h0 : 0 < tick) (ht : tick < 2 ^ 64) (hl : limit < 2 ^ 64) :
    (limit + tick ≤ 2 ^ 64 → ∃ r, Wrapping.roundPrice tick limit .ask = .ok r ∧ tick ∣ r ∧ limit ≤ r ∧
      ∀ x, tick ∣ x → limit ≤ x → r ≤ x) ∧
    (2 ^ 64 < limit + tick → Wrapping.roundPrice tick limit .ask = .ok 0) := by
  have hd : ∀ b, divU b tick = .ok (b / tick) := fun b => by unfold divU; rw [if_neg (by omega)]
  have eU : U64 = 2 ^ 64 := rfl
  constructor
  · intro hle
    refine ⟨tick * ((limit + tick - 1) / tick), ?_, Nat.dvd_mul_right _ _, ?_, ?_⟩
    · have hb : (do let a ← Wrapping.addU64 limit tick
                    Wrapping.subU64 a 1) = .ok (limit + tick - 1) := by
        unfold Wrapping.addU64
        rw [ok_bind]
        unfold Wrapping.subU64
        by_cases he : limit + tick = 2 ^ 64
        · rw [he, eU, Nat.mod_self, if_neg (by omega)]; congr 1
        · rw [Nat.mod_eq_of_lt (by omega), if_pos (by omega)]
      have hm := Nat.mul_div_le (limit + tick - 1) tick
      unfold Wrapping.addU64 at hb
      rw [ok_bind] at hb
      unfold Wrapping.roundPrice Wrapping.addU64
      simp only [ok_bind]
      rw [hb, ok_bind, hd, ok_bind, Wrapping.mulU64_eq (by omega)]
    · have := Nat.lt_mul_div_succ (limit + tick - 1) h0
      rw [Nat.mul_add, Nat.mul_one] at this
      omega
    · rintro x ⟨y, rfl⟩ hx
      refine Nat.mul_le_mul_left _ ?_
      rw [← Nat.lt_succ_iff, Nat.div_lt_iff_lt_mul h0, Nat.succ_mul, Nat.mul_comm y]
      omega
  · intro hgt
    unfold Wrapping.roundPrice Wrapping.addU64
    simp only [ok_bind]
    have e : (limit + tick) % U64 = limit + tick - U64 := by
      rw [Nat.mod_eq_sub_mod (by omega), Nat.mod_eq_of_lt (by omega)]
    rw [e, Wrapping.subU64_eq (by omega), ok_bind, hd, ok_bind, Nat.div_eq_of_lt (by omega)]
    rfl

/-- C75: an ask of price `2^64 - 1`, itself a multiple of the tick size 3, is rounded to 0 without overflow checks and
panics with them. -/
theorem C75_round_price_witness : Wrapping.roundPrice 3 (2 ^ 64 - 1) .ask = .ok 0 ∧ 3 ∣ 2 ^ 64 - 1 ∧
    roundPrice 3 (2 ^ 64 - 1) .ask = .error .panic := by decide +kernel

/-- C75: after `2^64 - 1` orders the next one takes the last number and, without overflow checks, the counter starts
again at 0: the limit on the number of instructions cannot be dropped. -/
theorem C75_counter_witness (q : EventQueue C) (h : q.header.seqNum = 2 ^ 64 - 1) :
    q.genSeqNum = .error .panic ∧
      Wrapping.genSeqNum q = .ok (2 ^ 64 - 1, { q with header := { q.header with seqNum := 0 } }) := by
  unfold EventQueue.genSeqNum Wrapping.genSeqNum
  rw [h]
  exact ⟨rfl, rfl⟩

/-! ### Concrete cases -/

namespace DemoChain

/-- Accounts of at most 552 bytes and 4000 lamports. -/
def Small (w : World) : Prop := ∀ k, (w k).lamports ≤ 4000 ∧ (w k).data.length ≤ 552

theorem Small.sized {w : World} (h : Small w) : Wrapping.Sized w := fun k => by have := (h k).2; omega

theorem Small.funded {w : World} (h : Small w) : Wrapping.Funded w := by
  intro l _ hl
  have : ∀ l : List Pubkey, (l.map fun k => (w k).lamports).sum ≤ 4000 * l.length := by
    intro l
    induction l with
    | nil => exact Nat.le_refl _
    | cons k l ih =>
      simp only [List.map_cons, List.sum_cons, List.length_cons]
      have := (h k).1
      omega
  have := this l
  omega

theorem small_genesis : Small genesis := by
  intro k
  have h : ∀ l n, l ≤ 4000 → n ≤ 552 → ∀ o, (⟨o, l, List.replicate n 0⟩ : Account).lamports ≤ 4000 ∧
      (⟨o, l, List.replicate n 0⟩ : Account).data.length ≤ 552 := by
    intro l n h1 h2 o
    exact ⟨h1, by show (List.replicate n 0).length ≤ 552; rw [List.length_replicate]; exact h2⟩
  unfold genesis
  split
  · exact h _ _ (by decide) (by decide) _
  split
  · exact h _ _ (by decide) (by decide) _
  split
  · exact h _ _ (by decide) (by decide) _
  split
  · exact h _ _ (by decide) (by decide) _
  split
  · exact h _ _ (by decide) (by decide) _
  · exact h _ 0 (by decide) (by decide) _

def isClose : Res (Ix Bytes32) → Bool
  | .ok .closeMarket => true
  | _ => false

theorem release_after {n : Nat} {w : World} (h : Wrapping.ReleaseRun env Bytes32 R genesis n w ∧ Small w)
    {l : List Pubkey} {d : Bytes} (hl : ∀ k ∈ l, k ≠ key 6) (hd : isClose (decodeIx Bytes32 d) = false)
    (hx : succeeds (Processor.processInstruction env Bytes32 w l d) = true) :
    Wrapping.ReleaseRun env Bytes32 R genesis (n + 1) (after w l d) ∧ Small (after w l d) := by
  obtain ⟨r, hr⟩ := after_step hx
  constructor
  · refine .step h.1 h.2.sized h.2.funded (.call hl (r := r) (data := d) ?_)
    rw [C75_follows h.2.sized l d (by rw [hr]; intro h; cases h), hr]
  · obtain ⟨ix, hix, hran⟩ := processInstruction_ok_iff.1 hr
    intro k
    obtain ⟨_, f2, f3, _⟩ := hran.frame k
    rw [f2, f3 (by rintro rfl; rw [hix] at hd; cases hd)]
    exact h.2 k

theorem release_w4 : Wrapping.ReleaseRun env Bytes32 R genesis 4 w4 ∧ Small w4 := by
  refine release_after (w := w3) ?_ (by decide +kernel) (by decide +kernel) (by decide +kernel)
  refine release_after (w := w2) ?_ (by decide +kernel) (by decide +kernel) (by decide +kernel)
  refine release_after (w := w1) ?_ (by decide +kernel) (by decide +kernel) (by decide +kernel)
  exact release_after (w := genesis) ⟨.refl, small_genesis⟩ (by decide +kernel) (by decide +kernel) (by decide +kernel)

/-- Two markets and a fill, made by the build without overflow checks, are a history of the other build. -/
example : OnChain env Bytes32 R w4 := (C75_chain (by decide) genesis_ok release_w4.1 (by decide)).2

/-- There, the build without overflow checks cancels the rest of the ask as the other one does. -/
example : succeeds (Wrapping.processInstruction Bytes32 env w4 accounts (cancel askId)) = true := by
  obtain ⟨r, hr⟩ := after_step (w := w4) (l := accounts) (d := cancel askId) (by decide +kernel)
  rw [(C75_call (by decide) genesis_ok release_w4.1 (by decide) release_w4.2.sized release_w4.2.funded
    (by show ∀ k ∈ accounts, k ≠ key 6; decide +kernel) _ _ _).2 hr]
  rfl

example : Wrapping.entrypoint Bytes32 env w4 (accounts' ++ [key 6]) (newOrder .bid 4 9 3) = .ok w5 :=
  (C75_entry (by decide) genesis_ok release_w4.1 (by decide) release_w4.2.sized release_w4.2.funded
    (by show ∀ k ∈ (accounts' ++ [key 6]).dropLast, k ≠ key 6; decide +kernel) _ _).2 (afterEntry_step (by decide +kernel))

example : Wrapping.entrypoint Bytes32 env w4 (accounts' ++ [key 6]) (newOrder .bid 4 9 3) = .ok w5 :=
  (C75_entrypoint_follows release_w4.2.sized _ _ (by
    rw [afterEntry_step (w := w4) (by decide +kernel)]; intro h; cases h)).trans (afterEntry_step (by decide +kernel))

example := C75_follows (env := env) (C := Bytes32) release_w4.2.sized accounts (cancel askId) (by
  obtain ⟨r, hr⟩ := after_step (w := w4) (l := accounts) (d := cancel askId) (by decide +kernel)
  rw [hr]; intro h; cases h)

end DemoChain

example : Wrapping.exec demo (.newOrder demoTake) = demo.exec (.newOrder demoTake) :=
  C75_market demo_reachBy (by decide) demoTake_ok

example : Wrapping.run (demoCfg.market ⟨0, 0⟩) demoHist = (demoCfg.market ⟨0, 0⟩).run demoHist := by
  obtain ⟨h1, h2, _⟩ := demo_reachBy
  exact C75_history (c := demoCfg) (is := demoHist) h1 ⟨0, 0⟩ h2 (by decide +kernel)

example : ∃ r, Wrapping.roundPrice 10 95 .ask = .ok r ∧ 10 ∣ r ∧ 95 ≤ r ∧ ∀ x, 10 ∣ x → 95 ≤ x → r ≤ x :=
  (C75_round_price (by decide) (by decide) (by decide)).1 (by decide)

end AOB
