import Verif.Props.Chain
import Verif.Props.Verdict
/-
`create_market` does not look at the sizes of the slabs. A market whose slabs have a size nobody can read is created
all the same, takes no instruction but `consume_events` from then on, and keeps its lamports for ever.
-/
set_option linter.unusedSectionVars false

namespace AOB
namespace Stuck

variable {C : Type} [Pod C] [CallbackInfo C] [Borsh C] {env : Env} {R : Pubkey → Prop} {w w' : World} {k : Pubkey}

open Chain (own)

/-! ### C80 -/

/-- C80. On the chain a market can be read exactly if both its slab accounts have a readable size. -/
theorem C80_readable_iff (hw : OnChain env C R w) (hR : ¬ R k) (hM : IsMarket env w k) :
    (∃ m : Market C, loadMarket C w k = .ok m) ↔
      slabReadable C (w (stateAt w k).bids).data.length = true ∧
      slabReadable C (w (stateAt w k).asks).data.length = true := by
  have hL := hw.inv.link k hR hM
  rw [Slab.readable_iff, Slab.readable_iff]
  constructor
  · rintro ⟨m, hm⟩
    have hm := loadMarket_ok_iff.1 hm
    exact ⟨⟨_, hm.bids⟩, ⟨_, hm.asks⟩⟩
  · rintro ⟨⟨b, hb⟩, ⟨a, ha⟩⟩
    obtain ⟨q, hq⟩ := hL.decodes
    exact ⟨⟨(stateAt w k).minBaseOrderSize, (stateAt w k).tickSize, ⟨b, a⟩, q⟩,
      loadMarket_ok_iff.2 ⟨hM.2.1, hM.2.2, rfl, rfl, hb, hL.tagB, ha, hL.tagA, hq, hL.tagQ⟩⟩

omit [CallbackInfo C] [Borsh C] in
/-- C80. The readable sizes: some number `n ≥ 1` of orders, with slack that is less than what a further order takes and
a whole number of callback infos. -/
theorem C80_sizes (len : Nat) : slabReadable C len = true ↔
    ∃ n x, 1 ≤ n ∧ x * Pod.size C < 56 + Pod.size C ∧
      len = 64 + Pod.size C + (n - 1) * (56 + Pod.size C) + x * Pod.size C := by
  unfold slabReadable
  rw [Bool.and_eq_true, decide_eq_true_eq, decide_eq_true_eq]
  have hs := Pod.size_pos (C := C)
  generalize Pod.size C = s at hs
  constructor
  · rintro ⟨h1, h2⟩
    refine ⟨(len - (64 + s)) / (56 + s) + 1, (len - (64 + s)) % (56 + s) / s, Nat.le_add_left _ _, ?_, ?_⟩
    · rw [Nat.div_mul_cancel (Nat.dvd_of_mod_eq_zero h2)]
      exact Nat.mod_lt _ (by omega)
    · rw [Nat.div_mul_cancel (Nat.dvd_of_mod_eq_zero h2), Nat.add_sub_cancel]
      have := Nat.div_add_mod' (len - (64 + s)) (56 + s)
      omega
  · rintro ⟨n, x, h1, h2, h3⟩
    refine ⟨by omega, ?_⟩
    have e : len - (64 + s) = x * s + (n - 1) * (56 + s) := by omega
    rw [e, Nat.add_mul_mod_self_right, Nat.mod_eq_of_lt h2, Nat.mul_mod_left]

/-- C80. What `compute_allocation_size` gives for at least one order can be read. -/
theorem C80_allocated {n len : Nat} (h : Slab.computeAllocationSize C n = .ok len) : slabReadable C len = true := by
  obtain ⟨h1, rfl⟩ := Accounts.slab_size h
  obtain ⟨j, rfl⟩ : ∃ j, n = j + 1 := ⟨n - 1, by omega⟩
  have e : 40 + (j + 1) * 24 + (j + 1 - 1) * 32 + (j + 1) * Pod.size C =
      64 + Pod.size C + j * (56 + Pod.size C) := by
    rw [Nat.mul_add, Nat.add_mul j 1 (Pod.size C)]; omega
  unfold slabReadable
  rw [e, Bool.and_eq_true, decide_eq_true_eq, decide_eq_true_eq, Nat.add_sub_cancel_left, Nat.mul_mod_left,
    Nat.zero_mod]
  exact ⟨Nat.le_add_right _ _, rfl⟩

/-- The accounts of the market at `k` are as in `w`, but for the queue's data and lamports received. -/
def Frozen (w w' : World) (k : Pubkey) : Prop :=
  (∀ j ∈ own w k, (w' j).owner = (w j).owner ∧ (w' j).data.length = (w j).data.length ∧
    (w j).lamports ≤ (w' j).lamports) ∧
  ∀ j ∈ [k, (stateAt w k).bids, (stateAt w k).asks], (w' j).data = (w j).data

/-- A market whose slabs cannot both be read. -/
def Unreadable (C : Type) [Pod C] (w : World) (k : Pubkey) : Prop :=
  ¬ (slabReadable C (w (stateAt w k).bids).data.length = true ∧
    slabReadable C (w (stateAt w k).asks).data.length = true)

theorem Unreadable.noBook (h : Unreadable C w k) (b : OrderBook C) : ¬ LoadedBook w k b := fun hb =>
  h ⟨Slab.readable_iff.2 ⟨_, hb.bids⟩, Slab.readable_iff.2 ⟨_, hb.asks⟩⟩

/-- C80. The only instruction such a market takes is `consume_events`. -/
theorem C80_only_consume (hM : IsMarket env w k) (hU : Unreadable C w k) {accounts : List Pubkey} {data : Bytes}
    {r : Option OrderSummary} (h : Processor.processInstruction env C w accounts data = .ok (r, w'))
    (hk : accounts.head? = some k) : ∃ n, decodeIx C data = .ok (.consumeEvents n) := by
  obtain ⟨ix, hix, hr⟩ := processInstruction_ok_iff.1 h
  have hhead : ∀ {a : BookAccounts}, BookAccounts.parse accounts = .ok a → a.market = k := by
    intro a ha
    unfold BookAccounts.parse at ha
    split at ha
    · obtain rfl := Except.ok.inj ha; exact Option.some.inj hk
    · cases ha
  cases hr with
  | @create a p _ f1 f2 hp hx =>
    obtain ⟨hc, _⟩ := createMarket_ok_iff.1 hx
    have := hc.tagM
    rw [hhead hp, hM.2.2] at this
    cases this
  | @newOrder a p s _ hf hp hx =>
    obtain ⟨_, m, m', hm, _⟩ := processNewOrder_ok hx
    rw [hhead hp] at hm
    exact absurd hm.book (hU.noBook _)
  | @cancel a id s _ hf hp hx =>
    obtain ⟨_, b, b', hb, _⟩ := processCancel_ok hx
    rw [hhead hp] at hb
    exact absurd hb (hU.noBook _)
  | @massCancel a ids s _ hf hg hp hx =>
    obtain ⟨_, b, b', x, y, hb, _⟩ := processMassCancel_ok hx
    rw [hhead hp] at hb
    exact absurd hb (hU.noBook _)
  | @close a t _ hp hx =>
    obtain ⟨⟨m, hm⟩, _⟩ := closeMarket_ok_iff.1 hx
    have he : a.market = k := by
      unfold parseClose at hp
      split at hp
      · obtain ⟨rfl, _⟩ := Prod.mk.inj (Except.ok.inj hp); exact Option.some.inj hk
      · cases hp
    have hb := hm.loaded.book
    rw [he] at hb
    exact absurd hb (hU.noBook _)
  | @consume m q n _ hn hp hx => exact ⟨n, hix⟩

theorem Frozen.refl (w : World) (k : Pubkey) : Frozen w w k :=
  ⟨fun _ _ => ⟨rfl, rfl, Nat.le_refl _⟩, fun _ _ => rfl⟩

theorem Frozen.state (h : Frozen w w' k) : stateAt w' k = stateAt w k := stateAt_congr (h.2 k (by simp))

theorem Frozen.own (h : Frozen w w' k) : own w' k = own w k := by unfold Chain.own; rw [h.state]

theorem Frozen.trans {w1 : World} (h : Frozen w w1 k) (g : Frozen w1 w' k) : Frozen w w' k := by
  have e := h.own
  have e' := h.state
  refine ⟨fun j hj => ?_, fun j hj => ?_⟩
  · obtain ⟨a1, a2, a3⟩ := h.1 j hj
    obtain ⟨b1, b2, b3⟩ := g.1 j (e ▸ hj)
    exact ⟨b1.trans a1, b2.trans a2, Nat.le_trans a3 b3⟩
  · exact (g.2 j (by rw [e']; exact hj)).trans (h.2 j hj)

theorem Frozen.isMarket (h : Frozen w w' k) (hM : IsMarket env w k) : IsMarket env w' k := by
  have e := h.2 k (by simp)
  obtain ⟨m1, m2, m3⟩ := hM
  exact ⟨((h.1 k (by simp [Chain.own])).1).trans m1, by rw [e]; exact m2, by rw [e]; exact m3⟩

theorem Frozen.unreadable (h : Frozen w w' k) (hU : Unreadable C w k) : Unreadable C w' k := by
  unfold Unreadable at *
  rw [h.state, (h.1 _ (by simp [Chain.own])).2.1, (h.1 _ (by simp [Chain.own])).2.1]
  exact hU

theorem frozen_call (hw : OnChain env C R w) (hR : ¬ R k) (hM : IsMarket env w k) (hU : Unreadable C w k)
    {accounts : List Pubkey} {data : Bytes} {r : Option OrderSummary} (hA : ∀ j ∈ accounts, ¬ R j)
    (h : Processor.processInstruction env C w accounts data = .ok (r, w')) : Frozen w w' k := by
  have hL := hw.inv.link k hR hM
  obtain ⟨ix, hix, hr⟩ := processInstruction_ok_iff.1 h
  obtain ⟨_, f2, f3⟩ := Accounts.C41_frame h
  by_cases hk : accounts.head? = some k
  · obtain ⟨n, hn⟩ := C80_only_consume hM hU h hk
    obtain rfl := Except.ok.inj (hix.symm.trans hn)
    refine ⟨fun j _ => ⟨(f2 j).1, (f2 j).2, Nat.le_of_eq (f3 (by rw [hn]; intro e; cases e) j).symm⟩, ?_⟩
    cases hr with
    | @consume m q _ _ _ hp hx =>
      obtain ⟨_, _, _, q1, q2, _, _, rfl⟩ := processConsume_ok hx
      have he : m = k := by
        unfold parseConsume at hp
        split at hp
        · obtain ⟨rfl, _⟩ := Prod.mk.inj (Except.ok.inj hp); exact Option.some.inj hk
        · cases hp
      subst he
      intro j hj
      rw [storeQueue_data, if_neg]
      rintro rfl
      have hb := hL.byteQ
      simp only [List.mem_cons, List.not_mem_nil, or_false] at hj
      rcases hj with e | e | e
      · rw [e, hM.byte0] at hb; cases hb
      · rw [e, hL.tagB] at hb; cases hb
      · rw [e, hL.tagA] at hb; cases hb
  · obtain ⟨i1, i2, i3, _⟩ := Accounts.C41_isolation hw hA hR hM h hk
    refine ⟨fun j hj => ⟨(f2 j).1, (f2 j).2, ?_⟩, fun j hj => ?_⟩
    · by_cases hc : decodeIx C data = .ok .closeMarket
      · obtain rfl := Except.ok.inj (hix.symm.trans hc)
        cases hr with
        | @close a t _ hp hx =>
          obtain ⟨⟨m, hm⟩, rfl⟩ := closeMarket_ok_iff.1 hx
          have hmem : accounts.head? = some a.market := by
            unfold parseClose at hp
            split at hp
            · obtain ⟨rfl, _⟩ := Prod.mk.inj (Except.ok.inj hp); rfl
            · cases hp
          have hne : k ≠ a.market := by rintro rfl; exact hk hmem
          have hd := Accounts.C41_disjoint hw hR (hA _ (List.mem_of_mem_head? hmem)) hM
            ⟨hm.owner, hm.loaded.len, hm.loaded.tag⟩ hne j hj
          rw [← hm.keyQ, ← hm.keyB, ← hm.keyA] at hd
          simp only [List.mem_cons, List.not_mem_nil, or_false, not_or] at hd
          exact (closed_other w a t hd.1 hd.2.1 hd.2.2.1 hd.2.2.2).2.2
      · exact Nat.le_of_eq (f3 hc j).symm
    · simp only [List.mem_cons, List.not_mem_nil, or_false] at hj
      rcases hj with rfl | rfl | rfl
      · exact i1
      · exact i3 _ (by simp)
      · exact i3 _ (by simp)

theorem frozen_step (hw : OnChain env C R w) (hR : ¬ R k) (hM : IsMarket env w k) (hU : Unreadable C w k)
    (h : ChainStep env C R w w') : Frozen w w' k := by
  cases h with
  | call hA hx => exact frozen_call hw hR hM hU hA hx
  | entry hA hreg hx =>
    obtain ⟨reg, r, w1, d, h1, h2, h3, rfl⟩ := entrypoint_ok_iff.1 hx
    have hf := frozen_call hw hR hM hU hA h2
    have hL := hw.inv.link k hR hM
    have hne : ∀ j ∈ own w k, j ≠ reg := by
      intro j hj
      have : ¬ R j := by
        simp only [Chain.own, List.mem_cons, List.not_mem_nil, or_false] at hj
        rcases hj with rfl | rfl | rfl | rfl
        · exact hR
        · exact hL.noRegQ
        · exact hL.noRegB
        · exact hL.noRegA
      rintro rfl
      exact this (hreg _ h1)
    have hsame : ∀ j ∈ own w k, (w1.setData reg d) j = w1 j := by
      intro j hj
      unfold World.setData
      rw [if_neg (hne j hj)]
    refine ⟨fun j hj => by rw [hsame j hj]; exact hf.1 j hj, fun j hj => ?_⟩
    rw [hsame j (by
      simp only [List.mem_cons, List.not_mem_nil, or_false] at hj
      unfold Chain.own
      rcases hj with rfl | rfl | rfl <;> simp)]
    exact hf.2 j hj
  | elsewhere he =>
    have hL := hw.inv.link k hR hM
    have key : ∀ j ∈ own w k, (w' j).owner = (w j).owner ∧ (w' j).data = (w j).data ∧
        (w j).lamports ≤ (w' j).lamports := by
      intro j hj
      rcases he j with h | ⟨h, _⟩
      · exact h
      · exfalso
        simp only [Chain.own, List.mem_cons, List.not_mem_nil, or_false] at hj
        have hlive : (w j).owner = env.programId ∧ 0 < (w j).lamports := by
          rcases hj with rfl | rfl | rfl | rfl
          · exact ⟨hM.1, hL.live⟩
          · exact ⟨hL.ownerQ, hL.liveQ⟩
          · exact ⟨hL.ownerB, hL.liveB⟩
          · exact ⟨hL.ownerA, hL.liveA⟩
        rcases h with h | h
        · exact h hlive.1
        · have := hlive.2; omega
    refine ⟨fun j hj => ⟨(key j hj).1, by rw [(key j hj).2.1], (key j hj).2.2⟩, fun j hj => (key j ?_).2.1⟩
    simp only [List.mem_cons, List.not_mem_nil, or_false] at hj
    unfold Chain.own
    rcases hj with rfl | rfl | rfl <;> simp

/-- C80. A market with a slab account of unreadable size stays as it is for ever, whatever anybody does: it stays a
market with the same state, its accounts keep their owner, their size and at least their lamports, and the data of all
but the event queue. -/
theorem C80_for_ever (hw : OnChain env C R w) (hR : ¬ R k) (hM : IsMarket env w k) (hU : Unreadable C w k)
    (h : ChainRun env C R w w') :
    IsMarket env w' k ∧ stateAt w' k = stateAt w k ∧
    (∀ j ∈ own w k, (w' j).owner = (w j).owner ∧ (w' j).data.length = (w j).data.length ∧
      (w j).lamports ≤ (w' j).lamports) ∧
    (∀ j ∈ [k, (stateAt w k).bids, (stateAt w k).asks], (w' j).data = (w j).data) ∧
    ∀ {accounts : List Pubkey} {data : Bytes} {r : Option OrderSummary} {w'' : World},
      Processor.processInstruction env C w' accounts data = .ok (r, w'') → accounts.head? = some k →
      ∃ n, decodeIx C data = .ok (.consumeEvents n) := by
  have key : ∀ {w'}, ChainRun env C R w w' → Frozen w w' k ∧ OnChain env C R w' := by
    intro w' h
    induction h with
    | refl => exact ⟨.refl w k, hw⟩
    | step h1 h2 ih =>
      obtain ⟨i1, i2⟩ := ih
      refine ⟨i1.trans (frozen_step i2 hR (i1.isMarket hM) (i1.unreadable hU) h2), ?_⟩
      obtain ⟨w0, g0, g1⟩ := i2
      exact ⟨w0, g0, .step g1 h2⟩
  obtain ⟨hf, _⟩ := key h
  exact ⟨hf.isMarket hM, hf.state, hf.1, hf.2, fun hx hk => C80_only_consume (hf.isMarket hM) (hf.unreadable hU) hx hk⟩

/-! ### Concrete cases -/

section
open DemoChain (key after)

/-- Accounts as the client creates them for no orders at all: slabs of 8 bytes. -/
def start : World := fun j =>
  if j = key 3 ∨ j = key 4 then ⟨key 9, 3000, List.replicate 8 0⟩ else DemoChain.genesis j

/-- The market created in them. -/
def stuck : World := after start DemoChain.accounts DemoChain.create

theorem start_ok : Genesis DemoChain.env start := by
  intro j hj
  unfold start at hj ⊢
  split at hj
  · rename_i h
    rw [if_pos h]
    exact DemoChain.fresh_zeros _ (by decide)
  · rename_i h
    rw [if_neg h]
    exact DemoChain.genesis_ok j hj

theorem onChain_start : OnChain DemoChain.env Bytes32 DemoChain.R start := ⟨_, start_ok, .refl⟩

theorem onChain_stuck : OnChain DemoChain.env Bytes32 DemoChain.R stuck :=
  DemoChain.onChain_after onChain_start (by decide +kernel) (by decide +kernel)

/-- C80. `create_market` accepts slabs of 8 bytes, which is what the client asks for if there is to be room for no
orders (`C59_no_orders`); the market it makes is stuck, with 9000 lamports in it. -/
theorem C80_witness : (∃ w', Processor.processInstruction DemoChain.env Bytes32 start DemoChain.accounts DemoChain.create =
      .ok (none, w')) ∧ IsMarket DemoChain.env stuck (key 1) ∧ Unreadable Bytes32 stuck (key 1) ∧
    ((own stuck (key 1)).map fun j => (stuck j).lamports).sum = 9000 ∧
    ∀ w', ChainRun DemoChain.env Bytes32 DemoChain.R stuck w' → IsMarket DemoChain.env w' (key 1) ∧
      9000 ≤ ((own stuck (key 1)).map fun j => (w' j).lamports).sum := by
  have hM : IsMarket DemoChain.env stuck (key 1) := Accounts.demo_isMarket (by decide +kernel)
  have hU : Unreadable Bytes32 stuck (key 1) := by unfold Unreadable; decide +kernel
  have hR : ¬ DemoChain.R (key 1) := by show key 1 ≠ key 6; decide +kernel
  have hs : ((own stuck (key 1)).map fun j => (stuck j).lamports).sum = 9000 := by decide +kernel
  refine ⟨?_, hM, hU, hs, fun w' h => ?_⟩
  · have : (match Processor.processInstruction DemoChain.env Bytes32 start DemoChain.accounts DemoChain.create with
      | .ok (none, _) => true
      | _ => false) = true := by decide +kernel
    generalize Processor.processInstruction DemoChain.env Bytes32 start DemoChain.accounts DemoChain.create = x at this
    split at this
    · exact ⟨_, rfl⟩
    · cases this
  · obtain ⟨h1, _, h3, _⟩ := C80_for_ever onChain_stuck hR hM hU h
    refine ⟨h1, ?_⟩
    rw [← hs]
    have g := fun j hj => (h3 j hj).2.2
    simp only [own, List.map_cons, List.map_nil, List.sum_cons, List.sum_nil]
    have a1 := g (key 1) (by simp [own])
    have a2 := g _ (show (stateAt stuck (key 1)).eventQueue ∈ own stuck (key 1) by simp [own])
    have a3 := g _ (show (stateAt stuck (key 1)).bids ∈ own stuck (key 1) by simp [own])
    have a4 := g _ (show (stateAt stuck (key 1)).asks ∈ own stuck (key 1) by simp [own])
    omega

/-- The first market of the demo is readable. -/
example : ∃ m : Market Bytes32, loadMarket Bytes32 DemoChain.w4 (key 1) = .ok m :=
  (C80_readable_iff DemoChain.onChain_w4 (by show key 1 ≠ key 6; decide +kernel)
    (Accounts.demo_isMarket (by decide +kernel))).2 (by decide +kernel)

/-! Each theorem applied. -/

example := C80_allocated (C := Bytes32) (n := 2) (len := 184) (by decide +kernel)

theorem stuck_unreadable : Unreadable Bytes32 stuck (key 1) := by unfold Unreadable; decide +kernel

example := C80_only_consume (k := key 1) (Accounts.demo_isMarket (by decide +kernel)) stuck_unreadable
  (DemoChain.after_step (w := stuck) (l := [key 1, key 2]) (d := DemoChain.consume 3) (by decide +kernel)).choose_spec
  (by decide +kernel)

theorem stuck_step : ChainStep DemoChain.env Bytes32 DemoChain.R stuck (after stuck [key 1, key 2] (DemoChain.consume 3)) :=
  .call (by show ∀ k ∈ [key 1, key 2], k ≠ key 6; decide +kernel)
    (DemoChain.after_step (w := stuck) (l := [key 1, key 2]) (d := DemoChain.consume 3) (by decide +kernel)).choose_spec

example := C80_for_ever onChain_stuck (by show key 1 ≠ key 6; decide +kernel) (Accounts.demo_isMarket (by decide +kernel))
  stuck_unreadable (.step .refl stuck_step)

end

end Stuck
end AOB
