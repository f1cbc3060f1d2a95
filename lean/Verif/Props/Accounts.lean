import Verif.Proofs.Simulate
import Verif.Props.Book
import Verif.Props.Wire
import Verif.Spec.DemoChain
/-
Accounts: creating and closing markets, authentication of accounts, isolation of markets, and the tie between the
program on the chain and the market of the other properties.
-/
set_option linter.unusedSectionVars false

namespace AOB
namespace Accounts

variable {C : Type} [Pod C] [CallbackInfo C] {env : Env} {R : Pubkey → Prop} {w w' : World} {a : BookAccounts}
  {t k : Pubkey} {m : Market C} {p : CreateParams} {accounts : List Pubkey} {data : Bytes}
  {r : Option OrderSummary} {ix : Ix C}

theorem pending_empty (h : Reachable m) : pending m = [] ↔ m.queue.header.count = 0 := by
  obtain ⟨x, hx⟩ := h.known
  have h1 := hx.rep.queue.2.1
  rw [List.length_map] at h1
  rw [hx.rep.pending, ← h1, List.length_eq_zero_iff]

theorem counts_empty (h : Reachable m) : (resting m .bid = [] ∧ resting m .ask = []) ↔
    (m.book.bids.header.leafCount = 0 ∧ m.book.asks.header.leafCount = 0) := by
  rw [← C37_is_empty h]
  unfold OrderBook.isEmpty
  simp [and_comm]

/-! ### C34 -/

/-- C34. Given the bids and asks accounts of a market on the chain, `get_spread` answers with the highest resting bid
price and the lowest resting ask price, and nothing exactly for an empty side. -/
theorem C34_accounts [Borsh C] (hw : OnChain env C R w) (hR : ¬ R k) (hm : IsMarket env w k) (hl : loadMarket C w k = .ok m) :
    ∃ bid ask, getSpread C w (stateAt w k).bids (stateAt w k).asks = .ok (bid, ask) ∧
      (bid = none ↔ resting m .bid = []) ∧ (ask = none ↔ resting m .ask = []) ∧
      (∀ x, bid = some x → (∃ o ∈ resting m .bid, o.price = x) ∧ ∀ o ∈ resting m .bid, o.price ≤ x) ∧
      (∀ x, ask = some x → (∃ o ∈ resting m .ask, o.price = x) ∧ ∀ o ∈ resting m .ask, x ≤ o.price) := by
  have hL := loadMarket_ok_iff.1 hl
  have hne : (stateAt w k).asks ≠ (stateAt w k).bids := by
    intro he
    have h1 := hL.bidsTag
    have h2 := hL.asksTag
    rw [he, h1] at h2
    exact absurd h2 (by decide)
  obtain ⟨bid, ask, h1, h2⟩ := C34_get_spread (hw.inv.reach k hR hm m hL)
  refine ⟨bid, ask, ?_, h2⟩
  unfold getSpread OrderBook.newSafe
  rw [bind_of_ok (borrow_of (by simp)), bind_of_ok (borrow_of (by simp [hne])),
    bind_of_ok (Slab.fromBuffer_ok_iff.2 ⟨hL.bids, 130, hL.bidsTag, rfl⟩),
    bind_of_ok (Slab.fromBuffer_ok_iff.2 ⟨hL.asks, 131, hL.asksTag, rfl⟩)]
  exact h1

/-- C34. Anything else than a bids and an asks account, in this order, makes it panic (in every world): it does not
answer for accounts that are not what they are taken for. -/
theorem C34_panics {bids asks : Pubkey} (h : (w bids).data[0]? ≠ some 130 ∨ (w asks).data[0]? ≠ some 131) :
    getSpread C w bids asks = .error .panic := by
  unfold getSpread
  rw [bind_of_ok (borrow_of (by simp))]
  by_cases he : asks = bids
  · subst he
    unfold borrow
    simp only [List.mem_singleton, if_true]
    rfl
  · rw [bind_of_ok (borrow_of (by simp [he]))]
    cases hb : OrderBook.newSafe C (w bids).data (w asks).data with
    | error e => rfl
    | ok b =>
      exfalso
      unfold OrderBook.newSafe at hb
      obtain ⟨x, h1, hb⟩ := bind_ok hb
      obtain ⟨y, h2, hb⟩ := bind_ok hb
      obtain ⟨_, b1, g1, g2⟩ := Slab.fromBuffer_ok_iff.1 h1
      obtain ⟨_, b2, g3, g4⟩ := Slab.fromBuffer_ok_iff.1 h2
      have e1 : b1 = 130 := by apply UInt8.toNat_inj.1; rw [g2]; rfl
      have e2 : b2 = 131 := by apply UInt8.toNat_inj.1; rw [g4]; rfl
      subst e1 e2
      rcases h with h | h
      · exact h g1
      · exact h g3

/-! ### C37 -/

section
variable [Borsh C]

/-- C37. `close_market` succeeds only if no order rests and no event waits. -/
theorem C37_close_only_empty (hw : OnChain env C R w) (hR : ¬ R a.market)
    (h : Processor.closeMarket env C w a t = .ok w') : ∃ m : Market C, loadMarket C w a.market = .ok m ∧
      resting m .bid = [] ∧ resting m .ask = [] ∧ pending m = [] := by
  obtain ⟨⟨m, hc⟩, rfl⟩ := closeMarket_ok_iff.1 h
  have hr := hw.inv.reach _ hR ⟨hc.owner, hc.loaded.len, hc.loaded.tag⟩ m hc.loaded
  obtain ⟨h1, h2⟩ := (counts_empty hr).2 ⟨hc.bids, hc.asks⟩
  exact ⟨m, loadMarket_ok_iff.2 hc.loaded, h1, h2, (pending_empty hr).2 hc.queue⟩

/-- C37. Given its own accounts, an empty market can be closed, to any other account that can take the lamports. -/
theorem C37_close_succeeds (hw : OnChain env C R w) (hR : ¬ R k) (hm : IsMarket env w k)
    (hl : loadMarket C w k = .ok m) (hb : resting m .bid = []) (ha : resting m .ask = []) (hq : pending m = [])
    (ht : t ≠ k ∧ t ≠ (stateAt w k).eventQueue ∧ t ≠ (stateAt w k).bids ∧ t ≠ (stateAt w k).asks)
    (hs : (w t).lamports + ((w k).lamports + (w (stateAt w k).bids).lamports + (w (stateAt w k).asks).lamports +
      (w (stateAt w k).eventQueue).lamports) < 2 ^ 64) :
    ∃ w', Processor.closeMarket env C w ⟨k, (stateAt w k).eventQueue, (stateAt w k).bids, (stateAt w k).asks⟩ t
      = .ok w' := by
  have hL := loadMarket_ok_iff.1 hl
  have hr := hw.inv.reach k hR hm m hL
  obtain ⟨h1, h2⟩ := (counts_empty hr).1 ⟨hb, ha⟩
  exact ⟨_, closeMarket_ok_iff.2 ⟨⟨m, hm.1, rfl, rfl, rfl, hL, h1, h2, (pending_empty hr).1 hq, ht.1, ht.2.2.1, ht.2.2.2,
    ht.2.1, hs⟩, rfl⟩⟩

end

/-- C37. In every world: the lamports of the four accounts move to the target, and no other balance changes. -/
theorem C37_lamports (h : Processor.closeMarket env C w a t = .ok w') :
    (w' t).lamports = (w t).lamports +
      ((w a.market).lamports + (w a.bids).lamports + (w a.asks).lamports + (w a.eventQueue).lamports) ∧
    (w' a.market).lamports = 0 ∧ (w' a.bids).lamports = 0 ∧ (w' a.asks).lamports = 0 ∧
    (w' a.eventQueue).lamports = 0 ∧
    (∀ k, k ≠ t → k ≠ a.market → k ≠ a.bids → k ≠ a.asks → k ≠ a.eventQueue → (w' k).lamports = (w k).lamports) ∧
    (w' t).lamports < 2 ^ 64 := by
  obtain ⟨⟨m, hc⟩, rfl⟩ := closeMarket_ok_iff.1 h
  have h1 := hc.neM
  have h2 := hc.neB
  have h3 := hc.neA
  have h4 := hc.neQ
  have e : (closed w a t t).lamports = (w t).lamports +
      ((w a.market).lamports + (w a.bids).lamports + (w a.asks).lamports + (w a.eventQueue).lamports) := by
    simp [closed, World.setLamports_lamports, h1, h2, h3, h4]
  refine ⟨e, ?_, ?_, ?_, ?_, ?_, by rw [e]; exact hc.sum⟩
  · simp [closed, World.setLamports_lamports]
  · simp [closed, World.setLamports_lamports]
  · simp [closed, World.setLamports_lamports]
  · simp [closed, World.setLamports_lamports]
  · intro k k1 k2 k3 k4 k5
    simp [closed, World.setLamports_lamports, World.setData_lamports, k1, k2, k3, k4, k5]

/-- Sum of the balances of some accounts. -/
def total (w : World) (ks : List Pubkey) : Nat := (ks.map fun k => (w k).lamports).sum

theorem total_perm {ks ks' : List Pubkey} (h : ks.Perm ks') : total w ks = total w ks' := (h.map _).sum_nat

/-- C37. No lamport is created or lost: the total of any set of accounts containing the five is unchanged. -/
theorem C37_total (h : Processor.closeMarket env C w a t = .ok w') {others : List Pubkey}
    (ho : ∀ k ∈ others, k ∉ [t, a.market, a.bids, a.asks, a.eventQueue]) {ks : List Pubkey}
    (hks : ks.Perm ([t, a.market, a.bids, a.asks, a.eventQueue] ++ others)) : total w' ks = total w ks := by
  obtain ⟨h1, h2, h3, h4, h5, h6, _⟩ := C37_lamports h
  rw [total_perm hks, total_perm hks]
  have e : others.map (fun k => (w' k).lamports) = others.map (fun k => (w k).lamports) := by
    apply List.map_congr_left
    intro k hk
    have := ho k hk
    simp only [List.mem_cons, not_or] at this
    exact h6 k this.1 this.2.1 this.2.2.1 this.2.2.2.1 this.2.2.2.2.1
  unfold total
  rw [List.map_append, List.map_append, List.sum_append, List.sum_append, e]
  simp only [List.map_cons, List.map_nil, List.sum_cons, List.sum_nil, h1, h2, h3, h4, h5]
  omega

/-! ### C38 -/

/-- C38. The four accounts are tagged `Disabled`, whatever way the tag is read. -/
theorem C38_disabled (h : Processor.closeMarket env C w a t = .ok w') :
    ∀ k ∈ [a.market, a.eventQueue, a.bids, a.asks], (w' k).data[0]? = some 132 ∧ field (w' k).data 0 8 = 132 := by
  obtain ⟨⟨m, hc⟩, rfl⟩ := closeMarket_ok_iff.1 h
  obtain ⟨d1, d2, d3, d4⟩ := closed_data hc
  have hf : ∀ d, field (disable d) 0 8 = 132 := fun d => field_head _ (by decide)
  intro k hk
  simp only [List.mem_cons, List.not_mem_nil, or_false] at hk
  rcases hk with rfl | rfl | rfl | rfl
  · rw [d1]; exact ⟨rfl, hf _⟩
  · rw [d2]; exact ⟨rfl, hf _⟩
  · rw [d3]; exact ⟨rfl, hf _⟩
  · rw [d4]; exact ⟨rfl, hf _⟩

/-- The accounts of a call of the program carry the tag of their role, or are uninitialized and being created; the
event queue of `cancel_order` and `mass_cancel_orders` is not looked at, but is the one of the market. -/
theorem ran_tags (h : Ran env w accounts ix r w') (hk : k ∈ accounts.take ix.arity) :
    (∃ p, ix = .createMarket p ∧ (w k).data[0]? = some 0) ∨ (w k).data[0]? = some 128 ∨ (w k).data[0]? = some 129 ∨
      (w k).data[0]? = some 130 ∨ (w k).data[0]? = some 131 ∨
      ∃ j, IsMarket env w j ∧ j ∈ accounts ∧ k = (stateAt w j).eventQueue := by
  rcases Ran.auth h with ⟨p, x1, x2, x3, x4, rest, rfl, rfl, hc⟩ | ⟨j, rest, rfl, _, hM, h4, _, hq⟩
  · left
    refine ⟨p, rfl, ?_⟩
    simp only [Ix.arity, List.take_succ_cons, List.take_zero, List.mem_cons, List.not_mem_nil, or_false] at hk
    rcases hk with rfl | rfl | rfl | rfl
    · exact byte0_of_field (by have := hc.sizeM; dsimp only at this; omega) hc.tagM
    · exact byte0_of_field (by have := hc.sizeQ; dsimp only at this; omega) hc.tagQ
    · exact hc.tagB
    · exact hc.tagA
  · have ha : ix.arity = 2 ∨ ix.arity = 4 := by cases ix <;> simp [Ix.arity]
    rcases ha with ha | ha
    · rw [ha] at hk
      simp only [List.take_succ_cons, List.take_zero, List.mem_cons, List.not_mem_nil, or_false] at hk
      rcases hk with rfl | rfl
      · exact .inr (.inl hM.byte0)
      · exact .inr (.inr (.inr (.inr (.inr ⟨j, hM, List.mem_cons_self .., rfl⟩))))
    · obtain ⟨rest', rfl, h5, h6⟩ := h4 ha
      rw [ha] at hk
      simp only [List.take_succ_cons, List.take_zero, List.mem_cons, List.not_mem_nil, or_false] at hk
      rcases hk with rfl | rfl | rfl | rfl
      · exact .inr (.inl hM.byte0)
      · exact .inr (.inr (.inr (.inr (.inr ⟨j, hM, List.mem_cons_self .., rfl⟩))))
      · exact .inr (.inr (.inr (.inl h5)))
      · exact .inr (.inr (.inr (.inr (.inl h6))))

section
variable [Borsh C]

/-- C38. No instruction accepts an account tagged `Disabled` in the place of a market, event queue, bids or asks
account. -/
theorem C38_refused (hw : OnChain env C R w) (hR : ∀ k ∈ accounts, ¬ R k) (hk : (w k).data[0]? = some 132)
    (hix : decodeIx C data = .ok ix) (hin : k ∈ accounts.take ix.arity) :
    ∃ e, Processor.processInstruction env C w accounts data = .error e := by
  cases h : Processor.processInstruction env C w accounts data with
  | error e => exact ⟨e, rfl⟩
  | ok x =>
    exfalso
    obtain ⟨r, w'⟩ := x
    obtain ⟨ix', h1, h2⟩ := processInstruction_ok_iff.1 h
    obtain rfl := Except.ok.inj (hix.symm.trans h1)
    rcases ran_tags h2 hin with ⟨_, _, e⟩ | e | e | e | e | ⟨j, hM, hj, rfl⟩
    · rw [hk] at e; cases e
    · rw [hk] at e; cases e
    · rw [hk] at e; cases e
    · rw [hk] at e; cases e
    · rw [hk] at e; cases e
    · rw [(hw.inv.link j (hR j hj) hM).byteQ] at hk; cases hk

/-- C38. No call of the program changes the data of an account tagged `Disabled`. -/
theorem C38_unchanged (hk : (w k).data[0]? = some 132)
    (h : Processor.processInstruction env C w accounts data = .ok (r, w')) : (w' k).data = (w k).data := by
  obtain ⟨ix', _, h2⟩ := processInstruction_ok_iff.1 h
  rcases h2.touch k with e | e | ⟨j, hj, hM, rfl | ⟨_, e⟩ | ⟨_, e⟩ | ⟨_, e⟩⟩
  · exact e
  · rw [hk] at e; cases e
  · rw [hM.byte0] at hk; cases hk
  · rw [hk] at e; cases e
  · rw [hk] at e; cases e
  · rw [hk] at e; cases e

theorem onChain_keeping {K : Pubkey → Prop} (hw : OnChain env C R w) (h : ChainRunKeeping env C R K w w') :
    OnChain env C R w' := by
  obtain ⟨w0, h0, h1⟩ := hw
  refine ⟨w0, h0, ?_⟩
  induction h with
  | refl => exact h1
  | call _ g1 g2 ih => exact ih.step (.call g1 g2)
  | entry _ g1 g2 g3 ih => exact ih.step (.entry g1 g2 g3)
  | elsewhere _ g1 _ ih => exact ih.step (.elsewhere g1)

/-- C38. Until it is removed (the runtime may remove it, as it has no lamports left), an account tagged `Disabled`
keeps its data for ever. -/
theorem C38_persists (hkR : ¬ R k) (hk : (w k).data[0]? = some 132) {K : Pubkey → Prop}
    (hK : K k) (h : ChainRunKeeping env C R K w w') : (w' k).data = (w k).data := by
  induction h with
  | refl => rfl
  | call g0 g1 g2 ih =>
    rw [C38_unchanged (by rw [ih]; exact hk) g2, ih]
  | @entry w1 w2 accounts data g0 g1 g2 g3 ih =>
    obtain ⟨reg, r, w3, d, h1, h2, h3, rfl⟩ := entrypoint_ok_iff.1 g3
    rw [World.setData_data, if_neg (by rintro rfl; exact hkR (g2 _ h1)),
      C38_unchanged (by rw [ih]; exact hk) h2, ih]
  | elsewhere g0 g1 g2 ih => rw [g2 k hK, ih]

/-- C38. After a successful `close_market`, and as long as the accounts are not removed, every instruction (creating
a market included) that is given one of the four accounts in the place of a market, event queue, bids or asks
account fails, for ever. -/
theorem C38_dead_for_ever (hw : OnChain env C R w) {closing : List Pubkey} {data₀ : Bytes}
    (hR : ∀ k ∈ closing, ¬ R k) (hd : decodeIx C data₀ = .ok .closeMarket)
    (hc : Processor.processInstruction env C w closing data₀ = .ok (r, w')) {w'' : World}
    (h : ChainRunKeeping env C R (· ∈ closing.take 4) w' w'')
    (hk : k ∈ closing.take 4) (hRk : ∀ k ∈ accounts, ¬ R k)
    (hix : decodeIx C data = .ok ix) (hin : k ∈ accounts.take ix.arity) :
    ∃ e, Processor.processInstruction env C w'' accounts data = .error e := by
  have hw' : OnChain env C R w' := by
    obtain ⟨w0, h0, h1⟩ := hw
    exact ⟨w0, h0, h1.step (.call hR hc)⟩
  have hd132 : (w' k).data[0]? = some 132 := by
    obtain ⟨ix', h1, h2⟩ := processInstruction_ok_iff.1 hc
    obtain rfl := Except.ok.inj (hd.symm.trans h1)
    cases h2 with
    | @close a t _ hp hx =>
      refine (C38_disabled hx k ?_).1
      unfold parseClose at hp
      split at hp
      · obtain ⟨rfl, rfl⟩ := Prod.mk.inj (Except.ok.inj hp)
        simpa using hk
      · cases hp
  have hp := C38_persists (hRk k (List.mem_of_mem_take hin)) hd132 hk h
  exact C38_refused (onChain_keeping hw' h) hRk (by rw [hp]; exact hd132) hix hin

end

/-! ### C39 -/

/-- C39. Exactly when `create_market` succeeds: the event queue, bids and asks accounts are the program's, all four
accounts are rent exempt, different from each other and uninitialized (`u64` tag of the market and the queue, first
byte of the slabs), both parameters are non-zero, the market account has the right size, and the event queue holds a
whole number, at least five, of events. (The sizes of the slabs are not looked at.) -/
theorem C39_create_iff : (∃ w', Processor.createMarket env C w a p = .ok w') ↔
    ((w a.eventQueue).owner = env.programId ∧ (w a.bids).owner = env.programId ∧ (w a.asks).owner = env.programId) ∧
    (∀ k ∈ [a.market, a.eventQueue, a.bids, a.asks], env.rentExempt (w k).lamports (w k).data.length = true) ∧
    [a.market, a.eventQueue, a.bids, a.asks].Nodup ∧
    (p.minBaseOrderSize ≠ 0 ∧ p.tickSize ≠ 0) ∧
    (field (w a.market).data 0 8 = 0 ∧ field (w a.eventQueue).data 0 8 = 0 ∧ (w a.bids).data[0]? = some 0 ∧
      (w a.asks).data[0]? = some 0) ∧
    (w a.market).data.length = 120 ∧
    ∃ n, 5 ≤ n ∧ (w a.eventQueue).data.length = 32 + n * (40 + 2 * Pod.size C) := by
  have hsize : ∀ l : Nat, (32 + 5 * (40 + 2 * Pod.size C) ≤ l ∧ (l - 32) % (40 + 2 * Pod.size C) = 0) ↔
      ∃ n, 5 ≤ n ∧ l = 32 + n * (40 + 2 * Pod.size C) := by
    intro l
    have hpos : 0 < 40 + 2 * Pod.size C := by omega
    generalize 40 + 2 * Pod.size C = s at *
    constructor
    · rintro ⟨h1, h2⟩
      have h3 := Nat.div_add_mod (l - 32) s
      rw [h2, Nat.add_zero, Nat.mul_comm] at h3
      refine ⟨(l - 32) / s, ?_, by omega⟩
      rw [Nat.le_div_iff_mul_le hpos]; omega
    · rintro ⟨n, h1, rfl⟩
      have := Nat.mul_le_mul_right s h1
      exact ⟨by omega, by rw [Nat.add_sub_cancel_left]; exact Nat.mul_mod_left _ _⟩
  constructor
  · rintro ⟨w', h⟩
    obtain ⟨hc, _⟩ := createMarket_ok_iff.1 h
    refine ⟨⟨hc.ownerQ, hc.ownerB, hc.ownerA⟩, ?_, ?_, ⟨hc.minBase, hc.tick⟩, ⟨hc.tagM, hc.tagQ, hc.tagB, hc.tagA⟩,
      hc.sizeM, (hsize _).1 ⟨hc.sizeQ, hc.modQ⟩⟩
    · intro k hk
      simp only [List.mem_cons, List.not_mem_nil, or_false] at hk
      rcases hk with rfl | rfl | rfl | rfl
      · exact hc.rentM
      · exact hc.rentQ
      · exact hc.rentB
      · exact hc.rentA
    · simp [hc.neMQ, hc.neMB, hc.neMA, hc.neQB, hc.neQA, hc.neAB.symm]
  · rintro ⟨⟨o1, o2, o3⟩, hr, hn, ⟨p1, p2⟩, ⟨t1, t2, t3, t4⟩, s1, s2⟩
    obtain ⟨s3, s4⟩ := (hsize _).2 s2
    simp only [List.nodup_cons, List.mem_cons, List.not_mem_nil, or_false, not_or, not_false_eq_true, and_true,
      List.nodup_nil] at hn
    obtain ⟨⟨n1, n2, n3⟩, ⟨n4, n5⟩, n6⟩ := hn
    exact ⟨_, createMarket_ok_iff.2 ⟨⟨o1, o2, o3, hr _ (by simp), hr _ (by simp), hr _ (by simp), hr _ (by simp), p1, p2,
      s3, s4, s1, t1, t2, t4, t3, n1, n3, n2, n5, n4, fun h => n6 h.symm⟩, rfl⟩⟩

theorem slab_size {n l : Nat} (h : Slab.computeAllocationSize C n = .ok l) :
    1 ≤ n ∧ l = 40 + n * 24 + (n - 1) * 32 + n * Pod.size C := by
  unfold Slab.computeAllocationSize at h
  obtain ⟨x, hx, h⟩ := bind_ok h
  have hn : 1 ≤ n ∧ x = n - 1 := by
    unfold subU at hx
    split at hx <;> rename_i hle
    · exact ⟨hle, (Except.ok.inj hx).symm⟩
    · cases hx
  obtain ⟨h1, rfl⟩ := hn
  refine ⟨h1, ?_⟩
  have := Except.ok.inj h
  have e1 : SlabHeader.LEN = 32 := rfl
  have e2 : LeafNode.LEN = 24 := rfl
  have e3 : InnerNode.LEN = 32 := rfl
  rw [e1, e2, e3] at this
  obtain ⟨j, rfl⟩ : ∃ j, n = j + 1 := ⟨n - 1, by omega⟩
  rw [Nat.add_sub_cancel, Nat.mul_add, Nat.mul_add] at this
  rw [Nat.add_sub_cancel, Nat.add_mul j 1 (Pod.size C)]
  omega

section
variable [Borsh C]

/-- C39. On the chain, creating a market in accounts sized by `compute_allocation_size` for `nb` bids, `na` asks and
`n` events yields the empty market with those capacities, the given parameters and the given keys. -/
theorem C39_empty_market (hw : OnChain env C R w)
    (hR : ∀ k ∈ [a.market, a.eventQueue, a.bids, a.asks], ¬ R k) (hp : p.minBaseOrderSize < 2 ^ 64 ∧ p.tickSize < 2 ^ 64)
    {nb na n : Nat} (hb : Slab.computeAllocationSize C nb = .ok (w a.bids).data.length)
    (ha : Slab.computeAllocationSize C na = .ok (w a.asks).data.length)
    (hq : EventQueue.computeAllocationSize C n = (w a.eventQueue).data.length)
    (h : Processor.createMarket env C w a p = .ok w') :
    stateAt w' a.market = ⟨a.eventQueue, a.bids, a.asks, p.minBaseOrderSize, p.tickSize⟩ ∧
    ((w a.market).owner = env.programId → IsMarket env w' a.market) ∧
    ∃ m : Market C, loadMarket C w' a.market = .ok m ∧
      ReachBy { minBase := p.minBaseOrderSize, tick := p.tickSize, capBids := nb, capAsks := na, capEvents := n } [] m ∧
      resting m .bid = [] ∧ resting m .ask = [] ∧ pending m = [] := by
  obtain ⟨hc, rfl⟩ := createMarket_ok_iff.1 h
  have e8 : (256 : Nat) ^ 8 = 2 ^ 64 := by decide
  rw [← e8] at hp
  have hs := stateAt_created hc hp.1 hp.2
  obtain ⟨d1, d2, d3, d4, d5⟩ := created_data hc
  have zQ : (w a.eventQueue).data[0]? = some 0 := byte0_of_field (by have := hc.sizeQ; omega) hc.tagQ
  have fQ := hw.inv.fresh _ (hR _ (by simp)) hc.ownerQ zQ
  have fB := hw.inv.fresh _ (hR _ (by simp)) hc.ownerB hc.tagB
  have fA := hw.inv.fresh _ (hR _ (by simp)) hc.ownerA hc.tagA
  obtain ⟨nb1, nb2⟩ := slab_size hb
  obtain ⟨na1, na2⟩ := slab_size ha
  have nq2 : (w a.eventQueue).data.length = 32 + n * 40 + 2 * n * Pod.size C := by
    rw [← hq]
    unfold EventQueue.computeAllocationSize
    have e1 : FillEvent.LEN = 40 := rfl
    have e2 : EventQueueHeader.LEN = 24 := rfl
    rw [e1, e2, Nat.mul_add, ← Nat.mul_assoc, Nat.mul_comm n 2]; omega
  obtain ⟨cb1, cb2⟩ := slabCap_alloc (C := C) nb nb1
  obtain ⟨ca1, ca2⟩ := slabCap_alloc (C := C) na na1
  obtain ⟨cq1, _⟩ := queueCap_alloc (C := C) n
  rw [← nb2] at cb1 cb2
  rw [← na2] at ca1 ca2
  rw [← nq2] at cq1
  have hcfg : newConfig C w a p = { minBase := p.minBaseOrderSize, tick := p.tickSize, capBids := nb, capAsks := na, capEvents := n } := by
    unfold newConfig
    rw [cb1, cb2, ca1, ca2, cq1]
    simp only [Nat.zero_div]
    rw [Nat.sub_add_cancel nb1, Nat.sub_add_cancel na1]
  have hlB : ((w a.bids).data.set 0 130).length = (w a.bids).data.length := List.length_set
  have hlA : ((w a.asks).data.set 0 131).length = (w a.asks).data.length := List.length_set
  have hmulB : Pod.size C ≤ nb * Pod.size C := Nat.le_mul_of_pos_left _ nb1
  have hmulA : Pod.size C ≤ na * Pod.size C := Nat.le_mul_of_pos_left _ na1
  obtain ⟨sB, pB⟩ : ∃ s, SlabParts C ((w a.bids).data.set 0 130) s :=
    ⟨_, slabParts_zeros (by rw [hlB]; omega) (by rw [drop_set_zero, fB.drop, hlB])
      (by rw [hlB, cb2]; exact Nat.zero_mod _)⟩
  obtain ⟨sA, pA⟩ : ∃ s, SlabParts C ((w a.asks).data.set 0 131) s :=
    ⟨_, slabParts_zeros (by rw [hlA]; omega) (by rw [drop_set_zero, fA.drop, hlA])
      (by rw [hlA, ca2]; exact Nat.zero_mod _)⟩
  have pQ := queueParts_fresh (C := C) fQ hc.sizeQ hc.modQ AccountTag.eventQueue.toNat
  have hld : ∃ m : Market C, Loaded (created w a p) a.market m := by
    refine ⟨⟨p.minBaseOrderSize, p.tickSize, ⟨sB, sA⟩, _⟩, ?_, ?_, by rw [hs], by rw [hs], ?_, ?_, ?_, ?_,
      (by rw [hs]; dsimp only; rw [d2]; exact pQ), ?_⟩ <;> try rw [hs]
    · rw [d1, newMarketData, List.length_append, toLE_length, MarketState.length_toBytes]
    · rw [d1, newMarketData]; exact field_head _ (by decide)
    · rw [d3]; exact pB
    · rw [d3, List.getElem?_set_self (byte0_length hc.tagB)]
    · rw [d4]; exact pA
    · rw [d4, List.getElem?_set_self (byte0_length hc.tagA)]
    · rw [d2]; exact field_head _ (by decide)
  obtain ⟨m, hm⟩ := hld
  have hmv := loaded_created hc hp.1 hp.2 fB fA fQ hm
  have hreach : ReachBy (newConfig C w a p) [] m :=
    ⟨newConfig_valid hc fB fA fQ, fun _ h => absurd h List.not_mem_nil, _, hmv⟩
  have hr : Reachable m := ⟨_, _, hreach⟩
  have hz : m.book.bids.header.leafCount = 0 ∧ m.book.asks.header.leafCount = 0 ∧ m.queue.header.count = 0 := by
    rw [hmv]; exact ⟨rfl, rfl, rfl⟩
  obtain ⟨r1, r2⟩ := (counts_empty hr).2 ⟨hz.1, hz.2.1⟩
  refine ⟨hs, fun ho => ⟨by rw [(created_owner w a p _).1]; exact ho, hm.len, hm.tag⟩, m, loadMarket_ok_iff.2 hm,
    hcfg ▸ hreach, r1, r2, (pending_empty hr).2 hz.2.2⟩

/-- C39. After a successful `create_market` the four accounts carry the tags of their roles. -/
theorem C39_tags (h : Processor.createMarket env C w a p = .ok w') :
    (w' a.market).data[0]? = some 128 ∧ (w' a.eventQueue).data[0]? = some 129 ∧ (w' a.bids).data[0]? = some 130 ∧
      (w' a.asks).data[0]? = some 131 := by
  obtain ⟨hc, rfl⟩ := createMarket_ok_iff.1 h
  obtain ⟨d1, d2, d3, d4, _⟩ := created_data hc
  rw [d1, d2, d3, d4]
  exact ⟨rfl, rfl, List.getElem?_set_self (byte0_length hc.tagB), List.getElem?_set_self (byte0_length hc.tagA)⟩

/-- C39. `create_market` fails if any of its accounts, in whatever role, has a first byte other than zero. -/
theorem C39_uninitialized_only {v : UInt8} (hv : (w k).data[0]? = some v) (h0 : v ≠ 0)
    (hk : k ∈ [a.market, a.eventQueue, a.bids, a.asks]) : ∃ e, Processor.createMarket env C w a p = .error e := by
  cases h : Processor.createMarket env C w a p with
  | error e => exact ⟨e, rfl⟩
  | ok w' =>
    exfalso
    obtain ⟨hc, _⟩ := createMarket_ok_iff.1 h
    have hz : (w k).data[0]? = some 0 := by
      simp only [List.mem_cons, List.not_mem_nil, or_false] at hk
      rcases hk with rfl | rfl | rfl | rfl
      · exact byte0_of_field (by have := hc.sizeM; omega) hc.tagM
      · exact byte0_of_field (by have := hc.sizeQ; omega) hc.tagQ
      · exact hc.tagB
      · exact hc.tagA
    rw [hv] at hz
    exact h0 (Option.some.inj hz)

/-- C39. No call of the program ever makes an initialized account look uninitialized. -/
theorem C39_stays_initialized (hkR : ¬ R k) {v : UInt8} (hv : (w k).data[0]? = some v) (h0 : v ≠ 0)
    {K : Pubkey → Prop} (hK : K k) (h : ChainRunKeeping env C R K w w') :
    ∃ v', (w' k).data[0]? = some v' ∧ v' ≠ 0 := by
  have key : ∀ {w1 w2 : World} {accounts : List Pubkey} {data : Bytes} {r : Option OrderSummary} {v1 : UInt8},
      (w1 k).data[0]? = some v1 → v1 ≠ 0 → Processor.processInstruction env C w1 accounts data = .ok (r, w2) →
      ∃ v', (w2 k).data[0]? = some v' ∧ v' ≠ 0 := by
    intro w1 w2 accounts data r v1 hv1 hn h
    obtain ⟨ix', _, h2⟩ := processInstruction_ok_iff.1 h
    rcases h2.byte0 k with e | e | ⟨_, e⟩
    · exact ⟨v1, e.trans hv1, hn⟩
    · exact ⟨132, e, by decide⟩
    · rw [hv1] at e; exact absurd (Option.some.inj e) hn
  induction h with
  | refl => exact ⟨v, hv, h0⟩
  | call g0 g1 g2 ih =>
    obtain ⟨v1, hv1, hn⟩ := ih
    exact key hv1 hn g2
  | @entry w1 w2 accounts data g0 g1 g2 g3 ih =>
    obtain ⟨v1, hv1, hn⟩ := ih
    obtain ⟨reg, r, w3, d, h1, h2, h3, rfl⟩ := entrypoint_ok_iff.1 g3
    rw [World.setData_data, if_neg (by rintro rfl; exact hkR (g2 _ h1))]
    exact key hv1 hn h2
  | elsewhere g0 g1 g2 ih => rw [g2 k hK]; exact ih

/-- C39. After a successful `create_market`, and as long as the accounts are not removed, no other `create_market`
on any of the same accounts, in the same or another role, succeeds: not at once, and not after any further calls of
the program, closing the market included. -/
theorem C39_once (h : Processor.createMarket env C w a p = .ok w')
    {w'' : World} (hrun : ChainRunKeeping env C R (· ∈ [a.market, a.eventQueue, a.bids, a.asks]) w' w'')
    {a' : BookAccounts} {p' : CreateParams} (hkR : ¬ R k) (hk : k ∈ [a.market, a.eventQueue, a.bids, a.asks])
    (hk' : k ∈ [a'.market, a'.eventQueue, a'.bids, a'.asks]) :
    ∃ e, Processor.createMarket env C w'' a' p' = .error e := by
  obtain ⟨t1, t2, t3, t4⟩ := C39_tags h
  have hv : ∃ v, (w' k).data[0]? = some v ∧ v ≠ 0 := by
    have hk1 := hk
    simp only [List.mem_cons, List.not_mem_nil, or_false] at hk1
    rcases hk1 with rfl | rfl | rfl | rfl
    · exact ⟨_, t1, by decide⟩
    · exact ⟨_, t2, by decide⟩
    · exact ⟨_, t3, by decide⟩
    · exact ⟨_, t4, by decide⟩
  obtain ⟨v, hv, h0⟩ := hv
  obtain ⟨v', hv', h0'⟩ := C39_stays_initialized hkR hv h0 (K := (· ∈ [a.market, a.eventQueue, a.bids, a.asks])) hk hrun
  exact C39_uninitialized_only hv' h0' hk'

/-! ### C40 -/

/-- C40. A successful call other than `create_market` was given a market of the program first, and second the very
event queue recorded in it. -/
theorem C40_market_and_queue (h : Processor.processInstruction env C w accounts data = .ok (r, w'))
    (hix : decodeIx C data = .ok ix) (hc : ∀ p, ix ≠ .createMarket p) :
    ∃ j, accounts[0]? = some j ∧ IsMarket env w j ∧ accounts[1]? = some (stateAt w j).eventQueue := by
  obtain ⟨ix', h1, h2⟩ := processInstruction_ok_iff.1 h
  obtain rfl := Except.ok.inj (hix.symm.trans h1)
  rcases h2.auth with ⟨p, x1, x2, x3, x4, rest, rfl, _⟩ | ⟨j, rest, rfl, _, hM, _⟩
  · exact absurd rfl (hc p)
  · exact ⟨j, rfl, hM, rfl⟩

/-- C40. ... and, unless it was `consume_events`, third and fourth the very bids and asks accounts recorded in it,
which are tagged as such. -/
theorem C40_bids_and_asks (h : Processor.processInstruction env C w accounts data = .ok (r, w'))
    (hix : decodeIx C data = .ok ix) (hc : ∀ p, ix ≠ .createMarket p) (hn : ∀ n, ix ≠ .consumeEvents n) :
    ∃ j, accounts[0]? = some j ∧ accounts[2]? = some (stateAt w j).bids ∧ accounts[3]? = some (stateAt w j).asks ∧
      (w (stateAt w j).bids).data[0]? = some 130 ∧ (w (stateAt w j).asks).data[0]? = some 131 := by
  obtain ⟨ix', h1, h2⟩ := processInstruction_ok_iff.1 h
  obtain rfl := Except.ok.inj (hix.symm.trans h1)
  have ha : ix.arity = 4 := by cases ix <;> first | rfl | exact absurd rfl (hn _)
  rcases h2.auth with ⟨p, x1, x2, x3, x4, rest, rfl, _⟩ | ⟨j, rest, rfl, _, hM, h4, _⟩
  · exact absurd rfl (hc p)
  · obtain ⟨rest', rfl, h5, h6⟩ := h4 ha
    exact ⟨j, rfl, rfl, rfl, h5, h6⟩

/-- C40. ... and, unless it was `close_market` (which looks at the owner of the market account only), all accounts
of the market it was given are owned by the program. -/
theorem C40_owners (h : Processor.processInstruction env C w accounts data = .ok (r, w'))
    (hix : decodeIx C data = .ok ix) (hc : ∀ p, ix ≠ .createMarket p) (hx : ix ≠ .closeMarket)
    (hk : k ∈ accounts.take ix.arity) : (w k).owner = env.programId := by
  obtain ⟨ix', h1, h2⟩ := processInstruction_ok_iff.1 h
  obtain rfl := Except.ok.inj (hix.symm.trans h1)
  rcases h2.auth with ⟨p, x1, x2, x3, x4, rest, rfl, _⟩ | ⟨j, rest, rfl, _, hM, h4, h5, _⟩
  · exact absurd rfl (hc p)
  obtain ⟨o1, o2⟩ := h5 hx
  have ha : ix.arity = 2 ∨ ix.arity = 4 := by cases ix <;> simp [Ix.arity]
  rcases ha with ha | ha
  · rw [ha] at hk
    simp only [List.take_succ_cons, List.take_zero, List.mem_cons, List.not_mem_nil, or_false] at hk
    rcases hk with rfl | rfl
    · exact hM.1
    · exact o1
  · obtain ⟨rest', rfl, _, _⟩ := h4 ha
    obtain ⟨o3, o4⟩ := o2 ha
    rw [ha] at hk
    simp only [List.take_succ_cons, List.take_zero, List.mem_cons, List.not_mem_nil, or_false] at hk
    rcases hk with rfl | rfl | rfl | rfl
    · exact hM.1
    · exact o1
    · exact o3
    · exact o4

/-! ### C41 -/

/-- C41. A call changes no account it was not given, no account's owner or size, and no balance unless it is
`close_market`. -/
theorem C41_frame (h : Processor.processInstruction env C w accounts data = .ok (r, w')) :
    (∀ k, k ∉ accounts → w' k = w k) ∧
    (∀ k, (w' k).owner = (w k).owner ∧ (w' k).data.length = (w k).data.length) ∧
    (decodeIx C data ≠ .ok .closeMarket → ∀ k, (w' k).lamports = (w k).lamports) := by
  obtain ⟨ix', h1, h2⟩ := processInstruction_ok_iff.1 h
  refine ⟨fun k => (h2.frame k).2.2.2, fun k => ⟨(h2.frame k).1, (h2.frame k).2.1⟩, fun hn k => (h2.frame k).2.2.1 ?_⟩
  rintro rfl
  exact hn h1

/-- C41. The same of the stand-alone program, which changes its last account too. -/
theorem C41_frame_entrypoint (h : entrypoint env C w accounts data = .ok w') :
    (∀ k, k ∉ accounts → w' k = w k) ∧
    (∀ k, (w' k).owner = (w k).owner ∧ (w' k).data.length = (w k).data.length) ∧
    (decodeIx C data ≠ .ok .closeMarket → ∀ k, (w' k).lamports = (w k).lamports) := by
  obtain ⟨reg, r, w3, d, h1, h2, h3, rfl⟩ := entrypoint_ok_iff.1 h
  obtain ⟨f1, f2, f3⟩ := C41_frame h2
  refine ⟨fun k hk => ?_, fun k => ⟨?_, ?_⟩, fun hn k => ?_⟩
  · have hne : k ≠ reg := by rintro rfl; exact hk (List.mem_of_getLast? h1)
    have : (w3.setData reg d) k = w3 k := by unfold World.setData; rw [if_neg hne]
    rw [this]
    exact f1 k fun hm => hk ((List.dropLast_sublist accounts).subset hm)
  · rw [World.setData_owner]; exact (f2 k).1
  · rw [World.setData_data]
    split
    · rename_i e; subst e
      unfold writeRegister at h3
      dsimp only at h3
      split at h3
      · rename_i hle
        obtain rfl := Except.ok.inj h3
        rw [List.length_append, List.length_drop, ← (f2 k).2]; omega
      · cases h3
    · exact (f2 k).2
  · rw [World.setData_lamports]; exact f3 hn k

/-- C41. A call on another market leaves a market as it is: its account, the three accounts recorded in it, and so
its book, its queue and its parameters. -/
theorem C41_isolation (hw : OnChain env C R w) (hR : ∀ j ∈ accounts, ¬ R j) (hkR : ¬ R k) (hM : IsMarket env w k)
    (h : Processor.processInstruction env C w accounts data = .ok (r, w')) (hne : accounts.head? ≠ some k) :
    (w' k).data = (w k).data ∧ stateAt w' k = stateAt w k ∧
    (∀ j ∈ [(stateAt w k).eventQueue, (stateAt w k).bids, (stateAt w k).asks], (w' j).data = (w j).data) ∧
    loadMarket C w' k = loadMarket C w k := by
  obtain ⟨ix', _, h2⟩ := processInstruction_ok_iff.1 h
  obtain ⟨e1, e2, e3, e4⟩ := hw.inv.ran_other hR h2 hkR hM hne
  refine ⟨e1, stateAt_congr e1, ?_, loadMarket_congr e1 e2 e3 e4⟩
  intro j hj
  simp only [List.mem_cons, List.not_mem_nil, or_false] at hj
  rcases hj with rfl | rfl | rfl
  · exact e2
  · exact e3
  · exact e4

/-- C41. No two markets share an account. -/
theorem C41_disjoint (hw : OnChain env C R w) {j : Pubkey} (hj : ¬ R j) (hk : ¬ R k) (hMj : IsMarket env w j)
    (hMk : IsMarket env w k) (hne : j ≠ k) :
    ∀ x ∈ [j, (stateAt w j).eventQueue, (stateAt w j).bids, (stateAt w j).asks],
      x ∉ [k, (stateAt w k).eventQueue, (stateAt w k).bids, (stateAt w k).asks] := by
  have hi := hw.inv
  obtain ⟨s1, s2, s3⟩ := hi.sep j k hj hk hMj hMk hne
  have lj := hi.link j hj hMj
  have lk := hi.link k hk hMk
  intro x hx hy
  simp only [List.mem_cons, List.not_mem_nil, or_false] at hx hy
  have b1 := hMj.byte0
  have b2 := lj.byteQ
  have b3 := lj.tagB
  have b4 := lj.tagA
  have c1 := hMk.byte0
  have c2 := lk.byteQ
  have c3 := lk.tagB
  have c4 := lk.tagA
  rcases hx with rfl | rfl | rfl | rfl <;> rcases hy with e | e | e | e
  · exact hne e
  · rw [e, c2] at b1; cases b1
  · rw [e, c3] at b1; cases b1
  · rw [e, c4] at b1; cases b1
  · rw [e, c1] at b2; cases b2
  · exact s1 e
  · rw [e, c3] at b2; cases b2
  · rw [e, c4] at b2; cases b2
  · rw [e, c1] at b3; cases b3
  · rw [e, c2] at b3; cases b3
  · exact s2 e
  · rw [e, c4] at b3; cases b3
  · rw [e, c1] at b4; cases b4
  · rw [e, c2] at b4; cases b4
  · rw [e, c3] at b4; cases b4
  · exact s3 e

end

/-! ### Concrete cases -/

section
open DemoChain (w1 w2 w3 w4 w5 w6 w7 w8 key after_step onChain_w2 onChain_w4 onChain_w7 onChain_w8 succeeds)

theorem demo_isMarket {w : World} {k : Pubkey}
    (h : (w k).owner = DemoChain.env.programId ∧ (w k).data.length = 120 ∧ field (w k).data 0 8 = 128) :
    IsMarket DemoChain.env w k := h

theorem demo_load {w : World} {k : Pubkey} (h : succeeds (loadMarket Bytes32 w k) = true) :
    ∃ m, loadMarket Bytes32 w k = .ok m := by
  cases hx : loadMarket Bytes32 w k with
  | error e => rw [hx] at h; cases h
  | ok m => exact ⟨m, rfl⟩

theorem demo_ok {α : Type} {x : Res α} (h : succeeds x = true) : ∃ y, x = .ok y := by
  cases x with
  | error e => cases h
  | ok m => exact ⟨m, rfl⟩

/-- C37: closing the emptied first market. -/
example : ∃ w', Processor.closeMarket DemoChain.env Bytes32 w7 ⟨key 1, key 2, key 3, key 4⟩ (key 5) = .ok w' :=
  demo_ok (by decide +kernel)

/-- C34: one ask rests in `w3`, and no bid; the accounts the wrong way round. -/
example : getSpread Bytes32 w3 (key 3) (key 4) = .ok (none, some (10 * 2 ^ 32)) := by decide +kernel
example : getSpread Bytes32 w3 (key 4) (key 3) = .error .panic := C34_panics (by decide +kernel)

example := fun w' h => C37_close_only_empty (C := Bytes32) (w' := w') (a := ⟨key 1, key 2, key 3, key 4⟩) (t := key 5)
  onChain_w7 (by show key 1 ≠ key 6; decide +kernel) h

/-- C37: with an order resting, or an event waiting, it is refused. -/
example : (succeeds (Processor.closeMarket DemoChain.env Bytes32 w3 ⟨key 1, key 2, key 3, key 4⟩ (key 5)) = false) ∧
    succeeds (Processor.closeMarket DemoChain.env Bytes32 w6 ⟨key 1, key 2, key 3, key 4⟩ (key 5)) = false := by
  decide +kernel

/-- C38: the accounts of the closed market are refused, in any role. -/
example : ∃ e, Processor.processInstruction DemoChain.env Bytes32 w8 [key 11, key 12, key 3, key 14]
    (DemoChain.newOrder .bid 1 1 1) = .error e :=
  C38_refused (ix := .newOrder (DemoChain.order .bid 1 1 1)) (k := key 3) onChain_w8
    (by show ∀ k ∈ _, k ≠ key 6; decide +kernel) (by decide +kernel)
    (Wire.C45_decode (.newOrder (DemoChain.order .bid 1 1 1)) (by unfold Wire.InRange; decide +kernel)) (by decide +kernel)

example : ∃ e, Processor.processInstruction DemoChain.env Bytes32 w8 DemoChain.accounts DemoChain.create = .error e :=
  C38_refused (ix := .createMarket ⟨1, 1⟩) (k := key 1) onChain_w8 (by show ∀ k ∈ _, k ≠ key 6; decide +kernel)
    (by decide +kernel) (Wire.C45_decode (.createMarket ⟨1, 1⟩) (by unfold Wire.InRange; decide +kernel)) (by decide +kernel)

/-- C39: the first market is created in fresh accounts, sized for two orders and five events. -/
example : ∃ w', Processor.createMarket DemoChain.env Bytes32 DemoChain.genesis ⟨key 1, key 2, key 3, key 4⟩ ⟨1, 1⟩ = .ok w' ∧
    ∃ m : Market Bytes32, loadMarket Bytes32 w' (key 1) = .ok m ∧
      ReachBy { minBase := 1, tick := 1, capBids := 2, capAsks := 2, capEvents := 5 } [] m := by
  obtain ⟨w', h⟩ := demo_ok (x := Processor.createMarket DemoChain.env Bytes32 DemoChain.genesis ⟨key 1, key 2, key 3, key 4⟩ ⟨1, 1⟩)
    (by decide +kernel)
  obtain ⟨_, _, m, h1, h2, _⟩ := C39_empty_market (R := DemoChain.R) (nb := 2) (na := 2) (n := 5)
    ⟨_, DemoChain.genesis_ok, .refl⟩
    (by show ∀ k ∈ [key 1, key 2, key 3, key 4], k ≠ key 6; decide +kernel) (by decide +kernel) (by decide +kernel)
    (by decide +kernel) (by decide +kernel) h
  exact ⟨w', h, m, h1, h2⟩

/-- C39: and not a second time, nor with its queue as the bids of another market. -/
example : ∃ e, Processor.createMarket DemoChain.env Bytes32 w1 ⟨key 11, key 12, key 2, key 14⟩ ⟨1, 1⟩ = .error e :=
  C39_uninitialized_only (k := key 2) (v := 129) (by decide +kernel) (by decide) (by decide +kernel)

/-- C40: a call on the first market, and the same with the bids of the second, which is refused. -/
example : succeeds (Processor.processInstruction DemoChain.env Bytes32 w4 [key 1, key 2, key 3, key 4]
      (DemoChain.newOrder .bid 1 1 1)) = true ∧
    succeeds (Processor.processInstruction DemoChain.env Bytes32 w4 [key 1, key 2, key 13, key 4]
      (DemoChain.newOrder .bid 1 1 1)) = false := by decide +kernel

/-- C41: the order of the first market leaves the second market alone. -/
example : loadMarket Bytes32 w3 (key 11) = loadMarket Bytes32 w2 (key 11) := by
  obtain ⟨r, hr⟩ := after_step (w := w2) (l := DemoChain.accounts) (d := DemoChain.newOrder .ask 5 10 1) (by decide +kernel)
  exact (C41_isolation onChain_w2 (by show ∀ k ∈ _, k ≠ key 6; decide +kernel) (by show key 11 ≠ key 6; decide +kernel)
    (demo_isMarket (by decide +kernel)) hr (by decide +kernel)).2.2.2

example := C41_disjoint (C := Bytes32) onChain_w4 (j := key 1) (k := key 11) (by show key 1 ≠ key 6; decide +kernel)
  (by show key 11 ≠ key 6; decide +kernel) (demo_isMarket (by decide +kernel)) (demo_isMarket (by decide +kernel))
  (by decide +kernel)

/-! Each theorem applied. -/

open DemoChain (onChain_w3)

theorem demo_notR {k : Pubkey} (h : k ≠ key 6 := by decide +kernel) : ¬ DemoChain.R k := h

theorem demo_allNotR {l : List Pubkey} (h : ∀ k ∈ l, k ≠ key 6 := by decide +kernel) : ∀ k ∈ l, ¬ DemoChain.R k := h

theorem demo_okAnd {α : Type} {x : Res α} {P : α → Bool}
    (h : (match x with | .ok y => P y | .error _ => false) = true) : ∃ y, x = .ok y ∧ P y = true := by
  cases x with
  | error e => cases h
  | ok m => exact ⟨m, rfl, h⟩

/-- `C34_accounts`: the market of `w3`. -/
example := C34_accounts onChain_w3 demo_notR (demo_isMarket (k := key 1) (by decide +kernel))
  (demo_load (w := w3) (k := key 1) (by decide +kernel)).choose_spec

/-- `C37_close_succeeds`: the emptied first market. -/
example : ∃ w', Processor.closeMarket DemoChain.env Bytes32 w7 ⟨key 1, (stateAt w7 (key 1)).eventQueue,
    (stateAt w7 (key 1)).bids, (stateAt w7 (key 1)).asks⟩ (key 5) = .ok w' := by
  obtain ⟨m, h, h'⟩ := demo_okAnd (x := loadMarket Bytes32 w7 (key 1))
    (P := fun m => decide (resting m .bid = [] ∧ resting m .ask = [] ∧ pending m = [])) (by decide +kernel)
  obtain ⟨h1, h2, h3⟩ := of_decide_eq_true h'
  exact C37_close_succeeds onChain_w7 demo_notR (demo_isMarket (by decide +kernel)) h h1 h2 h3 (by decide +kernel)
    (by decide +kernel)

theorem demo_closed : ∃ w', Processor.closeMarket DemoChain.env Bytes32 w7 ⟨key 1, key 2, key 3, key 4⟩ (key 5) = .ok w' :=
  demo_ok (by decide +kernel)

example := C37_lamports demo_closed.choose_spec
/-- `C37_total`: the lamports of the accounts of the first market and of three wallets. -/
example := C37_total demo_closed.choose_spec (others := [key 7, key 8]) (by decide +kernel) (List.Perm.refl _)
example := C38_disabled demo_closed.choose_spec

/-- After the first market was closed an order is posted in the second. -/
def w9 : World := DemoChain.after w8 DemoChain.accounts' (DemoChain.newOrder .ask 1 12 4)

theorem demo_w9 : ∃ r, Processor.processInstruction DemoChain.env Bytes32 w8 DemoChain.accounts'
    (DemoChain.newOrder .ask 1 12 4) = .ok (r, w9) := after_step (by decide +kernel)

theorem demo_run (K : Pubkey → Prop) : ChainRunKeeping DemoChain.env Bytes32 DemoChain.R K w8 w9 :=
  .call .refl (by show ∀ k ∈ _, k ≠ key 6; decide +kernel) demo_w9.choose_spec

example := C38_unchanged (k := key 1) (by decide +kernel) demo_w9.choose_spec
example := C38_persists (k := key 3) demo_notR (by decide +kernel) trivial (demo_run fun _ => True)

theorem demo_w8 : ∃ r, Processor.processInstruction DemoChain.env Bytes32 w7 (DemoChain.accounts ++ [key 5])
    DemoChain.close = .ok (r, w8) := after_step (by decide +kernel)

/-- `C38_dead_for_ever`: the accounts of the closed market, after the order in the second market, given to `create_market`. -/
example : ∃ e, Processor.processInstruction DemoChain.env Bytes32 w9 DemoChain.accounts DemoChain.create = .error e :=
  C38_dead_for_ever (k := key 3) (ix := .createMarket ⟨1, 1⟩) onChain_w7 demo_allNotR
    (Wire.C45_decode .closeMarket (by unfold Wire.InRange; trivial)) demo_w8.choose_spec (demo_run _) (by decide +kernel)
    demo_allNotR (Wire.C45_decode (.createMarket ⟨1, 1⟩) (by unfold Wire.InRange; decide +kernel)) (by decide +kernel)

/-- `C39_create_iff`: all that `create_market` asks for is there in the fresh accounts. -/
example := C39_create_iff.1 (demo_ok (x := Processor.createMarket DemoChain.env Bytes32 DemoChain.genesis
  ⟨key 1, key 2, key 3, key 4⟩ ⟨1, 1⟩) (by decide +kernel))

/-- The fresh accounts made a market by `create_market`; then the second market is created too. -/
def created : World :=
  match Processor.createMarket DemoChain.env Bytes32 DemoChain.genesis ⟨key 1, key 2, key 3, key 4⟩ ⟨1, 1⟩ with
  | .ok w => w
  | .error _ => DemoChain.genesis

theorem created_ok : Processor.createMarket DemoChain.env Bytes32 DemoChain.genesis ⟨key 1, key 2, key 3, key 4⟩ ⟨1, 1⟩ =
    .ok created := by
  obtain ⟨w, h⟩ := demo_ok (x := Processor.createMarket DemoChain.env Bytes32 DemoChain.genesis
    ⟨key 1, key 2, key 3, key 4⟩ ⟨1, 1⟩) (by decide +kernel)
  unfold created
  rw [h]

theorem created_run (K : Pubkey → Prop) : ChainRunKeeping DemoChain.env Bytes32 DemoChain.R K created
    (DemoChain.after created DemoChain.accounts' DemoChain.create) :=
  .call .refl (by show ∀ k ∈ _, k ≠ key 6; decide +kernel)
    (after_step (w := created) (l := DemoChain.accounts') (d := DemoChain.create) (by decide +kernel)).choose_spec

example := C39_tags created_ok
example := C39_stays_initialized (k := key 2) (v := 129) demo_notR (by decide +kernel) (by decide) trivial
  (created_run fun _ => True)
/-- `C39_once`: the queue of the first market is not taken as the bids of a third. -/
example := C39_once (R := DemoChain.R) (k := key 2) created_ok (created_run _) (a' := ⟨key 11, key 12, key 2, key 14⟩)
  (p' := ⟨1, 1⟩) demo_notR (by decide +kernel) (by decide +kernel)

theorem demo_w4 : ∃ r, Processor.processInstruction DemoChain.env Bytes32 w3 DemoChain.accounts
    (DemoChain.newOrder .bid 3 10 2) = .ok (r, w4) := after_step (by decide +kernel)

theorem demo_decode : decodeIx Bytes32 (DemoChain.newOrder .bid 3 10 2) = .ok (.newOrder (DemoChain.order .bid 3 10 2)) :=
  Wire.C45_decode (.newOrder (DemoChain.order .bid 3 10 2)) (by unfold Wire.InRange; decide +kernel)

/-- C40, C41: the purchase of the demo. -/
example := C40_market_and_queue demo_w4.choose_spec demo_decode (fun _ => by simp)
example := C40_bids_and_asks demo_w4.choose_spec demo_decode (fun _ => by simp) (fun _ => by simp)
example := C40_owners (k := key 3) demo_w4.choose_spec demo_decode (fun _ => by simp) (by simp) (by decide +kernel)
example := C41_frame demo_w4.choose_spec
example := C41_frame_entrypoint (DemoChain.afterEntry_step (w := w4) (l := DemoChain.accounts' ++ [key 6])
  (d := DemoChain.newOrder .bid 4 9 3) (by decide +kernel))

end

end Accounts
end AOB
