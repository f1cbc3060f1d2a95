import Verif.Proofs.Process
/-
`create_market` and `close_market` on the accounts.
-/
namespace AOB

section
variable {C : Type} [Pod C]

/-- The market account data written by `create_market`. -/
def newMarketData (a : BookAccounts) (p : CreateParams) : Bytes :=
  toLE 8 AccountTag.market.toNat ++ (MarketState.mk a.eventQueue a.bids a.asks p.minBaseOrderSize p.tickSize).toBytes

/-- The accounts after `create_market`. -/
def created (w : World) (a : BookAccounts) (p : CreateParams) : World :=
  (((w.setData a.market (newMarketData a p)).setData a.eventQueue
    (toLE 8 AccountTag.eventQueue.toNat ++ (w a.eventQueue).data.drop 8)).setData a.asks
    ((w a.asks).data.set 0 131)).setData a.bids ((w a.bids).data.set 0 130)

/-- What `create_market` requires. -/
structure CanCreate (env : Env) (C : Type) [Pod C] (w : World) (a : BookAccounts) (p : CreateParams) : Prop where
  ownerQ : (w a.eventQueue).owner = env.programId
  ownerB : (w a.bids).owner = env.programId
  ownerA : (w a.asks).owner = env.programId
  rentA : env.rentExempt (w a.asks).lamports (w a.asks).data.length = true
  rentB : env.rentExempt (w a.bids).lamports (w a.bids).data.length = true
  rentQ : env.rentExempt (w a.eventQueue).lamports (w a.eventQueue).data.length = true
  rentM : env.rentExempt (w a.market).lamports (w a.market).data.length = true
  minBase : p.minBaseOrderSize ≠ 0
  tick : p.tickSize ≠ 0
  sizeQ : 32 + 5 * (40 + 2 * Pod.size C) ≤ (w a.eventQueue).data.length
  modQ : ((w a.eventQueue).data.length - 32) % (40 + 2 * Pod.size C) = 0
  sizeM : (w a.market).data.length = 120
  tagM : field (w a.market).data 0 8 = 0
  tagQ : field (w a.eventQueue).data 0 8 = 0
  tagA : (w a.asks).data[0]? = some 0
  tagB : (w a.bids).data[0]? = some 0
  neMQ : a.market ≠ a.eventQueue
  neMA : a.market ≠ a.asks
  neMB : a.market ≠ a.bids
  neQA : a.eventQueue ≠ a.asks
  neQB : a.eventQueue ≠ a.bids
  neAB : a.asks ≠ a.bids

theorem checkRentExempt_ok_iff {env : Env} {w : World} {k : Pubkey} {u : Unit} :
    checkRentExempt env w k = .ok u ↔ env.rentExempt (w k).lamports (w k).data.length = true := by
  unfold checkRentExempt
  split <;> rename_i h
  · exact ⟨fun _ => h, fun _ => rfl⟩
  · exact ⟨fun h => (by cases h), fun g => absurd g h⟩

theorem checkBufferSize_ok_iff {b : Bytes} {u : Unit} : EventQueue.checkBufferSize C b = .ok u ↔
    32 + 5 * (40 + 2 * Pod.size C) ≤ b.length ∧ (b.length - 32) % (40 + 2 * Pod.size C) = 0 := by
  unfold EventQueue.checkBufferSize
  have e1 : EventQueueHeader.LEN + 8 = 32 := rfl
  have e2 : FillEvent.LEN = 40 := rfl
  rw [e1, e2]
  dsimp only
  rw [ite_err_ok, ite_err_ok]
  constructor
  · rintro ⟨h1, h2, _⟩
    exact ⟨Nat.not_lt.1 h1, Classical.not_not.1 h2⟩
  · rintro ⟨h1, h2⟩
    exact ⟨Nat.not_lt.2 h1, fun h => h h2, rfl⟩

theorem marketCheckBufferSize_ok_iff {b : Bytes} {u : Unit} :
    MarketState.checkBufferSize b = .ok u ↔ b.length = 120 := by
  unfold MarketState.checkBufferSize
  have e1 : 8 + MarketState.LEN = 120 := rfl
  rw [e1, ite_err_ok]
  exact ⟨fun h => Classical.not_not.1 h.1, fun h => ⟨fun g => g h, rfl⟩⟩

theorem initialize_ok_iff {x y x' y' : Bytes} : Slab.initialize x y = .ok (x', y') ↔
    x[0]? = some 0 ∧ y[0]? = some 0 ∧ x' = x.set 0 131 ∧ y' = y.set 0 130 := by
  unfold Slab.initialize
  constructor
  · intro h
    obtain ⟨tx, hx, h⟩ := bind_ok h
    obtain ⟨nx, h⟩ := ite_err_ok.1 h
    obtain ⟨ty, hy, h⟩ := bind_ok h
    obtain ⟨ny, h⟩ := ite_err_ok.1 h
    obtain ⟨rfl, rfl⟩ := Prod.mk.inj (Except.ok.inj h)
    have ex := u8_eq (Classical.not_not.1 nx)
    have ey := u8_eq (Classical.not_not.1 ny)
    subst ex; subst ey
    exact ⟨idx_ok.1 hx, idx_ok.1 hy, rfl, rfl⟩
  · rintro ⟨hx, hy, rfl, rfl⟩
    rw [bind_of_ok (idx_ok.2 hx), if_neg (by decide), bind_of_ok (idx_ok.2 hy), if_neg (by decide)]
    rfl

theorem queueCast_of_check {d : Bytes} (h1 : 32 + 5 * (40 + 2 * Pod.size C) ≤ d.length)
    (h2 : (d.length - 32) % (40 + 2 * Pod.size C) = 0) : ∃ q : EventQueue C, QueueParts C d q := by
  have hl : 32 ≤ d.length := by omega
  have he := queue_len_eq (C := C) hl
  rw [h2, Nat.add_zero] at he
  have hc1 : ((d.drop 32).take (queueCap C d.length * 40)).length % 40 = 0 := by
    rw [List.length_take, List.length_drop]
    have : min (queueCap C d.length * 40) (d.length - 32) = queueCap C d.length * 40 := by omega
    rw [this]; exact Nat.mul_mod_left _ _
  have hc2 : (d.drop (32 + queueCap C d.length * 40)).length % Pod.size C = 0 := by
    rw [List.length_drop]
    have : d.length - (32 + queueCap C d.length * 40) = 2 * queueCap C d.length * Pod.size C := by omega
    rw [this]; exact Nat.mul_mod_left _ _
  exact ⟨⟨_, _, _⟩, hl, rfl, castSlice_ok hc1, castSlice_ok hc2⟩

theorem createMarket_ok_iff {env : Env} {w w' : World} {a : BookAccounts} {p : CreateParams} :
    Processor.createMarket env C w a p = .ok w' ↔ CanCreate env C w a p ∧ w' = created w a p := by
  unfold Processor.createMarket
  have hmd : MarketState.writeBack (toLE 8 AccountTag.market.toNat ++ (w a.market).data.drop 8)
      (MarketState.mk a.eventQueue a.bids a.asks p.minBaseOrderSize p.tickSize) = newMarketData a p := by
    unfold MarketState.writeBack newMarketData
    rw [slice_head _ _ _ (toLE_length _ _)]
  constructor
  · intro h
    obtain ⟨_, h1, h⟩ := bind_ok h
    obtain ⟨_, h2, h⟩ := bind_ok h
    obtain ⟨_, h3, h⟩ := bind_ok h
    obtain ⟨_, h4, h⟩ := bind_ok h
    obtain ⟨_, h5, h⟩ := bind_ok h
    obtain ⟨_, h6, h⟩ := bind_ok h
    obtain ⟨_, h7, h⟩ := bind_ok h
    obtain ⟨h8, h⟩ := ite_err_ok.1 h
    split at h
    · cases h
    rename_i hchk
    obtain ⟨hd, b1, h⟩ := bind_ok h
    obtain ⟨_, rfl⟩ := borrow_ok_iff.1 b1
    obtain ⟨_, h9, h⟩ := bind_ok h
    obtain ⟨⟨ms, md⟩, h10, h⟩ := bind_ok h
    obtain ⟨_, g2, rfl, rfl⟩ := MarketState.fromBuffer_ok_iff.1 h10
    obtain ⟨hd, b2, h⟩ := bind_ok h
    obtain ⟨n2, rfl⟩ := borrow_ok_iff.1 b2
    obtain ⟨⟨q, qd⟩, h11, h⟩ := bind_ok h
    obtain ⟨_, g4, rfl⟩ := EventQueue.fromBuffer_ok_iff.1 h11
    obtain ⟨hd, b3, h⟩ := bind_ok h
    obtain ⟨n3, rfl⟩ := borrow_ok_iff.1 b3
    obtain ⟨hd, b4, h⟩ := bind_ok h
    obtain ⟨n4, rfl⟩ := borrow_ok_iff.1 b4
    obtain ⟨⟨ad, bd⟩, h12, h⟩ := bind_ok h
    obtain ⟨g5, g6, rfl, rfl⟩ := initialize_ok_iff.1 h12
    obtain rfl := Except.ok.inj h
    simp only [List.mem_cons, List.not_mem_nil, not_or, or_false] at n2 n3 n4
    have hc := checkBufferSize_ok_iff.1 hchk
    refine ⟨⟨checkAccountOwner_ok_iff.1 h1, checkAccountOwner_ok_iff.1 h2, checkAccountOwner_ok_iff.1 h3,
      checkRentExempt_ok_iff.1 h4, checkRentExempt_ok_iff.1 h5, checkRentExempt_ok_iff.1 h6,
      checkRentExempt_ok_iff.1 h7, fun e => h8 (.inl e), fun e => h8 (.inr e), hc.1, hc.2,
      marketCheckBufferSize_ok_iff.1 h9, g2, g4, g5, g6, Ne.symm n2, Ne.symm n3.2, Ne.symm n4.2.2, Ne.symm n3.1,
      Ne.symm n4.2.1, Ne.symm n4.1⟩, ?_⟩
    rw [hmd]; rfl
  · rintro ⟨h, rfl⟩
    obtain ⟨q, hq⟩ := queueCast_of_check (C := C) h.sizeQ h.modQ
    rw [bind_of_ok (checkAccountOwner_ok_iff (u := ()).2 h.ownerQ), bind_of_ok (checkAccountOwner_ok_iff (u := ()).2 h.ownerB),
      bind_of_ok (checkAccountOwner_ok_iff (u := ()).2 h.ownerA), bind_of_ok (checkRentExempt_ok_iff (u := ()).2 h.rentA),
      bind_of_ok (checkRentExempt_ok_iff (u := ()).2 h.rentB), bind_of_ok (checkRentExempt_ok_iff (u := ()).2 h.rentQ),
      bind_of_ok (checkRentExempt_ok_iff (u := ()).2 h.rentM),
      if_neg (by rintro (e | e) <;> [exact h.minBase e; exact h.tick e]),
      checkBufferSize_ok_iff (u := ()).2 ⟨h.sizeQ, h.modQ⟩]
    dsimp only
    rw [bind_of_ok (borrow_of List.not_mem_nil), bind_of_ok (marketCheckBufferSize_ok_iff (u := ()).2 h.sizeM),
      bind_of_ok ((MarketState.fromBuffer_ok_iff (t := .uninitialized)).2 ⟨h.sizeM, h.tagM, rfl, rfl⟩)]
    dsimp only
    rw [bind_of_ok (borrow_of (show a.eventQueue ∉ [a.market] by simp [h.neMQ.symm])),
      bind_of_ok ((EventQueue.fromBuffer_ok_iff (t := .uninitialized)).2 ⟨hq, h.tagQ, rfl⟩)]
    dsimp only
    rw [bind_of_ok (borrow_of (show a.asks ∉ [a.eventQueue, a.market] by simp [h.neQA.symm, h.neMA.symm])),
      bind_of_ok (borrow_of (show a.bids ∉ [a.asks, a.eventQueue, a.market] by
        simp [h.neQB.symm, h.neMB.symm, h.neAB.symm])),
      bind_of_ok (initialize_ok_iff.2 ⟨h.tagA, h.tagB, rfl, rfl⟩), hmd]
    rfl

/-! ### `close_market` -/

/-- What `close_market` requires. -/
structure CanClose (env : Env) (w : World) (a : BookAccounts) (target : Pubkey) (m : Market C) : Prop where
  owner : (w a.market).owner = env.programId
  keyQ : a.eventQueue = (stateAt w a.market).eventQueue
  keyB : a.bids = (stateAt w a.market).bids
  keyA : a.asks = (stateAt w a.market).asks
  loaded : Loaded w a.market m
  bids : m.book.bids.header.leafCount = 0
  asks : m.book.asks.header.leafCount = 0
  queue : m.queue.header.count = 0
  neM : target ≠ a.market
  neB : target ≠ a.bids
  neA : target ≠ a.asks
  neQ : target ≠ a.eventQueue
  sum : (w target).lamports + ((w a.market).lamports + (w a.bids).lamports + (w a.asks).lamports +
    (w a.eventQueue).lamports) < U64

/-- The data of an account after it has been tagged `Disabled`. -/
def disable (d : Bytes) : Bytes := toLE 8 AccountTag.disabled.toNat ++ d.drop 8

/-- The accounts after `close_market`. -/
def closed (w : World) (a : BookAccounts) (target : Pubkey) : World :=
  ((((((((w.setData a.market (disable (w a.market).data)).setData a.asks (disable (w a.asks).data)).setData a.bids
    (disable (w a.bids).data)).setData a.eventQueue (disable (w a.eventQueue).data)).setLamports target
    ((w target).lamports + ((w a.market).lamports + (w a.bids).lamports + (w a.asks).lamports +
      (w a.eventQueue).lamports))).setLamports a.market 0).setLamports a.bids 0).setLamports a.asks 0).setLamports
    a.eventQueue 0

theorem writeTag_ok_iff {b b' : Bytes} {t : AccountTag} :
    writeTag b t = .ok b' ↔ 8 ≤ b.length ∧ b' = toLE 8 t.toNat ++ b.drop 8 := by
  unfold writeTag
  split <;> rename_i h
  · exact ⟨fun g => ⟨h, (Except.ok.inj g).symm⟩, fun g => by rw [g.2]⟩
  · exact ⟨fun g => (by cases g), fun g => absurd g.1 h⟩

theorem closeMarket_ok_iff {env : Env} {w w' : World} {a : BookAccounts} {target : Pubkey} :
    Processor.closeMarket env C w a target = .ok w' ↔
      (∃ m : Market C, CanClose env w a target m) ∧ w' = closed w a target := by
  unfold Processor.closeMarket
  constructor
  · intro h
    obtain ⟨_, h1, h⟩ := bind_ok h
    obtain ⟨hd, b1, h⟩ := bind_ok h
    obtain ⟨_, rfl⟩ := borrow_ok_iff.1 b1
    obtain ⟨⟨ms, md⟩, hm, h⟩ := bind_ok h
    obtain ⟨hl, ht, rfl, rfl⟩ := marketRead_ok hm
    obtain ⟨_, hk, h⟩ := bind_ok h
    obtain ⟨k1, k2, k3⟩ := checkAccounts_ok_iff.1 hk
    obtain ⟨hd, b2, h⟩ := bind_ok h
    obtain ⟨hd, b3, h⟩ := bind_ok h
    split at h
    · cases h
    rename_i book hb
    obtain ⟨c1, c2, c3, c4⟩ := newSafe_ok_iff.1 hb
    obtain ⟨he, h⟩ := ite_err_ok.1 h
    obtain ⟨hd, b4, h⟩ := bind_ok h
    obtain ⟨⟨q, qd⟩, hq, h⟩ := bind_ok h
    obtain ⟨q1, q2, rfl⟩ := queueRead_ok hq
    obtain ⟨hc, h⟩ := ite_err_ok.1 h
    obtain ⟨md, t1, h⟩ := bind_ok h
    obtain ⟨_, rfl⟩ := writeTag_ok_iff.1 t1
    obtain ⟨ad, t2, h⟩ := bind_ok h
    obtain ⟨_, rfl⟩ := writeTag_ok_iff.1 t2
    obtain ⟨bd, t3, h⟩ := bind_ok h
    obtain ⟨_, rfl⟩ := writeTag_ok_iff.1 t3
    obtain ⟨qd, t4, h⟩ := bind_ok h
    obtain ⟨_, rfl⟩ := writeTag_ok_iff.1 t4
    obtain ⟨hd, l1, h⟩ := bind_ok h
    obtain ⟨_, rfl⟩ := borrow_ok_iff.1 l1
    obtain ⟨hd, l2, h⟩ := bind_ok h
    obtain ⟨_, rfl⟩ := borrow_ok_iff.1 l2
    obtain ⟨hd, l3, h⟩ := bind_ok h
    obtain ⟨_, rfl⟩ := borrow_ok_iff.1 l3
    obtain ⟨hd, l4, h⟩ := bind_ok h
    obtain ⟨_, rfl⟩ := borrow_ok_iff.1 l4
    obtain ⟨hd, l5, h⟩ := bind_ok h
    obtain ⟨n5, rfl⟩ := borrow_ok_iff.1 l5
    obtain ⟨s1, a1, h⟩ := bind_ok h
    obtain ⟨_, rfl⟩ := addU64_ok_iff.1 a1
    obtain ⟨s2, a2, h⟩ := bind_ok h
    obtain ⟨_, rfl⟩ := addU64_ok_iff.1 a2
    obtain ⟨s3, a3, h⟩ := bind_ok h
    obtain ⟨_, rfl⟩ := addU64_ok_iff.1 a3
    obtain ⟨s4, a4, h⟩ := bind_ok h
    obtain ⟨hs, rfl⟩ := addU64_ok_iff.1 a4
    obtain rfl := Except.ok.inj h
    simp only [List.mem_cons, List.not_mem_nil, not_or, or_false] at n5
    have hem : book.asks.header.leafCount = 0 ∧ book.bids.header.leafCount = 0 := by
      simpa [OrderBook.isEmpty] using he
    rw [k2] at c1 c2
    rw [k3] at c3 c4
    rw [k1] at q1 q2
    refine ⟨⟨⟨(stateAt w a.market).minBaseOrderSize, (stateAt w a.market).tickSize, book, q⟩,
      checkAccountOwner_ok_iff.1 h1, k1, k2, k3, ⟨hl, ht, rfl, rfl, c1, c2, c3, c4, q1, q2⟩, hem.2, hem.1,
      Classical.not_not.1 hc, n5.2.2.2, n5.2.2.1, n5.2.1, n5.1, hs⟩, rfl⟩
  · rintro ⟨⟨m, h⟩, rfl⟩
    obtain ⟨d1, d2, d3, d4, d5, d6⟩ := h.loaded.distinct
    rw [← h.keyQ] at d1 d4 d5
    rw [← h.keyB] at d2 d4 d6
    rw [← h.keyA] at d3 d5 d6
    have hs := h.sum
    have lb := h.loaded.bids
    have la := h.loaded.asks
    have lq := h.loaded.queue
    have tb := h.loaded.bidsTag
    have ta := h.loaded.asksTag
    have tq := h.loaded.queueTag
    rw [← h.keyB] at lb tb
    rw [← h.keyA] at la ta
    rw [← h.keyQ] at lq tq
    have hlen := h.loaded.len
    have hlb := lb.long
    have hla := la.long
    have hlq := lq.long
    rw [bind_of_ok (checkAccountOwner_ok_iff (u := ()).2 h.owner), bind_of_ok (borrow_of List.not_mem_nil),
      bind_of_ok (marketRead h.loaded.len h.loaded.tag)]
    dsimp only
    rw [bind_of_ok (checkAccounts_ok_iff (u := ()).2 ⟨h.keyQ, h.keyB, h.keyA⟩),
      bind_of_ok (borrow_of (show a.bids ∉ [a.market] by simp [d2.symm])),
      bind_of_ok (borrow_of (show a.asks ∉ [a.bids, a.market] by simp [d3.symm, d6.symm])),
      newSafe_ok_iff.2 ⟨lb, tb, la, ta⟩]
    dsimp only
    rw [if_neg (by simp [OrderBook.isEmpty, h.bids, h.asks]),
      bind_of_ok (borrow_of (show a.eventQueue ∉ [a.asks, a.bids, a.market] by simp [d1.symm, d4, d5])),
      bind_of_ok (queueRead lq tq)]
    dsimp only
    rw [if_neg (fun e => e h.queue),
      bind_of_ok (writeTag_ok_iff.2 ⟨by omega, rfl⟩), bind_of_ok (writeTag_ok_iff.2 ⟨by omega, rfl⟩),
      bind_of_ok (writeTag_ok_iff.2 ⟨by omega, rfl⟩), bind_of_ok (writeTag_ok_iff.2 ⟨by omega, rfl⟩),
      bind_of_ok (borrow_of List.not_mem_nil),
      bind_of_ok (borrow_of (show a.bids ∉ [a.market] by simp [d2.symm])),
      bind_of_ok (borrow_of (show a.asks ∉ [a.bids, a.market] by simp [d3.symm, d6.symm])),
      bind_of_ok (borrow_of (show a.eventQueue ∉ [a.asks, a.bids, a.market] by simp [d1.symm, d4, d5])),
      bind_of_ok (borrow_of (show target ∉ [a.eventQueue, a.asks, a.bids, a.market] by
        simp [h.neM, h.neB, h.neA, h.neQ])),
      bind_of_ok (addU64_ok_iff.2 ⟨by omega, rfl⟩), bind_of_ok (addU64_ok_iff.2 ⟨by omega, rfl⟩),
      bind_of_ok (addU64_ok_iff.2 ⟨by omega, rfl⟩), bind_of_ok (addU64_ok_iff.2 ⟨hs, rfl⟩)]
    rfl

end
end AOB
