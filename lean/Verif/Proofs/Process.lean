import Verif.Proofs.Load
/-
The processors as operations on loaded markets.
-/
namespace AOB

theorem borrow_of {held : List Pubkey} {k : Pubkey} (h : k ∉ held) : borrow held k = .ok (k :: held) := if_neg h

theorem borrow_ok_iff {held held' : List Pubkey} {k : Pubkey} :
    borrow held k = .ok held' ↔ k ∉ held ∧ held' = k :: held := by
  unfold borrow
  split <;> rename_i h
  · simp [h]
  · simp [h, eq_comm]

theorem checkAccountOwner_ok_iff {w : World} {k o : Pubkey} {e : AoError} {u : Unit} :
    checkAccountOwner w k o e = .ok u ↔ (w k).owner = o := by
  unfold checkAccountOwner
  split <;> rename_i h
  · exact ⟨fun h => (by cases h), fun g => absurd g h⟩
  · exact ⟨fun _ => Classical.not_not.1 h, fun _ => rfl⟩

theorem checkAccountKey_ok_iff {k j : Pubkey} {e : AoError} {u : Unit} :
    checkAccountKey k j e = .ok u ↔ k = j := by
  unfold checkAccountKey
  split <;> rename_i h
  · exact ⟨fun h => (by cases h), fun g => absurd g h⟩
  · exact ⟨fun _ => Classical.not_not.1 h, fun _ => rfl⟩

/-- The accounts passed are the program's, and the ones recorded in the market. -/
structure Auth (env : Env) (w : World) (a : BookAccounts) : Prop where
  market : (w a.market).owner = env.programId
  eventQueue : (w a.eventQueue).owner = env.programId
  bids : (w a.bids).owner = env.programId
  asks : (w a.asks).owner = env.programId
  keyQ : a.eventQueue = (stateAt w a.market).eventQueue
  keyB : a.bids = (stateAt w a.market).bids
  keyA : a.asks = (stateAt w a.market).asks

theorem performChecks_ok_iff {env : Env} {w : World} {a : BookAccounts} {u : Unit} :
    a.performChecks env w = .ok u ↔ (w a.market).owner = env.programId ∧ (w a.eventQueue).owner = env.programId ∧
      (w a.bids).owner = env.programId ∧ (w a.asks).owner = env.programId := by
  unfold BookAccounts.performChecks
  constructor
  · intro h
    obtain ⟨_, h1, h⟩ := bind_ok h
    obtain ⟨_, h2, h⟩ := bind_ok h
    obtain ⟨_, h3, h⟩ := bind_ok h
    exact ⟨checkAccountOwner_ok_iff.1 h1, checkAccountOwner_ok_iff.1 h2, checkAccountOwner_ok_iff.1 h3,
      checkAccountOwner_ok_iff.1 h⟩
  · rintro ⟨h1, h2, h3, h4⟩
    rw [bind_of_ok (checkAccountOwner_ok_iff (u := ()).2 h1), bind_of_ok (checkAccountOwner_ok_iff (u := ()).2 h2),
      bind_of_ok (checkAccountOwner_ok_iff (u := ()).2 h3)]
    exact checkAccountOwner_ok_iff.2 h4

theorem checkAccounts_ok_iff {a : BookAccounts} {ms : MarketState} {u : Unit} :
    a.checkAccounts ms = .ok u ↔ a.eventQueue = ms.eventQueue ∧ a.bids = ms.bids ∧ a.asks = ms.asks := by
  unfold BookAccounts.checkAccounts
  constructor
  · intro h
    obtain ⟨_, h1, h⟩ := bind_ok h
    obtain ⟨_, h2, h⟩ := bind_ok h
    exact ⟨checkAccountKey_ok_iff.1 h1, checkAccountKey_ok_iff.1 h2, checkAccountKey_ok_iff.1 h⟩
  · rintro ⟨h1, h2, h3⟩
    rw [bind_of_ok (checkAccountKey_ok_iff (u := ()).2 h1), bind_of_ok (checkAccountKey_ok_iff (u := ()).2 h2)]
    exact checkAccountKey_ok_iff.2 h3

section
variable {C : Type} [Pod C]

/-- The book is what the accounts of the market at `k` contain. -/
structure LoadedBook (w : World) (k : Pubkey) (b : OrderBook C) : Prop where
  len : (w k).data.length = 120
  tag : field (w k).data 0 8 = 128
  bids : SlabParts C (w (stateAt w k).bids).data b.bids
  bidsTag : (w (stateAt w k).bids).data[0]? = some 130
  asks : SlabParts C (w (stateAt w k).asks).data b.asks
  asksTag : (w (stateAt w k).asks).data[0]? = some 131

/-- The queue is what the accounts of the market at `k` contain. -/
structure LoadedQueue (w : World) (k : Pubkey) (q : EventQueue C) : Prop where
  len : (w k).data.length = 120
  tag : field (w k).data 0 8 = 128
  queue : QueueParts C (w (stateAt w k).eventQueue).data q
  queueTag : field (w (stateAt w k).eventQueue).data 0 8 = 129

theorem Loaded.book {w : World} {k : Pubkey} {m : Market C} (h : Loaded w k m) : LoadedBook w k m.book :=
  ⟨h.len, h.tag, h.bids, h.bidsTag, h.asks, h.asksTag⟩

theorem Loaded.events {w : World} {k : Pubkey} {m : Market C} (h : Loaded w k m) : LoadedQueue w k m.queue :=
  ⟨h.len, h.tag, h.queue, h.queueTag⟩

theorem Loaded.mk' {w : World} {k : Pubkey} {b : OrderBook C} {q : EventQueue C} (h : LoadedBook w k b)
    (g : LoadedQueue w k q) : Loaded w k ⟨(stateAt w k).minBaseOrderSize, (stateAt w k).tickSize, b, q⟩ :=
  ⟨h.len, h.tag, rfl, rfl, h.bids, h.bidsTag, h.asks, h.asksTag, g.queue, g.queueTag⟩

theorem LoadedBook.inj {w : World} {k : Pubkey} {b b' : OrderBook C} (h : LoadedBook w k b) (h' : LoadedBook w k b') :
    b = b' := by
  have e1 := Except.ok.inj (((slabRead (t := .bids) (x := 130) rfl).2 ⟨h.bids, h.bidsTag⟩).symm.trans
    ((slabRead (t := .bids) (x := 130) rfl).2 ⟨h'.bids, h'.bidsTag⟩))
  have e2 := Except.ok.inj (((slabRead (t := .asks) (x := 131) rfl).2 ⟨h.asks, h.asksTag⟩).symm.trans
    ((slabRead (t := .asks) (x := 131) rfl).2 ⟨h'.asks, h'.asksTag⟩))
  cases b; cases b'
  simp_all

theorem LoadedQueue.inj {w : World} {k : Pubkey} {q q' : EventQueue C} (h : LoadedQueue w k q)
    (h' : LoadedQueue w k q') : q = q' :=
  (Prod.mk.inj (Except.ok.inj (((EventQueue.fromBuffer_ok_iff (t := .eventQueue)).2 ⟨h.queue, h.queueTag, rfl⟩).symm.trans
    ((EventQueue.fromBuffer_ok_iff (t := .eventQueue)).2 ⟨h'.queue, h'.queueTag, rfl⟩)))).1

theorem LoadedBook.fits {w : World} {k : Pubkey} {b : OrderBook C} (h : LoadedBook w k b) : b.Fits :=
  ⟨h.bids.fits, h.asks.fits⟩

theorem LoadedBook.distinct {w : World} {k : Pubkey} {b : OrderBook C} (h : LoadedBook w k b) :
    k ≠ (stateAt w k).bids ∧ k ≠ (stateAt w k).asks ∧ (stateAt w k).bids ≠ (stateAt w k).asks := by
  have h0 := byte0_of_field (by have := h.len; omega) h.tag
  exact ⟨ne_of_byte0 h0 h.bidsTag (by decide), ne_of_byte0 h0 h.asksTag (by decide),
    ne_of_byte0 h.bidsTag h.asksTag (by decide)⟩

theorem LoadedQueue.distinct {w : World} {k : Pubkey} {q : EventQueue C} (h : LoadedQueue w k q) :
    k ≠ (stateAt w k).eventQueue := by
  have h0 := byte0_of_field (by have := h.len; omega) h.tag
  have h1 := byte0_of_field (by have := h.queue.long; omega) h.queueTag
  exact ne_of_byte0 h0 h1 (by decide)

/-- The accounts after the book of the market at `k` has become `b`. -/
def storeBook (w : World) (k : Pubkey) (b : OrderBook C) : World :=
  (w.setData (stateAt w k).bids (b.bids.writeBack (w (stateAt w k).bids).data)).setData (stateAt w k).asks
    (b.asks.writeBack (w (stateAt w k).asks).data)

/-- The accounts after the queue of the market at `k` has become `q`. -/
def storeQueue (w : World) (k : Pubkey) (q : EventQueue C) : World :=
  w.setData (stateAt w k).eventQueue (q.writeBack (w (stateAt w k).eventQueue).data)

theorem Loaded.storeBook_eq {w : World} {k : Pubkey} {m : Market C} (h : Loaded w k m) (b : OrderBook C) :
    store w k { m with book := b } = storeBook w k b := by
  obtain ⟨_, _, _, d4, d5, _⟩ := h.distinct
  unfold store
  apply World.setData_same
  rw [World.setData_data, World.setData_data, if_neg d5, if_neg d4]
  exact h.queue.writeBack

theorem Loaded.storeQueue_eq {w : World} {k : Pubkey} {m : Market C} (h : Loaded w k m) (q : EventQueue C) :
    store w k { m with queue := q } = storeQueue w k q := by
  unfold store
  dsimp only
  rw [h.bids.writeBack, h.asks.writeBack, World.setData_same (k := (stateAt w k).bids) rfl, World.setData_same rfl]
  rfl

theorem newSafe_ok_iff {bd ad : Bytes} {b : OrderBook C} : OrderBook.newSafe C bd ad = .ok b ↔
    SlabParts C bd b.bids ∧ bd[0]? = some 130 ∧ SlabParts C ad b.asks ∧ ad[0]? = some 131 := by
  unfold OrderBook.newSafe
  constructor
  · intro h
    obtain ⟨x, hx, h⟩ := bind_ok h
    obtain ⟨y, hy, h⟩ := bind_ok h
    obtain rfl := Except.ok.inj h
    obtain ⟨h1, h2⟩ := (slabRead (x := 130) rfl).1 hx
    obtain ⟨h3, h4⟩ := (slabRead (x := 131) rfl).1 hy
    exact ⟨h1, h2, h3, h4⟩
  · rintro ⟨h1, h2, h3, h4⟩
    rw [bind_of_ok ((slabRead (t := .bids) (x := 130) rfl).2 ⟨h1, h2⟩),
      bind_of_ok ((slabRead (t := .asks) (x := 131) rfl).2 ⟨h3, h4⟩)]

theorem marketRead {w : World} {k : Pubkey} (hl : (w k).data.length = 120) (ht : field (w k).data 0 8 = 128) :
    MarketState.fromBuffer (w k).data .market = .ok (stateAt w k, (w k).data) :=
  MarketState.fromBuffer_ok_iff.2 ⟨hl, ht, rfl, (writeTag_same (t := .market) (by omega) ht).symm⟩

theorem marketRead_ok {w : World} {k : Pubkey} {ms : MarketState} {md : Bytes}
    (h : MarketState.fromBuffer (w k).data .market = .ok (ms, md)) :
    (w k).data.length = 120 ∧ field (w k).data 0 8 = 128 ∧ ms = stateAt w k ∧ md = (w k).data := by
  obtain ⟨h1, h2, h3, h4⟩ := MarketState.fromBuffer_ok_iff.1 h
  exact ⟨h1, h2, h3, h4.trans (writeTag_same (t := .market) (by omega) h2)⟩

theorem queueRead {d : Bytes} {q : EventQueue C} (h : QueueParts C d q) (ht : field d 0 8 = 129) :
    EventQueue.fromBuffer C d .eventQueue = .ok (q, d) :=
  EventQueue.fromBuffer_ok_iff.2 ⟨h, ht, (writeTag_same (t := .eventQueue) (by have := h.long; omega) ht).symm⟩

theorem queueRead_ok {d qd : Bytes} {q : EventQueue C} (h : EventQueue.fromBuffer C d .eventQueue = .ok (q, qd)) :
    QueueParts C d q ∧ field d 0 8 = 129 ∧ qd = d := by
  obtain ⟨h1, h2, h3⟩ := EventQueue.fromBuffer_ok_iff.1 h
  exact ⟨h1, h2, h3.trans (writeTag_same (t := .eventQueue) (by have := h1.long; omega) h2)⟩

/-! ### `new_order` -/

variable [CallbackInfo C]

theorem processNewOrder_eq {env : Env} {w : World} {a : BookAccounts} {m : Market C} (ha : Auth env w a)
    (hl : Loaded w a.market m) (p : NewOrderParams C) :
    Processor.newOrder env w a p = (m.newOrder p).map fun r => (r.1, store w a.market r.2) := by
  obtain ⟨d1, d2, d3, d4, d5, d6⟩ := hl.distinct
  unfold Processor.newOrder
  rw [bind_of_ok (performChecks_ok_iff (u := ()).2 ⟨ha.market, ha.eventQueue, ha.bids, ha.asks⟩),
    bind_of_ok (borrow_of (List.not_mem_nil)), bind_of_ok (marketRead hl.len hl.tag)]
  dsimp only
  rw [bind_of_ok (checkAccounts_ok_iff (u := ()).2 ⟨ha.keyQ, ha.keyB, ha.keyA⟩), ha.keyQ, ha.keyB, ha.keyA]
  rw [World.setData_same rfl]
  unfold Processor.checkTick Market.newOrder
  rw [hl.tick]
  cases hr : remU p.limitPrice (stateAt w a.market).tickSize with
  | error e => rfl
  | ok r =>
    simp only [bind, Except.bind]
    by_cases c1 : r ≠ 0
    · simp only [if_pos c1]; rfl
    by_cases c2 : (p.postAllowed && decide (p.limitPrice < (stateAt w a.market).tickSize)) = true
    · simp only [if_neg c1, if_pos c2]; rfl
    · simp only [if_neg c1, if_neg c2,
        borrow_of (show (stateAt w a.market).bids ∉ [a.market] by simp [d2.symm]),
        borrow_of (show (stateAt w a.market).asks ∉ [(stateAt w a.market).bids, a.market] by simp [d3.symm, d6.symm]),
        borrow_of (show (stateAt w a.market).eventQueue ∉ [(stateAt w a.market).asks, (stateAt w a.market).bids, a.market]
          by simp [d1.symm, d4, d5]),
        newSafe_ok_iff.2 ⟨hl.bids, hl.bidsTag, hl.asks, hl.asksTag⟩, queueRead hl.queue hl.queueTag, hl.minBase]
      cases m.book.newOrder p m.queue (stateAt w a.market).minBaseOrderSize with
      | error e => rfl
      | ok x => rfl

theorem processNewOrder_ok {env : Env} {w w' : World} {a : BookAccounts} {p : NewOrderParams C} {s : OrderSummary}
    (h : Processor.newOrder env w a p = .ok (s, w')) : Auth env w a ∧ ∃ m m' : Market C, Loaded w a.market m ∧
      m.newOrder p = .ok (s, m') ∧ w' = store w a.market m' := by
  have h0 := h
  unfold Processor.newOrder at h
  obtain ⟨_, hp, h⟩ := bind_ok h
  obtain ⟨o1, o2, o3, o4⟩ := performChecks_ok_iff.1 hp
  obtain ⟨_, _, h⟩ := bind_ok h
  obtain ⟨⟨ms, md⟩, hm, h⟩ := bind_ok h
  obtain ⟨hl, ht, rfl, rfl⟩ := marketRead_ok hm
  obtain ⟨_, hk, h⟩ := bind_ok h
  obtain ⟨k1, k2, k3⟩ := checkAccounts_ok_iff.1 hk
  obtain ⟨_, _, h⟩ := bind_ok h
  obtain ⟨_, _, h⟩ := bind_ok h
  obtain ⟨_, _, h⟩ := bind_ok h
  obtain ⟨b, hb, h⟩ := bind_ok h
  obtain ⟨b1, b2, b3, b4⟩ := newSafe_ok_iff.1 hb
  obtain ⟨_, _, h⟩ := bind_ok h
  obtain ⟨⟨q, qd⟩, hq, h⟩ := bind_ok h
  obtain ⟨q1, q2, rfl⟩ := queueRead_ok hq
  rw [k2] at b1 b2
  rw [k3] at b3 b4
  rw [k1] at q1 q2
  have ha : Auth env w a := ⟨o1, o2, o3, o4, k1, k2, k3⟩
  have hload : Loaded w a.market (C := C) ⟨_, _, b, q⟩ := ⟨hl, ht, rfl, rfl, b1, b2, b3, b4, q1, q2⟩
  rw [processNewOrder_eq ha hload] at h0
  refine ⟨ha, ⟨(stateAt w a.market).minBaseOrderSize, (stateAt w a.market).tickSize, b, q⟩, ?_⟩
  cases hr : Market.newOrder (C := C)
      ⟨(stateAt w a.market).minBaseOrderSize, (stateAt w a.market).tickSize, b, q⟩ p with
  | error e => rw [hr] at h0; cases h0
  | ok x =>
    rw [hr] at h0
    obtain ⟨rfl, rfl⟩ := Prod.mk.inj (Except.ok.inj h0)
    exact ⟨x.2, hload, rfl, rfl⟩

/-! ### `cancel_order`, `mass_cancel_orders` -/

omit [CallbackInfo C] in
theorem processCancel_eq {env : Env} {w : World} {a : BookAccounts} {b : OrderBook C} (ha : Auth env w a)
    (hl : LoadedBook w a.market b) (id : Nat) :
    Processor.cancelOrder env C w a id = (Market.cancelIn b id).map fun r => (r.1, storeBook w a.market r.2) := by
  obtain ⟨d2, d3, d6⟩ := hl.distinct
  unfold Processor.cancelOrder
  rw [bind_of_ok (performChecks_ok_iff (u := ()).2 ⟨ha.market, ha.eventQueue, ha.bids, ha.asks⟩),
    bind_of_ok (borrow_of (List.not_mem_nil)), bind_of_ok (marketRead hl.len hl.tag)]
  dsimp only
  rw [bind_of_ok (checkAccounts_ok_iff (u := ()).2 ⟨ha.keyQ, ha.keyB, ha.keyA⟩), ha.keyB, ha.keyA]
  rw [World.setData_same rfl]
  rw [bind_of_ok (borrow_of (show (stateAt w a.market).bids ∉ [a.market] by simp [d2.symm])),
    bind_of_ok (borrow_of (show (stateAt w a.market).asks ∉ [(stateAt w a.market).bids, a.market] by
      simp [d3.symm, d6.symm])),
    bind_of_ok (newSafe_ok_iff.2 ⟨hl.bids, hl.bidsTag, hl.asks, hl.asksTag⟩)]
  cases Market.cancelIn b id with
  | error e => rfl
  | ok x => rfl

omit [CallbackInfo C] in
theorem processMassCancel_eq {env : Env} {w : World} {a : BookAccounts} {b : OrderBook C} (ha : Auth env w a)
    (hl : LoadedBook w a.market b) (ids : List Nat) :
    Processor.massCancelOrders env C w a ids = (Market.massCancelLoop ids 0 0 b).map fun r =>
      (⟨none, r.1, r.2.1, 0⟩, storeBook w a.market r.2.2) := by
  obtain ⟨d2, d3, d6⟩ := hl.distinct
  unfold Processor.massCancelOrders
  rw [bind_of_ok (performChecks_ok_iff (u := ()).2 ⟨ha.market, ha.eventQueue, ha.bids, ha.asks⟩),
    bind_of_ok (borrow_of (List.not_mem_nil)), bind_of_ok (marketRead hl.len hl.tag)]
  dsimp only
  rw [bind_of_ok (checkAccounts_ok_iff (u := ()).2 ⟨ha.keyQ, ha.keyB, ha.keyA⟩), ha.keyB, ha.keyA]
  rw [World.setData_same rfl]
  rw [bind_of_ok (borrow_of (show (stateAt w a.market).bids ∉ [a.market] by simp [d2.symm])),
    bind_of_ok (borrow_of (show (stateAt w a.market).asks ∉ [(stateAt w a.market).bids, a.market] by
      simp [d3.symm, d6.symm])),
    bind_of_ok (newSafe_ok_iff.2 ⟨hl.bids, hl.bidsTag, hl.asks, hl.asksTag⟩)]
  cases Market.massCancelLoop ids 0 0 b with
  | error e => rfl
  | ok x => rfl

omit [CallbackInfo C] in
theorem processCancel_ok {env : Env} {w w' : World} {a : BookAccounts} {id : Nat} {s : OrderSummary}
    (h : Processor.cancelOrder env C w a id = .ok (s, w')) : Auth env w a ∧ ∃ b b' : OrderBook C,
      LoadedBook w a.market b ∧ Market.cancelIn b id = .ok (s, b') ∧ w' = storeBook w a.market b' := by
  have h0 := h
  unfold Processor.cancelOrder at h
  obtain ⟨_, hp, h⟩ := bind_ok h
  obtain ⟨o1, o2, o3, o4⟩ := performChecks_ok_iff.1 hp
  obtain ⟨_, _, h⟩ := bind_ok h
  obtain ⟨⟨ms, md⟩, hm, h⟩ := bind_ok h
  obtain ⟨hl, ht, rfl, rfl⟩ := marketRead_ok hm
  obtain ⟨_, hk, h⟩ := bind_ok h
  obtain ⟨k1, k2, k3⟩ := checkAccounts_ok_iff.1 hk
  obtain ⟨_, _, h⟩ := bind_ok h
  obtain ⟨_, _, h⟩ := bind_ok h
  obtain ⟨b, hb, h⟩ := bind_ok h
  obtain ⟨b1, b2, b3, b4⟩ := newSafe_ok_iff.1 hb
  rw [k2] at b1 b2
  rw [k3] at b3 b4
  have ha : Auth env w a := ⟨o1, o2, o3, o4, k1, k2, k3⟩
  have hload : LoadedBook w a.market b := ⟨hl, ht, b1, b2, b3, b4⟩
  rw [processCancel_eq ha hload] at h0
  refine ⟨ha, b, ?_⟩
  cases hr : Market.cancelIn b id with
  | error e => rw [hr] at h0; cases h0
  | ok x =>
    rw [hr] at h0
    obtain ⟨rfl, rfl⟩ := Prod.mk.inj (Except.ok.inj h0)
    exact ⟨x.2, hload, rfl, rfl⟩

omit [CallbackInfo C] in
theorem processMassCancel_ok {env : Env} {w w' : World} {a : BookAccounts} {ids : List Nat} {s : OrderSummary}
    (h : Processor.massCancelOrders env C w a ids = .ok (s, w')) : Auth env w a ∧ ∃ (b b' : OrderBook C) (x y : Nat),
      LoadedBook w a.market b ∧ Market.massCancelLoop ids 0 0 b = .ok (x, y, b') ∧ s = ⟨none, x, y, 0⟩ ∧
      w' = storeBook w a.market b' := by
  have h0 := h
  unfold Processor.massCancelOrders at h
  obtain ⟨_, hp, h⟩ := bind_ok h
  obtain ⟨o1, o2, o3, o4⟩ := performChecks_ok_iff.1 hp
  obtain ⟨_, _, h⟩ := bind_ok h
  obtain ⟨⟨ms, md⟩, hm, h⟩ := bind_ok h
  obtain ⟨hl, ht, rfl, rfl⟩ := marketRead_ok hm
  obtain ⟨_, hk, h⟩ := bind_ok h
  obtain ⟨k1, k2, k3⟩ := checkAccounts_ok_iff.1 hk
  obtain ⟨_, _, h⟩ := bind_ok h
  obtain ⟨_, _, h⟩ := bind_ok h
  obtain ⟨b, hb, h⟩ := bind_ok h
  obtain ⟨b1, b2, b3, b4⟩ := newSafe_ok_iff.1 hb
  rw [k2] at b1 b2
  rw [k3] at b3 b4
  have ha : Auth env w a := ⟨o1, o2, o3, o4, k1, k2, k3⟩
  have hload : LoadedBook w a.market b := ⟨hl, ht, b1, b2, b3, b4⟩
  rw [processMassCancel_eq ha hload] at h0
  refine ⟨ha, b, ?_⟩
  cases hr : Market.massCancelLoop ids 0 0 b with
  | error e => rw [hr] at h0; cases h0
  | ok x =>
    rw [hr] at h0
    obtain ⟨rfl, rfl⟩ := Prod.mk.inj (Except.ok.inj h0)
    exact ⟨x.2.2, x.1, x.2.1, hload, rfl, rfl, rfl⟩

/-! ### `consume_events` -/

omit [CallbackInfo C] in
theorem processConsume_eq {env : Env} {w : World} {mk qk : Pubkey} {q : EventQueue C}
    (o1 : (w mk).owner = env.programId) (o2 : (w qk).owner = env.programId) (hk : qk = (stateAt w mk).eventQueue)
    (hl : LoadedQueue w mk q) (n : Nat) :
    Processor.consumeEvents env C w mk qk n = (q.popN n).map fun q' => storeQueue w mk q' := by
  have d := hl.distinct
  unfold Processor.consumeEvents
  rw [bind_of_ok (checkAccountOwner_ok_iff (u := ()).2 o1), bind_of_ok (checkAccountOwner_ok_iff (u := ()).2 o2),
    bind_of_ok (borrow_of (List.not_mem_nil)), bind_of_ok (marketRead hl.len hl.tag)]
  dsimp only
  rw [bind_of_ok (checkAccountKey_ok_iff (u := ()).2 hk), bind_of_ok (checkAccountKey_ok_iff (u := ()).2 hk), hk,
    World.setData_same rfl, bind_of_ok (borrow_of (show (stateAt w mk).eventQueue ∉ [mk] by simp [d.symm])),
    bind_of_ok (queueRead hl.queue hl.queueTag)]
  cases q.popN n with
  | error e => rfl
  | ok x => rfl

omit [CallbackInfo C] in
theorem processConsume_ok {env : Env} {w w' : World} {mk qk : Pubkey} {n : Nat}
    (h : Processor.consumeEvents env C w mk qk n = .ok w') : (w mk).owner = env.programId ∧
      (w qk).owner = env.programId ∧ qk = (stateAt w mk).eventQueue ∧ ∃ q q' : EventQueue C, LoadedQueue w mk q ∧
      q.popN n = .ok q' ∧ w' = storeQueue w mk q' := by
  have h0 := h
  unfold Processor.consumeEvents at h
  obtain ⟨_, hp, h⟩ := bind_ok h
  have o1 := checkAccountOwner_ok_iff.1 hp
  obtain ⟨_, hp, h⟩ := bind_ok h
  have o2 := checkAccountOwner_ok_iff.1 hp
  obtain ⟨_, _, h⟩ := bind_ok h
  obtain ⟨⟨ms, md⟩, hm, h⟩ := bind_ok h
  obtain ⟨hl, ht, rfl, rfl⟩ := marketRead_ok hm
  obtain ⟨_, hk, h⟩ := bind_ok h
  have hk := checkAccountKey_ok_iff.1 hk
  obtain ⟨_, _, h⟩ := bind_ok h
  obtain ⟨_, _, h⟩ := bind_ok h
  obtain ⟨⟨q, qd⟩, hq, h⟩ := bind_ok h
  obtain ⟨q1, q2, rfl⟩ := queueRead_ok hq
  rw [hk] at q1 q2
  have hload : LoadedQueue w mk q := ⟨hl, ht, q1, q2⟩
  rw [processConsume_eq o1 o2 hk hload] at h0
  refine ⟨o1, o2, hk, q, ?_⟩
  cases hr : q.popN n with
  | error e => rw [hr] at h0; cases h0
  | ok x =>
    rw [hr] at h0
    obtain rfl := Except.ok.inj h0
    exact ⟨x, hload, rfl, rfl⟩

end
end AOB
