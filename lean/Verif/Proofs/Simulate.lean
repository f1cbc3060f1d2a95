import Verif.Proofs.ChainInv
/-
What one call of the program does to the accounts, and to a given market.
-/
namespace AOB

section
variable {C : Type} [Pod C]

/-! ### Sizes -/

theorem storeBook_data {w : World} {k : Pubkey} (b' : OrderBook C) (j : Pubkey) :
    (storeBook w k b' j).data = if j = (stateAt w k).asks then b'.asks.writeBack (w (stateAt w k).asks).data else
      if j = (stateAt w k).bids then b'.bids.writeBack (w (stateAt w k).bids).data else (w j).data := by
  unfold storeBook
  rw [World.setData_data]
  split
  · rfl
  · rw [World.setData_data]

theorem storeBook_meta (w : World) (k : Pubkey) (b : OrderBook C) (j : Pubkey) :
    (storeBook w k b j).owner = (w j).owner ∧ (storeBook w k b j).lamports = (w j).lamports := by
  simp only [storeBook, World.setData_owner, World.setData_lamports, and_self]

theorem storeQueue_meta (w : World) (k : Pubkey) (q : EventQueue C) (j : Pubkey) :
    (storeQueue w k q j).owner = (w j).owner ∧ (storeQueue w k q j).lamports = (w j).lamports := by
  simp only [storeQueue, World.setData_owner, World.setData_lamports, and_self]

theorem storeQueue_data (w : World) (k : Pubkey) (q : EventQueue C) (j : Pubkey) :
    (storeQueue w k q j).data = if j = (stateAt w k).eventQueue then
      q.writeBack (w (stateAt w k).eventQueue).data else (w j).data := World.setData_data _ _ _ _

theorem length_disable {d : Bytes} (h : 8 ≤ d.length) : (disable d).length = d.length := by
  unfold disable
  rw [List.length_append, toLE_length, List.length_drop]; omega

/-! ### Frame -/

variable [CallbackInfo C]

/-- What a call may change. -/
theorem Ran.touch {env : Env} {w w' : World} {accounts : List Pubkey} {ix : Ix C} {r : Option OrderSummary}
    (h : Ran env w accounts ix r w') (x : Pubkey) : (w' x).data = (w x).data ∨ (w x).data[0]? = some 0 ∨
      ∃ j, accounts.head? = some j ∧ IsMarket env w j ∧ (x = j ∨
        (x = (stateAt w j).eventQueue ∧ (w x).data[0]? = some 129) ∨
        (x = (stateAt w j).bids ∧ (w x).data[0]? = some 130) ∨
        (x = (stateAt w j).asks ∧ (w x).data[0]? = some 131)) := by
  have hhead : ∀ {a : BookAccounts}, BookAccounts.parse accounts = .ok a → accounts.head? = some a.market := by
    intro a ha
    unfold BookAccounts.parse at ha
    split at ha
    · obtain rfl := Except.ok.inj ha; rfl
    · cases ha
  cases h with
  | @create a p _ f1 f2 hp hx =>
    obtain ⟨hc, rfl⟩ := createMarket_ok_iff.1 hx
    obtain ⟨_, _, _, _, d⟩ := created_data hc
    by_cases e1 : x = a.market
    · right; left; rw [e1]; exact byte0_of_field (by have := hc.sizeM; omega) hc.tagM
    by_cases e2 : x = a.eventQueue
    · right; left; rw [e2]; exact byte0_of_field (by have := hc.sizeQ; omega) hc.tagQ
    by_cases e3 : x = a.bids
    · right; left; rw [e3]; exact hc.tagB
    by_cases e4 : x = a.asks
    · right; left; rw [e4]; exact hc.tagA
    · left; rw [d x e1 e2 e3 e4]
  | @newOrder a p sm _ f hp hx =>
    obtain ⟨ha, m, m', hm, he, rfl⟩ := processNewOrder_ok hx
    obtain ⟨_, b2, b3, b4⟩ := hm.bytes
    have hj := hhead hp
    have hM : IsMarket env w a.market := ⟨ha.market, hm.len, hm.tag⟩
    by_cases e2 : x = (stateAt w a.market).eventQueue
    · exact .inr (.inr ⟨_, hj, hM, .inr (.inl ⟨e2, e2 ▸ b2⟩)⟩)
    by_cases e3 : x = (stateAt w a.market).bids
    · exact .inr (.inr ⟨_, hj, hM, .inr (.inr (.inl ⟨e3, e3 ▸ b3⟩))⟩)
    by_cases e4 : x = (stateAt w a.market).asks
    · exact .inr (.inr ⟨_, hj, hM, .inr (.inr (.inr ⟨e4, e4 ▸ b4⟩))⟩)
    · left; rw [store_other w _ m' e2 e3 e4]
  | @consume j0 q0 n _ f hp hx =>
    obtain ⟨o1, _, _, q, q', hq, he, rfl⟩ := processConsume_ok hx
    have hj : accounts.head? = some j0 := by
      unfold parseConsume at hp
      split at hp
      · obtain ⟨rfl, rfl⟩ := Prod.mk.inj (Except.ok.inj hp); rfl
      · cases hp
    rw [storeQueue_data]
    by_cases e2 : x = (stateAt w j0).eventQueue
    · have b2 := byte0_of_field (by have := hq.queue.long; omega) hq.queueTag
      exact .inr (.inr ⟨_, hj, ⟨o1, hq.len, hq.tag⟩, .inr (.inl ⟨e2, e2 ▸ b2⟩)⟩)
    · left; rw [if_neg e2]
  | @cancel a id sm _ f hp hx =>
    obtain ⟨ha, b, b', hb, he, rfl⟩ := processCancel_ok hx
    have hM : IsMarket env w a.market := ⟨ha.market, hb.len, hb.tag⟩
    rw [storeBook_data]
    by_cases e4 : x = (stateAt w a.market).asks
    · exact .inr (.inr ⟨_, hhead hp, hM, .inr (.inr (.inr ⟨e4, e4 ▸ hb.asksTag⟩))⟩)
    by_cases e3 : x = (stateAt w a.market).bids
    · exact .inr (.inr ⟨_, hhead hp, hM, .inr (.inr (.inl ⟨e3, e3 ▸ hb.bidsTag⟩))⟩)
    · left; rw [if_neg e4, if_neg e3]
  | @close a t _ hp hx =>
    obtain ⟨⟨m, hc⟩, rfl⟩ := closeMarket_ok_iff.1 hx
    have hj : accounts.head? = some a.market := by
      unfold parseClose at hp
      split at hp
      · obtain ⟨rfl, rfl⟩ := Prod.mk.inj (Except.ok.inj hp); rfl
      · cases hp
    obtain ⟨_, b2, b3, b4⟩ := hc.loaded.bytes
    have hM : IsMarket env w a.market := ⟨hc.owner, hc.loaded.len, hc.loaded.tag⟩
    by_cases e1 : x = a.market
    · exact .inr (.inr ⟨_, hj, hM, .inl e1⟩)
    by_cases e2 : x = (stateAt w a.market).eventQueue
    · exact .inr (.inr ⟨_, hj, hM, .inr (.inl ⟨e2, e2 ▸ b2⟩)⟩)
    by_cases e3 : x = (stateAt w a.market).bids
    · exact .inr (.inr ⟨_, hj, hM, .inr (.inr (.inl ⟨e3, e3 ▸ b3⟩))⟩)
    by_cases e4 : x = (stateAt w a.market).asks
    · exact .inr (.inr ⟨_, hj, hM, .inr (.inr (.inr ⟨e4, e4 ▸ b4⟩))⟩)
    · left
      rw [← hc.keyQ] at e2
      rw [← hc.keyB] at e3
      rw [← hc.keyA] at e4
      exact (closed_other w _ _ e1 e2 e3 e4).2.1
  | @massCancel a ids sm _ f1 f2 hp hx =>
    obtain ⟨ha, b, b', _, _, hb, he, _, rfl⟩ := processMassCancel_ok hx
    have hM : IsMarket env w a.market := ⟨ha.market, hb.len, hb.tag⟩
    rw [storeBook_data]
    by_cases e4 : x = (stateAt w a.market).asks
    · exact .inr (.inr ⟨_, hhead hp, hM, .inr (.inr (.inr ⟨e4, e4 ▸ hb.asksTag⟩))⟩)
    by_cases e3 : x = (stateAt w a.market).bids
    · exact .inr (.inr ⟨_, hhead hp, hM, .inr (.inr (.inl ⟨e3, e3 ▸ hb.bidsTag⟩))⟩)
    · left; rw [if_neg e4, if_neg e3]

/-- A call on another market leaves the four accounts of a live market alone. -/
theorem ChainInv.ran_other {env : Env} {R : Pubkey → Prop} {w w' : World} (h : ChainInv env C R w)
    {accounts : List Pubkey} (hR : ∀ k ∈ accounts, ¬ R k) {ix : Ix C} {r : Option OrderSummary}
    (hr : Ran env w accounts ix r w') {k : Pubkey} (hk : ¬ R k) (hm : IsMarket env w k)
    (hne : accounts.head? ≠ some k) :
    (w' k).data = (w k).data ∧ (w' (stateAt w k).eventQueue).data = (w (stateAt w k).eventQueue).data ∧
    (w' (stateAt w k).bids).data = (w (stateAt w k).bids).data ∧
    (w' (stateAt w k).asks).data = (w (stateAt w k).asks).data := by
  have hL := h.link k hk hm
  have key : ∀ x v, (w x).data[0]? = some v → v ≠ 0 →
      (∀ j, accounts.head? = some j → IsMarket env w j → j ≠ k →
        (x = j ∨ (x = (stateAt w j).eventQueue ∧ (w x).data[0]? = some 129) ∨
        (x = (stateAt w j).bids ∧ (w x).data[0]? = some 130) ∨
        (x = (stateAt w j).asks ∧ (w x).data[0]? = some 131)) → False) → (w' x).data = (w x).data := by
    intro x v hv h0 hno
    rcases hr.touch x with e | e | ⟨j, hj, hM, hx⟩
    · exact e
    · rw [hv] at e; exact absurd (Option.some.inj e) h0
    · exact (hno j hj hM (by rintro rfl; exact hne hj) hx).elim
  have hRj : ∀ j, accounts.head? = some j → ¬ R j := fun j hj => hR j (List.mem_of_mem_head? hj)
  refine ⟨?_, ?_, ?_, ?_⟩
  · refine key k 128 hm.byte0 (by decide) ?_
    intro j hj hM hn hx
    rcases hx with rfl | ⟨_, e⟩ | ⟨_, e⟩ | ⟨_, e⟩
    · exact hn rfl
    all_goals rw [hm.byte0] at e; cases e
  · refine key _ 129 hL.byteQ (by decide) ?_
    intro j hj hM hn hx
    rcases hx with e | ⟨e, _⟩ | ⟨_, e⟩ | ⟨_, e⟩
    · have := hM.byte0; rw [← e, hL.byteQ] at this; cases this
    · exact (h.sep j k (hRj j hj) hk hM hm hn).1 e.symm
    all_goals rw [hL.byteQ] at e; cases e
  · refine key _ 130 hL.tagB (by decide) ?_
    intro j hj hM hn hx
    rcases hx with e | ⟨_, e⟩ | ⟨e, _⟩ | ⟨_, e⟩
    · have := hM.byte0; rw [← e, hL.tagB] at this; cases this
    · rw [hL.tagB] at e; cases e
    · exact (h.sep j k (hRj j hj) hk hM hm hn).2.1 e.symm
    · rw [hL.tagB] at e; cases e
  · refine key _ 131 hL.tagA (by decide) ?_
    intro j hj hM hn hx
    rcases hx with e | ⟨_, e⟩ | ⟨_, e⟩ | ⟨e, _⟩
    · have := hM.byte0; rw [← e, hL.tagA] at this; cases this
    · rw [hL.tagA] at e; cases e
    · rw [hL.tagA] at e; cases e
    · exact (h.sep j k (hRj j hj) hk hM hm hn).2.2 e.symm

/-- A call on the market at `k` runs the market's instruction, or closes the market. -/
theorem Ran.same {env : Env} {w w' : World} {accounts : List Pubkey} {ix : Ix C} {r : Option OrderSummary}
    (hr : Ran env w accounts ix r w') {k : Pubkey} (hM : IsMarket env w k) (hk : accounts.head? = some k) {m : Market C}
    (hm : Loaded w k m) :
    (∃ i m', ix.instr = some i ∧ i.Fits ∧ m.exec i = .ok (r, m') ∧ Loaded w' k m') ∨
    (ix = .closeMarket ∧ ∃ a t, parseClose accounts = .ok (a, t) ∧ a.market = k ∧ CanClose env w a t m ∧
      w' = closed w a t) := by
  have hhead : ∀ {a : BookAccounts}, BookAccounts.parse accounts = .ok a → a.market = k := by
    intro a ha
    unfold BookAccounts.parse at ha
    split at ha
    · obtain rfl := Except.ok.inj ha; exact Option.some.inj hk
    · cases ha
  cases hr with
  | @create a p _ f1 f2 hp hx =>
    obtain ⟨hc, rfl⟩ := createMarket_ok_iff.1 hx
    obtain rfl := hhead hp
    have := hc.tagM
    rw [hM.2.2] at this
    cases this
  | @newOrder a p sm _ f hp hx =>
    obtain ⟨ha, m1, m', hm1, he, rfl⟩ := processNewOrder_ok hx
    obtain rfl := hhead hp
    obtain rfl := hm.inj hm1
    exact .inl ⟨.newOrder _, m', rfl, f, exec_newOrder he, hm.stored (exec_kept hm.fits.1 hm.fits.2 (i := .newOrder _) f (exec_newOrder he))⟩
  | @consume j0 q0 n _ f hp hx =>
    obtain ⟨o1, _, _, q, q', hq, he, rfl⟩ := processConsume_ok hx
    have hj : j0 = k := by
      unfold parseConsume at hp
      split at hp
      · obtain ⟨rfl, rfl⟩ := Prod.mk.inj (Except.ok.inj hp); exact Option.some.inj hk
      · cases hp
    subst hj
    obtain rfl := hm.events.inj hq
    refine .inl ⟨.consumeEvents _, _, rfl, f, exec_consume he, ?_⟩
    rw [← hm.storeQueue_eq]
    exact hm.stored (exec_kept hm.fits.1 hm.fits.2 (i := .consumeEvents _) f (exec_consume he))
  | @cancel a id sm _ f hp hx =>
    obtain ⟨ha, b, b', hb, he, rfl⟩ := processCancel_ok hx
    obtain rfl := hhead hp
    obtain rfl := hm.book.inj hb
    refine .inl ⟨.cancelOrder _, _, rfl, f, exec_cancel he, ?_⟩
    rw [← hm.storeBook_eq]
    exact hm.stored (exec_kept hm.fits.1 hm.fits.2 (i := .cancelOrder _) f (exec_cancel he))
  | @close a t _ hp hx =>
    obtain ⟨⟨m1, hc⟩, rfl⟩ := closeMarket_ok_iff.1 hx
    have hj : a.market = k := by
      have hp' := hp
      unfold parseClose at hp'
      split at hp'
      · obtain ⟨rfl, rfl⟩ := Prod.mk.inj (Except.ok.inj hp'); exact Option.some.inj hk
      · cases hp'
    subst hj
    obtain rfl := hm.inj hc.loaded
    exact .inr ⟨rfl, _, _, hp, rfl, hc, rfl⟩
  | @massCancel a ids sm _ f1 f2 hp hx =>
    obtain ⟨ha, b, b', x, y, hb, he, rfl, rfl⟩ := processMassCancel_ok hx
    obtain rfl := hhead hp
    obtain rfl := hm.book.inj hb
    refine .inl ⟨.massCancelOrders _, _, rfl, ⟨f1, f2⟩, exec_massCancel he, ?_⟩
    rw [← hm.storeBook_eq]
    exact hm.stored (exec_kept hm.fits.1 hm.fits.2 (i := .massCancelOrders _) ⟨f1, f2⟩ (exec_massCancel he))

/-- Which accounts a call of the program got. -/
theorem Ran.auth {env : Env} {w w' : World} {accounts : List Pubkey} {ix : Ix C} {r : Option OrderSummary}
    (h : Ran env w accounts ix r w') :
    (∃ p m q b a rest, ix = .createMarket p ∧ accounts = m :: q :: b :: a :: rest ∧ CanCreate env C w ⟨m, q, b, a⟩ p) ∨
    (∃ j rest, accounts = j :: (stateAt w j).eventQueue :: rest ∧ (∀ p, ix ≠ .createMarket p) ∧ IsMarket env w j ∧
      (ix.arity = 4 → ∃ rest', rest = (stateAt w j).bids :: (stateAt w j).asks :: rest' ∧
        (w (stateAt w j).bids).data[0]? = some 130 ∧ (w (stateAt w j).asks).data[0]? = some 131) ∧
      (ix ≠ .closeMarket → (w (stateAt w j).eventQueue).owner = env.programId ∧ (ix.arity = 4 →
        (w (stateAt w j).bids).owner = env.programId ∧ (w (stateAt w j).asks).owner = env.programId)) ∧
      (ix.instr = none ∨ (∃ p, ix = .newOrder p) ∨ (∃ n, ix = .consumeEvents n) →
        (w (stateAt w j).eventQueue).data[0]? = some 129)) := by
  have hsplit : ∀ {a : BookAccounts}, BookAccounts.parse accounts = .ok a →
      ∃ rest, accounts = a.market :: a.eventQueue :: a.bids :: a.asks :: rest := by
    intro a ha
    unfold BookAccounts.parse at ha
    split at ha
    · obtain rfl := Except.ok.inj ha; exact ⟨_, rfl⟩
    · cases ha
  cases h with
  | @create a p _ f1 f2 hp hx =>
    obtain ⟨rest, hs⟩ := hsplit hp
    exact .inl ⟨p, _, _, _, _, rest, rfl, hs, (createMarket_ok_iff.1 hx).1⟩
  | @newOrder a p sm _ f hp hx =>
    obtain ⟨rest, hs⟩ := hsplit hp
    obtain ⟨ha, m, m', hm, he, rfl⟩ := processNewOrder_ok hx
    obtain ⟨_, b2, b3, b4⟩ := hm.bytes
    rw [ha.keyQ, ha.keyB, ha.keyA] at hs
    exact .inr ⟨a.market, _, hs, fun _ h => (by cases h), ⟨ha.market, hm.len, hm.tag⟩, fun _ => ⟨rest, rfl, b3, b4⟩,
      fun _ => ⟨ha.keyQ ▸ ha.eventQueue, fun _ => ⟨ha.keyB ▸ ha.bids, ha.keyA ▸ ha.asks⟩⟩, fun _ => b2⟩
  | @consume j0 q0 n _ f hp hx =>
    obtain ⟨o1, o2, e, q, q', hq, he, rfl⟩ := processConsume_ok hx
    unfold parseConsume at hp
    split at hp
    · obtain ⟨rfl, rfl⟩ := Prod.mk.inj (Except.ok.inj hp)
      rw [e] at o2
      rename_i rest
      refine .inr ⟨_, rest, by rw [e], fun _ h => (by cases h), ⟨o1, hq.len, hq.tag⟩, fun h => (by cases h),
        fun _ => ⟨o2, fun h => (by cases h)⟩, fun _ => ?_⟩
      exact byte0_of_field (by have := hq.queue.long; omega) hq.queueTag
    · cases hp
  | @cancel a id sm _ f hp hx =>
    obtain ⟨rest, hs⟩ := hsplit hp
    obtain ⟨ha, b, b', hb, he, rfl⟩ := processCancel_ok hx
    rw [ha.keyQ, ha.keyB, ha.keyA] at hs
    refine .inr ⟨a.market, _, hs, fun _ h => (by cases h), ⟨ha.market, hb.len, hb.tag⟩,
      fun _ => ⟨rest, rfl, hb.bidsTag, hb.asksTag⟩,
      fun _ => ⟨ha.keyQ ▸ ha.eventQueue, fun _ => ⟨ha.keyB ▸ ha.bids, ha.keyA ▸ ha.asks⟩⟩, ?_⟩
    rintro (h | ⟨_, h⟩ | ⟨_, h⟩) <;> cases h
  | @close a t _ hp hx =>
    obtain ⟨⟨m, hc⟩, rfl⟩ := closeMarket_ok_iff.1 hx
    obtain ⟨_, b2, b3, b4⟩ := hc.loaded.bytes
    unfold parseClose at hp
    split at hp
    · obtain ⟨rfl, rfl⟩ := Prod.mk.inj (Except.ok.inj hp)
      rename_i m0 q0 b0 a0 t rest _
      have e1 : q0 = (stateAt w m0).eventQueue := hc.keyQ
      have e2 : b0 = (stateAt w m0).bids := hc.keyB
      have e3 : a0 = (stateAt w m0).asks := hc.keyA
      exact .inr ⟨m0, _, by rw [← e1], fun _ h => (by cases h), ⟨hc.owner, hc.loaded.len, hc.loaded.tag⟩,
        fun _ => ⟨_, by rw [← e2, ← e3], b3, b4⟩, fun h => absurd rfl h, fun _ => b2⟩
    · cases hp
  | @massCancel a ids sm _ f1 f2 hp hx =>
    obtain ⟨rest, hs⟩ := hsplit hp
    obtain ⟨ha, b, b', _, _, hb, he, _, rfl⟩ := processMassCancel_ok hx
    rw [ha.keyQ, ha.keyB, ha.keyA] at hs
    refine .inr ⟨a.market, _, hs, fun _ h => (by cases h), ⟨ha.market, hb.len, hb.tag⟩,
      fun _ => ⟨rest, rfl, hb.bidsTag, hb.asksTag⟩,
      fun _ => ⟨ha.keyQ ▸ ha.eventQueue, fun _ => ⟨ha.keyB ▸ ha.bids, ha.keyA ▸ ha.asks⟩⟩, ?_⟩
    rintro (h | ⟨_, h⟩ | ⟨_, h⟩) <;> cases h

omit [CallbackInfo C] in
theorem LoadedBook.store_byte0 {w : World} {k : Pubkey} {b : OrderBook C} (h : LoadedBook w k b) (b' : OrderBook C)
    (j : Pubkey) : (storeBook w k b' j).data[0]? = (w j).data[0]? := by
  have hb := h.bids.long
  have ha := h.asks.long
  rw [storeBook_data]
  split
  · rename_i e; subst e; exact Slab.writeBack_tag _ (by omega)
  split
  · rename_i e; subst e; exact Slab.writeBack_tag _ (by omega)
  · rfl

omit [CallbackInfo C] in
theorem LoadedQueue.store_byte0 {w : World} {k : Pubkey} {q : EventQueue C} (h : LoadedQueue w k q) (q' : EventQueue C)
    (j : Pubkey) : (storeQueue w k q' j).data[0]? = (w j).data[0]? := by
  have hq := h.queue.long
  rw [storeQueue_data]
  split
  · rename_i e; subst e
    unfold EventQueue.writeBack
    rw [List.getElem?_append_left (by simp; omega), List.getElem?_take_of_lt (by omega)]
  · rfl

/-- What becomes of the first byte of an account. -/
theorem Ran.byte0 {env : Env} {w w' : World} {accounts : List Pubkey} {ix : Ix C} {r : Option OrderSummary}
    (h : Ran env w accounts ix r w') (x : Pubkey) : (w' x).data[0]? = (w x).data[0]? ∨ (w' x).data[0]? = some 132 ∨
      ((∃ p, ix = .createMarket p) ∧ (w x).data[0]? = some 0) := by
  cases h with
  | @create a p _ f1 f2 hp hx =>
    rcases Ran.touch (.create f1 f2 hp hx) x with e | e | ⟨j, _, hM, _⟩
    · left; rw [e]
    · exact .inr (.inr ⟨⟨_, rfl⟩, e⟩)
    · exfalso
      rename_i hj _
      obtain ⟨hc, _⟩ := createMarket_ok_iff.1 hx
      unfold BookAccounts.parse at hp
      split at hp
      · obtain rfl := Except.ok.inj hp
        obtain rfl := Option.some.inj hj
        have := hc.tagM
        rw [hM.2.2] at this
        cases this
      · cases hp
  | @newOrder a p sm _ f hp hx =>
    obtain ⟨ha, m, m', hm, he, rfl⟩ := processNewOrder_ok hx
    exact .inl (hm.store_byte0 m' x)
  | @consume j0 q0 n _ f hp hx =>
    obtain ⟨o1, _, _, q, q', hq, he, rfl⟩ := processConsume_ok hx
    exact .inl (hq.store_byte0 q' x)
  | @cancel a id sm _ f hp hx =>
    obtain ⟨ha, b, b', hb, he, rfl⟩ := processCancel_ok hx
    exact .inl (hb.store_byte0 b' x)
  | @close a t _ hp hx =>
    obtain ⟨⟨m, hc⟩, rfl⟩ := closeMarket_ok_iff.1 hx
    obtain ⟨d1, d2, d3, d4⟩ := closed_data hc
    by_cases e1 : x = a.market
    · right; left; rw [e1, d1]; rfl
    by_cases e2 : x = a.eventQueue
    · right; left; rw [e2, d2]; rfl
    by_cases e3 : x = a.bids
    · right; left; rw [e3, d3]; rfl
    by_cases e4 : x = a.asks
    · right; left; rw [e4, d4]; rfl
    · left; rw [(closed_other w _ _ e1 e2 e3 e4).2.1]
  | @massCancel a ids sm _ f1 f2 hp hx =>
    obtain ⟨ha, b, b', _, _, hb, he, _, rfl⟩ := processMassCancel_ok hx
    exact .inl (hb.store_byte0 b' x)

/-- Owners and sizes never change, balances only by `close_market`, and only accounts that were passed change. -/
theorem Ran.frame {env : Env} {w w' : World} {accounts : List Pubkey} {ix : Ix C} {r : Option OrderSummary}
    (h : Ran env w accounts ix r w') (x : Pubkey) : (w' x).owner = (w x).owner ∧
      (w' x).data.length = (w x).data.length ∧ (ix ≠ .closeMarket → (w' x).lamports = (w x).lamports) ∧
      (x ∉ accounts → w' x = w x) := by
  have hacc : ∀ {y z : Account}, y.owner = z.owner → y.lamports = z.lamports → y.data = z.data → y = z := by
    intro y z h1 h2 h3; cases y; cases z; simp_all
  cases h with
  | @create a p _ f1 f2 hp hx =>
    obtain ⟨hc, rfl⟩ := createMarket_ok_iff.1 hx
    obtain ⟨d1, d2, d3, d4, d5⟩ := created_data hc
    obtain ⟨o1, o2⟩ := created_owner w a p x
    obtain ⟨m1, m2, m3, m4⟩ := parse_mem hp
    refine ⟨o1, ?_, fun _ => o2, ?_⟩
    · by_cases e1 : x = a.market
      · rw [e1, d1, newMarketData, List.length_append, toLE_length, MarketState.length_toBytes, hc.sizeM]
      by_cases e2 : x = a.eventQueue
      · have := hc.sizeQ
        rw [e2, d2, List.length_append, toLE_length, List.length_drop]; omega
      by_cases e3 : x = a.bids
      · rw [e3, d3, List.length_set]
      by_cases e4 : x = a.asks
      · rw [e4, d4, List.length_set]
      · rw [d5 x e1 e2 e3 e4]
    · intro hn
      exact d5 x (by rintro rfl; exact hn m1) (by rintro rfl; exact hn m2) (by rintro rfl; exact hn m3)
        (by rintro rfl; exact hn m4)
  | @newOrder a p sm _ f hp hx =>
    obtain ⟨ha, m, m', hm, he, rfl⟩ := processNewOrder_ok hx
    obtain ⟨m1, m2, m3, m4⟩ := parse_mem hp
    rw [ha.keyQ] at m2
    rw [ha.keyB] at m3
    rw [ha.keyA] at m4
    exact ⟨store_owner _ _ _ _, hm.store_length (exec_kept hm.fits.1 hm.fits.2 (i := .newOrder p) f (exec_newOrder he)) x,
      fun _ => store_lamports _ _ _ _, fun hn => store_other w _ _ (by rintro rfl; exact hn m2)
        (by rintro rfl; exact hn m3) (by rintro rfl; exact hn m4)⟩
  | @consume j0 q0 n _ f hp hx =>
    obtain ⟨o1, _, ek, q, q', hq, he, rfl⟩ := processConsume_ok hx
    obtain ⟨m1, m2⟩ := parseConsume_mem hp
    rw [ek] at m2
    have hk := EventQueue.popN_kept hq.queue.fits he
    obtain ⟨s1, s2⟩ := storeQueue_meta w j0 q' x
    refine ⟨s1, ?_, fun _ => s2, ?_⟩
    · rw [storeQueue_data]
      split
      · rename_i e; subst e; exact hq.queue.length_writeBack hk.2 hk.1
      · rfl
    · intro hn
      exact hacc s1 s2 (by rw [storeQueue_data, if_neg (by rintro rfl; exact hn m2)])
  | @cancel a id sm _ f hp hx =>
    obtain ⟨ha, b, b', hb, he, rfl⟩ := processCancel_ok hx
    obtain ⟨m1, m2, m3, m4⟩ := parse_mem hp
    rw [ha.keyB] at m3
    rw [ha.keyA] at m4
    obtain ⟨k3, k4⟩ := cancelIn_kept hb.fits he
    obtain ⟨s1, s2⟩ := storeBook_meta w a.market b' x
    refine ⟨s1, ?_, fun _ => s2, ?_⟩
    · rw [storeBook_data]
      split
      · rename_i e; subst e; exact hb.asks.length_writeBack k4.2
      split
      · rename_i e; subst e; exact hb.bids.length_writeBack k3.2
      · rfl
    · intro hn
      exact hacc s1 s2 (by rw [storeBook_data, if_neg (by rintro rfl; exact hn m4), if_neg (by rintro rfl; exact hn m3)])
  | @close a t _ hp hx =>
    obtain ⟨⟨m, hc⟩, rfl⟩ := closeMarket_ok_iff.1 hx
    obtain ⟨d1, d2, d3, d4⟩ := closed_data hc
    obtain ⟨m1, m2, m3, m4, m5⟩ := parseClose_mem hp
    refine ⟨closed_owner w a t x, ?_, fun h => absurd rfl h, ?_⟩
    · by_cases e1 : x = a.market
      · rw [e1, d1]; exact length_disable (by have := hc.loaded.len; omega)
      by_cases e2 : x = a.eventQueue
      · rw [e2, d2]; exact length_disable (by rw [hc.keyQ]; have := hc.loaded.queue.long; omega)
      by_cases e3 : x = a.bids
      · rw [e3, d3]; exact length_disable (by rw [hc.keyB]; have := hc.loaded.bids.long; omega)
      by_cases e4 : x = a.asks
      · rw [e4, d4]; exact length_disable (by rw [hc.keyA]; have := hc.loaded.asks.long; omega)
      · rw [(closed_other w _ _ e1 e2 e3 e4).2.1]
    · intro hn
      have e1 : x ≠ a.market := by rintro rfl; exact hn m1
      have e2 : x ≠ a.eventQueue := by rintro rfl; exact hn m2
      have e3 : x ≠ a.bids := by rintro rfl; exact hn m3
      have e4 : x ≠ a.asks := by rintro rfl; exact hn m4
      have e5 : x ≠ t := by rintro rfl; exact hn m5
      obtain ⟨g1, g2, g3⟩ := closed_other w a t e1 e2 e3 e4
      refine hacc g1 ?_ g2
      simp [closed, World.setLamports_lamports, World.setData_lamports, e1, e2, e3, e4, e5]
  | @massCancel a ids sm _ f1 f2 hp hx =>
    obtain ⟨ha, b, b', _, _, hb, he, _, rfl⟩ := processMassCancel_ok hx
    obtain ⟨m1, m2, m3, m4⟩ := parse_mem hp
    rw [ha.keyB] at m3
    rw [ha.keyA] at m4
    obtain ⟨k3, k4⟩ := massCancelLoop_kept hb.fits he
    obtain ⟨s1, s2⟩ := storeBook_meta w a.market b' x
    refine ⟨s1, ?_, fun _ => s2, ?_⟩
    · rw [storeBook_data]
      split
      · rename_i e; subst e; exact hb.asks.length_writeBack k4.2
      split
      · rename_i e; subst e; exact hb.bids.length_writeBack k3.2
      · rfl
    · intro hn
      exact hacc s1 s2 (by rw [storeBook_data, if_neg (by rintro rfl; exact hn m4), if_neg (by rintro rfl; exact hn m3)])

end
end AOB
