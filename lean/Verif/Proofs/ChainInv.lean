import Verif.Proofs.Dispatch
import Verif.Proofs.Reach
/-
The invariant of the chain: every live market is a reachable one, and no two share an account.
-/
namespace AOB

section
variable {C : Type} [Pod C]

/-! ### Frames -/

theorem stateAt_congr {w w' : World} {k : Pubkey} (h : (w' k).data = (w k).data) : stateAt w' k = stateAt w k := by
  unfold stateAt; rw [h]

theorem Loaded.congr {w w' : World} {k : Pubkey} {m : Market C} (hk : (w' k).data = (w k).data)
    (hq : (w' (stateAt w k).eventQueue).data = (w (stateAt w k).eventQueue).data)
    (hb : (w' (stateAt w k).bids).data = (w (stateAt w k).bids).data)
    (ha : (w' (stateAt w k).asks).data = (w (stateAt w k).asks).data) : Loaded w' k m ↔ Loaded w k m := by
  have hs := stateAt_congr hk
  constructor
  · rintro ⟨h1, h2, h3, h4, h5, h6, h7, h8, h9, h10⟩
    rw [hs] at h3 h4 h5 h6 h7 h8 h9 h10
    rw [hk] at h1 h2
    rw [hb] at h5 h6
    rw [ha] at h7 h8
    rw [hq] at h9 h10
    exact ⟨h1, h2, h3, h4, h5, h6, h7, h8, h9, h10⟩
  · rintro ⟨h1, h2, h3, h4, h5, h6, h7, h8, h9, h10⟩
    refine ⟨?_, ?_, ?_, ?_, ?_, ?_, ?_, ?_, ?_, ?_⟩ <;> simp only [hs, hk, hq, hb, ha] <;> assumption

theorem loadMarket_congr {w w' : World} {k : Pubkey} (hk : (w' k).data = (w k).data)
    (hq : (w' (stateAt w k).eventQueue).data = (w (stateAt w k).eventQueue).data)
    (hb : (w' (stateAt w k).bids).data = (w (stateAt w k).bids).data)
    (ha : (w' (stateAt w k).asks).data = (w (stateAt w k).asks).data) : loadMarket C w' k = loadMarket C w k := by
  have hs := stateAt_congr hk
  unfold loadMarket
  rw [hk]
  cases h : MarketState.fromBuffer (w k).data .market with
  | error e => rfl
  | ok r =>
    obtain ⟨ms, md⟩ := r
    obtain ⟨_, _, rfl, _⟩ := marketRead_ok h
    rw [bind_of_ok rfl, bind_of_ok rfl]
    dsimp only
    rw [hb, ha, hq]

theorem IsMarket.byte0 {env : Env} {w : World} {k : Pubkey} (h : IsMarket env w k) : (w k).data[0]? = some 128 :=
  byte0_of_field (by have := h.2.1; omega) h.2.2

theorem Fresh.byte0 {d : Bytes} (h : Fresh d) {x : UInt8} (hx : d[0]? = some x) : x = 0 := by
  rw [h.1, List.getElem?_replicate] at hx
  split at hx
  · exact (Option.some.inj hx).symm
  · cases hx

/-! ### The invariant -/

/-- The accounts of a live market are where they should be. -/
structure Linked (env : Env) (C : Type) [Pod C] (R : Pubkey → Prop) (w : World) (k : Pubkey) : Prop where
  live : 0 < (w k).lamports
  ownerQ : (w (stateAt w k).eventQueue).owner = env.programId
  ownerB : (w (stateAt w k).bids).owner = env.programId
  ownerA : (w (stateAt w k).asks).owner = env.programId
  liveQ : 0 < (w (stateAt w k).eventQueue).lamports
  liveB : 0 < (w (stateAt w k).bids).lamports
  liveA : 0 < (w (stateAt w k).asks).lamports
  noRegQ : ¬ R (stateAt w k).eventQueue
  noRegB : ¬ R (stateAt w k).bids
  noRegA : ¬ R (stateAt w k).asks
  tagQ : field (w (stateAt w k).eventQueue).data 0 8 = 129
  tagB : (w (stateAt w k).bids).data[0]? = some 130
  tagA : (w (stateAt w k).asks).data[0]? = some 131
  decodes : ∃ q, QueueParts C (w (stateAt w k).eventQueue).data q

theorem Linked.byteQ {env : Env} {R : Pubkey → Prop} {w : World} {k : Pubkey} (h : Linked env C R w k) :
    (w (stateAt w k).eventQueue).data[0]? = some 129 := by
  obtain ⟨q, hq⟩ := h.decodes
  exact byte0_of_field (by have := hq.long; omega) h.tagQ

theorem Linked.congr {env : Env} {R : Pubkey → Prop} {w w' : World} {k : Pubkey} (h : Linked env C R w k)
    (hk : (w' k).data = (w k).data) (hkl : (w k).lamports ≤ (w' k).lamports)
    (hq : (w' (stateAt w k).eventQueue).owner = (w (stateAt w k).eventQueue).owner ∧
      (w' (stateAt w k).eventQueue).data = (w (stateAt w k).eventQueue).data ∧
      (w (stateAt w k).eventQueue).lamports ≤ (w' (stateAt w k).eventQueue).lamports)
    (hb : (w' (stateAt w k).bids).owner = (w (stateAt w k).bids).owner ∧
      (w' (stateAt w k).bids).data = (w (stateAt w k).bids).data ∧
      (w (stateAt w k).bids).lamports ≤ (w' (stateAt w k).bids).lamports)
    (ha : (w' (stateAt w k).asks).owner = (w (stateAt w k).asks).owner ∧
      (w' (stateAt w k).asks).data = (w (stateAt w k).asks).data ∧
      (w (stateAt w k).asks).lamports ≤ (w' (stateAt w k).asks).lamports) : Linked env C R w' k := by
  have hs := stateAt_congr hk
  obtain ⟨q1, q2, q3⟩ := hq
  obtain ⟨b1, b2, b3⟩ := hb
  obtain ⟨a1, a2, a3⟩ := ha
  obtain ⟨h0, h1, h2, h3, h4, h5, h6, h7, h8, h9, h10, h11, h12, h13⟩ := h
  refine ⟨by omega, ?_, ?_, ?_, ?_, ?_, ?_, ?_, ?_, ?_, ?_, ?_, ?_, ?_⟩ <;> rw [hs]
  · rw [q1]; exact h1
  · rw [b1]; exact h2
  · rw [a1]; exact h3
  · omega
  · omega
  · omega
  · exact h7
  · exact h8
  · exact h9
  · rw [q2]; exact h10
  · rw [b2]; exact h11
  · rw [a2]; exact h12
  · rw [q2]; exact h13

variable [CallbackInfo C]

structure ChainInv (env : Env) (C : Type) [Pod C] [CallbackInfo C] (R : Pubkey → Prop) (w : World) : Prop where
  /-- An account that looks uninitialized is all zeros. -/
  fresh : ∀ k, ¬ R k → (w k).owner = env.programId → (w k).data[0]? = some 0 → Fresh (w k).data
  link : ∀ k, ¬ R k → IsMarket env w k → Linked env C R w k
  sep : ∀ j k, ¬ R j → ¬ R k → IsMarket env w j → IsMarket env w k → j ≠ k →
    (stateAt w j).eventQueue ≠ (stateAt w k).eventQueue ∧ (stateAt w j).bids ≠ (stateAt w k).bids ∧
    (stateAt w j).asks ≠ (stateAt w k).asks
  reach : ∀ k, ¬ R k → IsMarket env w k → ∀ m : Market C, Loaded w k m → Reachable m

/-- A world obtained by changing only the accounts of one market, into something reachable. -/
theorem ChainInv.update {env : Env} {R : Pubkey → Prop} {w w' : World} (h : ChainInv env C R w) {k : Pubkey}
    (hR : ¬ R k) (hm : IsMarket env w k)
    (ho : ∀ j, (w' j).owner = (w j).owner) (hl : ∀ j, (w' j).lamports = (w j).lamports)
    (hd : ∀ j, j ≠ (stateAt w k).eventQueue → j ≠ (stateAt w k).bids → j ≠ (stateAt w k).asks →
      (w' j).data = (w j).data)
    (h0 : ∀ j, (w' j).data[0]? = (w j).data[0]?)
    (hq : field (w' (stateAt w k).eventQueue).data 0 8 = 129 ∧
      ∃ q, QueueParts C (w' (stateAt w k).eventQueue).data q)
    (hr : ∀ m : Market C, Loaded w' k m → Reachable m) : ChainInv env C R w' := by
  have hL := h.link k hR hm
  have hsame : ∀ j, (w j).data[0]? ≠ some 129 → (w j).data[0]? ≠ some 130 → (w j).data[0]? ≠ some 131 →
      (w' j).data = (w j).data := by
    intro j j1 j2 j3
    apply hd
    · rintro rfl; exact j1 hL.byteQ
    · rintro rfl; exact j2 hL.tagB
    · rintro rfl; exact j3 hL.tagA
  have hmark : ∀ j, IsMarket env w' j → (w' j).data = (w j).data ∧ IsMarket env w j := by
    intro j hj
    have hb := hj.byte0
    rw [h0] at hb
    have e := hsame j (by rw [hb]; decide) (by rw [hb]; decide) (by rw [hb]; decide)
    obtain ⟨h1, h2, h3⟩ := hj
    rw [e] at h2 h3
    rw [ho] at h1
    exact ⟨e, h1, h2, h3⟩
  have hother : ∀ j, ¬ R j → IsMarket env w j → j ≠ k →
      (w' (stateAt w j).eventQueue).data = (w (stateAt w j).eventQueue).data ∧
      (w' (stateAt w j).bids).data = (w (stateAt w j).bids).data ∧
      (w' (stateAt w j).asks).data = (w (stateAt w j).asks).data := by
    intro j hRj hj hne
    have hLj := h.link j hRj hj
    obtain ⟨s1, s2, s3⟩ := h.sep j k hRj hR hj hm hne
    refine ⟨hd _ s1 (ne_of_byte0 hLj.byteQ hL.tagB (by decide)) (ne_of_byte0 hLj.byteQ hL.tagA (by decide)),
      hd _ (ne_of_byte0 hLj.tagB hL.byteQ (by decide)) s2 (ne_of_byte0 hLj.tagB hL.tagA (by decide)),
      hd _ (ne_of_byte0 hLj.tagA hL.byteQ (by decide)) (ne_of_byte0 hLj.tagA hL.tagB (by decide)) s3⟩
  refine ⟨?_, ?_, ?_, ?_⟩
  · intro j hRj hj hz
    have hb := hz
    rw [h0] at hb
    rw [hsame j (by rw [hb]; decide) (by rw [hb]; decide) (by rw [hb]; decide)]
    rw [ho] at hj
    exact h.fresh j hRj hj hb
  · intro j hRj hj
    obtain ⟨e, hj'⟩ := hmark j hj
    have hLj := h.link j hRj hj'
    by_cases hne : j = k
    · subst hne
      have hs := stateAt_congr e
      refine ⟨by rw [hl]; exact hLj.live, ?_, ?_, ?_, ?_, ?_, ?_, ?_, ?_, ?_, ?_, ?_, ?_, ?_⟩ <;> rw [hs]
      · rw [ho]; exact hLj.ownerQ
      · rw [ho]; exact hLj.ownerB
      · rw [ho]; exact hLj.ownerA
      · rw [hl]; exact hLj.liveQ
      · rw [hl]; exact hLj.liveB
      · rw [hl]; exact hLj.liveA
      · exact hLj.noRegQ
      · exact hLj.noRegB
      · exact hLj.noRegA
      · exact hq.1
      · rw [h0]; exact hLj.tagB
      · rw [h0]; exact hLj.tagA
      · exact hq.2
    · obtain ⟨o1, o2, o3⟩ := hother j hRj hj' hne
      exact hLj.congr e (hl _).ge ⟨ho _, o1, (hl _).ge⟩ ⟨ho _, o2, (hl _).ge⟩ ⟨ho _, o3, (hl _).ge⟩
  · intro i j hRi hRj hi hj hne
    obtain ⟨e1, hi'⟩ := hmark i hi
    obtain ⟨e2, hj'⟩ := hmark j hj
    rw [stateAt_congr e1, stateAt_congr e2]
    exact h.sep i j hRi hRj hi' hj' hne
  · intro j hRj hj m hml
    obtain ⟨e, hj'⟩ := hmark j hj
    by_cases hne : j = k
    · subst hne; exact hr m hml
    · obtain ⟨o1, o2, o3⟩ := hother j hRj hj' hne
      exact h.reach j hRj hj' m ((Loaded.congr e o1 o2 o3).1 hml)

/-- `R` only matters for the register accounts. -/
theorem ChainInv.register {env : Env} {R : Pubkey → Prop} {w : World} (h : ChainInv env C R w) {k : Pubkey}
    (hR : R k) (d : Bytes) : ChainInv env C R (w.setData k d) := by
  have hsame : ∀ j, ¬ R j → w.setData k d j = w j := by
    intro j hj
    unfold World.setData
    rw [if_neg (by rintro rfl; exact hj hR)]
  have hmark : ∀ j, ¬ R j → IsMarket env (w.setData k d) j → IsMarket env w j := by
    intro j hj hm
    unfold IsMarket at *
    rw [hsame j hj] at hm
    exact hm
  refine ⟨?_, ?_, ?_, ?_⟩
  · intro j hj
    rw [hsame j hj]
    exact h.fresh j hj
  · intro j hj hm
    have hL := h.link j hj (hmark j hj hm)
    exact hL.congr (by rw [hsame j hj]) (by rw [hsame j hj]) (by rw [hsame _ hL.noRegQ]; exact ⟨rfl, rfl, Nat.le_refl _⟩)
      (by rw [hsame _ hL.noRegB]; exact ⟨rfl, rfl, Nat.le_refl _⟩)
      (by rw [hsame _ hL.noRegA]; exact ⟨rfl, rfl, Nat.le_refl _⟩)
  · intro i j hi hj hmi hmj hne
    rw [stateAt_congr (by rw [hsame i hi]), stateAt_congr (w := w) (k := j) (by rw [hsame j hj])]
    exact h.sep i j hi hj (hmark i hi hmi) (hmark j hj hmj) hne
  · intro j hj hm m hml
    have hL := h.link j hj (hmark j hj hm)
    exact h.reach j hj (hmark j hj hm) m ((Loaded.congr (by rw [hsame j hj]) (by rw [hsame _ hL.noRegQ])
      (by rw [hsame _ hL.noRegB]) (by rw [hsame _ hL.noRegA])).1 hml)

theorem Fresh.field {d : Bytes} (h : Fresh d) : field d 0 8 = 0 := by
  rw [h.1]; exact field_zeros _ _ _

theorem ChainInv.elsewhere {env : Env} {R : Pubkey → Prop} {w w' : World} (h : ChainInv env C R w)
    (he : Elsewhere env w w') : ChainInv env C R w' := by
  have hkept : ∀ j, (w j).owner = env.programId → 0 < (w j).lamports →
      (w' j).owner = (w j).owner ∧ (w' j).data = (w j).data ∧ (w j).lamports ≤ (w' j).lamports := by
    intro j h1 h2
    rcases he j with g | ⟨g | g, _⟩
    · exact g
    · exact absurd h1 g
    · omega
  have hmark : ∀ j, IsMarket env w' j → (w' j).data = (w j).data ∧ IsMarket env w j := by
    rintro j ⟨h1, h2, h3⟩
    rcases he j with ⟨g1, g2, _⟩ | ⟨_, g⟩
    · rw [g1] at h1
      rw [g2] at h2 h3
      exact ⟨g2, h1, h2, h3⟩
    · rw [(g h1).field] at h3
      cases h3
  refine ⟨?_, ?_, ?_, ?_⟩
  · intro j hj ho hz
    rcases he j with ⟨g1, g2, _⟩ | ⟨_, g⟩
    · rw [g1] at ho
      rw [g2] at hz ⊢
      exact h.fresh j hj ho hz
    · exact g ho
  · intro j hj hm
    obtain ⟨e, hm'⟩ := hmark j hm
    have hL := h.link j hj hm'
    exact hL.congr e (hkept _ hm'.1 hL.live).2.2 (hkept _ hL.ownerQ hL.liveQ) (hkept _ hL.ownerB hL.liveB) (hkept _ hL.ownerA hL.liveA)
  · intro i j hi hj hmi hmj hne
    obtain ⟨e1, hi'⟩ := hmark i hmi
    obtain ⟨e2, hj'⟩ := hmark j hmj
    rw [stateAt_congr e1, stateAt_congr e2]
    exact h.sep i j hi hj hi' hj' hne
  · intro j hj hm m hml
    obtain ⟨e, hm'⟩ := hmark j hm
    have hL := h.link j hj hm'
    exact h.reach j hj hm' m ((Loaded.congr e (hkept _ hL.ownerQ hL.liveQ).2.1 (hkept _ hL.ownerB hL.liveB).2.1
      (hkept _ hL.ownerA hL.liveA).2.1).1 hml)

theorem ChainInv.genesis {env : Env} {R : Pubkey → Prop} {w : World} (h : Genesis env w) : ChainInv env C R w := by
  have hno : ∀ j, ¬ IsMarket env w j := by
    rintro j ⟨h1, h2, h3⟩
    rw [(h j h1).field] at h3
    cases h3
  exact ⟨fun j _ ho _ => h j ho, fun j _ hm => absurd hm (hno j), fun j _ _ _ hm => absurd hm (hno j),
    fun j _ hm => absurd hm (hno j)⟩

/-! ### Instructions on the book -/

omit [Pod C] in
theorem Reachable.exec {m m' : Market C} {i : Instr C} {r : Option OrderSummary} (h : Reachable m) (hi : i.Ok)
    (he : m.exec i = .ok (r, m')) : Reachable m' := by
  have := h.step hi
  unfold Market.step at this
  rw [he] at this
  exact this

omit [Pod C] in
theorem exec_newOrder {m m' : Market C} {p : NewOrderParams C} {s : OrderSummary} (h : m.newOrder p = .ok (s, m')) :
    m.exec (.newOrder p) = .ok (some s, m') := by
  simp only [Market.exec]
  rw [bind_of_ok h]

omit [Pod C] in
theorem exec_cancel {m : Market C} {b : OrderBook C} {id : Nat} {s : OrderSummary}
    (h : Market.cancelIn m.book id = .ok (s, b)) :
    m.exec (.cancelOrder id) = .ok (some s, { m with book := b }) := by
  simp only [Market.exec, Market.cancelOrder]
  rw [bind_of_ok h]
  rfl

omit [Pod C] in
theorem exec_massCancel {m : Market C} {b : OrderBook C} {ids : List Nat} {x y : Nat}
    (h : Market.massCancelLoop ids 0 0 m.book = .ok (x, y, b)) :
    m.exec (.massCancelOrders ids) = .ok (some ⟨none, x, y, 0⟩, { m with book := b }) := by
  simp only [Market.exec, Market.massCancelOrders]
  rw [bind_of_ok h]
  rfl

omit [Pod C] in
theorem exec_consume {m : Market C} {q : EventQueue C} {n : Nat} (h : m.queue.popN n = .ok q) :
    m.exec (.consumeEvents n) = .ok (none, { m with queue := q }) := by
  simp only [Market.exec, Market.consumeEvents]
  rw [bind_of_ok h]
  rfl

theorem ChainInv.stored {env : Env} {R : Pubkey → Prop} {w : World} (h : ChainInv env C R w) {k : Pubkey}
    (hR : ¬ R k) (ho : (w k).owner = env.programId) {m m' : Market C} (hm : Loaded w k m) {i : Instr C} (hi : i.Fits)
    {r : Option OrderSummary} (he : m.exec i = .ok (r, m')) : ChainInv env C R (store w k m') := by
  have hmk : IsMarket env w k := ⟨ho, hm.len, hm.tag⟩
  have hk := exec_kept hm.fits.1 hm.fits.2 hi he
  have hs := hm.stored hk
  have hst := stateAt_store hm m'
  refine h.update hR hmk (store_owner w k m') (store_lamports w k m') ?_ (hm.store_byte0 m') ?_ ?_
  · intro j j1 j2 j3; rw [store_other w k m' j1 j2 j3]
  · have h1 := hs.queueTag
    have h2 := hs.queue
    rw [hst] at h1 h2
    exact ⟨h1, _, h2⟩
  · intro m2 h2
    rw [h2.inj hs]
    exact (h.reach k hR hmk m hm).exec hi.ok he

theorem ChainInv.storedQueue {env : Env} {R : Pubkey → Prop} {w : World} (h : ChainInv env C R w) {k : Pubkey}
    (hR : ¬ R k) (ho : (w k).owner = env.programId) {q q' : EventQueue C} (hq : LoadedQueue w k q) {n : Nat}
    (hn : n < 256 ^ 8) (he : q.popN n = .ok q') : ChainInv env C R (storeQueue w k q') := by
  have hmk : IsMarket env w k := ⟨ho, hq.len, hq.tag⟩
  have hL := h.link k hR hmk
  by_cases hex : ∃ b : OrderBook C, LoadedBook w k b
  · obtain ⟨b, hb⟩ := hex
    have hm := Loaded.mk' hb hq
    rw [← hm.storeQueue_eq]
    exact h.stored hR ho hm (i := .consumeEvents n) hn (exec_consume he)
  · have hk := EventQueue.popN_kept hq.queue.fits he
    have hlong := hq.queue.long
    have hdata : ∀ j, (storeQueue w k q' j).data = if j = (stateAt w k).eventQueue then
        q'.writeBack (w (stateAt w k).eventQueue).data else (w j).data := fun j => World.setData_data _ _ _ _
    refine h.update hR hmk (fun j => World.setData_owner _ _ _ _) (fun j => World.setData_lamports _ _ _ _) ?_ ?_ ?_ ?_
    · intro j j1 j2 j3; rw [hdata, if_neg j1]
    · intro j
      rw [hdata]
      split
      · rename_i e; subst e
        unfold EventQueue.writeBack
        rw [List.getElem?_append_left (by simp; omega), List.getElem?_take_of_lt (by omega)]
      · rfl
    · rw [hdata, if_pos rfl]
      exact ⟨(EventQueue.writeBack_tag _ (by omega)).trans hq.queueTag, _, hq.queue.read_write hk.2 hk.1⟩
    · intro m2 h2
      exfalso
      apply hex
      have e1 : (storeQueue w k q' k).data = (w k).data := by rw [hdata, if_neg hq.distinct]
      have hb := h2.book
      refine ⟨m2.book, hq.len, hq.tag, ?_, hL.tagB, ?_, hL.tagA⟩
      · have := hb.bids
        rw [stateAt_congr e1, hdata, if_neg (ne_of_byte0 hL.tagB hL.byteQ (by decide))] at this
        exact this
      · have := hb.asks
        rw [stateAt_congr e1, hdata, if_neg (ne_of_byte0 hL.tagA hL.byteQ (by decide))] at this
        exact this

theorem ChainInv.storedBook {env : Env} {R : Pubkey → Prop} {w : World} (h : ChainInv env C R w) {k : Pubkey}
    (hR : ¬ R k) (ho : (w k).owner = env.programId) {b b' : OrderBook C} (hb : LoadedBook w k b) :
    ∃ m : Market C, Loaded w k m ∧ m.book = b ∧ storeBook w k b' = store w k { m with book := b' } := by
  obtain ⟨q, hq⟩ := (h.link k hR ⟨ho, hb.len, hb.tag⟩).decodes
  have hm := Loaded.mk' hb ⟨hb.len, hb.tag, hq, (h.link k hR ⟨ho, hb.len, hb.tag⟩).tagQ⟩
  exact ⟨_, hm, rfl, (hm.storeBook_eq b').symm⟩

/-! ### `create_market` -/

omit [CallbackInfo C] in
theorem created_data {env : Env} {w : World} {a : BookAccounts} {p : CreateParams} (hc : CanCreate env C w a p) :
    (created w a p a.market).data = newMarketData a p ∧
    (created w a p a.eventQueue).data = toLE 8 AccountTag.eventQueue.toNat ++ (w a.eventQueue).data.drop 8 ∧
    (created w a p a.bids).data = (w a.bids).data.set 0 130 ∧
    (created w a p a.asks).data = (w a.asks).data.set 0 131 ∧
    ∀ j, j ≠ a.market → j ≠ a.eventQueue → j ≠ a.bids → j ≠ a.asks → created w a p j = w j := by
  have h1 := hc.neMQ
  have h2 := hc.neMA
  have h3 := hc.neMB
  have h4 := hc.neQA
  have h5 := hc.neQB
  have h6 := hc.neAB
  refine ⟨?_, ?_, ?_, ?_, ?_⟩
  · simp [created, World.setData_data, h1, h2, h3]
  · simp [created, World.setData_data, h4, h5]
  · simp [created, World.setData_data]
  · simp [created, World.setData_data, h6]
  · intro j j1 j2 j3 j4
    simp [created, World.setData, j1, j2, j3, j4]

omit [Pod C] [CallbackInfo C] in
theorem created_owner (w : World) (a : BookAccounts) (p : CreateParams) (j : Pubkey) :
    (created w a p j).owner = (w j).owner ∧ (created w a p j).lamports = (w j).lamports := by
  simp only [created, World.setData_owner, World.setData_lamports, and_self]

omit [CallbackInfo C] in
theorem stateAt_created {env : Env} {w : World} {a : BookAccounts} {p : CreateParams} (hc : CanCreate env C w a p)
    (h1 : p.minBaseOrderSize < 256 ^ 8) (h2 : p.tickSize < 256 ^ 8) :
    stateAt (created w a p) a.market = ⟨a.eventQueue, a.bids, a.asks, p.minBaseOrderSize, p.tickSize⟩ := by
  unfold stateAt
  rw [(created_data hc).1, newMarketData, slice_skip _ _ _ (by rw [toLE_length]), toLE_length, Nat.sub_self,
    List.drop_zero]
  exact MarketState.ofBytes_toBytes _ ⟨h1, h2⟩

/-- The configuration a new market gets from the sizes of its accounts. -/
def newConfig (C : Type) [Pod C] (w : World) (a : BookAccounts) (p : CreateParams) : Config where
  minBase := p.minBaseOrderSize
  tick := p.tickSize
  capBids := slabCap C (w a.bids).data.length + 1
  capAsks := slabCap C (w a.asks).data.length + 1
  capEvents := queueCap C (w a.eventQueue).data.length
  slackBids := slabSlack C (w a.bids).data.length / Pod.size C
  slackAsks := slabSlack C (w a.asks).data.length / Pod.size C

omit [CallbackInfo C] in
theorem SlabParts.inj {d : Bytes} {s s' : Slab C} (h : SlabParts C d s) (h' : SlabParts C d s') : s = s' := by
  have hz : ∃ x, d[0]? = some x := by
    have := h.long
    exact ⟨d[0]'(by omega), List.getElem?_eq_getElem _⟩
  obtain ⟨e1, e2, e3, e4, e5⟩ := h
  obtain ⟨g1, g2, g3, g4, g5⟩ := h'
  cases s; cases s'
  simp only at e2 g2 e3 g3 e4 g4 e5 g5
  rw [e2, g2, Except.ok.inj (e3.symm.trans g3), Except.ok.inj (e4.symm.trans g4), Except.ok.inj (e5.symm.trans g5)]

omit [CallbackInfo C] in
theorem QueueParts.inj {d : Bytes} {s s' : EventQueue C} (h : QueueParts C d s) (h' : QueueParts C d s') : s = s' := by
  obtain ⟨e1, e2, e3, e4⟩ := h
  obtain ⟨g1, g2, g3, g4⟩ := h'
  cases s; cases s'
  simp only at e2 g2 e3 g3 e4 g4
  rw [e2, g2, Except.ok.inj (e3.symm.trans g3), Except.ok.inj (e4.symm.trans g4)]

theorem Fresh.drop {d : Bytes} (h : Fresh d) (n : Nat) : d.drop n = List.replicate (d.length - n) 0 := by
  conv_lhs => rw [h.1]
  rw [List.drop_replicate]

theorem drop_set_zero (d : Bytes) (x : UInt8) : (d.set 0 x).drop 8 = d.drop 8 := by
  cases d <;> rfl

omit [CallbackInfo C] in
theorem queueParts_fresh {d : Bytes} (h : Fresh d) (h1 : 32 + 5 * (40 + 2 * Pod.size C) ≤ d.length)
    (h2 : (d.length - 32) % (40 + 2 * Pod.size C) = 0) (t : Nat) : QueueParts C (toLE 8 t ++ d.drop 8)
      (EventQueue.zeroed (queueCap C d.length) (Pod.ofBytes (List.replicate (Pod.size C) 0))) := by
  have hl : (toLE 8 t ++ d.drop 8).length = d.length := by
    rw [List.length_append, toLE_length, List.length_drop]; omega
  rw [← hl] at h1 h2 ⊢
  refine queueParts_zeros (by omega) ?_ h2
  rw [hl, slice_skip _ _ _ (by rw [toLE_length]), toLE_length, Nat.sub_self, List.drop_zero, h.drop]

omit [CallbackInfo C] in
theorem slabParts_fresh {d : Bytes} (h : Fresh d) {x : UInt8} {s : Slab C} (hs : SlabParts C (d.set 0 x) s) :
    s = Slab.zeroed (slabCap C d.length) (Pod.ofBytes (List.replicate (Pod.size C) 0))
      (slabSlack C d.length / Pod.size C) := by
  have hl : (d.set 0 x).length = d.length := List.length_set
  rw [← hl]
  refine hs.inj (slabParts_zeros hs.long ?_ hs.lengths.2.2.1)
  rw [drop_set_zero, h.drop, hl]

omit [CallbackInfo C] in
theorem slabCap_le {n : Nat} (h : n ≤ MAX_ACCOUNT_LEN) : slabCap C n + 1 ≤ 2 ^ 31 := by
  unfold slabCap
  have h1 : (n - 64 - Pod.size C) / (56 + Pod.size C) ≤ n - 64 - Pod.size C := Nat.div_le_self _ _
  have h2 : MAX_ACCOUNT_LEN = 10485760 := rfl
  have h3 : (2 : Nat) ^ 31 = 2147483648 := rfl
  omega

omit [CallbackInfo C] in
theorem newConfig_valid {env : Env} {w : World} {a : BookAccounts} {p : CreateParams} (hc : CanCreate env C w a p)
    (hb : Fresh (w a.bids).data) (ha : Fresh (w a.asks).data) (hq : Fresh (w a.eventQueue).data) :
    (newConfig C w a p).Valid := by
  refine ⟨Nat.pos_of_ne_zero hc.minBase, Nat.pos_of_ne_zero hc.tick, ⟨Nat.succ_pos _, slabCap_le hb.2⟩,
    ⟨Nat.succ_pos _, slabCap_le ha.2⟩, ?_, ?_⟩
  · show 0 < queueCap C _
    unfold queueCap
    have h1 := hc.sizeQ
    exact Nat.div_pos (by omega) (by omega)
  · show queueCap C _ ≤ _
    unfold queueCap
    have h1 : ((w a.eventQueue).data.length - 32) / (40 + 2 * Pod.size C) ≤ (w a.eventQueue).data.length - 32 :=
      Nat.div_le_self _ _
    have h2 := hq.2
    have h3 : MAX_ACCOUNT_LEN = 10485760 := rfl
    have h4 : (2 : Nat) ^ 62 = 4611686018427387904 := rfl
    omega

omit [CallbackInfo C] in
/-- A market created on zeroed accounts is the empty market, if it can be read at all. -/
theorem loaded_created {env : Env} {w : World} {a : BookAccounts} {p : CreateParams} (hc : CanCreate env C w a p)
    (h1 : p.minBaseOrderSize < 256 ^ 8) (h2 : p.tickSize < 256 ^ 8)
    (hb : Fresh (w a.bids).data) (ha : Fresh (w a.asks).data) (hq : Fresh (w a.eventQueue).data) {m : Market C}
    (hm : Loaded (created w a p) a.market m) :
    m = (newConfig C w a p).market (Pod.ofBytes (List.replicate (Pod.size C) 0)) := by
  have hs := stateAt_created hc h1 h2
  obtain ⟨d1, d2, d3, d4, d5⟩ := created_data hc
  have e1 := hm.minBase
  have e2 := hm.tick
  have e3 := hm.bids
  have e4 := hm.asks
  have e5 := hm.queue
  rw [hs] at e1 e2 e3 e4 e5
  simp only at e1 e2 e3 e4 e5
  rw [d3] at e3
  rw [d4] at e4
  rw [d2] at e5
  have g3 := slabParts_fresh hb e3
  have g4 := slabParts_fresh ha e4
  have g5 := e5.inj (queueParts_fresh hq hc.sizeQ hc.modQ _)
  obtain ⟨x1, x2, ⟨x3, x4⟩, x5⟩ := m
  simp only at e1 e2 g3 g4 g5
  subst e1 e2 g3 g4 g5
  simp [Config.market, Market.create, newConfig]

theorem ChainInv.opened {env : Env} {R : Pubkey → Prop} {w : World} (h : ChainInv env C R w) {a : BookAccounts}
    {p : CreateParams} (hc : CanCreate env C w a p) (h1 : p.minBaseOrderSize < 256 ^ 8) (h2 : p.tickSize < 256 ^ 8)
    (hQ : ¬ R a.eventQueue) (hB : ¬ R a.bids) (hA : ¬ R a.asks) :
    ChainInv env C R (created w a p) := by
  obtain ⟨d1, d2, d3, d4, d5⟩ := created_data hc
  have hs := stateAt_created hc h1 h2
  have z0 : (w a.market).data[0]? = some 0 := byte0_of_field (by have := hc.sizeM; omega) hc.tagM
  have zQ : (w a.eventQueue).data[0]? = some 0 := byte0_of_field (by have := hc.sizeQ; omega) hc.tagQ
  have fQ := h.fresh _ hQ hc.ownerQ zQ
  have fB := h.fresh _ hB hc.ownerB hc.tagB
  have fA := h.fresh _ hA hc.ownerA hc.tagA
  have b0 : (created w a p a.market).data[0]? = some 128 := by rw [d1]; rfl
  have bQ : (created w a p a.eventQueue).data[0]? = some 129 := by rw [d2]; rfl
  have bB : (created w a p a.bids).data[0]? = some 130 := by
    rw [d3]; have := byte0_length hc.tagB
    rw [List.getElem?_set_self this]
  have bA : (created w a p a.asks).data[0]? = some 131 := by
    rw [d4]; have := byte0_length hc.tagA
    rw [List.getElem?_set_self this]
  have hnz : ∀ j, (w j).data[0]? ≠ some 0 → created w a p j = w j := by
    intro j hj
    exact d5 j (by rintro rfl; exact hj z0) (by rintro rfl; exact hj zQ) (by rintro rfl; exact hj hc.tagB)
      (by rintro rfl; exact hj hc.tagA)
  have hmark : ∀ j, IsMarket env (created w a p) j → j = a.market ∨ (created w a p j = w j ∧ IsMarket env w j) := by
    intro j hj
    by_cases e : j = a.market
    · exact .inl e
    have hb := hj.byte0
    have : created w a p j = w j := d5 j e (by rintro rfl; rw [bQ] at hb; cases hb) (by rintro rfl; rw [bB] at hb; cases hb)
      (by rintro rfl; rw [bA] at hb; cases hb)
    refine .inr ⟨this, ?_⟩
    unfold IsMarket at *
    rw [this] at hj
    exact hj
  have hold : ∀ j, ¬ R j → IsMarket env w j →
      created w a p (stateAt w j).eventQueue = w (stateAt w j).eventQueue ∧
      created w a p (stateAt w j).bids = w (stateAt w j).bids ∧
      created w a p (stateAt w j).asks = w (stateAt w j).asks := by
    intro j hj hm
    have hL := h.link j hj hm
    exact ⟨hnz _ (by rw [hL.byteQ]; decide), hnz _ (by rw [hL.tagB]; decide), hnz _ (by rw [hL.tagA]; decide)⟩
  refine ⟨?_, ?_, ?_, ?_⟩
  · intro j hj ho hz
    have e : created w a p j = w j := d5 j (by rintro rfl; rw [b0] at hz; cases hz) (by rintro rfl; rw [bQ] at hz; cases hz)
      (by rintro rfl; rw [bB] at hz; cases hz) (by rintro rfl; rw [bA] at hz; cases hz)
    rw [e] at ho hz ⊢
    exact h.fresh j hj ho hz
  · intro j hj hm
    rcases hmark j hm with rfl | ⟨e, hm'⟩
    · refine ⟨by rw [(created_owner w a p _).2]; exact env.rentExempt_pos hc.rentM, ?_, ?_, ?_, ?_, ?_, ?_, ?_, ?_, ?_,
        ?_, ?_, ?_, ?_⟩ <;> rw [hs] <;> dsimp only
      · rw [(created_owner w a p _).1]; exact hc.ownerQ
      · rw [(created_owner w a p _).1]; exact hc.ownerB
      · rw [(created_owner w a p _).1]; exact hc.ownerA
      · rw [(created_owner w a p _).2]; exact env.rentExempt_pos hc.rentQ
      · rw [(created_owner w a p _).2]; exact env.rentExempt_pos hc.rentB
      · rw [(created_owner w a p _).2]; exact env.rentExempt_pos hc.rentA
      · exact hQ
      · exact hB
      · exact hA
      · rw [d2]; exact field_head _ (by decide)
      · exact bB
      · exact bA
      · rw [d2]; exact ⟨_, queueParts_fresh fQ hc.sizeQ hc.modQ _⟩
    · have hL := h.link j hj hm'
      obtain ⟨e1, e2, e3⟩ := hold j hj hm'
      exact hL.congr (by rw [e]) (by rw [e]) (by rw [e1]; exact ⟨rfl, rfl, Nat.le_refl _⟩) (by rw [e2]; exact ⟨rfl, rfl, Nat.le_refl _⟩)
        (by rw [e3]; exact ⟨rfl, rfl, Nat.le_refl _⟩)
  · have hnew : ∀ j, ¬ R j → IsMarket env w j → (stateAt w j).eventQueue ≠ a.eventQueue ∧ (stateAt w j).bids ≠ a.bids ∧
        (stateAt w j).asks ≠ a.asks := by
      intro j hj hm
      have hL := h.link j hj hm
      exact ⟨ne_of_byte0 hL.byteQ zQ (by decide), ne_of_byte0 hL.tagB hc.tagB (by decide),
        ne_of_byte0 hL.tagA hc.tagA (by decide)⟩
    intro i j hi hj hmi hmj hne
    rcases hmark i hmi with rfl | ⟨e1, hi'⟩ <;> rcases hmark j hmj with rfl | ⟨e2, hj'⟩
    · exact absurd rfl hne
    · rw [hs, stateAt_congr (w := w) (k := j) (by rw [e2])]
      obtain ⟨g1, g2, g3⟩ := hnew j hj hj'
      exact ⟨g1.symm, g2.symm, g3.symm⟩
    · rw [hs, stateAt_congr (w := w) (k := i) (by rw [e1])]
      exact hnew i hi hi'
    · rw [stateAt_congr (w := w) (k := i) (by rw [e1]), stateAt_congr (w := w) (k := j) (by rw [e2])]
      exact h.sep i j hi hj hi' hj' hne
  · intro j hj hm m hml
    rcases hmark j hm with rfl | ⟨e, hm'⟩
    · rw [loaded_created hc h1 h2 fB fA fQ hml]
      exact ⟨newConfig C w a p, [], newConfig_valid hc fB fA fQ, fun _ h => absurd h List.not_mem_nil, _, rfl⟩
    · obtain ⟨e1, e2, e3⟩ := hold j hj hm'
      exact h.reach j hj hm' m ((Loaded.congr (by rw [e]) (by rw [e1]) (by rw [e2]) (by rw [e3])).1 hml)

/-! ### `close_market` -/

omit [CallbackInfo C] in
theorem closed_other (w : World) (a : BookAccounts) (t : Pubkey) {j : Pubkey} (h1 : j ≠ a.market)
    (h2 : j ≠ a.eventQueue) (h3 : j ≠ a.bids) (h4 : j ≠ a.asks) :
    (closed w a t j).owner = (w j).owner ∧ (closed w a t j).data = (w j).data ∧
    (w j).lamports ≤ (closed w a t j).lamports := by
  refine ⟨?_, ?_, ?_⟩
  · simp only [closed, World.setLamports_owner, World.setData_owner]
  · simp only [closed, World.setLamports_data, World.setData_data, h1, h2, h3, h4, if_false]
  · simp only [closed, World.setLamports_lamports, World.setData_lamports, h1, h2, h3, h4, if_false]
    split
    · rename_i e; subst e; omega
    · exact Nat.le_refl _

omit [CallbackInfo C] in
theorem closed_owner (w : World) (a : BookAccounts) (t : Pubkey) (j : Pubkey) :
    (closed w a t j).owner = (w j).owner := by
  simp only [closed, World.setLamports_owner, World.setData_owner]

omit [CallbackInfo C] in
theorem closed_data {env : Env} {w : World} {a : BookAccounts} {t : Pubkey} {m : Market C} (h : CanClose env w a t m) :
    (closed w a t a.market).data = disable (w a.market).data ∧
    (closed w a t a.eventQueue).data = disable (w a.eventQueue).data ∧
    (closed w a t a.bids).data = disable (w a.bids).data ∧
    (closed w a t a.asks).data = disable (w a.asks).data := by
  obtain ⟨d1, d2, d3, d4, d5, d6⟩ := h.loaded.distinct
  rw [← h.keyQ, ← h.keyB] at d4
  rw [← h.keyQ] at d1 d5
  rw [← h.keyB] at d2 d6
  rw [← h.keyA] at d3 d5 d6
  simp [closed, World.setLamports_data, World.setData_data, d1, d2, d3, d4.symm, d5.symm, d6.symm]

theorem disable_byte0 (d : Bytes) : (disable d)[0]? = some 132 := rfl

theorem ChainInv.shut {env : Env} {R : Pubkey → Prop} {w : World} (h : ChainInv env C R w) {a : BookAccounts}
    {t : Pubkey} {m : Market C} (hc : CanClose env w a t m) (hM : ¬ R a.market) : ChainInv env C R (closed w a t) := by
  have hmk : IsMarket env w a.market := ⟨hc.owner, hc.loaded.len, hc.loaded.tag⟩
  have hL := h.link _ hM hmk
  obtain ⟨d1, d2, d3, d4⟩ := closed_data hc
  obtain ⟨b1, b2, b3, b4⟩ := hc.loaded.bytes
  rw [← hc.keyQ] at b2
  rw [← hc.keyB] at b3
  rw [← hc.keyA] at b4
  have hne : ∀ j, (closed w a t j).data[0]? ≠ some 132 → j ≠ a.market ∧ j ≠ a.eventQueue ∧ j ≠ a.bids ∧ j ≠ a.asks := by
    intro j hj
    refine ⟨?_, ?_, ?_, ?_⟩ <;> rintro rfl <;> apply hj
    · rw [d1]; rfl
    · rw [d2]; rfl
    · rw [d3]; rfl
    · rw [d4]; rfl
  have hmark : ∀ j, IsMarket env (closed w a t) j → j ≠ a.market ∧ (closed w a t j).data = (w j).data ∧
      (w j).lamports ≤ (closed w a t j).lamports ∧ IsMarket env w j := by
    intro j hj
    obtain ⟨n1, n2, n3, n4⟩ := hne j (by rw [hj.byte0]; decide)
    obtain ⟨o1, o2, o3⟩ := closed_other w a t n1 n2 n3 n4
    obtain ⟨g1, g2, g3⟩ := hj
    rw [o1] at g1
    rw [o2] at g2 g3
    exact ⟨n1, o2, o3, g1, g2, g3⟩
  have hold : ∀ j, ¬ R j → IsMarket env w j → j ≠ a.market →
      ∀ x, x = (stateAt w j).eventQueue ∨ x = (stateAt w j).bids ∨ x = (stateAt w j).asks →
      (closed w a t x).owner = (w x).owner ∧ (closed w a t x).data = (w x).data ∧
      (w x).lamports ≤ (closed w a t x).lamports := by
    intro j hj hm hn x hx
    have hLj := h.link j hj hm
    obtain ⟨s1, s2, s3⟩ := h.sep j a.market hj hM hm hmk hn
    rw [← hc.keyQ] at s1
    rw [← hc.keyB] at s2
    rw [← hc.keyA] at s3
    rcases hx with rfl | rfl | rfl
    · exact closed_other w a t (ne_of_byte0 hLj.byteQ b1 (by decide)) s1 (ne_of_byte0 hLj.byteQ b3 (by decide))
        (ne_of_byte0 hLj.byteQ b4 (by decide))
    · exact closed_other w a t (ne_of_byte0 hLj.tagB b1 (by decide)) (ne_of_byte0 hLj.tagB b2 (by decide)) s2
        (ne_of_byte0 hLj.tagB b4 (by decide))
    · exact closed_other w a t (ne_of_byte0 hLj.tagA b1 (by decide)) (ne_of_byte0 hLj.tagA b2 (by decide))
        (ne_of_byte0 hLj.tagA b3 (by decide)) s3
  refine ⟨?_, ?_, ?_, ?_⟩
  · intro j hj ho hz
    obtain ⟨n1, n2, n3, n4⟩ := hne j (by rw [hz]; decide)
    obtain ⟨o1, o2, o3⟩ := closed_other w a t n1 n2 n3 n4
    rw [o1] at ho
    rw [o2] at hz ⊢
    exact h.fresh j hj ho hz
  · intro j hj hm
    obtain ⟨n, e, el, hm'⟩ := hmark j hm
    have hx := hold j hj hm' n
    exact (h.link j hj hm').congr e el (hx _ (.inl rfl)) (hx _ (.inr (.inl rfl))) (hx _ (.inr (.inr rfl)))
  · intro i j hi hj hmi hmj hn
    obtain ⟨_, e1, _, hi'⟩ := hmark i hmi
    obtain ⟨_, e2, _, hj'⟩ := hmark j hmj
    rw [stateAt_congr e1, stateAt_congr e2]
    exact h.sep i j hi hj hi' hj' hn
  · intro j hj hm m2 hm2
    obtain ⟨n, e, el, hm'⟩ := hmark j hm
    have hx := hold j hj hm' n
    exact h.reach j hj hm' m2 ((Loaded.congr e (hx _ (.inl rfl)).2.1 (hx _ (.inr (.inl rfl))).2.1
      (hx _ (.inr (.inr rfl))).2.1).1 hm2)

/-! ### Steps -/

variable [Borsh C]

omit [Borsh C] in
theorem ChainInv.ran {env : Env} {R : Pubkey → Prop} {w w' : World} (h : ChainInv env C R w) {accounts : List Pubkey}
    (hR : ∀ k ∈ accounts, ¬ R k) {ix : Ix C} {r : Option OrderSummary} (hr : Ran env w accounts ix r w') :
    ChainInv env C R w' := by
  cases hr with
  | create f1 f2 hp hx =>
    obtain ⟨m1, m2, m3, m4⟩ := parse_mem hp
    obtain ⟨hc, rfl⟩ := createMarket_ok_iff.1 hx
    exact h.opened hc f1 f2 (hR _ m2) (hR _ m3) (hR _ m4)
  | newOrder f hp hx =>
    obtain ⟨ha, m, m', hm, he, rfl⟩ := processNewOrder_ok hx
    exact h.stored (hR _ (parse_mem hp).1) ha.market hm (i := .newOrder _) f (exec_newOrder he)
  | consume f hp hx =>
    obtain ⟨o1, _, _, q, q', hq, he, rfl⟩ := processConsume_ok hx
    exact h.storedQueue (hR _ (parseConsume_mem hp).1) o1 hq f he
  | cancel f hp hx =>
    obtain ⟨ha, b, b', hb, he, rfl⟩ := processCancel_ok hx
    obtain ⟨m, hm, rfl, e⟩ := h.storedBook (b' := b') (hR _ (parse_mem hp).1) ha.market hb
    rw [e]
    exact h.stored (hR _ (parse_mem hp).1) ha.market hm (i := .cancelOrder _) f (exec_cancel he)
  | close hp hx =>
    obtain ⟨⟨m, hc⟩, rfl⟩ := closeMarket_ok_iff.1 hx
    exact h.shut hc (hR _ (parseClose_mem hp).1)
  | massCancel f1 f2 hp hx =>
    obtain ⟨ha, b, b', x, y, hb, he, _, rfl⟩ := processMassCancel_ok hx
    obtain ⟨m, hm, rfl, e⟩ := h.storedBook (b' := b') (hR _ (parse_mem hp).1) ha.market hb
    rw [e]
    exact h.stored (hR _ (parse_mem hp).1) ha.market hm (i := .massCancelOrders _) ⟨f1, f2⟩
      (exec_massCancel he)

theorem ChainInv.step {env : Env} {R : Pubkey → Prop} {w w' : World} (h : ChainInv env C R w)
    (hs : ChainStep env C R w w') : ChainInv env C R w' := by
  cases hs with
  | call hR hx =>
    obtain ⟨ix, _, hr⟩ := processInstruction_ok_iff.1 hx
    exact h.ran hR hr
  | entry hR hreg hx =>
    obtain ⟨reg, r, w1, d, h1, h2, h3, rfl⟩ := entrypoint_ok_iff.1 hx
    obtain ⟨ix, _, hr⟩ := processInstruction_ok_iff.1 h2
    exact (h.ran hR hr).register (hreg _ h1) d
  | elsewhere he => exact h.elsewhere he

theorem ChainInv.run {env : Env} {R : Pubkey → Prop} {w w' : World} (h : ChainInv env C R w)
    (hs : ChainRun env C R w w') : ChainInv env C R w' := by
  induction hs with
  | refl => exact h
  | step _ h2 ih => exact ih.step h2

theorem OnChain.inv {env : Env} {R : Pubkey → Prop} {w : World} (h : OnChain env C R w) : ChainInv env C R w := by
  obtain ⟨w0, h0, h1⟩ := h
  exact (ChainInv.genesis h0).run h1

end
end AOB
