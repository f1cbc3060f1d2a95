import Verif.Props.Posting
/-
Properties of the book of every reachable market.
-/
namespace AOB
variable {C : Type} [CallbackInfo C] {m m' : Market C}

/-- Reading a reachable market never fails, so `resting` and `pending` are what is stored. -/
theorem reads_ok (h : Reachable m) :
    (∀ side, ∃ l, m.orders side = .ok l ∧ resting m side = (match side with | .bid => l.reverse | .ask => l)) ∧
    ∃ l, m.events = .ok l ∧ pending m = l := by
  obtain ⟨a, ha⟩ := h.known
  refine ⟨fun side => ⟨_, ha.rep.orders side, ?_⟩, _, ha.rep.queue.contents, ha.rep.pending⟩
  rw [ha.rep.resting]
  cases side <;> simp [prio]

/-- C01: every resting bid is priced strictly below every resting ask. -/
theorem C01_never_crossed (h : Reachable m) :
    ∀ b ∈ resting m .bid, ∀ s ∈ resting m .ask, b.price < s.price := by
  obtain ⟨a, ha⟩ := h.known
  rw [ha.rep.resting, ha.rep.resting]
  exact ha.inv.uncrossed

/-- C12: every resting order is at least of the minimum size, at a positive multiple of the tick size. -/
theorem C12_resting_valid {c is} (h : ReachBy c is m) (side : Side) :
    ∀ o ∈ resting m side, c.minBase ≤ o.qty ∧ c.tick ∣ o.price ∧ 0 < o.price ∧ o.price < 2 ^ 64 ∧ o.qty < 2 ^ 64 := by
  obtain ⟨ha, _, hp⟩ := h.known
  rw [ha.rep.resting]
  intro o ho
  have := ha.inv.ok side o ho
  rw [show c.minBase = _ from hp.minBase.symm, show c.tick = _ from hp.tick.symm]
  exact ⟨this.min, this.tick, this.price_pos, this.price_lt, this.qty⟩

/-- C12: the parameters of a market never change, and no side or queue outgrows its account. -/
theorem C12_parameters {c is} (h : ReachBy c is m) :
    m.minBaseOrderSize = c.minBase ∧ m.tickSize = c.tick ∧
    (∀ side, (resting m side).length ≤ c.cap side) ∧ (pending m).length ≤ c.capEvents := by
  obtain ⟨ha, _, hp⟩ := h.known
  refine ⟨ha.rep.minBase.trans hp.minBase, ha.rep.tick.trans hp.tick, fun side => ?_, ?_⟩
  · rw [ha.rep.resting, ← config_cap (C := C), ← hp.cap]; exact ha.inv.len side
  · rw [ha.rep.pending]
    exact le_of_le_of_eq ha.inv.evs hp.capEvents

/-- C34: `get_spread` reports the price of the first resting order of each side, and nothing for an empty side. -/
theorem C34_spread_heads (h : Reachable m) :
    m.book.getSpread = .ok ((resting m .bid).head?.map Order.price, (resting m .ask).head?.map Order.price) := by
  obtain ⟨a, ha⟩ := h.known
  rw [ha.rep.resting, ha.rep.resting]
  unfold OrderBook.getSpread
  have hb := ha.rep.tree .bid
  have hs := ha.rep.tree .ask
  have lt : ∀ {side : Side} {l : List (Order C)}, PRep side (m.book.getTree side) l → ∀ o ∈ l, o.id < 2 ^ 128 :=
    fun hl o ho => SRep.id_lt hl o (mem_prio.2 ho)
  have hbid : ∃ x, m.book.bids.findMax = .ok x ∧
      OrderBook.priceAt m.book.bids x = .ok ((a.orders .bid).head?.map Order.price) := by
    have hlt := lt hb
    cases hl : a.orders .bid with
    | nil =>
      rw [hl] at hb
      exact ⟨none, SRep.findMax_nil hb, rfl⟩
    | cons o R =>
      rw [hl] at hb hlt
      have hb' : SRep (m.book.getTree .bid) (R.reverse ++ [o]) := by simpa [PRep, prio] using hb
      obtain ⟨x, h1, h2⟩ := hb'.findMax_concat
      refine ⟨some x, h1, ?_⟩
      have : m.book.bids.leafNodes[x]? = some ⟨o.id, o.qty⟩ := h2.leaf
      simp only [OrderBook.priceAt]
      rw [idx_eq this, ok_bind]
      simp only [LeafNode.price, priceFromKey_eq (hlt o (by simp)), List.head?_cons, Option.map_some, Order.price]
  have hask : ∃ x, m.book.asks.findMin = .ok x ∧
      OrderBook.priceAt m.book.asks x = .ok ((a.orders .ask).head?.map Order.price) := by
    have hlt := lt hs
    cases hl : a.orders .ask with
    | nil =>
      rw [hl] at hs
      exact ⟨none, SRep.findMin_nil hs, rfl⟩
    | cons o R =>
      rw [hl] at hs hlt
      obtain ⟨x, h1, h2⟩ := SRep.findMin_cons hs
      refine ⟨some x, h1, ?_⟩
      have : m.book.asks.leafNodes[x]? = some ⟨o.id, o.qty⟩ := h2.leaf
      simp only [OrderBook.priceAt]
      rw [idx_eq this, ok_bind]
      simp only [LeafNode.price, priceFromKey_eq (hlt o (by simp)), List.head?_cons, Option.map_some, Order.price]
  obtain ⟨x, h1, h2⟩ := hbid
  obtain ⟨y, h3, h4⟩ := hask
  rw [h1, ok_bind, h2, ok_bind, h3, ok_bind, h4, ok_bind]

/-- C34: `get_spread` always answers; the bid reported is the highest resting bid price, the ask reported the
lowest resting ask price, and nothing is reported exactly for an empty side. -/
theorem C34_get_spread (h : Reachable m) :
    ∃ bid ask, m.book.getSpread = .ok (bid, ask) ∧
      (bid = none ↔ resting m .bid = []) ∧ (ask = none ↔ resting m .ask = []) ∧
      (∀ x, bid = some x → (∃ o ∈ resting m .bid, o.price = x) ∧ ∀ o ∈ resting m .bid, o.price ≤ x) ∧
      (∀ x, ask = some x → (∃ o ∈ resting m .ask, o.price = x) ∧ ∀ o ∈ resting m .ask, x ≤ o.price) := by
  refine ⟨_, _, C34_spread_heads h, ?_, ?_, ?_, ?_⟩
  · simp
  · simp
  · intro x hx
    have hr := C02_rank_is_price h .bid
    cases hl : resting m .bid with
    | nil => rw [hl] at hx; cases hx
    | cons o R =>
      rw [hl] at hx hr
      cases hx
      rw [List.pairwise_cons] at hr
      refine ⟨⟨o, by simp, rfl⟩, fun y hy => ?_⟩
      rcases List.mem_cons.1 hy with rfl | hy
      · exact le_refl _
      · exact hr.1 y hy
  · intro x hx
    have hr := C02_rank_is_price h .ask
    cases hl : resting m .ask with
    | nil => rw [hl] at hx; cases hx
    | cons o R =>
      rw [hl] at hx hr
      cases hx
      rw [List.pairwise_cons] at hr
      refine ⟨⟨o, by simp, rfl⟩, fun y hy => ?_⟩
      rcases List.mem_cons.1 hy with rfl | hy
      · exact le_refl _
      · exact hr.1 y hy

/-- `is_empty` says that no order rests. -/
theorem C37_is_empty (h : Reachable m) :
    m.book.isEmpty = true ↔ resting m .bid = [] ∧ resting m .ask = [] := by
  obtain ⟨a, ha⟩ := h.known
  have hb : m.book.bids.header.leafCount = _ := SRep.leafCount (ha.rep.tree .bid)
  have hs : m.book.asks.header.leafCount = _ := SRep.leafCount (ha.rep.tree .ask)
  unfold OrderBook.isEmpty
  rw [hb, hs, ha.rep.resting, ha.rep.resting, length_prio, length_prio]
  simp only [Bool.and_eq_true, beq_iff_eq, List.length_eq_zero_iff]
  tauto

/-! ### The hypotheses are met: the demo market -/

example : ∃ b ∈ resting demo .bid, ∃ s ∈ resting demo .ask, b.price < s.price := by decide +kernel

example : demo.book.getSpread = .ok (some (9 * 2 ^ 32), some (10 * 2 ^ 32)) := by decide +kernel

example := C01_never_crossed demo_reachable
example := C12_resting_valid demo_reachBy .bid
example := C34_get_spread demo_reachable

example := C12_parameters demo_reachBy
example := C34_spread_heads demo_reachable
/-- `C37_is_empty`: the book of the demo is not empty, and is once its six orders have been cancelled. -/
example : demo.book.isEmpty = false := by
  cases h : demo.book.isEmpty with
  | false => rfl
  | true => exact absurd ((C37_is_empty demo_reachable).1 h).1 (by decide +kernel)

end AOB
